import Verif.Spec.Interval
import Verif.Spec.Set
import Verif.Lemmas.CSet
import Verif.Model.Flt
import Verif.Model.IntVal
/-!
# C12–C16: accumulation, queries, merge/intersect, if_else, min/max — generic in the value type
-/
set_option linter.unusedSectionVars false
namespace Intervals.Props
open Intervals Intervals.Spec CppVal
variable {T : Type _} [CppVal T] [CppOrder T]

theorem assigned_of_proper {X : Ivl T} (h : Proper X) : X.assigned = true := by
  unfold Proper at h; unfold Ivl.assigned; grind

/-- The hull really is the smallest: every interval that contains all items contains the hull. -/
theorem hull_smallest {S : List (Ivl T)} {R Q : Ivl T} (h : IsHull S R)
    (hq : ∀ X ∈ S, le Q.lo X.lo = true ∧ le X.hi Q.hi = true) : le Q.lo R.lo = true ∧ le R.hi Q.hi = true := by
  obtain ⟨_, ⟨X, hX, eX⟩, ⟨Y, hY, eY⟩⟩ := h
  have h1 := hq X hX
  have h2 := hq Y hY
  grind
/-- every point of an item is a point of the hull -/
theorem hull_points {S : List (Ivl T)} {R : Ivl T} (h : IsHull S R) {X : Ivl T} (hX : X ∈ S) {v : T} (hv : v ∈ᵢ X) : v ∈ᵢ R := by
  have := h.1 X hX
  unfold Pt at *
  grind
/-- two hulls of the same items match -/
theorem hull_unique {S S' : List (Ivl T)} {R R' : Ivl T} (hS : ∀ X, X ∈ S ↔ X ∈ S') (h : IsHull S R) (h' : IsHull S' R') :
    R.matchesIvl R' = true := by
  have h1 := hull_smallest h (fun X hX => h'.1 X ((hS X).mp hX))
  have h2 := hull_smallest h' (fun X hX => h.1 X ((hS X).mpr hX))
  unfold Ivl.matchesIvl
  grind

private theorem hull_snoc {S : List (Ivl T)} {R X : Ivl T} (hR : Proper R) (hX : Proper X) (h : IsHull S R) :
    IsHull (S ++ [X]) (R.assignCore X.lo X.hi) ∧ Proper (R.assignCore X.lo X.hi) := by
  unfold Proper at *
  obtain ⟨h1, ⟨A, hA, eA⟩, ⟨B, hB, eB⟩⟩ := h
  unfold Ivl.assignCore
  refine ⟨⟨?_, ?_, ?_⟩, by simp only; grind⟩
  · intro Y hY
    rcases List.mem_append.mp hY with hY | hY
    · have := h1 Y hY; simp only; grind
    · simp only [List.mem_singleton] at hY; subst hY; simp only; grind
  · by_cases c : lt X.lo R.lo = true
    · exact ⟨X, by simp, by simp only; grind⟩
    · exact ⟨A, by simp [hA], by simp only; grind⟩
  · by_cases c : lt R.hi X.hi = true
    · exact ⟨X, by simp, by simp only; grind⟩
    · exact ⟨B, by simp [hB], by simp only; grind⟩

/-! ## C12 -/

section
variable [CppLimits T] [CppLawfulLimits T]

/-- what the accumulator looks like when the items `S` have been assigned -/
private def Acc (S : List (Ivl T)) (R : Ivl T) : Prop :=
  (S = [] → R = Ivl.unassigned) ∧ (S ≠ [] → Proper R ∧ IsHull S R)

theorem unassigned_assigned : (Ivl.unassigned : Ivl T).assigned = false := by
  have := CppLawfulLimits.bot_lt_top (T := T)
  unfold Ivl.unassigned Ivl.assigned
  simp only [CppVal.gt, this]; rfl

private theorem acc_step {S : List (Ivl T)} {R X : Ivl T} (hX : Proper X) (h : Acc S R) :
    Acc (S ++ [X]) (R.assignCore X.lo X.hi) := by
  refine ⟨fun e => absurd e (by simp), fun _ => ?_⟩
  by_cases hS : S = []
  · have e := h.1 hS
    subst hS; subst e
    unfold Proper at hX
    have t1 := CppLawfulLimits.le_top X.lo (cle_left hX)
    have t2 := CppLawfulLimits.bot_le X.hi (cle_right hX)
    unfold Ivl.assignCore Ivl.unassigned
    refine ⟨by unfold Proper; simp only; grind, ⟨?_, ⟨X, by simp, by simp only; grind⟩, ⟨X, by simp, by simp only; grind⟩⟩⟩
    intro Y hY
    simp only [List.nil_append, List.mem_singleton] at hY
    subst hY
    simp only; grind
  · obtain ⟨hp, hh⟩ := h.2 hS
    exact (hull_snoc hp hX hh).symm

private theorem acc_single {X : Ivl T} (hX : Proper X) : Acc [X] X := by
  unfold Proper at hX
  refine ⟨fun e => absurd e (by simp), fun _ => ⟨hX, ?_⟩⟩
  refine ⟨?_, ⟨X, by simp, by grind⟩, ⟨X, by simp, by grind⟩⟩
  intro Y hY; simp only [List.mem_singleton] at hY; subst hY; grind

private theorem history_aux (ops : List (IvlOp T)) : ∀ (S : List (Ivl T)) (x : Ivl T), Acc S x → (∀ op ∈ ops, op.proper) →
    ∃ R, runIvlOps ops x = .ok R ∧ Acc (live ops S) R := by
  induction ops with
  | nil => intro S x h _; exact ⟨x, rfl, h⟩
  | cons op ops ih =>
    intro S x h hp
    have hop := hp op (by simp)
    have hps : ∀ o ∈ ops, o.proper := fun o ho => hp o (by simp [ho])
    cases op with
    | reset => exact ih [] _ ⟨fun _ => rfl, fun e => absurd rfl e⟩ hps
    | resetVal v =>
      have hv : Proper (⟨v, v⟩ : Ivl T) := hop
      exact ih [⟨v, v⟩] _ (acc_single hv) hps
    | resetIvl r => exact ih [r] _ (acc_single hop) hps
    | assignVal v =>
      have hv : Proper (⟨v, v⟩ : Ivl T) := hop
      exact ih (S ++ [⟨v, v⟩]) _ (acc_step hv h) hps
    | assign r =>
      obtain ⟨R, h1, h2⟩ := ih (S ++ [r]) _ (acc_step hop h) hps
      refine ⟨R, ?_, h2⟩
      simp only [runIvlOps, IvlOp.run, Ivl.assignPartial, Ivl.assign, assigned_of_proper hop, expects_true, ok_bind]
      exact h1

/-- C12: after any history of NaN-free calls on an unassigned interval, the interval is unassigned iff nothing was assigned since the
last reset, and otherwise is the smallest interval containing everything assigned since then. -/
theorem C12_history (ops : List (IvlOp T)) (hp : ∀ op ∈ ops, op.proper) :
    ∃ R, runIvlOps ops (Ivl.unassigned : Ivl T) = .ok R ∧
      (live ops [] = [] → R.assigned = false) ∧ (live ops [] ≠ [] → Proper R ∧ IsHull (live ops []) R) := by
  obtain ⟨R, h1, h2⟩ := history_aux ops [] Ivl.unassigned ⟨fun _ => rfl, fun e => absurd rfl e⟩ hp
  exact ⟨R, h1, fun e => by rw [h2.1 e]; exact unassigned_assigned, h2.2⟩

/-- C12: assigning the same items in another order gives a matching interval. -/
theorem C12_order (items items' : List (Ivl T)) (hperm : items.Perm items') (hne : items ≠ []) (hp : ∀ X ∈ items, Proper X) :
    ∃ R R', runIvlOps (items.map .assign) (Ivl.unassigned : Ivl T) = .ok R ∧
      runIvlOps (items'.map .assign) (Ivl.unassigned : Ivl T) = .ok R' ∧ R.matchesIvl R' = true := by
  have hl : ∀ (l acc : List (Ivl T)), live (l.map .assign) acc = acc ++ l := by
    intro l
    induction l with
    | nil => intro acc; simp [live]
    | cons a l ih => intro acc; simp [live, ih]
  have hp' : ∀ X ∈ items', Proper X := fun X hX => hp X (hperm.mem_iff.mpr hX)
  obtain ⟨R, h1, _, h2⟩ := C12_history (items.map .assign) (by
    intro op hop; obtain ⟨X, hX, rfl⟩ := List.mem_map.mp hop; exact hp X hX)
  obtain ⟨R', h1', _, h2'⟩ := C12_history (items'.map .assign) (by
    intro op hop; obtain ⟨X, hX, rfl⟩ := List.mem_map.mp hop; exact hp' X hX)
  rw [hl] at h2 h2'
  have hne' : items' ≠ [] := by rintro rfl; exact hne hperm.eq_nil
  exact ⟨R, R', h1, h1', hull_unique (fun X => by simpa using hperm.mem_iff) (h2 (by simpa using hne)).2 (h2' (by simpa using hne')).2⟩

/-- C12: assigning an unassigned interval is a contract violation, in every build mode. -/
theorem C12_assign_unassigned (x r : Ivl T) (h : r.assigned = false) :
    Ivl.assign x r = .error .contract ∧ Ivl.assignPartial x r = .error .contract := by
  simp [Ivl.assign, Ivl.assignPartial, h]

/-- C12: the free function `assign` refuses to overwrite an assigned interval and otherwise copies. -/
theorem C12_assign_once (x r : Ivl T) :
    Ivl.assignFree x r = if x.assigned then .error .contract else .ok r := by
  unfold Ivl.assignFree
  cases x.assigned <;> rfl
end

example : (∀ op ∈ ([.assignVal (i32 3), .reset, .assignVal (i32 5), .assign ⟨i32 7, i32 9⟩] : List (IvlOp (SInt 31))), op.proper) ∧
    runIvlOps [.assignVal (i32 3), .reset, .assignVal (i32 5), .assign ⟨i32 7, i32 9⟩] Ivl.unassigned = .ok ⟨i32 5, i32 9⟩ := by
  constructor
  · intro op h
    simp only [List.mem_cons, List.not_mem_nil, or_false] at h
    rcases h with rfl | rfl | rfl | rfl <;> simp [IvlOp.proper, NotNan, Proper, CppVal.le, i32]
  · decide

/-! ## C13 -/

/-- C13: the queries decide the corresponding relations between point sets. -/
theorem C13_contains_value (X : Ivl T) (v : T) : X.containsVal v = true ↔ v ∈ᵢ X := by
  unfold Ivl.containsVal Pt; simp
theorem C13_contains (X Y : Ivl T) (hX : Proper X) (hY : Proper Y) : X.contains Y = true ↔ ∀ v, v ∈ᵢ Y → v ∈ᵢ X := by
  unfold Ivl.contains Pt; rw [assigned_of_proper hX]; unfold Proper at *
  constructor
  · intro h v; grind
  · intro h; have h1 := h Y.lo; have h2 := h Y.hi; grind
theorem C13_matches (X Y : Ivl T) (hX : Proper X) (hY : Proper Y) :
    X.matchesIvl Y = true ↔ ∀ v, v ∈ᵢ X ↔ v ∈ᵢ Y := by
  unfold Ivl.matchesIvl Pt Proper at *
  constructor
  · intro h v; grind
  · intro h; have h1 := h X.lo; have h2 := h X.hi; have h3 := h Y.lo; have h4 := h Y.hi; grind
theorem C13_matches_value (X : Ivl T) (v : T) (hX : Proper X) :
    X.matchesVal v = true ↔ (v ∈ᵢ X ∧ ∀ w, w ∈ᵢ X → eq w v = true) := by
  unfold Ivl.matchesVal Pt Proper at *
  constructor
  · intro h; refine ⟨by grind, fun w hw => by grind⟩
  · rintro ⟨h, h'⟩; have h1 := h' X.lo; have h2 := h' X.hi; grind
theorem C13_encloses_value (X : Ivl T) (v : T) : X.enclosesVal v = true ↔ lt X.lo v = true ∧ lt v X.hi = true := by
  unfold Ivl.enclosesVal; simp
theorem C13_encloses (X Y : Ivl T) (hY : Proper Y) :
    X.encloses Y = true ↔ ∀ v, v ∈ᵢ Y → lt X.lo v = true ∧ lt v X.hi = true := by
  unfold Ivl.encloses Pt Proper at *
  constructor
  · intro h v; grind
  · intro h; have h1 := h Y.lo; have h2 := h Y.hi; grind
/-- `value()` returns the one point of a degenerate interval and fails fast otherwise. -/
theorem C13_value (X : Ivl T) (hX : Proper X) (v : T) :
    (X.value = .ok v → v ∈ᵢ X ∧ ∀ w, w ∈ᵢ X → eq w v = true) ∧
    (X.value = .error .contract ↔ ∃ a b, a ∈ᵢ X ∧ b ∈ᵢ X ∧ eq a b = false) ∧ X.value ≠ .error .ub := by
  unfold Ivl.value
  by_cases h : eq X.lo X.hi = true
  · simp only [h, if_true]
    refine ⟨?_, ?_, by simp⟩
    · intro e; cases e; unfold Pt Proper at *; refine ⟨by grind, fun w hw => by grind⟩
    · constructor
      · intro e; cases e
      · rintro ⟨a, b, ha, hb, hab⟩; unfold Pt at *; grind
  · rw [Bool.not_eq_true] at h
    simp only [h, Bool.false_eq_true, if_false]
    refine ⟨fun e => (by cases e), ?_, by simp⟩
    refine iff_of_true (by trivial) ?_
    unfold Pt Proper at *
    exact ⟨X.lo, X.hi, by grind, by grind, h⟩

/-- C13, overlap, full statement (false): for all intervals, including unassigned ones, `overlaps_with` says whether there is a common
point, and is symmetric. -/
def C13_overlaps_full (T : Type _) [CppVal T] : Prop :=
  ∀ X Y : Ivl T, (X.overlapsWith Y = true ↔ ∃ v, v ∈ᵢ X ∧ v ∈ᵢ Y) ∧ X.overlapsWith Y = Y.overlapsWith X

/-- C13 is violated by an unassigned argument: the full range overlaps with an unassigned interval, but not vice versa. -/
theorem C13_overlaps_violated : ¬ C13_overlaps_full (SInt 31) := by
  intro h
  have := (h ⟨CppLimits.bot, CppLimits.top⟩ Ivl.unassigned).2
  revert this; decide

/-- C13, overlap, partial: exact and symmetric whenever both intervals are assigned and NaN-free (missing: unassigned argument). -/
theorem C13_overlaps_partial (X Y : Ivl T) (hX : Proper X) (hY : Proper Y) :
    (X.overlapsWith Y = true ↔ ∃ v, v ∈ᵢ X ∧ v ∈ᵢ Y) ∧ X.overlapsWith Y = Y.overlapsWith X := by
  unfold Ivl.overlapsWith; rw [assigned_of_proper hX, assigned_of_proper hY]; unfold Pt Proper at *
  refine ⟨⟨fun h => ⟨cmax X.lo Y.lo, by grind⟩, ?_⟩, by grind⟩
  rintro ⟨v, h1, h2⟩; grind
/-- Exactly when `overlaps_with` fails: `Y` is unassigned and `X` contains both of its bounds. -/
theorem C13_overlaps_iff (X Y : Ivl T) (hX : Proper X ∨ X.assigned = false) (hY : Proper Y ∨ Y.assigned = false) :
    (X.overlapsWith Y = true ↔ ∃ v, v ∈ᵢ X ∧ v ∈ᵢ Y) ↔ ¬ (Y.assigned = false ∧ Y.hi ∈ᵢ X ∧ Y.lo ∈ᵢ X) := by
  have em : ∀ (Z : Ivl T) (v : T), Z.assigned = false → ¬ v ∈ᵢ Z := by
    intro Z v h; unfold Ivl.assigned at h; unfold Pt; grind
  rcases hX with hX | hX
  · rcases hY with hY | hY
    · have h1 := assigned_of_proper hY
      exact ⟨fun _ h => by simp [h1] at h, fun _ => (C13_overlaps_partial X Y hX hY).1⟩
    · have h1 := assigned_of_proper hX
      have h2 : ¬ ∃ v, v ∈ᵢ X ∧ v ∈ᵢ Y := fun ⟨v, _, h⟩ => em Y v hY h
      have h3 : X.overlapsWith Y = true ↔ Y.hi ∈ᵢ X ∧ Y.lo ∈ᵢ X := by
        unfold Ivl.overlapsWith Pt; rw [h1]; unfold Ivl.assigned at hY; grind
      rw [h3]; simp [h2, hY]
  · have h2 : ¬ ∃ v, v ∈ᵢ X ∧ v ∈ᵢ Y := fun ⟨v, h, _⟩ => em X v hX h
    have h3 : X.overlapsWith Y = false := by unfold Ivl.overlapsWith; simp [hX]
    have h4 : ¬ Y.hi ∈ᵢ X := em X _ hX
    simp [h2, h3, h4]
example : (⟨i32 1, i32 5⟩ : Ivl (SInt 31)).overlapsWith Ivl.unassigned = true ↔
    ∃ v, v ∈ᵢ (⟨i32 1, i32 5⟩ : Ivl (SInt 31)) ∧ v ∈ᵢ (Ivl.unassigned : Ivl (SInt 31)) :=
  (C13_overlaps_iff _ _ (.inl (by decide)) (.inr (by decide))).mpr (fun h => absurd h.2.1.1 (by decide))
example : (⟨i32 1, i32 5⟩ : Ivl (SInt 31)).overlapsWith ⟨i32 5, i32 8⟩ = true ∧
   (⟨i32 1, i32 5⟩ : Ivl (SInt 31)).overlapsWith ⟨i32 6, i32 8⟩ = false := by decide

/-! ## C14 -/

/-- two values that are below each other -/
private def ceqv (a b : T) : Prop := le a b = true ∧ le b a = true

private theorem hull_single {X : Ivl T} (hX : Proper X) : IsHull [X] X := by
  unfold Proper at hX
  refine ⟨?_, ⟨X, by simp, by grind⟩, ⟨X, by simp, by grind⟩⟩
  intro Y hY; simp only [List.mem_singleton] at hY; subst hY; grind

/-- C14: `merge` returns the smallest interval containing all its arguments. -/
theorem C14_merge (X : Ivl T) (args : List (Ivl T)) (hX : Proper X) (ha : ∀ A ∈ args, Proper A) :
    ∃ R, Ivl.merge X args = .ok R ∧ Proper R ∧ IsHull (X :: args) R := by
  have key : ∀ (l S : List (Ivl T)) (r : Ivl T), (∀ A ∈ l, Proper A) → Proper r → IsHull S r →
      ∃ R, Ivl.mergeLoop l r = .ok R ∧ Proper R ∧ IsHull (S ++ l) R := by
    intro l
    induction l with
    | nil => intro S r _ hr hh; exact ⟨r, rfl, hr, by simpa using hh⟩
    | cons a l ih =>
      intro S r hl hr hh
      have haP := hl a (by simp)
      obtain ⟨h1, h2⟩ := hull_snoc hr haP hh
      obtain ⟨R, e, hp, hH⟩ := ih (S ++ [a]) _ (fun A hA => hl A (by simp [hA])) h2 h1
      refine ⟨R, ?_, hp, by simpa using hH⟩
      simp only [Ivl.mergeLoop, Ivl.assign, assigned_of_proper haP, expects_true, ok_bind]
      exact e
  exact key args [X] X ha hX (hull_single hX)

/-- C14: merging with an unassigned argument is a contract violation. -/
theorem C14_merge_unassigned (X : Ivl T) (args : List (Ivl T)) (h : ∃ A ∈ args, A.assigned = false) :
    Ivl.merge X args = .error .contract := by
  have key : ∀ (l : List (Ivl T)) (r : Ivl T), (∃ A ∈ l, A.assigned = false) → Ivl.mergeLoop l r = .error .contract := by
    intro l
    induction l with
    | nil => rintro r ⟨A, hA, _⟩; simp at hA
    | cons a l ih =>
      rintro r ⟨A, hA, hu⟩
      unfold Ivl.mergeLoop Ivl.assign
      cases hc : a.assigned with
      | false => simp
      | true =>
        simp only [expects_true, ok_bind]
        apply ih
        rcases List.mem_cons.mp hA with rfl | hA
        · rw [hc] at hu; cases hu
        · exact ⟨A, hA, hu⟩
  exact key args X h

/-- C14, intersect, full statement (false): the result contains exactly the points common to all arguments. -/
def C14_intersect_full (T : Type _) [CppVal T] : Prop :=
  ∀ (X : Ivl T) (args : List (Ivl T)), Proper X → (∀ A ∈ args, Proper A) →
    ∃ R, Ivl.intersect X args = .ok R ∧ ∀ v, v ∈ᵢ R ↔ ∀ A ∈ X :: args, v ∈ᵢ A

/-- C14 is violated for disjoint arguments: `intersect([1,2],[4,5])` is `[2,4]`, which contains 3. -/
theorem C14_intersect_violated : ¬ C14_intersect_full (SInt 31) := by
  intro h
  obtain ⟨R, h1, h2⟩ := h ⟨i32 1, i32 2⟩ [⟨i32 4, i32 5⟩] (by decide) (by
    intro A hA; simp only [List.mem_singleton] at hA; subst hA; decide)
  have e : Ivl.intersect (⟨i32 1, i32 2⟩ : Ivl (SInt 31)) [⟨i32 4, i32 5⟩] = .ok ⟨i32 2, i32 4⟩ := by decide
  rw [e] at h1
  cases h1
  have := (h2 (i32 3)).mp (by decide) ⟨i32 1, i32 2⟩ (by simp)
  revert this; decide

/-- C14, intersect, partial: exact whenever the arguments have a common point (missing: disjoint and unassigned arguments). -/
theorem C14_intersect_partial (X : Ivl T) (args : List (Ivl T)) (h : ∃ v, ∀ A ∈ X :: args, v ∈ᵢ A) :
    ∃ R, Ivl.intersect X args = .ok R ∧ Proper R ∧ ∀ v, v ∈ᵢ R ↔ ∀ A ∈ X :: args, v ∈ᵢ A := by
  have key : ∀ (l : List (Ivl T)) (r : Ivl T), (∃ v, v ∈ᵢ r ∧ ∀ A ∈ l, v ∈ᵢ A) →
      ∃ R, Ivl.intersectLoop l r = .ok R ∧ Proper R ∧ ∀ v, v ∈ᵢ R ↔ (v ∈ᵢ r ∧ ∀ A ∈ l, v ∈ᵢ A) := by
    intro l
    induction l with
    | nil =>
      rintro r ⟨v, hv, _⟩
      exact ⟨r, rfl, by unfold Proper Pt at *; grind, fun v => by simp⟩
    | cons a l ih =>
      rintro r ⟨v, hv, hl⟩
      have ha := hl a (by simp)
      have hle : le (cmax r.lo a.lo) (cmin r.hi a.hi) = true := by unfold Pt at *; grind
      have hlo : cmin (cmax r.lo a.lo) (cmin r.hi a.hi) = cmax r.lo a.lo := by
        rw [show ∀ x y : T, cmin x y = if lt y x then y else x from fun _ _ => rfl, if_neg]; grind
      obtain ⟨R, e, hp, hR⟩ := ih ⟨cmax r.lo a.lo, cmax (cmax r.lo a.lo) (cmin r.hi a.hi)⟩
        ⟨v, by unfold Pt at *; simp only; grind, fun A hA => hl A (by simp [hA])⟩
      refine ⟨R, ?_, hp, fun w => ?_⟩
      · unfold Ivl.intersectLoop Ivl.narrowInterval Ivl.fromUnorderedBounds Ivl.make Ivl.resetIvl
        simp only
        rw [hlo]
        rw [show (!gt (cmax r.lo a.lo) (cmax (cmax r.lo a.lo) (cmin r.hi a.hi))) = true by grind]
        simp only [expects_true, ok_bind]
        exact e
      · rw [hR]
        simp only [List.mem_cons, forall_eq_or_imp]
        have : w ∈ᵢ ⟨cmax r.lo a.lo, cmax (cmax r.lo a.lo) (cmin r.hi a.hi)⟩ ↔ w ∈ᵢ r ∧ w ∈ᵢ a := by
          have e : ceqv (cmax (cmax r.lo a.lo) (cmin r.hi a.hi)) (cmin r.hi a.hi) := by unfold ceqv; grind
          unfold ceqv at e
          unfold Pt at hv ha ⊢; simp only
          clear hl hR
          constructor
          · rintro ⟨h1, h2⟩
            have h2 := cle_trans h2 e.1
            grind
          · rintro ⟨⟨h1, h2⟩, h3, h4⟩
            have : le w (cmin r.hi a.hi) = true := by grind
            exact ⟨by grind, cle_trans this e.2⟩
        rw [this, and_assoc]
  obtain ⟨v, hv⟩ := h
  obtain ⟨R, h1, h2, h3⟩ := key args X ⟨v, hv X (by simp), fun A hA => hv A (by simp [hA])⟩
  refine ⟨R, h1, h2, fun w => ?_⟩
  rw [h3]; simp

/-- C14: what the code returns for two disjoint NaN-free arguments: the gap between them (so the result is never unassigned). -/
theorem C14_intersect_gap (X Y : Ivl T) (hX : Proper X) (hY : Proper Y) (h : lt X.hi Y.lo = true) :
    Ivl.intersect X [Y] = .ok ⟨X.hi, Y.lo⟩ := by
  unfold Proper at *
  have e1 : cmax X.lo Y.lo = Y.lo := by rw [show ∀ x y : T, cmax x y = if lt x y then y else x from fun _ _ => rfl, if_pos]; grind
  have e2 : cmin X.hi Y.hi = X.hi := by rw [show ∀ x y : T, cmin x y = if lt y x then y else x from fun _ _ => rfl, if_neg]; grind
  have e3 : cmin Y.lo X.hi = X.hi := by rw [show ∀ x y : T, cmin x y = if lt y x then y else x from fun _ _ => rfl, if_pos h]
  have e4 : cmax Y.lo X.hi = Y.lo := by rw [show ∀ x y : T, cmax x y = if lt x y then y else x from fun _ _ => rfl, if_neg]; grind
  unfold Ivl.intersect Ivl.intersectLoop Ivl.narrowInterval Ivl.fromUnorderedBounds Ivl.make Ivl.resetIvl
  simp only [e1, e2, e3, e4]
  rw [show (!gt X.hi Y.lo) = true by grind]
  rfl

/-- `intersect` of assigned NaN-free arguments always succeeds with an assigned NaN-free result -/
theorem intersect_proper (X : Ivl T) (args : List (Ivl T)) (hX : Proper X) (ha : ∀ A ∈ args, Proper A) :
    ∃ R, Ivl.intersect X args = .ok R ∧ Proper R := by
  unfold Ivl.intersect
  induction args generalizing X with
  | nil => exact ⟨X, rfl, hX⟩
  | cons a l ih =>
    have hpa := ha a (by simp)
    have h1 : le (cmax X.lo a.lo) (cmax X.lo a.lo) = true := by unfold Proper at *; grind
    have h2 : le (cmin X.hi a.hi) (cmin X.hi a.hi) = true := by unfold Proper at *; grind
    obtain ⟨R, e, hR⟩ := ih ⟨cmin (cmax X.lo a.lo) (cmin X.hi a.hi), cmax (cmax X.lo a.lo) (cmin X.hi a.hi)⟩ (by
      unfold Proper; simp only
      generalize cmax X.lo a.lo = p at *
      generalize cmin X.hi a.hi = q at *
      grind) (fun A hA => ha A (by simp [hA]))
    refine ⟨R, ?_, hR⟩
    unfold Ivl.intersectLoop Ivl.narrowInterval Ivl.fromUnorderedBounds Ivl.make Ivl.resetIvl
    simp only
    rw [show (!gt (cmin (cmax X.lo a.lo) (cmin X.hi a.hi)) (cmax (cmax X.lo a.lo) (cmin X.hi a.hi))) = true by
      generalize cmax X.lo a.lo = p at *
      generalize cmin X.hi a.hi = q at *
      grind]
    simp only [expects_true, ok_bind]
    exact e

/-- C14, exactly: for any number of assigned NaN-free arguments, `intersect` returns their common points if and only if there is one; without a common point
it returns an interval with a point that some argument does not have. -/
theorem C14_intersect_iff (X : Ivl T) (args : List (Ivl T)) (hX : Proper X) (ha : ∀ A ∈ args, Proper A) :
    ((∃ R, Ivl.intersect X args = .ok R ∧ ∀ v, v ∈ᵢ R ↔ ∀ A ∈ X :: args, v ∈ᵢ A) ↔ ∃ v, ∀ A ∈ X :: args, v ∈ᵢ A) ∧
    ((¬ ∃ v, ∀ A ∈ X :: args, v ∈ᵢ A) → ∃ R, Ivl.intersect X args = .ok R ∧ ∃ v, v ∈ᵢ R ∧ ∃ A ∈ X :: args, ¬ v ∈ᵢ A) := by
  obtain ⟨R, e, hR⟩ := intersect_proper X args hX ha
  have hm : R.lo ∈ᵢ R := by unfold Proper at hR; unfold Pt; exact ⟨by grind, hR⟩
  refine ⟨⟨?_, fun h => ?_⟩, fun h => ⟨R, e, R.lo, hm, ?_⟩⟩
  · rintro ⟨R', e', h⟩
    rw [e] at e'; cases e'
    exact ⟨R.lo, (h _).mp hm⟩
  · obtain ⟨R, h1, -, h2⟩ := C14_intersect_partial X args h
    exact ⟨R, h1, h2⟩
  · by_contra hc
    push Not at hc
    exact h ⟨R.lo, hc⟩

example : Ivl.merge (⟨i32 1, i32 2⟩ : Ivl (SInt 31)) [⟨i32 4, i32 5⟩, ⟨i32 (-3), i32 0⟩] = .ok ⟨i32 (-3), i32 5⟩ ∧
    Ivl.intersect (⟨i32 1, i32 4⟩ : Ivl (SInt 31)) [⟨i32 2, i32 7⟩] = .ok ⟨i32 2, i32 4⟩ ∧
    Ivl.intersect (⟨i32 1, i32 2⟩ : Ivl (SInt 31)) [⟨i32 4, i32 5⟩, ⟨i32 6, i32 9⟩] = .ok ⟨i32 4, i32 6⟩ := by decide

/-! ## C15 -/

/-- The branches that the condition admits. -/
def branches (c : BoolSet) (t f : Ivl T) : List (Ivl T) :=
  (if BoolSet.contains c true then [t] else []) ++ (if BoolSet.contains c false then [f] else [])

/-- C15: `if_else` returns the smallest interval containing the admitted branches; it is unassigned for an empty condition.  Only
admitted branches need to be assigned. -/
theorem C15_if_else [CppLimits T] [CppLawfulLimits T] (c : BoolSet) (t f : Ivl T)
    (ht : BoolSet.contains c true = true → Proper t) (hf : BoolSet.contains c false = true → Proper f) :
    ∃ R, Ivl.ifElse c t f = .ok R ∧ (branches c t f = [] → R.assigned = false) ∧
      (branches c t f ≠ [] → Proper R ∧ IsHull (branches c t f) R) := by
  have e : Ivl.ifElse c t f = runIvlOps ((branches c t f).map .assign) (Ivl.unassigned : Ivl T) := by
    unfold Ivl.ifElse branches BoolSet.possibly BoolSet.possiblyNot
    cases h1 : BoolSet.contains c true <;> cases h2 : BoolSet.contains c false <;>
      simp [runIvlOps, IvlOp.run, Ivl.assignPartial, pure, Except.pure, bind, Except.bind]
  have hp : ∀ op ∈ (branches c t f).map IvlOp.assign, op.proper := by
    intro op hop
    obtain ⟨X, hX, rfl⟩ := List.mem_map.mp hop
    unfold branches at hX
    rcases List.mem_append.mp hX with hX | hX
    · split at hX
      · simp only [List.mem_singleton] at hX; subst hX; exact ht (by assumption)
      · simp at hX
    · split at hX
      · simp only [List.mem_singleton] at hX; subst hX; exact hf (by assumption)
      · simp at hX
  have hl : live ((branches c t f).map IvlOp.assign) [] = branches c t f := by
    have : ∀ (l acc : List (Ivl T)), live (l.map .assign) acc = acc ++ l := by
      intro l
      induction l with
      | nil => intro acc; simp [live]
      | cons a l ih => intro acc; simp [live, ih]
    simp [this]
  obtain ⟨R, h1, h2, h3⟩ := C12_history _ hp
  rw [hl] at h2 h3
  exact ⟨R, by rw [e]; exact h1, h2, h3⟩

/-- C15: pointwise form: every value the scalar conditional can take is in the result. -/
theorem C15_points [CppLimits T] [CppLawfulLimits T] (c : BoolSet) (t f : Ivl T) (b : Bool) (x y : T)
    (ht : BoolSet.contains c true = true → Proper t) (hf : BoolSet.contains c false = true → Proper f)
    (hb : BoolSet.contains c b = true) (hx : x ∈ᵢ t) (hy : y ∈ᵢ f) :
    ∃ R, Ivl.ifElse c t f = .ok R ∧ (if b then x else y) ∈ᵢ R := by
  obtain ⟨R, h1, h2, h3⟩ := C15_if_else c t f ht hf
  refine ⟨R, h1, ?_⟩
  cases b with
  | true =>
    have hm : t ∈ branches c t f := by unfold branches; simp [hb]
    exact hull_points (h3 (by rintro e; rw [e] at hm; simp at hm)).2 hm hx
  | false =>
    have hm : f ∈ branches c t f := by unfold branches; simp [hb]
    exact hull_points (h3 (by rintro e; rw [e] at hm; simp at hm)).2 hm hy

/-- C15: an admitted but unassigned branch is a contract violation. -/
theorem C15_unassigned_branch [CppLimits T] (c : BoolSet) (t f : Ivl T)
    (h : (BoolSet.contains c true = true ∧ t.assigned = false) ∨ (BoolSet.contains c false = true ∧ f.assigned = false)) :
    Ivl.ifElse c t f = .error .contract := by
  unfold Ivl.ifElse BoolSet.possibly BoolSet.possiblyNot Ivl.assign
  rcases h with ⟨h1, h2⟩ | ⟨h1, h2⟩
  · simp [h1, h2]
  · cases h3 : BoolSet.contains c true <;> cases h4 : t.assigned <;> simp [h1, h2, pure, Except.pure]

/-- C15: the overloads with scalar branches are the ones with degenerate intervals. -/
theorem C15_scalar_branches [CppLimits T] (c : BoolSet) (t f : T) (x : Ivl T) :
    Ivl.ifElseVV c t f = Ivl.ifElse c ⟨t, t⟩ ⟨f, f⟩ ∧ Ivl.ifElseVI c t x = Ivl.ifElse c ⟨t, t⟩ x ∧
      Ivl.ifElseIV c x f = Ivl.ifElse c x ⟨f, f⟩ := ⟨rfl, rfl, rfl⟩

/-- C15 for sets: `if_else` on sets is exactly the union of the admitted branches. -/
theorem C15_set {V : Type _} [DecidableEq V] {vals : List V} (dbg : Bool) (c : BoolSet) (t f : CSet vals)
    (ht : BoolSet.contains c true = true → ∃ v, SMem v t) (hf : BoolSet.contains c false = true → ∃ v, SMem v f) :
    ∃ R, CSet.ifElse dbg c t f = .ok R ∧
      ∀ v, SMem v R ↔ (BoolSet.contains c true = true ∧ SMem v t) ∨ (BoolSet.contains c false = true ∧ SMem v f) := by
  unfold CSet.ifElse BoolSet.possibly BoolSet.possiblyNot CSet.assignSet
  have g : ∀ {s : CSet vals}, (∃ v, SMem v s) → expectsDebug dbg (CSet.assigned s) = .ok () := by
    rintro s ⟨v, hv⟩; rw [assigned_of_SMem hv]; simp
  have z : ∀ v, ¬ SMem v (CSet.empty vals) := fun v => SMem_empty
  cases h1 : BoolSet.contains c true <;> cases h2 : BoolSet.contains c false
  · exact ⟨CSet.empty vals, rfl, fun v => by simp [z]⟩
  · simp only [h2, forall_const] at hf
    refine ⟨CSet.empty vals ||| f, by simp [g hf, pure, Except.pure], fun v => by rw [SMem_or]; simp [z]⟩
  · simp only [h1, forall_const] at ht
    refine ⟨CSet.empty vals ||| t, by simp [g ht, pure, Except.pure], fun v => by rw [SMem_or]; simp [z]⟩
  · simp only [h1, h2, forall_const] at ht hf
    refine ⟨(CSet.empty vals ||| t) ||| f, by simp [g ht, g hf, pure, Except.pure], fun v => by rw [SMem_or, SMem_or]; simp [z]⟩

example : Ivl.ifElse BoolSet.both (⟨i32 1, i32 2⟩ : Ivl (SInt 31)) ⟨i32 5, i32 6⟩ = .ok ⟨i32 1, i32 6⟩ ∧
    Ivl.ifElse (BoolSet.single true) (⟨i32 1, i32 2⟩ : Ivl (SInt 31)) Ivl.unassigned = .ok ⟨i32 1, i32 2⟩ := by decide

/-! ## C16 -/

private theorem properA_le' {A : Arg T} (h : ProperA A) : le A.lo A.hi = true := by cases A <;> exact h
private theorem ptA_iff' {A : Arg T} {v : T} : v ∈ₐ A ↔ le A.lo v = true ∧ le v A.hi = true := by cases A <;> exact Iff.rfl
private theorem guard_ok' {A B : Arg T} (dbg : Bool) (hA : ProperA A) (hB : ProperA B) :
    expectsDebug dbg (A.assigned && B.assigned) = .ok () := by
  have h : ∀ {A : Arg T}, ProperA A → A.assigned = true := by
    intro A h; cases A with
    | scalar v => rfl
    | ivl X => exact assigned_of_proper h
  rw [h hA, h hB]; simp

/-- C16: `min(A,B)` contains exactly the minima of points. -/
theorem C16_min (dbg : Bool) (A B : Arg T) (hA : ProperA A) (hB : ProperA B) :
    ∃ R, minI dbg A B = .ok R ∧ Proper R ∧ ∀ v, v ∈ᵢ R ↔ ∃ a b, a ∈ₐ A ∧ b ∈ₐ B ∧ v = cmin a b := by
  have ha := properA_le' hA
  have hb := properA_le' hB
  refine ⟨⟨cmin A.lo B.lo, cmin A.hi B.hi⟩, ?_, by unfold Proper; simp only; grind, fun v => ?_⟩
  · unfold minI Ivl.make
    rw [guard_ok' dbg hA hB, show (!gt (cmin A.lo B.lo) (cmin A.hi B.hi)) = true by grind]
    rfl
  · simp only [ptA_iff', Pt]
    constructor
    · rintro ⟨h1, h2⟩
      by_cases c : le A.lo v = true
      · exact ⟨v, B.hi, by grind, by grind, by grind⟩
      · by_cases c2 : lt v A.hi = true
        · exact ⟨A.hi, v, by grind, by grind, by grind⟩
        · exact ⟨v, B.hi, by grind, by grind, by grind⟩
    · rintro ⟨a, b, h1, h2, rfl⟩; grind

/-- C16: `max(A,B)` contains exactly the maxima of points. -/
theorem C16_max (dbg : Bool) (A B : Arg T) (hA : ProperA A) (hB : ProperA B) :
    ∃ R, maxI dbg A B = .ok R ∧ Proper R ∧ ∀ v, v ∈ᵢ R ↔ ∃ a b, a ∈ₐ A ∧ b ∈ₐ B ∧ v = cmax a b := by
  have ha := properA_le' hA
  have hb := properA_le' hB
  refine ⟨⟨cmax A.lo B.lo, cmax A.hi B.hi⟩, ?_, by unfold Proper; simp only; grind, fun v => ?_⟩
  · unfold maxI Ivl.make
    rw [guard_ok' dbg hA hB, show (!gt (cmax A.lo B.lo) (cmax A.hi B.hi)) = true by grind]
    rfl
  · simp only [ptA_iff', Pt]
    constructor
    · rintro ⟨h1, h2⟩
      by_cases c : le v A.hi = true
      · exact ⟨v, B.lo, by grind, by grind, by grind⟩
      · by_cases c2 : lt A.lo v = true
        · exact ⟨A.lo, v, by grind, by grind, by grind⟩
        · exact ⟨v, B.lo, by grind, by grind, by grind⟩
    · rintro ⟨a, b, h1, h2, rfl⟩; grind

/-- C16: `cmin`, `cmax` are the scalar `min`/`max`: one of the arguments, and below (above) both. -/
theorem C16_scalar (a b : T) (ha : NotNan a) (hb : NotNan b) :
    (cmin a b = a ∨ cmin a b = b) ∧ le (cmin a b) a = true ∧ le (cmin a b) b = true ∧
    (cmax a b = a ∨ cmax a b = b) ∧ le a (cmax a b) = true ∧ le b (cmax a b) = true := by
  unfold NotNan at *
  refine ⟨cmin_cases a b, ?_, ?_, cmax_cases a b, ?_, ?_⟩ <;> grind

example : minI true (.ivl ⟨i32 1, i32 9⟩) (.ivl (⟨i32 3, i32 4⟩ : Ivl (SInt 31))) = .ok ⟨i32 1, i32 4⟩ := by decide

end Intervals.Props
