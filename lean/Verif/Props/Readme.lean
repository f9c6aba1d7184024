import Verif.Model.Readme
import Verif.Props.Programs
import Verif.Props.Compare
import Verif.Props.Invalid
import Mathlib.Tactic.ByContra
/-!
# C99: why comparisons are set-valued
-/
set_option linter.unusedSectionVars false
namespace Intervals.Props
open Intervals Intervals.Spec CppVal
variable {T : Type} [CppVal T] [CppOrder T]

/-- some points compare to true and some to false -/
def Ambig (op : T → T → Bool) (A B : Ivl T) : Prop := (∃ a b, a ∈ᵢ A ∧ b ∈ᵢ B ∧ op a b = true) ∧ ∃ a b, a ∈ᵢ A ∧ b ∈ᵢ B ∧ op a b = false
/-- the smaller one is a point of `R`, for all points of `A` and `B` -/
def EnclosesMin (A B R : Ivl T) : Prop := ∀ a b, a ∈ᵢ A → b ∈ᵢ B → (le a b = true → a ∈ᵢ R) ∧ (le b a = true → b ∈ᵢ R)

/-- C99, README.md:263–273: with "possibly" or "certainly" semantics each of the identities `A ≠ B ⇔ ¬(A = B)`, `A < B ⇔ ¬(A ≥ B)`, `A = B ⇔ ¬(A < B ∨ A > B)`
holds for two intervals if and only if all their points compare alike. -/
theorem C99_identities (dbg : Bool) (A B : Ivl T) (hA : Proper A) (hB : Proper B) :
    ∃ eqR neR ltR gtR geR, opEq dbg (.ivl A) (.ivl B) = .ok eqR ∧ opNe dbg (.ivl A) (.ivl B) = .ok neR ∧ opLt dbg (.ivl A) (.ivl B) = .ok ltR ∧
      opGt dbg (.ivl A) (.ivl B) = .ok gtR ∧ opGe dbg (.ivl A) (.ivl B) = .ok geR ∧
      ((BoolSet.possibly neR = !BoolSet.possibly eqR) ↔ ¬ Ambig eq A B) ∧
      ((BoolSet.always neR = !BoolSet.always eqR) ↔ ¬ Ambig eq A B) ∧
      ((BoolSet.possibly ltR = !BoolSet.possibly geR) ↔ ¬ Ambig lt A B) ∧
      ((BoolSet.always ltR = !BoolSet.always geR) ↔ ¬ Ambig lt A B) ∧
      ((BoolSet.possibly eqR = !(BoolSet.possibly ltR || BoolSet.possibly gtR)) ↔ ¬ Ambig eq A B) ∧
      ((BoolSet.always eqR = !(BoolSet.always ltR || BoolSet.always gtR)) ↔ ¬ Ambig eq A B) := by
  have pA : ProperA (Arg.ivl A) := hA
  have pB : ProperA (Arg.ivl B) := hB
  obtain ⟨eqR, e1, e2⟩ := C09_eq dbg _ _ pA pB
  obtain ⟨neR, n1, n2⟩ := C09_ne dbg _ _ pA pB
  obtain ⟨ltR, l1, l2⟩ := C09_lt dbg _ _ pA pB
  obtain ⟨gtR, g1, g2⟩ := C09_gt dbg _ _ pA pB
  obtain ⟨geR, k1, k2⟩ := C09_ge dbg _ _ pA pB
  refine ⟨eqR, neR, ltR, gtR, geR, e1, n1, l1, g1, k1, ?_⟩
  have x : ∀ {op : T → T → Bool} {R : BoolSet} (r : Bool), ExactCmp op (.ivl A) (.ivl B) R →
      (BoolSet.contains R r = true ↔ ∃ a b, a ∈ᵢ A ∧ b ∈ᵢ B ∧ op a b = r) := fun r h => h r
  have q1 := x true e2; have q2 := x false e2
  have q3 := x true n2; have q4 := x false n2
  have q5 := x true l2; have q6 := x false l2
  have q7 := x true g2; have q8 := x false g2
  have q9 := x true k2; have q10 := x false k2
  have f1 : (∃ a b, a ∈ᵢ A ∧ b ∈ᵢ B ∧ ne a b = true) ↔ ∃ a b, a ∈ᵢ A ∧ b ∈ᵢ B ∧ eq a b = false := by simp only [CppVal.ne, Bool.not_eq_true']
  have f2 : (∃ a b, a ∈ᵢ A ∧ b ∈ᵢ B ∧ ne a b = false) ↔ ∃ a b, a ∈ᵢ A ∧ b ∈ᵢ B ∧ eq a b = true := by simp only [CppVal.ne, Bool.not_eq_false']
  have gl : ∀ a b, a ∈ᵢ A → b ∈ᵢ B → ge a b = !lt a b := by
    intro a b h1 h2; unfold Pt at h1 h2; rw [Bool.eq_iff_iff]; simp only [CppVal.ge, Bool.not_eq_true']; grind
  have f3 : (∃ a b, a ∈ᵢ A ∧ b ∈ᵢ B ∧ ge a b = true) ↔ ∃ a b, a ∈ᵢ A ∧ b ∈ᵢ B ∧ lt a b = false := by
    constructor <;> rintro ⟨a, b, h1, h2, h3⟩ <;> refine ⟨a, b, h1, h2, ?_⟩ <;> have := gl a b h1 h2 <;> simp_all
  have f4 : (∃ a b, a ∈ᵢ A ∧ b ∈ᵢ B ∧ ge a b = false) ↔ ∃ a b, a ∈ᵢ A ∧ b ∈ᵢ B ∧ lt a b = true := by
    constructor <;> rintro ⟨a, b, h1, h2, h3⟩ <;> refine ⟨a, b, h1, h2, ?_⟩ <;> have := gl a b h1 h2 <;> simp_all
  have ma : A.lo ∈ᵢ A := by unfold Pt; unfold Proper at hA; grind
  have mb : B.lo ∈ᵢ B := by unfold Pt; unfold Proper at hB; grind
  have f5 : (∃ a b, a ∈ᵢ A ∧ b ∈ᵢ B ∧ eq a b = false) ↔ (∃ a b, a ∈ᵢ A ∧ b ∈ᵢ B ∧ lt a b = true) ∨ ∃ a b, a ∈ᵢ A ∧ b ∈ᵢ B ∧ gt a b = true := by
    constructor
    · rintro ⟨a, b, h1, h2, h3⟩
      cases h : lt a b with
      | true => exact Or.inl ⟨a, b, h1, h2, h⟩
      | false => exact Or.inr ⟨a, b, h1, h2, by unfold Pt at h1 h2; simp only [CppVal.gt]; grind⟩
    · rintro (⟨a, b, h1, h2, h3⟩ | ⟨a, b, h1, h2, h3⟩)
      · exact ⟨a, b, h1, h2, by unfold Pt at h1 h2; grind⟩
      · exact ⟨a, b, h1, h2, by unfold Pt at h1 h2; simp only [CppVal.gt] at h3; grind⟩
  have f6 : (∃ a b, a ∈ᵢ A ∧ b ∈ᵢ B ∧ eq a b = true) ↔ (∃ a b, a ∈ᵢ A ∧ b ∈ᵢ B ∧ lt a b = false) ∧ ∃ a b, a ∈ᵢ A ∧ b ∈ᵢ B ∧ gt a b = false := by
    constructor
    · rintro ⟨a, b, h1, h2, h3⟩
      exact ⟨⟨a, b, h1, h2, by unfold Pt at h1 h2; grind⟩, ⟨a, b, h1, h2, by unfold Pt at h1 h2; simp only [CppVal.gt]; grind⟩⟩
    · rintro ⟨⟨a, b, h1, h2, h3⟩, ⟨a', b', h1', h2', h3'⟩⟩
      unfold Pt Proper at *
      simp only [CppVal.gt] at h3'
      by_cases h : le A.lo B.lo = true
      · exact ⟨B.lo, B.lo, by grind, by grind, by grind⟩
      · exact ⟨A.lo, A.lo, by grind, by grind, by grind⟩
  have s1 : (∃ a b, a ∈ᵢ A ∧ b ∈ᵢ B ∧ eq a b = true) ∨ (∃ a b, a ∈ᵢ A ∧ b ∈ᵢ B ∧ eq a b = false) := by
    cases h : eq A.lo B.lo with
    | true => exact Or.inl ⟨_, _, ma, mb, h⟩
    | false => exact Or.inr ⟨_, _, ma, mb, h⟩
  have s2 : (∃ a b, a ∈ᵢ A ∧ b ∈ᵢ B ∧ lt a b = true) ∨ (∃ a b, a ∈ᵢ A ∧ b ∈ᵢ B ∧ lt a b = false) := by
    cases h : lt A.lo B.lo with
    | true => exact Or.inl ⟨_, _, ma, mb, h⟩
    | false => exact Or.inr ⟨_, _, ma, mb, h⟩
  simp only [Ambig, BoolSet.possibly, BoolSet.always]
  rw [f1] at q3; rw [f2] at q4; rw [f3] at q9; rw [f4] at q10
  clear x gl ma mb e1 e2 n1 n2 l1 l2 g1 g2 k1 k2 f1 f2 f3 f4
  rw [← q2, ← q5, ← q7] at f5
  rw [← q1, ← q6, ← q8] at f6
  rw [← q1, ← q2] at s1
  rw [← q5, ← q6] at s2
  rw [← q2] at q3
  rw [← q1] at q4
  rw [← q6] at q9
  rw [← q5] at q10
  rw [← q1, ← q2, ← q5, ← q6]
  clear q1 q2 q5 q6 q7 q8
  generalize BoolSet.contains eqR true = b1 at *
  generalize BoolSet.contains eqR false = b2 at *
  generalize BoolSet.contains neR true = b3 at *
  generalize BoolSet.contains neR false = b4 at *
  generalize BoolSet.contains ltR true = b5 at *
  generalize BoolSet.contains ltR false = b6 at *
  generalize BoolSet.contains gtR true = b7 at *
  generalize BoolSet.contains gtR false = b8 at *
  generalize BoolSet.contains geR true = b9 at *
  generalize BoolSet.contains geR false = b10 at *
  obtain rfl := Bool.eq_iff_iff.mpr q3
  obtain rfl := Bool.eq_iff_iff.mpr q4
  obtain rfl := Bool.eq_iff_iff.mpr q9
  obtain rfl := Bool.eq_iff_iff.mpr q10
  clear q3 q4 q9 q10
  cases b4 <;> cases b3 <;> cases b10 <;> cases b9 <;> cases b7 <;> cases b8 <;>
    first | exact absurd f5 (by decide) | exact absurd f6 (by decide) | exact absurd s1 (by decide) | exact absurd s2 (by decide) | decide

/-- C99, README.md:303–328: with "possibly" semantics the first `max` encloses the maxima if and only if the second argument reaches as far as the first one or
lies below it. -/
theorem C99_max_possibly (sem : Ivl T → Ivl T → Bool) (a b : Ivl T) (ha : Proper a) (hb : Proper b)
    (hs : sem a b = true ↔ ∃ u v, u ∈ᵢ a ∧ v ∈ᵢ b ∧ lt u v = true) :
    EnclosesMax a b (maxTwoValued sem a b) ↔ le a.hi b.hi = true ∨ ∀ u v, u ∈ᵢ a → v ∈ᵢ b → le v u = true := by
  have m1 : a.lo ∈ᵢ a ∧ a.hi ∈ᵢ a := by unfold Pt; unfold Proper at ha; grind
  have m2 : b.lo ∈ᵢ b ∧ b.hi ∈ᵢ b := by unfold Pt; unfold Proper at hb; grind
  unfold maxTwoValued EnclosesMax
  cases h : sem a b with
  | true =>
    obtain ⟨u, v, hu, hv, huv⟩ := hs.mp h
    simp only [if_true]
    constructor
    · intro H
      left
      by_contra hc
      have := (H a.hi b.hi m1.2 m2.2).1 (by unfold Pt Proper at *; grind)
      unfold Pt at this; exact hc this.2
    · rintro (hc | hc)
      · intro x y hx hy
        unfold Pt Proper at *
        refine ⟨fun hh => ⟨by grind, by grind⟩, fun _ => hy⟩
      · have := hc u v hu hv; grind
  | false =>
    have hn : ∀ u v, u ∈ᵢ a → v ∈ᵢ b → le v u = true := by
      intro u v hu hv
      by_contra hc
      have : sem a b = true := hs.mpr ⟨u, v, hu, hv, by unfold Pt at hu hv; grind⟩
      rw [h] at this; cases this
    simp only [Bool.false_eq_true, if_false]
    refine ⟨fun _ => Or.inr hn, fun _ x y hx hy => ⟨fun _ => hx, fun hh => ?_⟩⟩
    have := hn x y hx hy
    unfold Pt at *; grind

/-- C99: with "certainly" semantics, if and only if the first argument reaches as far as the second one or lies below it. -/
theorem C99_max_certainly (sem : Ivl T → Ivl T → Bool) (a b : Ivl T) (ha : Proper a) (hb : Proper b)
    (hs : sem a b = true ↔ ∀ u v, u ∈ᵢ a → v ∈ᵢ b → lt u v = true) :
    EnclosesMax a b (maxTwoValued sem a b) ↔ le b.hi a.hi = true ∨ ∀ u v, u ∈ᵢ a → v ∈ᵢ b → lt u v = true := by
  have m1 : a.lo ∈ᵢ a ∧ a.hi ∈ᵢ a := by unfold Pt; unfold Proper at ha; grind
  have m2 : b.lo ∈ᵢ b ∧ b.hi ∈ᵢ b := by unfold Pt; unfold Proper at hb; grind
  unfold maxTwoValued EnclosesMax
  cases h : sem a b with
  | true =>
    have hn := hs.mp h
    simp only [if_true]
    refine ⟨fun _ => Or.inr hn, fun _ x y hx hy => ⟨fun hh => ?_, fun _ => hy⟩⟩
    have := hn x y hx hy
    grind
  | false =>
    have hn : ¬ ∀ u v, u ∈ᵢ a → v ∈ᵢ b → lt u v = true := fun hc => by rw [hs.mpr hc] at h; cases h
    simp only [Bool.false_eq_true, if_false]
    constructor
    · intro H
      left
      by_contra hc
      have := (H a.hi b.hi m1.2 m2.2).2 (by unfold Pt Proper at *; grind)
      unfold Pt at this; exact hc this.2
    · rintro (hc | hc)
      · intro x y hx hy
        unfold Pt Proper at *
        refine ⟨fun _ => hx, fun hh => ⟨by grind, by grind⟩⟩
      · exact absurd hc hn

/-- C99: no two-valued comparison does: whatever truth value is chosen for `a < b` if `a` lies inside `b`, the maximum or the minimum is wrong. -/
theorem C99_no_two_valued (sem : Ivl T → Ivl T → Bool) (a b : Ivl T) (ha : Proper a) (h1 : lt b.lo a.lo = true) (h2 : lt a.hi b.hi = true) :
    ¬ (EnclosesMax a b (maxTwoValued sem a b) ∧ EnclosesMin a b (minTwoValued sem a b)) := by
  unfold Proper at ha
  rintro ⟨H1, H2⟩
  unfold maxTwoValued EnclosesMax at H1
  unfold minTwoValued EnclosesMin at H2
  have m1 : a.lo ∈ᵢ a ∧ a.hi ∈ᵢ a := by unfold Pt; grind
  have m2 : b.lo ∈ᵢ b ∧ b.hi ∈ᵢ b := by unfold Pt; grind
  cases h : sem a b with
  | true =>
    rw [h] at H2
    have := (H2 a.lo b.lo m1.1 m2.1).2 (by grind)
    simp only [if_true] at this
    unfold Pt at this; grind
  | false =>
    rw [h] at H1
    have := (H1 a.hi b.hi m1.2 m2.2).2 (by grind)
    simp only [Bool.false_eq_true, if_false] at this
    unfold Pt at this; grind

section programs
variable [CppLimits T] [CppLawfulLimits T] [CppStep T]

private theorem readme_cond (dbg d : Bool) (a b : Ivl T) (ha : Proper a) (hb : Proper b) :
    ∃ c nc, condLt dbg (.ident d 0 a) (.ident d 1 b) = .ok c ∧ Cond.mkNot dbg c = .ok nc ∧
      BoolSet.possibly c.truth = lt a.lo b.hi ∧ BoolSet.possibly nc.truth = le b.lo a.hi := by
  have pa : ProperA (Arg.ivl a) := ha
  have pb : ProperA (Arg.ivl b) := hb
  have a1 : (Operand.ident d 0 a).arg.assigned = true := properA_assigned pa
  have b1 : (Operand.ident d 1 b).arg.assigned = true := properA_assigned pb
  have hc : condLt dbg (.ident d 0 a) (.ident d 1 b) = .ok (.less (compareLt (.ivl a) (.ivl b)) (.ident d 0 a) (.ident d 1 b)) := by
    simp only [condLt, opLt, a1, b1, Bool.and_self, expectsDebug_true, ok_bind, pure, Except.pure]; rfl
  have hne : compareLt (.ivl a) (.ivl b) ≠ BoolSet.empty := WF.truth_ne (c := .less _ (.ident d 0 a) (.ident d 1 b)) ⟨pa, pb, rfl⟩
  have hnot : Cond.mkNot dbg (.less (compareLt (.ivl a) (.ivl b)) (.ident d 0 a) (.ident d 1 b)) =
      .ok (.leq (compareLeq (.ivl b) (.ivl a)) (.ident d 1 b) (.ident d 0 a)) := by
    simp only [Cond.mkNot, notM_ok hne, ok_bind, pure, Except.pure, not_compareLt pa pb]
  refine ⟨_, _, hc, hnot, ?_, ?_⟩
  · simp only [Cond.truth, BoolSet.possibly]; rw [contains_lt]; simp [ivl_lo, ivl_hi]
  · simp only [Cond.truth, BoolSet.possibly]; rw [contains_leq]; simp [ivl_lo, ivl_hi]

private theorem ambig_lt {a b : Ivl T} (ha : Proper a) (hb : Proper b) : Ambig lt a b ↔ lt a.lo b.hi = true ∧ le b.lo a.hi = true := by
  unfold Ambig Pt
  unfold Proper at ha hb
  constructor
  · rintro ⟨⟨u, v, hu, hv, h⟩, u', v', hu', hv', h'⟩
    constructor <;> grind
  · rintro ⟨h1, h2⟩
    exact ⟨⟨a.lo, b.hi, by grind, by grind, h1⟩, ⟨a.hi, b.lo, by grind, by grind, by grind⟩⟩

/-- C99, README.md:385–430: with projections but plain assignments, the second assignment overwrites the first one: the result encloses the maxima if and only if the
first argument reaches as far as the second one or lies below it. -/
theorem C99_overwrite (dbg d : Bool) (a b : Ivl T) (ha : Proper a) (hb : Proper b) :
    ∃ R, maxPlain dbg d a b = .ok R ∧ (EnclosesMax a b R ↔ le b.hi a.hi = true ∨ ∀ u v, u ∈ᵢ a → v ∈ᵢ b → lt u v = true) := by
  obtain ⟨c, nc, h1, h2, h3, h4⟩ := readme_cond dbg d a b ha hb
  let sem : Ivl T → Ivl T → Bool := fun a b => !le b.lo a.hi
  have hs : sem a b = true ↔ ∀ u v, u ∈ᵢ a → v ∈ᵢ b → lt u v = true := by
    unfold Proper at ha hb
    simp only [sem, Bool.not_eq_true']
    unfold Pt
    constructor
    · intro h u v hu hv; grind
    · intro h; have := h a.hi b.lo (by grind) (by grind); grind
  refine ⟨maxTwoValued sem a b, ?_, C99_max_certainly sem a b ha hb hs⟩
  simp only [maxPlain, h1, h2, h3, h4, ok_bind, pure, Except.pure, maxTwoValued, sem]
  unfold Proper at ha hb
  by_cases h5 : le b.lo a.hi = true
  · simp [h5]
  · have : lt a.lo b.hi = true := by grind
    simp [this, h5]

/-- C99, README.md:433–465: `max2`, which accumulates with `assign_partial`, encloses the maxima, and its upper bound is exact; the lower bound is the smaller lower
bound of the arguments if the comparison is ambiguous and the larger one otherwise; so the result is exact if and only if the comparison is not ambiguous or the
lower bounds agree. -/
theorem C99_max2 (dbg d : Bool) (a b : Ivl T) (ha : Proper a) (hb : Proper b) :
    ∃ R, max2 dbg d a b = .ok R ∧ EnclosesMax a b R ∧ eq R.hi (cmax a.hi b.hi) = true ∧
      (Ambig lt a b → eq R.lo (cmin a.lo b.lo) = true) ∧ (¬ Ambig lt a b → eq R.lo (cmax a.lo b.lo) = true) ∧
      (ExactMax a b R ↔ ¬ Ambig lt a b ∨ eq a.lo b.lo = true) := by
  obtain ⟨c, nc, h1, h2, h3, h4⟩ := readme_cond dbg d a b ha hb
  have am := ambig_lt ha hb
  have key : ∃ R, max2 dbg d a b = .ok R ∧ eq R.hi (cmax a.hi b.hi) = true ∧
      (Ambig lt a b → eq R.lo (cmin a.lo b.lo) = true) ∧ (¬ Ambig lt a b → eq R.lo (cmax a.lo b.lo) = true) := by
    simp only [max2, h1, h2, h3, h4, ok_bind]
    obtain ⟨A, g1, g2, g3⟩ := assign_first ha
    obtain ⟨B, k1, k2, k3⟩ := assign_first hb
    have g4 := assign_next (x := B) ha
    unfold Proper at ha hb
    clear h1 h2 h3 h4
    rw [am]
    cases h1 : lt a.lo b.hi with
    | false =>
      cases h2 : le b.lo a.hi with
      | false => exfalso; grind
      | true =>
        simp only [Bool.false_eq_true, if_false, if_true, ok_bind, g1, pure, Except.pure]
        exact ⟨A, rfl, by clear g4; grind, by simp, fun _ => by clear g4; grind⟩
    | true =>
      cases h2 : le b.lo a.hi with
      | false =>
        simp only [Bool.false_eq_true, if_false, if_true, ok_bind, k1, pure, Except.pure]
        exact ⟨B, rfl, by clear g4; grind, by simp, fun _ => by clear g4; grind⟩
      | true =>
        simp only [if_true, ok_bind, k1, g4, pure, Except.pure]
        exact ⟨_, rfl, by clear g4 k1 g1; dsimp only; grind, fun _ => by clear g4 k1 g1; dsimp only; grind, by simp⟩
  obtain ⟨R, e1, e2, e3, e4⟩ := key
  refine ⟨R, e1, ?_, e2, e3, e4, ?_⟩
  · unfold EnclosesMax Pt
    unfold Proper at ha hb
    rw [am] at e3 e4
    clear e1 h1 h2 h3 h4
    intro x y hx hy
    by_cases hc : lt a.lo b.hi = true ∧ le b.lo a.hi = true
    · have := e3 hc; constructor <;> intro _ <;> constructor <;> grind
    · have := e4 hc; constructor <;> intro _ <;> constructor <;> grind
  · constructor
    · intro H
      by_contra hc
      have h5 : Ambig lt a b := by by_contra h; exact hc (Or.inl h)
      have h6 := e3 h5
      unfold Proper at ha hb
      obtain ⟨u, v, hu, hv, h⟩ := (H R.lo).mp (by unfold Pt; grind)
      have h7 : ¬ eq a.lo b.lo = true := fun h => hc (Or.inr h)
      unfold Pt at hu hv
      clear H e1 e3 e4 h1 h2 h3 h4 hc am h5
      grind
    · intro h
      refine exactMax_of ha hb ?_ e2
      by_cases h5 : Ambig lt a b
      · have h6 := e3 h5
        have h7 : eq a.lo b.lo = true := h.resolve_left (fun h => h h5)
        clear e1 e3 e4 h1 h2 h3 h4 am h5 h
        grind
      · exact e4 h5

/-- C66, README.md:415–422: without debug checks, if an argument is invalid, no branch of the programs is entered and the result is invalid, provided that the other
argument does not reach the limits of the type. -/
theorem C66_max_partial (d : Bool) (b : Ivl T) (hb : b = Ivl.unassigned ∨ (Proper b ∧ ¬ HasExtreme (.ivl b))) :
    maxPlain false d Ivl.unassigned b = .ok Ivl.unassigned ∧ maxPlain false d b Ivl.unassigned = .ok Ivl.unassigned ∧
    max2 false d Ivl.unassigned b = .ok Ivl.unassigned ∧ max2 false d b Ivl.unassigned = .ok Ivl.unassigned ∧
    max3 false d Ivl.unassigned b = .ok Ivl.unassigned ∧ max3 false d b Ivl.unassigned = .ok Ivl.unassigned ∧
    imax false d Ivl.unassigned b = .ok Ivl.unassigned ∧ imax false d b Ivl.unassigned = .ok Ivl.unassigned := by
  have hY : (Arg.ivl b) = .ivl Ivl.unassigned ∨ (ProperA (.ivl b) ∧ ¬ HasExtreme (.ivl b)) := hb.imp (fun h => by rw [h]) (fun h => h)
  obtain ⟨l1, l2⟩ := C66_order_partial .lt (by decide) _ hY
  obtain ⟨g1, g2⟩ := C66_order_partial .ge (by decide) _ hY
  simp only [opOf] at l1 l2 g1 g2
  have c1 : ∀ i j x y, condLt (T := T) false (.ident d i x) (.ident d j y) = (do return .less (← opLt false (.ivl x) (.ivl y)) (.ident d i x) (.ident d j y)) := fun _ _ _ _ => rfl
  have c2 : ∀ i j x y, condGe (T := T) false (.ident d i x) (.ident d j y) = (do return .leq (← opGe false (.ivl x) (.ivl y)) (.ident d j y) (.ident d i x)) := fun _ _ _ _ => rfl
  have n : BoolSet.not false BoolSet.empty = .ok BoolSet.empty := by decide
  have p : BoolSet.possibly BoolSet.empty = false := by decide
  have p' : BoolSet.possiblyNot BoolSet.empty = false := by decide
  refine ⟨?_, ?_, ?_, ?_, ?_, ?_, ?_, ?_⟩ <;>
    simp only [maxPlain, max2, max3, imax, c1, c2, l1, l2, g1, g2, ok_bind, pure, Except.pure, Cond.truth, Cond.mkNot, n, p, p', Bool.false_eq_true, if_false]

/-- the interval `[l, h]` of `int` -/
private def I (l h : Int) (p : -(2:Int)^31 ≤ l ∧ l ≤ 2^31 - 1 ∧ -(2:Int)^31 ≤ h ∧ h ≤ 2^31 - 1 := by decide) : Ivl (SInt 31) := ⟨⟨l, p.1, p.2.1⟩, ⟨h, p.2.2.1, p.2.2.2⟩⟩
private def poss (a b : Ivl (SInt 31)) : Bool := lt a.lo b.hi
private def cert (a b : Ivl (SInt 31)) : Bool := lt a.hi b.lo

/-- the values in README.md:310–328 and 455–464, for `A = [2,4]`, `B = [4,5]`, `C = [3,6]` -/
example : maxTwoValued poss (I 2 4) (I 3 6) = I 3 6 ∧ maxTwoValued cert (I 2 4) (I 3 6) = I 2 4 ∧
    maxTwoValued poss (I 3 6) (I 2 4) = I 2 4 ∧ maxTwoValued cert (I 3 6) (I 2 4) = I 3 6 ∧
    maxTwoValued poss (I 4 5) (I 3 6) = I 3 6 ∧ maxTwoValued cert (I 4 5) (I 3 6) = I 4 5 ∧
    maxTwoValued poss (I 3 6) (I 4 5) = I 4 5 ∧ maxTwoValued cert (I 3 6) (I 4 5) = I 3 6 ∧
    max2 true true (I 2 4) (I 3 6) = .ok (I 2 6) ∧ max2 true true (I 3 6) (I 2 4) = .ok (I 2 6) ∧
    max2 true true (I 4 5) (I 3 6) = .ok (I 3 6) ∧ max2 true true (I 3 6) (I 4 5) = .ok (I 3 6) ∧
    max3 true true (I 2 4) (I 3 6) = .ok (I 3 6) ∧ max3 true true (I 4 5) (I 3 6) = .ok (I 4 6) ∧
    maxPlain true true (I 2 4) (I 3 6) = .ok (I 2 4) ∧ Proper (I 4 5) ∧ lt (I 3 6).lo (I 4 5).lo = true ∧ lt (I 4 5).hi (I 3 6).hi = true := by decide

/-- C66: if the other argument reaches a limit of the type, a branch is entered: `max2([0, INT_MAX], interval<int>{ })` is `[0, INT_MAX]`, `max3` of the same arguments
is `INT_MAX`, and `max2(interval<int>{ }, [INT_MIN, 0])` violates a contract. -/
theorem C66_max_violated : max2 false true (I 0 (2^31 - 1)) Ivl.unassigned = .ok (I 0 (2^31 - 1)) ∧
    max3 false true (I 0 (2^31 - 1)) Ivl.unassigned = .ok (I (2^31 - 1) (2^31 - 1)) ∧
    max2 false true Ivl.unassigned (I (-2^31) 0) = .error .contract := by decide
example : Proper (I 3 6) ∧ ¬ HasExtreme (.ivl (I 3 6)) := ⟨by decide, fun h => by rcases h with h | h <;> revert h <;> decide⟩
end programs
end Intervals.Props
