import Verif.Lemmas.Propagate
import Verif.Model.IntVal
import Mathlib.Algebra.BigOperators.Group.List.Basic
import Mathlib.Algebra.Order.BigOperators.Group.List
import Mathlib.Tactic.Linarith
/-!
# C78: repeated constraining

The theorems are about the library's operators on intervals of any value type (`LawfulStep` if the type is discrete).  `D` lists the variables.
-/
set_option linter.unusedSectionVars false
namespace Intervals.Props
open Intervals Spec CppVal
variable {T : Type} [CppVal T] [CppOrder T] [CppStep T]

/-- Whatever the conditions are, a sequence of statements only narrows, and leaves all intervals assigned and NaN-free. -/
theorem C78_narrows (dbg d : Bool) (D : List Nat) (as : List (Narrowing T)) (S S' : Nat → Ivl T) (hs : d = true → LawfulStep T)
    (hS : AllProper D S) (ha : ∀ a ∈ as, a.Ok D) (h : execAll dbg d as S = .ok S') : AllProper D S' ∧ Within D S' S := by
  induction as generalizing S with
  | nil => cases h; exact ⟨hS, within_refl hS⟩
  | cons a as ih =>
    obtain ⟨S1, h1, h2⟩ := execAll_cons_ok.mp h
    obtain ⟨g1, g2⟩ := exec_narrows hs hS (ha a (by simp)) h1
    obtain ⟨g3, g4⟩ := ih S1 g1 (fun b hb => ha b (by simp [hb])) h2
    exact ⟨g3, within_trans g4 g2⟩

/-- No solution is lost, if both sides of every disjunction mention the variable that is narrowed. -/
theorem C78_keeps (dbg d : Bool) (D : List Nat) (as : List (Narrowing T)) (S S' : Nat → Ivl T) (s : Nat → T) (hs : d = true → LawfulStep T)
    (ha : ∀ a ∈ as, a.Ok D ∧ a.e.disjUses a.x true = true) (h : execAll dbg d as S = .ok S') (hsol : Solution D as S s) :
    Solution D as S' s := by
  refine ⟨?_, hsol.2⟩
  induction as generalizing S with
  | nil => cases h; exact hsol.1
  | cons a as ih =>
    obtain ⟨S1, h1, h2⟩ := execAll_cons_ok.mp h
    have hk := exec_keeps hs (ha a (by simp)).1 (ha a (by simp)).2 h1 hsol.1 (hsol.2 a (by simp))
    exact ih S1 (fun b hb => ha b (by simp [hb])) h2 ⟨hk, fun b hb => hsol.2 b (by simp [hb])⟩

/-- With single comparisons, no statement fails as long as there is a solution. -/
theorem C78_succeeds (dbg d : Bool) (D : List Nat) (as : List (Narrowing T)) (S : Nat → Ivl T) (s : Nat → T) (hs : d = true → LawfulStep T)
    (ha : ∀ a ∈ as, a.Ok D ∧ a.Simple) (hsol : Solution D as S s) : ∃ S', execAll dbg d as S = .ok S' ∧ Solution D as S' s := by
  have key : ∃ S', execAll dbg d as S = .ok S' := by
    induction as generalizing S with
    | nil => exact ⟨S, rfl⟩
    | cons a as ih =>
      have h0 := ha a (by simp)
      obtain ⟨S1, h1⟩ := exec_ok (dbg := dbg) hs h0.1 h0.2 hsol.1 (hsol.2 a (by simp))
      have hk := exec_keeps hs h0.1 (simple_disjUses h0.2) h1 hsol.1 (hsol.2 a (by simp))
      obtain ⟨S', h2⟩ := ih S1 (fun b hb => ha b (by simp [hb])) ⟨hk, fun b hb => hsol.2 b (by simp [hb])⟩
      exact ⟨S', execAll_cons_ok.mpr ⟨S1, h1, h2⟩⟩
  obtain ⟨S', h⟩ := key
  exact ⟨S', h, C78_keeps dbg d D as S S' s hs (fun a h => ⟨(ha a h).1, simple_disjUses (ha a h).2⟩) h hsol⟩

/-- Starting from narrower intervals gives narrower intervals; what succeeds there succeeds here. -/
theorem C78_monotone (dbg d : Bool) (D : List Nat) (as : List (Narrowing T)) (S S' F' : Nat → Ivl T) (hs : d = true → LawfulStep T)
    (ha : ∀ a ∈ as, a.Ok D ∧ a.Simple) (hS : AllProper D S) (hS' : AllProper D S') (hw : Within D S' S) (h : execAll dbg d as S' = .ok F') :
    ∃ F, execAll dbg d as S = .ok F ∧ Within D F' F := by
  induction as generalizing S S' with
  | nil => cases h; exact ⟨S, rfl, hw⟩
  | cons a as ih =>
    obtain ⟨S1, h1, h2⟩ := execAll_cons_ok.mp h
    have h0 := ha a (by simp)
    obtain ⟨F1, g1, g2⟩ := exec_mono hs hS hS' hw h0.1 h0.2 h1
    obtain ⟨F, g3, g4⟩ := ih F1 S1 (fun b hb => ha b (by simp [hb])) (exec_narrows hs hS h0.1 g1).1 (exec_narrows hs hS' h0.1 h1).1 g2 h2
    exact ⟨F, execAll_cons_ok.mpr ⟨F1, g1, g3⟩, g4⟩

/-- If the intervals contain a stable state, no sequence of the statements fails, and none leaves that state. -/
theorem C78_above_stable (dbg d : Bool) (D : List Nat) (A as : List (Narrowing T)) (S F : Nat → Ivl T) (hs : d = true → LawfulStep T)
    (hA : ∀ a ∈ A, a.Ok D ∧ a.Simple) (has : ∀ a ∈ as, a ∈ A) (hS : AllProper D S) (hF : AllProper D F) (hst : Stable dbg d D A F)
    (hw : Within D F S) : ∃ S', execAll dbg d as S = .ok S' ∧ Within D F S' := by
  induction as generalizing S with
  | nil => exact ⟨S, rfl, hw⟩
  | cons a as ih =>
    have haA := has a (by simp)
    have h0 := hA a haA
    obtain ⟨F1, f1, f2⟩ := hst a haA
    obtain ⟨S1, g1, g2⟩ := exec_mono hs hS hF hw h0.1 h0.2 f1
    have hF1 : Within D F F1 := fun x hx => by have := f2 x hx; constructor <;> grind
    obtain ⟨S', g3, g4⟩ := ih S1 (fun b hb => has b (by simp [hb])) (exec_narrows hs hS h0.1 g1).1 (within_trans hF1 g2)
    exact ⟨S', execAll_cons_ok.mpr ⟨S1, g1, g3⟩, g4⟩

/-- The order does not matter: any two sequences of the statements that end in a stable state end with the same bounds. -/
theorem C78_order (dbg d : Bool) (D : List Nat) (A as bs : List (Narrowing T)) (S F G : Nat → Ivl T) (hs : d = true → LawfulStep T)
    (hA : ∀ a ∈ A, a.Ok D ∧ a.Simple) (has : ∀ a ∈ as, a ∈ A) (hbs : ∀ b ∈ bs, b ∈ A) (hS : AllProper D S)
    (hF : execAll dbg d as S = .ok F) (hG : execAll dbg d bs S = .ok G) (sF : Stable dbg d D A F) (sG : Stable dbg d D A G) : SameBounds D F G := by
  obtain ⟨f1, f2⟩ := C78_narrows dbg d D as S F hs hS (fun a h => (hA a (has a h)).1) hF
  obtain ⟨g1, g2⟩ := C78_narrows dbg d D bs S G hs hS (fun a h => (hA a (hbs a h)).1) hG
  obtain ⟨G', k1, k2⟩ := C78_above_stable dbg d D A bs S F hs hA hbs hS f1 sF f2
  obtain ⟨F', k3, k4⟩ := C78_above_stable dbg d D A as S G hs hA has hS g1 sG g2
  rw [hG] at k1; cases k1
  rw [hF] at k3; cases k3
  intro x hx
  have := k2 x hx; have := k4 x hx
  constructor <;> grind

/-- Termination: on a type whose values have integer ranks, a sequence of statements each of which changes a bound is no longer than the sum
of the widths. -/
theorem C78_terminates (dbg d : Bool) (D : List Nat) (as : List (Narrowing T)) (S : Nat → Ivl T) (rank : T → Int) (hs : d = true → LawfulStep T)
    (hlt : ∀ a b : T, lt a b = true → rank a < rank b) (heq : ∀ a b : T, eq a b = true → rank a = rank b)
    (hS : AllProper D S) (ha : ∀ a ∈ as, a.Ok D) (he : AllEffective dbg d D as S) :
    (as.length : Int) ≤ (D.map (fun x => rank (S x).hi - rank (S x).lo)).sum := by
  have hle : ∀ a b : T, le a b = true → rank a ≤ rank b := by
    intro a b h
    by_cases h' : eq a b = true
    · exact le_of_eq (heq a b h')
    · exact (hlt a b (by grind)).le
  have hstep : ∀ E : List Nat, ∀ S S' : Nat → Ivl T, (∀ x ∈ E, Proper (S x)) → (∀ x ∈ E, Proper (S' x)) → Within E S' S →
      (E.map (fun x => rank (S' x).hi - rank (S' x).lo)).sum ≤ (E.map (fun x => rank (S x).hi - rank (S x).lo)).sum ∧
      (¬ SameBounds E S' S → (E.map (fun x => rank (S' x).hi - rank (S' x).lo)).sum < (E.map (fun x => rank (S x).hi - rank (S x).lo)).sum) := by
    intro E S S' hS hS' hw
    induction E with
    | nil => exact ⟨le_refl _, fun h => absurd (fun x hx => by cases hx) h⟩
    | cons x E ih =>
      obtain ⟨i1, i2⟩ := ih (fun y h => hS y (by simp [h])) (fun y h => hS' y (by simp [h])) (fun y h => hw y (by simp [h]))
      obtain ⟨w1, w2⟩ := hw x (by simp)
      have r1 := hle _ _ w1
      have r2 := hle _ _ w2
      simp only [List.map_cons, List.sum_cons]
      refine ⟨by linarith, fun hn => ?_⟩
      by_cases hE : SameBounds E S' S
      · have : ¬ (eq (S' x).lo (S x).lo = true ∧ eq (S' x).hi (S x).hi = true) := by
          intro h; apply hn
          intro y hy
          rcases List.mem_cons.mp hy with rfl | hy
          · exact h
          · exact hE y hy
        by_cases h1 : eq (S' x).lo (S x).lo = true
        · have h2 : lt (S' x).hi (S x).hi = true := by grind
          have := hlt _ _ h2; linarith
        · have h2 : lt (S x).lo (S' x).lo = true := by grind
          have := hlt _ _ h2; linarith
      · have := i2 hE; linarith
  induction as generalizing S with
  | nil =>
    simp only [List.length_nil, Nat.cast_zero]
    apply List.sum_nonneg
    intro z hz
    obtain ⟨x, hx, rfl⟩ := List.mem_map.mp hz
    have := hle _ _ (hS x hx)
    linarith
  | cons a as ih =>
    obtain ⟨S1, h1, h2, h3⟩ := he
    obtain ⟨g1, g2⟩ := exec_narrows hs hS (ha a (by simp)) h1
    have := ih S1 g1 (fun b hb => ha b (by simp [hb])) h3
    have := (hstep D S S1 hS g1 g2).2 h2
    simp only [List.length_cons, Nat.cast_add, Nat.cast_one]
    linarith

/-- On such a type some sequence of the statements ends in a stable state or in a contract violation (never in undefined behaviour). -/
theorem C78_reaches (dbg d : Bool) (D : List Nat) (A : List (Narrowing T)) (S : Nat → Ivl T) (rank : T → Int) (hs : d = true → LawfulStep T)
    (hlt : ∀ a b : T, lt a b = true → rank a < rank b) (heq : ∀ a b : T, eq a b = true → rank a = rank b)
    (hS : AllProper D S) (hA : ∀ a ∈ A, a.Ok D) :
    ∃ as : List (Narrowing T), (∀ a ∈ as, a ∈ A) ∧
      ((∃ F, execAll dbg d as S = .ok F ∧ Stable dbg d D A F) ∨ execAll dbg d as S = .error .contract) := by
  by_contra hno
  push Not at hno
  -- then effective sequences of every length exist
  have key : ∀ n : Nat, ∀ S0 : Nat → Ivl T, AllProper D S0 → (∀ as : List (Narrowing T), (∀ a ∈ as, a ∈ A) →
      (∀ F, execAll dbg d as S0 = .ok F → ¬ Stable dbg d D A F) ∧ execAll dbg d as S0 ≠ .error .contract) →
      ∃ as : List (Narrowing T), as.length = n ∧ (∀ a ∈ as, a ∈ A) ∧ AllEffective dbg d D as S0 := by
    intro n
    induction n with
    | zero => intro S0 _ _; exact ⟨[], rfl, by simp, trivial⟩
    | succ n ih =>
      intro S0 h0 hn0
      have := (hn0 [] (by simp)).1 S0 rfl
      simp only [Stable, not_forall] at this
      obtain ⟨a, haA, hns⟩ := this
      rcases exec_no_ub (dbg := dbg) hs h0 (hA a haA) with ⟨S1, h1⟩ | h1
      · have hch : ¬ SameBounds D S1 S0 := fun hsb => hns ⟨S1, h1, hsb⟩
        obtain ⟨as, e1, e2, e3⟩ := ih S1 (exec_narrows hs h0 (hA a haA) h1).1 (fun as has => by
          have := hn0 (a :: as) (by intro b hb; rcases List.mem_cons.mp hb with rfl | hb; exacts [haA, has b hb])
          simpa only [execAll, h1, ok_bind] using this)
        exact ⟨a :: as, by simp [e1], by intro b hb; rcases List.mem_cons.mp hb with rfl | hb; exacts [haA, e2 b hb], S1, h1, hch, e3⟩
      · exfalso
        exact (hn0 [a] (by simpa using haA)).2 (by simp only [execAll, h1]; rfl)
  obtain ⟨as, e1, e2, e3⟩ := key (((D.map (fun x => rank (S x).hi - rank (S x).lo)).sum).toNat + 1) S hS (fun as has =>
    ⟨(hno as has).1, (hno as has).2⟩)
  have := C78_terminates dbg d D as S rank hs hlt heq hS (fun a h => hA a (e2 a h)) e3
  rw [e1] at this
  have := Int.self_le_toNat (D.map (fun x => rank (S x).hi - rank (S x).lo)).sum
  push_cast at *
  omega

/-- In a stable state each bound of the narrowed variable satisfies each condition with some value of the other operand (any relation on a
discrete type; `<=`, `>=`, `==` on every type). -/
theorem C78_supported (dbg d left : Bool) (D : List Nat) (A : List (Narrowing T)) (F : Nat → Ivl T) (x : Nat) (op : CmpOp) (y : PTerm T)
    (hs : d = true → LawfulStep T) (hk : d = true ∨ op = .le ∨ op = .ge ∨ op = .eq) (hF : AllProper D F) (hst : Stable dbg d D A F)
    (hx : x ∈ D) (hy : y.ok D = true) (hxy : y.uses x = false)
    (ha : (⟨if left then .cmp op (.var x) y else .cmp op y (.var x), x⟩ : Narrowing T) ∈ A) :
    Satisfies op left (F x) (y.inst d F).arg (F x).lo ∧ Satisfies op left (F x) (y.inst d F).arg (F x).hi := by
  obtain ⟨F', h1, h2⟩ := hst _ ha
  obtain ⟨c, R, hb, hR, rfl⟩ := exec_eq_ok.mp h1
  rw [simple_inst] at hb
  have hsat := single_satisfiable (hF x hx) (term_proper hF hy) hb hR
  obtain ⟨c', R', g1, g2, g3⟩ := C20_tight_attained dbg d left x op (F x) (y.inst d F) (hF x hx) (term_proper hF hy)
    ((term_matches y).trans hxy) (hk.imp_left (fun h => ⟨hs h, h, (term_disc y).trans h⟩)) hsat
  rw [hb] at g1; cases g1
  rw [hR] at g2; cases g2
  have e := h2 x hx
  simp only [upd, if_true] at e
  have cong : ∀ u w : T, eq u w = true → Satisfies op left (F x) (y.inst d F).arg u → Satisfies op left (F x) (y.inst d F).arg w := by
    rintro u w huw ⟨k1, v, k2, k3⟩
    refine ⟨by unfold Pt at *; grind, v, k2, ?_⟩
    cases left <;> cases op <;> simp only [Bool.false_eq_true, if_false, if_true, CmpOp.eval] at k3 ⊢ <;> grind
  exact ⟨cong _ _ e.1 g3.1, cong _ _ e.2 g3.2.1⟩

/-- Two statements narrow at least as far as one statement with the conjunction of their conditions. -/
theorem C78_sequence (dbg d : Bool) (D : List Nat) (e f : PCond T) (x : Nat) (S S' F : Nat → Ivl T) (hs : d = true → LawfulStep T)
    (hS : AllProper D S) (h1 : (⟨e, x⟩ : Narrowing T).Ok D ∧ (⟨e, x⟩ : Narrowing T).Simple)
    (h2 : (⟨f, x⟩ : Narrowing T).Ok D ∧ (⟨f, x⟩ : Narrowing T).Simple)
    (hc : (⟨.and e f, x⟩ : Narrowing T).exec dbg d S = .ok S') (hq : execAll dbg d [⟨e, x⟩, ⟨f, x⟩] S = .ok F) : Within D F S' := by
  obtain ⟨S1, q1, q2⟩ := execAll_cons_ok.mp hq
  obtain ⟨S2, q2, q3⟩ := execAll_cons_ok.mp q2
  cases q3
  obtain ⟨p1, w1⟩ := exec_narrows hs hS h1.1 q1
  obtain ⟨p2, w2⟩ := exec_narrows hs p1 h2.1 q2
  obtain ⟨F2, q4, w3⟩ := exec_mono hs hS p1 w1 h2.1 h2.2 q2
  have wS := within_trans w2 w1
  obtain ⟨ce, Re, be, re, rfl⟩ := exec_eq_ok.mp q1
  obtain ⟨cf, Rf, bf, rf, rfl⟩ := exec_eq_ok.mp q4
  obtain ⟨c, R, bc, rc, rfl⟩ := exec_eq_ok.mp hc
  simp only [PCond.inst, CExpr.build, be, bf, ok_bind, pure, Except.pure, Except.ok.injEq] at bc
  have hie := sh_isCond (sh_build be)
  simp only [Cond.mkAnd, hie, Bool.true_or, if_true] at bc
  subst bc
  have hx := ok_mem h1.1
  -- a single comparison sets the flag and its bounds do not depend on it
  have leaf : ∀ {e : PCond T} {c : Cond T} {R : Ivl T}, (⟨e, x⟩ : Narrowing T).Ok D → (⟨e, x⟩ : Narrowing T).Simple →
      (e.inst d S).build dbg = .ok c → constrain dbg d x (S x) c = .ok R → ∀ k o, detailConstrain dbg d x (S x) c k o = .ok (R, true) := by
    intro e c R ho hsm hb hR k o
    have hsh := sh_build hb
    have hm : Mentions d x c := (sh_mentions hsh).mpr ho.2
    have hl : c.isLeaf = true := by
      obtain ⟨op, left, y, hy, he⟩ := hsm
      simp only at he
      rw [he] at hsh
      cases left <;> obtain ⟨s, h⟩ := hsh <;> rcases h with rfl | rfl | rfl | rfl | rfl | rfl <;> rfl
    by_cases ht : BoolSet.contains c.truth true = true
    · rw [leaf_constrain c hl hm ht] at hR
      simp only [leaf_eq hl, hm, ht, if_true, hR, ok_bind, pure, Except.pure]
    · exfalso
      simp only [constrain, leaf_eq hl, hm, ht, if_true] at hR
      simp at hR
  have ge := leaf h1.1 h1.2 be re false false
  have gf := leaf h2.1 h2.2 bf rf true false
  have nd : ∀ {e : PCond T} {c : Cond T}, (⟨e, x⟩ : Narrowing T).Simple → (e.inst d S).build dbg = .ok c → c.isDisj = false := by
    intro e c hsm hb
    have hsh := sh_build hb
    obtain ⟨op, left, y, hy, he⟩ := hsm
    simp only at he
    rw [he] at hsh
    cases left <;> obtain ⟨s, h⟩ := hsh <;> rcases h with rfl | rfl | rfl | rfl | rfl | rfl <;> rfl
  simp only [constrain, detailConstrain, nd h1.2 be, nd h2.2 bf, Bool.false_eq_true, if_false, ge, gf, ok_bind] at rc
  intro z hz
  by_cases hzx : z = x
  · subst hzx
    have a1 := w2 z hz; have a2 := w3 z hz; have a3 := wS z hz
    have a4 := p2 z hz
    unfold Proper at a4
    simp only [upd, if_true] at a1 a2 a3 a4 ⊢
    by_cases ht : BoolSet.contains (BoolSet.and ce.truth cf.truth) true = true
    · simp only [ht, if_true, bind_eq_ok, pure, Except.pure, Except.ok.injEq, make_eq_ok] at rc
      obtain ⟨_, ⟨_, _, m, ⟨_, rfl⟩, rfl⟩, _, _, rfl⟩ := rc
      simp only
      constructor <;> grind
    · simp only [ht, Bool.false_eq_true, if_false, bind_eq_ok, pure, Except.pure, Except.ok.injEq] at rc
      obtain ⟨_, rfl, _, _, rfl⟩ := rc
      exact a3
  · have := wS z hz
    simpa [upd, hzx] using this

/-! ## integers -/

/-- Termination on an integer type: the number of statements that change a bound is at most the sum of the widths. -/
theorem C78_terminates_int {lo hi : Int} (dbg : Bool) (D : List Nat) (as : List (Narrowing (BInt lo hi))) (S : Nat → Ivl (BInt lo hi))
    (hS : AllProper D S) (ha : ∀ a ∈ as, a.Ok D) (he : AllEffective dbg true D as S) :
    (as.length : Int) ≤ (D.map (fun x => (S x).hi.val - (S x).lo.val)).sum :=
  C78_terminates dbg true D as S (fun v => v.val) (fun _ => lawfulStep_bint _ _) (fun a b h => by simpa [CppVal.lt] using h)
    (fun a b h => by simpa [CppVal.eq] using h) hS ha he

/-- On an integer type, if there is a solution, some sequence of the statements ends in a stable state, and every sequence that does so ends
with the same bounds. -/
theorem C78_fixpoint_int {lo hi : Int} (dbg : Bool) (D : List Nat) (A : List (Narrowing (BInt lo hi))) (S : Nat → Ivl (BInt lo hi))
    (s : Nat → BInt lo hi) (hA : ∀ a ∈ A, a.Ok D ∧ a.Simple) (hsol : Solution D A S s) :
    ∃ as F, (∀ a ∈ as, a ∈ A) ∧ execAll dbg true as S = .ok F ∧ Stable dbg true D A F ∧ Solution D A F s ∧
      ∀ bs G, (∀ b ∈ bs, b ∈ A) → execAll dbg true bs S = .ok G → Within D F G ∧ (Stable dbg true D A G → SameBounds D F G) := by
  have hs : true = true → LawfulStep (BInt lo hi) := fun _ => lawfulStep_bint _ _
  have hS : AllProper D S := fun x h => cle_trans (hsol.1 x h).1 (hsol.1 x h).2
  obtain ⟨as, has, h⟩ := C78_reaches dbg true D A S (fun v => v.val) hs (fun a b h => by simpa [CppVal.lt] using h)
    (fun a b h => by simpa [CppVal.eq] using h) hS (fun a h => (hA a h).1)
  have hsol' : Solution D as S s := ⟨hsol.1, fun a h => hsol.2 a (has a h)⟩
  obtain ⟨F, hF, hsF⟩ := C78_succeeds dbg true D as S s hs (fun a h => hA a (has a h)) hsol'
  rcases h with ⟨F', hF', hst⟩ | h
  · rw [hF] at hF'; cases hF'
    refine ⟨as, F, has, hF, hst, ⟨hsF.1, hsol.2⟩, fun bs G hbs hG => ?_⟩
    obtain ⟨f1, f2⟩ := C78_narrows dbg true D as S F hs hS (fun a h => (hA a (has a h)).1) hF
    obtain ⟨G', k1, k2⟩ := C78_above_stable dbg true D A bs S F hs hA hbs hS f1 hst f2
    rw [hG] at k1; cases k1
    exact ⟨k2, fun hg => C78_order dbg true D A as bs S F G hs hA has hbs hS hF hG hst hg⟩
  · rw [hF] at h; cases h

/-! ## examples: `x < y`, `y < 5`, with `x`, `y` in [0,10] -/

private def all10 : Nat → Ivl (SInt 31) := fun _ => ⟨i32 0, i32 10⟩
private def nx : Narrowing (SInt 31) := ⟨.cmp .lt (.var 0) (.var 1), 0⟩
private def ny : Narrowing (SInt 31) := ⟨.cmp .lt (.var 0) (.var 1), 1⟩
private def n5 : Narrowing (SInt 31) := ⟨.cmp .gt (.lit (i32 5)) (.var 1), 1⟩
private def sys : List (Narrowing (SInt 31)) := [nx, ny, n5]
private def pt34 : Nat → SInt 31 := fun n => if n = 0 then i32 3 else i32 4

private theorem nx_simple : nx.Simple := ⟨.lt, true, .var 1, rfl, rfl⟩
private theorem ny_simple : ny.Simple := ⟨.lt, false, .var 0, rfl, rfl⟩
private theorem n5_simple : n5.Simple := ⟨.gt, false, .lit (i32 5), rfl, rfl⟩
private theorem sys_ok : ∀ a ∈ sys, a.Ok [0, 1] ∧ a.Simple := by
  intro a ha
  simp only [sys, List.mem_cons, List.not_mem_nil, or_false] at ha
  rcases ha with rfl | rfl | rfl
  · exact ⟨⟨by decide, by decide⟩, nx_simple⟩
  · exact ⟨⟨by decide, by decide⟩, ny_simple⟩
  · exact ⟨⟨by decide, by decide⟩, n5_simple⟩
private theorem all10_proper : AllProper [0, 1] all10 := by intro x hx; show Proper (⟨i32 0, i32 10⟩ : Ivl (SInt 31)); decide

/-- the bounds of the two variables after a sequence of statements -/
private def ends (as : List (Narrowing (SInt 31))) : Outcome (List (Int × Int)) := do
  let S ← execAll true true as all10
  return [((S 0).lo.val, (S 0).hi.val), ((S 1).lo.val, (S 1).hi.val)]

/-- two orders, one result; one pass does not suffice in the first order -/
example : ends [nx, ny, n5] = .ok [(0, 9), (1, 4)] ∧ ends [nx, ny, n5, nx] = .ok [(0, 3), (1, 4)] ∧ ends [n5, ny, nx] = .ok [(0, 3), (1, 4)] := by
  decide +kernel

private theorem sys_solution : Solution [0, 1] sys all10 pt34 := by
  refine ⟨?_, ?_⟩
  · intro x hx
    simp only [List.mem_cons, List.not_mem_nil, or_false] at hx
    rcases hx with rfl | rfl <;> decide
  · intro a ha
    simp only [sys, List.mem_cons, List.not_mem_nil, or_false] at ha
    rcases ha with rfl | rfl | rfl <;> decide

/-- the solution x = 3, y = 4 survives, in whichever order the statements run -/
example : ∃ S', execAll true true sys all10 = .ok S' ∧ Solution [0, 1] sys S' pt34 :=
  C78_succeeds true true [0, 1] sys all10 pt34 (fun _ => lawfulStep_bint _ _) sys_ok sys_solution
example : ∃ as F, (∀ a ∈ as, a ∈ sys) ∧ execAll true true as all10 = .ok F ∧ Stable true true [0, 1] sys F ∧ Solution [0, 1] sys F pt34 ∧
    ∀ bs G, (∀ b ∈ bs, b ∈ sys) → execAll true true bs all10 = .ok G → Within [0, 1] F G ∧ (Stable true true [0, 1] sys G → SameBounds [0, 1] F G) :=
  C78_fixpoint_int true [0, 1] sys all10 pt34 sys_ok sys_solution

private def fix : Nat → Ivl (SInt 31) := fun n => if n = 0 then ⟨i32 0, i32 3⟩ else ⟨i32 1, i32 4⟩
/-- [0,3] and [1,4] are stable -/
private theorem fix_stable : Stable true true [0, 1] sys fix := by
  intro a ha
  simp only [sys, List.mem_cons, List.not_mem_nil, or_false] at ha
  have same : ∀ (x : Nat) (R : Ivl (SInt 31)), R.lo.val = (fix x).lo.val → R.hi.val = (fix x).hi.val → SameBounds [0, 1] (upd fix x R) fix := by
    intro x R h1 h2 y hy
    by_cases hyx : y = x
    · subst hyx; simp [upd, CppVal.eq, h1, h2]
    · simp [upd, hyx, CppVal.eq]
  rcases ha with rfl | rfl | rfl
  · exact ⟨upd fix 0 ⟨i32 0, i32 3⟩, exec_eq_ok.mpr ⟨_, _, rfl, by decide, rfl⟩, same _ _ rfl rfl⟩
  · exact ⟨upd fix 1 ⟨i32 1, i32 4⟩, exec_eq_ok.mpr ⟨_, _, rfl, by decide, rfl⟩, same _ _ rfl rfl⟩
  · exact ⟨upd fix 1 ⟨i32 1, i32 4⟩, exec_eq_ok.mpr ⟨_, _, rfl, by decide, rfl⟩, same _ _ rfl rfl⟩
private theorem fix_proper : AllProper [0, 1] fix := by
  intro x hx
  simp only [List.mem_cons, List.not_mem_nil, or_false] at hx
  rcases hx with rfl | rfl <;> decide
private theorem fix_within : Within [0, 1] fix all10 := by
  intro x hx
  simp only [List.mem_cons, List.not_mem_nil, or_false] at hx
  rcases hx with rfl | rfl <;> decide

example : ∃ S', execAll true true [nx, nx, n5] all10 = .ok S' ∧ Within [0, 1] fix S' :=
  C78_above_stable true true [0, 1] sys _ all10 fix (fun _ => lawfulStep_bint _ _) sys_ok (by simp [sys]) all10_proper fix_proper fix_stable fix_within
example (F G : Nat → Ivl (SInt 31)) (hF : execAll true true [nx, ny, n5, nx] all10 = .ok F) (hG : execAll true true [n5, ny, nx] all10 = .ok G)
    (sF : Stable true true [0, 1] sys F) (sG : Stable true true [0, 1] sys G) : SameBounds [0, 1] F G :=
  C78_order true true [0, 1] sys _ _ all10 F G (fun _ => lawfulStep_bint _ _) sys_ok (by simp [sys]) (by simp [sys]) all10_proper hF hG sF sG
example : ∃ F', execAll true true [n5] fix = .ok F' ∧ ∃ F, execAll true true [n5] all10 = .ok F ∧ Within [0, 1] F' F := by
  obtain ⟨F', h, _⟩ := fix_stable n5 (by simp [sys])
  have h' : execAll true true [n5] fix = .ok F' := by simp [execAll, h]
  exact ⟨F', h', C78_monotone true true [0, 1] [n5] all10 fix F' (fun _ => lawfulStep_bint _ _) (fun a ha => sys_ok a (by simp_all [sys]))
    all10_proper fix_proper fix_within h'⟩
/-- in the stable state, x = 3 is supported by y = 4 -/
example : Satisfies .lt true (fix 0) (.ivl (fix 1)) (i32 3) :=
  (C78_supported true true true [0, 1] sys fix 0 .lt (.var 1) (fun _ => lawfulStep_bint _ _) (Or.inl rfl) fix_proper fix_stable (by decide)
    (by decide) (by decide) (by simp [sys, nx])).2

/-- the first order changes a bound four times, of at most 20 -/
private theorem four_effective : AllEffective true true [0, 1] [nx, ny, n5, nx] all10 := by
  refine ⟨_, exec_eq_ok.mpr ⟨_, ⟨i32 0, i32 9⟩, rfl, by decide, rfl⟩, fun h => absurd (h 0 (by simp)).2 (by decide), ?_⟩
  refine ⟨_, exec_eq_ok.mpr ⟨_, ⟨i32 1, i32 10⟩, rfl, by decide, rfl⟩, fun h => absurd (h 1 (by simp)).1 (by decide), ?_⟩
  refine ⟨_, exec_eq_ok.mpr ⟨_, ⟨i32 1, i32 4⟩, rfl, by decide, rfl⟩, fun h => absurd (h 1 (by simp)).2 (by decide), ?_⟩
  exact ⟨_, exec_eq_ok.mpr ⟨_, ⟨i32 0, i32 3⟩, rfl, by decide, rfl⟩, fun h => absurd (h 0 (by simp)).2 (by decide), trivial⟩
example : (4 : Int) ≤ ([0, 1].map (fun x => (all10 x).hi.val - (all10 x).lo.val)).sum :=
  C78_terminates_int true [0, 1] [nx, ny, n5, nx] all10 all10_proper
    (fun a ha => by
      simp only [List.mem_cons, List.not_mem_nil, or_false] at ha
      rcases ha with rfl | rfl | rfl | rfl <;> exact ⟨by decide, by decide⟩) four_effective

/-- without a solution some sequence fails: `x < y`, `y < x` -/
private def nxr : Narrowing (SInt 31) := ⟨.cmp .lt (.var 1) (.var 0), 0⟩
private def nyr : Narrowing (SInt 31) := ⟨.cmp .lt (.var 1) (.var 0), 1⟩
example : ends [nx, ny, nxr, nyr, nx, ny] = .ok [(2, 7), (3, 8)] ∧
    ends ((List.replicate 6 [nx, ny, nxr, nyr]).flatten) = .error .contract := by decide +kernel

/-- the sequence can be tighter than the conjunction: `x != 0`, `x != 1` -/
private def ne0 : PCond (SInt 31) := .cmp .ne (.var 0) (.lit (i32 0))
private def ne1 : PCond (SInt 31) := .cmp .ne (.var 0) (.lit (i32 1))
example : ends [⟨.and ne0 ne1, 0⟩] = .ok [(1, 10), (0, 10)] ∧ ends [⟨ne0, 0⟩, ⟨ne1, 0⟩] = .ok [(2, 10), (0, 10)] := by decide +kernel
example (S' F : Nat → Ivl (SInt 31)) (hc : (⟨.and ne0 ne1, 0⟩ : Narrowing (SInt 31)).exec true true all10 = .ok S')
    (hq : execAll true true [⟨ne0, 0⟩, ⟨ne1, 0⟩] all10 = .ok F) : Within [0, 1] F S' :=
  C78_sequence true true [0, 1] ne0 ne1 0 all10 S' F (fun _ => lawfulStep_bint _ _) all10_proper
    ⟨⟨by decide, by decide⟩, ⟨.ne, true, .lit (i32 0), rfl, rfl⟩⟩ ⟨⟨by decide, by decide⟩, ⟨.ne, true, .lit (i32 1), rfl, rfl⟩⟩ hc hq

/-- compound conditions narrow too: `x < 3 & x > 0 | x == 7` gives [1,7] -/
example : ends [⟨.or (.and (.cmp .lt (.var 0) (.lit (i32 3))) (.cmp .gt (.var 0) (.lit (i32 0)))) (.cmp .eq (.var 0) (.lit (i32 7))), 0⟩] =
    .ok [(1, 7), (0, 10)] := by decide +kernel

end Intervals.Props
