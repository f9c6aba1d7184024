import Verif.Spec.PropagateMixed
import Verif.Props.ConstraintIsotone
import Verif.Props.Narrow
/-!
# C111: repeated constraining of intervals of several value types
-/
set_option linter.unusedSectionVars false
set_option linter.unusedVariables false
namespace Intervals.Props
open Intervals Spec CppVal
section
variable {V T : Type} [CppVal V] [CppNum V] [CppOrder V] [CppVal T] [CppNum T] [CppOrder T] [CppStep T]
variable {cv : V → T} {pr su : V → Outcome V} {d dbg : Bool} {x x' : Ivl T} {r r' : Arg V}

theorem compare_isotone_r (h1 : le (cv r'.lo) (cv r.lo) = true) (h2 : le (cv r.hi) (cv r'.hi) = true) (hr : le (cv r.lo) (cv r.hi) = true) (hx : le x.lo x.hi = true) (k : XRel) (b : Bool)
    (h : BoolSet.contains (k.compare cv x r) b = true) : BoolSet.contains (k.compare cv x r') b = true := by
  cases k <;> cases b <;> simp only [XRel.compare, contains_ltM, contains_leM, contains_eqM, contains_neM, if_true, ivl_lo, ivl_hi, CppVal.ge, CppVal.gt, Bool.false_eq_true, if_false, Bool.or_eq_true, Bool.and_eq_true] at h ⊢ <;> grind

/-- C101: constraining by a comparison is inclusion isotone in the operand too. -/
theorem C101_isotone_operand (hx : Proper x) (hr : ProperA r) (h1 : le r'.lo r.lo = true) (h2 : le r.hi r'.hi = true) (mono : MonoCast cv) (step : d = true → LawfulStep T) (iso : StepIso pr su)
    (k : XRel) {R : Ivl T} (h : constrainM cv pr su d dbg x r k = .ok R) : ∃ R', constrainM cv pr su d dbg x r' k = .ok R' ∧ Proper R ∧ ∀ u, u ∈ᵢ R → u ∈ᵢ R' := by
  have hr0 := proper_le hr
  have hr' : ProperA r' := by
    have : le r'.lo r'.hi = true := CppOrder.le_trans _ _ _ h1 (CppOrder.le_trans _ _ _ hr0 h2)
    cases r' <;> exact this
  have hc : BoolSet.contains (k.compare cv x r) true = true := by
    cases hc : BoolSet.contains (k.compare cv x r) true
    · rw [constrainM_impossible hx hr k hc] at h; cases h
    · rfl
  have m0 := mono _ _ hr0
  have m1 := mono _ _ h1
  have m2 := mono _ _ h2
  have hc' := compare_isotone_r m1 m2 m0 hx k true hc
  rw [constrainM_body hx hr k hc] at h
  rw [constrainM_body hx hr' k hc']
  suffices ∃ R', bodyX cv pr su d x r' k = .ok R' ∧ Nested R R' from by
    obtain ⟨R', e, n⟩ := this
    exact ⟨R', e, (nested_incl n).1, (nested_incl n).2⟩
  have hx0 : le x.lo x.hi = true := hx
  have ne_case : ∀ k, (k = .xNe ∨ k = .neX) → bodyX cv pr su d x r k = .ok R → ∃ R', bodyX cv pr su d x r' k = .ok R' ∧ Nested R R' := by
    intro k hk h
    have gx : le R.lo R.hi = true ∧ le x.lo R.lo = true ∧ le R.hi x.hi = true := by
      rcases ne_cases (r := r) (cv := cv) (pr := pr) (su := su) step hx0 k hk with ⟨-, -, -, -, s, -, g1, g2, g3⟩ | ⟨-, -, -, -, -, s, -, g1, g2, g3⟩ | ⟨-, g3⟩ <;>
        (rw [g3] at h; cases h; clear mono iso; refine ⟨?_, ?_, ?_⟩ <;> (try dsimp only) <;> grind)
    by_cases hs : eq r'.lo r'.hi = true
    · have e1 : eq r.lo r.hi = true := by clear mono iso; grind
      have q1 : le (cv r.lo) (cv r'.lo) = true := mono _ _ (by clear mono iso; grind)
      have e2 : ∀ y : T, eq y (cv r'.lo) = eq y (cv r.lo) := fun y => by clear mono iso; grind
      refine ⟨R, ?_, gx.1, CppOrder.le_left _ _ gx.1, CppOrder.le_right _ _ gx.1⟩
      rw [← h]
      rcases hk with rfl | rfl <;> simp only [bodyX, hs, e1, e2]
    · refine ⟨x, ?_, gx⟩
      rcases hk with rfl | rfl <;> simp [bodyX, hs, pure, Except.pure]
  cases k
  case xNe => exact ne_case _ (.inl rfl) h
  case neX => exact ne_case _ (.inr rfl) h
  all_goals clear ne_case step hc hc'
  · simp only [bodyX, bind_eq_ok] at h
    obtain ⟨p, e, h⟩ := h
    obtain ⟨p', e', l⟩ := iso.1 _ _ _ h2 e
    have n := mono _ _ l
    obtain ⟨q, rfl⟩ := make_eq_ok.mp h
    clear mono iso
    simp only [bodyX, e', ok_bind]
    simp only [CppVal.gt] at q
    have g : le x.lo (cmin x.hi (cv p)) = true := by unfold cmin at q ⊢; grind
    have g' : le x.lo (cmin x.hi (cv p')) = true := by unfold cmin at q ⊢; grind
    exact ⟨_, make_ok_of_le g', g, by dsimp only; grind, by dsimp only [cmin]; grind⟩
  · simp only [bodyX, bind_eq_ok] at h
    obtain ⟨p, e, h⟩ := h
    obtain ⟨p', e', l⟩ := iso.2 _ _ _ h1 e
    have n := mono _ _ l
    obtain ⟨q, rfl⟩ := make_eq_ok.mp h
    clear mono iso
    simp only [bodyX, e', ok_bind]
    simp only [CppVal.gt] at q
    have g : le (cmax (cv p) x.lo) x.hi = true := by unfold cmax at q ⊢; grind
    have g' : le (cmax (cv p') x.lo) x.hi = true := by unfold cmax at q ⊢; grind
    exact ⟨_, make_ok_of_le g', g, by dsimp only [cmax]; grind, by dsimp only; grind⟩
  · obtain ⟨q, rfl⟩ := make_eq_ok.mp h
    clear mono iso
    simp only [CppVal.gt] at q
    have g : le x.lo (cmin x.hi (cv r.hi)) = true := by unfold cmin at q ⊢; grind
    have g' : le x.lo (cmin x.hi (cv r'.hi)) = true := by unfold cmin at q ⊢; grind
    exact ⟨_, make_ok_of_le g', g, by dsimp only; grind, by dsimp only [cmin]; grind⟩
  · obtain ⟨q, rfl⟩ := make_eq_ok.mp h
    clear mono iso
    simp only [CppVal.gt] at q
    have g : le (cmax (cv r.lo) x.lo) x.hi = true := by unfold cmax at q ⊢; grind
    have g' : le (cmax (cv r'.lo) x.lo) x.hi = true := by unfold cmax at q ⊢; grind
    exact ⟨_, make_ok_of_le g', g, by dsimp only [cmax]; grind, by dsimp only; grind⟩
  · obtain ⟨q, rfl⟩ := make_eq_ok.mp h
    clear mono iso
    simp only [CppVal.gt] at q
    have g : le (cmax x.lo (cv r.lo)) (cmin x.hi (cv r.hi)) = true := by unfold cmax cmin at q ⊢; grind
    have g' : le (cmax x.lo (cv r'.lo)) (cmin x.hi (cv r'.hi)) = true := by unfold cmax cmin at q ⊢; grind
    exact ⟨_, make_ok_of_le g', g, by dsimp only [cmax]; grind, by dsimp only [cmin]; grind⟩
  · obtain ⟨q, rfl⟩ := make_eq_ok.mp h
    clear mono iso
    simp only [CppVal.gt] at q
    have g : le (cmax (cv r.lo) x.lo) (cmin (cv r.hi) x.hi) = true := by unfold cmax cmin at q ⊢; grind
    have g' : le (cmax (cv r'.lo) x.lo) (cmin (cv r'.hi) x.hi) = true := by unfold cmax cmin at q ⊢; grind
    exact ⟨_, make_ok_of_le g', g, by dsimp only [cmax]; grind, by dsimp only [cmin]; grind⟩

/-- a value that satisfies the comparison is kept -/
theorem body_keeps (hx : Proper x) (hr : ProperA r) (mono : MonoCast cv) (step : d = true → LawfulStep T) (k : XRel) {u : T} {v : V} (hu : u ∈ᵢ x) (hv : v ∈ₐ r) (hk : holdsX k u (cv v) = true)
    (gap : strictX k = true → ∀ w, w ∈ₐ r → (lt u (cv w) = true → ∃ p, pr w = .ok p ∧ le u (cv p) = true) ∧ (lt (cv w) u = true → ∃ p, su w = .ok p ∧ le (cv p) u = true)) :
    ∃ R, constrainM cv pr su d dbg x r k = .ok R ∧ u ∈ᵢ R := by
  have hc : BoolSet.contains (k.compare cv x r) true = true := possible_x hx mono k ⟨hu, v, hv, hk⟩
  rw [constrainM_body hx hr k hc]
  have hr0 := proper_le hr
  have v1 := mono _ _ (mem_bounds.mp hv).1
  have v2 := mono _ _ (mem_bounds.mp hv).2
  obtain ⟨u1, u2⟩ := hu
  have hx0 : le x.lo x.hi = true := hx
  have ne_case : ∀ k, (k = .xNe ∨ k = .neX) → ne u (cv v) = true → ∃ R, bodyX cv pr su d x r k = .ok R ∧ u ∈ᵢ R := by
    intro k hk hn
    rcases ne_cases (r := r) (cv := cv) (pr := pr) (su := su) step hx0 k hk with ⟨rfl, g2, g3, g4, s, g5, -, -, g⟩ | ⟨rfl, g2, g3, -, g4, s, g5, -, -, g⟩ | ⟨-, g⟩
    · have m := mono _ _ (show le r.hi r.lo = true by clear mono gap step; grind)
      obtain ⟨t, t1, t2, -⟩ := (step rfl).succ_of_lt x.lo u (by clear mono gap step; grind)
      rw [g5] at t1; cases t1
      exact ⟨_, g, t2, u2⟩
    · have m := mono _ _ (show le r.hi r.lo = true by clear mono gap step; grind)
      obtain ⟨t, t1, t2, -⟩ := (step rfl).pred_of_lt u x.hi (by clear mono gap step; grind)
      rw [g5] at t1; cases t1
      exact ⟨_, g, u1, t2⟩
    · exact ⟨_, g, u1, u2⟩
  cases k <;> simp only [holdsX] at hk
  case xNe => exact ne_case _ (.inl rfl) hk
  case neX => exact ne_case _ (.inr rfl) (by clear mono gap step; grind)
  case xLess =>
    obtain ⟨p, e, l⟩ := (gap rfl r.hi (hi_mem hr)).1 (by clear mono gap step; grind)
    clear mono gap step ne_case
    simp only [bodyX, e, ok_bind]
    have g : le x.lo (cmin x.hi (cv p)) = true := by unfold cmin; grind
    exact ⟨_, make_ok_of_le g, u1, by dsimp only [cmin]; grind⟩
  case lessX =>
    obtain ⟨p, e, l⟩ := (gap rfl r.lo (lo_mem hr)).2 (by clear mono gap step; grind)
    clear mono gap step ne_case
    simp only [bodyX, e, ok_bind]
    have g : le (cmax (cv p) x.lo) x.hi = true := by unfold cmax; grind
    exact ⟨_, make_ok_of_le g, by dsimp only [cmax]; grind, u2⟩
  all_goals clear mono gap step ne_case
  · have g : le x.lo (cmin x.hi (cv r.hi)) = true := by unfold cmin; grind
    exact ⟨_, make_ok_of_le g, u1, by dsimp only [cmin]; grind⟩
  · have g : le (cmax (cv r.lo) x.lo) x.hi = true := by unfold cmax; grind
    exact ⟨_, make_ok_of_le g, by dsimp only [cmax]; grind, u2⟩
  · have g : le (cmax x.lo (cv r.lo)) (cmin x.hi (cv r.hi)) = true := by unfold cmax cmin; grind
    exact ⟨_, make_ok_of_le g, by dsimp only [cmax]; grind, by dsimp only [cmin]; grind⟩
  · have g : le (cmax (cv r.lo) x.lo) (cmin (cv r.hi) x.hi) = true := by unfold cmax cmin; grind
    exact ⟨_, make_ok_of_le g, by dsimp only [cmax]; grind, by dsimp only [cmin]; grind⟩
end

section
variable {ι : Type} [DecidableEq ι] {T : ι → Type} [∀ i, CppVal (T i)] [∀ i, CppNum (T i)] [∀ i, CppOrder (T i)] [∀ i, CppStep (T i)]
variable {E : ValueTypes T} {dbg : Bool} {a : MNarrowing T} {A as bs : List (MNarrowing T)} {S S' F G : ∀ i, Ivl (T i)}

theorem execAllM_cons : execAllM E dbg (a :: as) S = .ok F ↔ ∃ S1, a.exec E dbg S = .ok S1 ∧ execAllM E dbg as S1 = .ok F := by
  simp only [execAllM, bind_eq_ok]

theorem exec_iff : a.exec E dbg S = .ok F ↔ ∃ R, constrainM (E.cv a.y.ty a.x) (E.pr a.y.ty) (E.su a.y.ty) (E.disc a.x) dbg (S a.x) (a.y.arg S) a.k = .ok R ∧ F = Function.update S a.x R := by
  simp only [MNarrowing.exec, bind_eq_ok, pure, Except.pure]
  constructor
  · rintro ⟨R, h, e⟩; cases e; exact ⟨R, h, rfl⟩
  · rintro ⟨R, h, rfl⟩; exact ⟨R, h, rfl⟩

theorem opd_proper {y : MOpd T} {x : ι} (h : y.Ok x) (hS : AllProperM S) : ProperA (y.arg S) := by
  cases y with
  | var j => exact hS j
  | lit j r => exact h

theorem opd_sub {S1 : ∀ i, Ivl (T i)} (h : ∀ i u, u ∈ᵢ S1 i → u ∈ᵢ S i) (y : MOpd T) : ∀ v, v ∈ₐ y.arg S1 → v ∈ₐ y.arg S := by
  cases y with
  | var j => exact h j
  | lit j r => exact fun _ h => h

theorem withinM_refl (hS : AllProperM S) : WithinM S S := fun i => ⟨CppOrder.le_left _ _ (hS i), CppOrder.le_right _ _ (hS i)⟩
theorem withinM_trans {S1 S2 S3 : ∀ i, Ivl (T i)} (h : WithinM S1 S2) (h' : WithinM S2 S3) : WithinM S1 S3 :=
  fun i => ⟨CppOrder.le_trans _ _ _ (h' i).1 (h i).1, CppOrder.le_trans _ _ _ (h i).2 (h' i).2⟩

theorem notNan_step {V : Type} [CppVal V] [CppOrder V] {pr su : V → Outcome V} (iso : StepIso pr su) :
    (∀ v p, NotNan v → pr v = .ok p → NotNan p) ∧ (∀ v p, NotNan v → su v = .ok p → NotNan p) := by
  constructor
  · intro v p hv e
    obtain ⟨q, e', l⟩ := iso.1 v v p hv e
    rw [e] at e'; cases e'; exact l
  · intro v p hv e
    obtain ⟨q, e', l⟩ := iso.2 v v p hv e
    rw [e] at e'; cases e'; exact l

theorem execM_mono (hs : ∀ i, E.disc i = true → LawfulStep (T i)) (hS : AllProperM S) (hS' : AllProperM S') (hw : WithinM S' S) (ha : a.Ok E) {F' : ∀ i, Ivl (T i)} (h : a.exec E dbg S' = .ok F') :
    AllProperM F' ∧ WithinM F' S' ∧ ∃ F, a.exec E dbg S = .ok F ∧ WithinM F' F := by
  obtain ⟨ho, mono, iso⟩ := ha
  obtain ⟨R, g, rfl⟩ := exec_iff.mp h
  clear h
  have h := g
  have nn := notNan_step iso
  have hr' : ProperA (a.y.arg S') := opd_proper ho hS'
  have hr : ProperA (a.y.arg S) := opd_proper ho hS
  have hn := C101_narrows (hS' a.x) hr' mono (hs a.x) a.k h
  have sub : ∀ u, u ∈ᵢ S' a.x → u ∈ᵢ S a.x := fun u hu => ⟨CppOrder.le_trans _ _ _ (hw a.x).1 hu.1, CppOrder.le_trans _ _ _ hu.2 (hw a.x).2⟩
  obtain ⟨R1, h1, p, i1⟩ := C101_isotone (hS' a.x) sub hr' mono (hs a.x) nn.1 nn.2 a.k h
  have b : le (a.y.arg S).lo (a.y.arg S').lo = true ∧ le (a.y.arg S').hi (a.y.arg S).hi = true := by
    cases hy : a.y with
    | var j => exact hw j
    | lit j r =>
      have : ProperA r := by rw [hy] at ho; exact ho
      exact ⟨CppOrder.le_left _ _ (proper_le this), CppOrder.le_right _ _ (proper_le this)⟩
  obtain ⟨R2, h2, -, i2⟩ := C101_isotone_operand (hS a.x) hr' b.1 b.2 mono (hs a.x) iso a.k h1
  have l1 := hn R.lo ⟨CppOrder.le_left _ _ p, p⟩
  have l2 := hn R.hi ⟨p, CppOrder.le_right _ _ p⟩
  have l3 := i2 _ (i1 R.lo ⟨CppOrder.le_left _ _ p, p⟩)
  have l4 := i2 _ (i1 R.hi ⟨p, CppOrder.le_right _ _ p⟩)
  refine ⟨fun i => ?_, fun i => ?_, _, exec_iff.mpr ⟨R2, h2, rfl⟩, fun i => ?_⟩ <;> by_cases hi : i = a.x
  · subst hi; rw [Function.update_self]; exact p
  · rw [Function.update_of_ne hi]; exact hS' i
  · subst hi; rw [Function.update_self]; exact ⟨l1.1, l2.2⟩
  · rw [Function.update_of_ne hi]; exact withinM_refl hS' i
  · subst hi; rw [Function.update_self, Function.update_self]; exact ⟨l3.1, l4.2⟩
  · rw [Function.update_of_ne hi, Function.update_of_ne hi]; exact hw i

/-- C111: a sequence of statements only narrows, and leaves all intervals assigned and NaN-free. -/
theorem C111_narrows (hs : ∀ i, E.disc i = true → LawfulStep (T i)) (hS : AllProperM S) (ha : ∀ a ∈ as, a.Ok E) (h : execAllM E dbg as S = .ok F) : AllProperM F ∧ WithinM F S := by
  induction as generalizing S with
  | nil => cases h; exact ⟨hS, withinM_refl hS⟩
  | cons a as ih =>
    obtain ⟨S1, h1, h2⟩ := execAllM_cons.mp h
    obtain ⟨p, w, -⟩ := execM_mono hs hS hS (withinM_refl hS) (ha a (by simp)) h1
    obtain ⟨q, w'⟩ := ih p (fun b hb => ha b (by simp [hb])) h2
    exact ⟨q, withinM_trans w' w⟩

/-- C111: starting from narrower intervals gives narrower intervals; what succeeds there succeeds here. -/
theorem C111_monotone (hs : ∀ i, E.disc i = true → LawfulStep (T i)) (hS : AllProperM S) (hS' : AllProperM S') (hw : WithinM S' S) (ha : ∀ a ∈ as, a.Ok E) {F' : ∀ i, Ivl (T i)}
    (h : execAllM E dbg as S' = .ok F') : ∃ F, execAllM E dbg as S = .ok F ∧ WithinM F' F := by
  induction as generalizing S S' with
  | nil => cases h; exact ⟨S, rfl, hw⟩
  | cons a as ih =>
    obtain ⟨S1, h1, h2⟩ := execAllM_cons.mp h
    have h0 := ha a (by simp)
    obtain ⟨p, -, F1, g1, g2⟩ := execM_mono hs hS hS' hw h0 h1
    obtain ⟨q, -, -⟩ := execM_mono hs hS hS (withinM_refl hS) h0 g1
    obtain ⟨F, g3, g4⟩ := ih q p g2 (fun b hb => ha b (by simp [hb])) h2
    exact ⟨F, execAllM_cons.mpr ⟨F1, g1, g3⟩, g4⟩

/-- C111: if the intervals contain a stable state, no sequence of the statements fails, and none leaves that state. -/
theorem C111_above_stable (hs : ∀ i, E.disc i = true → LawfulStep (T i)) (hA : ∀ a ∈ A, a.Ok E) (has : ∀ a ∈ as, a ∈ A) (hS : AllProperM S) (hF : AllProperM F) (hst : StableM E dbg A F)
    (hw : WithinM F S) : ∃ S', execAllM E dbg as S = .ok S' ∧ WithinM F S' := by
  induction as generalizing S with
  | nil => exact ⟨S, rfl, hw⟩
  | cons a as ih =>
    have haA := has a (by simp)
    obtain ⟨F1, f1, f2⟩ := hst a haA
    obtain ⟨-, -, S1, g1, g2⟩ := execM_mono hs hS hF hw (hA a haA) f1
    obtain ⟨q, -, -⟩ := execM_mono hs hS hS (withinM_refl hS) (hA a haA) g1
    have hF1 : WithinM F F1 := fun i => by have := f2 i; constructor <;> grind
    obtain ⟨S', g3, g4⟩ := ih (fun b hb => has b (by simp [hb])) q (withinM_trans hF1 g2)
    exact ⟨S', execAllM_cons.mpr ⟨S1, g1, g3⟩, g4⟩

/-- C111: the order does not matter: any two sequences of the statements that end in a stable state end with the same bounds. -/
theorem C111_order (hs : ∀ i, E.disc i = true → LawfulStep (T i)) (hA : ∀ a ∈ A, a.Ok E) (has : ∀ a ∈ as, a ∈ A) (hbs : ∀ b ∈ bs, b ∈ A) (hS : AllProperM S)
    (hF : execAllM E dbg as S = .ok F) (hG : execAllM E dbg bs S = .ok G) (sF : StableM E dbg A F) (sG : StableM E dbg A G) : SameBoundsM F G := by
  obtain ⟨f1, f2⟩ := C111_narrows hs hS (fun a h => hA a (has a h)) hF
  obtain ⟨g1, g2⟩ := C111_narrows hs hS (fun a h => hA a (hbs a h)) hG
  obtain ⟨G', k1, k2⟩ := C111_above_stable hs hA hbs hS f1 sF f2
  obtain ⟨F', k3, k4⟩ := C111_above_stable hs hA has hS g1 sG g2
  rw [hG] at k1; cases k1
  rw [hF] at k3; cases k3
  intro x
  have := k2 x; have := k4 x
  constructor <;> grind

/-- C111: while there is a solution, no statement fails and none loses it, if the strict comparisons have room to step. -/
theorem C111_keeps (hs : ∀ i, E.disc i = true → LawfulStep (T i)) (hA : ∀ a ∈ A, a.Ok E) (has : ∀ a ∈ as, a ∈ A) (hg : ∀ a ∈ A, a.Gapless E S) {s : ∀ i, T i} (hsol : SolutionM E A S s) :
    ∃ F, execAllM E dbg as S = .ok F ∧ SolutionM E A F s := by
  induction as generalizing S with
  | nil => exact ⟨S, rfl, hsol⟩
  | cons a as ih =>
    have haA := has a (by simp)
    obtain ⟨ho, mono, iso⟩ := hA a haA
    have hS : AllProperM S := fun i => CppOrder.le_trans _ _ _ (hsol.1 i).1 (hsol.1 i).2
    have hr : ProperA (a.y.arg S) := opd_proper ho hS
    have hv : ∃ v, v ∈ₐ a.y.arg S ∧ holdsX a.k (s a.x) (E.cv a.y.ty a.x v) = true := by
      have := hsol.2 a haA
      unfold MNarrowing.Holds at this
      cases hy : a.y with
      | var j => rw [hy] at this; exact ⟨s j, hsol.1 j, this⟩
      | lit j r => rw [hy] at this; exact this
    obtain ⟨v, hv, hk⟩ := hv
    obtain ⟨R, e, m⟩ := body_keeps (dbg := dbg) (hS a.x) hr mono (hs a.x) a.k (hsol.1 a.x) hv hk (fun hst w hw => hg a haA hst _ w (hsol.1 a.x) hw)
    have e1 : a.exec E dbg S = .ok (Function.update S a.x R) := exec_iff.mpr ⟨R, e, rfl⟩
    obtain ⟨q, w, -⟩ := execM_mono hs hS hS (withinM_refl hS) ⟨ho, mono, iso⟩ e1
    have h1 : ∀ i, s i ∈ᵢ Function.update S a.x R i := fun i => by
      by_cases hi : i = a.x
      · subst hi; rw [Function.update_self]; exact m
      · rw [Function.update_of_ne hi]; exact hsol.1 i
    have sub : ∀ i u, u ∈ᵢ Function.update S a.x R i → u ∈ᵢ S i := fun i u hu => ⟨CppOrder.le_trans _ _ _ (w i).1 hu.1, CppOrder.le_trans _ _ _ hu.2 (w i).2⟩
    obtain ⟨F, f1, f2⟩ := ih (fun b hb => has b (by simp [hb])) (fun b hb hst u v hu hv => hg b hb hst u v (sub _ _ hu) (opd_sub sub b.y _ hv)) ⟨h1, hsol.2⟩
    exact ⟨F, execAllM_cons.mpr ⟨_, e1, f1⟩, f2⟩

theorem stepM_width {D : List ι} (rank : ∀ i, T i → Int) (hlt : ∀ i ∈ D, ∀ u v : T i, lt u v = true → rank i u < rank i v) (heq : ∀ i ∈ D, ∀ u v : T i, eq u v = true → rank i u = rank i v)
    (hS : AllProperM S) (hS' : AllProperM S') (hw : WithinM S' S) :
    (D.map (fun i => rank i (S' i).hi - rank i (S' i).lo)).sum ≤ (D.map (fun i => rank i (S i).hi - rank i (S i).lo)).sum ∧
    (¬ (∀ i ∈ D, eq (S' i).lo (S i).lo = true ∧ eq (S' i).hi (S i).hi = true) →
      (D.map (fun i => rank i (S' i).hi - rank i (S' i).lo)).sum < (D.map (fun i => rank i (S i).hi - rank i (S i).lo)).sum) := by
  have hle : ∀ i ∈ D, ∀ a b : T i, le a b = true → rank i a ≤ rank i b := by
    intro i hi a b h
    by_cases h' : eq a b = true
    · exact le_of_eq (heq i hi a b h')
    · exact (hlt i hi a b (by clear hlt heq; grind)).le
  induction D with
  | nil => exact ⟨le_refl _, fun h => absurd (fun x hx => by cases hx) h⟩
  | cons x D ih =>
    obtain ⟨i1, i2⟩ := ih (fun y h => hlt y (by simp [h])) (fun y h => heq y (by simp [h])) (fun y h => hle y (by simp [h]))
    obtain ⟨w1, w2⟩ := hw x
    have r1 := hle x (by simp) _ _ w1
    have r2 := hle x (by simp) _ _ w2
    simp only [List.map_cons, List.sum_cons]
    refine ⟨by linarith, fun hn => ?_⟩
    by_cases hE : ∀ i ∈ D, eq (S' i).lo (S i).lo = true ∧ eq (S' i).hi (S i).hi = true
    · have : ¬ (eq (S' x).lo (S x).lo = true ∧ eq (S' x).hi (S x).hi = true) := by
        intro h; apply hn
        intro y hy
        rcases List.mem_cons.mp hy with rfl | hy
        · exact h
        · exact hE y hy
      by_cases h1 : eq (S' x).lo (S x).lo = true
      · have h2 : lt (S' x).hi (S x).hi = true := by clear hlt heq hle ih hE hn; grind
        have := hlt x (by simp) _ _ h2; linarith
      · have h2 : lt (S x).lo (S' x).lo = true := by clear hlt heq hle ih hE hn; grind
        have := hlt x (by simp) _ _ h2; linarith
    · have := i2 hE; linarith

theorem reachesM (hs : ∀ i, E.disc i = true → LawfulStep (T i)) (hA : ∀ a ∈ A, a.Ok E) (rank : ∀ i, T i → Int) (hlt : ∀ i ∈ A.map (·.x), ∀ u v : T i, lt u v = true → rank i u < rank i v)
    (heq : ∀ i ∈ A.map (·.x), ∀ u v : T i, eq u v = true → rank i u = rank i v) {s : ∀ i, T i} : ∀ (n : Nat) (S : ∀ i, Ivl (T i)), (∀ a ∈ A, a.Gapless E S) → SolutionM E A S s →
      ((A.map (·.x)).map (fun i => rank i (S i).hi - rank i (S i).lo)).sum ≤ n → ∃ as F, (∀ a ∈ as, a ∈ A) ∧ execAllM E dbg as S = .ok F ∧ StableM E dbg A F ∧ SolutionM E A F s := by
  intro n
  induction n with
  | zero =>
    intro S hg hsol hn
    have hS : AllProperM S := fun i => CppOrder.le_trans _ _ _ (hsol.1 i).1 (hsol.1 i).2
    refine ⟨[], S, by simp, rfl, fun a ha => ?_, hsol⟩
    obtain ⟨F, f1, f2⟩ := C111_keeps (dbg := dbg) (as := [a]) hs hA (by simpa using ha) hg hsol
    obtain ⟨S1, g1, g2⟩ := execAllM_cons.mp f1
    cases g2
    obtain ⟨p, w, -⟩ := execM_mono hs hS hS (withinM_refl hS) (hA a ha) g1
    refine ⟨F, g1, ?_⟩
    by_contra hne
    have hD : ¬ ∀ i ∈ A.map (·.x), eq (F i).lo (S i).lo = true ∧ eq (F i).hi (S i).hi = true := by
      intro h; apply hne; intro i
      by_cases hi : i ∈ A.map (·.x)
      · exact h i hi
      · obtain ⟨R, -, rfl⟩ := exec_iff.mp g1
        have : i ≠ a.x := by rintro rfl; exact hi (List.mem_map.mpr ⟨a, ha, rfl⟩)
        rw [Function.update_of_ne this]
        have := withinM_refl hS i
        constructor <;> (clear hlt heq; grind)
    have h1 := (stepM_width rank hlt heq hS p w).2 hD
    have h2 : 0 ≤ ((A.map (·.x)).map (fun i => rank i (F i).hi - rank i (F i).lo)).sum := by
      apply List.sum_nonneg
      intro z hz
      obtain ⟨i, hi, rfl⟩ := List.mem_map.mp hz
      have : rank i (F i).lo ≤ rank i (F i).hi := by
        by_cases h' : eq (F i).lo (F i).hi = true
        · exact le_of_eq (heq i hi _ _ h')
        · exact (hlt i hi _ _ (by have := p i; unfold Spec.Proper at this; clear hlt heq; grind)).le
      linarith
    simp only [Nat.cast_zero] at hn
    linarith
  | succ n ih =>
    intro S hg hsol hn
    have hS : AllProperM S := fun i => CppOrder.le_trans _ _ _ (hsol.1 i).1 (hsol.1 i).2
    by_cases hst : StableM E dbg A S
    · exact ⟨[], S, by simp, rfl, hst, hsol⟩
    · unfold StableM at hst
      push Not at hst
      obtain ⟨a, ha, hst⟩ := hst
      obtain ⟨F, f1, f2⟩ := C111_keeps (dbg := dbg) (as := [a]) hs hA (by simpa using ha) hg hsol
      obtain ⟨S1, g1, g2⟩ := execAllM_cons.mp f1
      cases g2
      obtain ⟨p, w, -⟩ := execM_mono hs hS hS (withinM_refl hS) (hA a ha) g1
      have hne := hst F g1
      have hD : ¬ ∀ i ∈ A.map (·.x), eq (F i).lo (S i).lo = true ∧ eq (F i).hi (S i).hi = true := by
        intro h; apply hne; intro i
        by_cases hi : i ∈ A.map (·.x)
        · exact h i hi
        · obtain ⟨R, -, rfl⟩ := exec_iff.mp g1
          have : i ≠ a.x := by rintro rfl; exact hi (List.mem_map.mpr ⟨a, ha, rfl⟩)
          rw [Function.update_of_ne this]
          have := withinM_refl hS i
          constructor <;> (clear hlt heq; grind)
      have h1 := (stepM_width rank hlt heq hS p w).2 hD
      have sub : ∀ i u, u ∈ᵢ F i → u ∈ᵢ S i := fun i u hu => ⟨CppOrder.le_trans _ _ _ (w i).1 hu.1, CppOrder.le_trans _ _ _ hu.2 (w i).2⟩
      obtain ⟨as, G, a1, a2, a3, a4⟩ := ih F (fun b hb hst u v hu hv => hg b hb hst u v (sub _ _ hu) (opd_sub sub b.y _ hv)) f2 (by push_cast at hn; linarith)
      exact ⟨a :: as, G, by intro b hb; rcases List.mem_cons.mp hb with rfl | hb; exacts [ha, a1 b hb], execAllM_cons.mpr ⟨F, g1, a2⟩, a3, a4⟩

/-- C111: if there is a solution, the strict comparisons have room to step, and the intervals that are narrowed are of types whose values have integer ranks, some sequence of the statements ends
in a stable state that contains the solution; every other sequence stays above that state, and ends with the same bounds if it ends in a stable state. -/
theorem C111_fixpoint (hs : ∀ i, E.disc i = true → LawfulStep (T i)) (hA : ∀ a ∈ A, a.Ok E) (rank : ∀ i, T i → Int) (hlt : ∀ i ∈ A.map (·.x), ∀ u v : T i, lt u v = true → rank i u < rank i v)
    (heq : ∀ i ∈ A.map (·.x), ∀ u v : T i, eq u v = true → rank i u = rank i v) {s : ∀ i, T i} (hg : ∀ a ∈ A, a.Gapless E S) (hsol : SolutionM E A S s) :
    ∃ as F, (∀ a ∈ as, a ∈ A) ∧ execAllM E dbg as S = .ok F ∧ StableM E dbg A F ∧ SolutionM E A F s ∧
      ∀ bs G, (∀ b ∈ bs, b ∈ A) → execAllM E dbg bs S = .ok G → WithinM F G ∧ (StableM E dbg A G → SameBoundsM F G) := by
  have hS : AllProperM S := fun i => CppOrder.le_trans _ _ _ (hsol.1 i).1 (hsol.1 i).2
  obtain ⟨as, F, a1, a2, a3, a4⟩ := reachesM (dbg := dbg) hs hA rank hlt heq _ S hg hsol (Int.self_le_toNat _)
  obtain ⟨f1, f2⟩ := C111_narrows hs hS (fun a h => hA a (a1 a h)) a2
  refine ⟨as, F, a1, a2, a3, a4, fun bs G hb hG => ⟨?_, fun sG => C111_order hs hA a1 hb hS a2 hG a3 sG⟩⟩
  obtain ⟨G', k1, k2⟩ := C111_above_stable hs hA hb hS f1 a3 f2
  rw [hG] at k1; cases k1
  exact k2
end

section ints
variable {ι : Type} [DecidableEq ι] {w : ι → Nat}

theorem cast_wide {m n : Nat} (h : n ≤ m) (v : SInt n) : (narrowCastV m v).val = v.val := by
  have : (2:Int)^n ≤ 2^m := pow_le_pow_right₀ (by decide) h
  have := v.ge; have := v.le
  exact wrapInt_rep ⟨by omega, by omega⟩

theorem pred_int {n : Nat} (v p : SInt n) : predStep true v = .ok p ↔ v.val - 1 = p.val := by
  have := p.ge; have := p.le
  simp only [predStep, CppStep.pred, BInt.ofInt, if_true]
  by_cases hc : -2 ^ n ≤ v.val - 1 ∧ v.val - 1 ≤ 2 ^ n - 1
  · simp only [hc, and_self, dif_pos]
    constructor
    · intro h; cases h; rfl
    · intro h; cases p; simp only at h; subst h; rfl
  · simp only [hc, dif_neg, not_false_eq_true]
    constructor
    · intro h; cases h
    · intro h; omega
theorem succ_int {n : Nat} (v p : SInt n) : succStep true v = .ok p ↔ v.val + 1 = p.val := by
  have := p.ge; have := p.le
  simp only [succStep, CppStep.succ, BInt.ofInt, if_true]
  by_cases hc : -2 ^ n ≤ v.val + 1 ∧ v.val + 1 ≤ 2 ^ n - 1
  · simp only [hc, and_self, dif_pos]
    constructor
    · intro h; cases h; rfl
    · intro h; cases p; simp only at h; subst h; rfl
  · simp only [hc, dif_neg, not_false_eq_true]
    constructor
    · intro h; cases h
    · intro h; omega

theorem stepIso_int (n : Nat) : StepIso (V := SInt n) (predStep true) (succStep true) := by
  constructor
  · intro a b p h e
    have h : a.val ≤ b.val := of_decide_eq_true h
    have e := (pred_int _ _).mp e
    have := p.ge; have := b.le
    exact ⟨⟨b.val - 1, by omega, by omega⟩, (pred_int _ _).mpr rfl, decide_eq_true (by show p.val ≤ b.val - 1; omega)⟩
  · intro a b p h e
    have h : a.val ≤ b.val := of_decide_eq_true h
    have e := (succ_int _ _).mp e
    have := p.le; have := a.ge
    exact ⟨⟨a.val + 1, by omega, by omega⟩, (succ_int _ _).mpr rfl, decide_eq_true (by show a.val + 1 ≤ p.val; omega)⟩

theorem narrowing_ok_int {a : MNarrowing (fun i => SInt (w i))} (h : a.IntOk) : a.Ok (intTypes w) := by
  refine ⟨h.1, fun u v huv => ?_, stepIso_int _⟩
  have huv : u.val ≤ v.val := of_decide_eq_true huv
  refine decide_eq_true ?_
  show (narrowCastV (w a.x) u).val ≤ (narrowCastV (w a.x) v).val
  rw [cast_wide h.2 u, cast_wide h.2 v]; exact huv

theorem gapless_int {a : MNarrowing (fun i => SInt (w i))} {S : ∀ i, Ivl (SInt (w i))} (h : a.IntOk) (hr : a.Room S) : a.Gapless (intTypes w) S := by
  intro hst u v hu hv
  obtain ⟨r1, r2⟩ := hr hst
  have u1 : (S a.x).lo.val ≤ u.val := of_decide_eq_true hu.1
  have u2 : u.val ≤ (S a.x).hi.val := of_decide_eq_true hu.2
  have v1 : (a.y.arg S).lo.val ≤ v.val := of_decide_eq_true (mem_bounds.mp hv).1
  have v2 : v.val ≤ (a.y.arg S).hi.val := of_decide_eq_true (mem_bounds.mp hv).2
  have v3 := v.ge; have v4 := v.le
  refine ⟨fun hl => ?_, fun hl => ?_⟩
  · have hl : u.val < (narrowCastV (w a.x) v).val := of_decide_eq_true hl
    rw [cast_wide h.2] at hl
    refine ⟨⟨v.val - 1, by omega, by omega⟩, (pred_int _ _).mpr rfl, decide_eq_true ?_⟩
    show u.val ≤ (narrowCastV (w a.x) _).val
    rw [cast_wide h.2]; show u.val ≤ v.val - 1; omega
  · have hl : (narrowCastV (w a.x) v).val < u.val := of_decide_eq_true hl
    rw [cast_wide h.2] at hl
    refine ⟨⟨v.val + 1, by omega, by omega⟩, (succ_int _ _).mpr rfl, decide_eq_true ?_⟩
    show (narrowCastV (w a.x) _).val ≤ u.val
    rw [cast_wide h.2]; show v.val + 1 ≤ u.val; omega

/-- C111: the steps of signed integers and of floating-point numbers (which are not stepped) preserve order; the conversions do by `C101_casts`. -/
theorem C111_steps : (∀ n : Nat, StepIso (V := SInt n) (predStep true) (succStep true)) ∧ (∀ {K : Type} [Field K] [LinearOrder K], StepIso (V := Fl K) (predStep false) (succStep false)) := by
  refine ⟨stepIso_int, ⟨fun a b p h e => ?_, fun a b p h e => ?_⟩⟩
  · simp only [predStep, Bool.false_eq_true, if_false] at e ⊢; cases e; exact ⟨b, rfl, h⟩
  · simp only [succStep, Bool.false_eq_true, if_false] at e ⊢; cases e; exact ⟨a, rfl, h⟩

/-- C111 for intervals of signed integer types of any widths, each narrowed by comparisons with operands of types that are not wider: if there is a solution, and strict comparisons have room to step,
the statements can be run until nothing changes, and the bounds reached do not depend on the order. -/
theorem C111_int (dbg : Bool) {A : List (MNarrowing (fun i => SInt (w i)))} {S : ∀ i, Ivl (SInt (w i))} {s : ∀ i, SInt (w i)} (hA : ∀ a ∈ A, a.IntOk) (hr : ∀ a ∈ A, a.Room S)
    (hsol : SolutionM (intTypes w) A S s) :
    ∃ as F, (∀ a ∈ as, a ∈ A) ∧ execAllM (intTypes w) dbg as S = .ok F ∧ StableM (intTypes w) dbg A F ∧ SolutionM (intTypes w) A F s ∧
      ∀ bs G, (∀ b ∈ bs, b ∈ A) → execAllM (intTypes w) dbg bs S = .ok G → WithinM F G ∧ (StableM (intTypes w) dbg A G → SameBoundsM F G) :=
  C111_fixpoint (fun _ _ => lawfulStep_bint _ _) (fun a h => narrowing_ok_int (hA a h)) (fun i v => v.val) (fun i _ u v h => of_decide_eq_true h) (fun i _ u v h => by simpa [CppVal.eq] using h)
    (fun a h => gapless_int (hA a h) (hr a h)) hsol

private def exW : Fin 3 → Nat
  | 0 => 15
  | 1 => 31
  | 2 => 63
private def exS : ∀ i, Ivl (SInt (exW i))
  | 0 => ⟨⟨2, by decide, by decide⟩, ⟨9, by decide, by decide⟩⟩
  | 1 => ⟨⟨0, by decide, by decide⟩, ⟨50, by decide, by decide⟩⟩
  | 2 => ⟨⟨-2^40, by decide, by decide⟩, ⟨2^40, by decide, by decide⟩⟩
private def exF : ∀ i, Ivl (SInt (exW i))
  | 0 => ⟨⟨2, by decide, by decide⟩, ⟨9, by decide, by decide⟩⟩
  | 1 => ⟨⟨3, by decide, by decide⟩, ⟨50, by decide, by decide⟩⟩
  | 2 => ⟨⟨3, by decide, by decide⟩, ⟨19, by decide, by decide⟩⟩
private def exs : ∀ i, SInt (exW i)
  | 0 => ⟨4, by decide, by decide⟩
  | 1 => ⟨7, by decide, by decide⟩
  | 2 => ⟨7, by decide, by decide⟩
/-- `n > s`, `k >= n`, `k < short(20)` for `interval<short> s`, `interval<int> n`, `interval<long long> k` -/
private def exA : List (MNarrowing (fun i => SInt (exW i))) := [⟨2, .leqX, .var 1⟩, ⟨1, .lessX, .var 0⟩, ⟨2, .xLess, .lit 0 (.scalar ⟨20, by decide, by decide⟩)⟩]
private theorem ex_ok : ∀ a ∈ exA, a.IntOk := by
  intro a ha
  simp only [exA, List.mem_cons, List.not_mem_nil, or_false] at ha
  rcases ha with rfl | rfl | rfl
  · exact ⟨by show (1 : Fin 3) ≠ 2; decide, by decide⟩
  · exact ⟨by show (0 : Fin 3) ≠ 1; decide, by decide⟩
  · exact ⟨by show ProperA (.scalar (⟨20, by decide, by decide⟩ : SInt 15)); decide, by decide⟩
private theorem ex_room : ∀ a ∈ exA, a.Room exS := by
  intro a ha
  simp only [exA, List.mem_cons, List.not_mem_nil, or_false] at ha
  rcases ha with rfl | rfl | rfl
  · intro h; cases h
  · intro h; exact ⟨.inr (by decide), .inr (by decide)⟩
  · intro h; exact ⟨.inr (by decide), .inr (by decide)⟩
private theorem ex_sol : SolutionM (intTypes exW) exA exS exs := by
  refine ⟨fun i => ?_, fun a ha => ?_⟩
  · match i with
    | 0 => exact ⟨by decide, by decide⟩
    | 1 => exact ⟨by decide, by decide⟩
    | 2 => exact ⟨by decide, by decide⟩
  · simp only [exA, List.mem_cons, List.not_mem_nil, or_false] at ha
    rcases ha with rfl | rfl | rfl
    · show holdsX _ _ _ = true; decide
    · show holdsX _ _ _ = true; decide
    · exact ⟨⟨20, by decide, by decide⟩, mem_bounds.mpr ⟨by decide, by decide⟩, by decide⟩
/-- the hypotheses of `C111_int` hold for `s = [2, 9]`, `n = [0, 50]`, `k = [-2^40, 2^40]`; running the statements in the order given twice gives `n = [3, 50]`, `k = [3, 19]`, which is stable -/
example : (∀ a ∈ exA, a.IntOk) ∧ (∀ a ∈ exA, a.Room exS) ∧ SolutionM (intTypes exW) exA exS exs ∧
    (∀ i, (execAllM (intTypes exW) true (exA ++ exA) exS).map (fun F => F i) = .ok (exF i)) ∧ (∀ a ∈ exA, ∀ i, (a.exec (intTypes exW) true exF).map (fun F => F i) = .ok (exF i)) :=
  ⟨ex_ok, ex_room, ex_sol, fun i => by match i with
    | 0 => decide
    | 1 => decide
    | 2 => decide, fun a ha i => by
    simp only [exA, List.mem_cons, List.not_mem_nil, or_false] at ha
    rcases ha with rfl | rfl | rfl <;> (match i with
      | 0 => decide
      | 1 => decide
      | 2 => decide)⟩

private def limS : ∀ i, Ivl (SInt (exW i))
  | 0 => ⟨⟨2, by decide, by decide⟩, ⟨9, by decide, by decide⟩⟩
  | 1 => ⟨⟨-2^31, by decide, by decide⟩, ⟨-2^31, by decide, by decide⟩⟩
  | 2 => ⟨⟨-2^40, by decide, by decide⟩, ⟨0, by decide, by decide⟩⟩
private def lims : ∀ i, SInt (exW i)
  | 0 => ⟨4, by decide, by decide⟩
  | 1 => ⟨-2^31, by decide, by decide⟩
  | 2 => ⟨-2^40, by decide, by decide⟩
/-- C111: without room to step it fails: `reset(k, constrain(k, k < n))` for `interval<int> n{ INT_MIN }` and `interval<long long> k{ -2^40, 0 }` is undefined behaviour, although the values at the lower
bounds satisfy the comparison. -/
theorem C111_limit : ∃ (w : Fin 3 → Nat) (a : MNarrowing (fun i => SInt (w i))) (S : ∀ i, Ivl (SInt (w i))) (s : ∀ i, SInt (w i)),
    a.IntOk ∧ SolutionM (intTypes w) [a] S s ∧ execAllM (intTypes w) true [a] S = .error .ub := by
  refine ⟨exW, ⟨2, .xLess, .var 1⟩, limS, lims, ⟨by show (1 : Fin 3) ≠ 2; decide, by decide⟩, ⟨fun i => ?_, fun a ha => ?_⟩, rfl⟩
  · match i with
    | 0 => exact ⟨by decide, by decide⟩
    | 1 => exact ⟨by decide, by decide⟩
    | 2 => exact ⟨by decide, by decide⟩
  · simp only [List.mem_cons, List.not_mem_nil, or_false] at ha
    subst ha
    show holdsX _ _ _ = true; decide
end ints

section
variable {m n : Nat} {dbg : Bool} {x R : Ivl (SInt n)} {r : Arg (SInt m)}
theorem supported_int (hmn : m ≤ n) (hx : Proper x) (hr : ProperA r) (k : XRel) (h : constrainM (narrowCastV n) (predStep true) (succStep true) true dbg x r k = .ok R)
    (hlo : R.lo.val = x.lo.val) (hhi : R.hi.val = x.hi.val) (u : SInt n) (hu : u = x.lo ∨ u = x.hi) : ∃ v, v ∈ₐ r ∧ holdsX k u (narrowCastV n v) = true := by
  have hx0 : x.lo.val ≤ x.hi.val := of_decide_eq_true hx
  have hr0 : r.lo.val ≤ r.hi.val := of_decide_eq_true (proper_le hr)
  have hu0 : x.lo.val ≤ u.val ∧ u.val ≤ x.hi.val := by rcases hu with rfl | rfl <;> omega
  have hc : BoolSet.contains (k.compare (narrowCastV n) x r) true = true := by
    cases hc : BoolSet.contains (k.compare (narrowCastV n) x r) true
    · rw [constrainM_impossible hx hr k hc] at h; cases h
    · rfl
  rw [constrainM_body hx hr k hc] at h
  have cw : ∀ v : SInt m, (narrowCastV n v).val = v.val := cast_wide hmn
  have mem : ∀ v : SInt m, r.lo.val ≤ v.val → v.val ≤ r.hi.val → v ∈ₐ r := fun v a b => mem_bounds.mpr ⟨decide_eq_true a, decide_eq_true b⟩
  have ne_case : ∀ k, (k = .xNe ∨ k = .neX) → bodyX (narrowCastV n) (predStep true) (succStep true) true x r k = .ok R → BoolSet.contains (k.compare (narrowCastV n) x r) true = true →
      ∃ v, v ∈ₐ r ∧ ne u (narrowCastV n v) = true := by
    intro k hk h hc
    by_cases hs : r.lo.val = r.hi.val
    · refine ⟨r.lo, lo_mem hr, ?_⟩
      have hc' : x.lo.val ≠ r.hi.val ∨ x.hi.val ≠ r.lo.val := by
        rcases hk with rfl | rfl <;> simp [XRel.compare, contains_neM, ivl_lo, ivl_hi, CppVal.ne, CppVal.eq, cw] at hc <;> omega
      rcases ne_cases (r := r) (cv := narrowCastV n) (pr := predStep true) (su := succStep true) (fun _ => lawfulStep_bint _ _) hx k hk with ⟨-, -, -, -, s, -, g1, g2, g3⟩ | ⟨-, -, -, -, -, s, -, g1, g2, g3⟩ | ⟨g1, g3⟩
      · rw [g3] at h; cases h; have g2 : x.lo.val < s.val := of_decide_eq_true g2; simp only at hlo; omega
      · rw [g3] at h; cases h; have g2 : s.val < x.hi.val := of_decide_eq_true g2; simp only at hhi; omega
      · simp [CppVal.ne, CppVal.eq, cw, hs] at g1 ⊢
        rcases hu with rfl | rfl <;> omega
    · by_cases hl : u.val = r.lo.val
      · exact ⟨r.hi, hi_mem hr, by simp [CppVal.ne, CppVal.eq, cw]; omega⟩
      · exact ⟨r.lo, lo_mem hr, by simp [CppVal.ne, CppVal.eq, cw]; omega⟩
  have eq_case : r.lo.val ≤ x.lo.val → x.hi.val ≤ r.hi.val → ∃ v, v ∈ₐ r ∧ (narrowCastV n v).val = u.val := fun h1 h2 => by
    have := r.lo.ge; have := r.hi.le
    exact ⟨⟨u.val, by omega, by omega⟩, mem _ (by show r.lo.val ≤ u.val; omega) (by show u.val ≤ r.hi.val; omega), by rw [cw]⟩
  cases k <;> simp only [holdsX]
  case xNe => exact ne_case _ (.inl rfl) h hc
  case neX =>
    obtain ⟨v, a, b⟩ := ne_case _ (.inr rfl) h hc
    exact ⟨v, a, by simp [CppVal.ne, CppVal.eq] at b ⊢; omega⟩
  case xLess =>
    simp only [bodyX, bind_eq_ok] at h
    obtain ⟨p, e, h⟩ := h
    have e := (pred_int _ _).mp e
    obtain ⟨q, rfl⟩ := make_eq_ok.mp h
    refine ⟨r.hi, hi_mem hr, ?_⟩
    have c := cw p
    simp only [cmin, CppVal.lt] at hhi ⊢
    simp only [decide_eq_true_eq, cw]
    split at hhi <;> simp_all <;> omega
  case lessX =>
    simp only [bodyX, bind_eq_ok] at h
    obtain ⟨p, e, h⟩ := h
    have e := (succ_int _ _).mp e
    obtain ⟨q, rfl⟩ := make_eq_ok.mp h
    refine ⟨r.lo, lo_mem hr, ?_⟩
    have c := cw p
    simp only [cmax, CppVal.lt] at hlo ⊢
    simp only [decide_eq_true_eq, cw]
    split at hlo <;> simp_all <;> omega
  case xLeq =>
    obtain ⟨q, rfl⟩ := make_eq_ok.mp h
    refine ⟨r.hi, hi_mem hr, ?_⟩
    simp only [cmin, CppVal.lt, CppVal.le] at hhi ⊢
    simp only [decide_eq_true_eq, cw]
    split at hhi <;> simp_all <;> omega
  case leqX =>
    obtain ⟨q, rfl⟩ := make_eq_ok.mp h
    refine ⟨r.lo, lo_mem hr, ?_⟩
    simp only [cmax, CppVal.lt, CppVal.le] at hlo ⊢
    simp only [decide_eq_true_eq, cw]
    split at hlo <;> simp_all <;> omega
  case xEq =>
    obtain ⟨q, rfl⟩ := make_eq_ok.mp h
    obtain ⟨v, a, b⟩ := eq_case (by
      simp only [cmax, CppVal.lt] at hlo
      split at hlo <;> simp_all <;> omega) (by
      simp only [cmin, CppVal.lt] at hhi
      split at hhi <;> simp_all <;> omega)
    exact ⟨v, a, by simp [CppVal.eq, b]⟩
  case eqX =>
    obtain ⟨q, rfl⟩ := make_eq_ok.mp h
    obtain ⟨v, a, b⟩ := eq_case (by
      simp only [cmax, CppVal.lt] at hlo
      split at hlo <;> simp_all <;> omega) (by
      simp only [cmin, CppVal.lt] at hhi
      split at hhi <;> simp_all <;> omega)
    exact ⟨v, a, by simp [CppVal.eq, b]⟩
end

/-- C111: in a state that no statement changes, both bounds of each narrowed interval satisfy each comparison with some value of the operand (integers). -/
theorem C111_supported {ι : Type} [DecidableEq ι] {w : ι → Nat} (dbg : Bool) {A : List (MNarrowing (fun i => SInt (w i)))} {F : ∀ i, Ivl (SInt (w i))} (hF : AllProperM F)
    (hst : StableM (intTypes w) dbg A F) (a : MNarrowing (fun i => SInt (w i))) (ha : a ∈ A) (hok : a.IntOk) (u : SInt (w a.x)) (hu : u = (F a.x).lo ∨ u = (F a.x).hi) :
    ∃ v, v ∈ₐ a.y.arg F ∧ holdsX a.k u ((intTypes w).cv a.y.ty a.x v) = true := by
  obtain ⟨F', h, hsame⟩ := hst a ha
  obtain ⟨R, g, rfl⟩ := exec_iff.mp h
  have := hsame a.x
  rw [Function.update_self] at this
  have e1 : R.lo.val = (F a.x).lo.val := by simpa [CppVal.eq] using this.1
  have e2 : R.hi.val = (F a.x).hi.val := by simpa [CppVal.eq] using this.2
  exact supported_int hok.2 (hF a.x) (opd_proper hok.1 hF) a.k g e1 e2 u hu

/-- the hypotheses of `C111_supported` hold for the state reached in the example of `C111_int` -/
example : AllProperM exF ∧ StableM (intTypes exW) true exA exF := by
  refine ⟨fun i => ?_, fun a ha => ?_⟩
  · match i with
    | 0 => exact (by decide : le (exF 0).lo (exF 0).hi = true)
    | 1 => exact (by decide : le (exF 1).lo (exF 1).hi = true)
    | 2 => exact (by decide : le (exF 2).lo (exF 2).hi = true)
  · refine ⟨_, exec_iff.mpr ⟨exF a.x, ?_, rfl⟩, fun i => ?_⟩
    · simp only [exA, List.mem_cons, List.not_mem_nil, or_false] at ha
      rcases ha with rfl | rfl | rfl <;> decide
    · rw [Function.update_eq_self]
      exact ⟨by simp [CppVal.eq], by simp [CppVal.eq]⟩

section
variable {V T : Type} [CppVal V] [CppNum V] [CppOrder V] [CppVal T] [CppNum T] [CppOrder T] [CppStep T]
variable {cv : V → T} {pr su : V → Outcome V} {d dbg : Bool} {x R : Ivl T} {r : Arg V}
theorem supported_any (hx : Proper x) (hr : ProperA r) (mono : MonoCast cv) (k : XRel) (h : constrainM cv pr su d dbg x r k = .ok R)
    (hlo : eq R.lo x.lo = true) (hhi : eq R.hi x.hi = true) (u : T) (hu : u = x.lo ∨ u = x.hi) :
    (k = .xLeq ∨ k = .leqX → ∃ v, v ∈ₐ r ∧ holdsX k u (cv v) = true) ∧ (equalX k = true → ∃ v w, v ∈ₐ r ∧ w ∈ₐ r ∧ le (cv v) u = true ∧ le u (cv w) = true) := by
  have hx0 : le x.lo x.hi = true := hx
  have hl := mono _ _ (proper_le hr)
  have hc : BoolSet.contains (k.compare cv x r) true = true := by
    cases hc : BoolSet.contains (k.compare cv x r) true
    · rw [constrainM_impossible hx hr k hc] at h; cases h
    · rfl
  rw [constrainM_body hx hr k hc] at h
  clear mono hc
  have r1 := lo_mem hr; have r2 := hi_mem hr
  cases k <;> simp only [equalX, reduceCtorEq, or_self, or_false, false_or, true_implies, false_implies, and_true, true_and, Bool.false_eq_true, holdsX]
  case xLeq =>
    obtain ⟨q, rfl⟩ := make_eq_ok.mp h
    refine ⟨r.hi, r2, ?_⟩
    clear r1 r2 h q
    unfold cmin at *; dsimp only at *; grind
  case leqX =>
    obtain ⟨q, rfl⟩ := make_eq_ok.mp h
    refine ⟨r.lo, r1, ?_⟩
    clear r1 r2 h q
    unfold cmax at *; dsimp only at *; grind
  case xEq =>
    obtain ⟨q, rfl⟩ := make_eq_ok.mp h
    refine ⟨r.lo, r.hi, r1, r2, ?_, ?_⟩ <;> clear r1 r2 h q <;> unfold cmax cmin at * <;> dsimp only at * <;> grind
  case eqX =>
    obtain ⟨q, rfl⟩ := make_eq_ok.mp h
    refine ⟨r.lo, r.hi, r1, r2, ?_, ?_⟩ <;> clear r1 r2 h q <;> unfold cmax cmin at * <;> dsimp only at * <;> grind
end

section
variable {ι : Type} [DecidableEq ι] {T : ι → Type} [∀ i, CppVal (T i)] [∀ i, CppNum (T i)] [∀ i, CppOrder (T i)] [∀ i, CppStep (T i)]
variable {E : ValueTypes T} {dbg : Bool} {A : List (MNarrowing T)} {F : ∀ i, Ivl (T i)}
/-- C111: in a state that no statement changes, both bounds of each narrowed interval satisfy each comparison `<=` or `>=` with some value of the operand, and those of an interval compared by `==` are between
values of the operand (all value types; for `==` the operand need not have a value that converts to the bound). -/
theorem C111_supported_any (hF : AllProperM F) (hst : StableM E dbg A F) (a : MNarrowing T) (ha : a ∈ A) (hy : a.y.Ok a.x) (mono : MonoCast (E.cv a.y.ty a.x)) (u : T a.x) (hu : u = (F a.x).lo ∨ u = (F a.x).hi) :
    (a.k = .xLeq ∨ a.k = .leqX → ∃ v, v ∈ₐ a.y.arg F ∧ holdsX a.k u (E.cv a.y.ty a.x v) = true) ∧
    (equalX a.k = true → ∃ v w, v ∈ₐ a.y.arg F ∧ w ∈ₐ a.y.arg F ∧ le (E.cv a.y.ty a.x v) u = true ∧ le u (E.cv a.y.ty a.x w) = true) := by
  obtain ⟨F', h, hsame⟩ := hst a ha
  obtain ⟨R, g, rfl⟩ := exec_iff.mp h
  have := hsame a.x
  rw [Function.update_self] at this
  exact supported_any (hF a.x) (opd_proper hy hF) mono a.k g this.1 this.2 u hu
end

private def flTypes : ValueTypes (fun _ : Bool => Fl ℚ) := ⟨fun _ => false, fun _ _ v => v, fun _ => predStep false, fun _ => succStep false⟩
private def flF : ∀ _ : Bool, Ivl (Fl ℚ)
  | false => ⟨.num 0, .num 2⟩
  | true => ⟨.num 1, .num 2⟩
/-- the hypotheses of `C111_supported_any` hold for doubles `x = [0., 2.]`, `y = [1., 2.]` and `x <= y` -/
example : letI := binary64Fmt
    AllProperM flF ∧ StableM flTypes true [⟨false, .xLeq, .var true⟩] flF ∧ MonoCast (flTypes.cv true false) := by
  letI := binary64Fmt
  refine ⟨fun i => ?_, fun a ha => ?_, fun _ _ h => h⟩
  · match i with
    | false => exact (by decide +kernel : le (flF false).lo (flF false).hi = true)
    | true => exact (by decide +kernel : le (flF true).lo (flF true).hi = true)
  · simp only [List.mem_cons, List.not_mem_nil, or_false] at ha
    subst ha
    refine ⟨_, exec_iff.mpr ⟨flF false, by decide +kernel, rfl⟩, fun i => ?_⟩
    rw [Function.update_eq_self]
    match i with
    | false => exact ⟨by decide +kernel, by decide +kernel⟩
    | true => exact ⟨by decide +kernel, by decide +kernel⟩
end Intervals.Props
