import Verif.Model.Examples
import Verif.Lemmas.Exact
import Verif.Lemmas.Tight
import Verif.Props.FltUnary
import Verif.Props.Monotone
import Verif.Props.FltArith
import Mathlib.Data.Rat.Floor
/-!
# C59, C60: the small example programs
-/
set_option linter.unusedSectionVars false
namespace Intervals.Props
open Intervals CppVal Spec
variable {K : Type} [Field K] [LinearOrder K] [IsStrictOrderedRing K] [Fmt K]

private theorem eq_tr {a b c : Fl K} (h1 : eq a b = true) (h2 : eq b c = true) : eq a c = true := by grind
private theorem eq_sy {a b : Fl K} (h1 : eq a b = true) : eq b a = true := by grind
private theorem pt_widen {v : Fl K} {R S : Ivl (Fl K)} (h : v ∈ᵢ S) (h1 : le R.lo S.lo = true) (h2 : le S.hi R.hi = true) : v ∈ᵢ R := by
  unfold Pt at *; grind
private theorem le_of_eq {a b : Fl K} (h1 : eq a b = true) : le a b = true := by grind
private theorem lt_of_not {a b : Fl K} (h : lt a b = false) (h1 : NotNan a) (h2 : NotNan b) : le b a = true := by unfold NotNan at *; grind
private theorem not_le {a b : Fl K} (h : lt a b = true) : le b a = false := by grind
private theorem not_le' {a b c : Fl K} (h : le b c = false) (h' : le a c = true) (h1 : NotNan b) : lt a b = true := by unfold NotNan at *; grind

section s
variable [Libm K]

private theorem constrain_ge (dbg : Bool) (x : Ivl (Fl K)) (z : Fl K) (hx : Proper x) (h : le z x.hi = true) (s : BoolSet) (ht : BoolSet.contains s true = true) :
    ∃ r, constrain dbg false 0 x (.leq s (.scalar true z) (.ident false 0 x)) = .ok r ∧ le r.hi x.hi = true ∧ le z r.lo = true ∧ le x.lo r.lo = true ∧ Proper r ∧
      (∀ v, v ∈ᵢ x → le z v = true → v ∈ᵢ r) := by
  rw [leaf_constrain (.leq s (.scalar true z) (.ident false 0 x)) rfl (Or.inr (self_match ..)) ht]
  have hn : (Operand.scalar true z).matchesId false 0 = false := by simp [Operand.matchesId]
  unfold Proper at hx
  simp only [narrow, hn, Bool.false_eq_true, if_false, self_lo, Operand.arg, Arg.lo, Arg.hi, h, expectsDebug_true, ok_bind]
  rw [make_of_le (by grind)]
  refine ⟨_, rfl, ?_, ?_, ?_, ?_, ?_⟩
  · simp only; grind
  · simp only; grind
  · simp only; grind
  · unfold Proper; grind
  · intro v hv hz; unfold Pt at *; simp only; grind

private theorem first_assign {S : Ivl (Fl K)} (hS : Proper S) :
    ∃ R, Ivl.assignPartial Ivl.unassigned S = .ok R ∧ eq R.lo S.lo = true ∧ eq R.hi S.hi = true := by
  have has : S.assigned = true := Intervals.assigned_of_proper (X := .ivl S) hS
  unfold Proper at hS
  have h1 := CppLawfulLimits.le_top S.lo (cle_left hS)
  have h2 := CppLawfulLimits.bot_le S.hi (cle_right hS)
  refine ⟨Ivl.assignCore Ivl.unassigned S.lo S.hi, by simp only [Ivl.assignPartial, Ivl.assign, has, expects_true, ok_bind, pure, Except.pure], ?_, ?_⟩
  · simp only [Ivl.assignCore, Ivl.unassigned]; grind
  · simp only [Ivl.assignCore, Ivl.unassigned]; grind
private theorem second_assign {R S : Ivl (Fl K)} (hR : Proper R) (hS : Proper S) :
    ∃ R', Ivl.assignPartial R S = .ok R' ∧ (eq R'.lo R.lo = true ∨ eq R'.lo S.lo = true) ∧ (eq R'.hi R.hi = true ∨ eq R'.hi S.hi = true) ∧
      le R'.lo R.lo = true ∧ le R'.lo S.lo = true ∧ le R.hi R'.hi = true ∧ le S.hi R'.hi = true := by
  have has : S.assigned = true := Intervals.assigned_of_proper (X := .ivl S) hS
  unfold Proper at hS hR
  refine ⟨Ivl.assignCore R S.lo S.hi, by simp only [Ivl.assignPartial, Ivl.assign, has, expects_true, ok_bind, pure, Except.pure], ?_⟩
  have nR := cle_left hR; have nR' := cle_right hR; have nS := cle_left hS; have nS' := cle_right hS
  have a1 := cmin_le nR nS; have a2 := le_cmax nR' nS'
  refine ⟨?_, ?_, a1.1, a1.2, a2.1, a2.2⟩
  · rcases cmin_or R.lo S.lo with e | e
    · left; simp only [Ivl.assignCore, e]; grind
    · right; simp only [Ivl.assignCore, e]; grind
  · rcases cmax_or R.hi S.hi with e | e
    · left; simp only [Ivl.assignCore, e]; grind
    · right; simp only [Ivl.assignCore, e]; grind
/-- C59: for every `sqrt` that is monotone on the non-negative numbers, `s` succeeds on every interval; its result contains `s(v)` for every point
`v`, and both bounds are attained. -/
theorem C59_s (mono : MonoOnFl (Libm.sqrt : Fl K → Fl K) Nonneg) (dbg : Bool) (x : Ivl (Fl K)) (hx : Proper x) :
    ∃ R, simpleS dbg x = .ok R ∧ (∀ v, v ∈ᵢ x → ∃ y, simpleSScalar dbg v = .ok y ∧ y ∈ᵢ R) ∧
      (∃ v y, v ∈ᵢ x ∧ simpleSScalar dbg v = .ok y ∧ eq y R.lo = true) ∧ (∃ v y, v ∈ᵢ x ∧ simpleSScalar dbg v = .ok y ∧ eq y R.hi = true) := by
  have has : (Operand.ident false 0 x).arg.assigned = true := Intervals.assigned_of_proper (X := .ivl x) hx
  have hx' : le x.lo x.hi = true := hx
  have n0 : NotNan (.num 0 : Fl K) := by simp [NotNan]
  have nl : NotNan x.lo := CppOrder.le_left _ _ hx
  have nh : NotNan x.hi := CppOrder.le_right _ _ hx
  have hc : condGe dbg (.ident false 0 x) (.scalar true (.num 0)) =
      .ok (.leq (compareLeq (.scalar (.num 0)) (.ivl x)) (.scalar true (.num 0)) (.ident false 0 x)) := by
    have h2 : (Operand.scalar true (.num 0 : Fl K)).arg.assigned = true := rfl
    simp only [condGe, opGe, has, h2, Bool.and_self, expectsDebug_true, ok_bind, pure, Except.pure]; rfl
  have t1 : BoolSet.contains (compareLeq (.scalar (.num 0)) (.ivl x)) true = le (.num 0) x.hi := by rw [contains_leq]; rfl
  have t2 : BoolSet.contains (compareLeq (.scalar (.num 0)) (.ivl x)) false = lt x.lo (.num 0) := by rw [contains_leq]; rfl
  have s1 : ∀ v : Fl K, le (.num 0) v = true → simpleSScalar dbg v = .ok (Libm.sqrt v) := fun v hv => by
    simp [simpleSScalar, ge, hv, sqrtS, pure, Except.pure]
  have s2 : ∀ v : Fl K, le (.num 0) v = false → simpleSScalar dbg v = .ok (.num 0) := fun v hv => by
    simp [simpleSScalar, ge, hv, pure, Except.pure]
  have plo : x.lo ∈ᵢ x := ⟨nl, hx'⟩
  have p0 : Proper (Ivl.ofVal (.num 0 : Fl K)) := n0
  unfold simpleS
  simp only [hc, ok_bind, Cond.truth, BoolSet.possibly, BoolSet.possiblyNot, t1, t2]
  by_cases h1 : le (.num 0) x.hi = true
  · obtain ⟨r, e1, r1, r2, r3, r4, r5⟩ := constrain_ge dbg x (.num 0) hx h1 _ (t1.trans h1)
    obtain ⟨S, e2, m1, ⟨a, ha, ha'⟩, ⟨b, hb, hb'⟩⟩ := C37_sqrt mono dbg r r4 r2
    have hax : a ∈ᵢ x := pt_widen ha r3 r1
    have hbx : b ∈ᵢ x := pt_widen hb r3 r1
    have ha0 : le (.num 0) a = true := CppOrder.le_trans _ _ _ r2 ha.1
    have hb0 : le (.num 0) b = true := CppOrder.le_trans _ _ _ r2 hb.1
    have hS : Proper S := CppOrder.le_trans _ _ _ (m1 a ha).1 (m1 a ha).2
    obtain ⟨R, e3, l1, u1⟩ := first_assign hS
    have hR : Proper R := CppOrder.le_trans _ _ _ (le_of_eq l1) (CppOrder.le_trans _ _ _ hS (le_of_eq (eq_sy u1)))
    by_cases h2 : lt x.lo (.num 0) = true
    · obtain ⟨R', e4, l2, u2, g1, g2, g3, g4⟩ := second_assign hR p0
      refine ⟨R', ?_, fun v hv => ?_, ?_, ?_⟩
      · simp only [h1, if_true, e1, ok_bind, e2, e3, h2, e4]; rfl
      · by_cases hv0 : le (.num 0) v = true
        · exact ⟨_, s1 v hv0, pt_widen (m1 v (r5 v hv hv0)) (CppOrder.le_trans _ _ _ g1 (le_of_eq l1)) (CppOrder.le_trans _ _ _ (le_of_eq (eq_sy u1)) g3)⟩
        · exact ⟨_, s2 v (by simpa using hv0), ⟨g2, g4⟩⟩
      · rcases l2 with l2 | l2
        · exact ⟨a, _, hax, s1 a ha0, by rw [ha']; exact eq_sy (eq_tr l2 l1)⟩
        · exact ⟨x.lo, _, plo, s2 _ (not_le h2), eq_sy l2⟩
      · rcases u2 with l2 | l2
        · exact ⟨b, _, hbx, s1 b hb0, by rw [hb']; exact eq_sy (eq_tr l2 u1)⟩
        · exact ⟨x.lo, _, plo, s2 _ (not_le h2), eq_sy l2⟩
    · simp only [Bool.not_eq_true] at h2
      have h3 : le (.num 0) x.lo = true := lt_of_not h2 nl n0
      refine ⟨R, ?_, fun v hv => ?_, ⟨a, _, hax, s1 a ha0, by rw [ha']; exact eq_sy l1⟩, ⟨b, _, hbx, s1 b hb0, by rw [hb']; exact eq_sy u1⟩⟩
      · simp only [h1, if_true, e1, ok_bind, e2, e3, h2, Bool.false_eq_true, if_false]; rfl
      · have hv0 : le (.num 0) v = true := CppOrder.le_trans _ _ _ h3 hv.1
        exact ⟨_, s1 v hv0, pt_widen (m1 v (r5 v hv hv0)) (le_of_eq l1) (le_of_eq (eq_sy u1))⟩
  · simp only [Bool.not_eq_true] at h1
    have h2 : lt x.lo (.num 0) = true := not_le' h1 hx' n0
    obtain ⟨R, e3, l1, u1⟩ := first_assign p0
    have hl : le (.num 0) x.lo = false := not_le h2
    refine ⟨R, ?_, fun v hv => ?_, ⟨x.lo, _, plo, s2 _ hl, eq_sy l1⟩, ⟨x.lo, _, plo, s2 _ hl, eq_sy u1⟩⟩
    · simp only [h1, Bool.false_eq_true, if_false, pure, Except.pure, ok_bind, h2, if_true, e3]
    · exact ⟨_, s2 v (not_le (not_le' h1 hv.2 n0)), ⟨le_of_eq l1, le_of_eq (eq_sy u1)⟩⟩

/-- called with a number, `s` is the square root above 0 and 0 below -/
theorem C59_scalar (dbg : Bool) (v : Fl K) :
    simpleSScalar dbg v = .ok (if le (.num 0) v then Libm.sqrt v else .num 0) := by
  by_cases h : le (.num 0) v = true
  · simp [simpleSScalar, ge, h, sqrtS, pure, Except.pure]
  · simp only [Bool.not_eq_true] at h
    simp [simpleSScalar, ge, h, pure, Except.pure]

/-- C59 with the square root of the reals, rounded to any format -/
theorem C59_real [Fmt ℝ] (dbg : Bool) (x : Ivl (Fl ℝ)) (hx : Proper x) :
    ∃ R, simpleS dbg x = .ok R ∧ (∀ v, v ∈ᵢ x → ∃ y, simpleSScalar dbg v = .ok y ∧ y ∈ᵢ R) ∧
      (∃ v y, v ∈ᵢ x ∧ simpleSScalar dbg v = .ok y ∧ eq y R.lo = true) ∧ (∃ v y, v ∈ᵢ x ∧ simpleSScalar dbg v = .ok y ∧ eq y R.hi = true) :=
  C59_s sqrt_mono dbg x hx
/-- an interval on both sides of 0 -/
example : Proper (⟨.num (-1), .num 2⟩ : Ivl (Fl ℚ)) := by decide +kernel
end s

/-! ## C60 -/
section exact
open Fl
private theorem mem_finite {A : Arg (Fl K)} (h1 : A.lo.isFinite = true) (h2 : A.hi.isFinite = true) {a : Fl K} (ha : a ∈ₐ A) : a.isFinite = true := by
  cases A with
  | scalar v => exact finite_of_between h1 h2 ha.1 ha.2
  | ivl X => exact finite_of_between h1 h2 ha.1 ha.2

/-- a binary operation that is exact and finite on finite operands, in exact arithmetic -/
private theorem exact2 (f : Fl K → Fl K → Fl K) (g : K → K → K) {A B : Arg (Fl K)} {res : Outcome (Ivl (Fl K))} (hf : ∀ a b k l, Is a k → Is b l → Is (f a b) (g k l))
    (a1 : A.lo.isFinite = true) (a2 : A.hi.isFinite = true) (b1 : B.lo.isFinite = true) (b2 : B.hi.isFinite = true) (h : FloatExact2 f A B res) :
    ∃ R, res = .ok R ∧ R.lo.isFinite = true ∧ R.hi.isFinite = true ∧ (∀ a b, a ∈ₐ A → b ∈ₐ B → .num (g a.val b.val) ∈ᵢ R) ∧
      (∃ a b, a ∈ₐ A ∧ b ∈ₐ B ∧ R.lo.val = g a.val b.val) ∧ (∃ a b, a ∈ₐ A ∧ b ∈ₐ B ∧ R.hi.val = g a.val b.val) := by
  have key : ∀ a b, a ∈ₐ A → b ∈ₐ B → Is (f a b) (g a.val b.val) := fun a b ha hb =>
    hf a b _ _ (Is.of_finite (mem_finite a1 a2 ha)) (Is.of_finite (mem_finite b1 b2 hb))
  rcases h with ⟨⟨a, b, ha, hb, e⟩, _⟩ | ⟨_, R, e, m, ⟨a, b, ha, hb, h1⟩, ⟨c, d, hc, hd, h2⟩⟩
  · exact absurd e (key a b ha hb).ne_nan
  · have k1 := key a b ha hb; have k2 := key c d hc hd
    rw [h1] at k1; rw [h2] at k2
    refine ⟨R, e, k1.1, k2.1, fun a' b' ha' hb' => ?_, ⟨a, b, ha, hb, k1.2⟩, ⟨c, d, hc, hd, k2.2⟩⟩
    have k3 := key a' b' ha' hb'
    have k4 := m a' b' ha' hb'
    exact ⟨(k1.le_iff (Is.num _)).mpr ((k1.le_iff k3).mp k4.1), ((Is.num _).le_iff k2).mpr ((k3.le_iff k2).mp k4.2)⟩

private theorem scalar_val {y : K} {b : Fl K} (hb : b ∈ₐ (.scalar (.num y) : Arg (Fl K))) : b.val = y := by
  have f : b.isFinite = true := mem_finite (A := .scalar (.num y)) rfl rfl hb
  exact le_antisymm (((Is.of_finite f).le_iff (Is.num y)).mp hb.2) (((Is.num y).le_iff (Is.of_finite f)).mp hb.1)

private theorem num_mem {X : Ivl (Fl K)} (h1 : X.lo.isFinite = true) (h2 : X.hi.isFinite = true) {t : K} : .num t ∈ᵢ X ↔ X.lo.val ≤ t ∧ t ≤ X.hi.val :=
  (isI_of_finite h1 h2).mem_num

/-- C60: in exact arithmetic `f2` returns the exact range of `t² - 2t` on a finite interval: every value of the polynomial is in the result, and both
bounds are values of the polynomial.  The result of `f1` contains that of `f2`. -/
theorem C60_dependency (dbg : Bool) (X : Ivl (Fl K)) (hX : Proper X) (f1 : X.lo.isFinite = true) (f2 : X.hi.isFinite = true) :
    letI := exactFmt K
    ∃ R1 R2 : Ivl (Fl K), simpleF1 dbg X = .ok R1 ∧ simpleF2 dbg X = .ok R2 ∧ (∀ a, a ∈ᵢ X → .num (a.val^2 - 2*a.val) ∈ᵢ R2) ∧
      (∃ a, a ∈ᵢ X ∧ eq R2.lo (.num (a.val^2 - 2*a.val)) = true) ∧ (∃ a, a ∈ᵢ X ∧ eq R2.hi (.num (a.val^2 - 2*a.val)) = true) ∧
      ∀ v, v ∈ᵢ R2 → v ∈ᵢ R1 := by
  letI := exactFmt K
  have n1 : ProperA (.scalar (.num 1) : Arg (Fl K)) := by simp [ProperA, NotNan]
  have n2 : ProperA (.scalar (.num 2) : Arg (Fl K)) := by simp [ProperA, NotNan]
  have sq : ∀ (A : Ivl (Fl K)), Proper A → A.lo.isFinite = true → A.hi.isFinite = true → ∃ R, squareI dbg A = .ok R ∧ R.lo.isFinite = true ∧ R.hi.isFinite = true ∧
      (∀ a, a ∈ᵢ A → .num (a.val^2) ∈ᵢ R) ∧ (∃ a, a ∈ᵢ A ∧ R.lo.val = a.val^2) ∧ (∃ a, a ∈ᵢ A ∧ R.hi.val = a.val^2) := by
    intro A hA a1 a2
    obtain ⟨R, e, m, ⟨a, ha, h1⟩, ⟨c, hc, h2⟩⟩ := (C33_square dbg A hA).1
    have key : ∀ a, a ∈ᵢ A → Is (Fl.mul a a) (a.val^2) := fun a ha => by
      have := Is.of_finite (mem_finite (A := .ivl A) a1 a2 ha)
      rw [sq]; exact this.mul this
    have k1 := key a ha; have k2 := key c hc
    simp only at h1 h2
    rw [h1] at k1; rw [h2] at k2
    refine ⟨R, e, k1.1, k2.1, fun a' ha' => ?_, ⟨a, ha, k1.2⟩, ⟨c, hc, k2.2⟩⟩
    have k3 := key a' ha'; have k4 := m a' ha'
    exact ⟨(k1.le_iff (Is.num _)).mpr ((k1.le_iff k3).mp k4.1), ((Is.num _).le_iff k2).mpr ((k3.le_iff k2).mp k4.2)⟩
  -- f2
  obtain ⟨D, d1, d2, d3, d4, ⟨da, db, dha, dhb, d5⟩, ⟨dc, dd, dhc, dhd, d6⟩⟩ := exact2 (A := .ivl X) (B := .scalar (.num 1)) Fl.sub (· - ·) (fun a b k l ha hb => ha.sub hb) f1 f2 rfl rfl
    (C30_sub dbg (.ivl X) (.scalar (.num 1)) hX n1)
  rw [scalar_val dhb] at d5; rw [scalar_val dhd] at d6
  have hD : Proper D := by
    have := d4 X.lo (.num 1) ⟨CppOrder.le_left _ _ hX, hX⟩ ⟨n1, n1⟩
    exact CppOrder.le_trans _ _ _ this.1 this.2
  obtain ⟨S, s1, s2, s3, s4, ⟨sa, sha, s5⟩, ⟨sc, shc, s6⟩⟩ := sq D hD d2 d3
  have hS : Proper S := by
    have := s4 D.lo ⟨CppOrder.le_left _ _ hD, hD⟩
    exact CppOrder.le_trans _ _ _ this.1 this.2
  obtain ⟨R2, r1, r2, r3, r4, ⟨ra, rb, rha, rhb, r5⟩, ⟨rc, rd, rhc, rhd, r6⟩⟩ := exact2 (A := .ivl S) (B := .scalar (.num 1)) Fl.sub (· - ·) (fun a b k l ha hb => ha.sub hb) s2 s3 rfl rfl
    (C30_sub dbg (.ivl S) (.scalar (.num 1)) hS n1)
  rw [scalar_val rhb] at r5; rw [scalar_val rhd] at r6
  -- f1
  obtain ⟨Q, q1, q2, q3, q4, _⟩ := sq X hX f1 f2
  have hQ : Proper Q := by
    have := q4 X.lo ⟨CppOrder.le_left _ _ hX, hX⟩
    exact CppOrder.le_trans _ _ _ this.1 this.2
  obtain ⟨P, p1, p2, p3, p4, _⟩ := exact2 (A := .scalar (.num 2)) (B := .ivl X) Fl.mul (· * ·) (fun a b k l ha hb => ha.mul hb) rfl rfl f1 f2
    (C31_mul dbg (.scalar (.num 2)) (.ivl X) n2 hX)
  have hP : Proper P := by
    have := p4 (.num 2) X.lo ⟨n2, n2⟩ ⟨CppOrder.le_left _ _ hX, hX⟩
    exact CppOrder.le_trans _ _ _ this.1 this.2
  obtain ⟨R1, w1, w2, w3, w4, _⟩ := exact2 (A := .ivl Q) (B := .ivl P) Fl.sub (· - ·) (fun a b k l ha hb => ha.sub hb) q2 q3 p2 p3
    (C30_sub dbg (.ivl Q) (.ivl P) hQ hP)
  have m1 : ∀ a, a ∈ᵢ X → .num (a.val^2 - 2*a.val) ∈ᵢ R1 := fun a ha =>
    w4 (.num (a.val^2)) (.num (2*a.val)) (q4 a ha) (p4 (.num 2) a ⟨n2, n2⟩ ha)
  have m2 : ∀ a, a ∈ᵢ X → .num (a.val^2 - 2*a.val) ∈ᵢ R2 := fun a ha => by
    have h1 : (.num (a.val - 1) : Fl K) ∈ᵢ D := d4 a (.num 1) ha ⟨n1, n1⟩
    have h2 : (.num ((a.val - 1)^2) : Fl K) ∈ᵢ S := s4 _ h1
    have h3 : (.num ((a.val - 1)^2 - 1) : Fl K) ∈ᵢ R2 := r4 _ (.num 1) h2 ⟨n1, n1⟩
    rw [show a.val^2 - 2*a.val = (a.val - 1)^2 - 1 by ring]; exact h3
  have bd : ∀ u, u ∈ᵢ D → .num (u.val + 1) ∈ᵢ X := fun u hu => by
    have hu' := mem_finite (A := .ivl D) d2 d3 hu
    have h1 := ((Is.of_finite d2).le_iff (Is.of_finite hu')).mp hu.1
    have h2 := ((Is.of_finite hu').le_iff (Is.of_finite d3)).mp hu.2
    have h3 := ((Is.of_finite f1).le_iff (Is.of_finite (mem_finite (A := .ivl X) f1 f2 dha))).mp dha.1
    have h4 := ((Is.of_finite (mem_finite (A := .ivl X) f1 f2 dhc)).le_iff (Is.of_finite f2)).mp dhc.2
    exact (num_mem f1 f2).mpr ⟨by linarith, by linarith⟩
  have l2 : R2.lo.val = S.lo.val - 1 := by
    have h1 := (num_mem r2 r3).mp (r4 S.lo (.num 1) ⟨CppOrder.le_left _ _ hS, hS⟩ ⟨n1, n1⟩)
    have h2 := ((Is.of_finite s2).le_iff (Is.of_finite (mem_finite (A := .ivl S) s2 s3 rha))).mp rha.1
    have h3 : (Fl.num (1 : K)).val = 1 := rfl
    simp only [h3] at h1
    linarith [h1.1]
  have u2 : R2.hi.val = S.hi.val - 1 := by
    have h1 := (num_mem r2 r3).mp (r4 S.hi (.num 1) ⟨hS, CppOrder.le_right _ _ hS⟩ ⟨n1, n1⟩)
    have h2 := ((Is.of_finite (mem_finite (A := .ivl S) s2 s3 rhc)).le_iff (Is.of_finite s3)).mp rhc.2
    have h3 : (Fl.num (1 : K)).val = 1 := rfl
    simp only [h3] at h1
    linarith [h1.2]
  have e1 : eq R2.lo (.num ((sa.val + 1)^2 - 2*(sa.val + 1))) = true := ((Is.of_finite r2).eq_iff (Is.num _)).mpr (by rw [l2, s5]; ring)
  have e2 : eq R2.hi (.num ((sc.val + 1)^2 - 2*(sc.val + 1))) = true := ((Is.of_finite r3).eq_iff (Is.num _)).mpr (by rw [u2, s6]; ring)
  refine ⟨R1, R2, ?_, ?_, m2, ⟨_, bd sa sha, e1⟩, ⟨_, bd sc shc, e2⟩, fun v hv => ?_⟩
  · simp only [simpleF1, q1, ok_bind, p1, w1]
  · simp only [simpleF2, d1, ok_bind, s1, r1]
  · have h1 := m1 _ (bd sa sha); have h2 := m1 _ (bd sc shc)
    exact pt_widen hv (CppOrder.le_trans _ _ _ h1.1 (le_of_eq (eq_sy e1))) (CppOrder.le_trans _ _ _ (le_of_eq e2) h2.2)

/-! `f1([0, 1]) = [-2, 1]`, `f2([0, 1]) = [-1, 0]` as in the comment of the example. -/
example : (let := exactFmt ℚ; simpleF1 (K := ℚ) true ⟨.num 0, .num 1⟩) = .ok ⟨.num (-2), .num 1⟩ := by decide +kernel
example : (let := exactFmt ℚ; simpleF2 (K := ℚ) true ⟨.num 0, .num 1⟩) = .ok ⟨.num (-1), .num 0⟩ := by decide +kernel
end exact
end Intervals.Props
