import Verif.Lemmas.Blend
import Verif.Spec.Real
import Verif.Lemmas.BinFmt
/-!
# C43–C45: fractional_weights, blend_fractions, blend_linear (exact arithmetic)
-/
set_option linter.unusedSectionVars false
namespace Intervals.Props
open Intervals CppVal Spec Fl

variable {K : Type} [Field K] [LinearOrder K] [IsStrictOrderedRing K]

theorem isA_of_finite {X : Arg (Fl K)} (h : FiniteA X) : IsA X X.lo.val X.hi.val := ⟨Is.of_finite h.1, Is.of_finite h.2.1⟩

theorem exactRange_of {V : K → Prop} {R : Ivl (Fl K)} {m M : K} (hR : IsI R m M) (h : ∀ v, V v → m ≤ v ∧ v ≤ M) (hm : V m) (hM : V M) :
    ExactRange V R :=
  ⟨fun v hv => hR.mem_num.mpr (h v hv), ⟨m, hm, (hR.1.eq_iff (Is.num m)).mpr rfl⟩, ⟨M, hM, (hR.2.eq_iff (Is.num M)).mpr rfl⟩⟩

/-- the weights are a monotone function -/
theorem weight_mono {a a' b b' : K} (ha : 0 ≤ a) (haa : a ≤ a') (hb' : 0 ≤ b') (hbb : b' ≤ b) (h0 : 0 < a + b) (h0' : 0 < a' + b') :
    a / (a + b) ≤ a' / (a' + b') := by
  rw [div_le_div_iff₀ h0 h0']
  have := mul_le_mul haa hbb hb' (ha.trans haa)
  nlinarith

/-- The debug preconditions of `fractional_weights` and `blend_linear`, in exact arithmetic. -/
theorem weights_pre {α : Type} (f : Unit → Outcome α) {A B : Arg (Fl K)} (hA : FiniteA A) (hB : FiniteA B) :
    let := exactFmt K
    (do expects (BoolSet.always (← geA true A zeroA))
        expects (BoolSet.always (← geA true B zeroA))
        expects (BoolSet.always (← opGt true (.ivl (← addI true A B)) zeroA))
        f () : Outcome α) =
      if 0 ≤ A.lo.val ∧ 0 ≤ B.lo.val ∧ 0 < A.lo.val + B.lo.val then f () else .error .contract := by
  intro _
  obtain ⟨R1, e1, -, h1⟩ := always_geA_zero true (isA_of_finite hA) hA.2.2
  obtain ⟨R2, e2, -, h2⟩ := always_geA_zero true (isA_of_finite hB) hB.2.2
  obtain ⟨S, e3, hS⟩ := (isA_of_finite hA).addI true (isA_of_finite hB) hA.2.2 hB.2.2
  obtain ⟨R3, e4, h3⟩ := always_opGt_zero true hS
    (add_le_add ((isA_of_finite hA).le hA.2.2) ((isA_of_finite hB).le hB.2.2))
  rw [e1, e2, ok_bind, ok_bind, e3, ok_bind, e4, ok_bind, h1, h2, h3]
  by_cases c1 : 0 ≤ A.lo.val <;> by_cases c2 : 0 ≤ B.lo.val <;> by_cases c3 : 0 < A.lo.val + B.lo.val <;> simp [c1, c2, c3]

/-- C43: for weights `a, b ≥ 0` with `a + b > 0`, the results are the exact ranges of `a/(a+b)` and `b/(a+b)`. -/
theorem C43_fractional_weights (dbg : Bool) (A B : Arg (Fl K)) (hA : FiniteA A) (hB : FiniteA B)
    (pos : ∀ a b : K, .num a ∈ₐ A → .num b ∈ₐ B → 0 ≤ a ∧ 0 ≤ b ∧ 0 < a + b) :
    let := exactFmt K
    ∃ Wa Wb, fractionalWeightsI dbg A B = .ok (Wa, Wb) ∧
      ExactRange (fun w => ∃ a b : K, .num a ∈ₐ A ∧ .num b ∈ₐ B ∧ w = a / (a + b)) Wa ∧
      ExactRange (fun w => ∃ a b : K, .num a ∈ₐ A ∧ .num b ∈ₐ B ∧ w = b / (a + b)) Wb := by
  intro _
  have iA := isA_of_finite hA; have iB := isA_of_finite hB
  have lA := iA.le hA.2.2; have lB := iB.le hB.2.2
  have mA : ∀ a : K, .num a ∈ₐ A ↔ A.lo.val ≤ a ∧ a ≤ A.hi.val := fun a => iA.mem_num
  have mB : ∀ b : K, .num b ∈ₐ B ↔ B.lo.val ≤ b ∧ b ≤ B.hi.val := fun b => iB.mem_num
  simp only [mA, mB] at pos ⊢
  have pre := weights_pre (α := Ivl (Fl K) × Ivl (Fl K)) (A := A) (B := B)
  set al := A.lo.val; set ah := A.hi.val; set bl := B.lo.val; set bh := B.hi.val
  obtain ⟨p1, p2, p3⟩ := pos al bl ⟨le_rfl, lA⟩ ⟨le_rfl, lB⟩
  have s1 : 0 < al + bh := by linarith
  have s2 : 0 < ah + bl := by linarith
  obtain ⟨Wa, ea, ha⟩ := (iA.1.div (iA.1.add iB.2) s1.ne').make (iA.2.div (iA.2.add iB.1) s2.ne')
    (weight_mono p1 lA p2 lB s1 s2)
  obtain ⟨Wb, eb, hb⟩ := (iB.1.div (iA.2.add iB.1) s2.ne').make (iB.2.div (iA.1.add iB.2) s1.ne')
    (by rw [add_comm ah, add_comm al]; exact weight_mono p2 lB p1 lA (by linarith) (by linarith))
  refine ⟨Wa, Wb, ?_, exactRange_of ha ?_ ⟨al, bh, ⟨le_rfl, lA⟩, ⟨lB, le_rfl⟩, rfl⟩ ⟨ah, bl, ⟨lA, le_rfl⟩, ⟨le_rfl, lB⟩, rfl⟩,
    exactRange_of hb ?_ ⟨ah, bl, ⟨lA, le_rfl⟩, ⟨le_rfl, lB⟩, rfl⟩ ⟨al, bh, ⟨le_rfl, lA⟩, ⟨lB, le_rfl⟩, rfl⟩⟩
  · have tail : (do
        let wa ← Ivl.make (Fl.div A.lo (Fl.add A.lo B.hi)) (Fl.div A.hi (Fl.add A.hi B.lo))
        let wb ← Ivl.make (Fl.div B.lo (Fl.add A.hi B.lo)) (Fl.div B.hi (Fl.add A.lo B.hi))
        return (wa, wb) : Outcome (Ivl (Fl K) × Ivl (Fl K))) = .ok (Wa, Wb) := by
      rw [ea, ok_bind, eb]; rfl
    unfold fractionalWeightsI
    rw [assigned_of_proper hA.2.2, assigned_of_proper hB.2.2]
    cases dbg with
    | false => simpa using tail
    | true =>
      have := pre (fun _ => .ok (Wa, Wb)) hA hB
      rw [if_pos ⟨p1, p2, p3⟩, ← tail] at this
      refine Eq.trans ?_ tail
      simpa using this
  · rintro w ⟨a, b, ⟨a1, a2⟩, ⟨b1, b2⟩, rfl⟩
    obtain ⟨q1, q2, q3⟩ := pos a b ⟨a1, a2⟩ ⟨b1, b2⟩
    exact ⟨weight_mono p1 a1 q2 b2 s1 q3, weight_mono q1 a2 p2 b1 q3 s2⟩
  · rintro w ⟨a, b, ⟨a1, a2⟩, ⟨b1, b2⟩, rfl⟩
    obtain ⟨q1, q2, q3⟩ := pos a b ⟨a1, a2⟩ ⟨b1, b2⟩
    rw [add_comm ah, add_comm al, add_comm a]
    exact ⟨weight_mono p2 b1 q1 a2 (by linarith) (by linarith), weight_mono q2 b2 p1 a1 (by linarith) (by linarith)⟩

/-- C43: in debug mode, a negative weight or a vanishing sum in the operands is a contract violation. -/
theorem C43_domain (A B : Arg (Fl K)) (hA : FiniteA A) (hB : FiniteA B) (a b : K) (ha : .num a ∈ₐ A) (hb : .num b ∈ₐ B)
    (bad : ¬ (0 ≤ a ∧ 0 ≤ b ∧ 0 < a + b)) :
    let := exactFmt K
    fractionalWeightsI true A B = .error .contract := by
  intro _
  have iA := isA_of_finite hA; have iB := isA_of_finite hB
  obtain ⟨a1, -⟩ := iA.mem_num.mp ha
  obtain ⟨b1, -⟩ := iB.mem_num.mp hb
  have pre := fun f => weights_pre (α := Ivl (Fl K) × Ivl (Fl K)) f hA hB
  unfold fractionalWeightsI
  rw [assigned_of_proper hA.2.2, assigned_of_proper hB.2.2]
  simp only [if_neg (show ¬ (0 ≤ A.lo.val ∧ 0 ≤ B.lo.val ∧ 0 < A.lo.val + B.lo.val) from fun ⟨h1, h2, h3⟩ =>
    bad ⟨h1.trans a1, h2.trans b1, by linarith⟩)] at pre
  simpa using pre (fun _ => _)

/-! ## blend_fractions -/
theorem blend_core (dbg : Bool) {F X Y : Arg (Fl K)} {f0 f1 xl xh yl yh : K} (hF : IsA F f0 f1) (hX : IsA X xl xh) (hY : IsA Y yl yh)
    (pF : ProperA F) (pX : ProperA X) (pY : ProperA Y) (h0 : 0 ≤ f0) (h1 : f1 ≤ 1) :
    let := exactFmt K
    ∃ R m M, blendFractionsI dbg F X Y = .ok R ∧ IsI R m M ∧
      (∀ f x y : K, f0 ≤ f → f ≤ f1 → xl ≤ x → x ≤ xh → yl ≤ y → y ≤ yh → m ≤ f * x + (1 - f) * y ∧ f * x + (1 - f) * y ≤ M) ∧
      (∃ q, (q = f0 ∨ q = f1) ∧ m = q * xl + (1 - q) * yl) ∧ (∃ q, (q = f0 ∨ q = f1) ∧ M = q * xh + (1 - q) * yh) := by
  intro _
  have lF := hF.le pF; have lX := hX.le pX; have lY := hY.le pY
  -- the chosen fractions
  have q1 : ∃ q, Is (if ge X.lo Y.lo then F.lo else F.hi) q ∧ (q = f0 ∨ q = f1) ∧ (f0 ≤ q ∧ q ≤ f1) ∧
      (∀ f, f0 ≤ f → f ≤ f1 → q * xl + (1 - q) * yl ≤ f * xl + (1 - f) * yl) := by
    rw [show ge X.lo Y.lo = decide (yl ≤ xl) from hY.1.le_eq hX.1]
    by_cases c : yl ≤ xl
    · rw [if_pos (by simpa using c)]; exact ⟨f0, hF.1, .inl rfl, ⟨le_rfl, lF⟩, fun f a b => by nlinarith⟩
    · rw [if_neg (by simpa using c)]; exact ⟨f1, hF.2, .inr rfl, ⟨lF, le_rfl⟩, fun f a b => by nlinarith⟩
  have q2 : ∃ q, Is (if ge X.hi Y.hi then F.hi else F.lo) q ∧ (q = f0 ∨ q = f1) ∧ (f0 ≤ q ∧ q ≤ f1) ∧
      (∀ f, f0 ≤ f → f ≤ f1 → f * xh + (1 - f) * yh ≤ q * xh + (1 - q) * yh) := by
    rw [show ge X.hi Y.hi = decide (yh ≤ xh) from hY.2.le_eq hX.2]
    by_cases c : yh ≤ xh
    · rw [if_pos (by simpa using c)]; exact ⟨f1, hF.2, .inr rfl, ⟨lF, le_rfl⟩, fun f a b => by nlinarith⟩
    · rw [if_neg (by simpa using c)]; exact ⟨f0, hF.1, .inl rfl, ⟨le_rfl, lF⟩, fun f a b => by nlinarith⟩
  obtain ⟨ql, iql, cql, bql, mql⟩ := q1
  obtain ⟨qh, iqh, cqh, bqh, mqh⟩ := q2
  have mono : ∀ f x x' y y', f0 ≤ f → f ≤ f1 → x ≤ x' → y ≤ y' → f * x + (1 - f) * y ≤ f * x' + (1 - f) * y' := by
    intro f x x' y y' a b c d
    have := mul_le_mul_of_nonneg_left c (h0.trans a)
    have := mul_le_mul_of_nonneg_left d (by linarith : 0 ≤ 1 - f)
    linarith
  have i1 : Is (Fl.add (Fl.mul (if ge X.lo Y.lo then F.lo else F.hi) X.lo) (Fl.mul (Fl.sub (.num 1) (if ge X.lo Y.lo then F.lo else F.hi)) Y.lo))
      (ql * xl + (1 - ql) * yl) := (iql.mul hX.1).add (((Is.num 1).sub iql).mul hY.1)
  have i2 : Is (Fl.add (Fl.mul (if ge X.hi Y.hi then F.hi else F.lo) X.hi) (Fl.mul (Fl.sub (.num 1) (if ge X.hi Y.hi then F.hi else F.lo)) Y.hi))
      (qh * xh + (1 - qh) * yh) := (iqh.mul hX.2).add (((Is.num 1).sub iqh).mul hY.2)
  have le12 : ql * xl + (1 - ql) * yl ≤ qh * xh + (1 - qh) * yh :=
    (mono ql _ _ _ _ bql.1 bql.2 lX lY).trans (mqh ql bql.1 bql.2)
  obtain ⟨R, eR, hR⟩ := i1.unordered i2
  rw [min_eq_left le12, max_eq_right le12] at hR
  refine ⟨R, _, _, ?_, hR, ?_, ⟨ql, cql, rfl⟩, ⟨qh, cqh, rfl⟩⟩
  · obtain ⟨R1, e1, n1, h1'⟩ := always_geA_zero true hF pF
    obtain ⟨R2, e2, n2, h2'⟩ := always_leA_one true hF pF
    unfold blendFractionsI
    rw [assigned_of_proper pF, assigned_of_proper pX, assigned_of_proper pY]
    cases dbg with
    | false => simpa using eR
    | true =>
      simp only [Bool.and_self, expectsDebug_true, ok_bind, if_true, e1, e2, and_always n1 n2, h1', h2', h0, h1, decide_true, expects_true]
      exact eR
  · intro f x y a1 a2 b1 b2 c1 c2
    exact ⟨(mql f a1 a2).trans (mono f _ _ _ _ a1 a2 b1 c1), (mono f _ _ _ _ a1 a2 b2 c2).trans (mqh f a1 a2)⟩

/-- C44: for `f` within `[0,1]`, `blend_fractions(f, x, y)` is the exact range of `f*x + (1-f)*y`. -/
theorem C44_blend_fractions (dbg : Bool) (F X Y : Arg (Fl K)) (hF : FiniteA F) (hX : FiniteA X) (hY : FiniteA Y)
    (dom : ∀ f : K, .num f ∈ₐ F → 0 ≤ f ∧ f ≤ 1) :
    let := exactFmt K
    ∃ R, blendFractionsI dbg F X Y = .ok R ∧
      ExactRange (fun v => ∃ f x y : K, .num f ∈ₐ F ∧ .num x ∈ₐ X ∧ .num y ∈ₐ Y ∧ v = f * x + (1 - f) * y) R := by
  intro _
  have iF := isA_of_finite hF; have iX := isA_of_finite hX; have iY := isA_of_finite hY
  have lF := iF.le hF.2.2; have lX := iX.le hX.2.2; have lY := iY.le hY.2.2
  have mF : ∀ a : K, .num a ∈ₐ F ↔ F.lo.val ≤ a ∧ a ≤ F.hi.val := fun a => iF.mem_num
  have mX : ∀ a : K, .num a ∈ₐ X ↔ X.lo.val ≤ a ∧ a ≤ X.hi.val := fun a => iX.mem_num
  have mY : ∀ a : K, .num a ∈ₐ Y ↔ Y.lo.val ≤ a ∧ a ≤ Y.hi.val := fun a => iY.mem_num
  simp only [mF, mX, mY] at dom ⊢
  obtain ⟨R, m, M, e, hR, h, ⟨q, hq, rfl⟩, ⟨q', hq', rfl⟩⟩ :=
    blend_core dbg iF iX iY hF.2.2 hX.2.2 hY.2.2 (dom _ ⟨le_rfl, lF⟩).1 (dom _ ⟨lF, le_rfl⟩).2
  refine ⟨R, e, exactRange_of hR ?_ ⟨q, _, _, ?_, ⟨le_rfl, lX⟩, ⟨le_rfl, lY⟩, rfl⟩ ⟨q', _, _, ?_, ⟨lX, le_rfl⟩, ⟨lY, le_rfl⟩, rfl⟩⟩
  · rintro v ⟨f, x, y, ⟨a1, a2⟩, ⟨b1, b2⟩, ⟨c1, c2⟩, rfl⟩
    exact h f x y a1 a2 b1 b2 c1 c2
  · rcases hq with rfl | rfl
    · exact ⟨le_rfl, lF⟩
    · exact ⟨lF, le_rfl⟩
  · rcases hq' with rfl | rfl
    · exact ⟨le_rfl, lF⟩
    · exact ⟨lF, le_rfl⟩

/-- C44: in debug mode a fraction outside `[0,1]` is a contract violation. -/
theorem C44_domain (F X Y : Arg (Fl K)) (hF : FiniteA F) (f : K) (hf : .num f ∈ₐ F) (bad : f < 0 ∨ 1 < f) :
    let := exactFmt K
    blendFractionsI true F X Y = .error .contract := by
  intro _
  have iF := isA_of_finite hF
  obtain ⟨a1, a2⟩ := iF.mem_num.mp hf
  obtain ⟨R1, e1, n1, h1⟩ := always_geA_zero true iF hF.2.2
  obtain ⟨R2, e2, n2, h2⟩ := always_leA_one true iF hF.2.2
  unfold blendFractionsI
  cases hh : (F.assigned && X.assigned && Y.assigned) with
  | false => rfl
  | true =>
    simp only [expectsDebug_true, ok_bind, if_true, e1, e2, and_always n1 n2, h1, h2]
    have : (decide (0 ≤ F.lo.val) && decide (F.hi.val ≤ 1)) = false := by
      rcases bad with h | h
      · simp [not_le.mpr (a1.trans_lt h)]
      · simp [not_le.mpr (h.trans_le a2)]
    rw [this]; rfl

/-! ## blend_linear -/
theorem is_q {A B : Fl K} {a b : K} (hA : Is A a) (hB : Is B b) (ha : 0 ≤ a) (hb : 0 ≤ b) (h : 0 < a + b) :
    let := exactFmt K
    Is (Fl.div (.num 1) (Fl.add (.num 1) (Fl.div B A))) (a / (a + b)) := by
  intro _
  rcases ha.eq_or_lt with h0 | h0
  · have hb' : 0 < b := by linarith
    subst h0
    rw [zero_div]
    obtain ⟨fA, vA⟩ := hA; obtain ⟨fB, vB⟩ := hB
    cases B <;> simp only [isFinite, Bool.false_eq_true] at fB <;> simp only [val] at vB
    · exact absurd vB hb'.ne
    · next kb =>
      subst vB
      cases A <;> simp only [isFinite, Bool.false_eq_true] at fA <;> simp only [val] at vA
      · have e1 : Fl.div (num kb) (nzero : Fl K) = ninf := by
          simp [Fl.div, isNan, isInf, isZero, signBit, infS, hb'.ne', hb'.not_gt]
        rw [e1]
        simp [Fl.div, Fl.add, isNan, isInf, Is, zeroS, signBit, isFinite, val, zero_lt_one.not_gt]
      · subst vA
        have e1 : Fl.div (num kb) (num 0 : Fl K) = pinf := by
          simp [Fl.div, isNan, isInf, isZero, signBit, infS, hb'.ne', hb'.not_gt]
        rw [e1]
        simp [Fl.div, Fl.add, isNan, isInf, Is, zeroS, signBit, isFinite, val, zero_lt_one.not_gt]
  · have h1 : 0 ≤ b / a := div_nonneg hb ha
    have := (Is.num (1:K)).div ((Is.num 1).add (hB.div hA h0.ne')) (by linarith)
    rwa [show 1 / (1 + b / a) = a / (a + b) by field_simp] at this

/-- C45: for weights `a, b ≥ 0` with `a + b > 0`, `blend_linear(a, b, x, y)` is the exact range of the weighted mean `(a*x + b*y)/(a + b)`;
`a = 0` and `b = 0` are included. -/
theorem C45_blend_linear (dbg : Bool) (A B X Y : Arg (Fl K)) (hA : FiniteA A) (hB : FiniteA B) (hX : FiniteA X) (hY : FiniteA Y)
    (pos : ∀ a b : K, .num a ∈ₐ A → .num b ∈ₐ B → 0 ≤ a ∧ 0 ≤ b ∧ 0 < a + b) :
    let := exactFmt K
    ∃ R, blendLinearI dbg A B X Y = .ok R ∧
      ExactRange (fun v => ∃ a b x y : K, .num a ∈ₐ A ∧ .num b ∈ₐ B ∧ .num x ∈ₐ X ∧ .num y ∈ₐ Y ∧ v = (a * x + b * y) / (a + b)) R := by
  intro _
  have iA := isA_of_finite hA; have iB := isA_of_finite hB; have iX := isA_of_finite hX; have iY := isA_of_finite hY
  have lA := iA.le hA.2.2; have lB := iB.le hB.2.2
  have mA : ∀ a : K, .num a ∈ₐ A ↔ A.lo.val ≤ a ∧ a ≤ A.hi.val := fun a => iA.mem_num
  have mB : ∀ b : K, .num b ∈ₐ B ↔ B.lo.val ≤ b ∧ b ≤ B.hi.val := fun b => iB.mem_num
  have mX : ∀ a : K, .num a ∈ₐ X ↔ X.lo.val ≤ a ∧ a ≤ X.hi.val := fun a => iX.mem_num
  have mY : ∀ a : K, .num a ∈ₐ Y ↔ Y.lo.val ≤ a ∧ a ≤ Y.hi.val := fun a => iY.mem_num
  simp only [mA, mB, mX, mY] at pos ⊢
  have pre := weights_pre (α := Ivl (Fl K)) (A := A) (B := B)
  obtain ⟨p1, p2, p3⟩ := pos A.lo.val B.lo.val ⟨le_rfl, lA⟩ ⟨le_rfl, lB⟩
  have s1 : 0 < A.lo.val + B.hi.val := by linarith
  have s2 : 0 < A.hi.val + B.lo.val := by linarith
  obtain ⟨Q, eQ, hQ⟩ := (is_q iA.1 iB.2 p1 (by linarith) s1).make (is_q iA.2 iB.1 (by linarith) p2 s2) (weight_mono p1 lA p2 lB s1 s2)
  have hQA : IsA (.ivl Q) _ _ := hQ
  have lQ := weight_mono p1 lA p2 lB s1 s2
  obtain ⟨R, m, M, eR, hR, hin, ⟨q, hq, rfl⟩, ⟨q', hq', rfl⟩⟩ := blend_core dbg hQA iX iY (hQ.proper.mpr lQ) hX.2.2 hY.2.2
    (div_nonneg p1 s1.le) ((div_le_one s2).mpr (by linarith))
  have lX := iX.le hX.2.2; have lY := iY.le hY.2.2
  have conv : ∀ a b x y : K, 0 < a + b → a / (a + b) * x + (1 - a / (a + b)) * y = (a * x + b * y) / (a + b) := by
    intro a b x y h
    field_simp; ring
  refine ⟨R, ?_, exactRange_of hR ?_ ?_ ?_⟩
  · have tail : (do blendFractionsI dbg (.ivl (← Ivl.make
          (Fl.div (.num 1) (Fl.add (.num 1) (Fl.div B.hi A.lo))) (Fl.div (.num 1) (Fl.add (.num 1) (Fl.div B.lo A.hi))))) X Y :
          Outcome (Ivl (Fl K))) = .ok R := by
      rw [eQ, ok_bind]; exact eR
    unfold blendLinearI
    rw [assigned_of_proper hA.2.2, assigned_of_proper hB.2.2, assigned_of_proper hX.2.2, assigned_of_proper hY.2.2]
    cases dbg with
    | false => simpa using tail
    | true =>
      have := pre (fun _ => .ok R) hA hB
      rw [if_pos ⟨p1, p2, p3⟩, ← tail] at this
      refine Eq.trans ?_ tail
      simpa using this
  · rintro v ⟨a, b, x, y, ⟨a1, a2⟩, ⟨b1, b2⟩, ⟨x1, x2⟩, ⟨y1, y2⟩, rfl⟩
    obtain ⟨q1, q2, q3⟩ := pos a b ⟨a1, a2⟩ ⟨b1, b2⟩
    rw [← conv a b x y q3]
    exact hin _ x y (weight_mono p1 a1 q2 b2 s1 q3) (weight_mono q1 a2 p2 b1 q3 s2) x1 x2 y1 y2
  · rcases hq with rfl | rfl
    · exact ⟨_, _, _, _, ⟨le_rfl, lA⟩, ⟨lB, le_rfl⟩, ⟨le_rfl, lX⟩, ⟨le_rfl, lY⟩, conv _ _ _ _ s1⟩
    · exact ⟨_, _, _, _, ⟨lA, le_rfl⟩, ⟨le_rfl, lB⟩, ⟨le_rfl, lX⟩, ⟨le_rfl, lY⟩, conv _ _ _ _ s2⟩
  · rcases hq' with rfl | rfl
    · exact ⟨_, _, _, _, ⟨le_rfl, lA⟩, ⟨lB, le_rfl⟩, ⟨lX, le_rfl⟩, ⟨lY, le_rfl⟩, conv _ _ _ _ s1⟩
    · exact ⟨_, _, _, _, ⟨lA, le_rfl⟩, ⟨le_rfl, lB⟩, ⟨lX, le_rfl⟩, ⟨lY, le_rfl⟩, conv _ _ _ _ s2⟩

/-- C45: in debug mode, a negative weight or a vanishing sum in the operands is a contract violation. -/
theorem C45_domain (A B X Y : Arg (Fl K)) (hA : FiniteA A) (hB : FiniteA B) (a b : K) (ha : .num a ∈ₐ A) (hb : .num b ∈ₐ B)
    (bad : ¬ (0 ≤ a ∧ 0 ≤ b ∧ 0 < a + b)) :
    let := exactFmt K
    blendLinearI true A B X Y = .error .contract := by
  intro _
  have iA := isA_of_finite hA; have iB := isA_of_finite hB
  obtain ⟨a1, -⟩ := iA.mem_num.mp ha
  obtain ⟨b1, -⟩ := iB.mem_num.mp hb
  have pre := fun f => weights_pre (α := Ivl (Fl K)) f hA hB
  unfold blendLinearI
  cases hh : (A.assigned && B.assigned && X.assigned && Y.assigned) with
  | false => rfl
  | true =>
    simp only [if_neg (show ¬ (0 ≤ A.lo.val ∧ 0 ≤ B.lo.val ∧ 0 < A.lo.val + B.lo.val) from fun ⟨h1, h2, h3⟩ =>
      bad ⟨h1.trans a1, h2.trans b1, by linarith⟩)] at pre
    simpa using pre (fun _ => _)

/-! ## Rounding -/

/-- In rounded arithmetic, C43 is false: with `double` weights `a ∈ [2^-53(1 - 2^-53), 2^-53]` and `b = 1 + 2^-52`, `fractional_weights` is a contract
violation (lower bound above upper bound) although all preconditions hold. -/
theorem C43_violated_double : ∃ A : Ivl (Fl ℚ), ∃ b : Fl ℚ, FiniteA (.ivl A) ∧ lt (.num 0) A.lo = true ∧ lt (.num 0) b = true ∧
    (let := binary64Fmt; Representable A.lo ∧ Representable A.hi ∧ Representable b ∧
      ∀ dbg, fractionalWeightsI dbg (.ivl A) (.scalar b) = .error .contract) :=
  ⟨⟨.num ((1 - 1/2^53)/2^53), .num (1/2^53)⟩, .num (1 + 1/2^52), ⟨rfl, rfl, by decide +kernel⟩, by decide +kernel, by decide +kernel,
    by decide +kernel, by decide +kernel, by decide +kernel, by decide +kernel⟩

/-! Non-trivial operands: `a ∈ [0,1]`, `b = 2`, `x ∈ [-1,1]`, `y ∈ [0,3]`. -/
example : FiniteA (.ivl ⟨.num 0, .num 1⟩ : Arg (Fl ℚ)) := ⟨rfl, rfl, by decide +kernel⟩
example : ∀ a b : ℚ, .num a ∈ₐ (.ivl ⟨.num 0, .num 1⟩ : Arg (Fl ℚ)) → .num b ∈ₐ (.scalar (.num 2) : Arg (Fl ℚ)) → 0 ≤ a ∧ 0 ≤ b ∧ 0 < a + b := by
  intro a b ha hb
  simp [PtA, Pt] at ha hb
  have : b = 2 := le_antisymm hb.2 hb.1
  subst this
  exact ⟨ha.1, by norm_num, by linarith [ha.1]⟩
example : (let := exactFmt ℚ; fractionalWeightsI (K := ℚ) true (.ivl ⟨.num 0, .num 1⟩) (.scalar (.num 2))) =
    .ok (⟨.num 0, .num (1/3)⟩, ⟨.num (2/3), .num 1⟩) := by decide +kernel
example : (let := exactFmt ℚ; fractionalWeightsI (K := ℚ) true (.ivl ⟨.num 0, .num 1⟩) (.scalar (.num 0))) = .error .contract := by decide +kernel
example : (let := exactFmt ℚ; blendFractionsI (K := ℚ) true (.ivl ⟨.num 0, .num (1/2)⟩) (.ivl ⟨.num (-1), .num 1⟩) (.ivl ⟨.num 0, .num 3⟩)) =
    .ok ⟨.num (-1/2), .num 3⟩ := by decide +kernel
example : (let := exactFmt ℚ; blendLinearI (K := ℚ) true (.ivl ⟨.num 0, .num 1⟩) (.scalar (.num 2)) (.ivl ⟨.num (-1), .num 1⟩) (.ivl ⟨.num 0, .num 3⟩)) =
    .ok ⟨.num (-1/3), .num 3⟩ := by decide +kernel
example : (let := exactFmt ℚ; blendLinearI (K := ℚ) true (.scalar .nzero) (.scalar (.num 2)) (.ivl ⟨.num (-1), .num 1⟩) (.ivl ⟨.num 0, .num 3⟩)) =
    .ok ⟨.num 0, .num 3⟩ := by decide +kernel
end Intervals.Props
