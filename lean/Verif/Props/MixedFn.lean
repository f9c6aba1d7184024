import Verif.Lemmas.MixedFn
/-!
# C100: functions of operands of different value types (exact arithmetic)
-/
set_option linter.unusedSectionVars false
namespace Intervals.Props
open Intervals CppVal Spec Fl

variable {n : Nat} {K : Type} [Field K] [LinearOrder K] [IsStrictOrderedRing K]
attribute [local instance] exactFmt

/-- C100: `fractional_weights(a, b)` of an integer and a floating-point weight (or two floating-point weights), `a, b ≥ 0`, `a + b > 0`: the
results are the exact ranges of `a/(a+b)` and `b/(a+b)`. -/
theorem C100_fractional_weights (dbg : Bool) (A B : DArg n K) (hA : FiniteD A) (hB : FiniteD B) (ty : ¬ (IsIntD A ∧ IsIntD B))
    (pos : ∀ a b : K, MemD a A → MemD b B → 0 ≤ a ∧ 0 ≤ b ∧ 0 < a + b) :
    ∃ Wa Wb, fractionalWeightsD dbg A B = .ok (Wa, Wb) ∧
      ExactRange (fun w => ∃ a b : K, MemD a A ∧ MemD b B ∧ w = a / (a + b)) Wa ∧
      ExactRange (fun w => ∃ a b : K, MemD a A ∧ MemD b B ∧ w = b / (a + b)) Wb := by
  obtain ⟨al, ah, iA, lA⟩ := finiteD_isDA hA
  obtain ⟨bl, bh, iB, lB⟩ := finiteD_isDA hB
  have a1 := memD_lo hA iA; have a2 := memD_hi hA iA; have b1 := memD_lo hB iB; have b2 := memD_hi hB iB
  obtain ⟨p1, p2, p3⟩ := pos al bl a1 b1
  have s1 : 0 < al + bh := by linarith
  have s2 : 0 < ah + bl := by linarith
  have w : ∀ {u v : DVal n K} {k l : K}, IsD u k → IsD v l → ¬ (u.IsInt ∧ v.IsInt) → k + l ≠ 0 →
      ∃ s r, DVal.add u v = .ok s ∧ DVal.div u s = .ok r ∧ Is r.toF (k / (k + l)) :=
    fun hu hv h h0 => ⟨_, _, op2_flt h, op2_flt (fun h => h.2), hu.toF.div (hu.toF.add hv.toF) h0⟩
  have w' : ∀ {u v : DVal n K} {k l : K}, IsD u k → IsD v l → ¬ (v.IsInt ∧ u.IsInt) → l + k ≠ 0 →
      ∃ s r, DVal.add v u = .ok s ∧ DVal.div u s = .ok r ∧ Is r.toF (k / (l + k)) :=
    fun hu hv h h0 => ⟨_, _, op2_flt h, op2_flt (fun h => h.2), hu.toF.div (hv.toF.add hu.toF) h0⟩
  have tll : ¬ (A.lo.IsInt ∧ B.hi.IsInt) := by rwa [isInt_lo, isInt_hi]
  have thl : ¬ (A.hi.IsInt ∧ B.lo.IsInt) := by rwa [isInt_lo, isInt_hi]
  obtain ⟨t1, r1, e1, d1, i1⟩ := w iA.1 iB.2 tll s1.ne'
  obtain ⟨t2, r2, e2, d2, i2⟩ := w iA.2 iB.1 thl s2.ne'
  obtain ⟨t3, r3, e3, d3, i3⟩ := w' iB.1 iA.2 thl s2.ne'
  obtain ⟨t4, r4, e4, d4, i4⟩ := w' iB.2 iA.1 tll s1.ne'
  obtain rfl : t3 = t2 := Except.ok.inj (e3.symm.trans e2)
  obtain rfl : t4 = t1 := Except.ok.inj (e4.symm.trans e1)
  obtain ⟨Wa, ea, ha⟩ := i1.make i2 (weight_mono p1 lA p2 lB s1 s2)
  obtain ⟨Wb, eb, hb⟩ := i3.make i4 (by rw [add_comm ah, add_comm al]; exact weight_mono p2 lB p1 lA (by linarith) (by linarith))
  refine ⟨Wa, Wb, ?_, exactRange_of ha ?_ ⟨al, bh, a1, b2, rfl⟩ ⟨ah, bl, a2, b1, rfl⟩,
    exactRange_of hb ?_ ⟨ah, bl, a2, b1, rfl⟩ ⟨al, bh, a1, b2, rfl⟩⟩
  · unfold fractionalWeightsD
    obtain ⟨R1, f1, -, g1⟩ := geZero_always true hA iA
    obtain ⟨R2, f2, -, g2⟩ := geZero_always true hB iB
    obtain ⟨R3, f3, g3⟩ := sumPos_always true hA hB iA iB ty
    rw [assignedD hA, assignedD hB]
    dsimp only
    rw [e1, e2]
    cases dbg with
    | false => simp [d1, d2, d3, d4, ea, eb]
    | true => simp [f1, f2, f3, g1, g2, g3, p1, p2, p3, d1, d2, d3, d4, ea, eb]
  · rintro w ⟨a, b, ma, mb, rfl⟩
    obtain ⟨q1, q2, q3⟩ := pos a b ma mb
    have A' := memD_bounds iA ma; have B' := memD_bounds iB mb
    exact ⟨weight_mono p1 A'.1 q2 B'.2 s1 q3, weight_mono q1 A'.2 p2 B'.1 q3 s2⟩
  · rintro w ⟨a, b, ma, mb, rfl⟩
    obtain ⟨q1, q2, q3⟩ := pos a b ma mb
    have A' := memD_bounds iA ma; have B' := memD_bounds iB mb
    rw [add_comm ah, add_comm al, add_comm a]
    exact ⟨weight_mono p2 B'.1 q1 A'.2 (by linarith) (by linarith), weight_mono q2 B'.2 p1 A'.1 (by linarith) (by linarith)⟩

theorem blendD_core (hn : 1 ≤ n) (dbg : Bool) {F X Y : DArg n K} {f0 f1 xl xh yl yh : K} (fF : FiniteD F) (fX : FiniteD X) (fY : FiniteD Y)
    (hF : IsDA F f0 f1) (hX : IsDA X xl xh) (hY : IsDA Y yl yh) (h0 : 0 ≤ f0) (h1 : f1 ≤ 1) (ty : ¬ (IsIntD F ∧ IsIntD X ∧ IsIntD Y)) :
    ∃ R m M, blendFractionsD dbg F X Y = .ok R ∧ IsI R m M ∧
      (∀ f x y : K, f0 ≤ f → f ≤ f1 → xl ≤ x → x ≤ xh → yl ≤ y → y ≤ yh → m ≤ f * x + (1 - f) * y ∧ f * x + (1 - f) * y ≤ M) ∧
      (∃ q, (q = f0 ∨ q = f1) ∧ m = q * xl + (1 - q) * yl) ∧ (∃ q, (q = f0 ∨ q = f1) ∧ M = q * xh + (1 - q) * yh) := by
  have lF := (memD_bounds hF (memD_hi fF hF)).1
  have lX := (memD_bounds hX (memD_hi fX hX)).1
  have lY := (memD_bounds hY (memD_hi fY hY)).1
  -- an integer fraction is 0 or 1
  have z01 : ∀ m : ℤ, 0 ≤ (m : K) → (m : K) ≤ 1 → (m : K) = 0 ∨ (m : K) = 1 := by
    intro m ha hb
    have ha : 0 ≤ m := by exact_mod_cast ha
    have hb : m ≤ 1 := by exact_mod_cast hb
    obtain rfl | rfl : m = 0 ∨ m = 1 := by omega
    · left; simp
    · right; simp
  have i01 : IsIntD F → (f0 = 0 ∨ f0 = 1) ∧ (f1 = 0 ∨ f1 = 1) := by
    intro h
    cases F with
    | flt F => exact h.elim
    | int F =>
      obtain ⟨rfl, rfl⟩ : ((F.lo.val : ℤ) : K) = f0 ∧ ((F.hi.val : ℤ) : K) = f1 := hF
      exact ⟨z01 _ h0 (lF.trans h1), z01 _ (h0.trans lF) h1⟩
  have q1 : ∃ q, IsD (if DVal.ge X.lo Y.lo then F.lo else F.hi) q ∧ (q = f0 ∨ q = f1) ∧ (f0 ≤ q ∧ q ≤ f1) ∧
      (∀ f, f0 ≤ f → f ≤ f1 → q * xl + (1 - q) * yl ≤ f * xl + (1 - f) * yl) := by
    rw [isD_ge hX.1 hY.1]
    by_cases c : yl ≤ xl
    · rw [if_pos (by simpa using c)]; exact ⟨f0, hF.1, .inl rfl, ⟨le_rfl, lF⟩, fun f a b => by nlinarith⟩
    · rw [if_neg (by simpa using c)]; exact ⟨f1, hF.2, .inr rfl, ⟨lF, le_rfl⟩, fun f a b => by nlinarith⟩
  have q2 : ∃ q, IsD (if DVal.ge X.hi Y.hi then F.hi else F.lo) q ∧ (q = f0 ∨ q = f1) ∧ (f0 ≤ q ∧ q ≤ f1) ∧
      (∀ f, f0 ≤ f → f ≤ f1 → f * xh + (1 - f) * yh ≤ q * xh + (1 - q) * yh) := by
    rw [isD_ge hX.2 hY.2]
    by_cases c : yh ≤ xh
    · rw [if_pos (by simpa using c)]; exact ⟨f1, hF.2, .inr rfl, ⟨lF, le_rfl⟩, fun f a b => by nlinarith⟩
    · rw [if_neg (by simpa using c)]; exact ⟨f0, hF.1, .inl rfl, ⟨le_rfl, lF⟩, fun f a b => by nlinarith⟩
  have ti1 : (if DVal.ge X.lo Y.lo then F.lo else F.hi).IsInt ↔ IsIntD F := by split <;> simp only [isInt_lo, isInt_hi]
  have ti2 : (if DVal.ge X.hi Y.hi then F.hi else F.lo).IsInt ↔ IsIntD F := by split <;> simp only [isInt_lo, isInt_hi]
  obtain ⟨ql, iql, cql, bql, mql⟩ := q1
  obtain ⟨qh, iqh, cqh, bqh, mqh⟩ := q2
  have mono : ∀ f x x' y y', f0 ≤ f → f ≤ f1 → x ≤ x' → y ≤ y' → f * x + (1 - f) * y ≤ f * x' + (1 - f) * y' := by
    intro f x x' y y' a b c d
    have := mul_le_mul_of_nonneg_left c (h0.trans a)
    have := mul_le_mul_of_nonneg_left d (by linarith : 0 ≤ 1 - f)
    linarith
  -- one bound
  have bound : ∀ {q x y : DVal n K} {k a b : K}, IsD q k → IsD x a → IsD y b → (k = f0 ∨ k = f1) → (q.IsInt ↔ IsIntD F) → (x.IsInt ↔ IsIntD X) →
      (y.IsInt ↔ IsIntD Y) → ∃ u s v r, DVal.mul q x = .ok u ∧ DVal.sub DVal.one q = .ok s ∧ DVal.mul s y = .ok v ∧ DVal.add u v = .ok r ∧
        Is r.toF (k * a + (1 - k) * b) := by
    intro q x y k a b hq hx hy ck tq tx ty'
    have k01 : q.IsInt → k = 0 ∨ k = 1 := fun h => by
      obtain ⟨g0, g1⟩ := i01 (tq.mp h)
      rcases ck with rfl | rfl <;> assumption
    obtain ⟨u, e1, i1, t1⟩ := isD_mul hq hx k01
    obtain ⟨s, e2, i2, t2⟩ := isD_one_sub hn hq k01
    obtain ⟨v, e3, i3, t3⟩ := isD_mul i2 hy (fun h => by
      rcases k01 (t2.mp h) with rfl | rfl
      · right; ring
      · left; ring)
    obtain ⟨r, e4, i4⟩ := isD_add i1 i3 (fun h => ty ⟨tq.mp (t1.mp h.1).1, tx.mp (t1.mp h.1).2, ty'.mp (t3.mp h.2).2⟩)
    exact ⟨u, s, v, r, e1, e2, e3, e4, i4.toF⟩
  obtain ⟨u1, s1, v1, r1, d1, d2, d3, d4, j1⟩ := bound iql hX.1 hY.1 cql ti1 isInt_lo isInt_lo
  obtain ⟨u2, s2, v2, r2, c1, c2, c3, c4, j2⟩ := bound iqh hX.2 hY.2 cqh ti2 isInt_hi isInt_hi
  have le12 : ql * xl + (1 - ql) * yl ≤ qh * xh + (1 - qh) * yh :=
    (mono ql _ _ _ _ bql.1 bql.2 lX lY).trans (mqh ql bql.1 bql.2)
  obtain ⟨R, eR, hR⟩ := j1.unordered j2
  rw [min_eq_left le12, max_eq_right le12] at hR
  refine ⟨R, _, _, ?_, hR, ?_, ⟨ql, cql, rfl⟩, ⟨qh, cqh, rfl⟩⟩
  · obtain ⟨R1, e1, n1, h1'⟩ := geZero_always true fF hF
    obtain ⟨R2, e2, n2, h2'⟩ := leOne_always hn true fF hF
    unfold blendFractionsD
    rw [assignedD fF, assignedD fX, assignedD fY]
    dsimp only
    rw [d1, d2, c1, c2]
    cases dbg with
    | false => simp [d3, d4, c3, c4, eR]
    | true => simp [e1, e2, and_always n1 n2, h1', h2', h0, h1, d3, d4, c3, c4, eR]
  · intro f x y a1 a2 b1 b2 c1 c2
    exact ⟨(mql f a1 a2).trans (mono f _ _ _ _ a1 a2 b1 c1), (mono f _ _ _ _ a1 a2 b2 c2).trans (mqh f a1 a2)⟩

/-- C100: `blend_fractions(f, x, y)` of operands of which at least one is floating-point, the others of an integer type, `0 ≤ f ≤ 1`: the exact
range of `f*x + (1-f)*y`. -/
theorem C100_blend_fractions (hn : 1 ≤ n) (dbg : Bool) (F X Y : DArg n K) (hF : FiniteD F) (hX : FiniteD X) (hY : FiniteD Y)
    (ty : ¬ (IsIntD F ∧ IsIntD X ∧ IsIntD Y)) (dom : ∀ f : K, MemD f F → 0 ≤ f ∧ f ≤ 1) :
    ∃ R, blendFractionsD dbg F X Y = .ok R ∧
      ExactRange (fun v => ∃ f x y : K, MemD f F ∧ MemD x X ∧ MemD y Y ∧ v = f * x + (1 - f) * y) R := by
  obtain ⟨fl, fh, iF, lF⟩ := finiteD_isDA hF
  obtain ⟨xl, xh, iX, lX⟩ := finiteD_isDA hX
  obtain ⟨yl, yh, iY, lY⟩ := finiteD_isDA hY
  obtain ⟨R, m, M, e, hR, h, ⟨q, hq, rfl⟩, ⟨q', hq', rfl⟩⟩ :=
    blendD_core hn dbg hF hX hY iF iX iY (dom _ (memD_lo hF iF)).1 (dom _ (memD_hi hF iF)).2 ty
  refine ⟨R, e, exactRange_of hR ?_ ⟨q, _, _, ?_, memD_lo hX iX, memD_lo hY iY, rfl⟩ ⟨q', _, _, ?_, memD_hi hX iX, memD_hi hY iY, rfl⟩⟩
  · rintro v ⟨f, x, y, mf, mx, my, rfl⟩
    have a := memD_bounds iF mf; have b := memD_bounds iX mx; have c := memD_bounds iY my
    exact h f x y a.1 a.2 b.1 b.2 c.1 c.2
  · rcases hq with rfl | rfl
    exacts [memD_lo hF iF, memD_hi hF iF]
  · rcases hq' with rfl | rfl
    exacts [memD_lo hF iF, memD_hi hF iF]

/-- C100: in debug mode a fraction outside `[0,1]` is a contract violation. -/
theorem C100_blend_fractions_domain (hn : 1 ≤ n) (F X Y : DArg n K) (hF : FiniteD F) (f : K) (hf : MemD f F) (bad : f < 0 ∨ 1 < f) :
    blendFractionsD true F X Y = .error .contract := by
  obtain ⟨fl, fh, iF, lF⟩ := finiteD_isDA hF
  obtain ⟨a1, a2⟩ := memD_bounds iF hf
  obtain ⟨R1, e1, n1, h1⟩ := geZero_always true hF iF
  obtain ⟨R2, e2, n2, h2⟩ := leOne_always hn true hF iF
  unfold blendFractionsD
  cases hh : (F.assigned && X.assigned && Y.assigned) with
  | false => rfl
  | true =>
    simp only [expectsDebug_true, ok_bind, if_true, e1, e2, and_always n1 n2, h1, h2]
    have : (decide (0 ≤ fl) && decide (fh ≤ 1)) = false := by
      rcases bad with h | h
      · simp [not_le.mpr (a1.trans_lt h)]
      · simp [not_le.mpr (h.trans_le a2)]
    rw [this]; rfl

/-- the debug checks of `fractional_weights` and `blend_linear` reject bad weights -/
theorem weightsD_pre {α : Type} (f : Unit → Outcome α) {A B : DArg n K} (hA : FiniteD A) (hB : FiniteD B) (a b : K) (ha : MemD a A) (hb : MemD b B)
    (bad : a < 0 ∨ b < 0 ∨ (¬ (IsIntD A ∧ IsIntD B) ∧ a + b ≤ 0)) :
    (do expects (BoolSet.always (← A.geZero true))
        expects (BoolSet.always (← B.geZero true))
        expects (BoolSet.always (← DArg.sumPos true A B))
        f () : Outcome α) = .error .contract := by
  obtain ⟨al, ah, iA, lA⟩ := finiteD_isDA hA
  obtain ⟨bl, bh, iB, lB⟩ := finiteD_isDA hB
  obtain ⟨a1, -⟩ := memD_bounds iA ha
  obtain ⟨b1, -⟩ := memD_bounds iB hb
  obtain ⟨R1, f1, -, g1⟩ := geZero_always true hA iA
  obtain ⟨R2, f2, -, g2⟩ := geZero_always true hB iB
  simp only [f1, f2, ok_bind, g1, g2]
  by_cases c1 : 0 ≤ al
  · by_cases c2 : 0 ≤ bl
    · rcases bad with h | h | ⟨ty, h⟩
      · exact absurd (c1.trans a1) (not_le.mpr h)
      · exact absurd (c2.trans b1) (not_le.mpr h)
      · obtain ⟨R3, f3, g3⟩ := sumPos_always true hA hB iA iB ty
        have c3 : ¬ 0 < al + bl := by intro h'; linarith
        simp [c1, c2, c3, f3, g3]
    · simp [c1, c2]
  · simp [c1]

/-- C100: in debug mode a negative weight of any type is a contract violation of `fractional_weights`, and so are, unless both weights are
integers, two weights that may both be zero. -/
theorem C100_fractional_weights_domain (A B : DArg n K) (hA : FiniteD A) (hB : FiniteD B) (a b : K) (ha : MemD a A) (hb : MemD b B)
    (bad : a < 0 ∨ b < 0 ∨ (¬ (IsIntD A ∧ IsIntD B) ∧ a + b ≤ 0)) : fractionalWeightsD true A B = .error .contract := by
  unfold fractionalWeightsD
  rw [assignedD hA, assignedD hB]
  exact weightsD_pre (fun _ => _) hA hB a b ha hb bad

/-- C100: the same for `blend_linear`, whatever the values. -/
theorem C100_blend_linear_domain (A B X Y : DArg n K) (hA : FiniteD A) (hB : FiniteD B) (a b : K) (ha : MemD a A) (hb : MemD b B)
    (bad : a < 0 ∨ b < 0 ∨ (¬ (IsIntD A ∧ IsIntD B) ∧ a + b ≤ 0)) : blendLinearD true A B X Y = .error .contract := by
  unfold blendLinearD
  cases hh : (A.assigned && B.assigned && X.assigned && Y.assigned) with
  | false => rfl
  | true => exact weightsD_pre (fun _ => _) hA hB a b ha hb bad

theorem mean_conv {a b x y : K} (h : 0 < a + b) : a / (a + b) * x + (1 - a / (a + b)) * y = (a * x + b * y) / (a + b) := by
  field_simp; ring

/-- C100: `blend_linear(a, b, x, y)` where at least one of the *weights* is floating-point, the other operands of any type, `a, b ≥ 0` and
`a + b > 0`: the exact range of the weighted mean `(a*x + b*y)/(a + b)`.  Partial: the full claim is about any operands with a floating-point
common type, but it is false if both weights are integers (`C100_violated`, `C100_violated_ub`, `C100_blend_linear_int`). -/
theorem C100_blend_linear_partial (hn : 1 ≤ n) (dbg : Bool) (A B X Y : DArg n K) (hA : FiniteD A) (hB : FiniteD B) (hX : FiniteD X) (hY : FiniteD Y)
    (ty : ¬ (IsIntD A ∧ IsIntD B)) (pos : ∀ a b : K, MemD a A → MemD b B → 0 ≤ a ∧ 0 ≤ b ∧ 0 < a + b) :
    ∃ R, blendLinearD dbg A B X Y = .ok R ∧
      ExactRange (fun v => ∃ a b x y : K, MemD a A ∧ MemD b B ∧ MemD x X ∧ MemD y Y ∧ v = (a * x + b * y) / (a + b)) R := by
  obtain ⟨al, ah, iA, lA⟩ := finiteD_isDA hA
  obtain ⟨bl, bh, iB, lB⟩ := finiteD_isDA hB
  obtain ⟨xl, xh, iX, lX⟩ := finiteD_isDA hX
  obtain ⟨yl, yh, iY, lY⟩ := finiteD_isDA hY
  have a1 := memD_lo hA iA; have a2 := memD_hi hA iA; have b1 := memD_lo hB iB; have b2 := memD_hi hB iB
  have x1 := memD_lo hX iX; have x2 := memD_hi hX iX; have y1 := memD_lo hY iY; have y2 := memD_hi hY iY
  obtain ⟨p1, p2, p3⟩ := pos al bl a1 b1
  have s1 : 0 < al + bh := by linarith
  have s2 : 0 < ah + bl := by linarith
  have q : ∀ {u v : DVal n K} {k l : K}, IsD u k → IsD v l → ¬ (v.IsInt ∧ u.IsInt) → 0 ≤ k → 0 ≤ l → 0 < k + l →
      ∃ s t r, DVal.div v u = .ok s ∧ DVal.add DVal.one s = .ok t ∧ DVal.div DVal.one t = .ok (.flt r) ∧ Is r (k / (k + l)) := by
    intro u v k l hu hv h h0 h0' h1
    refine ⟨_, _, _, op2_flt h, op2_flt (fun h => h.2), op2_flt (fun h => h.2), ?_⟩
    have := is_q hu.toF hv.toF h0 h0' h1
    rw [one_toF hn]
    exact this
  obtain ⟨t1, t2, q1, e1, e2, e3, i1⟩ := q iA.1 iB.2 (by rw [isInt_lo, isInt_hi]; exact fun h => ty h.symm) p1 (p2.trans lB) s1
  obtain ⟨t3, t4, q2, e4, e5, e6, i2⟩ := q iA.2 iB.1 (by rw [isInt_lo, isInt_hi]; exact fun h => ty h.symm) (p1.trans lA) p2 s2
  have lQ := weight_mono p1 lA p2 lB s1 s2
  obtain ⟨Q, eQ, hQ⟩ := i1.make i2 lQ
  have fQ : FiniteD (.flt (.ivl Q) : DArg n K) := ⟨hQ.1.1, hQ.2.1, hQ.proper.mpr lQ⟩
  obtain ⟨R, m, M, eR, hR, hin, ⟨q, hq, rfl⟩, ⟨q', hq', rfl⟩⟩ := blendD_core hn dbg fQ hX hY hQ iX iY
    (div_nonneg p1 s1.le) ((div_le_one s2).mpr (by linarith)) (fun h => h.1)
  refine ⟨R, ?_, exactRange_of hR ?_ ?_ ?_⟩
  · obtain ⟨R1, f1, -, g1⟩ := geZero_always true hA iA
    obtain ⟨R2, f2, -, g2⟩ := geZero_always true hB iB
    obtain ⟨R3, f3, g3⟩ := sumPos_always true hA hB iA iB ty
    have eD : DArg.make (.flt q1) (.flt q2) = .ok (.flt (.ivl Q) : DArg n K) := by
      show (do return DArg.flt (.ivl (← Ivl.make q1 q2)) : Outcome (DArg n K)) = _
      rw [eQ]; rfl
    unfold blendLinearD
    rw [assignedD hA, assignedD hB, assignedD hX, assignedD hY]
    dsimp only
    rw [e1, e4]
    cases dbg with
    | false => simpa [e2, e3, e5, e6, eD] using eR
    | true => simpa [f1, f2, f3, g1, g2, g3, p1, p2, p3, e2, e3, e5, e6, eD] using eR
  · rintro v ⟨a, b, x, y, ma, mb, mx, my, rfl⟩
    obtain ⟨q1, q2, q3⟩ := pos a b ma mb
    have A' := memD_bounds iA ma; have B' := memD_bounds iB mb; have X' := memD_bounds iX mx; have Y' := memD_bounds iY my
    rw [← mean_conv q3]
    exact hin _ x y (weight_mono p1 A'.1 q2 B'.2 s1 q3) (weight_mono q1 A'.2 p2 B'.1 q3 s2) X'.1 X'.2 Y'.1 Y'.2
  · rcases hq with rfl | rfl
    · exact ⟨_, _, _, _, a1, b2, x1, y1, mean_conv s1⟩
    · exact ⟨_, _, _, _, a2, b1, x1, y1, mean_conv s2⟩
  · rcases hq' with rfl | rfl
    · exact ⟨_, _, _, _, a1, b2, x2, y2, mean_conv s1⟩
    · exact ⟨_, _, _, _, a2, b1, x2, y2, mean_conv s2⟩

/-! ## Two integer weights -/
/-- the debug check `a + b > 0` of two integer weights -/
theorem sumPos_int (dbg : Bool) {A B : Arg (SInt n)} (hA : Inhab A) (hB : Inhab B) :
    (∃ R, sumPos dbg A B = .ok R ∧ BoolSet.always R = decide (0 < A.lo.val + B.lo.val)) ∨
    (¬ (Rep n (A.lo.val + B.lo.val) ∧ Rep n (A.hi.val + B.hi.val)) ∧ sumPos dbg A B = .error .ub) := by
  have lA : A.lo.val ≤ A.hi.val := by cases A <;> [exact le_rfl; exact hA]
  have lB : B.lo.val ≤ B.hi.val := by cases B <;> [exact le_rfl; exact hB]
  have aA := assigned_of_proper (properA_of_inhab hA); have aB := assigned_of_proper (properA_of_inhab hB)
  have of_bad : ∀ {v : ℤ}, ¬ Rep n v → SInt.of n v = .error .ub := fun {v} h => by
    unfold SInt.of BInt.ofInt
    rw [dif_neg (fun h' => h ⟨h'.1, by have := h'.2; omega⟩)]
  have eA : addI dbg A B = (do Ivl.make (← SInt.of n (A.lo.val + B.lo.val)) (← SInt.of n (A.hi.val + B.hi.val))) := by
    unfold addI
    rw [aA, aB]
    show (do expectsDebug dbg true; if false = true then _ else do
      Ivl.make (← SInt.of n (A.lo.val + B.lo.val)) (← SInt.of n (A.hi.val + B.hi.val))) = _
    cases dbg <;> simp
  have bad : addI dbg A B = .error .ub → (do opGt dbg (.ivl (← addI dbg A B)) (.scalar CppNum.zero) : Outcome BoolSet) = .error .ub :=
    fun h => by rw [h]; rfl
  by_cases r1 : Rep n (A.lo.val + B.lo.val)
  · by_cases r2 : Rep n (A.hi.val + B.hi.val)
    · left
      have gen : ∃ R, (do opGt dbg (.ivl (← addI dbg A B)) (.scalar CppNum.zero) : Outcome BoolSet) = .ok R ∧
          BoolSet.always R = decide (0 < A.lo.val + B.lo.val) := by
        set S : Ivl (SInt n) := ⟨⟨_, r1.1, by have := r1.2; omega⟩, ⟨_, r2.1, by have := r2.2; omega⟩⟩ with hS
        have pS : Proper S := by show decide (A.lo.val + B.lo.val ≤ A.hi.val + B.hi.val) = true; simp; omega
        have e : addI dbg A B = .ok S := by
          rw [eA, sint_of r1, sint_of r2]
          exact make_ok_of_le pS
        rw [e]
        refine ⟨compareLt (.scalar CppNum.zero) (.ivl S), ?_, ?_⟩
        · simp only [ok_bind, opGt, assigned_of_proper (X := .ivl S) pS]
          simp [Arg.assigned]
        · have e1 : CppVal.lt (Arg.scalar (CppNum.zero : SInt n)).lo (Arg.ivl S).hi = decide (0 < A.hi.val + B.hi.val) := rfl
          have e2 : CppVal.ge (Arg.scalar (CppNum.zero : SInt n)).hi (Arg.ivl S).lo = decide (A.lo.val + B.lo.val ≤ 0) := rfl
          simp only [compareLt, e1, e2]
          by_cases c : 0 < A.lo.val + B.lo.val
          · have c' : 0 < A.hi.val + B.hi.val := by omega
            simp [c, c', not_le.mpr c]; decide
          · have c' : A.lo.val + B.lo.val ≤ 0 := not_lt.mp c
            by_cases d : 0 < A.hi.val + B.hi.val <;> simp [c, c', d] <;> decide
      cases A with
      | ivl A => exact gen
      | scalar a =>
        cases B with
        | ivl B => exact gen
        | scalar b =>
          have r1' : Rep n (a.val + b.val) := r1
          refine ⟨BoolSet.single (decide (0 < a.val + b.val)), ?_, ?_⟩
          · show (do return BoolSet.single (CppVal.gt (← SInt.of n (a.val + b.val)) CppNum.zero)) = _
            rw [sint_of r1']; rfl
          · show BoolSet.always (BoolSet.single (decide (0 < a.val + b.val))) = decide (0 < a.val + b.val)
            cases decide (0 < a.val + b.val) <;> decide
    · right
      refine ⟨fun h => r2 h.2, ?_⟩
      have := bad (by rw [eA, sint_of r1, of_bad r2]; rfl)
      cases A with
      | ivl A => exact this
      | scalar a => cases B with
        | ivl B => exact this
        | scalar b => exact absurd r1 r2
  · right
    refine ⟨fun h => r1 h.1, ?_⟩
    have := bad (by rw [eA, of_bad r1]; rfl)
    cases A with
    | ivl A => exact this
    | scalar a => cases B with
      | ivl B => exact this
      | scalar b =>
        show (do return BoolSet.single (CppVal.gt (← SInt.of n (a.val + b.val)) CppNum.zero)) = _
        rw [of_bad (v := a.val + b.val) r1]; rfl

theorem div_int (a b : SInt n) : DVal.div (.int a) (.int b) =
    (do return .int (← (if b.val = 0 then .error .ub else SInt.of n (a.val.tdiv b.val) : Outcome (SInt n))) : Outcome (DVal n K)) := rfl

/-- C100 fails for two integer weights, 1: if the weight of `x` may be zero (allowed by the preconditions, and handled for floating-point weights,
where `b/0` is infinite), `blend_linear` divides an integer by zero: undefined behaviour, in every build, whatever `x` and `y`. -/
theorem C100_violated_ub (dbg : Bool) (A B : Arg (SInt n)) (X Y : DArg n K) (hA : Inhab A) (hB : Inhab B) (hX : FiniteD X) (hY : FiniteD Y)
    (pos : ∀ a b : ℤ, InI a A → InI b B → 0 ≤ a ∧ 0 ≤ b ∧ 0 < a + b) (zero : InI 0 A) :
    blendLinearD dbg (.int A) (.int B) X Y = .error .ub := by
  have fA : FiniteD (.int A : DArg n K) := hA
  have fB : FiniteD (.int B : DArg n K) := hB
  have mA : InI A.lo.val A := by cases A <;> [rfl; exact ⟨le_rfl, hA⟩]
  have mB : InI B.lo.val B := by cases B <;> [rfl; exact ⟨le_rfl, hB⟩]
  obtain ⟨p1, p2, p3⟩ := pos _ _ mA mB
  have z : A.lo.val = 0 := by
    refine le_antisymm ?_ p1
    cases A <;> [exact zero.ge; exact zero.1]
  have ed : DVal.div (DArg.int B : DArg n K).hi (DArg.int A : DArg n K).lo = .error .ub := by
    show DVal.div (.int B.hi) (.int A.lo) = _
    rw [div_int, if_pos z]; rfl
  obtain ⟨R1, f1, -, g1⟩ := geZero_always true fA ⟨rfl, rfl⟩
  obtain ⟨R2, f2, -, g2⟩ := geZero_always true fB ⟨rfl, rfl⟩
  have c1 : (0:K) ≤ A.lo.val := by exact_mod_cast p1
  have c2 : (0:K) ≤ B.lo.val := by exact_mod_cast p2
  unfold blendLinearD
  rw [assignedD fA, assignedD fB, assignedD hX, assignedD hY]
  dsimp only
  rw [ed]
  cases dbg with
  | false => simp
  | true =>
    rcases sumPos_int true hA hB with ⟨R3, f3, g3⟩ | ⟨-, f3⟩
    · simp [DArg.sumPos, f1, f2, f3, g1, g2, g3, c1, c2, p3]
    · simp [DArg.sumPos, f1, f2, f3, g1, g2, c1, c2]

theorem int_quot (hn : 1 ≤ n) {a b : SInt n} (ha : 0 < a.val) (hb : 0 ≤ b.val) (hr : 1 + b.val < 2^n) :
    ∃ s t r : SInt n, DVal.div (K := K) (.int b) (.int a) = .ok (.int s) ∧ DVal.add (K := K) DVal.one (.int s) = .ok (.int t) ∧
      DVal.div (K := K) DVal.one (.int t) = .ok (.int r) ∧ r.val = if b.val < a.val then 1 else 0 := by
  have q0 : 0 ≤ b.val / a.val := Int.ediv_nonneg hb ha.le
  have q1 : b.val / a.val ≤ b.val := Int.ediv_le_self _ hb
  have e1 : b.val.tdiv a.val = b.val / a.val := Int.tdiv_eq_ediv_of_nonneg hb
  have h2 : (0:Int) < 2^n := Int.pow_pos (by decide)
  have r1 : Rep n (b.val / a.val) := ⟨by omega, by omega⟩
  have r2 : Rep n (1 + b.val / a.val) := ⟨by omega, by omega⟩
  have e3 : (1:ℤ).tdiv (1 + b.val / a.val) = if b.val < a.val then 1 else 0 := by
    rw [Int.tdiv_eq_ediv_of_nonneg (by decide)]
    split
    · next h => rw [Int.ediv_eq_zero_of_lt hb h]; rfl
    · next h =>
      have : 1 ≤ b.val / a.val := by
        rw [Int.le_ediv_iff_mul_le ha]; omega
      exact Int.ediv_eq_zero_of_lt (by decide) (by omega)
  have r3 : Rep n (if b.val < a.val then 1 else 0) := by
    have : (1:ℤ) < 2^n := by omega
    constructor
    · split <;> omega
    · split <;> omega
  refine ⟨⟨_, r1.1, by have := r1.2; omega⟩, ⟨_, r2.1, by have := r2.2; omega⟩, ⟨_, r3.1, by have := r3.2; omega⟩, ?_, ?_, ?_, rfl⟩
  · rw [div_int, if_neg (by omega), e1, sint_of r1]; rfl
  · show (do return DVal.int (← SInt.of n ((CppNum.one : SInt n).val + b.val / a.val)) : Outcome (DVal n K)) = _
    rw [one_val hn, sint_of r2]; rfl
  · rw [DVal.one, div_int, if_neg (by show ¬ (1 + b.val / a.val = 0); omega), one_val hn, e3, sint_of r3]; rfl

/-- C100 fails for two integer weights, 2: with integer weights `a > 0`, `b ≥ 0` whose sums do not overflow, `1/(1 + b/a)` is an integer division.
`blend_linear` returns the range of `x` if every `a` exceeds every `b`, the range of `y` if no `a` exceeds any `b`, and otherwise the range of
both together: it is a selection by the larger weight, not a weighted mean. -/
theorem C100_blend_linear_int (hn : 1 ≤ n) (dbg : Bool) (A B : Arg (SInt n)) (X Y : DArg n K) (hA : Inhab A) (hB : Inhab B) (hX : FiniteD X) (hY : FiniteD Y)
    (ty : ¬ (IsIntD X ∧ IsIntD Y)) (pos : ∀ a b : ℤ, InI a A → InI b B → 0 < a ∧ 0 ≤ b ∧ a + b < 2^n) :
    ∃ R, blendLinearD dbg (.int A) (.int B) X Y = .ok R ∧
      ((∀ a b, InI a A → InI b B → b < a) → ExactRange (fun v : K => MemD v X) R) ∧
      ((∀ a b, InI a A → InI b B → a ≤ b) → ExactRange (fun v : K => MemD v Y) R) ∧
      ((∃ a b, InI a A ∧ InI b B ∧ b < a) → (∃ a b, InI a A ∧ InI b B ∧ a ≤ b) → ExactRange (fun v : K => MemD v X ∨ MemD v Y) R) := by
  have fA : FiniteD (.int A : DArg n K) := hA
  have fB : FiniteD (.int B : DArg n K) := hB
  have mA : InI A.lo.val A := by cases A <;> [rfl; exact ⟨le_rfl, hA⟩]
  have mB : InI B.lo.val B := by cases B <;> [rfl; exact ⟨le_rfl, hB⟩]
  have mA' : InI A.hi.val A := by cases A <;> [rfl; exact ⟨hA, le_rfl⟩]
  have mB' : InI B.hi.val B := by cases B <;> [rfl; exact ⟨hB, le_rfl⟩]
  have bA : ∀ a, InI a A → A.lo.val ≤ a ∧ a ≤ A.hi.val := fun a h => by
    cases A <;> [exact ⟨h.ge, h.le⟩; exact h]
  have bB : ∀ b, InI b B → B.lo.val ≤ b ∧ b ≤ B.hi.val := fun a h => by
    cases B <;> [exact ⟨h.ge, h.le⟩; exact h]
  obtain ⟨xl, xh, iX, lX⟩ := finiteD_isDA hX
  obtain ⟨yl, yh, iY, lY⟩ := finiteD_isDA hY
  obtain ⟨p1, p2, p3⟩ := pos _ _ mA mB
  obtain ⟨p4, p5, p6⟩ := pos _ _ mA' mB'
  have x1 := memD_lo hX iX; have x2 := memD_hi hX iX; have y1 := memD_lo hY iY; have y2 := memD_hi hY iY
  have lA := (bA _ mA').1; have lB := (bB _ mB').1
  obtain ⟨t1, t2, q1, e1, e2, e3, v1⟩ := int_quot (K := K) hn (a := A.lo) (b := B.hi) p1 p5 (by omega)
  obtain ⟨t3, t4, q2, e4, e5, e6, v2⟩ := int_quot (K := K) hn (a := A.hi) (b := B.lo) p4 p2 (by omega)
  have lq : q1.val ≤ q2.val := by rw [v1, v2]; split <;> split <;> omega
  have fQ : FiniteD (.int (.ivl ⟨q1, q2⟩) : DArg n K) := lq
  have h01 : (0:K) ≤ q1.val ∧ (q2.val : K) ≤ 1 := by
    constructor
    · rw [v1]; split <;> simp
    · rw [v2]; split <;> simp
  obtain ⟨R, m, M, eR, hR, hin, hm, hM⟩ := blendD_core hn dbg fQ hX hY (f0 := (q1.val : K)) (f1 := (q2.val : K)) ⟨rfl, rfl⟩ iX iY
    h01.1 h01.2 (fun h => ty h.2)
  refine ⟨R, ?_, ?_, ?_, ?_⟩
  · have c1 : (0:K) ≤ A.lo.val := by exact_mod_cast p1.le
    have c2 : (0:K) ≤ B.lo.val := by exact_mod_cast p2
    obtain ⟨R1, f1, -, g1⟩ := geZero_always true fA ⟨rfl, rfl⟩
    obtain ⟨R2, f2, -, g2⟩ := geZero_always true fB ⟨rfl, rfl⟩
    have h2 : (0:Int) < 2^n := Int.pow_pos (by decide)
    have eD : DArg.make (.int q1) (.int q2) = .ok (.int (.ivl ⟨q1, q2⟩) : DArg n K) := by
      show (do return DArg.int (.ivl (← Ivl.make q1 q2)) : Outcome (DArg n K)) = _
      rw [make_ok_of_le (show decide (q1.val ≤ q2.val) = true by simpa using lq)]; rfl
    unfold blendLinearD
    rw [assignedD fA, assignedD fB, assignedD hX, assignedD hY]
    simp only [DArg.lo, DArg.hi]
    rw [e1, e4]
    cases dbg with
    | false => simpa [e2, e3, e5, e6, eD] using eR
    | true =>
      rcases sumPos_int true hA hB with ⟨R3, f3, g3⟩ | ⟨bad, -⟩
      · have p0 : 0 < A.lo.val + B.lo.val := by omega
        simpa [DArg.sumPos, f1, f2, f3, g1, g2, g3, c1, c2, p0, e2, e3, e5, e6, eD] using eR
      · exact absurd ⟨⟨by omega, by omega⟩, ⟨by omega, by omega⟩⟩ bad
  · intro h
    have w1 : q1.val = 1 := by rw [v1, if_pos (h _ _ mA mB')]
    have w2 : q2.val = 1 := by rw [v2, if_pos (h _ _ mA' mB)]
    rw [w1, w2] at hm hM hin
    obtain ⟨q, hq, rfl⟩ := hm; obtain ⟨q', hq', rfl⟩ := hM
    have hq : q = 1 := by simpa using hq
    have hq' : q' = 1 := by simpa using hq'
    subst hq hq'
    refine exactRange_of hR ?_ (by simpa using x1) (by simpa using x2)
    intro v hv
    have := hin 1 v yl (by simp) (by simp) (memD_bounds iX hv).1 (memD_bounds iX hv).2 le_rfl lY
    simpa using this
  · intro h
    have w1 : q1.val = 0 := by rw [v1, if_neg (by have := h _ _ mA mB'; omega)]
    have w2 : q2.val = 0 := by rw [v2, if_neg (by have := h _ _ mA' mB; omega)]
    rw [w1, w2] at hm hM hin
    obtain ⟨q, hq, rfl⟩ := hm; obtain ⟨q', hq', rfl⟩ := hM
    have hq : q = 0 := by simpa using hq
    have hq' : q' = 0 := by simpa using hq'
    subst hq hq'
    refine exactRange_of hR ?_ (by simpa using y1) (by simpa using y2)
    intro v hv
    have := hin 0 xl v (by simp) (by simp) le_rfl lX (memD_bounds iY hv).1 (memD_bounds iY hv).2
    simpa using this
  · rintro ⟨a, b, ha, hb, hab⟩ ⟨a', b', ha', hb', hab'⟩
    have w1 : q1.val = 0 := by rw [v1, if_neg (by have := bA _ ha'; have := bB _ hb'; omega)]
    have w2 : q2.val = 1 := by rw [v2, if_pos (by have := bA _ ha; have := bB _ hb; omega)]
    rw [w1, w2] at hm hM hin
    refine exactRange_of hR ?_ ?_ ?_
    · rintro v (hv | hv)
      · have := hin 1 v yl (by simp) (by simp) (memD_bounds iX hv).1 (memD_bounds iX hv).2 le_rfl lY
        simpa using this
      · have := hin 0 xl v (by simp) (by simp) le_rfl lX (memD_bounds iY hv).1 (memD_bounds iY hv).2
        simpa using this
    · obtain ⟨q, hq | hq, rfl⟩ := hm
      · right; subst hq; simpa using y1
      · left; subst hq; simpa using x1
    · obtain ⟨q, hq | hq, rfl⟩ := hM
      · right; subst hq; simpa using y2
      · left; subst hq; simpa using x2

/-- C100, two integer weights: `blend_linear` encloses the weighted means exactly if the selection happens to: `x` is selected and `b` is 0 or the
range of `y` is within that of `x`; or `y` is selected and the range of `x` is within that of `y`; or neither is selected. -/
theorem C100_blend_linear_int_iff (hn : 1 ≤ n) (dbg : Bool) (A B : Arg (SInt n)) (X Y : DArg n K) (hA : Inhab A) (hB : Inhab B) (hX : FiniteD X)
    (hY : FiniteD Y) (ty : ¬ (IsIntD X ∧ IsIntD Y)) (pos : ∀ a b : ℤ, InI a A → InI b B → 0 < a ∧ 0 ≤ b ∧ a + b < 2^n) :
    ∃ R, blendLinearD dbg (.int A) (.int B) X Y = .ok R ∧
      ((∀ (a b : ℤ) (x y : K), InI a A → InI b B → MemD x X → MemD y Y → .num ((a * x + b * y) / (a + b)) ∈ᵢ R) ↔
        ((∀ a b, InI a A → InI b B → b < a) → (∀ b, InI b B → b = 0) ∨ (∀ y : K, MemD y Y → ∃ x x', MemD x X ∧ MemD x' X ∧ x ≤ y ∧ y ≤ x')) ∧
        ((∀ a b, InI a A → InI b B → a ≤ b) → ∀ x : K, MemD x X → ∃ y y', MemD y Y ∧ MemD y' Y ∧ y ≤ x ∧ x ≤ y')) := by
  obtain ⟨R, e, h1, h2, h3⟩ := C100_blend_linear_int hn dbg A B X Y hA hB hX hY ty pos
  refine ⟨R, e, ?_⟩
  obtain ⟨xl, xh, iX, lX⟩ := finiteD_isDA hX
  obtain ⟨yl, yh, iY, lY⟩ := finiteD_isDA hY
  have x1 := memD_lo hX iX; have x2 := memD_hi hX iX; have y1 := memD_lo hY iY; have y2 := memD_hi hY iY
  have mA : InI A.lo.val A := by cases A <;> [rfl; exact ⟨le_rfl, hA⟩]
  have mB' : InI B.hi.val B := by cases B <;> [rfl; exact ⟨hB, le_rfl⟩]
  have mB : InI B.lo.val B := by cases B <;> [rfl; exact ⟨le_rfl, hB⟩]
  -- membership in an exact range of a set with least and greatest elements
  have mem : ∀ {V : K → Prop} {m M : K}, ExactRange V R → V m → V M → (∀ v, V v → m ≤ v ∧ v ≤ M) → ∀ v, .num v ∈ᵢ R ↔ m ≤ v ∧ v ≤ M := by
    intro V m M hV hm hM hb v
    obtain ⟨c1, ⟨u, hu, eu⟩, ⟨w, hw, ew⟩⟩ := hV
    have hlo := c1 m hm; have hhi := c1 M hM
    have iu : Is R.lo u := by
      have f : R.lo.isFinite = true := by cases hR : R.lo <;> rw [hR] at eu <;> simp_all [CppVal.eq, ext, isFinite]
      exact ⟨f, ((Is.of_finite f).eq_iff (Is.num u)).mp eu⟩
    have iw : Is R.hi w := by
      have f : R.hi.isFinite = true := by cases hR : R.hi <;> rw [hR] at ew <;> simp_all [CppVal.eq, ext, isFinite]
      exact ⟨f, ((Is.of_finite f).eq_iff (Is.num w)).mp ew⟩
    have hI : IsI R u w := ⟨iu, iw⟩
    rw [hI.mem_num] at hlo hhi ⊢
    have := hb u hu; have := hb w hw
    rw [le_antisymm hlo.1 (hb u hu).1, le_antisymm (hb w hw).2 hhi.2]
  have P : ∀ a b : ℤ, InI a A → InI b B → (0:K) < a ∧ (0:K) ≤ b := fun a b ha hb => by
    obtain ⟨q1, q2, -⟩ := pos a b ha hb
    exact ⟨by exact_mod_cast q1, by exact_mod_cast q2⟩
  by_cases c1 : ∀ a b, InI a A → InI b B → b < a
  · have m := mem (h1 c1) x1 x2 (fun v hv => memD_bounds iX hv)
    simp only [m]
    have nc : ¬ ∀ a b, InI a A → InI b B → a ≤ b := fun h => absurd (c1 _ _ mA mB) (not_lt.mpr (h _ _ mA mB))
    constructor
    · intro H
      refine ⟨fun _ => ?_, fun h => absurd h nc⟩
      by_cases z : ∀ b, InI b B → b = 0
      · exact .inl z
      · right
        push Not at z
        obtain ⟨b, hb, hb0⟩ := z
        obtain ⟨q1, q2⟩ := P _ _ mA hb
        have q2 : (0:K) < b := lt_of_le_of_ne q2 (by exact_mod_cast hb0.symm)
        have s : (0:K) < A.lo.val + b := by linarith
        intro y hy
        have k1 := (H _ b xl y mA hb x1 hy).1
        have k2 := (H _ b xh y mA hb x2 hy).2
        rw [le_div_iff₀ s] at k1
        rw [div_le_iff₀ s] at k2
        exact ⟨xl, xh, x1, x2, le_of_mul_le_mul_left (by linarith) q2, le_of_mul_le_mul_left (by linarith) q2⟩
    · rintro ⟨H, -⟩ a b x y ha hb hx hy
      obtain ⟨q1, q2⟩ := P _ _ ha hb
      have s : (0:K) < a + b := by linarith
      have X' := memD_bounds iX hx
      rw [le_div_iff₀ s, div_le_iff₀ s]
      rcases H c1 with z | z
      · rw [z b hb]; push_cast
        constructor <;> nlinarith
      · obtain ⟨u, u', hu, hu', k1, k2⟩ := z y hy
        have U := memD_bounds iX hu; have U' := memD_bounds iX hu'
        have : xl ≤ y := U.1.trans k1
        have : y ≤ xh := k2.trans U'.2
        constructor <;> nlinarith
  · by_cases c2 : ∀ a b, InI a A → InI b B → a ≤ b
    · have m := mem (h2 c2) y1 y2 (fun v hv => memD_bounds iY hv)
      simp only [m]
      constructor
      · intro H
        refine ⟨fun h => absurd h c1, fun _ x hx => ?_⟩
        obtain ⟨q1, q2⟩ := P _ _ mA mB
        have s : (0:K) < A.lo.val + B.lo.val := by linarith
        have k1 := (H _ _ x yl mA mB hx y1).1
        have k2 := (H _ _ x yh mA mB hx y2).2
        rw [le_div_iff₀ s] at k1
        rw [div_le_iff₀ s] at k2
        exact ⟨yl, yh, y1, y2, le_of_mul_le_mul_left (by linarith) q1, le_of_mul_le_mul_left (by linarith) q1⟩
      · rintro ⟨-, H⟩ a b x y ha hb hx hy
        obtain ⟨q1, q2⟩ := P _ _ ha hb
        have s : (0:K) < a + b := by linarith
        have Y' := memD_bounds iY hy
        rw [le_div_iff₀ s, div_le_iff₀ s]
        obtain ⟨u, u', hu, hu', k1, k2⟩ := H c2 x hx
        have U := memD_bounds iY hu; have U' := memD_bounds iY hu'
        have : yl ≤ x := U.1.trans k1
        have : x ≤ yh := k2.trans U'.2
        constructor <;> nlinarith
    · push Not at c1 c2
      obtain ⟨a, b, ha, hb, hab⟩ := c1
      obtain ⟨a', b', ha', hb', hab'⟩ := c2
      have E := h3 ⟨a', b', ha', hb', hab'⟩ ⟨a, b, ha, hb, hab⟩
      have m := mem (m := min xl yl) (M := max xh yh) E (by rcases min_choice xl yl with h | h <;> rw [h] <;> [exact .inl x1; exact .inr y1])
        (by rcases max_choice xh yh with h | h <;> rw [h] <;> [exact .inl x2; exact .inr y2]) (by
          rintro v (hv | hv)
          · exact ⟨(min_le_left _ _).trans (memD_bounds iX hv).1, (memD_bounds iX hv).2.trans (le_max_left _ _)⟩
          · exact ⟨(min_le_right _ _).trans (memD_bounds iY hv).1, (memD_bounds iY hv).2.trans (le_max_right _ _)⟩)
      simp only [m]
      refine iff_of_true ?_ ⟨fun h => absurd (h _ _ ha hb) (not_lt.mpr hab), fun h => absurd (h _ _ ha' hb') (not_le.mpr hab')⟩
      intro a b x y ha hb hx hy
      obtain ⟨q1, q2⟩ := P _ _ ha hb
      have s : (0:K) < a + b := by linarith
      have X' := memD_bounds iX hx; have Y' := memD_bounds iY hy
      have := min_le_left xl yl; have := min_le_right xl yl; have := le_max_left xh yh; have := le_max_right xh yh
      rw [le_div_iff₀ s, div_le_iff₀ s]
      have t1 : min xl yl ≤ x := by linarith
      have t2 : min xl yl ≤ y := by linarith
      have t3 : x ≤ max xh yh := by linarith
      have t4 : y ≤ max xh yh := by linarith
      constructor <;> nlinarith [mul_le_mul_of_nonneg_left t1 q1.le, mul_le_mul_of_nonneg_left t2 q2, mul_le_mul_of_nonneg_left t3 q1.le, mul_le_mul_of_nonneg_left t4 q2]

/-- C100 is false: `blend_linear(1, 2, 0.0, [3,3])` with `int` weights is `[3,3]`; the weighted mean is 2. -/
theorem C100_violated : ∀ dbg, blendLinearD dbg (.int (.scalar (i32 1))) (.int (.scalar (i32 2))) (.flt (.scalar (.num 0)))
      (.flt (.ivl ⟨.num 3, .num 3⟩) : DArg 31 ℚ) = .ok ⟨.num 3, .num 3⟩ ∧
    ¬ .num (((1:ℚ) * 0 + 2 * 3) / (1 + 2)) ∈ᵢ (⟨.num 3, .num 3⟩ : Ivl (Fl ℚ)) := by
  intro dbg
  refine ⟨by cases dbg <;> decide +kernel, by decide +kernel⟩

/-! Non-trivial operands: an `int` weight `a ∈ [0,1]` and a floating-point weight 2; an `int` fraction `f ∈ [0,1]`; two `int` weights. -/
example : FiniteD (.int (.ivl ⟨i32 0, i32 1⟩) : DArg 31 ℚ) := by show (0:ℤ) ≤ 1; decide
example : ¬ (IsIntD (.int (.ivl ⟨i32 0, i32 1⟩) : DArg 31 ℚ) ∧ IsIntD (.flt (.scalar (.num 2)) : DArg 31 ℚ)) := fun h => h.2
example : ∀ a b : ℚ, MemD a (.int (.ivl ⟨i32 0, i32 1⟩) : DArg 31 ℚ) → MemD b (.flt (.scalar (.num 2)) : DArg 31 ℚ) → 0 ≤ a ∧ 0 ≤ b ∧ 0 < a + b := by
  rintro a b ⟨m, hm, rfl⟩ hb
  obtain ⟨h1, -⟩ : 0 ≤ m ∧ m ≤ 1 := hm
  have hb' : (2:ℚ) ≤ b ∧ b ≤ 2 := IsA.mem_num (X := .scalar (.num (2:ℚ))) ⟨Is.num _, Is.num _⟩ |>.mp hb
  have : (0:ℚ) ≤ m := by exact_mod_cast h1
  exact ⟨this, by linarith, by linarith⟩
example : ∀ f : ℚ, MemD f (.int (.ivl ⟨i32 0, i32 1⟩) : DArg 31 ℚ) → 0 ≤ f ∧ f ≤ 1 := by
  rintro f ⟨m, hm, rfl⟩
  obtain ⟨h1, h2⟩ : 0 ≤ m ∧ m ≤ 1 := hm
  exact ⟨by exact_mod_cast h1, by exact_mod_cast h2⟩
example : ∀ a b : ℤ, InI a (.ivl ⟨i32 1, i32 3⟩) → InI b (.scalar (i32 2)) → 0 < a ∧ 0 ≤ b ∧ a + b < 2^31 := by
  intro a b ha hb
  have h1 : 1 ≤ a ∧ a ≤ 3 := ha
  have h2 : b = 2 := hb
  omega
example : (∀ a b : ℤ, InI a (.ivl ⟨i32 0, i32 3⟩) → InI b (.scalar (i32 2)) → 0 ≤ a ∧ 0 ≤ b ∧ 0 < a + b) ∧ InI 0 (.ivl ⟨i32 0, i32 3⟩) := by
  refine ⟨fun a b ha hb => ?_, by show (0:ℤ) ≤ 0 ∧ (0:ℤ) ≤ 3; decide⟩
  have h1 : 0 ≤ a ∧ a ≤ 3 := ha
  have h2 : b = 2 := hb
  omega
/-- weights for the `_domain` theorems: the integer weight may be negative -/
example : MemD (-1 : ℚ) (.int (.ivl ⟨i32 (-1), i32 1⟩) : DArg 31 ℚ) ∧ FiniteD (.int (.ivl ⟨i32 (-1), i32 1⟩) : DArg 31 ℚ) :=
  ⟨⟨-1, by show (-1:ℤ) ≤ -1 ∧ (-1:ℤ) ≤ 1; decide, by norm_num⟩, by show (-1:ℤ) ≤ 1; decide⟩
/-- the wrong result also if neither weight is a multiple of the other: weights 3 and 2 select `x` -/
example : blendLinearD true (.int (.scalar (i32 3))) (.int (.scalar (i32 2))) (.flt (.ivl ⟨.num 0, .num 1⟩)) (.flt (.scalar (.num 5)) : DArg 31 ℚ) =
    .ok ⟨.num 0, .num 1⟩ := by decide +kernel
end Intervals.Props
