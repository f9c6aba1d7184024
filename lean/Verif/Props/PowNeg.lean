import Verif.Props.PowErr
import Verif.Props.BlendLinearFlt
import Verif.Model.Narrow
/-!
# C94 for negative bases: pow with rounding, for a single integer exponent
-/
set_option linter.unusedSectionVars false
namespace Intervals.Props
open Intervals CppVal Spec Fl

/-- up to the relative error `τ`, the interval `[m, N]` is the range of `x ^ n` for `x` in `[a, b]`: it contains the powers, and both bounds are
powers -/
def ZPowRange (a b : ℝ) (n : ℤ) (m N τ : ℝ) : Prop :=
  (∀ x, a ≤ x → x ≤ b → m ≤ x ^ n + τ * |x ^ n| ∧ x ^ n - τ * |x ^ n| ≤ N) ∧
  (∃ x, a ≤ x ∧ x ≤ b ∧ |m - x ^ n| ≤ τ * |x ^ n|) ∧
  (∃ x, a ≤ x ∧ x ≤ b ∧ |N - x ^ n| ≤ τ * |x ^ n|)

theorem ZPowRange.mono {a b m N τ τ' : ℝ} {n : ℤ} (h : ZPowRange a b n m N τ) (le : τ ≤ τ') : ZPowRange a b n m N τ' := by
  obtain ⟨h1, ⟨x, x1, x2, hx⟩, ⟨u, u1, u2, hu⟩⟩ := h
  have mul : ∀ x : ℝ, τ * |x ^ n| ≤ τ' * |x ^ n| := fun x => mul_le_mul_of_nonneg_right le (abs_nonneg _)
  refine ⟨fun z z1 z2 => ?_, ⟨x, x1, x2, hx.trans (mul x)⟩, ⟨u, u1, u2, hu.trans (mul u)⟩⟩
  have := h1 z z1 z2
  have := mul z
  constructor <;> linarith

/-- `(-1) ^ n` as a number -/
def sgnZ (n : ℤ) : ℝ := if Even n then 1 else -1

theorem zpow_neg_base (n : ℤ) (x : ℝ) : x ^ n = sgnZ n * (-x) ^ (n : ℝ) := by
  rw [Real.rpow_intCast]
  unfold sgnZ
  split
  · next h => rw [h.neg_zpow, one_mul]
  · next h => rw [(Int.not_even_iff_odd.mp h).neg_zpow]; ring

theorem abs_sgnZ (n : ℤ) : |sgnZ n| = 1 := by unfold sgnZ; split <;> simp

section main
variable [Fmt ℚ] [Libm ℚ]

/-- multiplication by `(-1) ^ n` is exact -/
theorem signPow_mul (n : ℤ) {v : Fl ℚ} {c : ℚ} (hv : Is v c) (hr : Representable v) :
    ∃ c' : ℚ, Is (Fl.mul (signPow n) v) c' ∧ (c' : ℝ) = sgnZ n * c := by
  have rc : (Fmt.rnd c : Fl ℚ) = .num c := by
    obtain ⟨h1, rfl⟩ := hv
    cases v with
    | num k => exact hr
    | nzero => exact Fmt.rnd_zero
    | _ => simp [isFinite] at h1
  unfold signPow sgnZ
  split
  · refine ⟨c, is_iff_ext.mpr ?_, by simp⟩
    rw [ext_mul (Is.num 1) hv, one_mul, rc]
  · refine ⟨-c, is_iff_ext.mpr ?_, by push_cast; ring⟩
    rw [ext_mul (Is.num (-1)) hv, neg_one_mul, Fmt.rnd_symm _ rc]

/-- C94 for a negative base and a single integer exponent `n`: under the conditions of `C94_pow_partial`, if the values of the exponential are numbers of the format,
`pow(X, n)` is the range of `x ^ n`, up to the relative error `2d + 2(Bd + e)`. -/
theorem C94_negative_partial {M e d Z : ℚ} (E : AbsErr M e) (L : PowLib Z d) (rep : ∀ a : Fl ℚ, Representable (Libm.exp a))
    (dbg : Bool) (X Y : Arg (Fl ℚ)) (hX : FiniteA X) (neg : lt X.hi (.num 0) = true)
    (n : ℤ) (hn : -2^63 ≤ n ∧ n < 2^63) (hl : Is Y.lo n) (hh : Is Y.hi n) (hr : Is (Fmt.rnd (n : ℚ) : Fl ℚ) n)
    (B : ℚ) (hB : ∀ x : ℚ, .num x ∈ₐ X → |(n : ℝ)| * (1 + |Real.log x|) ≤ B)
    (hM : B * (1 + d) ≤ M) (hZ : B * (1 + d) + e ≤ Z) (hδ : 2 * d + 2 * (B * d + e) ≤ 1) :
    ∃ R m N, powI dbg X Y = .ok R ∧ IsI R m N ∧ ZPowRange X.lo.val X.hi.val n m N (2 * d + 2 * (B * d + e)) := by
  have iX := isA_of_finite hX
  have ab := iX.le hX.2.2
  have b0 : X.hi.val < 0 := ((Is.of_finite hX.2.1).lt_iff (Is.num (0:ℚ))).mp neg
  have neg' : lt X.lo (.num 0) = true := ((Is.of_finite hX.1).lt_iff (Is.num (0:ℚ))).mpr (by linarith)
  have cast : ∀ {x y : ℚ}, x ≤ y → (x:ℝ) ≤ y := fun h => by exact_mod_cast h
  have b0' : (X.hi.val : ℝ) < 0 := by exact_mod_cast b0
  have hYp : ProperA Y := by
    have : le Y.lo Y.hi = true := (hl.le_iff hh).mpr le_rfl
    cases Y <;> exact this
  have d0 : 0 ≤ d := by
    obtain ⟨c, -, hc⟩ := L.log (.num 1) 1 (Is.num 1) one_pos
    simp only [Rat.cast_one, Real.log_one, abs_zero, add_zero, mul_one] at hc
    exact_mod_cast (abs_nonneg _).trans hc
  obtain ⟨R, hR, all, ⟨x, hx, lo⟩, ⟨x', hx', hi⟩⟩ := C41_float_integer_partial L.logMono L.expMono dbg X Y hX.2.2 hYp neg' n hn hl.1 hl.2
    ((hl.eq_iff hh).mpr rfl) ((hr.eq_iff hl).mpr rfl)
  have pt : ∀ {x}, x ∈ₐ X → ∃ k c : ℚ, X.lo.val ≤ k ∧ k ≤ X.hi.val ∧ Is x k ∧ Is (Fl.mul (signPow n) (powPt (Fl.neg x) Y.lo)) c ∧
      |(c : ℝ) - (k : ℝ) ^ n| ≤ (2 * d + 2 * (B * d + e)) * |(k : ℝ) ^ n| := fun {x} hx => by
    obtain ⟨k, ik, k1, k2⟩ := isA_mem iX hx
    have kn : 0 < -k := by linarith
    have hb := hB k (iX.mem_num.mpr ⟨k1, k2⟩)
    rw [← Real.log_neg_eq_log] at hb
    obtain ⟨c, ic, hc⟩ := powPt_err E L ik.neg hl kn (by push_cast; exact hb) hM hZ (by linarith)
    obtain ⟨c', ic', hc'⟩ := signPow_mul n ic (rep _)
    refine ⟨k, c', k1, k2, ik, ic', ?_⟩
    push_cast at hc
    have p : 0 < (-(k:ℝ)) ^ (n:ℝ) := Real.rpow_pos_of_pos (by exact_mod_cast kn) _
    rw [zpow_neg_base n k, hc', ← mul_sub, abs_mul, abs_mul, abs_sgnZ, one_mul, one_mul, abs_of_pos p]
    exact hc
  have no : ∀ {x}, x ∈ₐ X → ¬ le (.num 0) x = true := fun {x} hx h => by
    obtain ⟨k, ik, k1, k2⟩ := isA_mem iX hx
    have := ((Is.num (0:ℚ)).le_iff ik).mp h
    linarith
  obtain ⟨k, m, k1, k2, -, im, hm⟩ := pt hx
  obtain ⟨k', N, k1', k2', -, iN, hN⟩ := pt hx'
  have lo := (lo.resolve_left fun h => no hx h.1).2
  have hi := (hi.resolve_left fun h => no hx' h.1).2
  have iR : IsI R m N := ⟨Is.of_eq lo im, Is.of_eq hi iN⟩
  refine ⟨R, m, N, hR, iR, ?_, ⟨k, cast k1, cast k2, hm⟩, ⟨k', cast k1', cast k2', hN⟩⟩
  intro u u1 u2
  have corner : ∀ u : ℝ, (u = X.lo.val ∨ u = X.hi.val) →
      ∃ c : ℚ, (m ≤ c ∧ c ≤ N) ∧ |(c : ℝ) - u ^ n| ≤ (2 * d + 2 * (B * d + e)) * |u ^ n| := by
    intro u hu
    obtain ⟨u', hu', rfl⟩ : ∃ u' : ℚ, .num u' ∈ₐ X ∧ (u' : ℝ) = u := by
      rcases hu with rfl | rfl
      · exact ⟨_, iX.mem_num.mpr ⟨le_refl _, ab⟩, rfl⟩
      · exact ⟨_, iX.mem_num.mpr ⟨ab, le_refl _⟩, rfl⟩
    obtain ⟨k, c, k1, k2, ik, ic, hc⟩ := pt hu'
    obtain rfl := ik.unique (Is.num u')
    obtain ⟨c', ic', h⟩ := iR.mem.mp ((all _ hu').2 (((Is.num k).le_iff (Is.num 0)).mpr (by linarith)))
    obtain rfl := ic'.unique ic
    exact ⟨c', h, hc⟩
  -- the power lies between the powers of the bounds
  obtain ⟨⟨x1, y1, hx1, hy1, h1⟩, ⟨x2, y2, hx2, hy2, h2⟩⟩ := rpow_between (a := -(X.hi.val : ℝ)) (b := -(X.lo.val : ℝ)) (c := n) (d := n) (x := -u) (y := n)
    (by linarith) (by linarith) (by linarith) le_rfl le_rfl
  obtain rfl : y1 = n := by rcases hy1 with h | h <;> exact h
  obtain rfl : y2 = n := by rcases hy2 with h | h <;> exact h
  have hx1' : -x1 = X.lo.val ∨ -x1 = X.hi.val := by rcases hx1 with rfl | rfl <;> simp
  have hx2' : -x2 = X.lo.val ∨ -x2 = X.hi.val := by rcases hx2 with rfl | rfl <;> simp
  have x10 : 0 < x1 := by rcases hx1 with rfl | rfl <;> linarith [cast ab]
  have x20 : 0 < x2 := by rcases hx2 with rfl | rfl <;> linarith [cast ab]
  obtain ⟨c1, ⟨m1, n1⟩, e1⟩ := corner _ hx1'
  obtain ⟨c2, ⟨m2, n2⟩, e2⟩ := corner _ hx2'
  have p1 : 0 < x1 ^ (n:ℝ) := Real.rpow_pos_of_pos x10 _
  have p2 : 0 < x2 ^ (n:ℝ) := Real.rpow_pos_of_pos x20 _
  have pu : 0 < (-u) ^ (n:ℝ) := Real.rpow_pos_of_pos (by linarith) _
  have hδ' : 2 * (d:ℝ) + 2 * (B * d + e) ≤ 1 := by exact_mod_cast hδ
  generalize 2 * (d:ℝ) + 2 * (B * d + e) = τ at *
  rw [zpow_neg_base n (-x1), abs_mul, abs_sgnZ, neg_neg, abs_of_pos p1, one_mul] at e1
  rw [zpow_neg_base n (-x2), abs_mul, abs_sgnZ, neg_neg, abs_of_pos p2, one_mul] at e2
  rw [zpow_neg_base n u, abs_mul, abs_sgnZ, abs_of_pos pu, one_mul]
  have τ0 : 0 ≤ τ := by
    by_contra h
    linarith [abs_nonneg ((c1:ℝ) - sgnZ n * x1 ^ (n:ℝ)), mul_neg_of_neg_of_pos (not_le.mp h) p1]
  rw [abs_le] at e1 e2
  have q1 := mul_le_mul_of_nonneg_left h1 (show 0 ≤ 1 + τ by linarith)
  have q2 := mul_le_mul_of_nonneg_left h2 (show 0 ≤ 1 - τ by linarith)
  have q3 := mul_le_mul_of_nonneg_left h1 (show 0 ≤ 1 - τ by linarith)
  have q4 := mul_le_mul_of_nonneg_left h2 (show 0 ≤ 1 + τ by linarith)
  have := cast m1; have := cast n1; have := cast m2; have := cast n2
  have sg : sgnZ n = 1 ∨ sgnZ n = -1 := by unfold sgnZ; split <;> simp
  rcases sg with sg | sg <;> rw [sg] at e1 e2 ⊢ <;> constructor <;> linarith [e1.1, e1.2, e2.1, e2.2]
end main

/-- C94 for `double` and a negative base: if `|n| (1 + |log |x||) ≤ 2^k` for the points, with `k ≤ 9`, then `pow(X, n)` is the range of `x ^ n` up to the relative
error `2^(k-48)`. -/
theorem C94_double_negative_partial (_ : Libm ℚ) (L : PowLib 600 (2^(-51 : ℤ))) (rep : let := binary64Fmt; ∀ a : Fl ℚ, Representable (Libm.exp a)) (k : ℤ) (n1 : 0 ≤ k) (n2 : k ≤ 9)
    (dbg : Bool) (X Y : Arg (Fl ℚ)) (hX : FiniteA X) (neg : lt X.hi (.num 0) = true)
    (n : ℤ) (hl : Is Y.lo n) (hh : Is Y.hi n)
    (hB : ∀ x : ℚ, .num x ∈ₐ X → |(n : ℝ)| * (1 + |Real.log x|) ≤ 2^k) :
    let := binary64Fmt
    ∃ R m N, powI dbg X Y = .ok R ∧ IsI R m N ∧ ZPowRange X.lo.val X.hi.val n m N (2^(k - 48)) := by
  intro _
  have E := absErr_bin (p := 53) (emin := -1074) (Ω := (2^53 - 1) * 2^971) (by norm_num) (by norm_num) (k + 1) (two_zpow_le_max (by omega)) (by omega)
  have tol := pow_tol (q := 53) n1
  have top : (2:ℚ)^k ≤ 512 := (zpow_le_zpow_right₀ (by norm_num) n2).trans (by norm_num)
  have p0 : (0:ℚ) < 2^k := zpow_pos (by norm_num) _
  have e1 : (2:ℚ)^(k + 1 - 53) = 2^k * 2^(-52 : ℤ) := by rw [← zpow_add₀ (by norm_num)]; congr 1; ring
  have e2 : (2:ℚ)^(k + 1) = 2^k * 2 := by rw [zpow_add₀ (by norm_num)]; norm_num
  -- the exponent is a small integer
  have hn : |n| ≤ 512 := by
    have mlo : .num X.lo.val ∈ₐ X := (isA_of_finite hX).mem_num.mpr ⟨le_rfl, (isA_of_finite hX).le hX.2.2⟩
    have h := hB _ mlo
    have : |(n:ℝ)| ≤ 2^k := by nlinarith [abs_nonneg (n:ℝ), abs_nonneg (Real.log X.lo.val)]
    have top' : (2:ℝ)^k ≤ 512 := (zpow_le_zpow_right₀ (by norm_num) n2).trans (by norm_num)
    have : |(n:ℝ)| ≤ 512 := this.trans top'
    exact_mod_cast this
  have hn' := abs_le.mp hn
  have hr : Is (Fmt.rnd (n : ℚ) : Fl ℚ) n := by
    have key : ∀ z : ℕ, z ≤ 512 → rndU 53 (-1074) (z : ℚ) = z := by decide +kernel
    have hq : rndU 53 (-1074) (n : ℚ) = n := by
      obtain ⟨z, rfl | rfl⟩ := Int.eq_nat_or_neg n
      · exact_mod_cast key z (by omega)
      · push_cast; rw [rndU_neg, key z (by omega)]
    have : rndBin 53 (-1074) ((2^53 - 1) * 2^971) (n : ℚ) = .num n := by
      refine rndBin_of hq ?_
      have : |(n:ℚ)| ≤ 512 := by exact_mod_cast hn
      exact this.trans (by decide +kernel)
    show Is (rndBin 53 (-1074) ((2^53 - 1) * 2^971) (n : ℚ)) n
    rw [this]; exact Is.num _
  obtain ⟨R, m, N, eR, iR, h⟩ := C94_negative_partial E L rep dbg X Y hX neg n ⟨by omega, by omega⟩ hl hh hr (2^k) (by push_cast; exact hB)
    (by rw [e2]; norm_num; linarith) (by rw [e1]; norm_num; linarith) (by rw [e1]; norm_num; linarith)
  refine ⟨R, m, N, eR, iR, h.mono ?_⟩
  push_cast
  rw [show k - 48 = k + 5 - 53 by ring]; exact tol

/-! ## A library that meets the hypotheses, and operands -/
theorem exp_600 : Real.exp 600 ≤ 2^(900 : ℕ) := by
  have h : Real.exp 2 ≤ 2^3 := by
    have := Real.exp_one_lt_d9
    rw [show (2:ℝ) = 1 + 1 by norm_num, Real.exp_add]
    nlinarith [Real.exp_pos 1]
  calc Real.exp 600 = (Real.exp 2)^300 := by rw [← Real.exp_nat_mul]; norm_num
    _ ≤ (2^3)^300 := pow_le_pow_left₀ (Real.exp_pos _).le h _
    _ = 2^900 := by rw [← pow_mul]

theorem toFormat_mono (F : Fmt ℚ) {a b : Fl ℚ} (h : le a b = true) : le (toFormatV F a) (toFormatV F b) = true := by
  have z := F.rnd_zero
  have nn := F.rnd_ne_nan
  have key : ∀ {k l : ℚ}, k ≤ l → le (F.rnd k) (F.rnd l) = true := fun h => F.rnd_mono _ _ h
  cases a <;> cases b <;> simp [toFormatV] at * <;> try exact key h
  · have := key h; rw [z] at this
    generalize F.rnd _ = v at *
    cases v <;> (simp at *; try assumption)
  · have := key h; rw [z] at this
    generalize F.rnd _ = v at *
    cases v <;> (simp at *; try assumption)

theorem near_pos {E c u : ℝ} (E0 : 0 < E) (hu : u ≤ 1/2) (hc : |c - E| ≤ u * E) : 0 < c ∧ c ≤ 2 * E := by
  rw [abs_le] at hc
  have := mul_le_mul_of_nonneg_right hu E0.le
  constructor <;> linarith [hc.1, hc.2]
theorem near_near {E c v u η : ℝ} (E0 : 0 < E) (u0 : 0 ≤ u) (hu : u ≤ 1/2) (hc : |c - E| ≤ u * E) (hη : η ≤ u * E) (hv : |v - c| ≤ u * c + η) : |v - E| ≤ 4 * u * E := by
  have h := mul_le_mul_of_nonneg_left (near_pos E0 hu hc).2 u0
  rw [abs_le] at *
  constructor <;> linarith [hc.1, hc.2, hv.1, hv.2]

/-- There is a library for `double` whose exponential has values of the format. -/
theorem exists_powLib_double : ∃ _ : Libm ℚ, PowLib 600 (2^(-51 : ℤ)) ∧ (let := binary64Fmt; ∀ a : Fl ℚ, Representable (Libm.exp a)) := by
  obtain ⟨L, hl, he, log, exp⟩ := exists_powLib 51 600 (2^(-53 : ℤ)) (by norm_num)
  let L' : Libm ℚ := { L with exp := fun a => toFormatV binary64Fmt (L.exp a) }
  have rel := relErr_bin (p := 53) (emin := -1074) (Ω := (2^53 - 1) * 2^971) (by norm_num) (by norm_num) 1000 (two_zpow_le_max (by omega)) (by norm_num)
  refine ⟨L', ⟨hl, ?_, log, ?_⟩, ?_⟩
  · intro a b hab
    exact toFormat_mono _ (he a b hab)
  · intro a k ha hk
    obtain ⟨c, ic, hc⟩ := exp a k ha hk
    have cast : ∀ {x y : ℚ}, x ≤ y → (x:ℝ) ≤ y := fun h => by exact_mod_cast h
    obtain ⟨k1, k2⟩ := abs_le.mp hk
    have k1 := cast k1; have k2 := cast k2
    push_cast at k1 k2 hc
    have pe := Real.exp_pos (k:ℝ)
    have up : Real.exp k ≤ 2^(900:ℕ) := (Real.exp_le_exp.mpr k2).trans exp_600
    have low : 1 ≤ 2^(900:ℕ) * Real.exp k := by
      have h := (Real.exp_le_exp.mpr (show -(k:ℝ) ≤ 600 by linarith)).trans exp_600
      have := mul_le_mul_of_nonneg_right h pe.le
      rwa [← Real.exp_add, neg_add_cancel, Real.exp_zero] at this
    have u12 : (2:ℝ)^(-53:ℤ) ≤ 1/2 := by norm_num
    obtain ⟨c0, ce⟩ := near_pos pe u12 hc
    have c2 : (c:ℝ) ≤ 2^(901:ℕ) := by
      rw [pow_succ]; linarith
    have cM : |c| ≤ (2:ℚ)^(1000:ℤ) := by
      have h : (c:ℝ) ≤ (((2:ℚ)^(1000:ℤ) : ℚ) : ℝ) := by
        push_cast
        refine c2.trans ?_
        rw [← zpow_natCast]
        exact zpow_le_zpow_right₀ (by norm_num) (by norm_num)
      rw [abs_of_pos (by exact_mod_cast c0)]; exact_mod_cast h
    obtain ⟨v, iv, hv⟩ := rel c cM
    refine ⟨v, ?_, ?_⟩
    · have e : L.exp a = .num c := by
        obtain ⟨h1, h2⟩ := ic
        have c0' : c ≠ 0 := by intro h; rw [h] at c0; simp at c0
        generalize L.exp a = w at h1 h2
        cases w <;> simp [isFinite, val] at h1 h2 ⊢ <;> first | exact h2 | exact absurd h2.symm c0'
      show Is (toFormatV binary64Fmt (L.exp a)) v
      rw [e]; exact iv
    · have hv := cast hv
      push_cast at hv
      rw [abs_of_pos c0] at hv
      have small : (2:ℝ)^(-1074:ℤ) / 2 ≤ 2^(-53:ℤ) * Real.exp k := by
        have e : (2:ℝ)^(-1074:ℤ) * 2^(900:ℕ) ≤ 2^(-53:ℤ) := by
          rw [← zpow_natCast, ← zpow_add₀ (by norm_num)]
          exact zpow_le_zpow_right₀ (by norm_num) (by norm_num)
        have p : (0:ℝ) < 2^(-1074:ℤ) := zpow_pos (by norm_num) _
        have h1 := mul_le_mul_of_nonneg_left low p.le
        have h2 := mul_le_mul_of_nonneg_right e pe.le
        rw [mul_assoc] at h2
        rw [mul_one] at h1
        exact (half_le_self p.le).trans (h1.trans h2)
      have e51 : ((2:ℝ)^(-51:ℤ)) = 4 * 2^(-53:ℤ) := by norm_num
      push_cast
      rw [e51]
      exact near_near pe (zpow_pos (by norm_num) _).le u12 hc small hv
  · intro _ a
    show @Representable ℚ _ _ binary64Fmt (toFormatV binary64Fmt (L.exp a))
    cases L.exp a with
    | num k =>
      show @Representable ℚ _ _ binary64Fmt (binary64Fmt.rnd k)
      cases h : binary64Fmt.rnd k with
      | num k' => exact (subFmt_bin (by norm_num) (by norm_num) (by norm_num) (by norm_num) le_rfl le_rfl le_rfl k k' h).1
      | _ => trivial
    | _ => trivial

/-- `[-2, -1] ^ 3` meets the hypotheses of `C94_double_negative_partial` with `k = 3`. -/
example : FiniteA (.ivl (⟨.num (-2), .num (-1)⟩ : Ivl (Fl ℚ))) ∧ lt (Fl.num (-1 : ℚ)) (.num 0) = true ∧
    ∀ x : ℚ, Fl.num x ∈ₐ .ivl ⟨.num (-2:ℚ), .num (-1)⟩ → |((3:ℤ) : ℝ)| * (1 + |Real.log x|) ≤ 2^(3:ℤ) := by
  have i1 : IsA (.ivl (⟨.num (-2), .num (-1)⟩ : Ivl (Fl ℚ))) (-2) (-1) := ⟨Is.num _, Is.num _⟩
  refine ⟨⟨rfl, rfl, (i1.1.le_iff i1.2).mpr (by norm_num)⟩, (i1.2.lt_iff (Is.num 0)).mpr (by norm_num), ?_⟩
  intro x hx
  obtain ⟨a, b⟩ := i1.mem_num.mp hx
  have cast : ∀ {x y : ℚ}, x ≤ y → (x:ℝ) ≤ y := fun h => by exact_mod_cast h
  have a := cast a; have b := cast b
  push_cast at a b
  have l := abs_le.mp log_two_near
  norm_num at l
  rw [← Real.log_neg_eq_log]
  have u := Real.log_le_log (show (0:ℝ) < -x by linarith) (show -(x:ℝ) ≤ 2 by linarith)
  have v := Real.log_nonneg (show (1:ℝ) ≤ -x by linarith)
  rw [abs_of_nonneg v, show |((3:ℤ):ℝ)| = 3 by norm_num, show (2:ℝ)^(3:ℤ) = 8 by norm_num]
  linarith
end Intervals.Props
