import Verif.Lemmas.BinFmt
import Verif.Spec.Narrow
import Mathlib.Tactic.Positivity
/-!
# More about IEEE 754 binary formats: which numbers are representable
-/
namespace Intervals
open CppVal Spec

section
variable {K : Type} [Field K] [LinearOrder K] [IsStrictOrderedRing K] [FloorRing K]
theorem rndU_of_mul {p emin e n : ℤ} {x : K} (he : ulpExp p emin x ≤ e) (hx : x = n * 2 ^ e) : rndU p emin x = x := by
  have h2 : (2:K) ^ ulpExp p emin x ≠ 0 := (zpow_pos (by norm_num) _).ne'
  have : x / 2 ^ ulpExp p emin x = ((n * 2 ^ (e - ulpExp p emin x).toNat : ℤ) : K) := by
    rw [div_eq_iff h2]; push_cast
    rw [← zpow_natCast, mul_assoc, ← zpow_add₀ (by norm_num)]
    rw [show ((e - ulpExp p emin x).toNat : ℤ) + ulpExp p emin x = e by omega]
    exact hx
  unfold rndU
  rw [this, roundNE_int, ← this, div_mul_cancel₀ _ h2]

/-- the rounding error of numbers up to `2^n` is at most half a unit in the last place -/
theorem rndBin_near {p emin : ℤ} {Ω : K} (hp : 1 ≤ p) (n : ℤ) (hn : (2:K)^n ≤ Ω) (he : emin ≤ n - p) {k : K} (hk : |k| ≤ 2^n) :
    (rndBin p emin Ω k).isFinite = true ∧ (rndBin p emin Ω k).val = rndU p emin k ∧ |rndU p emin k - k| ≤ 2^(n - p) / 2 := by
  have pz : ∀ z : ℤ, (0:K) < 2^z := fun z => zpow_pos (by norm_num) z
  have r2n : rndU p emin ((2:K)^n) = 2^n := by
    refine rndU_of_mul (e := n - (p - 1)) (n := 2^(p-1).toNat) ?_ ?_
    · have : Int.log 2 |(2:K)^n| = n := by
        rw [abs_of_pos (pz n)]
        exact Int.log_zpow (by norm_num) n
      rw [ulpExp, this]
      exact max_le le_rfl (by omega)
    · push_cast
      rw [← zpow_natCast, Int.toNat_of_nonneg (by omega), ← zpow_add₀ (by norm_num)]
      congr 1; ring
  obtain ⟨k1, k2⟩ := abs_le.mp hk
  have m1 : -(2:K)^n ≤ rndU p emin k := by
    have := rndU_mono p emin hp k1
    rwa [rndU_neg, r2n] at this
  have m2 : rndU p emin k ≤ (2:K)^n := by
    have := rndU_mono p emin hp k2
    rwa [r2n] at this
  have near : |rndU p emin k - k| ≤ 2^(n - p) / 2 := by
    by_cases c : |k| = 2^n
    · have : rndU p emin k = k := by
        rcases abs_eq (pz n).le |>.mp c with e | e <;> rw [e]
        · exact r2n
        · rw [rndU_neg, r2n]
      rw [this, sub_self, abs_zero]; exact (half_pos (pz _)).le
    · by_cases z : k = 0
      · subst z; rw [rndU_zero, sub_zero, abs_zero]; exact (half_pos (pz _)).le
      · have lt : |k| < 2^n := lt_of_le_of_ne hk c
        have lg : Int.log 2 |k| ≤ n - 1 := by
          have := (Int.lt_zpow_iff_log_lt (b := 2) (by norm_num) (abs_pos.mpr z)).mp lt
          omega
        have ue : ulpExp p emin k ≤ n - p := by
          rw [ulpExp]; exact max_le (by omega) he
        have up : (0:K) < 2 ^ ulpExp p emin k := pz _
        have ul : (2:K) ^ ulpExp p emin k ≤ 2^(n - p) := zpow_le_zpow_right₀ (by norm_num) ue
        obtain ⟨a, b⟩ := roundNE_near (k / 2 ^ ulpExp p emin k)
        have ek : k / 2 ^ ulpExp p emin k * 2 ^ ulpExp p emin k = k := by field_simp
        have := mul_le_mul_of_nonneg_right a up.le
        have := mul_le_mul_of_nonneg_right b up.le
        rw [abs_le]
        unfold rndU
        constructor <;> nlinarith
  have fin : (rndBin p emin Ω k).isFinite = true ∧ (rndBin p emin Ω k).val = rndU p emin k := by
    unfold rndBin
    rw [if_neg (by linarith), if_neg (by linarith)]
    split_ifs with h1 h2
    · rw [h1]; exact ⟨rfl, rfl⟩
    · rw [h1]; exact ⟨rfl, rfl⟩
    · exact ⟨rfl, rfl⟩
  exact ⟨fin.1, fin.2, near⟩
variable (K) in
/-- `double` in exact arithmetic over `K`; over `ℚ` it is `binary64Fmt` -/
@[reducible] def binary64Of : Fmt K := binFmt 53 (-1074) ((2^53 - 1) * 2^971) (by norm_num) (by
  have : (0:K) ≤ 2^971 := pow_nonneg (by norm_num) _
  exact mul_nonneg (by norm_num) this)
theorem two_zpow_le {n : ℤ} (hn : n ≤ 1023) : (2:K)^n ≤ (2^53 - 1) * 2^971 := by
  have h : (2:K)^n ≤ 2^(1023:ℤ) := zpow_le_zpow_right₀ (by norm_num) hn
  refine h.trans ?_
  rw [show (1023:ℤ) = 52 + (971:ℕ) from rfl, zpow_add₀ (by norm_num), zpow_natCast]
  exact mul_le_mul_of_nonneg_right (by norm_num) (pow_pos (by norm_num) _).le
end

theorem ulpExp_mono {p emin p' emin' : ℤ} (hp : p ≤ p') (he : emin' ≤ emin) (x : ℚ) : ulpExp p' emin' x ≤ ulpExp p emin x := by
  unfold ulpExp; omega
theorem ulpExp_mono_right {p emin : ℤ} {x y : ℚ} (hx : x ≠ 0) (h : |x| ≤ |y|) : ulpExp p emin x ≤ ulpExp p emin y := by
  have := Int.log_mono_right (b := 2) (abs_pos.mpr hx) h
  unfold ulpExp; omega

theorem rndU_idem_pos {p emin : ℤ} (hp : 1 ≤ p) {x : ℚ} (hx : 0 < x) : rndU p emin (rndU p emin x) = rndU p emin x := by
  set e := ulpExp p emin x with he
  set n := roundNE (x / 2 ^ e) with hn
  have e0 : (0:ℚ) < 2 ^ e := zpow_pos (by norm_num) _
  have hk : rndU p emin x = n * 2 ^ e := rfl
  rcases eq_or_lt_of_le (rndU_nonneg p emin hx.le) with h0 | h0
  · rw [← h0, rndU_zero]
  have hem : emin ≤ e := by rw [he]; unfold ulpExp; omega
  have hlog : Int.log 2 x ≤ e + p - 1 := by rw [he]; unfold ulpExp; rw [abs_of_pos hx]; omega
  have hlt : x < 2 ^ (e + p) := by
    have h1 : x < 2 ^ (Int.log 2 x + 1) := by exact_mod_cast Int.lt_zpow_succ_log_self (b := 2) (by norm_num) x
    exact lt_of_lt_of_le h1 (zpow_le_zpow_right₀ (by norm_num) (by omega))
  have hnle : n ≤ 2 ^ p.toNat := by
    have h1 : x / 2 ^ e ≤ ((2 ^ p.toNat : ℤ) : ℚ) := by
      rw [div_le_iff₀ e0]; push_cast
      rw [← zpow_natCast, ← zpow_add₀ (by norm_num), show (p.toNat : ℤ) + e = e + p by omega]; exact hlt.le
    have := roundNE_mono h1
    rwa [roundNE_int] at this
  have hle : rndU p emin x ≤ 2 ^ (e + p) := by
    rw [hk, zpow_add₀ (by norm_num), mul_comm]
    apply mul_le_mul_of_nonneg_left _ e0.le
    have : ((n : ℤ) : ℚ) ≤ ((2 ^ p.toNat : ℤ) : ℚ) := by exact_mod_cast hnle
    push_cast at this
    rwa [← zpow_natCast, show (p.toNat : ℤ) = p by omega] at this
  rcases eq_or_lt_of_le hle with heq | hlt'
  · apply rndU_of_mul (e := e + p) (n := 1)
    · rw [heq]; unfold ulpExp
      rw [abs_of_pos (zpow_pos (by norm_num) _)]
      have : Int.log 2 ((2:ℚ) ^ (e + p)) = e + p := by exact_mod_cast Int.log_zpow (R := ℚ) (b := 2) (by norm_num) (e + p)
      rw [this]; omega
    · rw [heq]; simp
  · apply rndU_of_mul (e := e) (n := n) _ hk
    have : Int.log 2 (rndU p emin x) < e + p := by
      rw [Int.lt_zpow_iff_log_lt (b := 2) (by norm_num) h0 |>.symm]; exact_mod_cast hlt'
    rw [ulpExp, abs_of_pos h0]; omega

theorem rndU_idem {p emin : ℤ} (hp : 1 ≤ p) (x : ℚ) : rndU p emin (rndU p emin x) = rndU p emin x := by
  rcases lt_trichotomy x 0 with h | h | h
  · have := rndU_idem_pos (emin := emin) hp (x := -x) (by linarith)
    rw [rndU_neg, rndU_neg] at this; linarith
  · rw [h, rndU_zero, rndU_zero]
  · exact rndU_idem_pos hp h

theorem rndBin_num {p emin : ℤ} {Ω : ℚ} {k k' : ℚ} (h : rndBin p emin Ω k = .num k') : rndU p emin k = k' ∧ |k'| ≤ Ω := by
  unfold rndBin at h
  split_ifs at h with h1 h2 h3 h4 <;> simp at h <;> subst h
  · exact ⟨h3, by rw [abs_zero]; linarith⟩
  · exact ⟨rfl, abs_le.mpr ⟨by linarith, by linarith⟩⟩
theorem rndBin_of {p emin : ℤ} {Ω : ℚ} {k : ℚ} (h : rndU p emin k = k) (hk : |k| ≤ Ω) : rndBin p emin Ω k = .num k := by
  have := abs_le.mp hk
  unfold rndBin
  rw [h, if_neg (by linarith), if_neg (by linarith)]
  split_ifs with h1 h2
  · linarith
  · rw [h1]
  · rfl

/-- every number of a binary format is a number of one with at least the precision and the range -/
theorem subFmt_bin {p emin p' emin' : ℤ} {Ω Ω' : ℚ} (hp : 1 ≤ p) (hp' : 1 ≤ p') (hΩ : 0 ≤ Ω) (hΩ' : 0 ≤ Ω') (h : p ≤ p')
    (he : emin' ≤ emin) (ho : Ω ≤ Ω') : SubFmt (binFmt p emin Ω hp hΩ) (binFmt p' emin' Ω' hp' hΩ') := by
  intro k k' hk
  obtain ⟨h1, h2⟩ := rndBin_num hk
  have hi : rndU p emin k' = k' := by rw [← h1]; exact rndU_idem hp k
  exact ⟨rndBin_of hi h2, rndBin_of (rndU_of_mul (ulpExp_mono h he k') hi.symm) (h2.trans ho)⟩

theorem subFmt_float_double : SubFmt binary32Fmt binary64Fmt :=
  subFmt_bin _ _ _ _ (by norm_num) (by norm_num) (by decide +kernel)

theorem rndU_isInt {p emin : ℤ} (he : emin ≤ 0) (z : ℤ) : ∃ z' : ℤ, rndU p emin (z : ℚ) = z' := by
  by_cases h : ulpExp p emin (z : ℚ) ≤ 0
  · exact ⟨z, rndU_of_mul (n := z) h (by simp)⟩
  · refine ⟨roundNE ((z:ℚ) / 2 ^ ulpExp p emin (z:ℚ)) * 2 ^ (ulpExp p emin (z:ℚ)).toNat, ?_⟩
    unfold rndU; push_cast
    congr 1
    rw [← zpow_natCast]; congr 1; omega

theorem intToInt_bin {p emin : ℤ} {Ω : ℚ} (hp : 1 ≤ p) (hΩ : 0 ≤ Ω) (he : emin ≤ 0) : IntToInt (binFmt p emin Ω hp hΩ) := by
  intro z k hk
  obtain ⟨z', h⟩ := rndU_isInt (p := p) he z
  exact ⟨z', by rw [← (rndBin_num hk).1, h]⟩

theorem truncClosed_bin {p emin : ℤ} {Ω : ℚ} (hp : 1 ≤ p) (hΩ : 0 ≤ Ω) (he : emin ≤ 0) : TruncClosed (binFmt p emin Ω hp hΩ) := by
  intro k t hk ht
  obtain ⟨h1, h2⟩ := rndBin_num hk
  have habs : |(t : ℚ)| ≤ |k| := by
    rcases le_or_gt 0 k with h | h
    · obtain ⟨a, b⟩ := ht.1 h
      have : (0:ℤ) ≤ t := by
        have : (0:ℚ) < t + 1 := by linarith
        have : (0:ℤ) < t + 1 := by exact_mod_cast this
        omega
      rw [abs_of_nonneg h, abs_of_nonneg (by exact_mod_cast this)]; exact a
    · obtain ⟨a, b⟩ := ht.2 h
      have : t ≤ (0:ℤ) := by
        have : (t:ℚ) - 1 < 0 := by linarith
        have : t - 1 < (0:ℤ) := by exact_mod_cast this
        omega
      rw [abs_of_neg h, abs_of_nonpos (by exact_mod_cast this)]; linarith
  refine rndBin_of ?_ (habs.trans h2)
  by_cases h0 : t = 0
  · rw [h0]; simpa using rndU_zero p emin
  have hu := ulpExp_mono_right (p := p) (emin := emin) (Int.cast_ne_zero.mpr h0 : (t:ℚ) ≠ 0) habs
  by_cases hk0 : ulpExp p emin k ≤ 0
  · exact rndU_of_mul (n := t) (hu.trans hk0) (by simp)
  · -- `k` is an integer
    have hz : ∃ z : ℤ, k = z := by
      refine ⟨roundNE (k / 2 ^ ulpExp p emin k) * 2 ^ (ulpExp p emin k).toNat, ?_⟩
      conv_lhs => rw [← h1]
      unfold rndU; push_cast
      congr 1
      rw [← zpow_natCast]; congr 1; omega
    obtain ⟨z, hz⟩ := hz
    have : t = z := by
      rcases le_or_gt 0 k with h | h
      · obtain ⟨a, b⟩ := ht.1 h
        rw [hz] at a b
        have a' : t ≤ z := by exact_mod_cast a
        have b' : z < t + 1 := by exact_mod_cast b
        omega
      · obtain ⟨a, b⟩ := ht.2 h
        rw [hz] at a b
        have a' : z ≤ t := by exact_mod_cast a
        have b' : t - 1 < z := by exact_mod_cast b
        omega
    rw [this, ← hz]; exact h1
end Intervals
