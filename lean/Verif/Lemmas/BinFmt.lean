import Verif.Lemmas.FltArith
import Mathlib.Data.Int.Log
import Mathlib.Data.Rat.Floor
import Mathlib.Tactic.Ring
import Mathlib.Tactic.FieldSimp
/-!
# IEEE 754 binary formats are instances of `Fmt`

`binFmt p emin Ω`: precision `p`, least exponent `emin` of a unit in the last place, largest finite number `Ω`; round to nearest, ties to
even; overflow to infinity; gradual underflow with signed zeros.  `binary64Fmt` is `double`, `binary32Fmt` is `float`.
-/
namespace Intervals
open CppVal

variable {K : Type} [Field K] [LinearOrder K] [IsStrictOrderedRing K] [FloorRing K]

/-- round to the nearest integer, ties to even -/
def roundNE (x : K) : ℤ :=
  if x - ⌊x⌋ < 1/2 then ⌊x⌋ else if 1/2 < x - ⌊x⌋ then ⌊x⌋ + 1 else if ⌊x⌋ % 2 = 0 then ⌊x⌋ else ⌊x⌋ + 1

theorem roundNE_near (x : K) : (roundNE x : K) - 1/2 ≤ x ∧ x ≤ roundNE x + 1/2 := by
  have h1 := Int.floor_le x; have h2 := Int.lt_floor_add_one x
  unfold roundNE
  split_ifs <;> push_cast <;> constructor <;> linarith
theorem roundNE_mono {x y : K} (h : x ≤ y) : roundNE x ≤ roundNE y := by
  by_contra hc
  push Not at hc
  have hc' : (roundNE y : K) + 1 ≤ roundNE x := by exact_mod_cast hc
  have h1 := roundNE_near x; have h2 := roundNE_near y
  have : x = y := by linarith
  rw [this] at hc; exact lt_irrefl _ hc
theorem roundNE_int (n : ℤ) : roundNE (n : K) = n := by simp [roundNE]
theorem roundNE_neg (x : K) : roundNE (-x) = -roundNE x := by
  have h1 := Int.floor_le x; have h2 := Int.lt_floor_add_one x
  by_cases hx : x = ⌊x⌋
  · rw [hx]
    have : -((⌊x⌋ : ℤ) : K) = ((-⌊x⌋ : ℤ) : K) := by push_cast; rfl
    rw [this, roundNE_int, roundNE_int]
  · have hlt : (⌊x⌋ : K) < x := lt_of_le_of_ne h1 (Ne.symm hx)
    have hf : ⌊-x⌋ = -⌊x⌋ - 1 := by
      rw [Int.floor_eq_iff]; push_cast; constructor <;> linarith
    unfold roundNE
    rw [hf]; push_cast
    split_ifs <;> first | omega | (exfalso; linarith)
theorem roundNE_nonneg {x : K} (h : 0 ≤ x) : 0 ≤ roundNE x := by
  have := roundNE_mono h
  have h0 : roundNE (0:K) = 0 := by simpa using roundNE_int (K := K) 0
  omega

/-- exponent of the unit in the last place -/
def ulpExp (p emin : ℤ) (x : K) : ℤ := max (Int.log 2 |x| - (p - 1)) emin
/-- rounding with unbounded exponents -/
def rndU (p emin : ℤ) (x : K) : K := roundNE (x / 2 ^ ulpExp p emin x) * 2 ^ ulpExp p emin x

theorem rndU_neg (p emin : ℤ) (x : K) : rndU p emin (-x) = -rndU p emin x := by
  unfold rndU
  have : ulpExp p emin (-x) = ulpExp p emin x := by unfold ulpExp; rw [abs_neg]
  rw [this, neg_div, roundNE_neg]; push_cast; ring
theorem rndU_zero (p emin : ℤ) : rndU p emin (0:K) = 0 := by
  unfold rndU
  rw [zero_div, show roundNE (0:K) = 0 by simpa using roundNE_int (K := K) 0]; simp
theorem rndU_nonneg (p emin : ℤ) {x : K} (h : 0 ≤ x) : 0 ≤ rndU p emin x := by
  unfold rndU
  have h2 : (0:K) < 2 ^ ulpExp p emin x := zpow_pos (by norm_num) _
  have := roundNE_nonneg (div_nonneg h h2.le)
  have h3 : (0:K) ≤ roundNE (x / 2 ^ ulpExp p emin x) := by exact_mod_cast this
  positivity

theorem rndU_mono_pos (p emin : ℤ) (hp : 1 ≤ p) {x y : K} (hx : 0 < x) (h : x ≤ y) : rndU p emin x ≤ rndU p emin y := by
  have hy : 0 < y := lt_of_lt_of_le hx h
  have ex : (0:K) < 2 ^ ulpExp p emin x := zpow_pos (by norm_num) _
  have ey : (0:K) < 2 ^ ulpExp p emin y := zpow_pos (by norm_num) _
  by_cases he : ulpExp p emin x = ulpExp p emin y
  · unfold rndU
    rw [he]
    have := roundNE_mono (div_le_div_of_nonneg_right h ey.le)
    have h3 : (roundNE (x / 2 ^ ulpExp p emin y) : K) ≤ roundNE (y / 2 ^ ulpExp p emin y) := by exact_mod_cast this
    exact mul_le_mul_of_nonneg_right h3 ey.le
  · have hlog : Int.log 2 x ≤ Int.log 2 y := Int.log_mono_right hx h
    have hex : ulpExp p emin x = max (Int.log 2 x - (p-1)) emin := by unfold ulpExp; rw [abs_of_pos hx]
    have hey : ulpExp p emin y = max (Int.log 2 y - (p-1)) emin := by unfold ulpExp; rw [abs_of_pos hy]
    have hey' : ulpExp p emin y ≤ Int.log 2 y := by omega
    have hll : Int.log 2 x + 1 ≤ Int.log 2 y := by omega
    have xlt : x < 2 ^ (Int.log 2 x + 1) := by exact_mod_cast Int.lt_zpow_succ_log_self (b := 2) (by norm_num) x
    have yge : 2 ^ Int.log 2 y ≤ y := by exact_mod_cast Int.zpow_log_le_self (b := 2) (by norm_num) hy
    have pw : ∀ a b : ℤ, b ≤ a → ∃ n : ℤ, (2:K) ^ (a - b) = n := fun a b hab => ⟨2 ^ (a-b).toNat, by
      push_cast; rw [← zpow_natCast]; congr 1; omega⟩
    have hyy : (2:K) ^ Int.log 2 y ≤ rndU p emin y := by
      obtain ⟨n, hn⟩ := pw (Int.log 2 y) (ulpExp p emin y) hey'
      have h1 : (n : K) ≤ y / 2 ^ ulpExp p emin y := by
        rw [← hn, zpow_sub₀ (by norm_num)]; exact div_le_div_of_nonneg_right yge ey.le
      have h2 := roundNE_mono h1
      rw [roundNE_int] at h2
      have h3 : (n : K) ≤ roundNE (y / 2 ^ ulpExp p emin y) := by exact_mod_cast h2
      have h4 : (2:K) ^ Int.log 2 y = n * 2 ^ ulpExp p emin y := by
        rw [← hn, ← zpow_add₀ (by norm_num)]; congr 1; omega
      rw [h4]; exact mul_le_mul_of_nonneg_right h3 ey.le
    by_cases hs : ulpExp p emin x ≤ Int.log 2 x + 1
    · obtain ⟨n, hn⟩ := pw (Int.log 2 x + 1) (ulpExp p emin x) hs
      have h1 : x / 2 ^ ulpExp p emin x ≤ n := by
        rw [← hn, zpow_sub₀ (by norm_num)]; exact div_le_div_of_nonneg_right xlt.le ex.le
      have h2 := roundNE_mono h1
      rw [roundNE_int] at h2
      have h3 : (roundNE (x / 2 ^ ulpExp p emin x) : K) ≤ n := by exact_mod_cast h2
      have h4 : (2:K) ^ (Int.log 2 x + 1) = n * 2 ^ ulpExp p emin x := by
        rw [← hn, ← zpow_add₀ (by norm_num)]; congr 1; omega
      calc rndU p emin x ≤ n * 2 ^ ulpExp p emin x := mul_le_mul_of_nonneg_right h3 ex.le
        _ = 2 ^ (Int.log 2 x + 1) := h4.symm
        _ ≤ 2 ^ Int.log 2 y := zpow_le_zpow_right₀ (by norm_num) hll
        _ ≤ _ := hyy
    · have h1 : x / 2 ^ ulpExp p emin x < 1/2 := by
        have : (2:K) ^ (Int.log 2 x + 1) ≤ 2 ^ (ulpExp p emin x - 1) := zpow_le_zpow_right₀ (by norm_num) (by omega)
        rw [zpow_sub₀ (by norm_num), zpow_one] at this
        rw [div_lt_iff₀ ex]; linarith
      have h0 : 0 ≤ x / 2 ^ ulpExp p emin x := by positivity
      have hf : ⌊x / 2 ^ ulpExp p emin x⌋ = 0 := by rw [Int.floor_eq_zero_iff]; exact ⟨h0, by linarith⟩
      have : roundNE (x / 2 ^ ulpExp p emin x) = 0 := by
        unfold roundNE; rw [hf]; simp only [Int.cast_zero, sub_zero]; rw [if_pos h1]
      unfold rndU at hyy ⊢
      rw [this]
      have : (0:K) < 2 ^ Int.log 2 y := zpow_pos (by norm_num) _
      simp only [Int.cast_zero, zero_mul]; linarith

theorem rndU_mono (p emin : ℤ) (hp : 1 ≤ p) {x y : K} (h : x ≤ y) : rndU p emin x ≤ rndU p emin y := by
  rcases lt_trichotomy x 0 with hx | hx | hx
  · rcases le_or_gt y 0 with hy | hy
    · rcases eq_or_lt_of_le hy with hy | hy
      · rw [hy, rndU_zero]
        have := rndU_nonneg p emin (x := -x) (by linarith)
        rw [rndU_neg] at this; linarith
      · have := rndU_mono_pos p emin hp (x := -y) (y := -x) (by linarith) (by linarith)
        rw [rndU_neg, rndU_neg] at this; linarith
    · have h1 := rndU_nonneg p emin hy.le
      have := rndU_nonneg p emin (x := -x) (by linarith)
      rw [rndU_neg] at this; linarith
  · rw [hx, rndU_zero]; exact rndU_nonneg p emin (hx ▸ h)
  · exact rndU_mono_pos p emin hp hx h

/-- IEEE 754 rounding to nearest with overflow beyond `Ω` -/
def rndBin (p emin : ℤ) (Ω : K) (k : K) : Fl K :=
  if Ω < rndU p emin k then .pinf
  else if rndU p emin k < -Ω then .ninf
  else if rndU p emin k = 0 then (if k < 0 then .nzero else .num 0)
  else .num (rndU p emin k)

/-- IEEE 754 binary format (binary interchange formats, clause 3.3; rounding attribute roundTiesToEven, clause 4.3.1). -/
@[reducible] def binFmt (p emin : ℤ) (Ω : K) (hp : 1 ≤ p) (hΩ : 0 ≤ Ω) : Fmt K where
  rnd := rndBin p emin Ω
  rnd_ne_nan k := by unfold rndBin; split_ifs <;> simp
  rnd_mono k k' h := by
    have := rndU_mono p emin hp h
    unfold rndBin
    split_ifs <;> simp <;> linarith
  rnd_zero := by
    unfold rndBin
    rw [rndU_zero]
    rw [if_neg (by linarith), if_neg (by linarith)]; simp
  rnd_pos k h := by
    unfold rndBin
    rw [if_neg (not_lt.mpr h.le)]
    split_ifs <;> simp
  rnd_neg k h := by
    unfold rndBin
    rw [if_pos h]
    split_ifs <;> simp
    assumption
  rnd_symm k h := by
    unfold rndBin at h ⊢
    rw [rndU_neg]
    by_cases hk : k = 0
    · subst hk
      rw [rndU_zero]
      rw [if_neg (by linarith), if_neg (by linarith)]; simp
    · split_ifs at h with h1 h2 h3 h4
      · simp only [Fl.num.injEq] at h; exact absurd h.symm hk
      · simp only [Fl.num.injEq] at h
        rw [if_neg (by linarith), if_neg (by linarith), if_neg (by intro h; apply h3; linarith), h]

/-- `double`: IEEE 754 binary64 -/
@[reducible] def binary64Fmt : Fmt ℚ := binFmt 53 (-1074) ((2^53 - 1) * 2^971) (by norm_num) (by norm_num)
/-- `float`: IEEE 754 binary32 -/
@[reducible] def binary32Fmt : Fmt ℚ := binFmt 24 (-149) ((2^24 - 1) * 2^104) (by norm_num) (by norm_num)

instance [Fmt ℚ] (a : Fl ℚ) : Decidable (Fl.Representable a) := by cases a <;> unfold Fl.Representable <;> infer_instance

end Intervals
