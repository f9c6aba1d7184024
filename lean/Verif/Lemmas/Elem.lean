import Verif.Model.Elem
import Verif.Lemmas.FltArith
import Verif.Lemmas.Corner
import Verif.Spec.Flt
/-! Monotonicity of the rounding functions; functions applied to the two bounds. -/
set_option linter.unusedSectionVars false
set_option linter.unusedSimpArgs false
namespace Intervals
open CppVal Spec

namespace Fl
variable {K : Type} [Field K] [LinearOrder K] [IsStrictOrderedRing K]

theorem le_of_ext {a a' b b' : Fl K} (ha : ext a = ext a') (hb : ext b = ext b') : le a b = le a' b' := by
  simp only [CppVal.le]; rw [ha, hb]
theorem ext_zeroS (s : Bool) : ext (zeroS s : Fl K) = ext (num 0) := by cases s <;> simp [zeroS, ext]
theorem ext_nzero : ext (nzero : Fl K) = ext (num 0) := rfl

section
variable [FloorRing K]
theorem ext_ofInt (n : ℤ) (s : Bool) : ext (ofInt n s : Fl K) = ext (num (n : K)) := by
  unfold ofInt; split
  · next h => cases s <;> simp [h, zeroS, ext]
  · rfl

theorem roundInt_mono {k k' : K} (h : k ≤ k') : roundInt k ≤ roundInt k' := by
  unfold roundInt
  split_ifs with h1 h2 h2
  · have : ⌊-k' + 1/2⌋ ≤ ⌊-k + 1/2⌋ := Int.floor_le_floor (by linarith)
    omega
  · have h3 : (0:ℤ) ≤ ⌊-k + 1/2⌋ := Int.floor_nonneg.mpr (by linarith)
    have h4 : (0:ℤ) ≤ ⌊k' + 1/2⌋ := Int.floor_nonneg.mpr (by linarith)
    omega
  · linarith
  · exact Int.floor_le_floor (by linarith)

theorem floor_mono {a b : Fl K} (h : le a b = true) : le (floor a) (floor b) = true := by
  cases a <;> cases b <;> simp [floor, le_of_ext (ext_ofInt _ _) (ext_ofInt _ _), le_of_ext (ext_ofInt _ _) rfl, le_of_ext rfl (ext_ofInt _ _)] at h ⊢
  · exact Int.floor_nonneg.mpr h
  · have := Int.floor_le_floor h; simpa using this
  · exact Int.floor_le_floor h
theorem ceil_mono {a b : Fl K} (h : le a b = true) : le (ceil a) (ceil b) = true := by
  cases a <;> cases b <;> simp [ceil, le_of_ext (ext_ofInt _ _) (ext_ofInt _ _), le_of_ext (ext_ofInt _ _) rfl, le_of_ext rfl (ext_ofInt _ _)] at h ⊢
  · have := Int.ceil_le_ceil h; simpa using this
  · exact Int.ceil_le.mpr (by simpa using h)
  · exact Int.ceil_le_ceil h
theorem roundInt_zero : roundInt (0:K) = 0 := by
  unfold roundInt; rw [if_neg (lt_irrefl _), zero_add, Int.floor_eq_zero_iff]; constructor <;> norm_num
theorem round_mono {a b : Fl K} (h : le a b = true) : le (round a) (round b) = true := by
  cases a <;> cases b <;> simp [round, le_of_ext (ext_ofInt _ _) (ext_ofInt _ _), le_of_ext (ext_ofInt _ _) rfl, le_of_ext rfl (ext_ofInt _ _)] at h ⊢
  · have := roundInt_mono h; rwa [roundInt_zero] at this
  · have := roundInt_mono h; rwa [roundInt_zero] at this
  · exact roundInt_mono h
end
end Fl
end Intervals
namespace Intervals
open CppVal Spec
namespace Fl
variable {K : Type} [Field K] [LinearOrder K] [IsStrictOrderedRing K]

theorem ext_of_finite {a : Fl K} (h : isFinite a = true) : ext a = ext (num (val a)) := by
  cases a <;> simp [isFinite, ext, val] at h ⊢
theorem finite_of_between {l a h : Fl K} (fl : isFinite l = true) (fh : isFinite h = true) (h1 : le l a = true) (h2 : le a h = true) :
    isFinite a = true := by
  cases a <;> cases l <;> cases h <;> simp [isFinite] at *
theorem le_iff_val {a b : Fl K} (ha : isFinite a = true) (hb : isFinite b = true) : le a b = true ↔ val a ≤ val b := by
  rw [le_of_ext (ext_of_finite ha) (ext_of_finite hb)]; simp
theorem lt_iff_val {a b : Fl K} (ha : isFinite a = true) (hb : isFinite b = true) : lt a b = true ↔ val a < val b := by
  cases a <;> cases b <;> simp [isFinite, lt, ext, val] at *
theorem eq_iff_val {a b : Fl K} (ha : isFinite a = true) (hb : isFinite b = true) : eq a b = true ↔ val a = val b := by
  cases a <;> cases b <;> simp [isFinite, CppVal.eq, ext, val, eq_comm] at *

section
variable [Fmt K]
/-- the rounded sum of finite numbers, up to the sign of zero -/
theorem ext_add {a b : Fl K} (ha : isFinite a = true) (hb : isFinite b = true) : ext (add a b) = ext (Fmt.rnd (val a + val b)) := by
  have hz : Fmt.rnd (0:K) = num 0 := Fmt.rnd_zero
  unfold add
  cases a <;> cases b <;> simp [isFinite, isNan, isInf, isZero, val, signBit] at * <;> try simp [hz, ext]
  all_goals split_ifs <;> simp_all [ext]
omit [Fmt K] in
theorem val_neg {a : Fl K} : val (neg a) = -val a := by
  cases a <;> simp [neg, val]; split_ifs with h <;> simp [h, val]
omit [Fmt K] in
theorem finite_neg {a : Fl K} : isFinite (neg a) = isFinite a := by
  cases a <;> simp [neg, isFinite]; split_ifs <;> simp [isFinite]
theorem ext_sub {a b : Fl K} (ha : isFinite a = true) (hb : isFinite b = true) : ext (sub a b) = ext (Fmt.rnd (val a - val b)) := by
  unfold sub; rw [ext_add ha (by rw [finite_neg]; exact hb), val_neg, sub_eq_add_neg]
theorem ext_mul {a b : Fl K} (ha : isFinite a = true) (hb : isFinite b = true) : ext (mul a b) = ext (Fmt.rnd (val a * val b)) := by
  have hz : Fmt.rnd (0:K) = num 0 := Fmt.rnd_zero
  unfold mul
  cases a <;> cases b <;> simp [isFinite, isNan, isInf, isZero, val, signBit] at * <;> try simp [hz, ext_zeroS]
  all_goals split_ifs <;> simp_all [ext_zeroS]
  next h => rcases h with h | h <;> simp [h, hz]
theorem ext_div {a b : Fl K} (ha : isFinite a = true) (hb : isFinite b = true) (hb0 : val b ≠ 0) :
    ext (div a b) = ext (Fmt.rnd (val a / val b)) := by
  have hz : Fmt.rnd (0:K) = num 0 := Fmt.rnd_zero
  unfold div
  cases a <;> cases b <;> simp [isFinite, isNan, isInf, isZero, val, signBit] at * <;> try simp [hz, ext_zeroS, hb0]
  all_goals split_ifs <;> simp_all [ext_zeroS]
end
section
variable [FloorRing K]
theorem finite_floor {a : Fl K} : isFinite (floor a) = isFinite a := by
  cases a <;> simp [floor, isFinite, ofInt]; split_ifs <;> simp [isFinite, zeroS]
theorem val_floor {a : Fl K} : val (floor a) = ⌊val a⌋ := by
  cases a with
  | num k => change val (ofInt ⌊k⌋ false) = _; unfold ofInt; split_ifs with h <;> simp [zeroS, h, val]
  | _ => simp [floor, val]
variable [Fmt K]
theorem ext_frac {a : Fl K} (ha : isFinite a = true) : ext (frac a) = ext (Fmt.rnd (val a - ⌊val a⌋)) := by
  unfold frac; rw [ext_sub ha (by rw [finite_floor]; exact ha), val_floor]
end
end Fl
end Intervals

namespace Intervals
open CppVal Spec
variable {K : Type} [Field K] [LinearOrder K] [IsStrictOrderedRing K]

/-- a monotone function applied to the two bounds -/
theorem mono_make {f : Fl K → Fl K} (dbg : Bool) {X : Ivl (Fl K)} (hX : Proper X)
    (mono : ∀ a b, a ∈ᵢ X → b ∈ᵢ X → le a b = true → le (f a) (f b) = true) :
    FloatExact1 f X (expectsDebug dbg X.assigned >>= fun _ => Ivl.make (f X.lo) (f X.hi)) := by
  have hlo : X.lo ∈ᵢ X := lo_mem (X := .ivl X) hX
  have hhi : X.hi ∈ᵢ X := hi_mem (X := .ivl X) hX
  rw [show X.assigned = true from assigned_of_proper (X := .ivl X) hX, expectsDebug_true, ok_bind]
  refine ⟨_, make_ok_of_le (mono _ _ hlo hhi hX), fun a ha => ⟨mono _ _ hlo ha ha.1, mono _ _ ha hhi ha.2⟩, ⟨_, hlo, rfl⟩, ⟨_, hhi, rfl⟩⟩
end Intervals
