import Verif.Lemmas.Elem
import Mathlib.Tactic.Ring
import Mathlib.Tactic.FieldSimp
/-! Finite numbers in exact arithmetic: the operations on values. -/
set_option linter.unusedSectionVars false
namespace Intervals
open CppVal Spec
namespace Fl
variable {K : Type} [Field K] [LinearOrder K] [IsStrictOrderedRing K]

/-- `a` is the finite number `k` (zero of either sign) -/
def Is (a : Fl K) (k : K) : Prop := isFinite a = true ∧ val a = k

theorem Is.num (k : K) : Is (num k) k := ⟨rfl, rfl⟩
theorem Is.nzero : Is (Fl.nzero : Fl K) 0 := ⟨rfl, rfl⟩
theorem Is.of_finite {a : Fl K} (h : isFinite a = true) : Is a (val a) := ⟨h, rfl⟩
theorem is_iff_ext {a : Fl K} {k : K} : Is a k ↔ ext a = ext (Fl.num k) := by
  cases a <;> simp [Is, isFinite, val, ext, eq_comm]
theorem Is.unique {a : Fl K} {k k' : K} (h : Is a k) (h' : Is a k') : k = k' := h.2.symm.trans h'.2
theorem Is.neg {a : Fl K} {k : K} (h : Is a k) : Is (neg a) (-k) := ⟨by rw [finite_neg]; exact h.1, by rw [val_neg, h.2]⟩
theorem Is.le_iff {a b : Fl K} {k l : K} (ha : Is a k) (hb : Is b l) : le a b = true ↔ k ≤ l := by
  rw [le_iff_val ha.1 hb.1, ha.2, hb.2]
theorem Is.lt_iff {a b : Fl K} {k l : K} (ha : Is a k) (hb : Is b l) : lt a b = true ↔ k < l := by
  rw [lt_iff_val ha.1 hb.1, ha.2, hb.2]
theorem Is.eq_iff {a b : Fl K} {k l : K} (ha : Is a k) (hb : Is b l) : eq a b = true ↔ k = l := by
  rw [eq_iff_val ha.1 hb.1, ha.2, hb.2]
theorem Is.ne_nan {a : Fl K} {k : K} (h : Is a k) : a ≠ nan := by rintro rfl; simp [Is, isFinite] at h
theorem Is.le_eq {a b : Fl K} {k l : K} (ha : Is a k) (hb : Is b l) : le a b = decide (k ≤ l) := by
  rw [Bool.eq_iff_iff, ha.le_iff hb]; simp
theorem Is.lt_eq {a b : Fl K} {k l : K} (ha : Is a k) (hb : Is b l) : lt a b = decide (k < l) := by
  rw [Bool.eq_iff_iff, ha.lt_iff hb]; simp
theorem Is.eq_eq {a b : Fl K} {k l : K} (ha : Is a k) (hb : Is b l) : eq a b = decide (k = l) := by
  rw [Bool.eq_iff_iff, ha.eq_iff hb]; simp

section exact
attribute [local instance] exactFmt
theorem Is.add {a b : Fl K} {k l : K} (ha : Is a k) (hb : Is b l) : Is (add a b) (k + l) :=
  is_iff_ext.mpr (by rw [ext_add ha.1 hb.1, ha.2, hb.2]; rfl)
theorem Is.sub {a b : Fl K} {k l : K} (ha : Is a k) (hb : Is b l) : Is (sub a b) (k - l) :=
  is_iff_ext.mpr (by rw [ext_sub ha.1 hb.1, ha.2, hb.2]; rfl)
theorem Is.mul {a b : Fl K} {k l : K} (ha : Is a k) (hb : Is b l) : Is (mul a b) (k * l) :=
  is_iff_ext.mpr (by rw [ext_mul ha.1 hb.1, ha.2, hb.2]; rfl)
theorem Is.div {a b : Fl K} {k l : K} (ha : Is a k) (hb : Is b l) (h0 : l ≠ 0) : Is (div a b) (k / l) :=
  is_iff_ext.mpr (by rw [ext_div ha.1 hb.1 (by rw [hb.2]; exact h0), ha.2, hb.2]; rfl)
end exact

section fmod
variable [FloorRing K]
theorem Is.fmod {a b : Fl K} {k l : K} (ha : Is a k) (hb : Is b l) (h0 : l ≠ 0) : Is (fmod a b) (k - l * truncInt (k / l)) := by
  have n1 : isNan a = false := by cases a <;> simp [isNan]; simp [Is, isFinite] at ha
  have n2 : isNan b = false := by cases b <;> simp [isNan]; simp [Is, isFinite] at hb
  have i1 : isInf a = false := by cases a <;> simp [isInf] <;> simp [Is, isFinite] at ha
  have i2 : isInf b = false := by cases b <;> simp [isInf] <;> simp [Is, isFinite] at hb
  have z2 : isZero b = false := by cases b <;> simp [isZero, Is, isFinite, val] at hb ⊢ <;> grind
  unfold Fl.fmod
  simp only [n1, n2, i1, i2, z2, Bool.or_self, Bool.false_eq_true, if_false]
  split
  · next hz =>
    have : k = 0 := by cases a <;> simp [isZero, Is, isFinite, val] at ha hz <;> grind
    subst this
    simpa [truncInt] using ha
  · rw [ha.2, hb.2]
    split
    · next hr => rw [hr]; exact is_iff_ext.mpr (ext_zeroS _)
    · exact Is.num _

theorem trunc_bounds (x : K) : |x - truncInt x| < 1 ∧ (0 ≤ x → 0 ≤ x - truncInt x) := by
  unfold truncInt
  split
  · have h1 := Int.floor_le (-x); have h2 := Int.lt_floor_add_one (-x)
    rw [abs_lt]; push_cast; refine ⟨⟨by linarith, by linarith⟩, fun h => by linarith⟩
  · have h1 := Int.floor_le x; have h2 := Int.lt_floor_add_one x
    rw [abs_lt]; refine ⟨⟨by linarith, by linarith⟩, fun h => by linarith⟩

/-- `fmod` of real numbers -/
theorem fmod_bounds {k l : K} (h0 : 0 < l) :
    |k - l * truncInt (k / l)| < l ∧ (0 ≤ k → 0 ≤ k - l * truncInt (k / l)) := by
  obtain ⟨h1, h2⟩ := trunc_bounds (k / l)
  have e : k - l * truncInt (k / l) = l * (k / l - truncInt (k / l)) := by field_simp
  rw [e, abs_mul, abs_of_pos h0]
  refine ⟨by nlinarith, fun hk => mul_nonneg h0.le (h2 (div_nonneg hk h0.le))⟩

attribute [local instance] exactFmt in
/-- `wraparound` of real numbers -/
theorem Is.wraparound {x a b : Fl K} {kx ka kb : K} (hx : Is x kx) (ha : Is a ka) (hb : Is b kb) (h : ka < kb) :
    ∃ r k, Fl.wraparound x a b = .ok r ∧ Is r k ∧ ka ≤ k ∧ k < kb ∧ ∃ n : ℤ, k = kx + n * (kb - ka) := by
  have hr : (0:K) < kb - ka := by linarith
  have e1 := (hx.sub ha).fmod (hb.sub ha) hr.ne'
  have e2 := (((hb.sub ha).add e1).fmod (hb.sub ha) hr.ne')
  have e3 := ha.add e2
  obtain ⟨b1, -⟩ := fmod_bounds (k := kx - ka) hr
  set f1 := kx - ka - (kb - ka) * truncInt ((kx - ka) / (kb - ka)) with hf1
  rw [abs_lt] at b1
  obtain ⟨b2, b3⟩ := fmod_bounds (k := kb - ka + f1) hr
  set f2 := kb - ka + f1 - (kb - ka) * truncInt ((kb - ka + f1) / (kb - ka)) with hf2
  rw [abs_lt] at b2
  have b4 := b3 (by linarith)
  refine ⟨_, _, ?_, e3, by linarith, by linarith,
    ⟨1 - truncInt ((kx - ka) / (kb - ka)) - truncInt ((kb - ka + f1) / (kb - ka)), ?_⟩⟩
  · unfold Fl.wraparound
    rw [(ha.lt_iff hb).mpr h]; rfl
  · push_cast; rw [hf2]; generalize truncInt ((kb - ka + f1) / (kb - ka)) = t; rw [hf1]; ring
end fmod
end Fl
end Intervals
namespace Intervals
open CppVal Spec
namespace Fl
variable {K : Type} [Field K] [LinearOrder K] [IsStrictOrderedRing K]
theorem Is.cmin {a b : Fl K} {k l : K} (ha : Is a k) (hb : Is b l) : Is (cmin a b) (min k l) := by
  unfold Intervals.cmin
  rw [hb.lt_eq ha]
  by_cases h : l < k
  · simpa [h, min_eq_right h.le] using hb
  · simpa [h, min_eq_left (not_lt.mp h)] using ha
theorem Is.cmax {a b : Fl K} {k l : K} (ha : Is a k) (hb : Is b l) : Is (cmax a b) (max k l) := by
  unfold Intervals.cmax
  rw [ha.lt_eq hb]
  by_cases h : k < l
  · simpa [h, max_eq_right h.le] using hb
  · simpa [h, max_eq_left (not_lt.mp h)] using ha
/-- the interval has the finite bounds `k`, `l` -/
def IsI (X : Ivl (Fl K)) (k l : K) : Prop := Is X.lo k ∧ Is X.hi l
theorem Is.make {a b : Fl K} {k l : K} (ha : Is a k) (hb : Is b l) (h : k ≤ l) : ∃ R, Ivl.make a b = .ok R ∧ IsI R k l :=
  ⟨_, make_ok_of_le ((ha.le_iff hb).mpr h), ha, hb⟩
theorem Is.unordered {a b : Fl K} {k l : K} (ha : Is a k) (hb : Is b l) :
    ∃ R, Ivl.fromUnorderedBounds a b = .ok R ∧ IsI R (min k l) (max k l) :=
  (ha.cmin hb).make (ha.cmax hb) min_le_max
theorem IsI.mem {X : Ivl (Fl K)} {k l : K} (h : IsI X k l) {a : Fl K} : a ∈ᵢ X ↔ ∃ x, Is a x ∧ k ≤ x ∧ x ≤ l := by
  constructor
  · intro ha
    have f := Is.of_finite (finite_of_between h.1.1 h.2.1 ha.1 ha.2)
    exact ⟨_, f, (h.1.le_iff f).mp ha.1, (f.le_iff h.2).mp ha.2⟩
  · rintro ⟨x, hx, h1, h2⟩
    exact ⟨(h.1.le_iff hx).mpr h1, (hx.le_iff h.2).mpr h2⟩
theorem IsI.mem_num {X : Ivl (Fl K)} {k l x : K} (h : IsI X k l) : Fl.num x ∈ᵢ X ↔ k ≤ x ∧ x ≤ l := by
  rw [h.mem]
  exact ⟨fun ⟨y, hy, h⟩ => (Is.unique hy (Is.num x)) ▸ h, fun h => ⟨x, Is.num x, h⟩⟩
theorem IsI.proper {X : Ivl (Fl K)} {k l : K} (h : IsI X k l) : Proper X ↔ k ≤ l := h.1.le_iff h.2
theorem isI_of_finite {X : Ivl (Fl K)} (hl : X.lo.isFinite = true) (hh : X.hi.isFinite = true) : IsI X X.lo.val X.hi.val :=
  ⟨Is.of_finite hl, Is.of_finite hh⟩
end Fl
end Intervals
