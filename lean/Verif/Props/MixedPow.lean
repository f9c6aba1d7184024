import Verif.Props.MixedFn
import Verif.Props.Pow
/-!
# C100: `pow` with an exponent of integer type
-/
set_option linter.unusedSectionVars false
namespace Intervals.Props
open Intervals CppVal Spec Fl

section
variable {n : Nat} {K : Type} [Field K] [LinearOrder K] [IsStrictOrderedRing K] [F : Fmt K]

theorem multiply0N_eq {v : SInt n} (h : F.rnd (v.val : K) = .num (v.val : K)) (y : Fl K) : multiply0N v y = multiply0 (toFloatV v) y := by
  have e : (toFloatV v : Fl K) = .num (v.val : K) := h
  unfold multiply0N multiply0
  have e1 : Fl.isInf (toFloatV v : Fl K) = false := by rw [e]; rfl
  have e2 : CppVal.eq (toFloatV v : Fl K) (.num 0) = CppVal.eq v (CppNum.zero : SInt n) := by
    rw [e, (Is.num _).eq_eq (Is.num 0)]
    show _ = decide (v.val = 0)
    simp
  simp only [e1, e2, Bool.false_and, Bool.false_or]

theorem multiply0NA_eq {Y : Arg (SInt n)} (h1 : F.rnd (Y.lo.val : K) = .num (Y.lo.val : K)) (h2 : F.rnd (Y.hi.val : K) = .num (Y.hi.val : K)) (L : Arg (Fl K)) :
    multiply0NA Y L = multiply0A (mapA toFloatV Y) L := by
  cases Y <;> cases L <;> simp only [Arg.lo, Arg.hi] at h1 h2 <;> simp only [multiply0NA, multiply0A, mapA, multiply0N_eq h1, multiply0N_eq h2]

/-- C100: if the bounds of an integer exponent are representable in the floating-point type, `pow` does what it does with the exponent converted
first; in any floating-point format, for any base. -/
theorem C100_pow_same [Libm K] [FloorRing K] (hn : n ≤ 63) (dbg : Bool) (X : Arg (Fl K)) (Y : Arg (SInt n)) (hY : Inhab Y)
    (h1 : F.rnd (Y.lo.val : K) = .num (Y.lo.val : K)) (h2 : F.rnd (Y.hi.val : K) = .num (Y.hi.val : K)) :
    powN dbg X Y = powI dbg X (mapA toFloatV Y) := by
  have e1 : (toFloatV Y.lo : Fl K) = .num (Y.lo.val : K) := h1
  have e2 : (toFloatV Y.hi : Fl K) = .num (Y.hi.val : K) := h2
  have lY : Y.lo.val ≤ Y.hi.val := by cases Y <;> [exact le_rfl; exact hY]
  have pY : ProperA (mapA (toFloatV (K := K)) Y) := by
    cases Y with
    | scalar s =>
      have e1 : (toFloatV s : Fl K) = .num (s.val : K) := h1
      show CppVal.le (toFloatV s : Fl K) (toFloatV s) = true
      rw [e1, (Is.num _).le_iff (Is.num _)]
    | ivl y =>
      have e1 : (toFloatV y.lo : Fl K) = .num (y.lo.val : K) := h1
      have e2 : (toFloatV y.hi : Fl K) = .num (y.hi.val : K) := h2
      show CppVal.le (toFloatV y.lo : Fl K) (toFloatV y.hi) = true
      rw [e1, e2, (Is.num _).le_iff (Is.num _)]
      exact Int.cast_le.mpr hY
  have hp : (2:ℤ)^n ≤ 2^63 := by
    exact_mod_cast Nat.pow_le_pow_right (by decide) hn
  have t : Fl.truncInt (Y.lo.val : K) = Y.lo.val := by
    unfold Fl.truncInt; split
    · rw [← Int.cast_neg, Int.floor_intCast, neg_neg]
    · exact Int.floor_intCast _
  have tl : toLongLong (mapA (toFloatV (K := K)) Y).lo = .ok Y.lo.val := by
    rw [mapA_lo, e1]
    show (if -2^63 ≤ Fl.truncInt (Y.lo.val : K) ∧ Fl.truncInt (Y.lo.val : K) < 2^63 then Except.ok _ else _) = _
    rw [t, if_pos]
    have := Y.lo.ge; have := Y.lo.le
    constructor <;> omega
  have c : (CppVal.eq (mapA (toFloatV (K := K)) Y).lo (mapA toFloatV Y).hi && CppVal.eq (ofLongLong Y.lo.val) (mapA (toFloatV (K := K)) Y).lo) =
      CppVal.eq Y.lo Y.hi := by
    rw [mapA_lo, mapA_hi, e1, e2]
    have : (ofLongLong Y.lo.val : Fl K) = .num (Y.lo.val : K) := h1
    rw [this, (Is.num _).eq_eq (Is.num _), (Is.num _).eq_eq (Is.num _)]
    show _ = decide (Y.lo.val = Y.hi.val)
    simp
  have ms : ∀ L, multiply0NA (.scalar Y.lo) L = multiply0A (K := K) (.scalar (mapA toFloatV Y).lo) L := fun L => by
    rw [mapA_lo]; exact multiply0NA_eq (Y := .scalar Y.lo) h1 h1 L
  unfold powN powI
  simp only [assigned_of_proper pY, assigned_of_proper (properA_of_inhab hY), tl, ok_bind, c, multiply0NA_eq h1 h2, ms]
end

section
variable {n : Nat}
attribute [local instance] exactFmt
theorem isA_map (Y : Arg (SInt n)) : IsA (mapA (toFloatV (K := ℝ)) Y) Y.lo.val Y.hi.val := by
  cases Y <;> exact ⟨Is.num _, Is.num _⟩
theorem lo_le_hi {Y : Arg (SInt n)} (h : Inhab Y) : Y.lo.val ≤ Y.hi.val := by cases Y <;> [exact le_rfl; exact h]
theorem finiteA_map {Y : Arg (SInt n)} (h : Inhab Y) : FiniteA (mapA (toFloatV (K := ℝ)) Y) := by
  refine ⟨(isA_map Y).1.1, (isA_map Y).2.1, ?_⟩
  have := lo_le_hi h
  cases Y with
  | scalar s => exact (Is.num _).le_iff (Is.num _) |>.mpr le_rfl
  | ivl y => exact (Is.num _).le_iff (Is.num _) |>.mpr (Int.cast_le.mpr this)
theorem inI_iff {Y : Arg (SInt n)} {m : ℤ} : InI m Y ↔ Y.lo.val ≤ m ∧ m ≤ Y.hi.val := by
  cases Y with
  | scalar s => exact ⟨fun h => ⟨h.ge, h.le⟩, fun h => le_antisymm h.2 h.1⟩
  | ivl y => exact Iff.rfl
theorem num_mem_map {Y : Arg (SInt n)} {m : ℤ} (h : InI m Y) : (.num (m : ℝ) : Fl ℝ) ∈ₐ mapA toFloatV Y := by
  rw [(isA_map Y).mem_num]
  rw [inI_iff] at h
  exact ⟨Int.cast_le.mpr h.1, Int.cast_le.mpr h.2⟩

theorem powSpec_dir {x : ℝ} (hx : 0 ≤ x) :
    (∀ a b : ℝ, a ≤ b → le (powSpec x a) (powSpec x b) = true) ∨ (∀ a b : ℝ, a ≤ b → le (powSpec x b) (powSpec x a) = true) := by
  rcases hx.eq_or_lt with rfl | h0
  · right
    intro a b hab
    unfold powSpec
    by_cases ha : a < 0
    · rw [if_pos (show (0:ℝ) = 0 ∧ a < 0 from ⟨rfl, ha⟩)]
      split <;> rfl
    · have hb : ¬ b < 0 := by linarith
      rw [if_neg (fun h => hb h.2), if_neg (fun h => ha h.2), (Is.num _).le_iff (Is.num _)]
      rcases (not_lt.mp ha).eq_or_lt with rfl | ha
      · rw [Real.rpow_zero]
        exact Real.rpow_le_one le_rfl zero_le_one hab
      · rw [Real.zero_rpow ha.ne', Real.zero_rpow (ha.trans_le hab).ne']
  · have e : ∀ y, powSpec x y = .num (x ^ y) := fun y => if_neg (fun h => h0.ne' h.1)
    simp only [e]
    rcases le_total x 1 with h | h
    · right; intro a b hab
      exact (Is.num _).le_iff (Is.num _) |>.mpr (Real.rpow_le_rpow_of_exponent_ge h0 h hab)
    · left; intro a b hab
      exact (Is.num _).le_iff (Is.num _) |>.mpr (Real.rpow_le_rpow_of_exponent_le h hab)

/-- C100: `pow(X, Y)` of a floating-point base without negative points and an exponent of integer type is the exact range of the powers. -/
theorem C100_pow_nonneg (hn : n ≤ 63) (dbg : Bool) (X : Arg (Fl ℝ)) (Y : Arg (SInt n)) (hX : FiniteA X) (hY : Inhab Y) (pos : ∀ x : ℝ, .num x ∈ₐ X → 0 ≤ x) :
    ∃ R, powN dbg X Y = .ok R ∧ (∀ (x : ℝ) (m : ℤ), .num x ∈ₐ X → InI m Y → powSpec x m ∈ᵢ R) ∧
      (∃ (x : ℝ) (m : ℤ), .num x ∈ₐ X ∧ InI m Y ∧ eq R.lo (powSpec x m) = true) ∧
      (∃ (x : ℝ) (m : ℤ), .num x ∈ₐ X ∧ InI m Y ∧ eq R.hi (powSpec x m) = true) := by
  rw [C100_pow_same hn dbg X Y hY rfl rfl]
  obtain ⟨R, e, h, ⟨x, y, hx, hy, ex⟩, ⟨x', y', hx', hy', ex'⟩⟩ := C41_nonneg dbg X _ hX (finiteA_map hY) pos
  refine ⟨R, e, fun x m hx hm => h x m hx (num_mem_map hm), ?_, ?_⟩
  all_goals
    have l := lo_le_hi hY
    have m1 : InI Y.lo.val Y := inI_iff.mpr ⟨le_rfl, l⟩
    have m2 : InI Y.hi.val Y := inI_iff.mpr ⟨l, le_rfl⟩
  · obtain ⟨a, b⟩ := (isA_map Y).mem_num.mp hy
    have k1 := h x _ hx (num_mem_map m1); have k2 := h x _ hx (num_mem_map m2)
    rcases powSpec_dir (pos x hx) with d | d
    · exact ⟨x, _, hx, m1, by have := d _ _ a; clear d h; unfold Pt at *; grind⟩
    · exact ⟨x, _, hx, m2, by have := d _ _ b; clear d h; unfold Pt at *; grind⟩
  · obtain ⟨a, b⟩ := (isA_map Y).mem_num.mp hy'
    have k1 := h x' _ hx' (num_mem_map m1); have k2 := h x' _ hx' (num_mem_map m2)
    rcases powSpec_dir (pos x' hx') with d | d
    · exact ⟨x', _, hx', m2, by have := d _ _ b; clear d h; unfold Pt at *; grind⟩
    · exact ⟨x', _, hx', m1, by have := d _ _ a; clear d h; unfold Pt at *; grind⟩

/-- C100: if the base may be negative and the exponent of integer type has a single value, `pow(X, Y)` contains all powers, and each bound is one of
them.  There is no restriction on the exponent: a floating-point exponent has to be in the range of `long long` (`C41_violated`). -/
theorem C100_pow_integer (hn : n ≤ 63) (dbg : Bool) (X : Arg (Fl ℝ)) (Y : Arg (SInt n)) (hX : FiniteA X) (m : ℤ) (single : ∀ k, InI k Y ↔ k = m)
    (neg : ∃ x : ℝ, .num x ∈ₐ X ∧ x < 0) :
    ∃ R, powN dbg X Y = .ok R ∧
      (∀ x : ℝ, .num x ∈ₐ X → (0 ≤ x → powSpec x m ∈ᵢ R) ∧ (x ≤ 0 → powNegSpec x m ∈ᵢ R)) ∧
      (∃ x : ℝ, .num x ∈ₐ X ∧ (0 ≤ x ∧ eq R.lo (powSpec x m) = true ∨ x ≤ 0 ∧ eq R.lo (powNegSpec x m) = true)) ∧
      (∃ x : ℝ, .num x ∈ₐ X ∧ (0 ≤ x ∧ eq R.hi (powSpec x m) = true ∨ x ≤ 0 ∧ eq R.hi (powNegSpec x m) = true)) := by
  have hY : Inhab Y := by
    cases Y with
    | scalar s => trivial
    | ivl y => have : y.lo.val ≤ m ∧ m ≤ y.hi.val := (single m).mpr rfl
               exact this.1.trans this.2
  have l := lo_le_hi hY
  have e1 : Y.lo.val = m := (single _).mp (inI_iff.mpr ⟨le_rfl, l⟩)
  have e2 : Y.hi.val = m := (single _).mp (inI_iff.mpr ⟨l, le_rfl⟩)
  rw [C100_pow_same hn dbg X Y hY rfl rfl]
  have hp : (2:ℤ)^n ≤ 2^63 := by exact_mod_cast Nat.pow_le_pow_right (by decide) hn
  refine C41_integer_partial dbg X _ hX (finiteA_map hY) m ?_ (fun y => ?_) neg
  · have := Y.lo.ge; have := Y.lo.le
    constructor <;> omega
  · rw [(isA_map Y).mem_num, e1, e2]
    exact ⟨fun h => le_antisymm h.2 h.1, fun h => ⟨h.ge, h.le⟩⟩

/-- C100: if the base may be negative and the exponent of integer type has several values, the result is the NaN interval. -/
theorem C100_pow_nan (hn : n ≤ 63) (dbg : Bool) (X : Arg (Fl ℝ)) (Y : Arg (SInt n)) (hX : FiniteA X) (a b : ℤ) (ha : InI a Y) (hb : InI b Y) (ne : a ≠ b)
    (neg : ∃ x : ℝ, .num x ∈ₐ X ∧ x < 0) : powN dbg X Y = .ok ⟨.nan, .nan⟩ := by
  have hY : Inhab Y := by
    cases Y with
    | scalar s => trivial
    | ivl y => exact ha.1.trans ha.2
  rw [C100_pow_same hn dbg X Y hY rfl rfl]
  have hp : (2:ℤ)^n ≤ 2^63 := by exact_mod_cast Nat.pow_le_pow_right (by decide) hn
  have := Y.lo.ge; have := Y.lo.le
  refine C41_nan_partial dbg X _ hX (finiteA_map hY) ?_ ?_ neg
  · rw [(isA_map Y).1.2]
    constructor
    · have : -2^63 - 1 < Y.lo.val := by omega
      exact_mod_cast this
    · have : Y.lo.val < 2^63 := by omega
      exact_mod_cast this
  · rintro ⟨m, h⟩
    have h1 := (h a).mp (num_mem_map ha)
    have h2 := (h b).mp (num_mem_map hb)
    exact ne (by exact_mod_cast h1.trans h2.symm)

/-! A non-trivial base and exponent: `pow([-2,3], 3)` with an `int` exponent. -/
example : FiniteA (.ivl ⟨.num (-2), .num 3⟩ : Arg (Fl ℝ)) := finiteA_num _ _ (by norm_num)
example : ∀ k, InI k (.scalar (i32 3)) ↔ k = 3 := fun _ => Iff.rfl
example : ∃ x : ℝ, .num x ∈ₐ (.ivl ⟨.num (-2), .num 3⟩ : Arg (Fl ℝ)) ∧ x < 0 :=
  ⟨-1, (show IsA (.ivl ⟨.num (-2), .num 3⟩ : Arg (Fl ℝ)) (-2) 3 from ⟨Is.num _, Is.num _⟩).mem_num.mpr ⟨by norm_num, by norm_num⟩, by norm_num⟩
end
end Intervals.Props
