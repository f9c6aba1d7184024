import Verif.Lemmas.Elem
import Mathlib.Data.Rat.Floor
/-!
# C36: floor, ceil, round, frac
-/
set_option linter.unusedSectionVars false
namespace Intervals.Props
open Intervals CppVal Spec

variable {K : Type} [Field K] [LinearOrder K] [IsStrictOrderedRing K] [FloorRing K] [Fmt K]

/-- C36 `floor`: inclusion with attained bounds, infinite bounds included; in particular every number `k` of `X` has `⌊k⌋` in the result. -/
theorem C36_floor (dbg : Bool) (X : Ivl (Fl K)) (hX : Proper X) :
    FloatExact1 Fl.floor X (floorI dbg X) ∧
    ∃ R, floorI dbg X = .ok R ∧ ∀ k : K, .num k ∈ᵢ X → .num (⌊k⌋ : K) ∈ᵢ R := by
  have h := mono_make dbg hX (f := Fl.floor) (fun a b _ _ h => Fl.floor_mono h)
  refine ⟨h, ?_⟩
  obtain ⟨R, e, hi, -, -⟩ := h
  refine ⟨R, e, fun k hk => ?_⟩
  have := hi _ hk
  unfold Pt at *
  rwa [Fl.floor, Fl.le_of_ext rfl (Fl.ext_ofInt _ _), Fl.le_of_ext (Fl.ext_ofInt _ _) rfl] at this

/-- C36 `ceil` -/
theorem C36_ceil (dbg : Bool) (X : Ivl (Fl K)) (hX : Proper X) :
    FloatExact1 Fl.ceil X (ceilI dbg X) ∧
    ∃ R, ceilI dbg X = .ok R ∧ ∀ k : K, .num k ∈ᵢ X → .num (⌈k⌉ : K) ∈ᵢ R := by
  have h := mono_make dbg hX (f := Fl.ceil) (fun a b _ _ h => Fl.ceil_mono h)
  refine ⟨h, ?_⟩
  obtain ⟨R, e, hi, -, -⟩ := h
  refine ⟨R, e, fun k hk => ?_⟩
  have := hi _ hk
  unfold Pt at *
  rwa [Fl.ceil, Fl.le_of_ext rfl (Fl.ext_ofInt _ _), Fl.le_of_ext (Fl.ext_ofInt _ _) rfl] at this

/-- C36 `round`; the point function is the nearest integer (`roundInt_near`), halfway cases away from zero. -/
theorem C36_round (dbg : Bool) (X : Ivl (Fl K)) (hX : Proper X) :
    FloatExact1 Fl.round X (roundI dbg X) ∧
    ∃ R, roundI dbg X = .ok R ∧ ∀ k : K, .num k ∈ᵢ X → .num (Fl.roundInt k : K) ∈ᵢ R := by
  have h := mono_make dbg hX (f := Fl.round) (fun a b _ _ h => Fl.round_mono h)
  refine ⟨h, ?_⟩
  obtain ⟨R, e, hi, -, -⟩ := h
  refine ⟨R, e, fun k hk => ?_⟩
  have := hi _ hk
  unfold Pt at *
  rwa [Fl.round, Fl.le_of_ext rfl (Fl.ext_ofInt _ _), Fl.le_of_ext (Fl.ext_ofInt _ _) rfl] at this

/-- `roundInt k` is a nearest integer -/
theorem roundInt_near (k : K) : |(Fl.roundInt k : K) - k| ≤ 1/2 := by
  unfold Fl.roundInt
  split
  · have h1 := Int.floor_le (-k + 1/2); have h2 := Int.lt_floor_add_one (-k + 1/2)
    rw [abs_le]; push_cast; constructor <;> linarith
  · have h1 := Int.floor_le (k + 1/2); have h2 := Int.lt_floor_add_one (k + 1/2)
    rw [abs_le]; constructor <;> linarith

theorem frac_le {a b : Fl K} (ha : a.isFinite = true) (hb : b.isFinite = true)
    (h : Fl.val a - ⌊Fl.val a⌋ ≤ Fl.val b - ⌊Fl.val b⌋) : le (Fl.frac a) (Fl.frac b) = true := by
  rw [Fl.le_of_ext (Fl.ext_frac ha) (Fl.ext_frac hb)]; exact Fmt.rnd_mono _ _ h

/-- C36 `frac`: for every format that represents 1, on an interval with finite bounds the result is within `[0,1]`, contains the rounded
fractional part of every point, and its bounds are the fractional parts of the bounds if these have the same integer part. -/
theorem C36_frac (h1 : Fmt.rnd (1:K) = .num 1) (dbg : Bool) (X : Ivl (Fl K)) (hX : Proper X)
    (fl : X.lo.isFinite = true) (fh : X.hi.isFinite = true) :
    ∃ R, fracI dbg X = .ok R ∧ le (.num 0) R.lo = true ∧ le R.hi (.num 1) = true ∧
      (∀ a, a ∈ᵢ X → Fl.frac a ∈ᵢ R) ∧
      (⌊X.lo.val⌋ = ⌊X.hi.val⌋ → R = ⟨Fl.frac X.lo, Fl.frac X.hi⟩) ∧
      (⌊X.lo.val⌋ ≠ ⌊X.hi.val⌋ → R = ⟨.num 0, .num 1⟩) := by
  have hlo : X.lo ∈ᵢ X := lo_mem (X := .ivl X) hX
  have hhi : X.hi ∈ᵢ X := hi_mem (X := .ivl X) hX
  have fin : ∀ a, a ∈ᵢ X → a.isFinite = true := fun a ha => Fl.finite_of_between fl fh ha.1 ha.2
  have unit : ∀ a : Fl K, a.isFinite = true → le (.num 0) (Fl.frac a) = true ∧ le (Fl.frac a) (.num 1) = true := by
    intro a ha
    rw [Fl.le_of_ext rfl (Fl.ext_frac ha), Fl.le_of_ext (Fl.ext_frac ha) rfl, ← h1]
    have hf := Int.floor_le a.val; have hg := Int.lt_floor_add_one a.val
    exact ⟨Fl.zero_le_rnd (by linarith), Fmt.rnd_mono _ _ (by linarith)⟩
  unfold fracI
  rw [show X.assigned = true from assigned_of_proper (X := .ivl X) hX, expectsDebug_true, ok_bind]
  have hc : ne (Fl.floor X.lo) (Fl.floor X.hi) = true ↔ ⌊X.lo.val⌋ ≠ ⌊X.hi.val⌋ := by
    unfold CppVal.ne
    rw [Bool.not_eq_true', ← Bool.not_eq_true, Fl.eq_iff_val (by rw [Fl.finite_floor]; exact fl) (by rw [Fl.finite_floor]; exact fh),
      Fl.val_floor, Fl.val_floor]
    simp
  by_cases h : ⌊X.lo.val⌋ = ⌊X.hi.val⌋
  · rw [if_neg (by rw [hc]; simpa using h)]
    have mono : ∀ a b, a ∈ᵢ X → b ∈ᵢ X → le a b = true → le (Fl.frac a) (Fl.frac b) = true := by
      intro a b ha hb hab
      have e : ∀ c, c ∈ᵢ X → ⌊c.val⌋ = ⌊X.lo.val⌋ := fun c hc => by
        have h1 := Int.floor_le_floor ((Fl.le_iff_val fl (fin c hc)).mp hc.1)
        have h2 := Int.floor_le_floor ((Fl.le_iff_val (fin c hc) fh).mp hc.2)
        omega
      refine frac_le (fin a ha) (fin b hb) ?_
      rw [e a ha, e b hb]
      have := (Fl.le_iff_val (fin a ha) (fin b hb)).mp hab
      linarith
    refine ⟨⟨Fl.frac X.lo, Fl.frac X.hi⟩, make_ok_of_le (mono _ _ hlo hhi hX), (unit _ fl).1, (unit _ fh).2,
      fun a ha => ⟨mono _ _ hlo ha ha.1, mono _ _ ha hhi ha.2⟩, fun _ => rfl, fun h' => absurd h h'⟩
  · rw [if_pos (by rw [hc]; exact h)]
    exact ⟨⟨.num 0, .num 1⟩, make_ok_of_le (by simp), by simp, by simp, fun a ha => unit a (fin a ha), fun h' => absurd h' h, fun _ => rfl⟩

/-- C36 `frac` is tight in exact arithmetic: the lower bound is attained, and the upper bound is the least upper bound of the point results. -/
theorem C36_frac_tight (dbg : Bool) (X : Ivl (Fl K)) (hX : Proper X)
    (fl : X.lo.isFinite = true) (fh : X.hi.isFinite = true) :
    ∃ R, @fracI K _ _ (exactFmt K) _ dbg X = .ok R ∧ (∃ k : K, .num k ∈ᵢ X ∧ eq R.lo (.num (k - ⌊k⌋)) = true) ∧
      ∀ c : K, (∀ k : K, .num k ∈ᵢ X → k - ⌊k⌋ ≤ c) → le R.hi (.num c) = true := by
  let := exactFmt K
  obtain ⟨R, e, -, -, -, hs, hd⟩ := C36_frac rfl dbg X hX fl fh
  have mem : ∀ k : K, .num k ∈ᵢ X ↔ X.lo.val ≤ k ∧ k ≤ X.hi.val := fun k => by
    unfold Pt; rw [Fl.le_iff_val fl rfl, Fl.le_iff_val rfl fh]; rfl
  have hle : X.lo.val ≤ X.hi.val := (Fl.le_iff_val fl fh).mp hX
  have eqv : ∀ (a b c : Fl K), a.ext = c.ext → eq a b = eq c b := fun a b c h => by simp only [CppVal.eq]; rw [h]
  refine ⟨R, e, ?_⟩
  by_cases h : ⌊X.lo.val⌋ = ⌊X.hi.val⌋
  · rw [hs h]
    refine ⟨⟨X.lo.val, (mem _).mpr ⟨le_rfl, hle⟩, ?_⟩, fun c hc => ?_⟩
    · rw [eqv _ _ _ (Fl.ext_frac fl)]
      exact (Fl.eq_iff_val rfl rfl).mpr rfl
    · rw [Fl.le_of_ext (Fl.ext_frac fh) rfl]
      exact (Fl.le_iff_val rfl rfl).mpr (hc _ ((mem _).mpr ⟨hle, le_rfl⟩))
  · rw [hd h]
    have hlt : ⌊X.lo.val⌋ < ⌊X.hi.val⌋ := lt_of_le_of_ne (Int.floor_le_floor hle) h
    have h1 : X.lo.val < ⌊X.hi.val⌋ := Int.floor_lt.mp hlt
    refine ⟨⟨⌊X.hi.val⌋, (mem _).mpr ⟨h1.le, Int.floor_le _⟩, by simp [CppVal.eq, Fl.ext]⟩, fun c hc => ?_⟩
    simp only [Fl.le_num_num, decide_eq_true_eq]
    by_contra hcn
    push Not at hcn
    -- a point just below the integer
    set n : ℤ := ⌊X.hi.val⌋ with hn
    have hb : max (max X.lo.val (n - 1)) (n - 1 + c) < n := by
      rw [max_lt_iff, max_lt_iff]; exact ⟨⟨h1, by linarith⟩, by linarith⟩
    set b := max (max X.lo.val ((n:K) - 1)) (n - 1 + c) with hbd
    have b1 : X.lo.val ≤ b := le_trans (le_max_left _ _) (le_max_left _ _)
    have b2 : (n:K) - 1 ≤ b := le_trans (le_max_right _ _) (le_max_left _ _)
    have b3 : (n:K) - 1 + c ≤ b := le_max_right _ _
    have hk : (b + n) / 2 < n := by linarith
    have hf : ⌊(b + n) / 2⌋ = n - 1 := by
      rw [Int.floor_eq_iff]; push_cast; constructor <;> linarith
    have hn' : (n:K) ≤ X.hi.val := Int.floor_le _
    have := hc ((b + n)/2) ((mem _).mpr ⟨by linarith, by linarith⟩)
    rw [hf] at this; push_cast at this; linarith

section examples
attribute [local instance] exactFmt
def ivq (a b : ℚ) : Ivl (Fl ℚ) := ⟨.num a, .num b⟩
example : floorI true (ivq (-3/2) (7/2)) = .ok (ivq (-2) 3) := by decide +kernel
example : ceilI true (ivq (-1/2) (7/2)) = .ok ⟨.nzero, .num 4⟩ := by decide +kernel
example : roundI true (ivq (-5/2) (5/2)) = .ok (ivq (-3) 3) := by decide +kernel
example : fracI true (ivq (-3/4) (-1/4)) = .ok (ivq (1/4) (3/4)) := by decide +kernel
example : fracI true (ivq (3/4) (5/4)) = .ok (ivq 0 1) := by decide +kernel
example : floorI true (⟨.ninf, .num (1/2)⟩ : Ivl (Fl ℚ)) = .ok ⟨.ninf, .num 0⟩ := by decide +kernel
example : Proper (ivq (-3/4) (5/4)) ∧ (ivq (-3/4) (5/4)).lo.isFinite = true ∧ ⌊(ivq (-3/4) (5/4)).lo.val⌋ ≠ ⌊(ivq (-3/4) (5/4)).hi.val⌋ := by
  decide +kernel
end examples
/-- the sign bit of an integral result -/
theorem signBit_ofInt (n : ℤ) (s : Bool) : (Fl.ofInt n s : Fl K).signBit = if n = 0 then s else decide (n < 0) := by
  unfold Fl.ofInt
  split
  · cases s <;> simp [Fl.zeroS, Fl.signBit]
  · simp [Fl.signBit]

/-- C36, signs: floor, ceil and round keep the sign bit of their argument, in particular that of zero (`ceil(-0.5)` is `-0`, `ceil(+0)` is `+0`); so the bounds
of the results have the sign bits of the bounds of `X`, and dividing by them has infinities of the right sign. -/
theorem C36_sign (a : Fl K) : (Fl.floor a).signBit = a.signBit ∧ (Fl.ceil a).signBit = a.signBit ∧ (Fl.round a).signBit = a.signBit := by
  cases a with
  | num k =>
    refine ⟨?_, ?_, ?_⟩
    · rw [Fl.floor, signBit_ofInt, Fl.signBit]
      split
      · rename_i h
        rw [Int.floor_eq_zero_iff] at h
        simpa using h.1
      · simp [Int.floor_lt]
    · rw [Fl.ceil, signBit_ofInt, Fl.signBit]
      split
      · rfl
      · rename_i h
        refine decide_eq_decide.mpr ⟨fun hl => lt_of_le_of_lt (Int.le_ceil k) (by exact_mod_cast hl), fun hk => ?_⟩
        have : ⌈k⌉ ≤ 0 := Int.ceil_le.mpr (by simpa using hk.le)
        omega
    · rw [Fl.round, signBit_ofInt, Fl.signBit]
      split
      · rfl
      · rename_i h
        unfold Fl.roundInt at h ⊢
        by_cases hk : k < 0
        · simp only [hk, if_true] at h ⊢
          have : 0 ≤ ⌊-k + 1/2⌋ := Int.floor_nonneg.mpr (by linarith)
          simp only [decide_true, decide_eq_true_eq]; omega
        · simp only [hk, if_false] at h ⊢
          have : 0 ≤ ⌊k + 1/2⌋ := Int.floor_nonneg.mpr (by linarith [not_lt.mp hk])
          simp only [decide_false, decide_eq_false_iff_not]; omega
  | _ => exact ⟨rfl, rfl, rfl⟩

example : (Fl.ceil (.num (-1/2) : Fl ℚ)).signBit = true ∧ (Fl.ceil (.num 0 : Fl ℚ)).signBit = false ∧
    (Fl.round (.num (-1/4) : Fl ℚ)).signBit = true := by decide +kernel

end Intervals.Props
