import Verif.Props.FltArith
import Mathlib.Tactic.FieldSimp
import Mathlib.Tactic.Ring
import Mathlib.Tactic.Linarith
/-!
# C32, sharpened: exactly which quotients with a divisor that has a zero bound are wrong
-/
namespace Intervals.Props
open Intervals CppVal Spec
set_option linter.unusedSectionVars false

variable {K : Type} [Field K] [LinearOrder K] [IsStrictOrderedRing K]

/-- the corners are outside, on one side of, the value `v`: `v` is not in their hull -/
theorem not_mem_hull {l : List (Fl K)} {R : Ivl (Fl K)} {v : Fl K} (h : HullOf l R)
    (hv : (∀ c ∈ l, le c v = false) ∨ (∀ c ∈ l, le v c = false)) : ¬ v ∈ᵢ R := by
  rintro ⟨h1, h2⟩
  rcases hv with hv | hv
  · rw [hv _ h.1] at h1; cases h1
  · rw [hv _ h.2.1] at h2; cases h2

section exact
attribute [local instance] exactFmt

theorem dx_num {p l : K} (hp : p ≠ 0) (hl : l ≠ 0) : Fl.div (.num p) (.num l) = .num (p / l) := by
  simp [Fl.div, Fl.isNan, Fl.isInf, Fl.isZero, hp, hl, Fl.val, Fmt.rnd]
theorem dx_pos_zero {p : K} (hp : 0 < p) : Fl.div (.num p) (.num 0) = .pinf := by
  simp [Fl.div, Fl.isNan, Fl.isInf, Fl.isZero, hp.ne', Fl.signBit, not_lt.mpr hp.le, Fl.infS]
theorem dx_neg_zero {p : K} (hp : p < 0) : Fl.div (.num p) (.num 0) = .ninf := by
  simp [Fl.div, Fl.isNan, Fl.isInf, Fl.isZero, hp.ne, Fl.signBit, hp, Fl.infS]
theorem dx_pos_nzero {p : K} (hp : 0 < p) : Fl.div (.num p) .nzero = .ninf := by
  simp [Fl.div, Fl.isNan, Fl.isInf, Fl.isZero, hp.ne', Fl.signBit, not_lt.mpr hp.le, Fl.infS]
theorem dx_neg_nzero {p : K} (hp : p < 0) : Fl.div (.num p) .nzero = .pinf := by
  simp [Fl.div, Fl.isNan, Fl.isInf, Fl.isZero, hp.ne, Fl.signBit, hp, Fl.infS]
theorem dx_inf {p : K} {b : Fl K} (hb : b = .ninf ∨ b = .pinf) : Fl.div (.num p) b = .nzero ∨ Fl.div (.num p) b = .num 0 := by
  rcases hb with rfl | rfl <;> simp only [Fl.div, Fl.isNan, Fl.isInf] <;> simp only [Fl.zeroS] <;> simp <;> exact (em _).symm

/-- a finite dividend without zero -/
theorem div_bad_finite {xl xh yl yh : Fl K} (hx : le xl xh = true) (h0 : ¬ (le xl (.num 0) = true ∧ le (.num 0) xh = true))
    (hl : xl ≠ .ninf) (hh : xh ≠ .pinf) (hy : (lt yl (.num 0) = true ∧ yh = .num 0) ∨ (yl = .nzero ∧ lt (.num 0) yh = true)) :
    ∃ a b, (le xl a = true ∧ le a xh = true) ∧ (le yl b = true ∧ le b yh = true) ∧ ¬ eq b (.num 0) = true ∧
      ((∀ c ∈ [Fl.div xl yl, Fl.div xl yh, Fl.div xh yl, Fl.div xh yh], le c (Fl.div a b) = false) ∨
       (∀ c ∈ [Fl.div xl yl, Fl.div xl yh, Fl.div xh yl, Fl.div xh yh], le (Fl.div a b) c = false)) := by
  obtain ⟨p, rfl⟩ : ∃ p, xl = .num p := by
    cases xl <;> cases xh <;> simp_all
  obtain ⟨q, rfl⟩ : ∃ q, xh = .num q := by
    cases xh <;> simp_all
  simp only [Fl.le_num_num, decide_eq_true_eq, not_and, not_le] at hx h0
  have key : (0 < p ∧ 0 < q) ∨ (p < 0 ∧ q < 0) := by
    rcases le_or_gt p 0 with h | h
    · right; have := h0 h; exact ⟨lt_of_le_of_lt hx this, this⟩
    · left; exact ⟨h, lt_of_lt_of_le h hx⟩
  -- the quotient by half the non-zero bound lies beyond the corners
  have fin : ∀ l : K, l ≠ 0 → ((0 < p ∧ l < 0) ∨ (p < 0 ∧ 0 < l) → (p < 0 → p / (l/2) < p / l ∧ p / (l/2) < q / l) ∧
      (0 < p → q / (l/2) < p / l ∧ q / (l/2) < q / l)) ∧ ((0 < p ∧ 0 < l) ∨ (p < 0 ∧ l < 0) →
      (p < 0 → p / l < p / (l/2) ∧ q / l < p / (l/2)) ∧ (0 < p → p / l < q / (l/2) ∧ q / l < q / (l/2))) := by
    intro l hl
    have e : ∀ r : K, r / (l/2) = r / l + r / l := by intro r; field_simp; ring
    simp only [e]
    refine ⟨fun h => ⟨fun hp => ?_, fun hp => ?_⟩, fun h => ⟨fun hp => ?_, fun hp => ?_⟩⟩
    · have l0 : 0 < l := by rcases h with h | h <;> [exact absurd hp h.1.le.not_gt; exact h.2]
      have h1 : p / l < 0 := div_neg_of_neg_of_pos hp l0
      have h2 : p / l ≤ q / l := div_le_div_of_nonneg_right hx l0.le
      constructor <;> linarith
    · have l0 : l < 0 := by rcases h with h | h <;> [exact h.2; exact absurd hp h.1.le.not_gt]
      have h1 : q / l < 0 := div_neg_of_pos_of_neg (by linarith) l0
      have h2 : q / l ≤ p / l := div_le_div_of_nonpos_of_le l0.le hx
      constructor <;> linarith
    · have l0 : l < 0 := by rcases h with h | h <;> [exact absurd hp h.1.le.not_gt; exact h.2]
      have h1 : 0 < p / l := div_pos_of_neg_of_neg hp l0
      have h2 : q / l ≤ p / l := div_le_div_of_nonpos_of_le l0.le hx
      constructor <;> linarith
    · have l0 : 0 < l := by rcases h with h | h <;> [exact h.2; exact absurd hp h.1.le.not_gt]
      have h1 : 0 < q / l := div_pos (by linarith) l0
      have h2 : p / l ≤ q / l := div_le_div_of_nonneg_right hx l0.le
      constructor <;> linarith
  rcases hy with ⟨hy, rfl⟩ | ⟨rfl, hy⟩
  · cases yl with
    | num l =>
      have hl : l < 0 := by simpa [CppOrder.lt_iff] using hy
      have hl2 : l / 2 ≠ 0 := by intro; linarith
      have hb : (le (Fl.num l) (.num (l/2)) = true ∧ le (Fl.num (l/2)) (Fl.num 0) = true) ∧ ¬ eq (Fl.num (l/2)) (Fl.num 0) = true := by
        simp [CppOrder.eq_iff]; refine ⟨⟨?_, ?_⟩, ?_⟩ <;> (try intro) <;> linarith
      rcases key with ⟨hp, hq⟩ | ⟨hp, hq⟩
      · refine ⟨.num q, .num (l/2), by simp [hx], hb.1, hb.2, .inl ?_⟩
        obtain ⟨f1, f2⟩ := ((fin l hl.ne).1 (.inl ⟨hp, hl⟩)).2 hp
        simp [dx_num hp.ne' hl.ne, dx_num hq.ne' hl.ne, dx_num hq.ne' hl2, dx_pos_zero hp, dx_pos_zero hq, f1, f2]
      · refine ⟨.num p, .num (l/2), by simp [hx], hb.1, hb.2, .inr ?_⟩
        obtain ⟨f1, f2⟩ := ((fin l hl.ne).2 (.inr ⟨hp, hl⟩)).1 hp
        simp [dx_num hp.ne hl.ne, dx_num hq.ne hl.ne, dx_num hp.ne hl2, dx_neg_zero hp, dx_neg_zero hq, f1, f2]
    | ninf =>
      have hb : (le (Fl.ninf : Fl K) (.num (-1)) = true ∧ le (.num (-1)) (Fl.num 0 : Fl K) = true) ∧ ¬ eq (.num (-1)) (Fl.num 0 : Fl K) = true := by
        simp [CppOrder.eq_iff]
      have m1 : (-1 : K) ≠ 0 := by norm_num
      have i1 := dx_inf (p := p) (b := .ninf) (.inl rfl)
      have i2 := dx_inf (p := q) (b := .ninf) (.inl rfl)
      rcases key with ⟨hp, hq⟩ | ⟨hp, hq⟩
      · refine ⟨.num q, .num (-1), by simp [hx], hb.1, hb.2, .inl ?_⟩
        rcases i1 with i1 | i1 <;> rcases i2 with i2 | i2 <;>
          simp [dx_num hq.ne' m1, dx_pos_zero hp, dx_pos_zero hq, i1, i2, div_neg, hq]
      · refine ⟨.num p, .num (-1), by simp [hx], hb.1, hb.2, .inr ?_⟩
        rcases i1 with i1 | i1 <;> rcases i2 with i2 | i2 <;>
          simp [dx_num hp.ne m1, dx_neg_zero hp, dx_neg_zero hq, i1, i2, div_neg, hp]
    | _ => simp [CppOrder.lt_iff] at hy
  · cases yh with
    | num l =>
      have hl : 0 < l := by simpa [CppOrder.lt_iff] using hy
      have hl2 : l / 2 ≠ 0 := by intro; linarith
      have hb : (le Fl.nzero (.num (l/2)) = true ∧ le (Fl.num (l/2)) (Fl.num l) = true) ∧ ¬ eq (Fl.num (l/2)) (Fl.num 0) = true := by
        simp [CppOrder.eq_iff]; refine ⟨⟨?_, ?_⟩, ?_⟩ <;> (try intro) <;> linarith
      rcases key with ⟨hp, hq⟩ | ⟨hp, hq⟩
      · refine ⟨.num q, .num (l/2), by simp [hx], hb.1, hb.2, .inr ?_⟩
        obtain ⟨f1, f2⟩ := ((fin l hl.ne').2 (.inl ⟨hp, hl⟩)).2 hp
        simp [dx_num hp.ne' hl.ne', dx_num hq.ne' hl.ne', dx_num hq.ne' hl2, dx_pos_nzero hp, dx_pos_nzero hq, f1, f2]
      · refine ⟨.num p, .num (l/2), by simp [hx], hb.1, hb.2, .inl ?_⟩
        obtain ⟨f1, f2⟩ := ((fin l hl.ne').1 (.inr ⟨hp, hl⟩)).1 hp
        simp [dx_num hp.ne hl.ne', dx_num hq.ne hl.ne', dx_num hp.ne hl2, dx_neg_nzero hp, dx_neg_nzero hq, f1, f2]
    | pinf =>
      have hb : (le (Fl.nzero : Fl K) (.num 1) = true ∧ le (.num 1) (Fl.pinf : Fl K) = true) ∧ ¬ eq (.num 1) (Fl.num 0 : Fl K) = true := by
        simp [CppOrder.eq_iff]
      have m1 : (1 : K) ≠ 0 := by norm_num
      have i1 := dx_inf (p := p) (b := .pinf) (.inr rfl)
      have i2 := dx_inf (p := q) (b := .pinf) (.inr rfl)
      rcases key with ⟨hp, hq⟩ | ⟨hp, hq⟩
      · refine ⟨.num q, .num 1, by simp [hx], hb.1, hb.2, .inr ?_⟩
        rcases i1 with i1 | i1 <;> rcases i2 with i2 | i2 <;>
          simp [dx_num hq.ne' m1, dx_pos_nzero hp, dx_pos_nzero hq, i1, i2, hq]
      · refine ⟨.num p, .num 1, by simp [hx], hb.1, hb.2, .inl ?_⟩
        rcases i1 with i1 | i1 <;> rcases i2 with i2 | i2 <;>
          simp [dx_num hp.ne m1, dx_neg_nzero hp, dx_neg_nzero hq, i1, i2, hp]
    | _ => simp [CppOrder.lt_iff] at hy

end exact

/-- C32, exactly: in exact arithmetic, if no point quotient is indefinite, the result contains the quotient by every non-zero point of the
divisor if and only if zero bounds of the divisor have the sign of its side, or the dividend has an infinite bound.
So the failure of `C32_violated` is not special: it occurs for every finite non-zero dividend and every divisor `[l, +0]`, `l < 0`, or
`[-0, h]`, `0 < h`. -/
theorem C32_incl_iff (dbg : Bool) (X Y : Arg (Fl K)) (hX : ProperA X) (hY : ProperA Y)
    (hn : letI := exactFmt K; ∀ a b, a ∈ₐ X → b ∈ₐ Y → Fl.div a b ≠ .nan) :
    letI := exactFmt K
    (∃ R, divI dbg X Y = .ok R ∧ ∀ a b, a ∈ₐ X → b ∈ₐ Y → ¬ eq b (.num 0) = true → Fl.div a b ∈ᵢ R) ↔
      ZeroSignOk Y ∨ X.lo = .ninf ∨ X.hi = .pinf := by
  letI := exactFmt K
  have hprog := divI_prog dbg X Y hX hY
  rw [if_neg (by rw [div_nan_iff hX hY]; push Not; exact hn)] at hprog
  refine ⟨fun hL => ?_, fun hs => ?_⟩
  swap
  · rcases C32_incl_partial dbg X Y hX hY hs with ⟨⟨a, b, ha, hb, h⟩, -⟩ | ⟨-, R, hR, -, h⟩
    · exact absurd h (hn a b ha hb)
    · exact ⟨R, hR, h⟩
  by_cases hs : ZeroSignOk Y
  · exact .inl hs
  have hx := lo_mem hX; have hx' := hi_mem hX; have hy := lo_mem hY; have hy' := hi_mem hY
  have hxx := proper_le hX; have hyy := proper_le hY
  have hzero : ∀ a, a ∈ₐ X → Fl.isZero a = false := by
    intro a ha
    by_contra hc
    have hY0 : (Fl.num 0 : Fl K) ∈ₐ Y := by
      unfold ZeroSignOk at hs
      rw [not_and_or] at hs
      rcases hs with hs | hs
      · push Not at hs
        exact zero_mem_of hy (Fl.isZero_iff.mpr ((CppOrder.eq_iff _ _).mp hs.1))
      · push Not at hs
        exact zero_mem_of hy' (Fl.isZero_iff.mpr ((CppOrder.eq_iff _ _).mp hs.1))
    exact hn a _ ha hY0 ((Fl.div_eq_nan (ptA_ne_nan ha) (by simp)).mpr (Or.inr ⟨by simpa using hc, by simp [Fl.isZero]⟩))
  have h0X : ¬ (Fl.num 0 : Fl K) ∈ₐ X := fun h => by have := hzero _ h; simp [Fl.isZero] at this
  obtain ⟨R, hR, hh⟩ := divHull_ok hX hY hn
  have hnot : ¬(lt Y.lo (.num 0) && lt (.num 0) Y.hi) = true := by
    intro h
    simp only [Bool.and_eq_true] at h
    apply hs
    constructor
    · intro h'; have := (CppOrder.eq_iff _ _).mp h'; have := (CppOrder.lt_iff _ _).mp h.1; grind
    · intro h'; have := (CppOrder.eq_iff _ _).mp h'; have := (CppOrder.lt_iff _ _).mp h.2; grind
  rw [if_neg hnot, hR] at hprog
  rw [hprog] at hL
  have h0b : ¬ (le X.lo (.num 0) = true ∧ le (.num 0) X.hi = true) := fun h => h0X (mem_bounds.mpr h)
  obtain ⟨R', hR', hin⟩ := hL
  cases hR'
  by_contra hc
  push Not at hc
  obtain ⟨a, b, ha, hb, hb0, hv⟩ := div_bad_finite hxx h0b hc.2.1 hc.2.2 (bad_zero hs)
  exact not_mem_hull hh hv (hin a b (mem_bounds.mpr ha) (mem_bounds.mpr hb) hb0)

/-- non-trivial instances: the hypotheses hold for `[1,2] / [-3,+0]` (where inclusion fails) and for `[1,+inf] / [-3,+0]` (where it holds) -/
example : let := exactFmt ℚ; ProperA (.ivl (iq (.num 1) (.num 2))) ∧ ProperA (.ivl (iq (.num (-3)) (.num 0))) ∧
    ¬ ZeroSignOk (.ivl (iq (.num (-3)) (.num 0))) ∧
    divI true (.ivl (iq (.num 1) (.num 2))) (.ivl (iq (.num (-3)) (.num 0))) = .ok (iq (.num (-2/3)) .pinf) ∧
    divI true (.ivl (iq (.num 1) .pinf)) (.ivl (iq (.num (-3)) (.num 0))) = .ok (iq .ninf .pinf) := by
  unfold ZeroSignOk; decide +kernel
end Intervals.Props
