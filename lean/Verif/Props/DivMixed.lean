import Verif.Props.Mixed
import Verif.Props.DivZero
/-!
# C68, sharpened: exactly which quotients by a divisor of integral type are wrong
-/
namespace Intervals.Props
open Intervals CppVal CppNum Spec
set_option linter.unusedSectionVars false

variable {K : Type} [Field K] [LinearOrder K] [IsStrictOrderedRing K]

/-- exact arithmetic has every integer -/
theorem hasInts_exact (n : Nat) : HasInts (exactFmt K) n := ⟨rfl, rfl⟩

section exact
attribute [local instance] exactFmt

theorem toFloatV_exact {n : Nat} (v : SInt n) : (toFloatV v : Fl K) = .num (v.val : K) := rfl

/-- C68, exactly: in exact arithmetic, if no point quotient is indefinite, the quotient of a floating-point dividend and a divisor of integral type contains the quotient
by every non-zero point of the divisor if and only if the divisor is not of the form `[l, 0]` with `l ≤ -2`, or the dividend has an infinite bound. -/
theorem C68_div_iff (dbg : Bool) {n : Nat} (X : Arg (Fl K)) (Y : Arg (SInt n)) (hX : ProperA X) (hY : ProperA Y)
    (hn : ∀ a b, a ∈ₐ X → b ∈ₐ Y → Fl.div a (toFloatV b) ≠ .nan) :
    (∃ R, divM (T := Fl K) (fun x : Fl K => x) toFloatV dbg X Y = .ok R ∧
      ∀ a b, a ∈ₐ X → b ∈ₐ Y → b.val ≠ 0 → Fl.div a (toFloatV b) ∈ᵢ R) ↔
      ¬ (Y.hi.val = 0 ∧ Y.lo.val ≤ -2) ∨ X.lo = .ninf ∨ X.hi = .pinf := by
  have gu : GoodCast (fun x : Fl K => x) (fun _ => True) := C68_no_conversion (T := Fl K) (by simp [CppNum.zero])
  have gv : GoodCast (toFloatV (K := K) (n := n)) (fun _ => True) := C68_int_to_float (hasInts_exact n)
  have hP : AllB (fun _ => True) X := ⟨trivial, trivial⟩
  have hQ : AllB (fun _ => True) Y := ⟨trivial, trivial⟩
  have eX : mapA (fun x : Fl K => x) X = X := by cases X <;> rfl
  obtain ⟨-, -, -, e4⟩ := C68_same_type gu gv dbg hX hY hP hQ
  rw [eX] at e4
  have hY' := mapA_proper gv hY hQ
  have hloY : (mapA (toFloatV (K := K)) Y).lo = .num (Y.lo.val : K) := by cases Y <;> rfl
  have hhiY : (mapA (toFloatV (K := K)) Y).hi = .num (Y.hi.val : K) := by cases Y <;> rfl
  have hYle : Y.lo.val ≤ Y.hi.val := by
    have := proper_le hY; simpa [CppVal.le] using this
  rcases C32_nan dbg _ _ hX hY' with ⟨h, hR⟩ | ⟨h, R, hR, hp, -⟩
  · rw [← eX] at h
    obtain ⟨a, b, -, -, ha, hb, e⟩ := div_rep gu gv hX hY hP hQ h
    exact absurd e (hn a b ha hb)
  have lx := lo_mem hX; have hx := hi_mem hX; have ly := lo_mem hY'; have hy := hi_mem hY'
  have hxx := proper_le hX
  have memY : ∀ {b : SInt n}, b ∈ₐ Y → toFloatV b ∈ₐ mapA (toFloatV (K := K)) Y := fun hb => mapA_mem gv hQ hb trivial
  rw [e4, hR]
  constructor
  · rintro ⟨R', e, hin⟩
    cases e
    by_contra hc
    rw [not_or, not_not, not_or] at hc
    obtain ⟨⟨hh, hl⟩, hl', hh'⟩ := hc
    -- the quotient by `-1` lies beyond the corners
    let b : SInt n := ⟨-1, by have := Y.lo.ge; omega, by have := Y.hi.le; omega⟩
    have hb : b ∈ₐ Y := by
      refine mem_bounds.mpr ⟨?_, ?_⟩
      · simp only [CppVal.le, decide_eq_true_eq]; show Y.lo.val ≤ -1; omega
      · simp only [CppVal.le, decide_eq_true_eq]; show -1 ≤ Y.hi.val; omega
    have hk : (Y.lo.val : K) ≤ -2 := by exact_mod_cast hl
    have hk0 : (Y.lo.val : K) < 0 := by linarith
    have hnot : ¬ (lt (mapA (toFloatV (K := K)) Y).lo (.num 0) && lt (.num 0) (mapA (toFloatV (K := K)) Y).hi) = true := by
      rw [hloY, hhiY, hh]; simp [CppOrder.lt_iff]
    obtain ⟨R₁, hR₁, hhull⟩ := divHull_ok hX hY' h
    have hprog := divI_prog dbg X _ hX hY'
    rw [if_neg (by rw [div_nan_iff hX hY']; push Not; exact h), if_neg hnot, hR₁, hR] at hprog
    cases hprog
    have h0X : ¬ (le X.lo (.num 0) = true ∧ le (.num 0) X.hi = true) := by
      intro h0
      have z : (toFloatV Y.hi : Fl K) = .num 0 := by rw [toFloatV_exact, hh]; simp
      refine h _ _ (mem_bounds.mpr h0) (memY (hi_mem hY)) ?_
      rw [z]; simp [Fl.div, Fl.isNan, Fl.isInf, Fl.isZero]
    have hb' : (toFloatV b : Fl K) = .num (-1) := by rw [toFloatV_exact]; norm_num [b]
    have hb1 : b.val ≠ 0 := by show (-1 : Int) ≠ 0; decide
    have c1 := hin X.lo b lx hb hb1
    have c2 := hin X.hi b hx hb hb1
    rw [hb'] at c1 c2
    simp only [corners, hloY, hhiY, hh] at hhull
    clear hin hn h e4 hR hR₁ ly hy memY
    generalize X.lo = xl at *
    generalize X.hi = xh at *
    obtain ⟨p, rfl⟩ : ∃ p, xl = .num p := by cases xl <;> cases xh <;> simp_all
    obtain ⟨q, rfl⟩ : ∃ q, xh = .num q := by cases xh <;> simp_all
    simp only [Fl.le_num_num, decide_eq_true_eq, not_and, not_le] at hxx h0X
    have m1 : (-1 : K) ≠ 0 := by norm_num
    generalize (Y.lo.val : K) = l at hk hk0 hhull
    have dv : ∀ r : K, r / l * l = r := fun r => div_mul_cancel₀ r hk0.ne
    rcases le_or_gt p 0 with hp | hp
    · have hq := h0X hp
      have hp : p < 0 := lt_of_le_of_lt hxx hq
      refine not_mem_hull hhull (.inr ?_) c1
      have f1 : p / l < p / -1 := by rw [div_neg, div_one, div_lt_iff_of_neg hk0]; nlinarith
      have f2 : q / l ≤ p / l := div_le_div_of_nonpos_of_le hk0.le hxx
      simp [dx_num hp.ne hk0.ne, dx_num hq.ne hk0.ne, dx_num hp.ne m1, dx_neg_zero hp, dx_neg_zero hq]
      exact ⟨f1, lt_of_le_of_lt f2 f1⟩
    · have hq : 0 < q := lt_of_lt_of_le hp hxx
      refine not_mem_hull hhull (.inl ?_) c2
      have f1 : q / -1 < q / l := by rw [div_neg, div_one, lt_div_iff_of_neg hk0]; nlinarith
      have f2 : q / l ≤ p / l := div_le_div_of_nonpos_of_le hk0.le hxx
      simp [dx_num hp.ne' hk0.ne, dx_num hq.ne' hk0.ne, dx_num hq.ne' m1, dx_pos_zero hp, dx_pos_zero hq]
      exact ⟨lt_of_lt_of_le f1 f2, f1⟩
  · intro hc
    refine ⟨R, rfl, fun a b ha hb hb0 => ?_⟩
    have hbz : ¬ eq (toFloatV b : Fl K) (.num 0) = true := by
      rw [toFloatV_exact]; simp [CppOrder.eq_iff]
      intro h1; exact lt_of_le_of_ne h1 hb0
    by_cases hs : ZeroSignOk (mapA (toFloatV (K := K)) Y) ∨ X.lo = .ninf ∨ X.hi = .pinf
    · rcases C32_incl_partial dbg X _ hX hY' hs with ⟨⟨a', b', ha', hb', e⟩, -⟩ | ⟨-, R', hR', -, hi⟩
      · exact absurd e (h _ _ ha' hb')
      · rw [hR] at hR'; cases hR'
        exact hi _ _ ha (memY hb) hbz
    · -- the divisor is `[-1, 0]`
      rw [not_or] at hs
      have hc := hc.resolve_right hs.2
      have bz := bad_zero hs.1
      rw [hloY, hhiY] at bz
      rcases bz with ⟨b1, b2⟩ | ⟨b1, -⟩
      swap
      · cases b1
      have b1 : Y.lo.val < 0 := by
        have : (Y.lo.val : K) < 0 := by simpa [CppOrder.lt_iff] using b1
        exact_mod_cast this
      have b2 : Y.hi.val = 0 := by
        have : (Y.hi.val : K) = 0 := by simpa using b2
        exact_mod_cast this
      have hlo : Y.lo.val = -1 := by omega
      have hb' := mem_bounds.mp hb
      simp only [CppVal.le, decide_eq_true_eq] at hb'
      have hbv : b.val = -1 := by have := hb'.1; have := hb'.2; omega
      have e : (toFloatV b : Fl K) = (mapA (toFloatV (K := K)) Y).lo := by rw [hloY, toFloatV_exact, hbv, hlo]
      have hnot : ¬ (lt (mapA (toFloatV (K := K)) Y).lo (.num 0) && lt (.num 0) (mapA (toFloatV (K := K)) Y).hi) = true := by
        rw [hloY, hhiY, b2]; simp [CppOrder.lt_iff]
      obtain ⟨R₁, hR₁, hhull⟩ := divHull_ok hX hY' h
      have hprog := divI_prog dbg X _ hX hY'
      rw [if_neg (by rw [div_nan_iff hX hY']; push Not; exact h), if_neg hnot, hR₁, hR] at hprog
      cases hprog
      have ba := mem_bounds.mp ha
      rw [e]
      have d1 := h _ _ lx ly; have d2 := h _ _ hx ly
      refine corner_incl hhull (div_betw_left ba.1 ba.2 (h _ _ ha ly) d1 d2) ⟨.inl ?_, .inl ?_⟩ ⟨.inl ?_, .inl ?_⟩ <;>
        first | exact Fl.le_refl_of_ne d1 | exact Fl.le_refl_of_ne d2
end exact

/-- instances: `[1,2] / [-2,0]` misses quotients, `[1,2] / [-1,0]` does not -/
example : letI := exactFmt ℚ
    (¬ ∃ R, divM (T := Fl ℚ) (fun x : Fl ℚ => x) (toFloatV (n := 31)) true (.ivl ⟨.num 1, .num 2⟩) (.ivl ⟨i32 (-2), i32 0⟩) = .ok R ∧
      ∀ a b, a ∈ₐ (.ivl ⟨.num 1, .num 2⟩ : Arg (Fl ℚ)) → b ∈ₐ (.ivl ⟨i32 (-2), i32 0⟩ : Arg (SInt 31)) → b.val ≠ 0 → Fl.div a (toFloatV b) ∈ᵢ R) ∧
    ∃ R, divM (T := Fl ℚ) (fun x : Fl ℚ => x) (toFloatV (n := 31)) true (.ivl ⟨.num 1, .num 2⟩) (.ivl ⟨i32 (-1), i32 0⟩) = .ok R ∧
      ∀ a b, a ∈ₐ (.ivl ⟨.num 1, .num 2⟩ : Arg (Fl ℚ)) → b ∈ₐ (.ivl ⟨i32 (-1), i32 0⟩ : Arg (SInt 31)) → b.val ≠ 0 → Fl.div a (toFloatV b) ∈ᵢ R := by
  let := exactFmt ℚ
  have nn : ∀ (Y : Arg (SInt 31)) a b, a ∈ₐ (.ivl ⟨.num 1, .num 2⟩ : Arg (Fl ℚ)) → b ∈ₐ Y → Fl.div a (toFloatV b) ≠ .nan := by
    intro Y a b ha _ e
    have ha' := mem_bounds.mp ha
    rw [toFloatV_exact, Fl.div_eq_nan (ptA_ne_nan ha) (by simp)] at e
    revert e ha'
    cases a <;> simp [Arg.lo, Arg.hi, Fl.isInf, Fl.isZero]
    intro h1 _ h3; subst h1; exact absurd h3 (by norm_num)
  exact ⟨fun h => absurd ((C68_div_iff true _ _ (by decide) (by decide) (nn _)).1 h) (by decide),
    (C68_div_iff true _ _ (by decide) (by decide) (nn _)).2 (by decide)⟩
end Intervals.Props
