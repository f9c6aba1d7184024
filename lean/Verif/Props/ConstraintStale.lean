import Verif.Spec.ConstraintStale
import Verif.Props.ConstraintMixed
import Verif.Props.ConstraintFails
/-!
# C110: conditions used after the interval has been narrowed
-/
set_option linter.unusedSectionVars false
set_option linter.unusedVariables false
namespace Intervals.Props
open Intervals Spec CppVal
section
variable {V T : Type} [CppVal V] [CppNum V] [CppOrder V] [CppVal T] [CppNum T] [CppOrder T] [CppStep T]
variable {cv : V → T} {pr su : V → Outcome V} {d dbg : Bool} {x₀ x : Ivl T} {r : Arg V}

theorem inside_bounds (hx : Proper x) (h : Inside x x₀) : le x₀.lo x.lo = true ∧ le x.hi x₀.hi = true :=
  ⟨(h x.lo ⟨CppOrder.le_left _ _ hx, hx⟩).1, (h x.hi ⟨hx, CppOrder.le_right _ _ hx⟩).2⟩

theorem old_impossible (hx : Proper x₀) (hr : ProperA r) (k : XRel) (h : BoolSet.contains (k.compare cv x₀ r) true = false) :
    constrainOld cv pr su d dbg x₀ x r k = .error .contract := by
  have a1 : x₀.assigned = true := assigned_of_proper (X := .ivl x₀) hx
  have a2 := Intervals.assigned_of_proper hr
  unfold constrainOld; rw [a1, a2]; simp [constrainRelOld, h]

theorem old_possible (hx : Proper x₀) (hr : ProperA r) (k : XRel) (h : BoolSet.contains (k.compare cv x₀ r) true = true) (s : BoolSet) (hs : BoolSet.contains s true = true) :
    constrainOld cv pr su d dbg x₀ x r k = constrainRelOld cv pr su d dbg s x₀ x r k := by
  have a1 : x₀.assigned = true := assigned_of_proper (X := .ivl x₀) hx
  have a2 := Intervals.assigned_of_proper hr
  unfold constrainOld; rw [a1, a2]
  simp [constrainRelOld, h, hs]

/-- C110: a condition that is used with the bounds it was formed with constrains as in C101. -/
theorem C110_fresh (k : XRel) : constrainOld cv pr su d dbg x x r k = constrainM cv pr su d dbg x r k := by
  unfold constrainOld constrainM constrainRelOld constrainRel
  cases k <;> rfl

/-- C110: `<=` and `>=` formed before the interval was narrowed constrain like the same comparison formed now; so do `<` and `>` in a debug build, and in a release build if some value still
satisfies the comparison. -/
theorem C110_order_partial (h₀ : Proper x₀) (hx : Proper x) (hr : ProperA r) (mono : MonoCast cv) (hi : Inside x x₀) (k : XRel) (ho : orderX k = true)
    (h : strictX k = true → dbg = true ∨ ∃ u, SatX cv x r k u) : constrainOld cv pr su d dbg x₀ x r k = constrainM cv pr su d dbg x r k := by
  obtain ⟨i1, i2⟩ := inside_bounds hx hi
  cases hc : BoolSet.contains (k.compare cv x r) true
  · have hn : ¬ ∃ u, SatX cv x r k u := by
      rw [← possible_iff hx hr mono k (by cases k <;> first | rfl | simp [orderX] at ho), hc]; simp
    rw [constrainM_impossible hx hr k hc]
    cases hc₀ : BoolSet.contains (k.compare cv x₀ r) true
    · exact old_impossible h₀ hr k hc₀
    · rw [old_possible h₀ hr k hc₀ _ hc₀]
      unfold constrainRelOld
      rw [if_pos hc₀]
      have hdbg : strictX k = true → dbg = true := fun e => (h e).resolve_right hn
      unfold Proper at hx
      cases k <;> simp only [orderX, Bool.false_eq_true] at ho <;> simp only [XRel.compare, contains_ltM, contains_leM, if_true, ivl_lo, ivl_hi] at hc
      · rw [hdbg rfl]; simp [hc]
      · rw [hdbg rfl]; simp [hc]
      · cases dbg
        · have m : ¬ ∃ R, Ivl.make x.lo (cmin x.hi (cv r.hi)) = .ok R := by
            rintro ⟨R, e⟩
            have e := (make_eq_ok.mp e).1
            have hl := mono _ _ (proper_le hr)
            simp only [CppVal.gt, cmin] at e
            clear mono hi hn h
            grind
          unfold Ivl.make at m ⊢
          cases g : !CppVal.gt x.lo (cmin x.hi (cv r.hi)) <;> simp_all [pure, Except.pure]
        · simp [hc]
      · cases dbg
        · have m : ¬ ∃ R, Ivl.make (cmax (cv r.lo) x.lo) x.hi = .ok R := by
            rintro ⟨R, e⟩
            have e := (make_eq_ok.mp e).1
            have hl := mono _ _ (proper_le hr)
            simp only [CppVal.gt, cmax] at e
            clear mono hi hn h
            grind
          unfold Ivl.make at m ⊢
          cases g : !CppVal.gt (cmax (cv r.lo) x.lo) x.hi <;> simp_all [pure, Except.pure]
        · simp [hc]
  · obtain ⟨u, hu⟩ := (possible_iff hx hr mono k (by cases k <;> first | rfl | simp [orderX] at ho)).mp hc
    have hc₀ := possible_x h₀ mono k (x := x₀) ⟨hi _ hu.1, hu.2⟩
    rw [old_possible h₀ hr k hc₀ _ hc, (constrainM_eq hx hr k hc).1]
    unfold constrainRelOld constrainRel
    rw [if_pos hc, if_pos hc]
    cases k <;> first | rfl | simp [orderX] at ho

/-- C110: `==` formed earlier constrains the interval the condition was formed with, not the present one. -/
theorem C110_equal (k : XRel) (hk : equalX k = true) : constrainOld cv pr su d dbg x₀ x r k = constrainM cv pr su d dbg x₀ r k := by
  unfold constrainOld constrainM constrainRelOld constrainRel
  cases k <;> first | rfl | simp [equalX] at hk

/-- C110: `!=` formed earlier does nothing, unless its operand was one value at a bound of the interval; then it constrains the interval the condition was formed with. -/
theorem C110_unequal (h₀ : Proper x₀) (hr : ProperA r) (k : XRel) (hk : k = .xNe ∨ k = .neX) (hc : BoolSet.contains (k.compare cv x₀ r) true = true) :
    constrainOld cv pr su d dbg x₀ x r k =
      if d && ne x₀.lo x₀.hi && eq r.lo r.hi && (eq x₀.lo (cv r.lo) || eq x₀.hi (cv r.lo)) then constrainM cv pr su d dbg x₀ r k else .ok x := by
  rw [old_possible h₀ hr k hc _ hc, constrainM_body h₀ hr k hc]
  unfold constrainRelOld
  rw [if_pos hc]
  rcases hk with rfl | rfl <;> simp only [XRel.compare, contains_neM, if_true, ivl_lo, ivl_hi] at hc <;> simp only [hc, bodyX] <;>
    cases d <;> cases ne x₀.lo x₀.hi <;> cases eq r.lo r.hi <;> cases eq x₀.lo (cv r.lo) <;> cases eq x₀.hi (cv r.lo) <;> simp [pure, Except.pure]

/-- C110: using a comparison after the interval was narrowed loses no value, if using it at once does not: for `<` and `>` see C101. -/
theorem C110_keeps (h₀ : Proper x₀) (hx : Proper x) (hr : ProperA r) (mono : MonoCast cv) (step : d = true → LawfulStep T) (hi : Inside x x₀) (k : XRel)
    (hk : strictX k = true → Keeps cv x r k (constrainM cv pr su d dbg x r k)) : Keeps cv x r k (constrainOld cv pr su d dbg x₀ x r k) := by
  intro u hu
  have hu₀ : SatX cv x₀ r k u := ⟨hi _ hu.1, hu.2⟩
  cases ho : orderX k
  · cases he : equalX k
    · have hk' : k = .xNe ∨ k = .neX := by cases k <;> simp_all [orderX, equalX]
      have hc := possible_x h₀ mono k hu₀
      rw [C110_unequal h₀ hr k hk' hc]
      split
      · exact C101_keeps_partial h₀ hr mono step k (by rcases hk' with rfl | rfl <;> simp [strictX]) u hu₀
      · exact ⟨x, rfl, hu.1⟩
    · rw [C110_equal k he]
      exact C101_keeps_partial h₀ hr mono step k (by cases k <;> simp_all [strictX, equalX]) u hu₀
  · rw [C110_order_partial h₀ hx hr mono hi k ho (fun _ => .inr ⟨u, hu⟩)]
    cases hs : strictX k
    · exact C101_keeps_partial hx hr mono step k (by simp [hs]) u hu
    · exact hk hs u hu

/-- C110: `<`, `<=`, `>`, `>=` formed earlier, at any bounds, only remove values. -/
theorem C110_narrows_partial (h₀ : Proper x₀) (hx : Proper x) (hr : ProperA r) (k : XRel) (ho : orderX k = true) {R : Ivl T}
    (h : constrainOld cv pr su d dbg x₀ x r k = .ok R) : Inside R x := by
  cases hc : BoolSet.contains (k.compare cv x₀ r) true
  · rw [old_impossible h₀ hr k hc] at h; exact absurd h (by simp)
  · rw [old_possible h₀ hr k hc _ hc] at h
    unfold constrainRelOld at h
    rw [if_pos hc] at h
    unfold Proper at hx
    cases k <;> simp only [orderX, Bool.false_eq_true] at ho <;> simp only [bind_eq_ok] at h
    · obtain ⟨_, -, p, -, h⟩ := h
      obtain ⟨-, rfl⟩ := make_eq_ok.mp h
      rintro u ⟨q1, q2⟩; refine ⟨q1, ?_⟩; dsimp only [cmin] at q2; grind
    · obtain ⟨_, -, p, -, h⟩ := h
      obtain ⟨-, rfl⟩ := make_eq_ok.mp h
      rintro u ⟨q1, q2⟩; refine ⟨?_, q2⟩; dsimp only [cmax] at q1; grind
    · obtain ⟨_, -, h⟩ := h
      obtain ⟨-, rfl⟩ := make_eq_ok.mp h
      rintro u ⟨q1, q2⟩; refine ⟨q1, ?_⟩; dsimp only [cmin] at q2; grind
    · obtain ⟨_, -, h⟩ := h
      obtain ⟨-, rfl⟩ := make_eq_ok.mp h
      rintro u ⟨q1, q2⟩; refine ⟨?_, q2⟩; dsimp only [cmax] at q1; grind

/-- C110 fails for `==`: whenever the interval has since lost a value that is equal to a value of the operand, the result contains that value. -/
theorem C110_equal_fails (h₀ : Proper x₀) (hr : ProperA r) (mono : MonoCast cv) (step : d = true → LawfulStep T) (k : XRel) (hk : equalX k = true) {u : T} (hu : SatX cv x₀ r k u) (hl : ¬ u ∈ᵢ x) :
    ∃ R, constrainOld cv pr su d dbg x₀ x r k = .ok R ∧ u ∈ᵢ R ∧ ¬ Inside R x := by
  rw [C110_equal k hk]
  obtain ⟨R, e, h⟩ := C101_keeps_partial (pr := pr) (su := su) (d := d) (dbg := dbg) h₀ hr mono step k (by cases k <;> simp_all [strictX, equalX]) u hu
  exact ⟨R, e, h, fun hi => hl (hi u h)⟩

/-- C110 fails for `x < r` in a release build, if the operand is not stepped and `x` has since become `r⁺` or more, at its lower bound exactly: the result is that value, which satisfies
nothing.  A comparison formed now is a contract violation. -/
theorem C110_strict_fails (h₀ : Proper x₀) (hx : Proper x) (hr : ProperA r) (mono : MonoCast cv) (hp : ∀ v, pr v = .ok v) (hl : lt x₀.lo (cv r.hi) = true) (he : eq x.lo (cv r.hi) = true) :
    (∃ R, constrainOld cv pr su d false x₀ x r .xLess = .ok R ∧ ∀ u, u ∈ᵢ R → eq u (cv r.hi) = true) ∧ constrainM cv pr su d false x r .xLess = .error .contract := by
  have hc₀ : BoolSet.contains (XRel.xLess.compare cv x₀ r) true = true := by simpa only [XRel.compare, contains_ltM, if_true, ivl_lo] using hl
  have hc : BoolSet.contains (XRel.xLess.compare cv x r) true = false := by
    simp only [XRel.compare, contains_ltM, if_true, ivl_lo]; clear mono; grind
  refine ⟨?_, constrainM_impossible hx hr _ hc⟩
  rw [old_possible h₀ hr _ hc₀ _ hc₀]
  unfold constrainRelOld
  rw [if_pos hc₀]
  unfold Proper at hx
  have e : le x.lo (cmin x.hi (cv r.hi)) = true := by clear mono; unfold cmin; grind
  refine ⟨⟨x.lo, cmin x.hi (cv r.hi)⟩, by simp [hp, make_ok_of_le e], fun u ⟨q1, q2⟩ => ?_⟩
  dsimp only [cmin] at q1 q2; clear mono e; grind
end

section
variable {T : Type} [CppVal T] [CppOrder T] [CppStep T]
/-- C110 fails for disjunctions: `x <= a | e`, formed when `x <= a` was possible, is a contract violation once `x` is above `a`, whatever `e` is and even if all of `x` satisfies it. -/
theorem C110_or_fails (dbg d : Bool) (id : Nat) (x₀ x : Ivl T) (a : T) (da : Bool) (e : CExpr T) (h₀ : Proper x₀) (hx : Proper x) (ha : NotNan a) (hp : le x₀.lo a = true) (hl : lt a x.lo = true)
    {c : Cond T} (hb : (CExpr.or (.cmp .le (.ident d id x₀) (.scalar da a)) e).build dbg = .ok c) : constrain dbg d id x c = .error .contract := by
  have a1 : (Operand.ident d id x₀).arg.assigned = true := properA_assigned (A := .ivl x₀) h₀
  have a2 : (Operand.scalar da a).arg.assigned = true := rfl
  simp only [CExpr.build, buildCmp, condLe, opLe, a1, a2, bind_eq_ok, pure, Except.pure, Except.ok.injEq] at hb
  obtain ⟨c₁, ⟨s, ⟨_, -, rfl⟩, rfl⟩, c₂, -, rfl⟩ := hb
  have ht : BoolSet.contains (compareLeq (.ivl x₀) (.scalar a)) true = true := by
    simp only [contains_leq, if_true, ivl_lo]; exact hp
  have hm : (Operand.ident d id x₀).matchesId d id = true := self_match d id x₀
  have hf : detailConstrain dbg d id x (.leq (compareLeq (.ivl x₀) (.scalar a)) (.ident d id x₀) (.scalar da a)) false true = .error .contract := by
    simp only [detailConstrain, hm, ht, if_true]
    unfold Proper at hx
    have n : le x.lo a = false := by grind
    cases dbg
    · have g : CppVal.gt x.lo (cmin x.hi a) = true := by simp only [CppVal.gt, cmin]; grind
      simp [Ivl.make, Operand.arg, Arg.hi, g]
    · simp [Operand.arg, Arg.hi, n]
  unfold Cond.mkOr
  simp only [Cond.isCond, Bool.true_or, if_true]
  unfold constrain
  simp only [detailConstrain]
  show ((detailConstrain dbg d id x (.leq (compareLeq (.ivl x₀) (.scalar a)) (.ident d id x₀) (.scalar da a)) false true) >>= _) >>= _ = _
  rw [hf]; rfl
end

/-- C110 is violated (detail/interval.hpp:541–627): for an `interval<long long>` `x = [0, 10]` and `c = (x == 7)` with an `int`, `constrain(x, c)` after `x.reset({ 0, 3 })` is `[7, 7]`;
with `c = (x != 10)` it is `[0, 9]`. -/
theorem C110_violated : ¬ C110_full (widenV (show 31 ≤ 63 by decide)) (predStep true) (succStep true) true ∧
    constrainOld (widenV (show 31 ≤ 63 by decide)) (predStep true) (succStep true) true true ⟨i64 0, i64 10⟩ ⟨i64 0, i64 3⟩ (.scalar (i32 7)) .xEq = .ok ⟨i64 7, i64 7⟩ ∧
    constrainOld (widenV (show 31 ≤ 63 by decide)) (predStep true) (succStep true) true true ⟨i64 0, i64 10⟩ ⟨i64 0, i64 3⟩ (.scalar (i32 10)) .xNe = .ok ⟨i64 0, i64 9⟩ := by
  refine ⟨fun h => ?_, by decide +kernel, by decide +kernel⟩
  have := h true ⟨i64 0, i64 10⟩ ⟨i64 0, i64 3⟩ (.scalar (i32 7)) .xEq (by decide) (by decide) (by decide)
    (fun u ⟨h1, h2⟩ => ⟨h1, CppOrder.le_trans _ _ _ h2 (by decide)⟩)
  revert this; decide +kernel

/-- `c = (x <= 3 | x >= 8)` formed while `x = [0, 10]` is a contract violation when `x` is `[5, 10]`, though 8, 9 and 10 satisfy it; formed then, it gives `[8, 10]`. -/
theorem C110_or_violated :
    (do constrain false true 0 ⟨i32 5, i32 10⟩ (← (CExpr.or (.cmp .le (.ident true 0 ⟨i32 0, i32 10⟩) (.scalar true (i32 3))) (.cmp .ge (.ident true 0 ⟨i32 0, i32 10⟩) (.scalar true (i32 8)))).build false)) =
      .error .contract ∧
    (do constrain false true 0 ⟨i32 5, i32 10⟩ (← (CExpr.or (.cmp .le (.ident true 0 ⟨i32 5, i32 10⟩) (.scalar true (i32 3))) (.cmp .ge (.ident true 0 ⟨i32 5, i32 10⟩) (.scalar true (i32 8)))).build false)) =
      .ok ⟨i32 8, i32 10⟩ := by decide +kernel

/-! Non-vacuity: `x <= r` and `x < r` with `r = [-5, 7]` of type `int`, formed at `[0, 10]` and used at `[2, 9]`; `x < 7` used at `[8, 9]` in a debug build. -/
private theorem in29 : Inside (⟨i64 2, i64 9⟩ : Ivl (SInt 63)) ⟨i64 0, i64 10⟩ := fun u ⟨h1, h2⟩ =>
  ⟨CppOrder.le_trans _ _ _ (by decide) h1, CppOrder.le_trans _ _ _ h2 (by decide)⟩
example : constrainOld (widenV (show 31 ≤ 63 by decide)) (predStep true) (succStep true) true false ⟨i64 0, i64 10⟩ ⟨i64 2, i64 9⟩ (.ivl ⟨i32 (-5), i32 7⟩) .xLess = .ok ⟨i64 2, i64 6⟩ := by
  rw [C110_order_partial (r := .ivl ⟨i32 (-5), i32 7⟩) (cv := widenV (show 31 ≤ 63 by decide)) (by decide) (by decide) (by decide) ((C101_casts (K := ℚ)).1 _) in29 .xLess rfl (fun _ => .inr ⟨i64 2, by decide, i32 7, hi_mem (X := .ivl ⟨i32 (-5), i32 7⟩) (by decide), by decide⟩)]
  decide +kernel
example : constrainOld (widenV (show 31 ≤ 63 by decide)) (predStep true) (succStep true) true true ⟨i64 0, i64 10⟩ ⟨i64 8, i64 9⟩ (.scalar (i32 7)) .xLess = .error .contract := by decide +kernel
example : ∃ R, constrainOld (widenV (show 31 ≤ 63 by decide)) (predStep true) (succStep true) true false ⟨i64 0, i64 10⟩ ⟨i64 2, i64 9⟩ (.scalar (i32 10)) .xNe = .ok R ∧ (i64 9) ∈ᵢ R :=
  C110_keeps (by decide) (by decide) (by decide) ((C101_casts (K := ℚ)).1 _) (fun _ => lawfulStep_bint _ _) in29 .xNe (by simp [strictX]) (i64 9) ⟨by decide, i32 10, hi_mem (X := .scalar (i32 10)) (by decide), by decide⟩
/-- an `interval<double>` and a `double`: `x < 1` formed at `[0, 2]`, used at `[1, 2]`, returns `[1, 1]` in a release build -/
example : letI := binary64Fmt
    constrainOld (fun v : Fl ℚ => v) (predStep false) (succStep false) false false ⟨.num 0, .num 2⟩ ⟨.num 1, .num 2⟩ (.scalar (.num 1)) .xLess = .ok ⟨.num 1, .num 1⟩ := by decide +kernel
end Intervals.Props
