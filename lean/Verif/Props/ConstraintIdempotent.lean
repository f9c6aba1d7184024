import Verif.Props.ConstraintIsotoneOr
import Verif.Props.PropagateMixed
import Verif.Spec.ConstraintAgain
/-!
# C101, C104: constraining twice
-/
set_option linter.unusedSectionVars false
set_option linter.unusedVariables false
namespace Intervals.Props
open Intervals Spec CppVal
section
variable {V T : Type} [CppVal V] [CppNum V] [CppOrder V] [CppVal T] [CppNum T] [CppOrder T] [CppStep T]
variable {cv : V → T} {pr su : V → Outcome V} {d dbg : Bool} {x : Ivl T} {r : Arg V}

private theorem cmin_twice (a b : T) : cmin (cmin a b) b = cmin a b := by grind [cmin]
private theorem cmin_twice' (a b : T) : cmin a (cmin a b) = cmin a b := by grind [cmin]
private theorem cmax_twice (a b : T) : cmax (cmax a b) b = cmax a b := by grind [cmax]
private theorem cmax_twice' (a b : T) : cmax a (cmax a b) = cmax a b := by grind [cmax]

theorem ne_twice (step : d = true → LawfulStep T) (hx : Proper x) (k : XRel) (hk : k = .xNe ∨ k = .neX)
    (hc : BoolSet.contains (k.compare cv x r) true = true) {R : Ivl T} (h : bodyX cv pr su d x r k = .ok R) :
    Proper R ∧ BoolSet.contains (k.compare cv R r) true = true ∧ bodyX cv pr su d R r k = .ok R := by
  have key : Proper R ∧ BoolSet.contains (k.compare cv R r) true = true ∧ ((d && ne R.lo R.hi && eq r.lo r.hi && (eq R.lo (cv r.lo) || eq R.hi (cv r.lo))) = false) := by
    rcases ne_cases (r := r) (cv := cv) (pr := pr) (su := su) step hx k hk with ⟨-, f2, f3, f4, t, -, g1, g2, g3⟩ | ⟨-, f2, f3, f4, f5, t, -, g1, g2, g3⟩ | ⟨f2, g3⟩ <;> rw [g3] at h <;> cases h
    · refine ⟨g1, ?_, ?_⟩
      · rcases hk with rfl | rfl <;> simp only [XRel.compare, contains_neM, if_true, ivl_lo, ivl_hi, Bool.or_eq_true] <;> grind
      · simp only [Bool.and_eq_false_iff]; grind
    · refine ⟨g1, ?_, ?_⟩
      · rcases hk with rfl | rfl <;> simp only [XRel.compare, contains_neM, if_true, ivl_lo, ivl_hi, Bool.or_eq_true] <;> grind
      · simp only [Bool.and_eq_false_iff]; grind
    · exact ⟨hx, hc, f2⟩
  refine ⟨key.1, key.2.1, ?_⟩
  have key2 := key.2.2
  rcases ne_cases (r := r) (cv := cv) (pr := pr) (su := su) step key.1 k hk with ⟨f1, f2, f3, f4, -⟩ | ⟨f1, f2, f3, f4, f5, -⟩ | ⟨-, g3⟩
  · simp [f1, f2, f3, f4] at key2
  · simp [f1, f2, f3, f5] at key2
  · exact g3

/-- C101: constraining the result by the same comparison again succeeds and changes nothing. -/
theorem C101_idempotent (hx : Proper x) (hr : ProperA r) (mono : MonoCast cv) (step : d = true → LawfulStep T)
    (np : ∀ v p, NotNan v → pr v = .ok p → NotNan p) (ns : ∀ v p, NotNan v → su v = .ok p → NotNan p) (k : XRel) {R : Ivl T} (h : constrainM cv pr su d dbg x r k = .ok R) :
    constrainM cv pr su d dbg R r k = .ok R := by
  have hR : Proper R := by
    obtain ⟨-, -, g, -⟩ := C101_isotone hx (fun u hu => hu) hr mono step np ns k h
    exact g
  have hR0 : le R.lo R.hi = true := hR
  clear mono np ns
  have hc : BoolSet.contains (k.compare cv x r) true = true := by
    cases hc : BoolSet.contains (k.compare cv x r) true
    · rw [constrainM_impossible hx hr k hc] at h; cases h
    · rfl
  rw [constrainM_body hx hr k hc] at h
  suffices H : Proper R ∧ BoolSet.contains (k.compare cv R r) true = true ∧ bodyX cv pr su d R r k = .ok R by
    rw [constrainM_body H.1 hr k H.2.1]; exact H.2.2
  cases k
  case xNe => exact ne_twice step hx _ (.inl rfl) hc h
  case neX => exact ne_twice step hx _ (.inr rfl) hc h
  case xLess =>
    simp only [bodyX, bind_eq_ok] at h
    obtain ⟨p, e, h⟩ := h
    obtain ⟨q, rfl⟩ := make_eq_ok.mp h
    refine ⟨hR, ?_, ?_⟩
    · simpa [XRel.compare, contains_ltM, ivl_lo] using hc
    · simp [bodyX, e, cmin_twice, make_ok_of_le hR0]
  case lessX =>
    simp only [bodyX, bind_eq_ok] at h
    obtain ⟨p, e, h⟩ := h
    obtain ⟨q, rfl⟩ := make_eq_ok.mp h
    refine ⟨hR, ?_, ?_⟩
    · simpa [XRel.compare, contains_ltM, ivl_hi] using hc
    · simp [bodyX, e, cmax_twice', make_ok_of_le hR0]
  case xLeq =>
    obtain ⟨q, rfl⟩ := make_eq_ok.mp h
    refine ⟨hR, ?_, ?_⟩
    · simpa [XRel.compare, contains_leM, ivl_lo] using hc
    · simp [bodyX, cmin_twice, make_ok_of_le hR0]
  case leqX =>
    obtain ⟨q, rfl⟩ := make_eq_ok.mp h
    refine ⟨hR, ?_, ?_⟩
    · simpa [XRel.compare, contains_leM, ivl_hi] using hc
    · simp [bodyX, cmax_twice', make_ok_of_le hR0]
  case xEq =>
    obtain ⟨q, rfl⟩ := make_eq_ok.mp h
    refine ⟨hR, ?_, ?_⟩
    · simp only [XRel.compare, contains_eqM, ivl_lo, ivl_hi, if_true, Bool.and_eq_true] at hc ⊢
      grind [cmin, cmax, CppVal.ge]
    · simp [bodyX, cmax_twice, cmin_twice, make_ok_of_le hR0]
  case eqX =>
    obtain ⟨q, rfl⟩ := make_eq_ok.mp h
    refine ⟨hR, ?_, ?_⟩
    · simp only [XRel.compare, contains_eqM, ivl_lo, ivl_hi, if_true, Bool.and_eq_true] at hc ⊢
      grind [cmin, cmax, CppVal.ge]
    · simp [bodyX, cmax_twice', cmin_twice', make_ok_of_le hR0]
end

/-- `x != int8(2)` at `[2, 9]` gives `[3, 9]`, and again `[3, 9]`; the hypotheses hold -/
example : Proper (⟨i32 2, i32 9⟩ : Ivl (SInt 31)) ∧ (∀ v p, NotNan v → predStep (T := SInt 7) true v = .ok p → NotNan p) ∧
    constrainM (V := SInt 7) (T := SInt 31) (widenV (show 7 ≤ 31 by decide)) (predStep true) (succStep true) true true ⟨i32 2, i32 9⟩ (.scalar ⟨2, by decide, by decide⟩) .xNe = .ok ⟨i32 3, i32 9⟩ ∧
    constrainM (V := SInt 7) (T := SInt 31) (widenV (show 7 ≤ 31 by decide)) (predStep true) (succStep true) true true ⟨i32 3, i32 9⟩ (.scalar ⟨2, by decide, by decide⟩) .xNe = .ok ⟨i32 3, i32 9⟩ :=
  ⟨by decide, fun v p _ _ => decide_eq_true (Int.le_refl _), by decide, by decide⟩

private def twiceAnd : MExpr (fun m : {m // m ≤ 31} => SInt m.1) :=
  .and (.cmp ⟨7, by decide⟩ (.scalar ⟨1, by decide, by decide⟩) .xNe) (.cmp ⟨7, by decide⟩ (.scalar ⟨2, by decide, by decide⟩) .xNe)
/-- C104: constraining by a conjunction again may narrow further, as each side starts from `x`: `x != 1 & x != 2` keeps `[2, 5]` of `[1, 5]`, and `[3, 5]` of `[2, 5]`. -/
theorem C104_idempotent_fails : ∃ e : MExpr (fun m : {m // m ≤ 31} => SInt m.1), e.Proper (wideOperands 31) ∧ e.Conj true ∧
    (do constrainT (wideOperands 31) true true ⟨i32 1, i32 5⟩ (← e.build (wideOperands 31) true ⟨i32 1, i32 5⟩)) = .ok ⟨i32 2, i32 5⟩ ∧
    (do constrainT (wideOperands 31) true true ⟨i32 2, i32 5⟩ (← e.build (wideOperands 31) true ⟨i32 2, i32 5⟩)) = .ok ⟨i32 3, i32 5⟩ :=
  ⟨twiceAnd, ⟨⟨inferInstance, by decide, C101_casts (K := ℚ).1 (by decide)⟩, ⟨inferInstance, by decide, C101_casts (K := ℚ).1 (by decide)⟩⟩, ⟨trivial, trivial⟩, by decide, by decide⟩

section
variable {V T : Type} [CppVal V] [CppNum V] [CppOrder V] [CppVal T] [CppNum T] [CppOrder T] [CppStep T]
variable {cv : V → T} {pr su : V → Outcome V} {d dbg : Bool} {x Y R : Ivl T} {r : Arg V}

/-- a comparison other than `!=` leaves alone what is part of its result -/
theorem again_leaf (hx : Proper x) (hr : ProperA r) (mono : MonoCast cv) (np : ∀ v p, NotNan v → pr v = .ok p → NotNan p) (ns : ∀ v p, NotNan v → su v = .ok p → NotNan p)
    (k : XRel) (hk : unequalX k = false) (hs : strictX k = true → (∀ v p, NotNan v → pr v = .ok p → lt (cv p) (cv v) = true) ∧ (∀ v p, NotNan v → su v = .ok p → lt (cv v) (cv p) = true))
    (h : bodyX cv pr su d x r k = .ok R) (hY : Nested Y R) :
    BoolSet.contains (k.compare cv Y r) true = true ∧ ∃ Y', bodyX cv pr su d Y r k = .ok Y' ∧ Nested Y' Y ∧ Nested Y Y' := by
  obtain ⟨y1, y2, y3⟩ := hY
  have hx0 : le x.lo x.hi = true := hx
  have hl := mono _ _ (proper_le hr)
  have n1 : NotNan r.lo := CppOrder.le_left _ _ (proper_le hr)
  have n2 : NotNan r.hi := CppOrder.le_right _ _ (proper_le hr)
  cases k <;> simp only [unequalX, Bool.true_eq_false] at hk
  case xLess =>
    simp only [bodyX, bind_eq_ok] at h
    obtain ⟨p, e, h⟩ := h
    obtain ⟨q, rfl⟩ := make_eq_ok.mp h
    have p1 : le (cv p) (cv p) = true := mono _ _ (np _ _ n2 e)
    have p2 := (hs rfl).1 _ _ n2 e
    clear mono np ns hs
    have g : le Y.lo (cmin Y.hi (cv p)) = true := by unfold cmin at *; grind
    refine ⟨?_, ⟨Y.lo, cmin Y.hi (cv p)⟩, by simp [bodyX, e, make_ok_of_le g], ⟨g, ?_, ?_⟩, ⟨y1, ?_, ?_⟩⟩
    · simp only [XRel.compare, contains_ltM, if_true, ivl_lo]; unfold cmin at *; grind
    all_goals (unfold cmin at *; dsimp only at *; grind)
  case lessX =>
    simp only [bodyX, bind_eq_ok] at h
    obtain ⟨p, e, h⟩ := h
    obtain ⟨q, rfl⟩ := make_eq_ok.mp h
    have p1 : le (cv p) (cv p) = true := mono _ _ (ns _ _ n1 e)
    have p2 := (hs rfl).2 _ _ n1 e
    clear mono np ns hs
    have g : le (cmax (cv p) Y.lo) Y.hi = true := by unfold cmax at *; grind
    refine ⟨?_, ⟨cmax (cv p) Y.lo, Y.hi⟩, by simp [bodyX, e, make_ok_of_le g], ⟨g, ?_, ?_⟩, ⟨y1, ?_, ?_⟩⟩
    · simp only [XRel.compare, contains_ltM, if_true, ivl_hi]; unfold cmax at *; grind
    all_goals (unfold cmax at *; dsimp only at *; grind)
  case xLeq =>
    obtain ⟨q, rfl⟩ := make_eq_ok.mp h
    clear mono np ns hs
    have g : le Y.lo (cmin Y.hi (cv r.hi)) = true := by unfold cmin at *; grind
    refine ⟨?_, ⟨Y.lo, cmin Y.hi (cv r.hi)⟩, by simp [bodyX, make_ok_of_le g], ⟨g, ?_, ?_⟩, ⟨y1, ?_, ?_⟩⟩
    · simp only [XRel.compare, contains_leM, if_true, ivl_lo]; unfold cmin at *; grind
    all_goals (unfold cmin at *; dsimp only at *; grind)
  case leqX =>
    obtain ⟨q, rfl⟩ := make_eq_ok.mp h
    clear mono np ns hs
    have g : le (cmax (cv r.lo) Y.lo) Y.hi = true := by unfold cmax at *; grind
    refine ⟨?_, ⟨cmax (cv r.lo) Y.lo, Y.hi⟩, by simp [bodyX, make_ok_of_le g], ⟨g, ?_, ?_⟩, ⟨y1, ?_, ?_⟩⟩
    · simp only [XRel.compare, contains_leM, if_true, ivl_hi]; unfold cmax at *; grind
    all_goals (unfold cmax at *; dsimp only at *; grind)
  case xEq =>
    obtain ⟨q, rfl⟩ := make_eq_ok.mp h
    clear mono np ns hs
    have b1 : le (cv r.lo) Y.lo = true := by unfold cmax cmin at *; grind
    have b2 : le Y.hi (cv r.hi) = true := by unfold cmax cmin at *; grind
    clear y2 y3 q h
    have g : le (cmax Y.lo (cv r.lo)) (cmin Y.hi (cv r.hi)) = true := by unfold cmax cmin; grind
    refine ⟨?_, ⟨cmax Y.lo (cv r.lo), cmin Y.hi (cv r.hi)⟩, by simp [bodyX, make_ok_of_le g], ⟨g, ?_, ?_⟩, ⟨y1, ?_, ?_⟩⟩
    · simp only [XRel.compare, contains_eqM, if_true, ivl_lo, ivl_hi, Bool.and_eq_true, CppVal.ge]; grind
    all_goals (unfold cmax cmin at *; dsimp only at *; grind)
  case eqX =>
    obtain ⟨q, rfl⟩ := make_eq_ok.mp h
    clear mono np ns hs
    have b1 : le (cv r.lo) Y.lo = true := by unfold cmax cmin at *; grind
    have b2 : le Y.hi (cv r.hi) = true := by unfold cmax cmin at *; grind
    clear y2 y3 q h
    have g : le (cmax (cv r.lo) Y.lo) (cmin (cv r.hi) Y.hi) = true := by unfold cmax cmin; grind
    refine ⟨?_, ⟨cmax (cv r.lo) Y.lo, cmin (cv r.hi) Y.hi⟩, by simp [bodyX, make_ok_of_le g], ⟨g, ?_, ?_⟩, ⟨y1, ?_, ?_⟩⟩
    · simp only [XRel.compare, contains_eqM, if_true, ivl_lo, ivl_hi, Bool.and_eq_true, CppVal.ge]; grind
    all_goals (unfold cmax cmin at *; dsimp only at *; grind)
end

section
variable {ι : Type} {V : ι → Type} [∀ i, CppVal (V i)] [∀ i, CppNum (V i)] {T : Type} [CppVal T] [CppNum T] [CppOrder T] [CppStep T]
variable {E : OperandTypes V T} {d dbg : Bool} {x Y : Ivl T}

theorem twin_again (hx : Proper x) (hy : Proper Y) (step : d = true → LawfulStep T)
    (np : ∀ i v p, NotNan v → E.pr i v = .ok p → NotNan p) (ns : ∀ i v p, NotNan v → E.su i v = .ok p → NotNan p) :
    ∀ (c c' : MCond V), Twin E (fun k => unequalX k = false ∧ (strictX k = true → StepsApart E)) x Y true c c' → ∀ (f g : Bool) (R : Ivl T), detailConstrainT E dbg d x c f false = .ok (R, g) →
      BoolSet.contains c.truth true = true ∧ Nested R x ∧ (Nested Y R → BoolSet.contains c'.truth true = true ∧ ∃ Y', detailConstrainT E dbg d Y c' f false = .ok (Y', g) ∧ Nested Y' Y ∧ Nested Y Y')
  | .cmp s₀ i r k, .cmp s j r' k', h, f, g, R, hq => by
    obtain ⟨e0, e, e1, ho, hr, mono, hk, hs⟩ := h
    cases e; subst e0; subst e1
    simp only [if_true] at hk hs
    have hc : BoolSet.contains (k.compare (E.cv i) x r) true = true := by
      cases hc : BoolSet.contains (k.compare (E.cv i) x r) true
      · simp [detailConstrainT, hc] at hq
      · rfl
    simp only [detailConstrainT, hc, if_true] at hq
    rw [← (constrainM_eq hx hr k hc).1] at hq
    simp only [bind_eq_ok, pure, Except.pure] at hq
    obtain ⟨R0, a1, a2⟩ := hq
    cases a2
    obtain ⟨R', b1, b2, b3⟩ := C101_isotone hx (fun u hu => hu) hr mono step (np i) (ns i) k a1
    rw [a1] at b1; cases b1
    have hn : Nested R x := by
      exact nested_of b2 (C101_narrows hx hr mono step k a1)
    refine ⟨hc, hn, fun hY => ?_⟩
    rw [constrainM_body hx hr k hc] at a1
    obtain ⟨c1, Y', c2, c3⟩ := again_leaf hx hr mono (np i) (ns i) k hk (fun h => ⟨fun v p n e => ((hs h) i v p n).1 e, fun v p n e => ((hs h) i v p n).2 e⟩) a1 hY
    refine ⟨c1, Y', ?_, c3⟩
    simp only [detailConstrainT, c1, if_true]
    rw [← (constrainM_eq hy hr k c1).1, constrainM_body hy hr k c1, c2]
    rfl
  | .away s₀, .away s, h, f, g, R, hq => by
    obtain ⟨rfl, _, h⟩ := h
    simp only [detailConstrainT] at hq ⊢
    cases hq
    exact ⟨h, nested_of hx (fun u hu => hu), fun hY => ⟨h, Y, rfl, nested_of hy (fun u hu => hu), nested_of hy (fun u hu => hu)⟩⟩
  | .conj s₀ l₀ r₀, .conj s l r, h, f, g, R, hq => by
    obtain ⟨e0, e, hl, hr⟩ := h
    have nl := twin_ne hx hy _ _ _ hl; have nr := twin_ne hx hy _ _ _ hr
    have dl : l₀.isDisj = false ∧ l.isDisj = false := by cases l₀ <;> cases l <;> first | exact ⟨rfl, rfl⟩ | exact hl.elim
    have dr : r₀.isDisj = false ∧ r.isDisj = false := by cases r₀ <;> cases r <;> first | exact ⟨rfl, rfl⟩ | exact hr.elim
    simp only [detailConstrainT, dl.1, dr.1, Bool.false_eq_true, if_false, bind_eq_ok] at hq
    obtain ⟨⟨xl, f1⟩, g1, ⟨xr, f2⟩, g2, hq⟩ := hq
    dsimp only at g1 g2 hq
    obtain ⟨a1, ⟨a5, a6, a7⟩, a2⟩ := twin_again hx hy step np ns _ _ hl _ _ _ g1
    obtain ⟨b1, ⟨b5, b6, b7⟩, b2⟩ := twin_again hx hy step np ns _ _ hr _ _ _ g2
    have c1 : BoolSet.contains s₀ true = true := by rw [e0, contains_and_true _ _ nl.1 nr.1, a1, b1]; rfl
    simp only [c1, if_true, bind_eq_ok, pure, Except.pure] at hq
    obtain ⟨-, hd, R0, m, hq⟩ := hq
    cases hq
    obtain ⟨q, rfl⟩ := make_eq_ok.mp m
    simp only [CppVal.gt] at q
    clear np ns step
    have k1 : le (cmax xl.lo xr.lo) (cmin xl.hi xr.hi) = true := by unfold cmax cmin at q ⊢; grind
    refine ⟨c1, ⟨k1, by unfold cmax; dsimp only; grind, by unfold cmin; dsimp only; grind⟩, fun hY => ?_⟩
    obtain ⟨y1, y2, y3⟩ := hY
    have hYl : Nested Y xl := ⟨y1, by clear a2 b2; unfold cmax at y2; dsimp only at y2; grind, by clear a2 b2; unfold cmin at y3; dsimp only at y3; grind⟩
    have hYr : Nested Y xr := ⟨y1, by clear a2 b2; unfold cmax at y2; dsimp only at y2; grind, by clear a2 b2; unfold cmin at y3; dsimp only at y3; grind⟩
    obtain ⟨l1, yl, l2, ⟨l3, l4, l5⟩, ⟨-, l6, l7⟩⟩ := a2 hYl
    obtain ⟨r1, yr, r2, ⟨r3, r4, r5⟩, ⟨-, r6, r7⟩⟩ := b2 hYr
    have c2 : BoolSet.contains s true = true := by rw [e, contains_and_true _ _ nl.2.1 nr.2.1, l1, r1]; rfl
    clear a2 b2 hYl hYr
    have k2 : le (cmax yl.lo yr.lo) (cmin yl.hi yr.hi) = true := by unfold cmax cmin; grind
    have k3 : (ge yl.hi yr.lo && le yl.lo yr.hi) = true := by simp only [CppVal.ge, Bool.and_eq_true]; grind
    refine ⟨c2, ⟨cmax yl.lo yr.lo, cmin yl.hi yr.hi⟩, ?_, ⟨k2, ?_, ?_⟩, ⟨y1, ?_, ?_⟩⟩
    · have k4 := Bool.and_eq_true_iff.mp k3
      simp [detailConstrainT, dl.2, dr.2, l2, r2, c2, k4.1, k4.2, make_ok_of_le k2, expectsDebug, pure, Except.pure]
    all_goals (unfold cmax cmin; dsimp only; grind)

/-- C104: constraining the result by the same conjunction of comparisons other than `!=`, formed anew, succeeds again and changes no bound, provided that strict comparisons step their operands. -/
theorem C104_idempotent (hx : Proper x) (step : d = true → LawfulStep T)
    (np : ∀ i v p, NotNan v → E.pr i v = .ok p → NotNan p) (ns : ∀ i v p, NotNan v → E.su i v = .ok p → NotNan p)
    (e : MExpr V) (hp : e.Proper E) (hc : e.Conj true) (ha : e.All (fun _ _ k => unequalX k = false ∧ (strictX k = true → StepsApart E)) true)
    {R : Ivl T} (h : (do constrainT E dbg d x (← e.build E dbg x)) = .ok R) :
    ∃ R', (do constrainT E dbg d R (← e.build E dbg R)) = .ok R' ∧ EqualBounds R' R := by
  have hR : Proper R := by
    obtain ⟨c, c', a1, a2, a3⟩ := twin_build (dbg := dbg) (Q := fun k => unequalX k = false ∧ (strictX k = true → StepsApart E)) hx hx e true hp hc ha
    simp only [a1, ok_bind, constrainT, bind_eq_ok] at h
    obtain ⟨⟨R0, g⟩, b1, u, b2, b3⟩ := h
    injection b3 with b3
    subst b3
    exact (twin_again hx hx step np ns _ _ a3 _ _ _ b1).2.1.1
  obtain ⟨c, c', a1, a2, a3⟩ := twin_build (dbg := dbg) (Q := fun k => unequalX k = false ∧ (strictX k = true → StepsApart E)) hx hR e true hp hc ha
  simp only [a1, a2, ok_bind, constrainT, bind_eq_ok] at h ⊢
  obtain ⟨⟨R0, g⟩, b1, u, b2, b3⟩ := h
  injection b3 with b3
  subst b3
  obtain ⟨-, -, b4⟩ := twin_again hx hR step np ns _ _ a3 _ _ _ b1
  obtain ⟨-, R', b5, ⟨p1, p2, p3⟩, ⟨-, p4, p5⟩⟩ := b4 (nested_of hR (fun u hu => hu))
  exact ⟨R', ⟨(R', g), b5, u, b2, rfl⟩, by grind, by grind⟩
end

/-- the proviso of `C104_idempotent` holds for signed integers of any widths -/
theorem stepsApart_int (n : Nat) : StepsApart (wideOperands n) := fun i v p _ =>
  ⟨fun h => by have := (pred_int v p).mp h; exact decide_eq_true (show p.val < v.val by omega), fun h => by have := (succ_int v p).mp h; exact decide_eq_true (show v.val < p.val by omega)⟩

private def againAnd : MExpr (fun m : {m // m ≤ 31} => SInt m.1) :=
  .and (.cmp ⟨7, by decide⟩ (.scalar ⟨7, by decide, by decide⟩) .xLess) (.not (.cmp ⟨15, by decide⟩ (.ivl ⟨⟨2, by decide, by decide⟩, ⟨4, by decide, by decide⟩⟩) .xLess))
/-- `x < int8(7) & !(x < r)` for `r` from 2 to 4 at `[0, 9]`: `[2, 6]`, and again; the hypotheses hold -/
example : againAnd.Proper (wideOperands 31) ∧ againAnd.Conj true ∧ againAnd.All (fun _ _ k => unequalX k = false ∧ (strictX k = true → StepsApart (wideOperands 31))) true ∧
    (do constrainT (wideOperands 31) true true ⟨i32 0, i32 9⟩ (← againAnd.build (wideOperands 31) true ⟨i32 0, i32 9⟩)) = .ok ⟨i32 2, i32 6⟩ ∧
    (do constrainT (wideOperands 31) true true ⟨i32 2, i32 6⟩ (← againAnd.build (wideOperands 31) true ⟨i32 2, i32 6⟩)) = .ok ⟨i32 2, i32 6⟩ :=
  ⟨⟨⟨inferInstance, by decide, C101_casts (K := ℚ).1 (by decide)⟩, ⟨inferInstance, by decide, C101_casts (K := ℚ).1 (by decide)⟩⟩, ⟨trivial, trivial⟩,
    ⟨⟨rfl, fun _ => stepsApart_int 31⟩, ⟨rfl, fun _ => stepsApart_int 31⟩⟩, by decide, by decide⟩

/-- operands of the value type of the interval, a floating-point type: nothing is converted or stepped -/
def sameFloat : OperandTypes (fun _ : Unit => Fl ℚ) (Fl ℚ) := ⟨fun _ v => v, fun _ => predStep false, fun _ => succStep false⟩
private def againFloat : MExpr (fun _ : Unit => Fl ℚ) := .and (.cmp () (.scalar (.num 2)) .xLess) (.cmp () (.scalar (.num 2)) .leqX)
/-- C104: the proviso is needed.  For `interval<double>`, `x < 2. & x >= 2.` accepts `[0., 3.]` and gives `[2., 2.]`, for which it is a contract violation. -/
theorem C104_idempotent_float_fails : ∃ e : MExpr (fun _ : Unit => Fl ℚ), e.Proper sameFloat ∧ e.Conj true ∧ e.All (fun _ _ k => unequalX k = false) true ∧
    (do constrainT sameFloat true false ⟨.num 0, .num 3⟩ (← e.build sameFloat true ⟨.num 0, .num 3⟩)) = .ok ⟨.num 2, .num 2⟩ ∧
    (do constrainT sameFloat true false ⟨.num 2, .num 2⟩ (← e.build sameFloat true ⟨.num 2, .num 2⟩)) = .error .contract :=
  ⟨againFloat, ⟨⟨inferInstance, by decide, fun _ _ h => h⟩, ⟨inferInstance, by decide, fun _ _ h => h⟩⟩, ⟨trivial, trivial⟩, ⟨rfl, rfl⟩, by decide +kernel, by decide +kernel⟩
end Intervals.Props
