import Verif.Props.ConstraintStaleTree
import Verif.Props.SearchIsotone
/-!
# C101, C104: constraining is inclusion isotone
-/
set_option linter.unusedSectionVars false
set_option linter.unusedVariables false
namespace Intervals.Props
open Intervals Spec CppVal
section
variable {V T : Type} [CppVal V] [CppNum V] [CppOrder V] [CppVal T] [CppNum T] [CppOrder T] [CppStep T]
variable {cv : V → T} {pr su : V → Outcome V} {d dbg : Bool} {x x' : Ivl T} {r : Arg V}

/-- the bounds of `R` are within those of `R'` -/
def Nested (R R' : Ivl T) : Prop := le R.lo R.hi = true ∧ le R'.lo R.lo = true ∧ le R.hi R'.hi = true
theorem nested_incl {R R' : Ivl T} (h : Nested R R') : Proper R ∧ ∀ u, u ∈ᵢ R → u ∈ᵢ R' :=
  ⟨h.1, fun u hu => ⟨CppOrder.le_trans _ _ _ h.2.1 hu.1, CppOrder.le_trans _ _ _ hu.2 h.2.2⟩⟩
theorem nested_of (hx : Proper x) (h : ∀ u, u ∈ᵢ x → u ∈ᵢ x') : Nested x x' :=
  ⟨hx, (h x.lo ⟨CppOrder.le_left _ _ hx, hx⟩).1, (h x.hi ⟨hx, CppOrder.le_right _ _ hx⟩).2⟩

theorem ne_cases (step : d = true → LawfulStep T) {y : Ivl T} (hy : le y.lo y.hi = true) (k : XRel) (hk : k = .xNe ∨ k = .neX) :
    (d = true ∧ ne y.lo y.hi = true ∧ eq r.lo r.hi = true ∧ eq y.lo (cv r.lo) = true ∧ ∃ s, CppStep.succ y.lo = some s ∧ le s y.hi = true ∧ lt y.lo s = true ∧ bodyX cv pr su d y r k = .ok ⟨s, y.hi⟩) ∨
    (d = true ∧ ne y.lo y.hi = true ∧ eq r.lo r.hi = true ∧ eq y.lo (cv r.lo) = false ∧ eq y.hi (cv r.lo) = true ∧
      ∃ p, CppStep.pred y.hi = some p ∧ le y.lo p = true ∧ lt p y.hi = true ∧ bodyX cv pr su d y r k = .ok ⟨y.lo, p⟩) ∨
    ((d && ne y.lo y.hi && eq r.lo r.hi && (eq y.lo (cv r.lo) || eq y.hi (cv r.lo))) = false ∧ bodyX cv pr su d y r k = .ok y) := by
  have e : bodyX cv pr su d y r k = bodyX cv pr su d y r .xNe := by rcases hk with rfl | rfl <;> rfl
  rw [e]
  simp only [bodyX]
  have hlt : ne y.lo y.hi = true → lt y.lo y.hi = true := fun h => by grind
  cases d
  · exact .inr (.inr ⟨by simp, by simp [pure, Except.pure]⟩)
  cases h2 : ne y.lo y.hi
  · exact .inr (.inr ⟨by simp, by simp [pure, Except.pure]⟩)
  cases h3 : eq r.lo r.hi
  · exact .inr (.inr ⟨by simp, by simp [pure, Except.pure]⟩)
  cases h4 : eq y.lo (cv r.lo)
  · cases h5 : eq y.hi (cv r.lo)
    · exact .inr (.inr ⟨by simp, by simp [pure, Except.pure]⟩)
    · obtain ⟨p, e1, e2, e3⟩ := (step rfl).pred_of_lt _ _ (hlt h2)
      exact .inr (.inl ⟨rfl, rfl, rfl, rfl, rfl, p, e1, e2, e3, by simp [predStep, e1, make_ok_of_le e2]⟩)
  · obtain ⟨p, e1, e2, e3⟩ := (step rfl).succ_of_lt _ _ (hlt h2)
    exact .inl ⟨rfl, rfl, rfl, rfl, p, e1, e2, e3, by simp [succStep, e1, make_ok_of_le e2]⟩

theorem ne_isotone (hx : Nested x x') (mono : MonoCast cv) (step : d = true → LawfulStep T) (hr : ProperA r) (k : XRel) (hk : k = .xNe ∨ k = .neX)
    (hc : BoolSet.contains (k.compare cv x r) true = true) {R : Ivl T} (h : bodyX cv pr su d x r k = .ok R) : ∃ R', bodyX cv pr su d x' r k = .ok R' ∧ Nested R R' := by
  obtain ⟨h1, h2, h3⟩ := hx
  have h4 : le x'.lo x'.hi = true := CppOrder.le_trans _ _ _ h2 (CppOrder.le_trans _ _ _ h1 h3)
  have hl := mono _ _ (proper_le hr)
  have hl' : eq r.lo r.hi = true → le (cv r.hi) (cv r.lo) = true := fun e => mono _ _ (by have := proper_le hr; clear mono; grind)
  have hc' : ne x.lo (cv r.hi) = true ∨ ne x.hi (cv r.lo) = true := by
    rcases hk with rfl | rfl <;> simp only [XRel.compare, contains_neM, if_true, ivl_lo, ivl_hi, Bool.or_eq_true] at hc <;> grind
  clear hc mono
  -- the smaller result is part of `x`
  have gx : le R.lo R.hi = true ∧ le x.lo R.lo = true ∧ le R.hi x.hi = true := by
    rcases ne_cases (r := r) (cv := cv) (pr := pr) (su := su) step h1 k hk with ⟨-, -, -, -, s, -, g1, g2, g3⟩ | ⟨-, -, -, -, -, s, -, g1, g2, g3⟩ | ⟨-, g3⟩ <;>
      (rw [g3] at h; cases h; refine ⟨?_, ?_, ?_⟩ <;> (try dsimp only) <;> grind)
  rcases ne_cases (r := r) (cv := cv) (pr := pr) (su := su) step h4 k hk with ⟨rfl, d2, d3, d4, s, e1, e2, e3, e4⟩ | ⟨rfl, d2, d3, d4, d5, s, e1, e2, e3, e4⟩ | ⟨-, e4⟩
  · refine ⟨_, e4, gx.1, ?_, ?_⟩
    · have hlt : lt x'.lo R.lo = true := by
        rcases ne_cases (r := r) (cv := cv) (pr := pr) (su := su) step h1 k hk with ⟨-, f2, f3, f4, t, -, g1, g2, g3⟩ | ⟨-, f2, f3, f4, f5, t, -, g1, g2, g3⟩ | ⟨f2, g3⟩ <;> rw [g3] at h <;> cases h
        · dsimp only; grind
        · dsimp only; grind
        · simp only [d3, Bool.true_and, Bool.and_true] at f2; grind
      obtain ⟨t, t1, t2, -⟩ := (step rfl).succ_of_lt _ _ hlt
      rw [e1] at t1; cases t1; exact t2
    · exact CppOrder.le_trans _ _ _ gx.2.2 h3
  · refine ⟨_, e4, gx.1, ?_, ?_⟩
    · exact CppOrder.le_trans _ _ _ h2 gx.2.1
    · have hlt : lt R.hi x'.hi = true := by
        rcases ne_cases (r := r) (cv := cv) (pr := pr) (su := su) step h1 k hk with ⟨-, f2, f3, f4, t, -, g1, g2, g3⟩ | ⟨-, f2, f3, f4, f5, t, -, g1, g2, g3⟩ | ⟨f2, g3⟩ <;> rw [g3] at h <;> cases h
        · dsimp only; grind
        · dsimp only; grind
        · simp only [d3, Bool.true_and, Bool.and_true] at f2; grind
      obtain ⟨t, t1, t2, -⟩ := (step rfl).pred_of_lt _ _ hlt
      rw [e1] at t1; cases t1; exact t2
  · exact ⟨_, e4, gx.1, CppOrder.le_trans _ _ _ h2 gx.2.1, CppOrder.le_trans _ _ _ gx.2.2 h3⟩

/-- C101: constraining by a comparison is inclusion isotone: if it returns for `x`, it returns for every `x'` that contains `x`, and the result contains the one for `x`. -/
theorem C101_isotone (hx : Proper x) (hsub : ∀ u, u ∈ᵢ x → u ∈ᵢ x') (hr : ProperA r) (mono : MonoCast cv) (step : d = true → LawfulStep T)
    (np : ∀ v p, NotNan v → pr v = .ok p → NotNan p) (ns : ∀ v p, NotNan v → su v = .ok p → NotNan p) (k : XRel) {R : Ivl T} (h : constrainM cv pr su d dbg x r k = .ok R) :
    ∃ R', constrainM cv pr su d dbg x' r k = .ok R' ∧ Proper R ∧ ∀ u, u ∈ᵢ R → u ∈ᵢ R' := by
  have hn := nested_of hx hsub
  obtain ⟨h1, h2, h3⟩ := hn
  have hx' : Proper x' := CppOrder.le_trans _ _ _ h2 (CppOrder.le_trans _ _ _ h1 h3)
  have hc : BoolSet.contains (k.compare cv x r) true = true := by
    cases hc : BoolSet.contains (k.compare cv x r) true
    · rw [constrainM_impossible hx hr k hc] at h; cases h
    · rfl
  have hl := mono _ _ (proper_le hr)
  have hc' := compare_isotone h2 h3 hl h1 k true hc
  rw [constrainM_body hx hr k hc] at h
  rw [constrainM_body hx' hr k hc']
  suffices ∃ R', bodyX cv pr su d x' r k = .ok R' ∧ Nested R R' from by
    obtain ⟨R', e, n⟩ := this
    exact ⟨R', e, (nested_incl n).1, (nested_incl n).2⟩
  have n1 : ∀ p, pr r.hi = .ok p → NotNan (cv p) := fun p e => mono _ _ (np _ p (CppOrder.le_right _ _ (proper_le hr)) e)
  have n2 : ∀ p, su r.lo = .ok p → NotNan (cv p) := fun p e => mono _ _ (ns _ p (CppOrder.le_left _ _ (proper_le hr)) e)
  cases k
  case xNe => exact ne_isotone ⟨h1, h2, h3⟩ mono step hr _ (.inl rfl) hc h
  case neX => exact ne_isotone ⟨h1, h2, h3⟩ mono step hr _ (.inr rfl) hc h
  all_goals clear mono hsub hc hc' np ns step
  · simp only [bodyX, bind_eq_ok] at h
    obtain ⟨p, e, h⟩ := h
    have n := n1 p e
    obtain ⟨q, rfl⟩ := make_eq_ok.mp h
    simp only [bodyX, e, ok_bind]
    simp only [CppVal.gt, NotNan] at q n
    have g : le x.lo (cmin x.hi (cv p)) = true := by unfold cmin at q ⊢; grind
    have g' : le x'.lo (cmin x'.hi (cv p)) = true := by unfold cmin at q ⊢; grind
    exact ⟨_, make_ok_of_le g', g, h2, by dsimp only [cmin]; grind⟩
  · simp only [bodyX, bind_eq_ok] at h
    obtain ⟨p, e, h⟩ := h
    have n := n2 p e
    obtain ⟨q, rfl⟩ := make_eq_ok.mp h
    simp only [bodyX, e, ok_bind]
    simp only [CppVal.gt, NotNan] at q n
    have g : le (cmax (cv p) x.lo) x.hi = true := by unfold cmax at q ⊢; grind
    have g' : le (cmax (cv p) x'.lo) x'.hi = true := by unfold cmax at q ⊢; grind
    exact ⟨_, make_ok_of_le g', g, by dsimp only [cmax]; grind, h3⟩
  · obtain ⟨q, rfl⟩ := make_eq_ok.mp h
    simp only [CppVal.gt] at q
    have g : le x.lo (cmin x.hi (cv r.hi)) = true := by unfold cmin at q ⊢; grind
    have g' : le x'.lo (cmin x'.hi (cv r.hi)) = true := by unfold cmin at q ⊢; grind
    exact ⟨_, make_ok_of_le g', g, h2, by dsimp only [cmin]; grind⟩
  · obtain ⟨q, rfl⟩ := make_eq_ok.mp h
    simp only [CppVal.gt] at q
    have g : le (cmax (cv r.lo) x.lo) x.hi = true := by unfold cmax at q ⊢; grind
    have g' : le (cmax (cv r.lo) x'.lo) x'.hi = true := by unfold cmax at q ⊢; grind
    exact ⟨_, make_ok_of_le g', g, by dsimp only [cmax]; grind, h3⟩
  · obtain ⟨q, rfl⟩ := make_eq_ok.mp h
    simp only [CppVal.gt] at q
    have g : le (cmax x.lo (cv r.lo)) (cmin x.hi (cv r.hi)) = true := by unfold cmax cmin at q ⊢; grind
    have g' : le (cmax x'.lo (cv r.lo)) (cmin x'.hi (cv r.hi)) = true := by unfold cmax cmin at q ⊢; grind
    exact ⟨_, make_ok_of_le g', g, by dsimp only [cmax]; grind, by dsimp only [cmin]; grind⟩
  · obtain ⟨q, rfl⟩ := make_eq_ok.mp h
    simp only [CppVal.gt] at q
    have g : le (cmax (cv r.lo) x.lo) (cmin (cv r.hi) x.hi) = true := by unfold cmax cmin at q ⊢; grind
    have g' : le (cmax (cv r.lo) x'.lo) (cmin (cv r.hi) x'.hi) = true := by unfold cmax cmin at q ⊢; grind
    exact ⟨_, make_ok_of_le g', g, by dsimp only [cmax]; grind, by dsimp only [cmin]; grind⟩
end

section
variable {ι : Type} {V : ι → Type} [∀ i, CppVal (V i)] [∀ i, CppNum (V i)] {T : Type} [CppVal T] [CppNum T] [CppOrder T] [CppStep T]
variable {E : OperandTypes V T} {d dbg : Bool} {x x' : Ivl T}

theorem twin_isotone (hx : Proper x) (hsub : ∀ u, u ∈ᵢ x → u ∈ᵢ x') (step : d = true → LawfulStep T)
    (np : ∀ i v p, NotNan v → E.pr i v = .ok p → NotNan p) (ns : ∀ i v p, NotNan v → E.su i v = .ok p → NotNan p) :
    ∀ (c c' : MCond V), Twin E (fun _ => True) x x' true c c' → ∀ (f g : Bool) (R : Ivl T), detailConstrainT E dbg d x c f false = .ok (R, g) →
      BoolSet.contains c.truth true = true ∧ BoolSet.contains c'.truth true = true ∧ ∃ R', detailConstrainT E dbg d x' c' f false = .ok (R', g) ∧ Nested R R'
  | .cmp s₀ i r k, .cmp s j r' k', h, f, g, R, hq => by
    obtain ⟨h1, h2, h3⟩ := nested_of hx hsub
    have hx' : Proper x' := CppOrder.le_trans _ _ _ h2 (CppOrder.le_trans _ _ _ h1 h3)
    obtain ⟨e0, e, e1, ho, hr, mono, -⟩ := h
    cases e; subst e0; subst e1
    have hc : BoolSet.contains (k.compare (E.cv i) x r) true = true := by
      cases hc : BoolSet.contains (k.compare (E.cv i) x r) true
      · simp [detailConstrainT, hc] at hq
      · rfl
    have hc' := compare_isotone h2 h3 (mono _ _ (proper_le hr)) h1 k true hc
    refine ⟨hc, hc', ?_⟩
    simp only [detailConstrainT, hc, if_true] at hq
    rw [← (constrainM_eq hx hr k hc).1] at hq
    simp only [bind_eq_ok, pure, Except.pure] at hq
    obtain ⟨R0, a1, a2⟩ := hq
    cases a2
    obtain ⟨R', b1, b2, b3⟩ := C101_isotone hx hsub hr mono step (np i) (ns i) k a1
    refine ⟨R', ?_, nested_of b2 b3⟩
    simp only [detailConstrainT, hc', if_true]
    rw [← (constrainM_eq hx' hr k hc').1, b1]
    rfl
  | .away s₀, .away s, h, f, g, R, hq => by
    obtain ⟨rfl, _, h⟩ := h
    simp only [detailConstrainT] at hq ⊢
    cases hq
    exact ⟨h, h, x', rfl, nested_of hx hsub⟩
  | .conj s₀ l₀ r₀, .conj s l r, h, f, g, R, hq => by
    obtain ⟨h1, h2, h3⟩ := nested_of hx hsub
    have hx' : Proper x' := CppOrder.le_trans _ _ _ h2 (CppOrder.le_trans _ _ _ h1 h3)
    obtain ⟨e0, e, hl, hr⟩ := h
    have nl := twin_ne hx hx' _ _ _ hl; have nr := twin_ne hx hx' _ _ _ hr
    have dl : l₀.isDisj = false ∧ l.isDisj = false := by cases l₀ <;> cases l <;> first | exact ⟨rfl, rfl⟩ | exact hl.elim
    have dr : r₀.isDisj = false ∧ r.isDisj = false := by cases r₀ <;> cases r <;> first | exact ⟨rfl, rfl⟩ | exact hr.elim
    simp only [detailConstrainT, dl.1, dr.1, Bool.false_eq_true, if_false, bind_eq_ok] at hq
    obtain ⟨⟨xl, f1⟩, g1, ⟨xr, f2⟩, g2, hq⟩ := hq
    dsimp only at g1 g2 hq
    obtain ⟨a1, a2, xl', a3, a4⟩ := twin_isotone hx hsub step np ns _ _ hl _ _ _ g1
    obtain ⟨b1, b2, xr', b3, b4⟩ := twin_isotone hx hsub step np ns _ _ hr _ _ _ g2
    have c1 : BoolSet.contains s₀ true = true := by rw [e0, contains_and_true _ _ nl.1 nr.1, a1, b1]; rfl
    have c2 : BoolSet.contains s true = true := by rw [e, contains_and_true _ _ nl.2.1 nr.2.1, a2, b2]; rfl
    refine ⟨c1, c2, ?_⟩
    simp only [c1, if_true, bind_eq_ok, pure, Except.pure] at hq
    obtain ⟨-, hd, R0, m, hq⟩ := hq
    cases hq
    obtain ⟨q, rfl⟩ := make_eq_ok.mp m
    obtain ⟨a5, a6, a7⟩ := a4
    obtain ⟨b5, b6, b7⟩ := b4
    simp only [CppVal.gt] at q
    clear np ns step hsub
    have k1 : le (cmax xl.lo xr.lo) (cmin xl.hi xr.hi) = true := by unfold cmax cmin at q ⊢; grind
    have k2 : le (cmax xl'.lo xr'.lo) (cmin xl'.hi xr'.hi) = true := by unfold cmax cmin at k1 ⊢; grind
    have k3 : (ge xl'.hi xr'.lo && le xl'.lo xr'.hi) = true := by unfold cmax cmin at k2; grind [CppVal.ge]
    refine ⟨⟨cmax xl'.lo xr'.lo, cmin xl'.hi xr'.hi⟩, ?_, k1, by unfold cmax; dsimp only; grind, by unfold cmin; dsimp only; grind⟩
    have k4 := Bool.and_eq_true_iff.mp k3
    simp [detailConstrainT, dl.2, dr.2, a3, b3, c2, k4.1, k4.2, make_ok_of_le k2, expectsDebug, pure, Except.pure]

/-- C104: constraining by a conjunction of comparisons, of any depth, is inclusion isotone: if the condition can be formed and used for `x`, it can for every `x'` that contains `x`, and the
result contains the one for `x`. -/
theorem C104_isotone (hx : Proper x) (hsub : ∀ u, u ∈ᵢ x → u ∈ᵢ x') (step : d = true → LawfulStep T)
    (np : ∀ i v p, NotNan v → E.pr i v = .ok p → NotNan p) (ns : ∀ i v p, NotNan v → E.su i v = .ok p → NotNan p)
    (e : MExpr V) (hp : e.Proper E) (hc : e.Conj true) {R : Ivl T} (h : (do constrainT E dbg d x (← e.build E dbg x)) = .ok R) :
    ∃ R', (do constrainT E dbg d x' (← e.build E dbg x')) = .ok R' ∧ ∀ u, u ∈ᵢ R → u ∈ᵢ R' := by
  obtain ⟨h1, h2, h3⟩ := nested_of hx hsub
  have hx' : Proper x' := CppOrder.le_trans _ _ _ h2 (CppOrder.le_trans _ _ _ h1 h3)
  have hall : ∀ (e : MExpr V) (p : Bool), e.All (fun _ _ _ => True) p := by
    intro e
    induction e with
    | plain s => intro p; trivial
    | away s => intro p; trivial
    | cmp i r k => intro p; trivial
    | and e f a b => intro p; exact ⟨a p, b p⟩
    | or e f a b => intro p; exact ⟨a p, b p⟩
    | not e a => intro p; exact a (!p)
  obtain ⟨c, c', a1, a2, a3⟩ := twin_build (dbg := dbg) (Q := fun _ => True) hx hx' e true hp hc (hall e true)
  simp only [a1, a2, ok_bind, constrainT, bind_eq_ok] at h ⊢
  obtain ⟨⟨R0, g⟩, b1, u, b2, b3⟩ := h
  injection b3 with b3
  subst b3
  obtain ⟨-, -, R', b4, b5⟩ := twin_isotone hx hsub step np ns _ _ a3 _ _ _ b1
  exact ⟨R', ⟨(R', g), b4, u, b2, rfl⟩, (nested_incl b5).2⟩

end

/-- `x != int8(2)` at `[2, 5]` within `[2, 9]`: `[3, 5]` within `[3, 9]`; hypotheses and result -/
example : constrainM (V := SInt 7) (T := SInt 31) (widenV (show 7 ≤ 31 by decide)) (predStep true) (succStep true) true true ⟨i32 2, i32 5⟩ (.scalar ⟨2, by decide, by decide⟩) .xNe = .ok ⟨i32 3, i32 5⟩ ∧
    constrainM (V := SInt 7) (T := SInt 31) (widenV (show 7 ≤ 31 by decide)) (predStep true) (succStep true) true true ⟨i32 2, i32 9⟩ (.scalar ⟨2, by decide, by decide⟩) .xNe = .ok ⟨i32 3, i32 9⟩ := by decide

private def isoEx : MExpr (fun m : {m // m ≤ 31} => SInt m.1) :=
  .and (.cmp ⟨7, by decide⟩ (.scalar ⟨2, by decide, by decide⟩) .lessX) (.not (.cmp ⟨15, by decide⟩ (.scalar ⟨8, by decide, by decide⟩) .eqX))
/-- `x > int8(2) & !(x == short(8))` at `[1, 8]` within `[1, 9]`: `[3, 7]` within `[3, 9]`; the hypotheses hold -/
example : isoEx.Proper (wideOperands 31) ∧ isoEx.Conj true ∧ (∀ i v p, NotNan v → (wideOperands 31).pr i v = .ok p → NotNan p) ∧
    (do constrainT (wideOperands 31) true true ⟨i32 1, i32 8⟩ (← isoEx.build (wideOperands 31) true ⟨i32 1, i32 8⟩)) = .ok ⟨i32 3, i32 7⟩ ∧
    (do constrainT (wideOperands 31) true true ⟨i32 1, i32 9⟩ (← isoEx.build (wideOperands 31) true ⟨i32 1, i32 9⟩)) = .ok ⟨i32 3, i32 9⟩ :=
  ⟨⟨⟨inferInstance, by decide, C101_casts (K := ℚ).1 (by decide)⟩, ⟨inferInstance, by decide, C101_casts (K := ℚ).1 (by decide)⟩⟩, ⟨trivial, trivial⟩,
    fun i v p _ _ => decide_eq_true (Int.le_refl _), by decide, by decide⟩

private def isoOr : MExpr (fun m : {m // m ≤ 31} => SInt m.1) :=
  .or (.cmp ⟨7, by decide⟩ (.scalar ⟨2, by decide, by decide⟩) .xLeq) (.away (BoolSet.single true))
private def isoAndOr : MExpr (fun m : {m // m ≤ 31} => SInt m.1) :=
  .and (.or (.cmp ⟨7, by decide⟩ (.scalar ⟨8, by decide, by decide⟩) .leqX) (.cmp ⟨7, by decide⟩ (.scalar ⟨9, by decide, by decide⟩) .leqX)) (.cmp ⟨7, by decide⟩ (.scalar ⟨1, by decide, by decide⟩) .xLeq)
/-- C104: with disjunctions it is not inclusion isotone.  `x <= 2 | y >= 0`, where `y` is another variable of which `y >= 0` is certain, keeps all of `[5, 9]` but only `[0, 2]` of `[0, 9]`;
`(x >= 8 | x >= 9) & x <= 1` keeps all of `[0, 2]` but only `[0, 1]` of `[0, 9]`. -/
theorem C104_isotone_fails : ∃ e₁ e₂ : MExpr (fun m : {m // m ≤ 31} => SInt m.1), e₁.Proper (wideOperands 31) ∧ e₂.Proper (wideOperands 31) ∧
    (do constrainT (wideOperands 31) true true ⟨i32 5, i32 9⟩ (← e₁.build (wideOperands 31) true ⟨i32 5, i32 9⟩)) = .ok ⟨i32 5, i32 9⟩ ∧
    (do constrainT (wideOperands 31) true true ⟨i32 0, i32 9⟩ (← e₁.build (wideOperands 31) true ⟨i32 0, i32 9⟩)) = .ok ⟨i32 0, i32 2⟩ ∧
    (do constrainT (wideOperands 31) true true ⟨i32 0, i32 2⟩ (← e₂.build (wideOperands 31) true ⟨i32 0, i32 2⟩)) = .ok ⟨i32 0, i32 2⟩ ∧
    (do constrainT (wideOperands 31) true true ⟨i32 0, i32 9⟩ (← e₂.build (wideOperands 31) true ⟨i32 0, i32 9⟩)) = .ok ⟨i32 0, i32 1⟩ :=
  ⟨isoOr, isoAndOr, ⟨⟨inferInstance, by decide, C101_casts (K := ℚ).1 (by decide)⟩, by unfold MExpr.Proper; decide⟩,
    ⟨⟨⟨inferInstance, by decide, C101_casts (K := ℚ).1 (by decide)⟩, ⟨inferInstance, by decide, C101_casts (K := ℚ).1 (by decide)⟩⟩, ⟨inferInstance, by decide, C101_casts (K := ℚ).1 (by decide)⟩⟩,
    by decide, by decide, by decide, by decide⟩
end Intervals.Props
