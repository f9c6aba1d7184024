import Verif.Props.ConstraintIsotone
/-!
# C104: disjunctions of conjunctions are inclusion isotone
-/
set_option linter.unusedSectionVars false
set_option linter.unusedVariables false
namespace Intervals.Props
open Intervals Spec CppVal
section
variable {ι : Type} {V : ι → Type} [∀ i, CppVal (V i)] [∀ i, CppNum (V i)] {T : Type} [CppVal T] [CppNum T] [CppOrder T] [CppStep T]
variable {E : OperandTypes V T} {d dbg : Bool} {x x' : Ivl T}

/-- the condition (`p`) or its negation (`¬ p`) is a disjunction of conjunctions each of which mentions `x` -/
def DisjOfConj : Bool → MExpr V → Prop
  | _, .plain _ => False
  | _, .away _ => False
  | _, .cmp _ _ _ => True
  | true, .or e f => DisjOfConj true e ∧ DisjOfConj true f
  | false, .and e f => DisjOfConj false e ∧ DisjOfConj false f
  | true, .and e f => (e.Conj true ∧ f.Conj true) ∧ (e.Mentions || f.Mentions) = true
  | false, .or e f => (e.Conj false ∧ f.Conj false) ∧ (e.Mentions || f.Mentions) = true
  | p, .not e => DisjOfConj (!p) e

private def ment : MCond V → Bool
  | .plain _ => false
  | .away _ => false
  | .cmp _ _ _ _ => true
  | .conj _ l r => ment l || ment r
  | .disj _ l r => ment l || ment r

private inductive DTwin (E : OperandTypes V T) (x x' : Ivl T) : Bool → MCond V → MCond V → Prop
  | leaf {p c c'} : Twin E (fun _ => True) x x' p c c' → ment c = true → ment c' = true → DTwin E x x' p c c'
  | or {l r l' r'} : DTwin E x x' true l l' → DTwin E x x' true r r' → DTwin E x x' true (.disj (BoolSet.or l.truth r.truth) l r) (.disj (BoolSet.or l'.truth r'.truth) l' r')
  | and {l r l' r'} : DTwin E x x' false l l' → DTwin E x x' false r r' → DTwin E x x' false (.conj (BoolSet.and l.truth r.truth) l r) (.conj (BoolSet.and l'.truth r'.truth) l' r')

private theorem dtwin_ne (hx : Proper x) (hx' : Proper x') {p : Bool} {c c' : MCond V} (h : DTwin E x x' p c c') :
    c.truth ≠ BoolSet.empty ∧ c'.truth ≠ BoolSet.empty ∧ c.isCond = true ∧ c'.isCond = true := by
  induction h with
  | leaf h => exact twin_ne hx hx' _ _ _ h
  | or _ _ a b => exact ⟨or_ne a.1 b.1, or_ne a.2.1 b.2.1, rfl, rfl⟩
  | and _ _ a b => exact ⟨and_ne a.1 b.1, and_ne a.2.1 b.2.1, rfl, rfl⟩

private def noPlain : MCond V → Bool
  | .plain _ => false
  | .away _ => true
  | .cmp _ _ _ _ => true
  | .conj _ l r => noPlain l && noPlain r
  | .disj _ l r => noPlain l && noPlain r

private theorem noPlain_cond : ∀ {c : MCond V}, noPlain c = true → c.isCond = true
  | .plain _, h => by simp [noPlain] at h
  | .away _, _ => rfl
  | .cmp _ _ _ _, _ => rfl
  | .conj _ _ _, _ => rfl
  | .disj _ _ _, _ => rfl

private theorem twin_noPlain : ∀ (p : Bool) (c c' : MCond V), Twin E (fun _ => True) x x' p c c' → noPlain c = true ∧ noPlain c' = true
  | p, .cmp .., .cmp .., h => ⟨rfl, rfl⟩
  | p, .away _, .away _, h => ⟨rfl, rfl⟩
  | true, .conj s₀ l₀ r₀, .conj s l r, h => by
    have a := twin_noPlain _ _ _ h.2.2.1; have b := twin_noPlain _ _ _ h.2.2.2
    simp [noPlain, a, b]
  | false, .disj s₀ l₀ r₀, .disj s l r, h => by
    have a := twin_noPlain _ _ _ h.2.2.1; have b := twin_noPlain _ _ _ h.2.2.2
    simp [noPlain, a, b]

private theorem ment_not : ∀ (c c' : MCond V), noPlain c = true → MCond.mkNot dbg c = .ok c' → ment c' = ment c
  | .plain s, c', hc, h => by simp [noPlain] at hc
  | .away s, c', hc, h => by
    simp only [MCond.mkNot, bind_eq_ok, pure, Except.pure] at h; obtain ⟨_, -, h⟩ := h; cases h; rfl
  | .cmp s i r k, c', hc, h => by
    simp only [MCond.mkNot, bind_eq_ok, pure, Except.pure] at h; obtain ⟨_, -, h⟩ := h; cases h; rfl
  | .conj s l r, c', hc, h => by
    simp only [noPlain, Bool.and_eq_true] at hc
    simp only [MCond.mkNot, bind_eq_ok, pure, Except.pure, noPlain_cond hc.1, noPlain_cond hc.2, Bool.and_self, if_true] at h
    obtain ⟨_, -, l', a, r', b, h⟩ := h
    cases h
    simp only [ment, ment_not l l' hc.1 a, ment_not r r' hc.2 b]
  | .disj s l r, c', hc, h => by
    simp only [noPlain, Bool.and_eq_true] at hc
    simp only [MCond.mkNot, bind_eq_ok, pure, Except.pure, noPlain_cond hc.1, noPlain_cond hc.2, Bool.and_self, if_true] at h
    obtain ⟨_, -, l', a, r', b, h⟩ := h
    cases h
    simp only [ment, ment_not l l' hc.1 a, ment_not r r' hc.2 b]

private theorem dtwin_not (hx : Proper x) (hx' : Proper x') {p : Bool} {c c' : MCond V} (h : DTwin E x x' p c c') :
    ∃ n n', MCond.mkNot dbg c = .ok n ∧ MCond.mkNot dbg c' = .ok n' ∧ DTwin E x x' (!p) n n' ∧ n.truth = BoolSet.notCore c.truth ∧ n'.truth = BoolSet.notCore c'.truth := by
  induction h with
  | leaf h m m' =>
    obtain ⟨n, n', a, b, t, e, e'⟩ := twin_not (dbg := dbg) hx hx' _ _ _ h
    have np := twin_noPlain _ _ _ h
    exact ⟨n, n', a, b, .leaf t ((ment_not _ _ np.1 a).trans m) ((ment_not _ _ np.2 b).trans m'), e, e'⟩
  | @or l r l' r' hl hr a b =>
    have nl := dtwin_ne hx hx' hl; have nr := dtwin_ne hx hx' hr
    obtain ⟨l1, l1', a1, a2, a3, a4, a5⟩ := a
    obtain ⟨r1, r1', b1, b2, b3, b4, b5⟩ := b
    refine ⟨.conj (BoolSet.notCore (BoolSet.or l.truth r.truth)) l1 r1, .conj (BoolSet.notCore (BoolSet.or l'.truth r'.truth)) l1' r1', ?_, ?_, ?_, rfl, rfl⟩
    · simp [MCond.mkNot, notM_ok (or_ne nl.1 nr.1), nl.2.2.1, nr.2.2.1, a1, b1, pure, Except.pure]
    · simp [MCond.mkNot, notM_ok (or_ne nl.2.1 nr.2.1), nl.2.2.2, nr.2.2.2, a2, b2, pure, Except.pure]
    · have := DTwin.and a3 b3
      rwa [a4, b4, a5, b5, ← not_or _ _ nl.1 nr.1, ← not_or _ _ nl.2.1 nr.2.1] at this
  | @and l r l' r' hl hr a b =>
    have nl := dtwin_ne hx hx' hl; have nr := dtwin_ne hx hx' hr
    obtain ⟨l1, l1', a1, a2, a3, a4, a5⟩ := a
    obtain ⟨r1, r1', b1, b2, b3, b4, b5⟩ := b
    refine ⟨.disj (BoolSet.notCore (BoolSet.and l.truth r.truth)) l1 r1, .disj (BoolSet.notCore (BoolSet.and l'.truth r'.truth)) l1' r1', ?_, ?_, ?_, rfl, rfl⟩
    · simp [MCond.mkNot, notM_ok (and_ne nl.1 nr.1), nl.2.2.1, nr.2.2.1, a1, b1, pure, Except.pure]
    · simp [MCond.mkNot, notM_ok (and_ne nl.2.1 nr.2.1), nl.2.2.2, nr.2.2.2, a2, b2, pure, Except.pure]
    · have := DTwin.or a3 b3
      rwa [a4, b4, a5, b5, ← not_and _ _ nl.1 nr.1, ← not_and _ _ nl.2.1 nr.2.1] at this

private theorem conj_build (hx : Proper x) (hx' : Proper x') (e : MExpr V) (p : Bool) (hp : e.Proper E) (hc : e.Conj p) :
    ∃ c c', e.build E dbg x = .ok c ∧ e.build E dbg x' = .ok c' ∧ Twin E (fun _ => True) x x' p c c' ∧ ment c = e.Mentions ∧ ment c' = e.Mentions := by
  have key : ∀ (e : MExpr V) (p : Bool), e.Proper E → e.Conj p → ∃ c c', e.build E dbg x = .ok c ∧ e.build E dbg x' = .ok c' ∧ Twin E (fun _ => True) x x' p c c' ∧ ment c = e.Mentions ∧ ment c' = e.Mentions := by
    intro e
    induction e with
    | plain s => intro p hp hc; cases p <;> exact hc.elim
    | away s =>
      intro p hp hc
      obtain ⟨c, c', a, b, t⟩ := twin_build (dbg := dbg) (Q := fun _ => True) hx hx' (.away s) p hp hc (by cases p <;> trivial)
      simp only [MExpr.build] at a b; cases a; cases b
      exact ⟨_, _, rfl, rfl, t, rfl, rfl⟩
    | cmp i r k =>
      intro p hp hc
      obtain ⟨c, c', a, b, t⟩ := twin_build (dbg := dbg) (Q := fun _ => True) hx hx' (.cmp i r k) p hp hc (by cases p <;> trivial)
      refine ⟨c, c', a, b, t, ?_, ?_⟩
      · simp only [MExpr.build, mkCmp, bind_eq_ok, pure, Except.pure] at a; obtain ⟨_, -, a⟩ := a; cases a; rfl
      · simp only [MExpr.build, mkCmp, bind_eq_ok, pure, Except.pure] at b; obtain ⟨_, -, a⟩ := b; cases a; rfl
    | and e f ih1 ih2 =>
      intro p hp hc
      cases p
      · exact hc.elim
      obtain ⟨c, c', a1, a2, a3, a4, a5⟩ := ih1 true hp.1 hc.1
      obtain ⟨q, q', b1, b2, b3, b4, b5⟩ := ih2 true hp.2 hc.2
      have n := twin_ne hx hx' _ _ _ a3
      refine ⟨MCond.mkAnd c q, MCond.mkAnd c' q', by simp [MExpr.build, a1, b1, pure, Except.pure], by simp [MExpr.build, a2, b2, pure, Except.pure], ?_⟩
      simp only [MCond.mkAnd, n.2.2.1, n.2.2.2, Bool.true_or, if_true, ment, a4, a5, b4, b5]
      exact ⟨⟨rfl, rfl, a3, b3⟩, rfl, rfl⟩
    | or e f ih1 ih2 =>
      intro p hp hc
      cases p
      case true => exact hc.elim
      obtain ⟨c, c', a1, a2, a3, a4, a5⟩ := ih1 false hp.1 hc.1
      obtain ⟨q, q', b1, b2, b3, b4, b5⟩ := ih2 false hp.2 hc.2
      have n := twin_ne hx hx' _ _ _ a3
      refine ⟨MCond.mkOr c q, MCond.mkOr c' q', by simp [MExpr.build, a1, b1, pure, Except.pure], by simp [MExpr.build, a2, b2, pure, Except.pure], ?_⟩
      simp only [MCond.mkOr, n.2.2.1, n.2.2.2, Bool.true_or, if_true, ment, a4, a5, b4, b5]
      exact ⟨⟨rfl, rfl, a3, b3⟩, rfl, rfl⟩
    | not e ih =>
      intro p hp hc
      obtain ⟨c, c', a1, a2, a3, a4, a5⟩ := ih (!p) hp (by cases p <;> exact hc)
      obtain ⟨n, n', b1, b2, b3, -⟩ := twin_not (dbg := dbg) hx hx' _ _ _ a3
      have np := twin_noPlain _ _ _ a3
      exact ⟨n, n', by simp [MExpr.build, a1, b1], by simp [MExpr.build, a2, b2], by simpa using b3, (ment_not _ _ np.1 b1).trans a4, (ment_not _ _ np.2 b2).trans a5⟩
  exact key e p hp hc

private theorem dtwin_build (hx : Proper x) (hx' : Proper x') (e : MExpr V) : ∀ p : Bool, e.Proper E → DisjOfConj p e →
    ∃ c c', e.build E dbg x = .ok c ∧ e.build E dbg x' = .ok c' ∧ DTwin E x x' p c c' := by
  induction e with
  | plain s => intro p hp hc; cases p <;> exact hc.elim
  | away s => intro p hp hc; cases p <;> exact hc.elim
  | cmp i r k =>
    intro p hp hc
    obtain ⟨c, c', a, b, t, m, m'⟩ := conj_build (dbg := dbg) hx hx' (.cmp i r k) p hp (by cases p <;> trivial)
    exact ⟨c, c', a, b, .leaf t m m'⟩
  | and e f ih1 ih2 =>
    intro p hp hc
    cases p
    · obtain ⟨c, c', a1, a2, a3⟩ := ih1 false hp.1 hc.1
      obtain ⟨q, q', b1, b2, b3⟩ := ih2 false hp.2 hc.2
      have n := dtwin_ne hx hx' a3
      refine ⟨MCond.mkAnd c q, MCond.mkAnd c' q', by simp [MExpr.build, a1, b1, pure, Except.pure], by simp [MExpr.build, a2, b2, pure, Except.pure], ?_⟩
      simp only [MCond.mkAnd, n.2.2.1, n.2.2.2, Bool.true_or, if_true]
      exact .and a3 b3
    · obtain ⟨c, c', a, b, t, m, m'⟩ := conj_build (dbg := dbg) hx hx' (.and e f) true hp hc.1
      exact ⟨c, c', a, b, .leaf t (m.trans hc.2) (m'.trans hc.2)⟩
  | or e f ih1 ih2 =>
    intro p hp hc
    cases p
    · obtain ⟨c, c', a, b, t, m, m'⟩ := conj_build (dbg := dbg) hx hx' (.or e f) false hp hc.1
      exact ⟨c, c', a, b, .leaf t (m.trans hc.2) (m'.trans hc.2)⟩
    · obtain ⟨c, c', a1, a2, a3⟩ := ih1 true hp.1 hc.1
      obtain ⟨q, q', b1, b2, b3⟩ := ih2 true hp.2 hc.2
      have n := dtwin_ne hx hx' a3
      refine ⟨MCond.mkOr c q, MCond.mkOr c' q', by simp [MExpr.build, a1, b1, pure, Except.pure], by simp [MExpr.build, a2, b2, pure, Except.pure], ?_⟩
      simp only [MCond.mkOr, n.2.2.1, n.2.2.2, Bool.true_or, if_true]
      exact .or a3 b3
  | not e ih =>
    intro p hp hc
    obtain ⟨c, c', a1, a2, a3⟩ := ih (!p) hp (by cases p <;> exact hc)
    obtain ⟨n, n', b1, b2, b3, -⟩ := dtwin_not (dbg := dbg) hx hx' a3
    exact ⟨n, n', by simp [MExpr.build, a1, b1], by simp [MExpr.build, a2, b2], by simpa using b3⟩

private def CJ : MCond V → Prop
  | .plain _ => False
  | .away _ => True
  | .cmp _ _ _ _ => True
  | .conj s l r => s = BoolSet.and l.truth r.truth ∧ l.truth ≠ BoolSet.empty ∧ r.truth ≠ BoolSet.empty ∧ CJ l ∧ CJ r
  | .disj _ _ _ => False

private theorem twin_cj (hx : Proper x) (hx' : Proper x') : ∀ (c c' : MCond V), Twin E (fun _ => True) x x' true c c' → CJ c ∧ CJ c'
  | .cmp .., .cmp .., h => ⟨trivial, trivial⟩
  | .away _, .away _, h => ⟨trivial, trivial⟩
  | .conj s₀ l₀ r₀, .conj s l r, h => by
    obtain ⟨e0, e, hl, hr⟩ := h
    have a := twin_cj hx hx' _ _ hl; have b := twin_cj hx hx' _ _ hr
    have nl := twin_ne hx hx' _ _ _ hl; have nr := twin_ne hx hx' _ _ _ hr
    exact ⟨⟨e0, nl.1, nr.1, a.1, b.1⟩, ⟨e, nl.2.1, nr.2.1, a.2, b.2⟩⟩

private theorem cj_disj : ∀ {c : MCond V}, CJ c → c.isDisj = false
  | .plain _, h => rfl
  | .away _, h => rfl
  | .cmp .., h => rfl
  | .conj .., h => rfl
  | .disj .., h => h.elim

private theorem cj_flag (y : Ivl T) : ∀ (c : MCond V), CJ c → ∀ (f o : Bool) (R : Ivl T) (g : Bool), detailConstrainT E dbg d y c f o = .ok (R, g) → g = (f || ment c)
  | .plain _, h, _, _, _, _, _ => h.elim
  | .away _, h, f, o, R, g, hq => by simp only [detailConstrainT] at hq; cases hq; simp [ment]
  | .cmp s i r k, h, f, o, R, g, hq => by
    simp only [detailConstrainT] at hq
    split at hq <;> simp only [bind_eq_ok, pure, Except.pure] at hq <;> obtain ⟨_, -, hq⟩ := hq <;> cases hq <;> simp [ment]
  | .conj s l r, h, f, o, R, g, hq => by
    obtain ⟨-, -, -, hl, hr⟩ := h
    simp only [detailConstrainT, cj_disj hl, cj_disj hr, Bool.false_eq_true, if_false, bind_eq_ok] at hq
    obtain ⟨⟨xl, f1⟩, g1, ⟨xr, f2⟩, g2, hq⟩ := hq
    have a := cj_flag y l hl _ _ _ _ g1
    have b := cj_flag y r hr _ _ _ _ g2
    dsimp only at a b hq
    have : g = f2 := by
      split at hq
      · simp only [bind_eq_ok, pure, Except.pure] at hq
        obtain ⟨_, -, _, -, hq⟩ := hq; cases hq; rfl
      · cases hq; rfl
    rw [this, b, a]; simp [ment, Bool.or_assoc]
  | .disj .., h, _, _, _, _, _ => h.elim

private theorem cj_opt (y : Ivl T) : ∀ (c : MCond V), CJ c → BoolSet.contains c.truth true = true → ∀ f o : Bool, detailConstrainT E dbg d y c f o = detailConstrainT E dbg d y c f false
  | .plain _, h, _, _, _ => h.elim
  | .away _, h, _, f, o => rfl
  | .cmp s i r k, h, ht, f, o => by
    simp only [MCond.truth] at ht
    simp only [detailConstrainT, ht, if_true]
  | .conj s l r, h, ht, f, o => by
    obtain ⟨e, nl, nr, hl, hr⟩ := h
    simp only [MCond.truth] at ht
    rw [e, contains_and_true _ _ nl nr, Bool.and_eq_true] at ht
    simp only [detailConstrainT, cj_disj hl, cj_disj hr, Bool.false_eq_true, if_false]
    rw [cj_opt y l hl ht.1 f o]
    congr 1
    funext q
    rw [cj_opt y r hr ht.2 q.2 o]
  | .disj .., h, _, _, _ => h.elim

private theorem twin_self : ∀ (p : Bool) (c c' : MCond V), Twin E (fun _ => True) x x' p c c' → Twin E (fun _ => True) x' x' p c' c'
  | p, .cmp s₀ i r k, .cmp s j r' k', h => by
    obtain ⟨e0, e, e1, ho, hr, mono, q⟩ := h
    cases e
    exact ⟨e1, rfl, e1, ho, hr, mono, q⟩
  | p, .away _, .away _, h => by obtain ⟨rfl, h⟩ := h; exact ⟨rfl, h⟩
  | true, .conj s₀ l₀ r₀, .conj s l r, h => by
    obtain ⟨e0, e, hl, hr⟩ := h
    exact ⟨e, e, twin_self _ _ _ hl, twin_self _ _ _ hr⟩
  | false, .disj s₀ l₀ r₀, .disj s l r, h => by
    obtain ⟨e0, e, hl, hr⟩ := h
    exact ⟨e, e, twin_self _ _ _ hl, twin_self _ _ _ hr⟩

private theorem dtwin_isotone (hx : Proper x) (hsub : ∀ u, u ∈ᵢ x → u ∈ᵢ x') (step : d = true → LawfulStep T)
    (np : ∀ i v p, NotNan v → E.pr i v = .ok p → NotNan p) (ns : ∀ i v p, NotNan v → E.su i v = .ok p → NotNan p) {p : Bool} {c c' : MCond V} (h : DTwin E x x' p c c') :
    p = true → ∀ (o o' : Bool) (R R' : Ivl T) (g g' : Bool), detailConstrainT E dbg d x c false o = .ok (R, g) → detailConstrainT E dbg d x' c' false o' = .ok (R', g') →
      g = true ∧ g' = true ∧ (o = false → BoolSet.contains c.truth true = true) ∧ (BoolSet.contains c.truth true = true → BoolSet.contains c'.truth true = true ∧ Nested R R') ∧
        (BoolSet.contains c'.truth true = true → le R'.lo R'.hi = true) := by
  have hx' : Proper x' := by
    obtain ⟨h1, h2, h3⟩ := nested_of hx hsub
    exact CppOrder.le_trans _ _ _ h2 (CppOrder.le_trans _ _ _ h1 h3)
  induction h with
  | @leaf p c c' h m m' =>
    rintro rfl o o' R R' g g' hq hq'
    have cj := twin_cj hx hx' _ _ h
    refine ⟨by rw [cj_flag x c cj.1 _ _ _ _ hq, m]; rfl, by rw [cj_flag x' c' cj.2 _ _ _ _ hq', m']; rfl, ?_, ?_, ?_⟩
    · rintro rfl
      exact (twin_isotone hx hsub step np ns _ _ h _ _ _ hq).1
    · intro ht
      rw [cj_opt x c cj.1 ht] at hq
      obtain ⟨-, a, R1, b, n⟩ := twin_isotone hx hsub step np ns _ _ h _ _ _ hq
      rw [cj_opt x' c' cj.2 a, b] at hq'
      cases hq'
      exact ⟨a, n⟩
    · intro ht
      rw [cj_opt x' c' cj.2 ht] at hq'
      obtain ⟨-, -, _, -, n⟩ := twin_isotone hx' (fun _ h => h) step np ns _ _ (twin_self _ _ _ h) _ _ _ hq'
      exact n.1
  | @or l r l' r' hl hr a b =>
    intro _ o o' R R' g g' hq hq'
    have nl := dtwin_ne hx hx' hl; have nr := dtwin_ne hx hx' hr
    simp only [detailConstrainT, bind_eq_ok] at hq hq'
    obtain ⟨⟨xl, f1⟩, g1, ⟨xr, f2⟩, g2, _, ho, hq⟩ := hq
    obtain ⟨⟨xl', f1'⟩, g1', ⟨xr', f2'⟩, g2', _, ho', hq'⟩ := hq'
    obtain ⟨rfl, rfl, -, al, al'⟩ := a rfl _ _ _ _ _ _ g1 g1'
    obtain ⟨rfl, rfl, -, ar, ar'⟩ := b rfl _ _ _ _ _ _ g2 g2'
    simp only [Bool.true_and, Bool.or_true, BoolSet.possibly] at hq hq' ho
    show g = true ∧ g' = true ∧ (o = false → BoolSet.contains (BoolSet.or l.truth r.truth) true = true) ∧ (BoolSet.contains (BoolSet.or l.truth r.truth) true = true →
      BoolSet.contains (BoolSet.or l'.truth r'.truth) true = true ∧ Nested R R') ∧ (BoolSet.contains (BoolSet.or l'.truth r'.truth) true = true → le R'.lo R'.hi = true)
    have g1 : g = true := by
      split at hq
      · simp only [bind_eq_ok, pure, Except.pure] at hq; obtain ⟨_, -, hq⟩ := hq; cases hq; rfl
      · split at hq
        · cases hq; rfl
        · split at hq <;> cases hq <;> rfl
    have g1' : g' = true := by
      split at hq'
      · simp only [bind_eq_ok, pure, Except.pure] at hq'; obtain ⟨_, -, hq'⟩ := hq'; cases hq'; rfl
      · split at hq'
        · cases hq'; rfl
        · split at hq' <;> cases hq' <;> rfl
    refine ⟨g1, g1', ?_, ?_, ?_⟩
    · rintro rfl
      simpa [expects] using ho
    · rw [contains_or_true _ _ nl.1 nr.1, contains_or_true _ _ nl.2.1 nr.2.1]
      intro ht
      clear np ns step hsub a b ho ho'
      cases tl : BoolSet.contains l.truth true <;> cases tr : BoolSet.contains r.truth true
      · rw [tl, tr] at ht; cases ht
      · obtain ⟨tr', n1, n2, n3⟩ := ar tr
        simp only [tl, tr, Bool.false_and, Bool.false_eq_true, if_false, if_true, pure, Except.pure] at hq
        cases hq
        refine ⟨by rw [tr']; simp, ?_⟩
        cases tl' : BoolSet.contains l'.truth true
        · simp only [tl', tr', Bool.false_and, Bool.false_eq_true, if_false, if_true, pure, Except.pure] at hq'
          cases hq'
          exact ⟨n1, n2, n3⟩
        · have pl := al' tl'
          have pr := ar' tr'
          simp only [tl', tr', Bool.and_self, if_true, bind_eq_ok, pure, Except.pure] at hq'
          obtain ⟨_, m, hq'⟩ := hq'
          cases hq'
          obtain ⟨q, rfl⟩ := make_eq_ok.mp m
          clear m al ar al' ar' nl nr
          unfold Nested; unfold cmin cmax at *; dsimp only at *
          grind
      · obtain ⟨tl', n1, n2, n3⟩ := al tl
        simp only [tl, tr, Bool.and_false, Bool.false_eq_true, if_false, if_true, pure, Except.pure] at hq
        cases hq
        refine ⟨by rw [tl']; simp, ?_⟩
        cases tr' : BoolSet.contains r'.truth true
        · simp only [tl', tr', Bool.and_false, Bool.false_eq_true, if_false, if_true, pure, Except.pure] at hq'
          cases hq'
          exact ⟨n1, n2, n3⟩
        · have pl := al' tl'
          have pr := ar' tr'
          simp only [tl', tr', Bool.and_self, if_true, bind_eq_ok, pure, Except.pure] at hq'
          obtain ⟨_, m, hq'⟩ := hq'
          cases hq'
          obtain ⟨q, rfl⟩ := make_eq_ok.mp m
          clear m al ar al' ar' nl nr
          unfold Nested; unfold cmin cmax at *; dsimp only at *
          grind
      · obtain ⟨tl', n1, n2, n3⟩ := al tl
        obtain ⟨tr', n4, n5, n6⟩ := ar tr
        refine ⟨by rw [tl']; simp, ?_⟩
        simp only [tl, tr, Bool.and_self, if_true, bind_eq_ok, pure, Except.pure] at hq
        simp only [tl', tr', Bool.and_self, if_true, bind_eq_ok, pure, Except.pure] at hq'
        obtain ⟨_, m, hq⟩ := hq
        cases hq
        obtain ⟨_, m', hq'⟩ := hq'
        cases hq'
        obtain ⟨q, rfl⟩ := make_eq_ok.mp m
        obtain ⟨q', rfl⟩ := make_eq_ok.mp m'
        clear m al ar al' ar' nl nr
        unfold Nested; unfold cmin cmax at *; dsimp only at *
        grind
    · rw [contains_or_true _ _ nl.2.1 nr.2.1]
      intro ht
      cases tl' : BoolSet.contains l'.truth true <;> cases tr' : BoolSet.contains r'.truth true
      · rw [tl', tr'] at ht; cases ht
      · simp only [tl', tr', Bool.false_and, Bool.false_eq_true, if_false, if_true, pure, Except.pure] at hq'
        cases hq'
        exact ar' tr'
      · simp only [tl', tr', Bool.and_false, Bool.false_eq_true, if_false, if_true, pure, Except.pure] at hq'
        cases hq'
        exact al' tl'
      · have pl := al' tl'
        have pr := ar' tr'
        simp only [tl', tr', Bool.and_self, if_true, bind_eq_ok, pure, Except.pure] at hq'
        obtain ⟨_, m', hq'⟩ := hq'
        cases hq'
        obtain ⟨q', rfl⟩ := make_eq_ok.mp m'
        clear np ns step hsub a b m' al ar al' ar' nl nr hq
        unfold cmin cmax at *; dsimp only at *
        grind [CppVal.gt]
  | and => intro h; cases h

/-- C104: for a disjunction of conjunctions of comparisons each of which mentions `x`, constraining is inclusion isotone wherever it succeeds
(`C104_isotone_or_fails`: for a larger interval it need not). -/
theorem C104_isotone_or (hx : Proper x) (hsub : ∀ u, u ∈ᵢ x → u ∈ᵢ x') (step : d = true → LawfulStep T)
    (np : ∀ i v p, NotNan v → E.pr i v = .ok p → NotNan p) (ns : ∀ i v p, NotNan v → E.su i v = .ok p → NotNan p)
    (e : MExpr V) (hp : e.Proper E) (hc : DisjOfConj true e) {R R' : Ivl T} (h : (do constrainT E dbg d x (← e.build E dbg x)) = .ok R)
    (h' : (do constrainT E dbg d x' (← e.build E dbg x')) = .ok R') : ∀ u, u ∈ᵢ R → u ∈ᵢ R' := by
  have hx' : Proper x' := by
    obtain ⟨h1, h2, h3⟩ := nested_of hx hsub
    exact CppOrder.le_trans _ _ _ h2 (CppOrder.le_trans _ _ _ h1 h3)
  obtain ⟨c, c', a1, a2, a3⟩ := dtwin_build (dbg := dbg) hx hx' e true hp hc
  simp only [a1, a2, ok_bind, constrainT, bind_eq_ok] at h h'
  obtain ⟨⟨R0, g⟩, b1, _, b2, b3⟩ := h
  obtain ⟨⟨R0', g'⟩, b1', _, b2', b3'⟩ := h'
  injection b3 with b3
  injection b3' with b3'
  subst b3 b3'
  obtain ⟨-, -, k, k', -⟩ := dtwin_isotone hx hsub step np ns a3 rfl _ _ _ _ _ _ b1 b1'
  exact (nested_incl (k' (k rfl)).2).2
end

private def dcEx : MExpr (fun m : {m // m ≤ 31} => SInt m.1) :=
  .or (.cmp ⟨7, by decide⟩ (.scalar ⟨2, by decide, by decide⟩) .xLeq) (.not (.or (.cmp ⟨15, by decide⟩ (.scalar ⟨5, by decide, by decide⟩) .xLess) (.cmp ⟨7, by decide⟩ (.scalar ⟨8, by decide, by decide⟩) .eqX)))
/-- `x <= int8(2) | !(x < short(5) | x == int8(8))` at `[4, 8]` within `[1, 8]`: `[5, 7]` within `[1, 7]`; the hypotheses hold -/
example : dcEx.Proper (wideOperands 31) ∧ DisjOfConj true dcEx ∧
    (do constrainT (wideOperands 31) true true ⟨i32 4, i32 8⟩ (← dcEx.build (wideOperands 31) true ⟨i32 4, i32 8⟩)) = .ok ⟨i32 5, i32 7⟩ ∧
    (do constrainT (wideOperands 31) true true ⟨i32 1, i32 8⟩ (← dcEx.build (wideOperands 31) true ⟨i32 1, i32 8⟩)) = .ok ⟨i32 1, i32 7⟩ :=
  ⟨⟨⟨inferInstance, by decide, C101_casts (K := ℚ).1 (by decide)⟩, ⟨⟨inferInstance, by decide, C101_casts (K := ℚ).1 (by decide)⟩, ⟨inferInstance, by decide, C101_casts (K := ℚ).1 (by decide)⟩⟩⟩,
    ⟨trivial, ⟨trivial, trivial⟩, rfl⟩, by decide, by decide⟩

private def dcFail : MExpr (fun m : {m // m ≤ 31} => SInt m.1) :=
  .or (.cmp ⟨7, by decide⟩ (.scalar ⟨7, by decide, by decide⟩) .leqX)
    (.and (.cmp ⟨7, by decide⟩ (.scalar ⟨1, by decide, by decide⟩) .leqX) (.cmp ⟨7, by decide⟩ (.scalar ⟨0, by decide, by decide⟩) .xLeq))
/-- C104: `x >= 7 | (x >= 1 & x <= 0)` constrains `[5, 9]` to `[7, 9]`, and is a contract violation for `[0, 9]`, although `x >= 7` can be satisfied there too. -/
theorem C104_isotone_or_fails : ∃ e : MExpr (fun m : {m // m ≤ 31} => SInt m.1), e.Proper (wideOperands 31) ∧ DisjOfConj true e ∧
    (do constrainT (wideOperands 31) true true ⟨i32 5, i32 9⟩ (← e.build (wideOperands 31) true ⟨i32 5, i32 9⟩)) = .ok ⟨i32 7, i32 9⟩ ∧
    (do constrainT (wideOperands 31) true true ⟨i32 0, i32 9⟩ (← e.build (wideOperands 31) true ⟨i32 0, i32 9⟩)) = .error .contract :=
  ⟨dcFail, ⟨⟨inferInstance, by decide, C101_casts (K := ℚ).1 (by decide)⟩, ⟨⟨inferInstance, by decide, C101_casts (K := ℚ).1 (by decide)⟩, ⟨inferInstance, by decide, C101_casts (K := ℚ).1 (by decide)⟩⟩⟩,
    ⟨trivial, ⟨trivial, trivial⟩, rfl⟩, by decide, by decide⟩
end Intervals.Props
