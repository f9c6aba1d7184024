import Verif.Props.ConstraintTree
/-!
# C105: compound conditions are tight
-/
set_option linter.unusedSectionVars false
set_option linter.unusedVariables false
namespace Intervals.Props
open Intervals Spec CppVal

section tree
variable {ι : Type} {V : ι → Type} [∀ i, CppVal (V i)] [∀ i, CppNum (V i)] {T : Type} [CppVal T] [CppNum T] [CppOrder T] [CppStep T]
variable {E : OperandTypes V T} {d dbg : Bool} {x : Ivl T}

/-- `MExpr.Conj` and `MExpr.NoPlain` of the condition object -/
def NoPlainC : MCond V → Prop
  | .plain _ => False
  | .away _ => True
  | .cmp _ _ _ _ => True
  | .conj _ l r => NoPlainC l ∧ NoPlainC r
  | .disj _ l r => NoPlainC l ∧ NoPlainC r
def ConjC : Bool → MCond V → Prop
  | _, .plain _ => False
  | p, .away s => BoolSet.contains s p = true
  | _, .cmp _ _ _ _ => True
  | true, .conj _ l r => ConjC true l ∧ ConjC true r
  | false, .disj _ l r => ConjC false l ∧ ConjC false r
  | false, .conj _ _ _ => False
  | true, .disj _ _ _ => False
def MentionsC : MCond V → Bool
  | .plain _ => false
  | .away _ => false
  | .cmp _ _ _ _ => true
  | .conj _ l r => MentionsC l || MentionsC r
  | .disj _ l r => MentionsC l || MentionsC r

theorem noPlain_isCond : ∀ {c : MCond V}, NoPlainC c → c.isCond = true
  | .away _, _ => rfl
  | .cmp _ _ _ _, _ => rfl
  | .conj _ _ _, _ => rfl
  | .disj _ _ _, _ => rfl

theorem mkNot_tight (hx : Proper x) : ∀ (c c' : MCond V), WfT E x c → NoPlainC c → MCond.mkNot dbg c = .ok c' →
    NoPlainC c' ∧ (∀ u p, u ∈ᵢ x → SatC E u p c' → SatC E u (!p) c) ∧ (∀ p, ConjC (!p) c → ConjC p c') ∧ MentionsC c' = MentionsC c
  | .away s, c', h, hn, hb => by
    have hne : s ≠ BoolSet.empty := wf_ne hx _ h
    rw [MCond.mkNot, notM_ok hne] at hb
    cases hb
    refine ⟨trivial, fun u p hu hs => ?_, fun p hs => ?_, rfl⟩
    · have : BoolSet.contains (BoolSet.notCore s) p = true := hs
      rw [contains_not] at this; exact this
    · show BoolSet.contains (BoolSet.notCore s) p = true
      rw [contains_not]; exact hs
  | .cmp s i r k, c', h, hn, hb => by
    have hne : s ≠ BoolSet.empty := wf_ne hx _ h
    rw [MCond.mkNot, notM_ok hne] at hb
    cases hb
    obtain ⟨e, ho, h1, h2⟩ := h
    refine ⟨trivial, fun u p hu hs => ?_, fun p _ => by cases p <;> trivial, rfl⟩
    obtain ⟨v, hv, hk⟩ := hs
    exact ⟨v, hv, by rw [holdsX_neg (CppOrder.le_right _ _ hu.1) (castT_nn h2 hv)] at hk; simp [← hk]⟩
  | .conj s l r, c', h, hn, hb => by
    obtain ⟨l', a1, a2, -⟩ := mkNot_wf (dbg := dbg) hx l h.2.1
    obtain ⟨r', b1, b2, -⟩ := mkNot_wf (dbg := dbg) hx r h.2.2
    have hne : s ≠ BoolSet.empty := wf_ne hx _ h
    simp [MCond.mkNot, notM_ok hne, noPlain_isCond hn.1, noPlain_isCond hn.2, a1, b1, pure, Except.pure] at hb
    subst hb
    obtain ⟨p1, p2, p3, p4⟩ := mkNot_tight hx l l' h.2.1 hn.1 a1
    obtain ⟨q1, q2, q3, q4⟩ := mkNot_tight hx r r' h.2.2 hn.2 b1
    refine ⟨⟨p1, q1⟩, fun u p hu hs => ?_, fun p hs => ?_, by simp [MentionsC, p4, q4]⟩
    · cases p
      · exact ⟨p2 u _ hu hs.1, q2 u _ hu hs.2⟩
      · exact hs.imp (p2 u _ hu) (q2 u _ hu)
    · cases p
      · exact ⟨p3 _ hs.1, q3 _ hs.2⟩
      · exact hs.elim
  | .disj s l r, c', h, hn, hb => by
    obtain ⟨l', a1, a2, -⟩ := mkNot_wf (dbg := dbg) hx l h.2.1
    obtain ⟨r', b1, b2, -⟩ := mkNot_wf (dbg := dbg) hx r h.2.2
    have hne : s ≠ BoolSet.empty := wf_ne hx _ h
    simp [MCond.mkNot, notM_ok hne, noPlain_isCond hn.1, noPlain_isCond hn.2, a1, b1, pure, Except.pure] at hb
    subst hb
    obtain ⟨p1, p2, p3, p4⟩ := mkNot_tight hx l l' h.2.1 hn.1 a1
    obtain ⟨q1, q2, q3, q4⟩ := mkNot_tight hx r r' h.2.2 hn.2 b1
    refine ⟨⟨p1, q1⟩, fun u p hu hs => ?_, fun p hs => ?_, by simp [MentionsC, p4, q4]⟩
    · cases p
      · exact hs.imp (p2 u _ hu) (q2 u _ hu)
      · exact ⟨p2 u _ hu hs.1, q2 u _ hu hs.2⟩
    · cases p
      · exact hs.elim
      · exact ⟨p3 _ hs.1, q3 _ hs.2⟩

theorem build_tight (hx : Proper x) : ∀ (e : MExpr V) (c : MCond V), e.Proper E → e.NoPlain → e.build E dbg x = .ok c →
    NoPlainC c ∧ (∀ u p, u ∈ᵢ x → SatC E u p c → e.Sat E u p) ∧ (∀ p, e.Conj p → ConjC p c) ∧ MentionsC c = e.Mentions
  | .away s, c, h, hn, hb => by cases hb; exact ⟨trivial, fun _ _ _ h => h, fun _ h => h, rfl⟩
  | .cmp i r k, c, h, hn, hb => by
    have a1 : x.assigned = true := assigned_of_proper (X := .ivl x) hx
    have := h.1
    have a2 := Intervals.assigned_of_proper h.2.1
    simp [MExpr.build, mkCmp, a1, a2, pure, Except.pure] at hb
    subst hb
    exact ⟨trivial, fun _ _ _ h => h, fun p _ => by cases p <;> trivial, rfl⟩
  | .and e f, c, h, hn, hb => by
    obtain ⟨c1, a1, -⟩ := build_wfT (dbg := dbg) hx e h.1
    obtain ⟨c2, b1, -⟩ := build_wfT (dbg := dbg) hx f h.2
    obtain ⟨p1, p2, p3, p4⟩ := build_tight hx e c1 h.1 hn.1 a1
    obtain ⟨q1, q2, q3, q4⟩ := build_tight hx f c2 h.2 hn.2 b1
    simp [MExpr.build, a1, b1, MCond.mkAnd, noPlain_isCond p1, pure, Except.pure] at hb
    subst hb
    refine ⟨⟨p1, q1⟩, fun u p hu hs => ?_, fun p hs => ?_, by simp [MentionsC, MExpr.Mentions, p4, q4]⟩
    · cases p
      · exact hs.imp (p2 u _ hu) (q2 u _ hu)
      · exact ⟨p2 u _ hu hs.1, q2 u _ hu hs.2⟩
    · cases p
      · exact hs.elim
      · exact ⟨p3 _ hs.1, q3 _ hs.2⟩
  | .or e f, c, h, hn, hb => by
    obtain ⟨c1, a1, -⟩ := build_wfT (dbg := dbg) hx e h.1
    obtain ⟨c2, b1, -⟩ := build_wfT (dbg := dbg) hx f h.2
    obtain ⟨p1, p2, p3, p4⟩ := build_tight hx e c1 h.1 hn.1 a1
    obtain ⟨q1, q2, q3, q4⟩ := build_tight hx f c2 h.2 hn.2 b1
    simp [MExpr.build, a1, b1, MCond.mkOr, noPlain_isCond p1, pure, Except.pure] at hb
    subst hb
    refine ⟨⟨p1, q1⟩, fun u p hu hs => ?_, fun p hs => ?_, by simp [MentionsC, MExpr.Mentions, p4, q4]⟩
    · cases p
      · exact ⟨p2 u _ hu hs.1, q2 u _ hu hs.2⟩
      · exact hs.imp (p2 u _ hu) (q2 u _ hu)
    · cases p
      · exact ⟨p3 _ hs.1, q3 _ hs.2⟩
      · exact hs.elim
  | .not e, c, h, hn, hb => by
    obtain ⟨c1, a1, a2, -⟩ := build_wfT (dbg := dbg) hx e h
    obtain ⟨p1, p2, p3, p4⟩ := build_tight hx e c1 h hn a1
    have hb' : MCond.mkNot dbg c1 = .ok c := by simpa [MExpr.build, a1] using hb
    obtain ⟨q1, q2, q3, q4⟩ := mkNot_tight hx c1 c a2 p1 hb'
    refine ⟨q1, fun u p hu hs => ?_, fun p hs => q3 p (p3 _ ?_), by rw [q4, p4]; rfl⟩
    · have := p2 u _ hu (q2 u p hu hs)
      cases p <;> exact this
    · cases p <;> exact hs

theorem conjC_isDisj : ∀ {c : MCond V}, ConjC true c → c.isDisj = false
  | .away _, _ => rfl
  | .cmp _ _ _ _, _ => rfl
  | .conj _ _ _, _ => rfl
theorem conjC_mentions : ∀ {c : MCond V}, ConjC true c → MentionsT c = MentionsC c
  | .away _, _ => rfl
  | .cmp _ _ _ _, _ => rfl
  | .conj _ l r, h => by simp [MentionsT, MentionsC, conjC_isDisj h.1, conjC_isDisj h.2, conjC_mentions h.1, conjC_mentions h.2]

theorem detail_tight (hx : Proper x) : ∀ (c : MCond V), WfT E x c → AllC (ExactLeaf E dbg d x) true c → ConjC true c → ∀ f : Bool,
    ((∃ u, u ∈ᵢ x ∧ SatC E u true c) → ∃ R, detailConstrainT E dbg d x c f false = .ok (R, f || MentionsC c) ∧ PartOf x R ∧ ∀ u, u ∈ᵢ R ↔ u ∈ᵢ x ∧ SatC E u true c) ∧
    ((¬ ∃ u, u ∈ᵢ x ∧ SatC E u true c) → detailConstrainT E dbg d x c f false = .error .contract)
  | .away s, hw, hg, hc, f => by
    refine ⟨fun _ => ⟨x, by simp [detailConstrainT, MentionsC], PartOf.refl hx, fun u => ⟨fun h => ⟨h, hc⟩, fun h => h.1⟩⟩, fun h => ?_⟩
    exact absurd ⟨x.lo, ⟨CppOrder.le_left _ _ hx, hx⟩, hc⟩ h
  | .cmp s i r k, hw, hg, hc, f => by
    have hg' : ExactLeaf E dbg d x i r k := hg
    have same : ∀ u, SatX (E.cv i) x r k u ↔ u ∈ᵢ x ∧ SatC E u true (.cmp s i r k) := fun u => Iff.rfl
    refine ⟨fun ⟨u, hu, hs⟩ => ?_, fun hn => ?_⟩
    · obtain ⟨R, h1, h2, h3⟩ := hg'.1 ⟨u, hu, hs⟩
      rw [(leafT hx hw f false).1 (sat_truth hx hu _ _ hw hs), h1]
      have l1 := ((h3 R.lo).mp ⟨CppOrder.le_left _ _ h2, h2⟩).1
      have l2 := ((h3 R.hi).mp ⟨h2, CppOrder.le_right _ _ h2⟩).1
      exact ⟨R, by simp [MentionsC, pure, Except.pure], ⟨h2, l1.1, l2.2⟩, h3⟩
    · have := hg'.2 hn
      cases hc : BoolSet.contains s true
      · rw [(leafT hx hw f false).2 hc]; rfl
      · rw [(leafT hx hw f false).1 hc, this]; rfl
  | .conj s l r, hw, hg, hc, f => by
    obtain ⟨a1, a2⟩ := detail_tight hx l hw.2.1 hg.1 hc.1 f
    obtain ⟨b1, b2⟩ := detail_tight hx r hw.2.2 hg.2 hc.2 (f || MentionsC l)
    by_cases hl : ∃ u, u ∈ᵢ x ∧ SatC E u true l
    swap
    · have n : ¬ ∃ u, u ∈ᵢ x ∧ SatC E u true (.conj s l r) := fun ⟨u, hu, hs⟩ => hl ⟨u, hu, hs.1⟩
      exact ⟨fun h => absurd h n, fun _ => by simp [detailConstrainT, conjC_isDisj hc.1, a2 hl]⟩
    obtain ⟨Rl, l1, l2, l3⟩ := a1 hl
    by_cases hr : ∃ u, u ∈ᵢ x ∧ SatC E u true r
    swap
    · have n : ¬ ∃ u, u ∈ᵢ x ∧ SatC E u true (.conj s l r) := fun ⟨u, hu, hs⟩ => hr ⟨u, hu, hs.2⟩
      exact ⟨fun h => absurd h n, fun _ => by simp [detailConstrainT, conjC_isDisj hc.1, conjC_isDisj hc.2, l1, b2 hr]⟩
    obtain ⟨Rr, r1, r2, r3⟩ := b1 hr
    have ts : BoolSet.contains s true = true := by
      obtain ⟨u, hu, hs⟩ := hl; obtain ⟨v, hv, ht⟩ := hr
      rw [hw.1, contains_and_true _ _ (wf_ne hx _ hw.2.1) (wf_ne hx _ hw.2.2), sat_truth hx hu _ _ hw.2.1 hs, sat_truth hx hv _ _ hw.2.2 ht]; rfl
    have n1 : NotNan Rl.lo := CppOrder.le_left _ _ l2.1
    have n1' : NotNan Rl.hi := CppOrder.le_right _ _ l2.1
    have n2 : NotNan Rr.lo := CppOrder.le_left _ _ r2.1
    have n2' : NotNan Rr.hi := CppOrder.le_right _ _ r2.1
    have c3 := cmax_or Rl.lo Rr.lo; have c4 := cmin_or Rl.hi Rr.hi
    have run : detailConstrainT E dbg d x (.conj s l r) f false =
        (do expectsDebug dbg (CppVal.ge Rl.hi Rr.lo && le Rl.lo Rr.hi); return (← Ivl.make (cmax Rl.lo Rr.lo) (cmin Rl.hi Rr.hi), f || MentionsC (.conj s l r))) := by
      simp [detailConstrainT, conjC_isDisj hc.1, conjC_isDisj hc.2, l1, r1, ts, MentionsC, Bool.or_assoc]
    rw [run]
    refine ⟨fun ⟨u, hu, hs⟩ => ?_, fun hn => ?_⟩
    · have u1 := (l3 u).mpr ⟨hu, hs.1⟩
      have u2 := (r3 u).mpr ⟨hu, hs.2⟩
      have g : le (cmax Rl.lo Rr.lo) (cmin Rl.hi Rr.hi) = true := by
        refine CppOrder.le_trans _ u _ ?_ ?_
        · rcases c3 with e | e <;> rw [e]; exacts [u1.1, u2.1]
        · rcases c4 with e | e <;> rw [e]; exacts [u1.2, u2.2]
      have g1 : le Rr.lo Rl.hi = true := CppOrder.le_trans _ _ _ u2.1 u1.2
      have g2 : le Rl.lo Rr.hi = true := CppOrder.le_trans _ _ _ u1.1 u2.2
      have mk := make_ok_of_le g
      obtain ⟨pp, pm⟩ := l2.inter r2 mk
      refine ⟨_, ?_, pp, fun w => ?_⟩
      · simp only [CppVal.ge, g1, g2, Bool.and_true, mk]
        cases dbg <;> rfl
      · rw [pm, l3, r3]
        exact ⟨fun ⟨q1, q2⟩ => ⟨q1.1, q1.2, q2.2⟩, fun ⟨q1, q2⟩ => ⟨⟨q1, q2.1⟩, q1, q2.2⟩⟩
    · have g : le (cmax Rl.lo Rr.lo) (cmin Rl.hi Rr.hi) = false := by
        rw [← Bool.not_eq_true]
        intro g
        have := ((l2.inter r2 (make_ok_of_le g)).2 (cmax Rl.lo Rr.lo)).mp ⟨cmax_notNan n1 n2, g⟩
        have w1 := (l3 _).mp this.1; have w2 := (r3 _).mp this.2
        exact hn ⟨_, w1.1, w1.2, w2.2⟩
      have mk : Ivl.make (cmax Rl.lo Rr.lo) (cmin Rl.hi Rr.hi) = .error .contract := by
        have : lt (cmin Rl.hi Rr.hi) (cmax Rl.lo Rr.lo) = true := (CppOrder.lt_iff _ _).mpr ⟨cmin_notNan n1' n2', cmax_notNan n1 n2, g⟩
        simp [Ivl.make, CppVal.gt, this, expects]
      rw [mk]
      cases dbg <;> cases (CppVal.ge Rl.hi Rr.lo && le Rl.lo Rr.hi) <;> rfl

/-- C105: for a conjunction of exact comparisons, `constrain` keeps exactly the values of `x` that satisfy the condition, and is a contract violation if there is none. -/
theorem C105_conj (hx : Proper x) (e : MExpr V) (hp : e.Proper E) (hn : e.NoPlain) (hg : e.All (ExactLeaf E dbg d x) true) (hc : e.Conj true) (hm : e.Mentions = true) :
    ∃ c, e.build E dbg x = .ok c ∧
      ((∃ u, u ∈ᵢ x ∧ e.Sat E u true) → ∃ R, constrainT E dbg d x c = .ok R ∧ Proper R ∧ ∀ u, u ∈ᵢ R ↔ u ∈ᵢ x ∧ e.Sat E u true) ∧
      ((¬ ∃ u, u ∈ᵢ x ∧ e.Sat E u true) → constrainT E dbg d x c = .error .contract) := by
  obtain ⟨c, h1, h2, h3, h4⟩ := build_wfT (dbg := dbg) hx e hp
  obtain ⟨-, p2, p3, p4⟩ := build_tight hx e c hp hn h1
  obtain ⟨q1, q2⟩ := detail_tight hx c h2 (h4 _ true hg) (p3 _ hc) false
  have same : ∀ u, (u ∈ᵢ x ∧ e.Sat E u true) ↔ (u ∈ᵢ x ∧ SatC E u true c) := fun u => ⟨fun h => ⟨h.1, h3 u true h.1 h.2⟩, fun h => ⟨h.1, p2 u true h.1 h.2⟩⟩
  simp only [same]
  refine ⟨c, h1, fun h => ?_, fun h => ?_⟩
  · obtain ⟨R, k1, k2, k3⟩ := q1 h
    refine ⟨R, constrainT_ok.mpr ?_, k2.1, k3⟩
    rw [k1, p4, hm]; rfl
  · simp [constrainT, q2 h]

/-- C105: for a satisfiable conjunction of exact comparisons the result is the smallest possible. -/
theorem C105_tight (hx : Proper x) (e : MExpr V) (hp : e.Proper E) (hn : e.NoPlain) (hg : e.All (ExactLeaf E dbg d x) true) (hc : e.Conj true) (hm : e.Mentions = true)
    (hs : ∃ u, u ∈ᵢ x ∧ e.Sat E u true) : Tight E dbg d x e := by
  obtain ⟨c, h1, h2, -⟩ := C105_conj hx e hp hn hg hc hm
  obtain ⟨R, r1, r2, r3⟩ := h2 hs
  exact ⟨c, R, h1, r1, fun u hu hs => (r3 u).mpr ⟨hu, hs⟩, (r3 _).mp ⟨CppOrder.le_left _ _ r2, r2⟩, (r3 _).mp ⟨r2, CppOrder.le_right _ _ r2⟩⟩

theorem detail_other (c : MCond V) (f o : Bool) {R : Ivl T} (h : constrainT E dbg d x c = .ok R) : detailConstrainT E dbg d x c f o = .ok (R, true) := by
  have k := constrainT_ok.mp h
  have m : MentionsT c = true := by have := flagT _ _ _ _ _ k; simpa using this.symm
  rw [detail_change c _ f o _ _ k, m]; simp

/-- C105: if `constrain` is tight for two conditions, it is for their disjunction. -/
theorem C105_or_partial (hx : Proper x) (e f : MExpr V) (he : e.Proper E) (hf : f.Proper E) (te : Tight E dbg d x e) (tf : Tight E dbg d x f) : Tight E dbg d x (.or e f) := by
  obtain ⟨c₁, R₁, h₁, r₁, s₁, l₁, u₁⟩ := te
  obtain ⟨c₂, R₂, h₂, r₂, s₂, l₂, u₂⟩ := tf
  obtain ⟨_, a1, a2, a3, -⟩ := build_wfT (dbg := dbg) hx e he
  rw [h₁] at a1; cases a1
  obtain ⟨_, b1, b2, b3, -⟩ := build_wfT (dbg := dbg) hx f hf
  rw [h₂] at b1; cases b1
  have t₁ := sat_truth hx l₁.1 _ _ a2 (a3 _ _ l₁.1 l₁.2)
  have t₂ := sat_truth hx l₂.1 _ _ b2 (b3 _ _ l₂.1 l₂.2)
  have m1 : MentionsT c₁ = true := by have := flagT _ _ _ _ _ (constrainT_ok.mp r₁); simpa using this.symm
  have ic : c₁.isCond = true := by cases c₁ <;> simp [MentionsT, MCond.isCond] at m1 ⊢
  have v₁ := s₁ _ l₁.1 l₁.2
  have v₂ := s₂ _ l₂.1 l₂.2
  have p1 : PartOf x R₁ := ⟨v₁.2, l₁.1.1, u₁.1.2⟩
  have p2 : PartOf x R₂ := ⟨v₂.2, l₂.1.1, u₂.1.2⟩
  obtain ⟨R, mk, -, hull, e1, e2⟩ := p1.hull p2
  refine ⟨.disj (BoolSet.or c₁.truth c₂.truth) c₁ c₂, R, by simp [MExpr.build, h₁, h₂, MCond.mkOr, ic, pure, Except.pure], ?_, fun u hu hs => ?_, ?_, ?_⟩
  · have ts : BoolSet.contains (BoolSet.or c₁.truth c₂.truth) true = true := by
      rw [contains_or_true _ _ (wf_ne hx _ a2) (wf_ne hx _ b2), t₁, t₂]; rfl
    simp [constrainT, detailConstrainT, detail_other c₁ false true r₁, detail_other c₂ false true r₂, ts, contains_possibly, t₁, t₂, mk]
  · rcases hs with hs | hs
    · exact hull u (Or.inl (s₁ u hu hs))
    · exact hull u (Or.inr (s₂ u hu hs))
  · rcases e1 with e | e <;> rw [e]
    · exact ⟨l₁.1, Or.inl l₁.2⟩
    · exact ⟨l₂.1, Or.inr l₂.2⟩
  · rcases e2 with e | e <;> rw [e]
    · exact ⟨u₁.1, Or.inl u₁.2⟩
    · exact ⟨u₂.1, Or.inr u₂.2⟩

/-- C105: an impossible comparison beside it in a disjunction changes nothing. -/
theorem C105_or_impossible (hx : Proper x) (e : MExpr V) (he : e.Proper E) (te : Tight E dbg d x e) (i : ι) (r : Arg (V i)) (k : XRel) (hf : (MExpr.cmp i r k).Proper E)
    (hk : equalX k = false) (hn : ¬ ∃ u, SatX (E.cv i) x r k u) : Tight E dbg d x (.or e (.cmp i r k)) ∧ Tight E dbg d x (.or (.cmp i r k) e) := by
  obtain ⟨c₁, R₁, h₁, r₁, s₁, l₁, u₁⟩ := te
  obtain ⟨_, a1, a2, a3, -⟩ := build_wfT (dbg := dbg) hx e he
  rw [h₁] at a1; cases a1
  have t₁ := sat_truth hx l₁.1 _ _ a2 (a3 _ _ l₁.1 l₁.2)
  have := hf.1
  have imp : BoolSet.contains (k.compare (E.cv i) x r) true = false := by
    rw [← possible_iff hx hf.2.1 hf.2.2 k hk] at hn; simpa using hn
  obtain ⟨c, c', b1, b2, b3, b4⟩ := C104_or_impossible (dbg := dbg) (d := d) hx e he i r k hf.2.1 hf.2.2 h₁ r₁ t₁ imp
  refine ⟨⟨c, R₁, b1, b2, fun u hu hs => ?_, ⟨l₁.1, Or.inl l₁.2⟩, ⟨u₁.1, Or.inl u₁.2⟩⟩, ⟨c', R₁, b3, b4, fun u hu hs => ?_, ⟨l₁.1, Or.inr l₁.2⟩, ⟨u₁.1, Or.inr u₁.2⟩⟩⟩
  · exact s₁ u hu (hs.resolve_right fun h => hn ⟨u, hu, h⟩)
  · exact s₁ u hu (hs.resolve_left fun h => hn ⟨u, hu, h⟩)

/-- C105: `<=` and `>=` are exact, with operands of any value type. -/
theorem C105_leq (hx : Proper x) {i : ι} [CppOrder (V i)] {r : Arg (V i)} (hr : ProperA r) (mono : MonoCast (E.cv i)) (k : XRel) (hk : k = .xLeq ∨ k = .leqX) : ExactLeaf E dbg d x i r k :=
  ⟨C101_exact hx hr mono k hk, C101_impossible hx hr mono k (by rcases hk with rfl | rfl <;> rfl)⟩

/-- `==` is exact if every value between the converted bounds of the operand is the conversion of one of its values -/
theorem exact_equal (hx : Proper x) {i : ι} [CppOrder (V i)] {r : Arg (V i)} (hr : ProperA r) (mono : MonoCast (E.cv i)) (k : XRel) (hk : equalX k = true)
    (onto : ∀ u, le (E.cv i r.lo) u = true → le u (E.cv i r.hi) = true → ∃ v, v ∈ₐ r ∧ eq u (E.cv i v) = true) : ExactLeaf E dbg d x i r k := by
  obtain ⟨h1, h2⟩ := C101_equal (pr := E.pr i) (su := E.su i) (d := d) (dbg := dbg) hx hr mono k hk
  have sat : ∀ u, SatX (E.cv i) x r k u ↔ u ∈ᵢ x ∧ le (E.cv i r.lo) u = true ∧ le u (E.cv i r.hi) = true := by
    intro u
    refine ⟨fun ⟨hu, v, hv, he⟩ => ?_, fun ⟨hu, a, b⟩ => ?_⟩
    · obtain ⟨h3, h4⟩ := mem_bounds.mp hv
      have m1 := mono _ _ h3; have m2 := mono _ _ h4
      clear mono onto h1 h2
      cases k <;> simp only [equalX, Bool.false_eq_true] at hk <;> simp only [holdsX] at he <;> exact ⟨hu, by grind, by grind⟩
    · obtain ⟨v, hv, he⟩ := onto u a b
      refine ⟨hu, v, hv, ?_⟩
      clear mono onto h1 h2
      cases k <;> simp only [equalX, Bool.false_eq_true] at hk <;> simp only [holdsX] <;> grind
  have hl := mono _ _ (proper_le hr)
  have hx' := hx
  unfold Proper at hx'
  refine ⟨fun ⟨u, hu⟩ => ?_, fun hn => h1 ?_⟩
  · obtain ⟨q1, q2, q3⟩ := (sat u).mp hu
    obtain ⟨R, r1, r2, r3⟩ := h2 ⟨CppOrder.le_trans _ _ _ q1.1 q3, CppOrder.le_trans _ _ _ q2 q1.2⟩
    exact ⟨R, r1, r2, fun w => (r3 w).trans (sat w).symm⟩
  · by_contra hc
    have g : le x.lo (E.cv i r.hi) = true ∧ le (E.cv i r.lo) x.hi = true := by clear mono onto h1 h2 sat; grind
    obtain ⟨R, r1, r2, r3⟩ := h2 g
    exact hn ⟨R.lo, (sat _).mpr ((r3 _).mp ⟨CppOrder.le_left _ _ r2, r2⟩)⟩

/-- C105: `==` is exact with a scalar, of any value type. -/
theorem C105_equal (hx : Proper x) {i : ι} [CppOrder (V i)] {v : V i} (hr : NotNan v) (mono : MonoCast (E.cv i)) (k : XRel) (hk : equalX k = true) : ExactLeaf E dbg d x i (.scalar v) k := by
  have hp : ProperA (.scalar v) := hr
  refine exact_equal hx hp mono k hk fun u h1 h2 => ⟨v, lo_mem hp, ?_⟩
  have h1 : le (E.cv i v) u = true := h1
  have h2 : le u (E.cv i v) = true := h2
  clear mono
  grind
end tree

section ints
/-- C105 for an interval of integers: `<`, `<=`, `>`, `>=` and `==` with narrower integers are exact, except `<` with the smallest value and `>` with the largest. -/
theorem C105_int {n : Nat} (dbg : Bool) (x : Ivl (SInt n)) (hx : Proper x) (m : {m // m ≤ n}) (r : Arg (SInt m.1)) (hr : ProperA r) (k : XRel) (hk : k ≠ .xNe ∧ k ≠ .neX)
    (hl : k = .xLess → r.hi.val ≠ -2^m.1) (hu : k = .lessX → r.lo.val ≠ 2^m.1 - 1) : ExactLeaf (wideOperands n) dbg true x m r k := by
  have mono : MonoCast ((wideOperands n).cv m) := C101_casts (K := ℚ).1 m.2
  cases hq : equalX k
  · refine ⟨?_, C101_impossible hx hr mono k hq⟩
    cases hst : strictX k
    · exact C101_exact hx hr mono k (by revert hk hq hst; cases k <;> simp [equalX, strictX])
    · exact C101_int_partial m.2 dbg x r hx hr k hst hl hu
  · refine exact_equal (E := wideOperands n) (i := m) hx hr mono k hq fun u h1 h2 => ?_
    have h1 : r.lo.val ≤ u.val := of_decide_eq_true h1
    have h2 : u.val ≤ r.hi.val := of_decide_eq_true h2
    exact ⟨⟨u.val, r.lo.ge.trans h1, h2.trans r.hi.le⟩, mem_bounds.mpr ⟨decide_eq_true h1, decide_eq_true h2⟩, decide_eq_true rfl⟩

/-- C105 in full: whenever some value of `x` satisfies the condition, the result is the smallest interval that contains all of them. -/
def C105_full {ι : Type} (V : ι → Type) [∀ i, CppVal (V i)] [∀ i, CppNum (V i)] (T : Type) [CppVal T] [CppNum T] [CppStep T] (E : OperandTypes V T) : Prop :=
  ∀ (dbg d : Bool) (x : Ivl T) (e : MExpr V), Proper x → e.Proper E → e.NoPlain → e.All (ExactLeaf E dbg d x) true → e.Mentions = true → (∃ u, u ∈ᵢ x ∧ e.Sat E u true) → Tight E dbg d x e

/-- the two ways in which C105 fails: `(x <= short(2) & x >= short(5)) | x >= int8(7)` is a contract violation although `8` satisfies it, and
`(x <= short(2) | x >= short(20)) & x >= int8(0)` leaves `[0, 10]` although `10` does not satisfy it (disagreements e and d) -/
theorem C105_violated : ¬ C105_full _ _ (wideOperands 31) ∧
    (letI V := fun m : {m // m ≤ 31} => SInt m.1
    letI c (m : {m // m ≤ 31}) (v : SInt m.1) (k : XRel) : MExpr V := .cmp m (.scalar v) k
    letI x : Ivl (SInt 31) := ⟨i32 0, i32 10⟩
    letI e : MExpr V := .or (.and (c ⟨15, by decide⟩ ⟨2, by decide, by decide⟩ .xLeq) (c ⟨15, by decide⟩ ⟨5, by decide, by decide⟩ .leqX)) (c ⟨7, by decide⟩ ⟨7, by decide, by decide⟩ .leqX)
    letI f : MExpr V := .and (.or (c ⟨15, by decide⟩ ⟨2, by decide, by decide⟩ .xLeq) (c ⟨15, by decide⟩ ⟨20, by decide, by decide⟩ .leqX)) (c ⟨7, by decide⟩ ⟨0, by decide, by decide⟩ .leqX)
    (do constrainT (wideOperands 31) true true x (← e.build (wideOperands 31) true x)) = .error .contract ∧ e.Sat (wideOperands 31) (i32 8) true ∧
    (do constrainT (wideOperands 31) true true x (← f.build (wideOperands 31) true x)) = .ok x ∧ ¬ f.Sat (wideOperands 31) (i32 10) true) := by
  refine ⟨fun h => ?_, by decide, Or.inr ⟨⟨7, by decide, by decide⟩, ⟨by decide, by decide⟩, by decide⟩, by decide, ?_⟩
  · obtain ⟨c, R, h1, h2, -⟩ := h true true ⟨i32 0, i32 10⟩ (.or (.and (.cmp ⟨15, by decide⟩ (.scalar ⟨2, by decide, by decide⟩) .xLeq) (.cmp ⟨15, by decide⟩ (.scalar ⟨5, by decide, by decide⟩) .leqX))
        (.cmp ⟨7, by decide⟩ (.scalar ⟨7, by decide, by decide⟩) .leqX)) (by decide)
      ⟨⟨⟨inferInstance, by decide, C101_casts (K := ℚ).1 (by decide)⟩, ⟨inferInstance, by decide, C101_casts (K := ℚ).1 (by decide)⟩⟩, ⟨inferInstance, by decide, C101_casts (K := ℚ).1 (by decide)⟩⟩
      ⟨⟨trivial, trivial⟩, trivial⟩
      ⟨⟨C105_int true _ (by decide) _ _ (by decide) _ (by decide) (by decide) (by decide), C105_int true _ (by decide) _ _ (by decide) _ (by decide) (by decide) (by decide)⟩,
        C105_int true _ (by decide) _ _ (by decide) _ (by decide) (by decide) (by decide)⟩ rfl
      ⟨i32 8, by decide, Or.inr ⟨⟨7, by decide, by decide⟩, ⟨by decide, by decide⟩, by decide⟩⟩
    have k : (do constrainT (wideOperands 31) true true ⟨i32 0, i32 10⟩ (← (MExpr.or (.and (.cmp ⟨15, by decide⟩ (.scalar ⟨2, by decide, by decide⟩) .xLeq)
        (.cmp ⟨15, by decide⟩ (.scalar ⟨5, by decide, by decide⟩) .leqX)) (.cmp ⟨7, by decide⟩ (.scalar ⟨7, by decide, by decide⟩) .leqX) : MExpr (fun m : {m // m ≤ 31} => SInt m.1)).build (wideOperands 31) true ⟨i32 0, i32 10⟩)) =
      .error .contract := by decide
    rw [h1] at k
    exact absurd (k.symm.trans h2) (by simp)
  · rintro ⟨⟨v, hv, h⟩ | ⟨v, hv, h⟩, -⟩
    · have h : (10 : Int) ≤ v.val := of_decide_eq_true h
      have hv : v.val ≤ 2 := of_decide_eq_true (mem_bounds.mp hv).2
      omega
    · have h : v.val ≤ (10 : Int) := of_decide_eq_true h
      have hv : (20 : Int) ≤ v.val := of_decide_eq_true (mem_bounds.mp hv).1
      omega

/-- `x > int8(2) & !(x >= short(8))` for `interval<int>{ 0, 10 }`: exactly `3 … 7`; with `| x == short(9)` the hull `[3, 9]` -/
example : letI V := fun m : {m // m ≤ 31} => SInt m.1
    letI x : Ivl (SInt 31) := ⟨i32 0, i32 10⟩
    letI e : MExpr V := .and (.cmp ⟨7, by decide⟩ (.scalar ⟨2, by decide, by decide⟩) .lessX) (.not (.cmp ⟨15, by decide⟩ (.scalar ⟨8, by decide, by decide⟩) .leqX))
    letI f : MExpr V := .cmp ⟨15, by decide⟩ (.scalar ⟨9, by decide, by decide⟩) .xEq
    e.NoPlain ∧ e.All (ExactLeaf (wideOperands 31) true true x) true ∧ e.Conj true ∧ e.Mentions = true ∧ Tight (wideOperands 31) true true x (.or e f) ∧
    (do constrainT (wideOperands 31) true true x (← (MExpr.or e f).build (wideOperands 31) true x)) = .ok ⟨i32 3, i32 9⟩ := by
  have he : (MExpr.and (.cmp ⟨7, by decide⟩ (.scalar ⟨2, by decide, by decide⟩) .lessX) (.not (.cmp ⟨15, by decide⟩ (.scalar ⟨8, by decide, by decide⟩) .leqX)) :
      MExpr (fun m : {m // m ≤ 31} => SInt m.1)).Proper (wideOperands 31) := ⟨⟨inferInstance, by decide, C101_casts (K := ℚ).1 (by decide)⟩, ⟨inferInstance, by decide, C101_casts (K := ℚ).1 (by decide)⟩⟩
  have hf : (MExpr.cmp ⟨15, by decide⟩ (.scalar ⟨9, by decide, by decide⟩) .xEq : MExpr (fun m : {m // m ≤ 31} => SInt m.1)).Proper (wideOperands 31) :=
    ⟨inferInstance, by decide, C101_casts (K := ℚ).1 (by decide)⟩
  have ge : (MExpr.and (.cmp ⟨7, by decide⟩ (.scalar ⟨2, by decide, by decide⟩) .lessX) (.not (.cmp ⟨15, by decide⟩ (.scalar ⟨8, by decide, by decide⟩) .leqX)) :
      MExpr (fun m : {m // m ≤ 31} => SInt m.1)).All (ExactLeaf (wideOperands 31) true true ⟨i32 0, i32 10⟩) true :=
    ⟨C105_int true _ (by decide) _ _ (by decide) _ (by decide) (by decide) (by decide), C105_int true _ (by decide) _ _ (by decide) _ (by decide) (by decide) (by decide)⟩
  refine ⟨⟨trivial, trivial⟩, ge, ⟨trivial, trivial⟩, rfl, C105_or_partial (by decide) _ _ he hf ?_ ?_, by decide⟩
  · refine C105_tight (by decide) _ he ⟨trivial, trivial⟩ ge ⟨trivial, trivial⟩ rfl ⟨i32 5, by decide, ?_, ?_⟩
    · exact ⟨⟨2, by decide, by decide⟩, ⟨by decide, by decide⟩, by decide⟩
    · exact ⟨⟨8, by decide, by decide⟩, ⟨by decide, by decide⟩, by decide⟩
  · exact C105_tight (by decide) _ hf trivial (C105_int true _ (by decide) _ _ (by decide) _ (by decide) (by decide) (by decide)) trivial rfl ⟨i32 9, by decide, ⟨9, by decide, by decide⟩, ⟨by decide, by decide⟩, by decide⟩
end ints
end Intervals.Props
