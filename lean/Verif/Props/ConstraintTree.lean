import Verif.Spec.ConstraintTree
import Verif.Props.ConstraintConvert
/-!
# C104: compound conditions over operands of several value types
-/
set_option linter.unusedSectionVars false
set_option linter.unusedVariables false
namespace Intervals.Props
open Intervals Spec CppVal

section leaf
variable {V T : Type} [CppVal V] [CppNum V] [CppOrder V] [CppVal T] [CppNum T] [CppOrder T] [CppStep T]
variable {cv : V → T} {pr su : V → Outcome V} {d dbg : Bool} {x : Ivl T} {r : Arg V}

theorem compare_not (hx : Proper x) (hr : ProperA r) (mono : MonoCast cv) (k : XRel) :
    BoolSet.notCore (k.compare cv x r) = k.neg.compare cv x r ∧ k.compare cv x r ≠ BoolSet.empty := by
  have hl := mono _ _ (proper_le hr)
  unfold Proper at hx
  have ext : ∀ a b : BoolSet, (∀ v, BoolSet.contains a v = BoolSet.contains b v) → a = b := by decide
  have ne : ∀ a : BoolSet, (BoolSet.contains a true = true ∨ BoolSet.contains a false = true) → a ≠ BoolSet.empty := by decide
  clear mono
  refine ⟨ext _ _ fun v => ?_, ne _ ?_⟩
  · rw [contains_not]
    cases k <;> cases v <;> simp only [XRel.neg, XRel.compare, contains_ltM, contains_leM, contains_eqM, contains_neM, if_true, ivl_lo, ivl_hi, CppVal.ge, CppVal.gt,
      Bool.not_true, Bool.not_false, Bool.false_eq_true, if_false]
  · cases k <;> simp only [XRel.compare, contains_ltM, contains_leM, contains_eqM, contains_neM, if_true, ivl_lo, ivl_hi, CppVal.ge, CppVal.gt, Bool.false_eq_true, if_false,
      Bool.or_eq_true, Bool.and_eq_true] <;> grind

theorem holdsX_neg {u w : T} (hu : NotNan u) (hw : NotNan w) (k : XRel) : holdsX k.neg u w = !holdsX k u w := by
  unfold NotNan at hu hw
  cases k <;> simp only [XRel.neg, holdsX, CppVal.ne, Bool.not_not] <;> grind
end leaf

section tree
variable {ι : Type} {V : ι → Type} [∀ i, CppVal (V i)] [∀ i, CppNum (V i)] {T : Type} [CppVal T] [CppNum T] [CppOrder T] [CppStep T]
variable {E : OperandTypes V T} {d dbg : Bool} {x : Ivl T}

/-- the truth sets are those of the operators on `x`, and the operands are proper -/
def WfT (E : OperandTypes V T) (x : Ivl T) : MCond V → Prop
  | .plain s => s ≠ BoolSet.empty
  | .away s => s ≠ BoolSet.empty
  | .cmp s i r k => s = k.compare (E.cv i) x r ∧ CppOrder (V i) ∧ ProperA r ∧ MonoCast (E.cv i)
  | .conj s l r => s = BoolSet.and l.truth r.truth ∧ WfT E x l ∧ WfT E x r
  | .disj s l r => s = BoolSet.or l.truth r.truth ∧ WfT E x l ∧ WfT E x r
/-- `MExpr.Sat` of the condition object -/
def SatC (E : OperandTypes V T) (u : T) : Bool → MCond V → Prop
  | p, .plain s => BoolSet.contains s p = true
  | p, .away s => BoolSet.contains s p = true
  | p, .cmp _ i r k => ∃ v, v ∈ₐ r ∧ holdsX k u (E.cv i v) = p
  | true, .conj _ l r => SatC E u true l ∧ SatC E u true r
  | false, .conj _ l r => SatC E u false l ∨ SatC E u false r
  | true, .disj _ l r => SatC E u true l ∨ SatC E u true r
  | false, .disj _ l r => SatC E u false l ∧ SatC E u false r
def AllC (P : ∀ i, Arg (V i) → XRel → Prop) : Bool → MCond V → Prop
  | _, .plain _ => True
  | _, .away _ => True
  | p, .cmp _ i r k => P i r (if p then k else k.neg)
  | p, .conj _ l r => AllC P p l ∧ AllC P p r
  | p, .disj _ l r => AllC P p l ∧ AllC P p r

theorem and_ne {a b : BoolSet} (ha : a ≠ BoolSet.empty) (hb : b ≠ BoolSet.empty) : BoolSet.and a b ≠ BoolSet.empty := by revert a b; decide
theorem or_ne {a b : BoolSet} (ha : a ≠ BoolSet.empty) (hb : b ≠ BoolSet.empty) : BoolSet.or a b ≠ BoolSet.empty := by revert a b; decide
theorem not_ne {a : BoolSet} (ha : a ≠ BoolSet.empty) : BoolSet.notCore a ≠ BoolSet.empty := by revert a; decide
theorem not_and (a b : BoolSet) (ha : a ≠ BoolSet.empty) (hb : b ≠ BoolSet.empty) : BoolSet.notCore (BoolSet.and a b) = BoolSet.or (BoolSet.notCore a) (BoolSet.notCore b) := by
  revert a b; decide
theorem not_or (a b : BoolSet) (ha : a ≠ BoolSet.empty) (hb : b ≠ BoolSet.empty) : BoolSet.notCore (BoolSet.or a b) = BoolSet.and (BoolSet.notCore a) (BoolSet.notCore b) := by
  revert a b; decide

theorem wf_ne (hx : Proper x) : ∀ c : MCond V, WfT E x c → c.truth ≠ BoolSet.empty
  | .plain _, h => h
  | .away _, h => h
  | .cmp _ _ _ k, h => by obtain ⟨e, _, h1, h2⟩ := h; rw [MCond.truth, e]; exact (compare_not hx h1 h2 k).2
  | .conj _ l r, h => by rw [MCond.truth, h.1]; exact and_ne (wf_ne hx l h.2.1) (wf_ne hx r h.2.2)
  | .disj _ l r, h => by rw [MCond.truth, h.1]; exact or_ne (wf_ne hx l h.2.1) (wf_ne hx r h.2.2)

theorem castT_nn {i : ι} [CppOrder (V i)] {r : Arg (V i)} (mono : MonoCast (E.cv i)) {v : V i} (hv : v ∈ₐ r) : NotNan (E.cv i v) := by
  obtain ⟨h3, h4⟩ := mem_bounds.mp hv
  exact mono _ _ (CppOrder.le_right _ _ h3)

/-- the truth set contains every truth value that the condition can have -/
theorem sat_truth (hx : Proper x) {u : T} (hu : u ∈ᵢ x) : ∀ (c : MCond V) (p : Bool), WfT E x c → SatC E u p c → BoolSet.contains c.truth p = true
  | .plain _, p, _, h => h
  | .away _, p, _, h => h
  | .cmp _ i r k, p, h, hs => by
    obtain ⟨e, _, h1, h2⟩ := h
    obtain ⟨v, hv, hk⟩ := hs
    rw [MCond.truth, e]
    cases p
    · have := possible_x (cv := E.cv i) hx h2 k.neg ⟨hu, v, hv, by rw [holdsX_neg (CppOrder.le_right _ _ hu.1) (castT_nn h2 hv), hk]; rfl⟩
      rw [← (compare_not hx h1 h2 k).1, contains_not] at this
      exact this
    · exact possible_x hx h2 k ⟨hu, v, hv, hk⟩
  | .conj _ l r, p, h, hs => by
    have nl := wf_ne hx l h.2.1; have nr := wf_ne hx r h.2.2
    rw [MCond.truth, h.1]
    cases p
    · rw [contains_and_false _ _ nl nr]
      rcases hs with hs | hs
      · rw [sat_truth hx hu l _ h.2.1 hs]; rfl
      · rw [sat_truth hx hu r _ h.2.2 hs]; simp
    · rw [contains_and_true _ _ nl nr, sat_truth hx hu l _ h.2.1 hs.1, sat_truth hx hu r _ h.2.2 hs.2]; rfl
  | .disj _ l r, p, h, hs => by
    have nl := wf_ne hx l h.2.1; have nr := wf_ne hx r h.2.2
    rw [MCond.truth, h.1]
    cases p
    · rw [contains_or_false _ _ nl nr, sat_truth hx hu l _ h.2.1 hs.1, sat_truth hx hu r _ h.2.2 hs.2]; rfl
    · rw [contains_or_true _ _ nl nr]
      rcases hs with hs | hs
      · rw [sat_truth hx hu l _ h.2.1 hs]; rfl
      · rw [sat_truth hx hu r _ h.2.2 hs]; simp

theorem neg_neg (k : XRel) : k.neg.neg = k := by cases k <;> rfl

theorem mkNot_wf (hx : Proper x) : ∀ c : MCond V, WfT E x c → ∃ c', MCond.mkNot dbg c = .ok c' ∧ WfT E x c' ∧ c'.truth = BoolSet.notCore c.truth ∧
    (∀ u p, u ∈ᵢ x → SatC E u (!p) c → SatC E u p c') ∧ (∀ (P : ∀ i, Arg (V i) → XRel → Prop) p, AllC P (!p) c → AllC P p c')
  | .plain s, h => ⟨.plain (BoolSet.notCore s), by simp [MCond.mkNot, notM_ok h, pure, Except.pure], not_ne h, rfl, fun u p hu hs => by
      show BoolSet.contains _ _ = true; rw [contains_not]; exact hs, fun _ _ _ => trivial⟩
  | .away s, h => ⟨.away (BoolSet.notCore s), by simp [MCond.mkNot, notM_ok h, pure, Except.pure], not_ne h, rfl, fun u p hu hs => by
      show BoolSet.contains _ _ = true; rw [contains_not]; exact hs, fun _ _ _ => trivial⟩
  | .cmp s i r k, h => by
    have hne : s ≠ BoolSet.empty := wf_ne hx _ h
    obtain ⟨e, ho, h1, h2⟩ := h
    refine ⟨.cmp (BoolSet.notCore s) i r k.neg, by simp [MCond.mkNot, notM_ok hne, pure, Except.pure], ⟨?_, ho, h1, h2⟩, rfl, fun u p hu hs => ?_, fun P p hg => ?_⟩
    · rw [e]; exact (compare_not hx h1 h2 k).1
    · obtain ⟨v, hv, hk⟩ := hs
      exact ⟨v, hv, by rw [holdsX_neg (CppOrder.le_right _ _ hu.1) (castT_nn h2 hv), hk]; simp⟩
    · cases p
      · simpa only [AllC, Bool.not_false, if_true, Bool.false_eq_true, if_false, neg_neg] using hg
      · simpa only [AllC, Bool.not_true, if_true, Bool.false_eq_true, if_false] using hg
  | .conj s l r, h => by
    have hne : s ≠ BoolSet.empty := wf_ne hx _ h
    have nl := wf_ne hx l h.2.1; have nr := wf_ne hx r h.2.2
    obtain ⟨l', a1, a2, a3, a4, a5⟩ := mkNot_wf hx l h.2.1
    obtain ⟨r', b1, b2, b3, b4, b5⟩ := mkNot_wf hx r h.2.2
    cases hc : l.isCond && r.isCond
    · refine ⟨.plain (BoolSet.notCore s), by simp [MCond.mkNot, notM_ok hne, hc, pure, Except.pure], not_ne hne, rfl, fun u p hu hs => ?_, fun _ _ _ => trivial⟩
      show BoolSet.contains _ _ = true
      rw [contains_not]; exact sat_truth hx hu _ _ h hs
    · refine ⟨.disj (BoolSet.notCore s) l' r', by simp [MCond.mkNot, notM_ok hne, hc, a1, b1, pure, Except.pure], ⟨?_, a2, b2⟩, rfl, fun u p hu hs => ?_, fun P p hg => ⟨a5 P p hg.1, b5 P p hg.2⟩⟩
      · rw [h.1, a3, b3, not_and _ _ nl nr]
      · cases p
        · exact ⟨a4 u false hu hs.1, b4 u false hu hs.2⟩
        · exact hs.imp (a4 u true hu) (b4 u true hu)
  | .disj s l r, h => by
    have hne : s ≠ BoolSet.empty := wf_ne hx _ h
    have nl := wf_ne hx l h.2.1; have nr := wf_ne hx r h.2.2
    obtain ⟨l', a1, a2, a3, a4, a5⟩ := mkNot_wf hx l h.2.1
    obtain ⟨r', b1, b2, b3, b4, b5⟩ := mkNot_wf hx r h.2.2
    cases hc : l.isCond && r.isCond
    · refine ⟨.plain (BoolSet.notCore s), by simp [MCond.mkNot, notM_ok hne, hc, pure, Except.pure], not_ne hne, rfl, fun u p hu hs => ?_, fun _ _ _ => trivial⟩
      show BoolSet.contains _ _ = true
      rw [contains_not]; exact sat_truth hx hu _ _ h hs
    · refine ⟨.conj (BoolSet.notCore s) l' r', by simp [MCond.mkNot, notM_ok hne, hc, a1, b1, pure, Except.pure], ⟨?_, a2, b2⟩, rfl, fun u p hu hs => ?_, fun P p hg => ⟨a5 P p hg.1, b5 P p hg.2⟩⟩
      · rw [h.1, a3, b3, not_or _ _ nl nr]
      · cases p
        · exact hs.imp (a4 u false hu) (b4 u false hu)
        · exact ⟨a4 u true hu hs.1, b4 u true hu hs.2⟩

theorem build_wfT (hx : Proper x) : ∀ e : MExpr V, e.Proper E → ∃ c, e.build E dbg x = .ok c ∧ WfT E x c ∧
    (∀ u p, u ∈ᵢ x → e.Sat E u p → SatC E u p c) ∧ (∀ (P : ∀ i, Arg (V i) → XRel → Prop) p, e.All P p → AllC P p c)
  | .plain s, h => ⟨_, rfl, h, fun _ _ _ hs => hs, fun _ _ _ => trivial⟩
  | .away s, h => ⟨_, rfl, h, fun _ _ _ hs => hs, fun _ _ _ => trivial⟩
  | .cmp i r k, h => by
    have a1 : x.assigned = true := assigned_of_proper (X := .ivl x) hx
    have := h.1
    have a2 := Intervals.assigned_of_proper h.2.1
    refine ⟨.cmp (k.compare (E.cv i) x r) i r k, by simp [MExpr.build, mkCmp, a1, a2, pure, Except.pure], ⟨rfl, h⟩, fun _ _ _ hs => hs, fun _ _ hg => hg⟩
  | .and e f, h => by
    obtain ⟨c, a1, a2, a3, a4⟩ := build_wfT hx e h.1
    obtain ⟨c', b1, b2, b3, b4⟩ := build_wfT hx f h.2
    refine ⟨MCond.mkAnd c c', by simp [MExpr.build, a1, b1, pure, Except.pure], ?_⟩
    have hw : WfT E x (.conj (BoolSet.and c.truth c'.truth) c c') := ⟨rfl, a2, b2⟩
    have hs : ∀ u p, u ∈ᵢ x → (MExpr.and e f).Sat E u p → SatC E u p (.conj (BoolSet.and c.truth c'.truth) c c') := by
      intro u p hu hs
      cases p
      · exact hs.imp (a3 u false hu) (b3 u false hu)
      · exact ⟨a3 u true hu hs.1, b3 u true hu hs.2⟩
    unfold MCond.mkAnd
    dsimp only
    split
    · exact ⟨hw, hs, fun P p hg => ⟨a4 P p hg.1, b4 P p hg.2⟩⟩
    · exact ⟨wf_ne hx _ hw, fun u p hu h' => sat_truth hx hu _ _ hw (hs u p hu h'), fun _ _ _ => trivial⟩
  | .or e f, h => by
    obtain ⟨c, a1, a2, a3, a4⟩ := build_wfT hx e h.1
    obtain ⟨c', b1, b2, b3, b4⟩ := build_wfT hx f h.2
    refine ⟨MCond.mkOr c c', by simp [MExpr.build, a1, b1, pure, Except.pure], ?_⟩
    have hw : WfT E x (.disj (BoolSet.or c.truth c'.truth) c c') := ⟨rfl, a2, b2⟩
    have hs : ∀ u p, u ∈ᵢ x → (MExpr.or e f).Sat E u p → SatC E u p (.disj (BoolSet.or c.truth c'.truth) c c') := by
      intro u p hu hs
      cases p
      · exact ⟨a3 u false hu hs.1, b3 u false hu hs.2⟩
      · exact hs.imp (a3 u true hu) (b3 u true hu)
    unfold MCond.mkOr
    dsimp only
    split
    · exact ⟨hw, hs, fun P p hg => ⟨a4 P p hg.1, b4 P p hg.2⟩⟩
    · exact ⟨wf_ne hx _ hw, fun u p hu h' => sat_truth hx hu _ _ hw (hs u p hu h'), fun _ _ _ => trivial⟩
  | .not e, h => by
    obtain ⟨c, a1, a2, a3, a4⟩ := build_wfT hx e h
    obtain ⟨c', b1, b2, b3, b4, b5⟩ := mkNot_wf (dbg := dbg) hx c a2
    exact ⟨c', by simp [MExpr.build, a1, b1], b2, fun u p hu hs => b4 u p hu (a3 u _ hu hs), fun P p hg => b5 P p (a4 P _ hg)⟩

/-- the flag tells whether `x` was mentioned -/
theorem flagT : ∀ (c : MCond V) (f o : Bool) (R : Ivl T) (g : Bool), detailConstrainT E dbg d x c f o = .ok (R, g) → g = ((f && !c.isDisj) || MentionsT c)
  | .plain _, f, o, R, g, h => by simp [detailConstrainT] at h; simp [MCond.isDisj, MentionsT, h.2]
  | .away _, f, o, R, g, h => by simp [detailConstrainT] at h; simp [MCond.isDisj, MentionsT, h.2]
  | .cmp s i r k, f, o, R, g, h => by
    simp only [detailConstrainT] at h
    split at h <;> simp only [bind_eq_ok, pure, Except.pure, Except.ok.injEq, Prod.mk.injEq] at h
    · obtain ⟨_, -, -, rfl⟩ := h; simp [MentionsT]
    · obtain ⟨_, -, -, rfl⟩ := h; simp [MentionsT]
  | .conj s l r, f, o, R, g, h => by
    simp only [detailConstrainT, bind_eq_ok] at h
    obtain ⟨⟨xl, f1⟩, h1, ⟨xr, f2⟩, h2, h3⟩ := h
    have e1 : f1 = (f || (!l.isDisj && MentionsT l)) := by
      cases hd : l.isDisj
      · simp only [hd, Bool.false_eq_true, if_false] at h1
        have := flagT l _ _ _ _ h1; simpa [hd] using this
      · simp only [hd, if_true] at h1; cases h1; simp
    have e2 : f2 = (f1 || (!r.isDisj && MentionsT r)) := by
      cases hd : r.isDisj
      · simp only [hd, Bool.false_eq_true, if_false] at h2
        have := flagT r _ _ _ _ h2; simpa [hd] using this
      · simp only [hd, if_true] at h2; cases h2; simp
    have e3 : g = f2 := by
      split at h3
      · simp only [bind_eq_ok, pure, Except.pure, Except.ok.injEq, Prod.mk.injEq] at h3
        obtain ⟨_, -, _, -, -, rfl⟩ := h3; rfl
      · simp only [pure, Except.pure, Except.ok.injEq, Prod.mk.injEq] at h3; exact h3.2.symm
    rw [e3, e2, e1]; simp [MentionsT, MCond.isDisj, Bool.or_assoc]
  | .disj s l r, f, o, R, g, h => by
    simp only [detailConstrainT, bind_eq_ok] at h
    obtain ⟨⟨xl, f1⟩, h1, ⟨xr, f2⟩, h2, _, -, h3⟩ := h
    have e1 := flagT l _ _ _ _ h1
    have e2 := flagT r _ _ _ _ h2
    simp only [Bool.false_and, Bool.false_or] at e1 e2
    have e3 : g = (f1 || f2) := by
      split at h3
      · simp only [bind_eq_ok, pure, Except.pure, Except.ok.injEq, Prod.mk.injEq] at h3
        obtain ⟨_, -, -, rfl⟩ := h3; rfl
      · split at h3
        · simp only [pure, Except.pure, Except.ok.injEq, Prod.mk.injEq] at h3; exact h3.2.symm
        · split at h3 <;> (simp only [pure, Except.pure, Except.ok.injEq, Prod.mk.injEq] at h3; exact h3.2.symm)
    rw [e3, e1, e2]; simp [MentionsT, MCond.isDisj]

/-- `R` is a proper part of `x` -/
def PartOf (x R : Ivl T) : Prop := le R.lo R.hi = true ∧ le x.lo R.lo = true ∧ le R.hi x.hi = true
theorem PartOf.refl (hx : Proper x) : PartOf x x := ⟨hx, CppOrder.le_left _ _ hx, CppOrder.le_right _ _ hx⟩
theorem partOf_narrows {R : Ivl T} (h : PartOf x R) : Proper R ∧ ∀ u, u ∈ᵢ R → u ∈ᵢ x :=
  ⟨h.1, fun u hu => ⟨CppOrder.le_trans _ _ _ h.2.1 hu.1, CppOrder.le_trans _ _ _ hu.2 h.2.2⟩⟩
theorem PartOf.inter {a b : Ivl T} (ha : PartOf x a) (hb : PartOf x b) {R : Ivl T} (h : Ivl.make (cmax a.lo b.lo) (cmin a.hi b.hi) = .ok R) :
    PartOf x R ∧ ∀ u, u ∈ᵢ R ↔ u ∈ᵢ a ∧ u ∈ᵢ b := by
  obtain ⟨a1, a2, a3⟩ := ha; obtain ⟨b1, b2, b3⟩ := hb
  obtain ⟨h1, rfl⟩ := make_eq_ok.mp h
  have na : NotNan a.lo := CppOrder.le_left _ _ a1
  have na' : NotNan a.hi := CppOrder.le_right _ _ a1
  have nb : NotNan b.lo := CppOrder.le_left _ _ b1
  have nb' : NotNan b.hi := CppOrder.le_right _ _ b1
  have c1 := le_cmax na nb; have c2 := cmin_le na' nb'
  have c3 := cmax_or a.lo b.lo; have c4 := cmin_or a.hi b.hi
  have n1 := cmax_notNan na nb; have n2 := cmin_notNan na' nb'
  unfold NotNan at *
  simp only [CppVal.gt] at h1
  refine ⟨⟨?_, ?_, ?_⟩, fun u => ⟨fun hu => ?_, fun hu => ?_⟩⟩
  · grind
  · exact CppOrder.le_trans _ _ _ a2 c1.1
  · exact CppOrder.le_trans _ _ _ c2.1 a3
  · exact ⟨⟨CppOrder.le_trans _ _ _ c1.1 hu.1, CppOrder.le_trans _ _ _ hu.2 c2.1⟩, ⟨CppOrder.le_trans _ _ _ c1.2 hu.1, CppOrder.le_trans _ _ _ hu.2 c2.2⟩⟩
  · obtain ⟨⟨u1, u2⟩, u3, u4⟩ := hu
    constructor
    · show le (cmax a.lo b.lo) u = true
      rcases c3 with e | e <;> rw [e] <;> assumption
    · show le u (cmin a.hi b.hi) = true
      rcases c4 with e | e <;> rw [e] <;> assumption
theorem PartOf.hull {a b : Ivl T} (ha : PartOf x a) (hb : PartOf x b) :
    ∃ R, Ivl.make (cmin a.lo b.lo) (cmax a.hi b.hi) = .ok R ∧ PartOf x R ∧ (∀ u, u ∈ᵢ a ∨ u ∈ᵢ b → u ∈ᵢ R) ∧ (R.lo = a.lo ∨ R.lo = b.lo) ∧ (R.hi = a.hi ∨ R.hi = b.hi) := by
  obtain ⟨a1, a2, a3⟩ := ha; obtain ⟨b1, b2, b3⟩ := hb
  have na : NotNan a.lo := CppOrder.le_left _ _ a1
  have na' : NotNan a.hi := CppOrder.le_right _ _ a1
  have nb : NotNan b.lo := CppOrder.le_left _ _ b1
  have nb' : NotNan b.hi := CppOrder.le_right _ _ b1
  have c1 := cmin_le na nb; have c2 := le_cmax na' nb'
  have c3 := cmin_or a.lo b.lo; have c4 := cmax_or a.hi b.hi
  have h : le (cmin a.lo b.lo) (cmax a.hi b.hi) = true := CppOrder.le_trans _ _ _ c1.1 (CppOrder.le_trans _ _ _ a1 c2.1)
  refine ⟨_, make_ok_of_le h, ⟨h, ?_, ?_⟩, fun u hu => ?_, c3, c4⟩
  · show le x.lo (cmin a.lo b.lo) = true
    rcases c3 with e | e <;> rw [e] <;> assumption
  · show le (cmax a.hi b.hi) x.hi = true
    rcases c4 with e | e <;> rw [e] <;> assumption
  · rcases hu with hu | hu
    · exact ⟨CppOrder.le_trans _ _ _ c1.1 hu.1, CppOrder.le_trans _ _ _ hu.2 c2.1⟩
    · exact ⟨CppOrder.le_trans _ _ _ c1.2 hu.1, CppOrder.le_trans _ _ _ hu.2 c2.2⟩

theorem leafT (hx : Proper x) {s : BoolSet} {i : ι} {r : Arg (V i)} {k : XRel} (h : WfT E x (.cmp s i r k)) (f o : Bool) :
    (BoolSet.contains s true = true → detailConstrainT E dbg d x (.cmp s i r k) f o = (do return (← constrainM (E.cv i) (E.pr i) (E.su i) d dbg x r k, true))) ∧
    (BoolSet.contains s true = false → detailConstrainT E dbg d x (.cmp s i r k) f o = if o then .ok (x, true) else .error .contract) := by
  obtain ⟨e, _, h1, h2⟩ := h
  refine ⟨fun hc => ?_, fun hc => ?_⟩
  · simp only [detailConstrainT, hc, if_true]
    subst e
    rw [(constrainM_eq hx h1 k hc).1]
  · simp only [detailConstrainT, hc, Bool.false_eq_true, if_false]
    cases o <;> rfl

theorem detail_part (hx : Proper x) : ∀ (c : MCond V), WfT E x c → AllC (GoodLeaf E dbg d x) true c → ∀ (f o : Bool) (R : Ivl T) (g : Bool),
    detailConstrainT E dbg d x c f o = .ok (R, g) → PartOf x R
  | .plain _, _, _, f, o, R, g, h => by simp [detailConstrainT] at h; rw [← h.1]; exact PartOf.refl hx
  | .away _, _, _, f, o, R, g, h => by simp [detailConstrainT] at h; rw [← h.1]; exact PartOf.refl hx
  | .cmp s i r k, hw, hg, f, o, R, g, h => by
    cases hc : BoolSet.contains s true
    · rw [(leafT hx hw f o).2 hc] at h
      cases o <;> simp at h
      rw [← h.1]; exact PartOf.refl hx
    · rw [(leafT hx hw f o).1 hc] at h
      simp only [bind_eq_ok, pure, Except.pure, Except.ok.injEq, Prod.mk.injEq] at h
      obtain ⟨R', h1, rfl, -⟩ := h
      obtain ⟨p, q⟩ := hg.2 _ h1
      have l1 := q R'.lo ⟨CppOrder.le_left _ _ p, p⟩
      have l2 := q R'.hi ⟨p, CppOrder.le_right _ _ p⟩
      exact ⟨p, l1.1, l2.2⟩
  | .conj s l r, hw, hg, f, o, R, g, h => by
    simp only [detailConstrainT, bind_eq_ok] at h
    obtain ⟨⟨xl, f1⟩, h1, ⟨xr, f2⟩, h2, h3⟩ := h
    have pl : PartOf x xl := by
      cases hd : l.isDisj
      · simp only [hd, Bool.false_eq_true, if_false] at h1
        exact detail_part hx l hw.2.1 hg.1 _ _ _ _ h1
      · simp only [hd, if_true] at h1; cases h1; exact PartOf.refl hx
    have pr : PartOf x xr := by
      cases hd : r.isDisj
      · simp only [hd, Bool.false_eq_true, if_false] at h2
        exact detail_part hx r hw.2.2 hg.2 _ _ _ _ h2
      · simp only [hd, if_true] at h2; cases h2; exact PartOf.refl hx
    split at h3
    · simp only [bind_eq_ok, pure, Except.pure, Except.ok.injEq, Prod.mk.injEq] at h3
      obtain ⟨_, -, R', h4, rfl, -⟩ := h3
      exact (pl.inter pr h4).1
    · simp only [pure, Except.pure, Except.ok.injEq, Prod.mk.injEq] at h3
      rw [← h3.1]; exact PartOf.refl hx
  | .disj s l r, hw, hg, f, o, R, g, h => by
    simp only [detailConstrainT, bind_eq_ok] at h
    obtain ⟨⟨xl, f1⟩, h1, ⟨xr, f2⟩, h2, _, -, h3⟩ := h
    have pl := detail_part hx l hw.2.1 hg.1 _ _ _ _ h1
    have pr := detail_part hx r hw.2.2 hg.2 _ _ _ _ h2
    obtain ⟨H, e, p, -⟩ := pl.hull pr
    split at h3
    · rw [e] at h3
      simp only [ok_bind, pure, Except.pure, Except.ok.injEq, Prod.mk.injEq] at h3
      rw [← h3.1]; exact p
    · split at h3
      · simp only [pure, Except.pure, Except.ok.injEq, Prod.mk.injEq] at h3; rw [← h3.1]; exact pl
      · split at h3 <;> (simp only [pure, Except.pure, Except.ok.injEq, Prod.mk.injEq] at h3; rw [← h3.1])
        · exact pr
        · exact PartOf.refl hx

theorem contains_possibly (s : BoolSet) : BoolSet.possibly s = BoolSet.contains s true := by revert s; decide

theorem detail_soundT (hx : Proper x) {u : T} (hu : u ∈ᵢ x) : ∀ (c : MCond V), WfT E x c → AllC (GoodLeaf E dbg d x) true c → DisjEvenT c → SatC E u true c →
    ∀ (f o : Bool) (R : Ivl T) (g : Bool), detailConstrainT E dbg d x c f o = .ok (R, g) → u ∈ᵢ R
  | .plain _, _, _, _, _, f, o, R, g, h => by simp [detailConstrainT] at h; rw [← h.1]; exact hu
  | .away _, _, _, _, _, f, o, R, g, h => by simp [detailConstrainT] at h; rw [← h.1]; exact hu
  | .cmp s i r k, hw, hg, _, hs, f, o, R, g, h => by
    rw [(leafT hx hw f o).1 (sat_truth hx hu _ _ hw hs)] at h
    simp only [bind_eq_ok, pure, Except.pure, Except.ok.injEq, Prod.mk.injEq] at h
    obtain ⟨R', h1, rfl, -⟩ := h
    obtain ⟨R'', h2, h3⟩ := hg.1 u ⟨hu, hs⟩
    rw [if_pos rfl, h1] at h2; cases h2; exact h3
  | .conj s l r, hw, hg, hd, hs, f, o, R, g, h => by
    have ht : BoolSet.contains s true = true := sat_truth hx hu _ _ hw hs
    simp only [detailConstrainT, bind_eq_ok, ht, if_true] at h
    obtain ⟨⟨xl, f1⟩, h1, ⟨xr, f2⟩, h2, _, -, R', h3, h4⟩ := h
    simp only [pure, Except.pure, Except.ok.injEq, Prod.mk.injEq] at h4
    obtain ⟨rfl, -⟩ := h4
    have nd : ∀ c : MCond V, c.isDisj = false → DisjEvenT c := by intro c hc; cases c <;> simp [MCond.isDisj, DisjEvenT] at hc ⊢
    have pl : PartOf x xl ∧ u ∈ᵢ xl := by
      cases hd : l.isDisj
      · simp only [hd, Bool.false_eq_true, if_false] at h1
        exact ⟨detail_part hx l hw.2.1 hg.1 _ _ _ _ h1, detail_soundT hx hu l hw.2.1 hg.1 (nd _ hd) hs.1 _ _ _ _ h1⟩
      · simp only [hd, if_true] at h1; cases h1; exact ⟨PartOf.refl hx, hu⟩
    have pr : PartOf x xr ∧ u ∈ᵢ xr := by
      cases hd : r.isDisj
      · simp only [hd, Bool.false_eq_true, if_false] at h2
        exact ⟨detail_part hx r hw.2.2 hg.2 _ _ _ _ h2, detail_soundT hx hu r hw.2.2 hg.2 (nd _ hd) hs.2 _ _ _ _ h2⟩
      · simp only [hd, if_true] at h2; cases h2; exact ⟨PartOf.refl hx, hu⟩
    exact ((pl.1.inter pr.1 h3).2 u).mpr ⟨pl.2, pr.2⟩
  | .disj s l r, hw, hg, hd, hs, f, o, R, g, h => by
    simp only [detailConstrainT, bind_eq_ok] at h
    obtain ⟨⟨xl, f1⟩, h1, ⟨xr, f2⟩, h2, _, -, h3⟩ := h
    have pl := detail_part hx l hw.2.1 hg.1 _ _ _ _ h1
    have pr := detail_part hx r hw.2.2 hg.2 _ _ _ _ h2
    obtain ⟨H, e, -, p, -⟩ := pl.hull pr
    have e1 := flagT l _ _ _ _ h1
    have e2 := flagT r _ _ _ _ h2
    simp only [Bool.false_and, Bool.false_or] at e1 e2
    simp only [contains_possibly, e1, e2, e, ok_bind] at h3
    rcases hs with hs | hs
    · have ht := sat_truth hx hu _ _ hw.2.1 hs
      rcases hd.1 with hd' | ⟨m, hd'⟩
      · rw [ht] at hd'; cases hd'
      have ul := detail_soundT hx hu l hw.2.1 hg.1 hd' hs _ _ _ _ h1
      simp only [m, ht, Bool.and_true, Bool.true_and, if_true, pure, Except.pure] at h3
      split at h3 <;> simp only [Except.ok.injEq, Prod.mk.injEq] at h3 <;> rw [← h3.1]
      · exact p u (.inl ul)
      · exact ul
    · have ht := sat_truth hx hu _ _ hw.2.2 hs
      rcases hd.2 with hd' | ⟨m, hd'⟩
      · rw [ht] at hd'; cases hd'
      have ur := detail_soundT hx hu r hw.2.2 hg.2 hd' hs _ _ _ _ h2
      simp only [m, ht, Bool.and_true, if_true, pure, Except.pure] at h3
      split at h3
      · simp only [Except.ok.injEq, Prod.mk.injEq] at h3; rw [← h3.1]; exact p u (.inr ur)
      · simp only [Except.ok.injEq, Prod.mk.injEq] at h3; rw [← h3.1]; exact ur

/-- C104: if every comparison in the condition keeps its values on its own (C101 says when), so does the condition: whatever `constrain` returns contains every value of `x` for which the condition
holds with some values of the other operands.  As for operands of one type (C18), both sides of each disjunction that is not below a conjunction have to mention `x` or be impossible. -/
theorem C104_sound_partial (hx : Proper x) (e : MExpr V) (hp : e.Proper E) (hg : e.All (GoodLeaf E dbg d x) true) {c : MCond V} (hb : e.build E dbg x = .ok c) (hd : DisjEvenT c)
    {R : Ivl T} (hr : constrainT E dbg d x c = .ok R) {u : T} (hu : u ∈ᵢ x) (hs : e.Sat E u true) : u ∈ᵢ R := by
  obtain ⟨c', h1, h2, h3, h4⟩ := build_wfT (dbg := dbg) hx e hp
  rw [hb] at h1; cases h1
  simp only [constrainT, bind_eq_ok, pure, Except.pure, Except.ok.injEq] at hr
  obtain ⟨⟨R', f⟩, h5, _, -, rfl⟩ := hr
  exact detail_soundT hx hu c h2 (h4 _ true hg) hd (h3 u true hu hs) _ _ _ _ h5

/-- C104: the condition can be formed, and `constrain` only removes values, whatever the shape of the condition. -/
theorem C104_narrows (hx : Proper x) (e : MExpr V) (hp : e.Proper E) (hg : e.All (GoodLeaf E dbg d x) true) :
    ∃ c, e.build E dbg x = .ok c ∧ ∀ R, constrainT E dbg d x c = .ok R → Proper R ∧ ∀ u, u ∈ᵢ R → u ∈ᵢ x := by
  obtain ⟨c, h1, h2, h3, h4⟩ := build_wfT (dbg := dbg) hx e hp
  refine ⟨c, h1, fun R hr => ?_⟩
  simp only [constrainT, bind_eq_ok, pure, Except.pure, Except.ok.injEq] at hr
  obtain ⟨⟨R', f⟩, h5, _, -, rfl⟩ := hr
  exact partOf_narrows (detail_part hx c h2 (h4 _ true hg) _ _ _ _ h5)

/-- `constrain` returns the same part of `x` whether or not the condition is optional, and whatever was considered before -/
theorem detail_change : ∀ (c : MCond V) (f f' o' : Bool) (R : Ivl T) (g : Bool), detailConstrainT E dbg d x c f false = .ok (R, g) →
    detailConstrainT E dbg d x c f' o' = .ok (R, (f' && !c.isDisj) || MentionsT c)
  | .plain _, f, f', o', R, g, h => by simp [detailConstrainT] at h; simp [detailConstrainT, h.1, MCond.isDisj, MentionsT]
  | .away _, f, f', o', R, g, h => by simp [detailConstrainT] at h; simp [detailConstrainT, h.1, MCond.isDisj, MentionsT]
  | .cmp s i r k, f, f', o', R, g, h => by
    simp only [detailConstrainT] at h ⊢
    cases hc : BoolSet.contains s true
    · rw [hc] at h; simp [expects] at h
    · rw [hc] at h
      simp only [if_true, bind_eq_ok, pure, Except.pure, Except.ok.injEq, Prod.mk.injEq] at h ⊢
      obtain ⟨a, h1, rfl, -⟩ := h
      exact ⟨a, h1, rfl, by simp [MentionsT]⟩
  | .conj s l r, f, f', o', R, g, h => by
    have key : ∃ g', detailConstrainT E dbg d x (.conj s l r) f' o' = .ok (R, g') := by
      simp only [detailConstrainT, bind_eq_ok] at h ⊢
      obtain ⟨⟨xl, f1⟩, h1, ⟨xr, f2⟩, h2, h3⟩ := h
      have k1 : ∃ f1', (if l.isDisj then Except.ok (x, f') else detailConstrainT E dbg d x l f' o' : Outcome _) = .ok (xl, f1') := by
        cases hd : l.isDisj
        · simp only [hd, Bool.false_eq_true, if_false] at h1 ⊢
          exact ⟨_, detail_change l _ f' o' _ _ h1⟩
        · simp only [hd, if_true] at h1 ⊢; cases h1; exact ⟨_, rfl⟩
      obtain ⟨f1', k1⟩ := k1
      have k2 : ∃ f2', (if r.isDisj then Except.ok (x, f1') else detailConstrainT E dbg d x r f1' o' : Outcome _) = .ok (xr, f2') := by
        cases hd : r.isDisj
        · simp only [hd, Bool.false_eq_true, if_false] at h2 ⊢
          exact ⟨_, detail_change r _ f1' o' _ _ h2⟩
        · simp only [hd, if_true] at h2 ⊢; cases h2; exact ⟨_, rfl⟩
      obtain ⟨f2', k2⟩ := k2
      refine ⟨f2', (xl, f1'), k1, (xr, f2'), k2, ?_⟩
      split at h3
      · rename_i hc
        rw [if_pos hc]
        simp only [bind_eq_ok, pure, Except.pure, Except.ok.injEq, Prod.mk.injEq] at h3 ⊢
        obtain ⟨a, h4, b, h5, h6, -⟩ := h3
        exact ⟨a, h4, b, h5, h6, trivial⟩
      · rename_i hc
        rw [if_neg hc]
        simp only [pure, Except.pure, Except.ok.injEq, Prod.mk.injEq] at h3 ⊢
        exact ⟨h3.1, trivial⟩
    obtain ⟨g', hk⟩ := key
    rw [hk, flagT _ _ _ _ _ hk]
  | .disj s l r, f, f', o', R, g, h => by
    have key : ∃ g', detailConstrainT E dbg d x (.disj s l r) f' o' = .ok (R, g') := by
      simp only [detailConstrainT, bind_eq_ok] at h ⊢
      obtain ⟨p1, h1, p2, h2, a, h3, h4⟩ := h
      refine ⟨g, p1, h1, p2, h2, a, ?_, h4⟩
      cases hc : BoolSet.contains s true
      · rw [hc] at h3; simp [expects] at h3
      · simp [expects]
    obtain ⟨g', hk⟩ := key
    rw [hk, flagT _ _ _ _ _ hk]

theorem constrainT_ok {c : MCond V} {R : Ivl T} : constrainT E dbg d x c = .ok R ↔ detailConstrainT E dbg d x c false false = .ok (R, true) := by
  simp only [constrainT, bind_eq_ok, pure, Except.pure, Except.ok.injEq]
  constructor
  · rintro ⟨⟨R', f⟩, h5, _, h6, rfl⟩
    cases f
    · simp [expects] at h6
    · exact h5
  · intro h; exact ⟨_, h, (), by simp [expects], rfl⟩

/-- C104: constraining by a conjunction of two conditions other than disjunctions is constraining by each and intersecting the results; if they are disjoint, it is a contract violation. -/
theorem C104_and (hx : Proper x) (e f : MExpr V) (he : e.Proper E) (hf : f.Proper E) (ge : e.All (GoodLeaf E dbg d x) true) (gf : f.All (GoodLeaf E dbg d x) true)
    {c₁ c₂ : MCond V} (h₁ : e.build E dbg x = .ok c₁) (h₂ : f.build E dbg x = .ok c₂) (d₁ : c₁.isDisj = false) (d₂ : c₂.isDisj = false)
    {R₁ R₂ : Ivl T} (r₁ : constrainT E dbg d x c₁ = .ok R₁) (r₂ : constrainT E dbg d x c₂ = .ok R₂) (t₁ : BoolSet.contains c₁.truth true = true) (t₂ : BoolSet.contains c₂.truth true = true) :
    ∃ c, (MExpr.and e f).build E dbg x = .ok c ∧
      ((∃ u, u ∈ᵢ R₁ ∧ u ∈ᵢ R₂) → ∃ R, constrainT E dbg d x c = .ok R ∧ ∀ u, u ∈ᵢ R ↔ u ∈ᵢ R₁ ∧ u ∈ᵢ R₂) ∧
      ((¬ ∃ u, u ∈ᵢ R₁ ∧ u ∈ᵢ R₂) → constrainT E dbg d x c = .error .contract) := by
  obtain ⟨_, a1, a2, -, a4⟩ := build_wfT (dbg := dbg) hx e he
  rw [h₁] at a1; cases a1
  obtain ⟨_, b1, b2, -, b4⟩ := build_wfT (dbg := dbg) hx f hf
  rw [h₂] at b1; cases b1
  have k1 := constrainT_ok.mp r₁
  have k2 := constrainT_ok.mp r₂
  have p1 := detail_part hx _ a2 (a4 _ true ge) _ _ _ _ k1
  have p2 := detail_part hx _ b2 (b4 _ true gf) _ _ _ _ k2
  have m1 : MentionsT c₁ = true := by have := flagT _ _ _ _ _ k1; simpa using this.symm
  have ic : c₁.isCond = true := by cases c₁ <;> simp [MentionsT, MCond.isCond] at m1 ⊢
  have k2' := detail_change c₂ false true false _ _ k2
  have k1' := detail_change c₁ false false false _ _ k1
  have ts : BoolSet.contains (BoolSet.and c₁.truth c₂.truth) true = true := by
    rw [contains_and_true _ _ (wf_ne hx _ a2) (wf_ne hx _ b2), t₁, t₂]; rfl
  refine ⟨.conj (BoolSet.and c₁.truth c₂.truth) c₁ c₂, by simp [MExpr.build, h₁, h₂, MCond.mkAnd, ic, pure, Except.pure], ?_⟩
  have run : constrainT E dbg d x (.conj (BoolSet.and c₁.truth c₂.truth) c₁ c₂) =
      (do expectsDebug dbg (CppVal.ge R₁.hi R₂.lo && le R₁.lo R₂.hi); Ivl.make (cmax R₁.lo R₂.lo) (cmin R₁.hi R₂.hi)) := by
    simp [constrainT, detailConstrainT, d₁, d₂, k1, k2', ts, bind_assoc]
    cases Ivl.make (cmax R₁.lo R₂.lo) (cmin R₁.hi R₂.hi) <;> rfl
  have n1 : NotNan R₁.lo := CppOrder.le_left _ _ p1.1
  have n1' : NotNan R₁.hi := CppOrder.le_right _ _ p1.1
  have n2 : NotNan R₂.lo := CppOrder.le_left _ _ p2.1
  have n2' : NotNan R₂.hi := CppOrder.le_right _ _ p2.1
  have c3 := cmax_or R₁.lo R₂.lo; have c4 := cmin_or R₁.hi R₂.hi
  have c5 := le_cmax n1 n2; have c6 := cmin_le n1' n2'
  rw [run]
  refine ⟨fun ⟨u, hu, hv⟩ => ?_, fun hn => ?_⟩
  · have g : le (cmax R₁.lo R₂.lo) (cmin R₁.hi R₂.hi) = true := by
      refine CppOrder.le_trans _ u _ ?_ ?_
      · rcases c3 with e | e <;> rw [e]; exacts [hu.1, hv.1]
      · rcases c4 with e | e <;> rw [e]; exacts [hu.2, hv.2]
    have g1 : le R₂.lo R₁.hi = true := CppOrder.le_trans _ _ _ hv.1 hu.2
    have g2 : le R₁.lo R₂.hi = true := CppOrder.le_trans _ _ _ hu.1 hv.2
    have mk := make_ok_of_le g
    refine ⟨_, by simp only [CppVal.ge, g1, g2, Bool.and_true]; simpa using mk, (p1.inter p2 mk).2⟩
  · have g : le (cmax R₁.lo R₂.lo) (cmin R₁.hi R₂.hi) = false := by
      rw [← Bool.not_eq_true]
      intro g
      have := (p1.inter p2 (make_ok_of_le g)).2 (cmax R₁.lo R₂.lo)
      exact hn ⟨_, this.mp ⟨cmax_notNan n1 n2, g⟩⟩
    have mk : Ivl.make (cmax R₁.lo R₂.lo) (cmin R₁.hi R₂.hi) = .error .contract := by
      have : lt (cmin R₁.hi R₂.hi) (cmax R₁.lo R₂.lo) = true := (CppOrder.lt_iff _ _).mpr ⟨cmin_notNan n1' n2', cmax_notNan n1 n2, g⟩
      simp [Ivl.make, CppVal.gt, this, expects]
    rw [mk]
    cases dbg <;> cases (CppVal.ge R₁.hi R₂.lo && le R₁.lo R₂.hi) <;> rfl

/-- C104: constraining by a disjunction of two possible conditions is constraining by each and taking the hull of the results. -/
theorem C104_or (hx : Proper x) (e f : MExpr V) (he : e.Proper E) (hf : f.Proper E) (ge : e.All (GoodLeaf E dbg d x) true) (gf : f.All (GoodLeaf E dbg d x) true)
    {c₁ c₂ : MCond V} (h₁ : e.build E dbg x = .ok c₁) (h₂ : f.build E dbg x = .ok c₂)
    {R₁ R₂ : Ivl T} (r₁ : constrainT E dbg d x c₁ = .ok R₁) (r₂ : constrainT E dbg d x c₂ = .ok R₂) (t₁ : BoolSet.contains c₁.truth true = true) (t₂ : BoolSet.contains c₂.truth true = true) :
    ∃ c R, (MExpr.or e f).build E dbg x = .ok c ∧ constrainT E dbg d x c = .ok R ∧ (∀ u, u ∈ᵢ R₁ ∨ u ∈ᵢ R₂ → u ∈ᵢ R) ∧
      (R.lo = R₁.lo ∨ R.lo = R₂.lo) ∧ (R.hi = R₁.hi ∨ R.hi = R₂.hi) := by
  obtain ⟨_, a1, a2, -, a4⟩ := build_wfT (dbg := dbg) hx e he
  rw [h₁] at a1; cases a1
  obtain ⟨_, b1, b2, -, b4⟩ := build_wfT (dbg := dbg) hx f hf
  rw [h₂] at b1; cases b1
  have k1 := constrainT_ok.mp r₁
  have k2 := constrainT_ok.mp r₂
  have p1 := detail_part hx _ a2 (a4 _ true ge) _ _ _ _ k1
  have p2 := detail_part hx _ b2 (b4 _ true gf) _ _ _ _ k2
  have m1 : MentionsT c₁ = true := by have := flagT _ _ _ _ _ k1; simpa using this.symm
  have m2 : MentionsT c₂ = true := by have := flagT _ _ _ _ _ k2; simpa using this.symm
  have ic : c₁.isCond = true := by cases c₁ <;> simp [MentionsT, MCond.isCond] at m1 ⊢
  have k2' := detail_change c₂ false false true _ _ k2
  have k1' := detail_change c₁ false false true _ _ k1
  obtain ⟨R, mk, -, hull, l1, l2⟩ := p1.hull p2
  refine ⟨.disj (BoolSet.or c₁.truth c₂.truth) c₁ c₂, R, by simp [MExpr.build, h₁, h₂, MCond.mkOr, ic, pure, Except.pure], ?_, hull, l1, l2⟩
  have ts : BoolSet.contains (BoolSet.or c₁.truth c₂.truth) true = true := by
    rw [contains_or_true _ _ (wf_ne hx _ a2) (wf_ne hx _ b2), t₁, t₂]; rfl
  simp [constrainT, detailConstrainT, k1', k2', ts, m1, m2, contains_possibly, t₁, t₂, mk]

/-- C104: a side of a disjunction that is an impossible comparison does not matter. -/
theorem C104_or_impossible (hx : Proper x) (e : MExpr V) (he : e.Proper E) (i : ι) (r : Arg (V i)) (k : XRel) [CppOrder (V i)] (hr : ProperA r) (mono : MonoCast (E.cv i))
    {c₁ : MCond V} (h₁ : e.build E dbg x = .ok c₁) {R₁ : Ivl T} (r₁ : constrainT E dbg d x c₁ = .ok R₁) (t₁ : BoolSet.contains c₁.truth true = true)
    (hk : BoolSet.contains (k.compare (E.cv i) x r) true = false) :
    ∃ c c', (MExpr.or e (.cmp i r k)).build E dbg x = .ok c ∧ constrainT E dbg d x c = .ok R₁ ∧ (MExpr.or (.cmp i r k) e).build E dbg x = .ok c' ∧ constrainT E dbg d x c' = .ok R₁ := by
  obtain ⟨_, a1, a2, -, a4⟩ := build_wfT (dbg := dbg) hx e he
  rw [h₁] at a1; cases a1
  have w1 : x.assigned = true := assigned_of_proper (X := .ivl x) hx
  have w2 := Intervals.assigned_of_proper hr
  have hb : (MExpr.cmp i r k).build E dbg x = .ok (.cmp (k.compare (E.cv i) x r) i r k) := by simp [MExpr.build, mkCmp, w1, w2, pure, Except.pure]
  have hw : WfT E x (.cmp (k.compare (E.cv i) x r) i r k) := ⟨rfl, inferInstance, hr, mono⟩
  have k1 := constrainT_ok.mp r₁
  have k1' := detail_change c₁ false false true _ _ k1
  have m1 : MentionsT c₁ = true := by have := flagT _ _ _ _ _ k1; simpa using this.symm
  have k2 := (leafT (dbg := dbg) (d := d) hx hw false true).2 hk
  simp only [if_true] at k2
  have n2 := (compare_not hx hr mono k).2
  have ht : (MCond.cmp (V := V) (k.compare (E.cv i) x r) i r k).truth = k.compare (E.cv i) x r := rfl
  refine ⟨.disj (BoolSet.or c₁.truth (k.compare (E.cv i) x r)) c₁ (.cmp (k.compare (E.cv i) x r) i r k), .disj (BoolSet.or (k.compare (E.cv i) x r) c₁.truth) (.cmp (k.compare (E.cv i) x r) i r k) c₁,
    by simp [MExpr.build, h₁, mkCmp, w1, w2, MCond.mkOr, MCond.isCond, MCond.truth, pure, Except.pure], ?_,
    by simp [MExpr.build, h₁, mkCmp, w1, w2, MCond.mkOr, MCond.isCond, MCond.truth, pure, Except.pure], ?_⟩
  · have ts : BoolSet.contains (BoolSet.or c₁.truth (k.compare (E.cv i) x r)) true = true := by rw [contains_or_true _ _ (wf_ne hx _ a2) n2, t₁]; rfl
    rw [constrainT_ok, detailConstrainT]
    simp only [k1', k2, ok_bind, ht, hk, contains_possibly, t₁, m1, ts]
    simp [expects, pure, Except.pure]
  · have ts : BoolSet.contains (BoolSet.or (k.compare (E.cv i) x r) c₁.truth) true = true := by rw [contains_or_true _ _ n2 (wf_ne hx _ a2), t₁]; simp
    rw [constrainT_ok, detailConstrainT]
    simp only [k1', k2, ok_bind, ht, hk, contains_possibly, t₁, m1, ts]
    simp [expects, pure, Except.pure]

/-- C104: constraining by a condition that does not mention `x` where `constrain` looks never returns. -/
theorem C104_unmentioned (c : MCond V) (h : MentionsT c = false) (R : Ivl T) : constrainT E dbg d x c ≠ .ok R := by
  intro hr
  have := flagT _ _ _ _ _ (constrainT_ok.mp hr)
  rw [h] at this; simp at this

theorem make_ub {T : Type} [CppVal T] [CppNum T] (a b : T) : (Ivl.make a b : Outcome (Ivl T)) ≠ .error .ub := by
  unfold Ivl.make
  cases h : (!CppVal.gt a b) <;> simp [expects, pure, Except.pure]

/-- if no comparison is undefined on its own, the condition is not -/
theorem detail_ub (hx : Proper x) : ∀ (c : MCond V), WfT E x c → AllC (fun i r k => constrainM (E.cv i) (E.pr i) (E.su i) d dbg x r k ≠ .error .ub) true c → ∀ (f o : Bool),
    detailConstrainT E dbg d x c f o ≠ .error .ub
  | .plain _, _, _, f, o => by simp [detailConstrainT]
  | .away _, _, _, f, o => by simp [detailConstrainT]
  | .cmp s i r k, hw, h, f, o => by
    simp only [AllC, if_true] at h
    cases hc : BoolSet.contains s true
    · rw [(leafT hx hw f o).2 hc]; cases o <;> simp
    · rw [(leafT hx hw f o).1 hc]
      cases hm : constrainM (E.cv i) (E.pr i) (E.su i) d dbg x r k with
      | ok R => simp [pure, Except.pure]
      | error er => rw [hm] at h; simpa using h
  | .conj s l r, hw, h, f, o => by
    have hl := detail_ub hx l hw.2.1 h.1; have hr := detail_ub hx r hw.2.2 h.2
    simp only [detailConstrainT]
    generalize h1 : (if l.isDisj then Except.ok (x, f) else detailConstrainT E dbg d x l f o : Outcome _) = A
    have hA : A ≠ .error .ub := by rw [← h1]; split; exacts [by simp, hl _ _]
    rcases A with er | ⟨xl, f1⟩
    · simpa using hA
    simp only [ok_bind]
    generalize h2 : (if r.isDisj then Except.ok (x, f1) else detailConstrainT E dbg d x r f1 o : Outcome _) = B
    have hB : B ≠ .error .ub := by rw [← h2]; split; exacts [by simp, hr _ _]
    rcases B with er | ⟨xr, f2⟩
    · simpa using hB
    simp only [ok_bind]
    split
    · have hm := make_ub (cmax xl.lo xr.lo) (cmin xl.hi xr.hi)
      generalize Ivl.make (cmax xl.lo xr.lo) (cmin xl.hi xr.hi) = M at hm
      generalize (CppVal.ge xl.hi xr.lo && le xl.lo xr.hi) = b
      rcases M with er | R <;> cases dbg <;> cases b <;> simp_all [expectsDebug, pure, Except.pure]
    · simp [pure, Except.pure]
  | .disj s l r, hw, h, f, o => by
    have hl := detail_ub hx l hw.2.1 h.1 false true; have hr := detail_ub hx r hw.2.2 h.2 false true
    simp only [detailConstrainT]
    generalize detailConstrainT E dbg d x l false true = A at hl
    generalize detailConstrainT E dbg d x r false true = B at hr
    rcases A with er | ⟨xl, f1⟩
    · simpa using hl
    rcases B with er | ⟨xr, f2⟩
    · simpa using hr
    simp only [ok_bind]
    generalize (BoolSet.contains s true || o) = b
    have hm := make_ub (cmin xl.lo xr.lo) (cmax xl.hi xr.hi)
    generalize Ivl.make (cmin xl.lo xr.lo) (cmax xl.hi xr.hi) = M at hm
    generalize (f1 && BoolSet.possibly l.truth) = b1
    generalize (f2 && BoolSet.possibly r.truth) = b2
    rcases M with er | R <;> cases b <;> cases b1 <;> cases b2 <;> simp_all [expects, pure, Except.pure]

/-- C104: constraining by a condition is undefined only if constraining by one of its comparisons is. -/
theorem C104_defined (hx : Proper x) (e : MExpr V) (hp : e.Proper E) (h : e.All (fun i r k => constrainM (E.cv i) (E.pr i) (E.su i) d dbg x r k ≠ .error .ub) true) :
    ∃ c, e.build E dbg x = .ok c ∧ constrainT E dbg d x c ≠ .error .ub := by
  obtain ⟨c, h1, h2, -, h4⟩ := build_wfT (dbg := dbg) hx e hp
  refine ⟨c, h1, ?_⟩
  have := detail_ub hx c h2 (h4 _ true h) false false
  simp only [constrainT]
  rcases hd : detailConstrainT E dbg d x c false false with er | ⟨R, f⟩
  · rw [hd] at this; simpa [hd] using this
  · cases f <;> simp [expects, pure, Except.pure]

theorem detail_okT (hx : Proper x) {u : T} (hu : u ∈ᵢ x) : ∀ (c : MCond V), WfT E x c → AllC (GoodLeaf E dbg d x) true c → NoDisjT c → SatC E u true c → ∀ (f o : Bool),
    ∃ R g, detailConstrainT E dbg d x c f o = .ok (R, g) ∧ u ∈ᵢ R
  | .plain _, _, _, _, _, f, o => ⟨x, f, rfl, hu⟩
  | .away _, _, _, _, _, f, o => ⟨x, f, rfl, hu⟩
  | .cmp s i r k, hw, hg, _, hs, f, o => by
    rw [(leafT hx hw f o).1 (sat_truth hx hu _ _ hw hs)]
    obtain ⟨R, h1, h2⟩ := hg.1 u ⟨hu, hs⟩
    rw [if_pos rfl] at h1
    exact ⟨R, true, by rw [h1]; rfl, h2⟩
  | .conj s l r, hw, hg, hd, hs, f, o => by
    have il : l.isDisj = false := by have := hd.1; cases l <;> simp [NoDisjT, MCond.isDisj] at this ⊢
    have ir : r.isDisj = false := by have := hd.2; cases r <;> simp [NoDisjT, MCond.isDisj] at this ⊢
    obtain ⟨Rl, f1, h1, u1⟩ := detail_okT hx hu l hw.2.1 hg.1 hd.1 hs.1 f o
    obtain ⟨Rr, f2, h2, u2⟩ := detail_okT hx hu r hw.2.2 hg.2 hd.2 hs.2 f1 o
    have p1 := detail_part hx _ hw.2.1 hg.1 _ _ _ _ h1
    have p2 := detail_part hx _ hw.2.2 hg.2 _ _ _ _ h2
    have n1 : NotNan Rl.lo := CppOrder.le_left _ _ p1.1
    have n1' : NotNan Rl.hi := CppOrder.le_right _ _ p1.1
    have n2 : NotNan Rr.lo := CppOrder.le_left _ _ p2.1
    have n2' : NotNan Rr.hi := CppOrder.le_right _ _ p2.1
    have g : le (cmax Rl.lo Rr.lo) (cmin Rl.hi Rr.hi) = true := by
      refine CppOrder.le_trans _ u _ ?_ ?_
      · rcases cmax_or Rl.lo Rr.lo with e | e <;> rw [e]; exacts [u1.1, u2.1]
      · rcases cmin_or Rl.hi Rr.hi with e | e <;> rw [e]; exacts [u1.2, u2.2]
    have g1 : le Rr.lo Rl.hi = true := CppOrder.le_trans _ _ _ u2.1 u1.2
    have g2 : le Rl.lo Rr.hi = true := CppOrder.le_trans _ _ _ u1.1 u2.2
    have mk := make_ok_of_le g
    refine ⟨_, f2, ?_, ((p1.inter p2 mk).2 u).mpr ⟨u1, u2⟩⟩
    have ht := sat_truth hx hu (.conj s l r) true hw hs
    simp only [MCond.truth] at ht
    simp only [detailConstrainT, il, ir, Bool.false_eq_true, if_false, h1, h2, ok_bind, ht, if_true, CppVal.ge, g1, g2, Bool.and_true, mk]
    cases dbg <;> rfl
  | .disj s l r, _, _, hd, _, _, _ => hd.elim

/-- C104: if the condition is a conjunction that mentions `x`, and some value of `x` satisfies it, `constrain` returns. -/
theorem C104_success (hx : Proper x) (e : MExpr V) (hp : e.Proper E) (hg : e.All (GoodLeaf E dbg d x) true) {c : MCond V} (hb : e.build E dbg x = .ok c) (hd : NoDisjT c) (hm : MentionsT c = true)
    {u : T} (hu : u ∈ᵢ x) (hs : e.Sat E u true) : ∃ R, constrainT E dbg d x c = .ok R ∧ u ∈ᵢ R := by
  obtain ⟨c', h1, h2, h3, h4⟩ := build_wfT (dbg := dbg) hx e hp
  rw [hb] at h1; cases h1
  obtain ⟨R, g, h5, h6⟩ := detail_okT hx hu c h2 (h4 _ true hg) hd (h3 u true hu hs) false false
  refine ⟨R, constrainT_ok.mpr ?_, h6⟩
  have := flagT _ _ _ _ _ h5
  rw [hm] at this
  rw [h5, this]; simp

/-- C104: a condition that is one comparison constrains as C101 says. -/
theorem C104_cmp (hx : Proper x) {i : ι} [CppOrder (V i)] {r : Arg (V i)} (hr : ProperA r) (mono : MonoCast (E.cv i)) (k : XRel) :
    (do constrainT E dbg d x (← (MExpr.cmp i r k).build E dbg x)) = constrainM (E.cv i) (E.pr i) (E.su i) d dbg x r k := by
  have w1 : x.assigned = true := assigned_of_proper (X := .ivl x) hx
  have w2 := Intervals.assigned_of_proper hr
  have hw : WfT E x (.cmp (k.compare (E.cv i) x r) i r k) := ⟨rfl, inferInstance, hr, mono⟩
  have hb : (MExpr.cmp i r k).build E dbg x = .ok (.cmp (k.compare (E.cv i) x r) i r k) := by simp [MExpr.build, mkCmp, w1, w2, pure, Except.pure]
  rw [hb, ok_bind, constrainT]
  cases hc : BoolSet.contains (k.compare (E.cv i) x r) true
  · rw [(leafT hx hw false false).2 hc, constrainM_impossible hx hr k hc]; rfl
  · rw [(leafT hx hw false false).1 hc]
    cases constrainM (E.cv i) (E.pr i) (E.su i) d dbg x r k <;> rfl

/-- C104: an impossible disjunction is rejected. -/
theorem C104_or_never (s : BoolSet) (l r : MCond V) (h : BoolSet.contains s true = false) (R : Ivl T) : constrainT E dbg d x (.disj s l r) ≠ .ok R := by
  intro hr
  have := constrainT_ok.mp hr
  simp only [detailConstrainT, bind_eq_ok] at this
  obtain ⟨_, -, _, -, _, h3, -⟩ := this
  simp [h, expects] at h3

/-- C104: a conjunction with an impossible comparison of `x` is rejected, whatever the other operand is. -/
theorem C104_and_never (hx : Proper x) (s : BoolSet) {i : ι} [CppOrder (V i)] {r : Arg (V i)} (hr : ProperA r) (mono : MonoCast (E.cv i)) (k : XRel) (c : MCond V)
    (h : BoolSet.contains (k.compare (E.cv i) x r) true = false) (R : Ivl T) :
    constrainT E dbg d x (.conj s (.cmp (k.compare (E.cv i) x r) i r k) c) ≠ .ok R ∧ constrainT E dbg d x (.conj s c (.cmp (k.compare (E.cv i) x r) i r k)) ≠ .ok R := by
  have hw : WfT E x (.cmp (k.compare (E.cv i) x r) i r k) := ⟨rfl, inferInstance, hr, mono⟩
  refine ⟨fun hr => ?_, fun hr => ?_⟩
  all_goals
    have := constrainT_ok.mp hr
    simp only [detailConstrainT, bind_eq_ok, MCond.isDisj, Bool.false_eq_true, if_false, h, expects] at this
    simp at this

/-- C104: a conjunction that is impossible because of truth sets alone, and is not rejected, does not constrain. -/
theorem C104_and_plain (s : BoolSet) (l r : MCond V) (h : BoolSet.contains s true = false) {R : Ivl T} (hr : constrainT E dbg d x (.conj s l r) = .ok R) : R = x := by
  have := constrainT_ok.mp hr
  simp only [detailConstrainT, bind_eq_ok, h, Bool.false_eq_true, if_false, pure, Except.pure, Except.ok.injEq, Prod.mk.injEq] at this
  obtain ⟨_, -, _, -, h3, -⟩ := this
  exact h3.symm

/-- C104: negation exchanges `&` and `|` and negates the operands, if both are conditions and so is the negation of one of them. -/
theorem C104_deMorgan (hx : Proper x) (e f : MExpr V) (he : e.Proper E) (hf : f.Proper E) {c₁ c₂ : MCond V} (h₁ : e.build E dbg x = .ok c₁) (h₂ : f.build E dbg x = .ok c₂)
    (i₁ : c₁.isCond = true) (i₂ : c₂.isCond = true) {c₁' : MCond V} (n₁ : (MExpr.not e).build E dbg x = .ok c₁') (j₁ : c₁'.isCond = true) :
    (MExpr.not (.and e f)).build E dbg x = (MExpr.or (.not e) (.not f)).build E dbg x ∧ (MExpr.not (.or e f)).build E dbg x = (MExpr.and (.not e) (.not f)).build E dbg x := by
  obtain ⟨_, a1, a2, -, -⟩ := build_wfT (dbg := dbg) hx e he
  rw [h₁] at a1; cases a1
  obtain ⟨_, b1, b2, -, -⟩ := build_wfT (dbg := dbg) hx f hf
  rw [h₂] at b1; cases b1
  have nl := wf_ne hx _ a2; have nr := wf_ne hx _ b2
  obtain ⟨d₁, p1, -, p3, -, -⟩ := mkNot_wf (dbg := dbg) hx _ a2
  obtain ⟨d₂, q1, -, q3, -, -⟩ := mkNot_wf (dbg := dbg) hx _ b2
  obtain rfl : d₁ = c₁' := by simpa [MExpr.build, h₁, p1] using n₁
  have w1 : BoolSet.and c₁.truth c₂.truth ≠ BoolSet.empty := wf_ne (E := E) hx (.conj _ c₁ c₂) ⟨rfl, a2, b2⟩
  have w2 : BoolSet.or c₁.truth c₂.truth ≠ BoolSet.empty := wf_ne (E := E) hx (.disj _ c₁ c₂) ⟨rfl, a2, b2⟩
  constructor
  · simp [MExpr.build, h₁, h₂, p1, q1, MCond.mkAnd, MCond.mkOr, i₁, i₂, j₁, MCond.mkNot, notM_ok w1, not_and _ _ nl nr, p3, q3, pure, Except.pure]
  · simp [MExpr.build, h₁, h₂, p1, q1, MCond.mkAnd, MCond.mkOr, i₁, i₂, j₁, MCond.mkNot, notM_ok w2, not_or _ _ nl nr, p3, q3, pure, Except.pure]

/-- C104: the negation of a conjunction or disjunction of a condition and a `bool` or `set<bool>` is a `set<bool>` only, so `constrain` rejects it. -/
theorem C104_not_plain (s t : BoolSet) (c c' : MCond V) (h : MCond.mkNot dbg (.conj s (.plain t) c) = .ok c' ∨ MCond.mkNot dbg (.conj s c (.plain t)) = .ok c' ∨
    MCond.mkNot dbg (.disj s (.plain t) c) = .ok c' ∨ MCond.mkNot dbg (.disj s c (.plain t)) = .ok c') (R : Ivl T) : constrainT E dbg d x c' ≠ .ok R := by
  refine C104_unmentioned c' ?_ R
  simp only [MCond.mkNot, MCond.isCond, Bool.false_and, Bool.and_false, Bool.false_eq_true, if_false, bind_eq_ok, pure, Except.pure, Except.ok.injEq, or_self] at h
  obtain ⟨_, -, rfl⟩ := h
  rfl

/-- C104: in a debug build, a comparison with something unassigned is a contract violation. -/
theorem C104_unassigned {i : ι} {r : Arg (V i)} (h : x.assigned = false ∨ r.assigned = false) (k : XRel) : (MExpr.cmp i r k).build E true x = .error .contract := by
  rcases h with h | h <;> simp [MExpr.build, mkCmp, h, expectsDebug]

theorem make_proper {a b : T} {R : Ivl T} (ha : NotNan a) (hb : NotNan b) (h : Ivl.make a b = .ok R) : Proper R := by
  unfold Ivl.make at h
  cases g : !CppVal.gt a b with
  | true =>
    rw [g] at h; rw [← Except.ok.inj h]
    have : lt b a = false := by simpa [CppVal.gt] using g
    unfold Proper; unfold NotNan at ha hb; simp only
    rcases CppOrder.le_total a b ha hb with h | h
    · exact h
    · by_contra hn
      rw [(CppOrder.lt_iff _ _).mpr ⟨hb, ha, by simpa using hn⟩] at this
      cases this
  | false => rw [g] at h; exact absurd h (by simp)

/-- C104: a comparison that keeps what satisfies it (see C101) is one the other theorems apply to, if the steps on the operand's type do not produce NaN. -/
theorem C104_good (hx : Proper x) {i : ι} [CppOrder (V i)] {r : Arg (V i)} (hr : ProperA r) (mono : MonoCast (E.cv i)) (step : d = true → LawfulStep T) (k : XRel)
    (np : ∀ v p, NotNan v → E.pr i v = .ok p → NotNan p) (ns : ∀ v p, NotNan v → E.su i v = .ok p → NotNan p)
    (hk : Keeps (E.cv i) x r k (constrainM (E.cv i) (E.pr i) (E.su i) d dbg x r k)) : GoodLeaf E dbg d x i r k := by
  refine ⟨hk, fun R h => ⟨?_, C101_narrows hx hr mono step k h⟩⟩
  clear hk
  have r1 := proper_le hr
  have q1 := CppOrder.le_left _ _ r1; have q2 := CppOrder.le_right _ _ r1
  have n1 : NotNan x.lo := CppOrder.le_left _ _ hx
  have n2 : NotNan x.hi := CppOrder.le_right _ _ hx
  have m1 : NotNan (E.cv i r.lo) := mono _ _ q1
  have m2 : NotNan (E.cv i r.hi) := mono _ _ q2
  cases hc : BoolSet.contains (k.compare (E.cv i) x r) true with
  | false => rw [constrainM_impossible hx hr k hc] at h; exact absurd h (by simp)
  | true =>
    rw [constrainM_body hx hr k hc] at h
    cases k
    · simp only [bodyX, bind_eq_ok] at h
      obtain ⟨p, h1, h⟩ := h
      exact make_proper n1 (cmin_notNan n2 (mono _ _ (np _ _ q2 h1))) h
    · simp only [bodyX, bind_eq_ok] at h
      obtain ⟨p, h1, h⟩ := h
      exact make_proper (cmax_notNan (mono _ _ (ns _ _ q1 h1)) n1) n2 h
    · exact make_proper n1 (cmin_notNan n2 m2) h
    · exact make_proper (cmax_notNan m1 n1) n2 h
    · exact make_proper (cmax_notNan n1 m1) (cmin_notNan n2 m2) h
    · exact make_proper (cmax_notNan m1 n1) (cmin_notNan m2 n2) h
    all_goals
      simp only [bodyX] at h
      have st : ∀ (hd : (d && CppVal.ne x.lo x.hi) = true), (∃ s, succStep d x.lo = .ok s ∧ NotNan s) ∧ ∃ p, predStep d x.hi = .ok p ∧ NotNan p := by
        intro hd
        simp only [Bool.and_eq_true] at hd
        obtain ⟨hd, hne⟩ := hd
        have hlt : lt x.lo x.hi = true := by unfold Proper at hx; grind
        obtain ⟨s, a1, a2, a3⟩ := (step hd).succ_of_lt _ _ hlt
        obtain ⟨p, b1, b2, b3⟩ := (step hd).pred_of_lt _ _ hlt
        exact ⟨⟨s, by simp [succStep, hd, a1], CppOrder.le_left _ _ a2⟩, p, by simp [predStep, hd, b1], CppOrder.le_right _ _ b2⟩
      split at h
      · rename_i hb
        simp only [Bool.and_eq_true] at hb
        obtain ⟨⟨s, a1, a2⟩, -⟩ := st (by simp [hb.1.1])
        rw [a1] at h
        exact make_proper a2 n2 h
      · split at h
        · rename_i hb
          simp only [Bool.and_eq_true] at hb
          obtain ⟨-, p, b1, b2⟩ := st (by simp [hb.1.1])
          rw [b1] at h
          exact make_proper n1 b2 h
        · cases h; exact hx

/-- C104: `<=`, `>=`, `==`, `!=` with any operand, and `<`, `>` with one that is not stepped, are such comparisons. -/
theorem C104_good_nonstrict (hx : Proper x) {i : ι} [CppOrder (V i)] {r : Arg (V i)} (hr : ProperA r) (mono : MonoCast (E.cv i)) (step : d = true → LawfulStep T) (k : XRel)
    (np : ∀ v p, NotNan v → E.pr i v = .ok p → NotNan p) (ns : ∀ v p, NotNan v → E.su i v = .ok p → NotNan p)
    (hk : strictX k = true → (∀ v, E.pr i v = .ok v) ∧ ∀ v, E.su i v = .ok v) : GoodLeaf E dbg d x i r k :=
  C104_good hx hr mono step k np ns (C101_keeps_partial hx hr mono step k hk)
end tree

section ints
/-- integers of several widths compared with an interval of doubles -/
def doubleOperands (F : Fmt ℚ) : OperandTypes (fun m => SInt m) (Fl ℚ) := ⟨fun _ => toFloatV, fun _ => predStep true, fun _ => succStep true⟩
/-- narrower integers compared with an interval of `SInt n` -/
def wideOperands (n : Nat) : OperandTypes (fun m : {m // m ≤ n} => SInt m.1) (SInt n) := ⟨fun m => widenV m.2, fun _ => predStep true, fun _ => succStep true⟩

/-- C104 for an interval of integers and comparisons with narrower integers: every comparison is one the theorems apply to, except `<` with the smallest value and `>` with the largest. -/
theorem C104_good_int {n : Nat} (dbg : Bool) (x : Ivl (SInt n)) (hx : Proper x) (m : {m // m ≤ n}) (r : Arg (SInt m.1)) (hr : ProperA r) (k : XRel)
    (hl : k = .xLess → r.hi.val ≠ -2^m.1) (hu : k = .lessX → r.lo.val ≠ 2^m.1 - 1) : GoodLeaf (wideOperands n) dbg true x m r k := by
  have mono : MonoCast ((wideOperands n).cv m) := C101_casts (K := ℚ).1 m.2
  have nn : ∀ v : SInt m.1, NotNan v := fun v => by simp [NotNan, CppVal.le]
  refine C104_good (E := wideOperands n) (i := m) hx hr mono (fun _ => lawfulStep_bint _ _) k (fun _ _ _ _ => nn _) (fun _ _ _ _ => nn _) ?_
  cases hk : strictX k
  · exact C101_keeps_partial hx hr mono (fun _ => lawfulStep_bint _ _) k (by rw [hk]; simp)
  · intro u hsat
    obtain ⟨R, h1, -, h3⟩ := C101_int_partial m.2 dbg x r hx hr k hk hl hu ⟨u, hsat⟩
    exact ⟨R, h1, (h3 u).mpr hsat⟩

/-- C104 in full: whatever `constrain` returns contains every value of `x` that satisfies the condition. -/
def C104_full {ι : Type} (V : ι → Type) [∀ i, CppVal (V i)] [∀ i, CppNum (V i)] (T : Type) [CppVal T] [CppNum T] [CppStep T] (E : OperandTypes V T) : Prop :=
  ∀ (dbg d : Bool) (x R : Ivl T) (e : MExpr V) (c : MCond V) (u : T), Proper x → e.Proper E → e.All (GoodLeaf E dbg d x) true → e.build E dbg x = .ok c → constrainT E dbg d x c = .ok R →
    u ∈ᵢ x → e.Sat E u true → u ∈ᵢ R

/-- `x >= int8(5) | y >= z` for an `interval<int>` `x` (disagreement c): the side that does not mention `x` is ignored. -/
theorem C104_violated : ¬ C104_full _ _ (wideOperands 31) := by
  intro h
  have := h true true ⟨i32 0, i32 10⟩ ⟨i32 5, i32 10⟩ (.or (.cmp ⟨7, by decide⟩ (.scalar ⟨5, by decide, by decide⟩) .leqX) (.away BoolSet.both)) _ (i32 3) (by decide)
    ⟨⟨inferInstance, by decide, C101_casts (K := ℚ).1 (by decide)⟩, (show BoolSet.both ≠ BoolSet.empty by decide)⟩
    ⟨C104_good_int true _ (by decide) _ _ (by decide) _ (by simp) (by simp), trivial⟩ rfl (by decide) (by decide) (Or.inr rfl)
  revert this; decide

/-- `x > int8(2) & !(x >= short(8))` for `interval<int>{ 0, 10 }` is `[3, 7]` -/
example : letI e : MExpr (fun m : {m // m ≤ 31} => SInt m.1) := .and (.cmp ⟨7, by decide⟩ (.scalar ⟨2, by decide, by decide⟩) .lessX) (.not (.cmp ⟨15, by decide⟩ (.scalar ⟨8, by decide, by decide⟩) .leqX))
    Proper (⟨i32 0, i32 10⟩ : Ivl (SInt 31)) ∧ e.Proper (wideOperands 31) ∧ e.All (GoodLeaf (wideOperands 31) true true ⟨i32 0, i32 10⟩) true ∧
    ∃ c, e.build (wideOperands 31) true ⟨i32 0, i32 10⟩ = .ok c ∧ DisjEvenT c ∧ NoDisjT c ∧ MentionsT c = true ∧ constrainT (wideOperands 31) true true ⟨i32 0, i32 10⟩ c = .ok ⟨i32 3, i32 7⟩ := by
  refine ⟨by decide, ⟨⟨inferInstance, by decide, C101_casts (K := ℚ).1 (by decide)⟩, ⟨inferInstance, by decide, C101_casts (K := ℚ).1 (by decide)⟩⟩,
    ⟨C104_good_int true _ (by decide) _ _ (by decide) _ (by simp) (by decide), C104_good_int true _ (by decide) _ _ (by decide) _ (by decide) (by decide)⟩, _, rfl, trivial, ⟨trivial, trivial⟩, rfl, by decide⟩

/-- `x <= short(2) | x >= int8(8)` is the hull `[0, 10]`; with `x >= int8(11)`, which is impossible, `[0, 2]` -/
example : letI V := fun m : {m // m ≤ 31} => SInt m.1
    letI a : MExpr V := .cmp ⟨15, by decide⟩ (.scalar ⟨2, by decide, by decide⟩) .xLeq
    letI b : MExpr V := .cmp ⟨7, by decide⟩ (.scalar ⟨8, by decide, by decide⟩) .leqX
    letI b' : MExpr V := .cmp ⟨7, by decide⟩ (.scalar ⟨11, by decide, by decide⟩) .leqX
    (do constrainT (wideOperands 31) true true ⟨i32 0, i32 10⟩ (← (MExpr.or a b).build (wideOperands 31) true ⟨i32 0, i32 10⟩)) = .ok ⟨i32 0, i32 10⟩ ∧
    (do constrainT (wideOperands 31) true true ⟨i32 0, i32 10⟩ (← (MExpr.or a b').build (wideOperands 31) true ⟨i32 0, i32 10⟩)) = .ok ⟨i32 0, i32 2⟩ := by
  decide

/-- the negation of the conjunction `x > int8(2) & x <= short(8)` is the disjunction of the negations; `!(true & x <= short(8))` is only a truth set -/
example : letI V := fun m : {m // m ≤ 31} => SInt m.1
    letI a : MExpr V := .cmp ⟨7, by decide⟩ (.scalar ⟨2, by decide, by decide⟩) .lessX
    letI b : MExpr V := .cmp ⟨15, by decide⟩ (.scalar ⟨8, by decide, by decide⟩) .xLeq
    letI x : Ivl (SInt 31) := ⟨i32 0, i32 10⟩
    (∃ c₁ c₂ c₁', a.build (wideOperands 31) true x = .ok c₁ ∧ b.build (wideOperands 31) true x = .ok c₂ ∧ c₁.isCond = true ∧ c₂.isCond = true ∧
      (MExpr.not a).build (wideOperands 31) true x = .ok c₁' ∧ c₁'.isCond = true) ∧
    (do constrainT (wideOperands 31) true true x (← (MExpr.not (.and a b)).build (wideOperands 31) true x)) = .ok x ∧
    (do constrainT (wideOperands 31) true true x (← (MExpr.not (.and (.plain (BoolSet.single true)) b)).build (wideOperands 31) true x)) = .error .contract :=
  ⟨⟨_, _, _, rfl, rfl, rfl, rfl, rfl, rfl⟩, by decide, by decide⟩

/-- C104: for an interval of doubles, `<=`, `>=`, `==` and `!=` with integers of any width are comparisons the theorems apply to. -/
theorem C104_good_float (F : Fmt ℚ) (dbg : Bool) (x : Ivl (Fl ℚ)) (hx : Proper x) (m : Nat) (r : Arg (SInt m)) (hr : ProperA r) (k : XRel) (hk : strictX k = false) :
    GoodLeaf (doubleOperands F) dbg false x m r k := by
  have nn : ∀ v : SInt m, NotNan v := fun v => by simp [NotNan, CppVal.le]
  exact C104_good_nonstrict (E := doubleOperands F) (i := m) hx hr (C101_casts.2.2.1 F m) (fun h => absurd h (by decide)) k (fun _ _ _ _ => nn _) (fun _ _ _ _ => nn _) (by rw [hk]; simp)

/-- `x <= 7 & x != 20 & x >= 2L` for `interval<double>{ 0., 10. }` is `[2., 7.]` -/
example : letI := binary64Fmt
    letI e : MExpr (fun m => SInt m) := .and (.and (.cmp 31 (.scalar (i32 7)) .xLeq) (.cmp 31 (.scalar (i32 20)) .xNe)) (.cmp 63 (.scalar ⟨2, by decide, by decide⟩) .leqX)
    letI x : Ivl (Fl ℚ) := ⟨.num 0, .num 10⟩
    e.Proper (doubleOperands binary64Fmt) ∧ e.All (GoodLeaf (doubleOperands binary64Fmt) true false x) true ∧
    (do constrainT (doubleOperands binary64Fmt) true false x (← e.build (doubleOperands binary64Fmt) true x)) = .ok ⟨.num 2, .num 7⟩ := by
  let _ := binary64Fmt
  refine ⟨⟨⟨⟨inferInstance, by decide, C101_casts.2.2.1 _ _⟩, ⟨inferInstance, by decide, C101_casts.2.2.1 _ _⟩⟩, ⟨inferInstance, by decide, C101_casts.2.2.1 _ _⟩⟩,
    ⟨⟨C104_good_float _ _ _ (by decide +kernel) _ _ (by decide) _ rfl, C104_good_float _ _ _ (by decide +kernel) _ _ (by decide) _ rfl⟩, C104_good_float _ _ _ (by decide +kernel) _ _ (by decide) _ rfl⟩, by decide +kernel⟩
end ints
end Intervals.Props
