import Verif.Spec.ConstraintStale
import Verif.Props.ConstraintStale
import Verif.Props.ConstraintTree
/-!
# C110 for conjunctions
-/
set_option linter.unusedSectionVars false
set_option linter.unusedVariables false
namespace Intervals.Props
open Intervals Spec CppVal
section
variable {ι : Type} {V : ι → Type} [∀ i, CppVal (V i)] [∀ i, CppNum (V i)] {T : Type} [CppVal T] [CppNum T] [CppOrder T] [CppStep T]
variable {E : OperandTypes V T} {d dbg : Bool} {x₀ x : Ivl T} {Q : XRel → Prop}

/-- the comparison may be formed early -/
def EarlyLeaf (dbg : Bool) (k : XRel) : Prop := orderX k = true ∧ (strictX k = true → dbg = true)

/-- the condition formed at `x₀` and the one formed at `x`; `p` tells whether they are conjunctions or their negations are;
`Q` holds for the comparisons, with the sign they have in the conjunction -/
def Twin (E : OperandTypes V T) (Q : XRel → Prop) (x₀ x : Ivl T) : Bool → MCond V → MCond V → Prop
  | p, .cmp s₀ i r k, .cmp s j r' k' => s₀ = k.compare (E.cv i) x₀ r ∧ MCond.cmp s i r k = MCond.cmp s j r' k' ∧ s = k.compare (E.cv i) x r ∧ CppOrder (V i) ∧ ProperA r ∧ MonoCast (E.cv i) ∧
      Q (if p then k else k.neg)
  | p, .away s₀, .away s => s₀ = s ∧ s ≠ BoolSet.empty ∧ BoolSet.contains s p = true
  | true, .conj s₀ l₀ r₀, .conj s l r => s₀ = BoolSet.and l₀.truth r₀.truth ∧ s = BoolSet.and l.truth r.truth ∧ Twin E Q x₀ x true l₀ l ∧ Twin E Q x₀ x true r₀ r
  | false, .disj s₀ l₀ r₀, .disj s l r => s₀ = BoolSet.or l₀.truth r₀.truth ∧ s = BoolSet.or l.truth r.truth ∧ Twin E Q x₀ x false l₀ l ∧ Twin E Q x₀ x false r₀ r
  | _, _, _ => False

theorem twin_ne (h₀ : Proper x₀) (hx : Proper x) : ∀ (p : Bool) (c₀ c : MCond V), Twin E Q x₀ x p c₀ c → c₀.truth ≠ BoolSet.empty ∧ c.truth ≠ BoolSet.empty ∧ c₀.isCond = true ∧ c.isCond = true
  | p, .cmp s₀ i r k, .cmp s j r' k', h => by
    obtain ⟨e0, e, e1, _, h1, h2, -⟩ := h
    cases e
    exact ⟨by rw [MCond.truth, e0]; exact (compare_not h₀ h1 h2 k).2, by rw [MCond.truth, e1]; exact (compare_not hx h1 h2 k).2, rfl, rfl⟩
  | p, .away s₀, .away s, h => by obtain ⟨rfl, h, -⟩ := h; exact ⟨h, h, rfl, rfl⟩
  | true, .conj s₀ l₀ r₀, .conj s l r, h => by
    obtain ⟨e0, e, hl, hr⟩ := h
    have a := twin_ne h₀ hx _ _ _ hl; have b := twin_ne h₀ hx _ _ _ hr
    exact ⟨by rw [MCond.truth, e0]; exact and_ne a.1 b.1, by rw [MCond.truth, e]; exact and_ne a.2.1 b.2.1, rfl, rfl⟩
  | false, .disj s₀ l₀ r₀, .disj s l r, h => by
    obtain ⟨e0, e, hl, hr⟩ := h
    have a := twin_ne h₀ hx _ _ _ hl; have b := twin_ne h₀ hx _ _ _ hr
    exact ⟨by rw [MCond.truth, e0]; exact or_ne a.1 b.1, by rw [MCond.truth, e]; exact or_ne a.2.1 b.2.1, rfl, rfl⟩

theorem twin_not (h₀ : Proper x₀) (hx : Proper x) : ∀ (p : Bool) (c₀ c : MCond V), Twin E Q x₀ x p c₀ c →
    ∃ c₀' c', MCond.mkNot dbg c₀ = .ok c₀' ∧ MCond.mkNot dbg c = .ok c' ∧ Twin E Q x₀ x (!p) c₀' c' ∧ c₀'.truth = BoolSet.notCore c₀.truth ∧ c'.truth = BoolSet.notCore c.truth
  | p, .cmp s₀ i r k, .cmp s j r' k', h => by
    have n := twin_ne h₀ hx _ _ _ h
    obtain ⟨e0, e, e1, ho, h1, h2, h3⟩ := h
    cases e
    refine ⟨.cmp (BoolSet.notCore s₀) i r k.neg, .cmp (BoolSet.notCore s) i r k.neg, ?_, ?_, ⟨?_, rfl, ?_, ho, h1, h2, ?_⟩, rfl, rfl⟩
    · have := n.1; simp only [MCond.truth] at this; simp [MCond.mkNot, notM_ok this, pure, Except.pure]
    · have := n.2.1; simp only [MCond.truth] at this; simp [MCond.mkNot, notM_ok this, pure, Except.pure]
    · rw [e0]; exact (compare_not h₀ h1 h2 k).1
    · rw [e1]; exact (compare_not hx h1 h2 k).1
    · cases p
      · simpa only [Bool.not_false, if_true, Bool.false_eq_true, if_false] using h3
      · simpa only [Bool.not_true, if_true, Bool.false_eq_true, if_false, neg_neg] using h3
  | p, .away s₀, .away s, h => by
    obtain ⟨rfl, h, h'⟩ := h
    exact ⟨.away (BoolSet.notCore s₀), .away (BoolSet.notCore s₀), by simp [MCond.mkNot, notM_ok h, pure, Except.pure], by simp [MCond.mkNot, notM_ok h, pure, Except.pure],
      ⟨rfl, not_ne h, by rw [contains_not]; simpa using h'⟩, rfl, rfl⟩
  | true, .conj s₀ l₀ r₀, .conj s l r, h => by
    have n := twin_ne h₀ hx _ _ _ h
    obtain ⟨e0, e, hl, hr⟩ := h
    obtain ⟨l₀', l', a1, a2, a3, a4, a5⟩ := twin_not h₀ hx _ _ _ hl
    obtain ⟨r₀', r', b1, b2, b3, b4, b5⟩ := twin_not h₀ hx _ _ _ hr
    have nl := twin_ne h₀ hx _ _ _ hl; have nr := twin_ne h₀ hx _ _ _ hr
    have n1 := n.1; have n2 := n.2.1
    simp only [MCond.truth] at n1 n2
    refine ⟨.disj (BoolSet.notCore s₀) l₀' r₀', .disj (BoolSet.notCore s) l' r', ?_, ?_, ⟨?_, ?_, a3, b3⟩, rfl, rfl⟩
    · simp [MCond.mkNot, notM_ok n1, nl.2.2.1, nr.2.2.1, a1, b1, pure, Except.pure]
    · simp [MCond.mkNot, notM_ok n2, nl.2.2.2, nr.2.2.2, a2, b2, pure, Except.pure]
    · rw [a4, b4, e0, not_and _ _ nl.1 nr.1]
    · rw [a5, b5, e, not_and _ _ nl.2.1 nr.2.1]
  | false, .disj s₀ l₀ r₀, .disj s l r, h => by
    have n := twin_ne h₀ hx _ _ _ h
    obtain ⟨e0, e, hl, hr⟩ := h
    obtain ⟨l₀', l', a1, a2, a3, a4, a5⟩ := twin_not h₀ hx _ _ _ hl
    obtain ⟨r₀', r', b1, b2, b3, b4, b5⟩ := twin_not h₀ hx _ _ _ hr
    have nl := twin_ne h₀ hx _ _ _ hl; have nr := twin_ne h₀ hx _ _ _ hr
    have n1 := n.1; have n2 := n.2.1
    simp only [MCond.truth] at n1 n2
    refine ⟨.conj (BoolSet.notCore s₀) l₀' r₀', .conj (BoolSet.notCore s) l' r', ?_, ?_, ⟨?_, ?_, a3, b3⟩, rfl, rfl⟩
    · simp [MCond.mkNot, notM_ok n1, nl.2.2.1, nr.2.2.1, a1, b1, pure, Except.pure]
    · simp [MCond.mkNot, notM_ok n2, nl.2.2.2, nr.2.2.2, a2, b2, pure, Except.pure]
    · rw [a4, b4, e0, not_or _ _ nl.1 nr.1]
    · rw [a5, b5, e, not_or _ _ nl.2.1 nr.2.1]

theorem twin_build (h₀ : Proper x₀) (hx : Proper x) : ∀ (e : MExpr V) (p : Bool), e.Proper E → e.Conj p → e.All (fun _ _ k => Q k) p →
    ∃ c₀ c, e.build E dbg x₀ = .ok c₀ ∧ e.build E dbg x = .ok c ∧ Twin E Q x₀ x p c₀ c
  | .plain s, p, hp, hc, ha => by cases p <;> exact hc.elim
  | .away s, p, hp, hc, ha => by
    refine ⟨.away s, .away s, rfl, rfl, rfl, hp, ?_⟩
    cases p <;> exact hc
  | .cmp i r k, p, hp, hc, ha => by
    have a0 : x₀.assigned = true := assigned_of_proper (X := .ivl x₀) h₀
    have a1 : x.assigned = true := assigned_of_proper (X := .ivl x) hx
    have := hp.1
    have a2 := Intervals.assigned_of_proper hp.2.1
    refine ⟨.cmp (k.compare (E.cv i) x₀ r) i r k, .cmp (k.compare (E.cv i) x r) i r k, by simp [MExpr.build, mkCmp, a0, a2, pure, Except.pure], by simp [MExpr.build, mkCmp, a1, a2, pure, Except.pure],
      rfl, rfl, rfl, hp.1, hp.2.1, hp.2.2, ?_⟩
    cases p <;> exact ha
  | .and e f, true, hp, hc, ha => by
    obtain ⟨c₀, c, a1, a2, a3⟩ := twin_build h₀ hx e true hp.1 hc.1 ha.1
    obtain ⟨c₀', c', b1, b2, b3⟩ := twin_build h₀ hx f true hp.2 hc.2 ha.2
    have n := twin_ne h₀ hx _ _ _ a3
    refine ⟨MCond.mkAnd c₀ c₀', MCond.mkAnd c c', by simp [MExpr.build, a1, b1, pure, Except.pure], by simp [MExpr.build, a2, b2, pure, Except.pure], ?_⟩
    simp only [MCond.mkAnd, n.2.2.1, n.2.2.2, Bool.true_or, if_true]
    exact ⟨rfl, rfl, a3, b3⟩
  | .and e f, false, hp, hc, ha => hc.elim
  | .or e f, false, hp, hc, ha => by
    obtain ⟨c₀, c, a1, a2, a3⟩ := twin_build h₀ hx e false hp.1 hc.1 ha.1
    obtain ⟨c₀', c', b1, b2, b3⟩ := twin_build h₀ hx f false hp.2 hc.2 ha.2
    have n := twin_ne h₀ hx _ _ _ a3
    refine ⟨MCond.mkOr c₀ c₀', MCond.mkOr c c', by simp [MExpr.build, a1, b1, pure, Except.pure], by simp [MExpr.build, a2, b2, pure, Except.pure], ?_⟩
    simp only [MCond.mkOr, n.2.2.1, n.2.2.2, Bool.true_or, if_true]
    exact ⟨rfl, rfl, a3, b3⟩
  | .or e f, true, hp, hc, ha => hc.elim
  | .not e, p, hp, hc, ha => by
    obtain ⟨c₀, c, a1, a2, a3⟩ := twin_build h₀ hx e (!p) hp (by cases p <;> exact hc) (by cases p <;> exact ha)
    obtain ⟨c₀', c', b1, b2, b3, -⟩ := twin_not (dbg := dbg) h₀ hx _ _ _ a3
    exact ⟨c₀', c', by simp [MExpr.build, a1, b1], by simp [MExpr.build, a2, b2], by simpa using b3⟩

theorem twin_leaf (h₀ : Proper x₀) (hx : Proper x) (hi : Inside x x₀) {i : ι} {r : Arg (V i)} {k : XRel} [CppOrder (V i)] (hr : ProperA r) (mono : MonoCast (E.cv i)) (hk : EarlyLeaf dbg k) (f : Bool) :
    detailConstrainT E dbg d x (.cmp (k.compare (E.cv i) x₀ r) i r k) f false = detailConstrainT E dbg d x (.cmp (k.compare (E.cv i) x r) i r k) f false := by
  have h := C110_order_partial (pr := E.pr i) (su := E.su i) (d := d) (dbg := dbg) h₀ hx hr mono hi k hk.1 (fun e => .inl (hk.2 e))
  have e1 : detailConstrainT E dbg d x (.cmp (k.compare (E.cv i) x₀ r) i r k) f false = (do return (← constrainOld (E.cv i) (E.pr i) (E.su i) d dbg x₀ x r k, true)) := by
    cases hc : BoolSet.contains (k.compare (E.cv i) x₀ r) true
    · rw [old_impossible h₀ hr k hc]; simp [detailConstrainT, hc]
    · rw [old_possible h₀ hr k hc _ hc]
      simp only [detailConstrainT, hc, if_true]
      congr 1
      unfold constrainRel constrainRelOld
      have := hk.1
      cases k <;> first | rfl | simp [orderX] at this
  have e2 : detailConstrainT E dbg d x (.cmp (k.compare (E.cv i) x r) i r k) f false = (do return (← constrainM (E.cv i) (E.pr i) (E.su i) d dbg x r k, true)) := by
    cases hc : BoolSet.contains (k.compare (E.cv i) x r) true
    · rw [constrainM_impossible hx hr k hc]; simp [detailConstrainT, hc]
    · rw [(constrainM_eq hx hr k hc).1]; simp only [detailConstrainT, hc, if_true]
  rw [e1, e2, h]

/-- conjunctions that constrain were possible -/
theorem twin_possible (h₀ : Proper x₀) (hx : Proper x) (hi : Inside x x₀) : ∀ (c₀ c : MCond V), Twin E (EarlyLeaf dbg) x₀ x true c₀ c → ∀ (f : Bool) (q : Ivl T × Bool), detailConstrainT E dbg d x c f false = .ok q →
    BoolSet.contains c₀.truth true = true ∧ BoolSet.contains c.truth true = true
  | .cmp s₀ i r k, .cmp s j r' k', h, f, q, hq => by
    obtain ⟨e0, e, e1, ho, h1, h2, h3⟩ := h
    cases e; subst e0; subst e1
    have hc : BoolSet.contains (k.compare (E.cv i) x r) true = true := by
      cases hc : BoolSet.contains (k.compare (E.cv i) x r) true
      · simp [detailConstrainT, hc] at hq
      · rfl
    obtain ⟨u, hu⟩ := (possible_iff hx h1 h2 k (by have := h3.1; simp only [if_true] at this; cases k <;> first | rfl | simp [orderX] at this)).mp hc
    exact ⟨possible_x h₀ h2 k ⟨hi _ hu.1, hu.2⟩, hc⟩
  | .away s₀, .away s, h, f, q, hq => by obtain ⟨rfl, _, h⟩ := h; exact ⟨h, h⟩
  | .conj s₀ l₀ r₀, .conj s l r, h, f, q, hq => by
    obtain ⟨e0, e, hl, hr⟩ := h
    have nl := twin_ne h₀ hx _ _ _ hl; have nr := twin_ne h₀ hx _ _ _ hr
    have dl : l.isDisj = false := by cases l₀ <;> cases l <;> first | rfl | exact hl.elim
    have dr : r.isDisj = false := by cases r₀ <;> cases r <;> first | rfl | exact hr.elim
    simp only [detailConstrainT, dl, dr, Bool.false_eq_true, if_false, bind_eq_ok] at hq
    obtain ⟨q1, g1, q2, g2, -⟩ := hq
    have a := twin_possible h₀ hx hi _ _ hl _ _ g1
    have b := twin_possible h₀ hx hi _ _ hr _ _ g2
    show BoolSet.contains s₀ true = true ∧ BoolSet.contains s true = true
    rw [e0, e, contains_and_true _ _ nl.1 nr.1, contains_and_true _ _ nl.2.1 nr.2.1, a.1, a.2, b.1, b.2]
    exact ⟨rfl, rfl⟩

theorem twin_same (h₀ : Proper x₀) (hx : Proper x) (hi : Inside x x₀) : ∀ (c₀ c : MCond V), Twin E (EarlyLeaf dbg) x₀ x true c₀ c → ∀ f : Bool,
    detailConstrainT E dbg d x c₀ f false = detailConstrainT E dbg d x c f false
  | .cmp s₀ i r k, .cmp s j r' k', h, f => by
    obtain ⟨e0, e, e1, ho, h1, h2, h3⟩ := h
    cases e; subst e0; subst e1
    exact twin_leaf h₀ hx hi h1 h2 h3 f
  | .away s₀, .away s, h, f => by obtain ⟨rfl, _, h⟩ := h; rfl
  | .conj s₀ l₀ r₀, .conj s l r, h, f => by
    have h' := h
    obtain ⟨e0, e, hl, hr⟩ := h
    have nl := twin_ne h₀ hx _ _ _ hl; have nr := twin_ne h₀ hx _ _ _ hr
    have dl : l₀.isDisj = false ∧ l.isDisj = false := by cases l₀ <;> cases l <;> first | exact ⟨rfl, rfl⟩ | exact hl.elim
    have dr : r₀.isDisj = false ∧ r.isDisj = false := by cases r₀ <;> cases r <;> first | exact ⟨rfl, rfl⟩ | exact hr.elim
    simp only [detailConstrainT, dl.1, dr.1, dl.2, dr.2, Bool.false_eq_true, if_false]
    rw [twin_same h₀ hx hi _ _ hl f]
    cases g1 : detailConstrainT E dbg d x l f false with
    | error e => rfl
    | ok q1 =>
      obtain ⟨xl, f1⟩ := q1
      simp only [ok_bind]
      rw [twin_same h₀ hx hi _ _ hr f1]
      cases g2 : detailConstrainT E dbg d x r f1 false with
      | error e => rfl
      | ok q2 =>
        obtain ⟨xr, f2⟩ := q2
        have a := twin_possible h₀ hx hi _ _ hl _ _ g1
        have b := twin_possible h₀ hx hi _ _ hr _ _ g2
        have c1 : BoolSet.contains s₀ true = true := by rw [e0, contains_and_true _ _ nl.1 nr.1, a.1, b.1]; rfl
        have c2 : BoolSet.contains s true = true := by rw [e, contains_and_true _ _ nl.2.1 nr.2.1, a.2, b.2]; rfl
        simp only [ok_bind, c1, c2, if_true]

/-- C110: a conjunction of comparisons with operands of any value types, formed before `x` was narrowed, constrains like the same conjunction formed now: with `<=` and `>=` always, with `<` and
`>` too in debug builds.  Only order comparisons occur, so that `constrainT`, which reads the bounds of `x` as they are now, is what the code does also for the earlier condition.
Partial: not for disjunctions (`C110_or_fails`) and not for `==`, `!=` (`C110_violated`). -/
theorem C110_conj_partial (h₀ : Proper x₀) (hx : Proper x) (hi : Inside x x₀) (e : MExpr V) (hp : e.Proper E) (hc : e.Conj true)
    (hk : e.All (fun _ _ k => orderX k = true ∧ (strictX k = true → dbg = true)) true) :
    (do constrainT E dbg d x (← e.build E dbg x₀)) = (do constrainT E dbg d x (← e.build E dbg x)) := by
  obtain ⟨c₀, c, a1, a2, a3⟩ := twin_build (dbg := dbg) h₀ hx e true hp hc hk
  rw [a1, a2]
  simp only [ok_bind]
  unfold constrainT
  rw [twin_same h₀ hx hi _ _ a3 false]
end

/-- `x > int8(2) & !(x >= short(8))`, formed while `x = [0, 10]`, used at `[1, 9]`: `[3, 7]`, as the theorem says -/
example : letI e : MExpr (fun m : {m // m ≤ 31} => SInt m.1) := .and (.cmp ⟨7, by decide⟩ (.scalar ⟨2, by decide, by decide⟩) .lessX) (.not (.cmp ⟨15, by decide⟩ (.scalar ⟨8, by decide, by decide⟩) .leqX))
    e.Proper (wideOperands 31) ∧ e.Conj true ∧ e.All (fun _ _ k => orderX k = true ∧ (strictX k = true → true = true)) true ∧
    (do constrainT (wideOperands 31) true true ⟨i32 1, i32 9⟩ (← e.build (wideOperands 31) true ⟨i32 0, i32 10⟩)) = .ok ⟨i32 3, i32 7⟩ :=
  ⟨⟨⟨inferInstance, by decide, C101_casts (K := ℚ).1 (by decide)⟩, ⟨inferInstance, by decide, C101_casts (K := ℚ).1 (by decide)⟩⟩, ⟨trivial, trivial⟩, ⟨⟨rfl, fun _ => rfl⟩, ⟨rfl, fun _ => rfl⟩⟩, by decide⟩
end Intervals.Props
