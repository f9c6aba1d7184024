import Verif.Props.ConstraintFails
/-!
# C92: constraining with a conjunction

`constrain(x, a & b)` should narrow `x` at least as far as `constrain(x, a)` and `constrain(x, b)` do.
-/
set_option linter.unusedSectionVars false
namespace Intervals.Props
open Intervals Intervals.Spec CppVal

section
variable {T : Type} [CppVal T] [CppOrder T] [CppStep T]

/-- `R` lies within `S` -/
def Narrower (R S : Ivl T) : Prop := ∀ v, v ∈ᵢ R → v ∈ᵢ S

/-- C92 in full: if the conjunction is possible, the result of constraining with it lies within the result of constraining with either conjunct. -/
def C92_full (T : Type) [CppVal T] [CppStep T] : Prop :=
  ∀ (dbg d : Bool) (id : Nat) (x R Ra : Ivl T) (a b : CExpr T) (ca c : Cond T), a.Proper → b.Proper → Proper x →
    a.build dbg = .ok ca → ((CExpr.and a b).build dbg = .ok c ∨ (CExpr.and b a).build dbg = .ok c) → BoolSet.contains c.truth true = true →
    SelfOperands d id (fun o => o.arg = .ivl x) c → StrictHom d c →
    constrain dbg d id x ca = .ok Ra → constrain dbg d id x c = .ok R → Narrower R Ra

private theorem mkAnd_conj {ca cb : Cond T} (h : ca.isCond = true ∨ cb.isCond = true) :
    Cond.mkAnd ca cb = .conj (BoolSet.and ca.truth cb.truth) ca cb := by
  rcases h with h | h <;> simp [Cond.mkAnd, h]

private theorem seen_isCond {d : Bool} {id : Nat} {c : Cond T} (h : Mentions d id (seen c)) : c.isCond = true := by
  cases c <;> first | rfl | exact absurd h (fun h => h)

private theorem flag_irrel {dbg d : Bool} {id : Nat} {x R : Ivl T} {c : Cond T} {f : Bool} (h : detailConstrain dbg d id x c false false = .ok (R, f)) (g : Bool) :
    detailConstrain dbg d id x c g false = .ok (R, (g && !c.isDisj) || decide (Mentions d id (seen c))) := by
  rw [detail_flag_eq, h]; rfl

/-- C92 for conjuncts other than disjunctions: if both can be true and `x` can be constrained with either, giving `Ra` and `Rb`, then constraining with the
conjunction gives exactly the intersection of `Ra` and `Rb`, or violates a contract if they do not meet.  Missing from the full property: conjuncts that are
disjunctions (false, `C92_violated`; see `C92_hidden` for what happens). -/
theorem C92_both_partial (dbg d : Bool) (id : Nat) (x Ra Rb : Ivl T) (a b : CExpr T) (ca cb c : Cond T) (hpa : a.Proper) (hpb : b.Proper)
    (ha : a.build dbg = .ok ca) (hb : b.build dbg = .ok cb) (hc : (CExpr.and a b).build dbg = .ok c) (hda : ca.isDisj = false) (hdb : cb.isDisj = false)
    (hta : BoolSet.contains ca.truth true = true) (htb : BoolSet.contains cb.truth true = true) (hpra : Proper Ra) (hprb : Proper Rb)
    (hRa : constrain dbg d id x ca = .ok Ra) (hRb : constrain dbg d id x cb = .ok Rb) :
    if le Ra.lo Rb.hi && le Rb.lo Ra.hi then ∃ R, constrain dbg d id x c = .ok R ∧ ∀ v, v ∈ᵢ R ↔ v ∈ᵢ Ra ∧ v ∈ᵢ Rb
    else constrain dbg d id x c = .error .contract := by
  obtain ⟨h1, m1⟩ := constrain_ok_seen hRa
  obtain ⟨h2, m2⟩ := constrain_ok_seen hRb
  obtain ⟨_, g, wa, _⟩ := build_wf (dbg := dbg) a hpa
  rw [ha] at g; cases g
  obtain ⟨_, g, wb, _⟩ := build_wf (dbg := dbg) b hpb
  rw [hb] at g; cases g
  simp only [CExpr.build, ha, hb, ok_bind, pure, Except.pure, Except.ok.injEq] at hc
  rw [mkAnd_conj (Or.inl (seen_isCond m1))] at hc
  subst hc
  have ht : BoolSet.contains (BoolSet.and ca.truth cb.truth) true = true := by
    rw [contains_and_true _ _ wa.truth_ne wb.truth_ne, hta, htb]; rfl
  simp only [constrain, detailConstrain, hda, hdb, Bool.false_eq_true, if_false, h1, ok_bind, flag_irrel h2 true, ht, if_true, m2, decide_true, Bool.or_true]
  unfold Proper at hpra hprb
  split
  · rename_i hm
    rw [show (ge Ra.hi Rb.lo && le Ra.lo Rb.hi) = true by grind, make_of_le (by grind)]
    refine ⟨⟨cmax Ra.lo Rb.lo, cmin Ra.hi Rb.hi⟩, by simp [pure, Except.pure], fun v => ?_⟩
    unfold Pt; simp only; grind
  · rename_i hm
    rw [show (ge Ra.hi Rb.lo && le Ra.lo Rb.hi) = false by grind]
    cases dbg
    · rw [expectsDebug_release, ok_bind]
      rcases make_contract (cmax Ra.lo Rb.lo) (cmin Ra.hi Rb.hi) with ⟨R, h⟩ | h
      · rw [make_eq_ok] at h; exfalso; grind
      · rw [h]; rfl
    · rfl

/-- the part of a conjunction that `constrain` does not look at, or that does not mention `x`, keeps the bounds -/
private theorem conj_one {dbg d : Bool} {id : Nat} {x R : Ivl T} {a : CExpr T} {ca cb c : Cond T} (hs : d = true → LawfulStep T) (hx : Proper x)
    (hpa : a.Proper) (ha : a.build dbg = .ok ca) (hc : c = Cond.mkAnd ca cb ∨ c = Cond.mkAnd cb ca)
    (hda : ca.isDisj = false) (hm : ¬ Mentions d id (seen cb.flat)) (ht : BoolSet.contains c.truth true = true) (hh : StrictHom d (seen ca))
    (hself : EqOperands d id (fun o => le x.lo o.arg.lo = true ∧ le o.arg.hi x.hi = true) (seen ca)) (hR : constrain dbg d id x ca = .ok R) :
    SameOutcome (constrain dbg d id x c) (.ok R) := by
  obtain ⟨h1, m1⟩ := constrain_ok_seen hR
  obtain ⟨_, g, wa, _⟩ := build_wf (dbg := dbg) a hpa
  rw [ha] at g; cases g
  have h2 : ∀ f, detailConstrain dbg d id x cb.flat f false = .ok (x, f) := fun f => by
    rw [unmentioned_eq hx cb.flat hm f false (by simp [flat_isDisj]), flat_isDisj]; simp
  obtain ⟨q1, q2, q3⟩ := detail_sub hs hx ca wa hh hself _ _ _ _ h1
  have hc1 := mkAnd_conj (ca := ca) (cb := cb) (Or.inl (seen_isCond m1))
  have hc2 := mkAnd_conj (ca := cb) (cb := ca) (Or.inr (seen_isCond m1))
  unfold Proper at *
  rcases hc with rfl | rfl
  · rw [hc1] at ht ⊢
    replace ht : BoolSet.contains (BoolSet.and ca.truth cb.truth) true = true := ht
    simp only [constrain, detail_conj, flat_of hda, h1, h2, ok_bind, ht, if_true]
    rw [show (ge R.hi x.lo && le R.lo x.hi) = true by grind, make_of_le (by grind)]
    simp only [expectsDebug_true, ok_bind, expects_true, pure, Except.pure, SameOutcome]
    grind
  · rw [hc2] at ht ⊢
    replace ht : BoolSet.contains (BoolSet.and cb.truth ca.truth) true = true := ht
    simp only [constrain, detail_conj, flat_of hda, h1, h2, ok_bind, ht, if_true]
    rw [show (ge x.hi R.lo && le x.lo R.hi) = true by grind, make_of_le (by grind)]
    simp only [expectsDebug_true, ok_bind, expects_true, pure, Except.pure, SameOutcome]
    grind

/-- C92 for a conjunct that does not mention `x` and one that is not a disjunction: the conjunction constrains like the latter. -/
theorem C92_one_partial (dbg d : Bool) (id : Nat) (x R : Ivl T) (a b : CExpr T) (ca c : Cond T) (hs : d = true → LawfulStep T) (hx : Proper x)
    (hpa : a.Proper) (hpb : b.Proper) (hfree : b.Free id) (ha : a.build dbg = .ok ca)
    (hc : (CExpr.and a b).build dbg = .ok c ∨ (CExpr.and b a).build dbg = .ok c) (hda : ca.isDisj = false) (ht : BoolSet.contains c.truth true = true)
    (hh : StrictHom d (seen ca)) (hself : EqOperands d id (fun o => le x.lo o.arg.lo = true ∧ le o.arg.hi x.hi = true) (seen ca))
    (hR : constrain dbg d id x ca = .ok R) : SameOutcome (constrain dbg d id x c) (.ok R) := by
  obtain ⟨cb, hb, _, _⟩ := build_wf (dbg := dbg) b hpb
  have hc' : c = Cond.mkAnd ca cb ∨ c = Cond.mkAnd cb ca := by
    simp only [CExpr.build, ha, hb, ok_bind, pure, Except.pure, Except.ok.injEq] at hc
    exact hc.imp Eq.symm Eq.symm
  refine conj_one hs hx hpa ha hc' hda (fun h => ?_) ht hh hself hR
  have := mentions_of_seen _ h
  refine free_mentions (d := d) hfree hb ?_
  cases cb with
  | disj s l r => exact absurd this (fun h => h)
  | _ => exact this

/-- What `constrain` does with a conjunct that is a disjunction: it ignores it.  `constrain(x, e & (f | g))` and `constrain(x, (f | g) & e)` have the same
result as `constrain(x, e)`, whatever `f` and `g` say about `x` (detail/interval.hpp:628–646, 435–440). -/
theorem C92_hidden (dbg d : Bool) (id : Nat) (x R : Ivl T) (e f g : CExpr T) (ce c : Cond T) (hs : d = true → LawfulStep T) (hx : Proper x)
    (hpe : e.Proper) (hpf : f.Proper) (hpg : g.Proper) (he : e.build dbg = .ok ce) (hde : ce.isDisj = false)
    (hcond : ∀ cf cg, f.build dbg = .ok cf → g.build dbg = .ok cg → cf.isCond = true ∨ cg.isCond = true)
    (hc : (CExpr.and e (.or f g)).build dbg = .ok c ∨ (CExpr.and (.or f g) e).build dbg = .ok c) (ht : BoolSet.contains c.truth true = true)
    (hh : StrictHom d (seen ce)) (hself : EqOperands d id (fun o => le x.lo o.arg.lo = true ∧ le o.arg.hi x.hi = true) (seen ce))
    (hR : constrain dbg d id x ce = .ok R) : SameOutcome (constrain dbg d id x c) (.ok R) := by
  obtain ⟨cb, hb, _, _⟩ := build_wf (dbg := dbg) (.or f g) ⟨hpf, hpg⟩
  have hdb := build_or_isDisj hb hcond
  have hc' : c = Cond.mkAnd ce cb ∨ c = Cond.mkAnd cb ce := by
    rcases hc with hc | hc <;> unfold CExpr.build at hc <;> simp only [he, hb, ok_bind, pure, Except.pure, Except.ok.injEq] at hc
    · exact Or.inl hc.symm
    · exact Or.inr hc.symm
  refine conj_one hs hx hpe he hc' hde ?_ ht hh hself hR
  cases cb with
  | disj s l r => exact fun h => h
  | _ => simp [Cond.isDisj] at hdb

/-- C92 fails for every disjunction that narrows `x` further than `e` does: a value that `constrain(x, e)` keeps and that `constrain(x, f | g)` removes
is not removed by constraining with the conjunction. -/
theorem C92_fails (dbg d : Bool) (id : Nat) (x Re Rd : Ivl T) (e f g : CExpr T) (ce cd c : Cond T) (u : T) (hs : d = true → LawfulStep T) (hx : Proper x)
    (hpe : e.Proper) (hpf : f.Proper) (hpg : g.Proper) (he : e.build dbg = .ok ce) (hde : ce.isDisj = false) (hd : (CExpr.or f g).build dbg = .ok cd)
    (hc : (CExpr.and e (.or f g)).build dbg = .ok c ∨ (CExpr.and (.or f g) e).build dbg = .ok c) (ht : BoolSet.contains c.truth true = true)
    (hh : StrictHom d (seen ce)) (hself : EqOperands d id (fun o => le x.lo o.arg.lo = true ∧ le o.arg.hi x.hi = true) (seen ce))
    (hRe : constrain dbg d id x ce = .ok Re) (hRd : constrain dbg d id x cd = .ok Rd) (hu : u ∈ᵢ Re) (hlost : ¬ u ∈ᵢ Rd) :
    ∃ R, constrain dbg d id x c = .ok R ∧ u ∈ᵢ R ∧ ¬ Narrower R Rd := by
  have hcond : ∀ cf cg, f.build dbg = .ok cf → g.build dbg = .ok cg → cf.isCond = true ∨ cg.isCond = true := by
    intro cf cg h1 h2
    simp only [CExpr.build, h1, h2, ok_bind, pure, Except.pure, Except.ok.injEq] at hd
    have m := seen_isCond (constrain_ok_seen hRd).2
    subst hd
    by_contra hn
    simp only [not_or, Bool.not_eq_true] at hn
    simp only [Cond.mkOr, hn.1, hn.2, Bool.or_self, Bool.false_eq_true, if_false] at m
    cases m
  have := C92_hidden dbg d id x Re e f g ce c hs hx hpe hpf hpg he hde hcond hc ht hh hself hRe
  unfold SameOutcome at this
  split at this
  · rename_i R S hR hS
    cases hS
    have hm : u ∈ᵢ R := by unfold Pt at *; grind
    exact ⟨R, hR, hm, fun hn => hlost (hn u hm)⟩
  · rename_i hS; cases hS
  · exact this.elim

/-- If the conjunction cannot be true, `constrain` does not narrow: it returns `x` as it is, or violates a contract. -/
theorem C92_impossible (dbg d : Bool) (id : Nat) (x R : Ivl T) (s : BoolSet) (l r : Cond T) (ht : BoolSet.contains s true = false)
    (h : constrain dbg d id x (.conj s l r) = .ok R) : R = x := by
  obtain ⟨h, _⟩ := constrain_ok_seen h
  simp only [detail_conj, ht, Bool.false_eq_true, if_false, bind_eq_ok, pure, Except.pure, Except.ok.injEq, Prod.mk.injEq] at h
  obtain ⟨_, _, _, _, h, _⟩ := h
  exact h.symm
end

/-! ## Witnesses: `x, y = [0,10]` (int) -/

private def x10 : Ivl (SInt 31) := ⟨i32 0, i32 10⟩
private def X : Operand (SInt 31) := .ident true 0 x10
private def Y : Operand (SInt 31) := .ident true 1 x10
private def K (v : Int) (h : -(2:Int)^31 ≤ v ∧ v ≤ 2^31 - 1 := by decide) : Operand (SInt 31) := .scalar true (i32 v h)

/-- C92 is violated (detail/interval.hpp:628–646 does not see 647–676): `((x <= 1) | (x >= 20)) & (x >= 0)` leaves `x = [0,10]` as it is, although
`(x <= 1) | (x >= 20)` alone narrows it to `[0,1]`. -/
theorem C92_violated : ¬ C92_full (SInt 31) := by
  intro h
  obtain ⟨ca, c, h1, h2, h3, h4, h5, h6, h7⟩ : ∃ ca c, (CExpr.or (.cmp .le X (K 1)) (.cmp .ge X (K 20))).build true = .ok ca ∧
      (CExpr.and (.or (.cmp .le X (K 1)) (.cmp .ge X (K 20))) (.cmp .ge X (K 0))).build true = .ok c ∧
      constrain true true 0 x10 ca = .ok ⟨i32 0, i32 1⟩ ∧ constrain true true 0 x10 c = .ok x10 ∧ BoolSet.contains c.truth true = true ∧
      SelfOperands true 0 (fun o => o.arg = .ivl x10) c ∧ StrictHom true c := by
    refine ⟨_, _, rfl, rfl, by decide, by decide, by decide, ?_, ?_⟩
    · simp [Cond.mkOr, Cond.mkAnd, Cond.isCond, SelfOperands, X, K, Operand.matchesId, Operand.arg]
    · simp [Cond.mkOr, Cond.mkAnd, Cond.isCond, StrictHom]
  have := h true true 0 x10 x10 ⟨i32 0, i32 1⟩ _ _ ca c (by refine ⟨⟨?_, ?_⟩, ⟨?_, ?_⟩⟩ <;> decide) (by refine ⟨?_, ?_⟩ <;> decide) (by decide) h1 (Or.inl h2)
    h5 h6 h7 h3 h4 (i32 5) (by decide)
  revert this; decide

/-- C92_both_partial: `(x >= 2) & (x < 7)`, and `(x >= 5) & (x <= 3)`, whose conjuncts do not meet. -/
example : ∃ ca cb c, (CExpr.cmp .ge X (K 2)).build true = .ok ca ∧ (CExpr.cmp .lt X (K 7)).build true = .ok cb ∧
    (CExpr.and (.cmp .ge X (K 2)) (.cmp .lt X (K 7))).build true = .ok c ∧ ca.isDisj = false ∧ cb.isDisj = false ∧
    BoolSet.contains ca.truth true = true ∧ BoolSet.contains cb.truth true = true ∧ constrain true true 0 x10 ca = .ok ⟨i32 2, i32 10⟩ ∧
    constrain true true 0 x10 cb = .ok ⟨i32 0, i32 6⟩ ∧ constrain true true 0 x10 c = .ok ⟨i32 2, i32 6⟩ :=
  ⟨_, _, _, rfl, rfl, rfl, rfl, rfl, by decide, by decide, by decide, by decide, by decide⟩
example : ∃ c, (CExpr.and (.cmp .ge X (K 5)) (.cmp .le X (K 3))).build true = .ok c ∧ constrain true true 0 x10 c = .error .contract := ⟨_, rfl, by decide⟩
/-- C92_one_partial: `(x >= 2) & (y >= 5)`. -/
example : (CExpr.cmp .ge Y (K 5)).Free 0 ∧ ∃ ca c, (CExpr.cmp .ge X (K 2)).build true = .ok ca ∧
    (CExpr.and (.cmp .ge X (K 2)) (.cmp .ge Y (K 5))).build true = .ok c ∧ ca.isDisj = false ∧ BoolSet.contains c.truth true = true ∧
    StrictHom true (seen ca) ∧ EqOperands true 0 (fun o => le x10.lo o.arg.lo = true ∧ le o.arg.hi x10.hi = true) (seen ca) ∧
    constrain true true 0 x10 ca = .ok ⟨i32 2, i32 10⟩ :=
  ⟨⟨by simp [Y, CExpr.AtId.at_], trivial⟩, _, _, rfl, rfl, rfl, by decide, trivial, trivial, by decide⟩
/-- C92_hidden, C92_fails: `(x >= 2) & ((x <= 3) | (x == 4))` keeps `x = 9`. -/
example : ∃ ce cd c, (CExpr.cmp .ge X (K 2)).build true = .ok ce ∧ (CExpr.or (.cmp .le X (K 3)) (.cmp .eq X (K 4))).build true = .ok cd ∧
    (CExpr.and (.cmp .ge X (K 2)) (.or (.cmp .le X (K 3)) (.cmp .eq X (K 4)))).build true = .ok c ∧ ce.isDisj = false ∧
    BoolSet.contains c.truth true = true ∧ StrictHom true (seen ce) ∧
    EqOperands true 0 (fun o => le x10.lo o.arg.lo = true ∧ le o.arg.hi x10.hi = true) (seen ce) ∧ constrain true true 0 x10 ce = .ok ⟨i32 2, i32 10⟩ ∧
    constrain true true 0 x10 cd = .ok ⟨i32 0, i32 4⟩ ∧ i32 9 ∈ᵢ (⟨i32 2, i32 10⟩ : Ivl (SInt 31)) ∧ ¬ i32 9 ∈ᵢ (⟨i32 0, i32 4⟩ : Ivl (SInt 31)) ∧
    constrain true true 0 x10 c = .ok ⟨i32 2, i32 10⟩ :=
  ⟨_, _, _, rfl, rfl, rfl, rfl, by decide, trivial, trivial, by decide, by decide, by decide, by decide, by decide⟩
/-- C92_impossible: `(x >= 5) & (y > 20)`. -/
example : ∃ s l r, (CExpr.and (.cmp .ge X (K 5)) (.cmp .gt Y (K 20))).build true = .ok (.conj s l r) ∧ BoolSet.contains s true = false ∧
    constrain true true 0 x10 (.conj s l r) = .ok x10 := ⟨_, _, _, rfl, by decide, by decide⟩

end Intervals.Props
