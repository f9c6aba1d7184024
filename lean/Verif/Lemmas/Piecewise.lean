import Verif.Spec.Piecewise
import Verif.Lemmas.Constraint
import Verif.Lemmas.Accum
import Verif.Lemmas.Partition
/-! Lemmas on programs that branch on comparisons with constants. -/
set_option linter.unusedSectionVars false
namespace Intervals
open CppVal Spec
variable {T : Type} [CppVal T] [CppOrder T] [CppStep T]

/-- what a branch does: it is entered if it has to be, and then works on an interval that has all values that belong there, and none that cannot -/
def ArmOk (dbg d : Bool) (id : Nat) (X : Ivl T) (op : CmpOp) (c : T) (b : Cond T) : Prop :=
  (BoolSet.possibly b.truth = false → ∀ v, v ∈ᵢ X → op.eval v c = false) ∧
  (BoolSet.possibly b.truth = true → ∃ R, constrain dbg d id X b = .ok R ∧ Proper R ∧ (∀ v, v ∈ᵢ X → op.eval v c = true → v ∈ᵢ R) ∧
    ∀ v, v ∈ᵢ R → v ∈ᵢ X ∧ op.Closed d v c)

theorem possibly_eq (b : BoolSet) : BoolSet.possibly b = BoolSet.contains b true := by revert b; decide

theorem arm_ok {dbg d : Bool} (id : Nat) {X : Ivl T} (hs : d = true → LawfulStep T) (hX : Proper X) {c : T} (hc : NotNan c) (op : CmpOp) :
    ∃ b, buildCmp dbg op (.ident d id X) (.scalar d c) = .ok b ∧ ArmOk dbg d id X op c b := by
  have ha : X.assigned = true := by unfold Proper at hX; unfold Ivl.assigned; grind
  have hid : (Operand.ident d id X : Operand T).matchesId d id = true := by simp [Operand.matchesId]
  have hsc : (Operand.scalar d c).matchesId d id = false := rfl
  unfold Proper at hX; unfold NotNan at hc
  cases op <;> refine ⟨_, by simp only [buildCmp, condEq, condNe, condLt, condLe, condGt, condGe, opEq, opNe, opLt, opLe, opGt, opGe, Operand.arg, Arg.assigned, ha,
    Bool.and_self, expectsDebug_true, ok_bind, pure, Except.pure]; rfl, ?_, ?_⟩ <;>
    simp only [Cond.truth, possibly_eq, contains_eq, contains_neq, contains_lt, contains_leq, if_true, Arg.lo, Arg.hi, CmpOp.eval]
  · intro h v hv; unfold Pt at hv; grind
  · intro h
    have hm : Ivl.make (cmax X.lo c) (cmin X.hi c) = .ok ⟨cmax X.lo c, cmin X.hi c⟩ := make_of_le (by grind)
    refine ⟨⟨cmax X.lo c, cmin X.hi c⟩, ?_, ?_, ?_, ?_⟩
    · simp only [constrain, detailConstrain, hid, Bool.true_or, if_true, contains_eq, Arg.lo, Arg.hi, Operand.arg, h, expectsDebug_true, ok_bind, hm, pure, Except.pure, expects_true]
    · unfold Proper; simp only; grind
    · intro v hv hvc; unfold Pt at *; simp only; grind
    · intro v hv; unfold Pt at *; simp only [CmpOp.Closed, CmpOp.eval] at hv ⊢; grind
  · intro h v hv; unfold Pt at hv; grind
  · intro h
    have hne : (ne X.lo c || ne X.hi c) = true := by simpa [contains_neq, Arg.lo, Arg.hi] using h
    have hcc : eq c c = true := by grind
    simp only [constrain, detailConstrain, hid, hsc, Bool.true_or, if_true, contains_neq, Arg.lo, Arg.hi, Operand.arg, Operand.disc, hne, expectsDebug_true, ok_bind,
      Bool.and_true, hcc, Bool.and_false, Bool.false_and, Bool.false_eq_true, if_false]
    by_cases h1 : (d && ne X.lo X.hi && eq X.lo c) = true
    · simp only [h1, if_true]
      simp only [Bool.and_eq_true] at h1
      obtain ⟨⟨hd, hlh⟩, hl⟩ := h1
      obtain ⟨p, e1, e2, e3, e4, e5, e6⟩ := succStep_spec hs (a := X.lo) (b := X.hi) (by grind)
      rw [e1]; simp only [ok_bind, make_of_le e2, pure, Except.pure, expects_true]
      refine ⟨_, rfl, e2, ?_, ?_⟩
      · intro v hv hvc; have := e4 v; unfold Pt at *; simp only; grind
      · intro v hv; unfold Pt at *; simp only [CmpOp.Closed] at hv ⊢; grind
    · simp only [h1, if_false]
      by_cases h2 : (d && ne X.lo X.hi && eq X.hi c) = true
      · simp only [h2, if_true]
        simp only [Bool.and_eq_true] at h2
        obtain ⟨⟨hd, hlh⟩, hl⟩ := h2
        obtain ⟨p, e1, e2, e3, e4, e5, e6⟩ := predStep_spec hs (a := X.lo) (b := X.hi) (by grind)
        rw [e1]; simp only [ok_bind, make_of_le e2, pure, Except.pure, expects_true]
        refine ⟨_, rfl, e2, ?_, ?_⟩
        · intro v hv hvc; have := e4 v; unfold Pt at *; simp only; grind
        · intro v hv; unfold Pt at *; simp only [CmpOp.Closed] at hv ⊢; grind
      · simp only [h2, if_false, pure, Except.pure, ok_bind, expects_true]
        exact ⟨X, rfl, hX, fun v hv _ => hv, fun v hv => ⟨hv, trivial⟩⟩
  · intro h v hv; unfold Pt at hv; grind
  · intro h
    obtain ⟨p, h1, h2⟩ := constrain_less_left (dbg := dbg) id hs (x := X) (e := c) (s := compareLt (.ivl X) (.scalar c)) hX (by simpa [contains_lt, Arg.lo, Arg.hi] using h) h
    obtain ⟨p', h1', h3, h4, h5, h6, h7⟩ := predStep_spec hs h
    rw [h1] at h1'; cases h1'
    refine ⟨_, h2, ?_, ?_, ?_⟩
    · unfold Proper; simp only; grind
    · intro v hv hvc; have := h5 v hvc; unfold Pt at *; simp only; grind
    · intro v hv; unfold Pt at *; simp only [CmpOp.Closed] at hv ⊢; cases d
      · have := h7 rfl; simp only [Bool.false_eq_true, if_false]; grind
      · have := h6 rfl; simp only [if_true]; grind
  · intro h v hv; unfold Pt at hv; grind
  · intro h
    refine ⟨_, constrain_leq_left (dbg := dbg) id hX (by simpa [contains_leq, Arg.lo, Arg.hi] using h) h, ?_, ?_, ?_⟩
    · unfold Proper; simp only; grind
    · intro v hv hvc; unfold Pt at *; simp only; grind
    · intro v hv; unfold Pt at *; simp only [CmpOp.Closed, CmpOp.eval] at hv ⊢; grind
  · intro h v hv; unfold Pt at hv; grind
  · intro h
    obtain ⟨p, h1, h2⟩ := constrain_less_right (dbg := dbg) id hs (x := X) (e := c) (s := compareLt (.scalar c) (.ivl X)) hX (by simpa [contains_lt, Arg.lo, Arg.hi] using h) h
    obtain ⟨p', h1', h3, h4, h5, h6, h7⟩ := succStep_spec hs h
    rw [h1] at h1'; cases h1'
    refine ⟨_, h2, ?_, ?_, ?_⟩
    · unfold Proper; simp only; grind
    · intro v hv hvc; have := h5 v hvc; unfold Pt at *; simp only; grind
    · intro v hv; unfold Pt at *; simp only [CmpOp.Closed] at hv ⊢; cases d
      · have := h7 rfl; simp only [Bool.false_eq_true, if_false]; grind
      · have := h6 rfl; simp only [if_true]; grind
  · intro h v hv; unfold Pt at hv; grind
  · intro h
    refine ⟨_, constrain_leq_right (dbg := dbg) id hX (by simpa [contains_leq, Arg.lo, Arg.hi] using h) h, ?_, ?_, ?_⟩
    · unfold Proper; simp only; grind
    · intro v hv hvc; unfold Pt at *; simp only; grind
    · intro v hv; unfold Pt at *; simp only [CmpOp.Closed, CmpOp.eval] at hv ⊢; grind

/-- for a continuous type, a branch works on all values that meet its condition as a limit -/
theorem arm_closed {dbg : Bool} (id : Nat) {X : Ivl T} (hX : Proper X) {c : T} (hc : NotNan c) (op : CmpOp) {b : Cond T} {R : Ivl T}
    (hb : buildCmp dbg op (.ident false id X) (.scalar false c) = .ok b) (hp : BoolSet.possibly b.truth = true) (hR : constrain dbg false id X b = .ok R)
    {v : T} (hv : v ∈ᵢ X) (hvc : op.Closed false v c) : v ∈ᵢ R := by
  have ha : X.assigned = true := by unfold Proper at hX; unfold Ivl.assigned; grind
  have hid : (Operand.ident false id X : Operand T).matchesId false id = true := by simp [Operand.matchesId]
  have hs : (false = true → LawfulStep T) := fun h => nomatch h
  obtain ⟨b', hb', _, h1⟩ := arm_ok (dbg := dbg) id hs hX hc op
  rw [hb] at hb'; cases hb'
  obtain ⟨R', r1, _, r3, _⟩ := h1 hp
  rw [hR] at r1; cases r1
  cases op
  case lt =>
    simp only [buildCmp, condLt, opLt, Operand.arg, Arg.assigned, ha, Bool.and_self, expectsDebug_true, ok_bind, pure, Except.pure, Except.ok.injEq] at hb
    subst hb
    simp only [Cond.truth, possibly_eq, contains_lt, if_true, Arg.lo, Arg.hi] at hp
    obtain ⟨p, h1, h2⟩ := constrain_less_left (dbg := dbg) id hs (x := X) (e := c) (s := compareLt (.ivl X) (.scalar c)) hX (by simpa [contains_lt, Arg.lo, Arg.hi] using hp) hp
    rw [h2] at hR; cases hR
    cases h1
    simp only [CmpOp.Closed, Bool.false_eq_true, if_false] at hvc
    unfold Pt at *; simp only; grind
  case gt =>
    simp only [buildCmp, condGt, condLt, opGt, opLt, Operand.arg, Arg.assigned, ha, Bool.and_self, expectsDebug_true, ok_bind, pure, Except.pure, Except.ok.injEq] at hb
    subst hb
    simp only [Cond.truth, possibly_eq, contains_lt, if_true, Arg.lo, Arg.hi] at hp
    obtain ⟨p, h1, h2⟩ := constrain_less_right (dbg := dbg) id hs (x := X) (e := c) (s := compareLt (.scalar c) (.ivl X)) hX (by simpa [contains_lt, Arg.lo, Arg.hi] using hp) hp
    rw [h2] at hR; cases hR
    cases h1
    simp only [CmpOp.Closed, Bool.false_eq_true, if_false] at hvc
    unfold Pt at *; simp only; grind
  case ne =>
    simp only [buildCmp, condNe, opNe, Operand.arg, Arg.assigned, ha, Bool.and_self, expectsDebug_true, ok_bind, pure, Except.pure, Except.ok.injEq] at hb
    subst hb
    simp only [Cond.truth, possibly_eq, contains_neq, if_true, Arg.lo, Arg.hi] at hp
    have hne : (ne X.lo c || ne X.hi c) = true := hp
    simp only [constrain, detailConstrain, hid, Bool.true_or, if_true, contains_neq, Arg.lo, Arg.hi, Operand.arg, hne, expectsDebug_true, ok_bind,
      Bool.false_and, Bool.false_eq_true, if_false, pure, Except.pure, expects_true, Except.ok.injEq] at hR
    subst hR; exact hv
  all_goals exact r3 v hv hvc

theorem eval_neg (op : CmpOp) {a c : T} (ha : NotNan a) (hc : NotNan c) : op.neg.eval a c = !op.eval a c := by
  unfold NotNan at *; cases op <;> simp only [CmpOp.neg, CmpOp.eval] <;> grind

theorem mkNot_build {dbg d : Bool} (id : Nat) {X : Ivl T} (hX : Proper X) {c : T} (hc : NotNan c) (op : CmpOp) {b : Cond T}
    (hb : buildCmp dbg op (.ident d id X) (.scalar d c) = .ok b) : Cond.mkNot dbg b = buildCmp dbg op.neg (.ident d id X) (.scalar d c) := by
  have ha : X.assigned = true := by unfold Proper at hX; unfold Ivl.assigned; grind
  have n1 : ProperA (.ivl X) := hX
  have n2 : ProperA (.scalar c) := hc
  have ne : ∀ l r : Arg T, ProperA l → ProperA r → compareLt l r ≠ BoolSet.empty ∧ compareLeq l r ≠ BoolSet.empty ∧ compareEq l r ≠ BoolSet.empty ∧
      compareNeq l r ≠ BoolSet.empty := by
    intro l r hl hr
    have hl := properA_le hl; have hr := properA_le hr
    refine ⟨ne_empty_of ?_, ne_empty_of ?_, ne_empty_of ?_, ne_empty_of ?_⟩ <;>
      simp only [contains_lt, contains_leq, contains_eq, contains_neq, if_true, Bool.false_eq_true, if_false] <;> grind
  obtain ⟨u1, u2, u3, u4⟩ := ne _ _ n1 n2
  obtain ⟨w1, w2, w3, w4⟩ := ne _ _ n2 n1
  cases op <;> simp only [buildCmp, condEq, condNe, condLt, condLe, condGt, condGe, opEq, opNe, opLt, opLe, opGt, opGe, Operand.arg, Arg.assigned, ha, CmpOp.neg,
    Bool.and_self, expectsDebug_true, ok_bind, pure, Except.pure, Except.ok.injEq] at hb ⊢ <;> subst hb <;>
    simp only [Cond.mkNot, notM_ok u1, notM_ok u2, notM_ok u3, notM_ok u4, notM_ok w1, notM_ok w2, not_compareLt n1 n2, not_compareLt n2 n1, not_compareLeq n1 n2,
      not_compareLeq n2 n1, not_compareEq, not_compareNeq, ok_bind, pure, Except.pure]

section
variable {U : Type} [CppVal U] [CppOrder U] [CppLimits U] [CppLawfulLimits U] {n : Nat}

theorem first_assignP {S : Ivl U} (hS : Proper S) :
    ∃ R, Ivl.assignPartial Ivl.unassigned S = .ok R ∧ eq R.lo S.lo = true ∧ eq R.hi S.hi = true := by
  have has : S.assigned = true := by unfold Proper at hS; unfold Ivl.assigned; grind
  unfold Proper at hS
  have h1 := CppLawfulLimits.le_top S.lo (cle_left hS)
  have h2 := CppLawfulLimits.bot_le S.hi (cle_right hS)
  refine ⟨Ivl.assignCore Ivl.unassigned S.lo S.hi, by simp only [Ivl.assignPartial, Ivl.assign, has, expects_true, ok_bind, pure, Except.pure], ?_, ?_⟩
  · simp only [Ivl.assignCore, Ivl.unassigned]; grind
  · simp only [Ivl.assignCore, Ivl.unassigned]; grind
theorem second_assignP {R S : Ivl U} (hR : Proper R) (hS : Proper S) :
    ∃ R', Ivl.assignPartial R S = .ok R' ∧ (eq R'.lo R.lo = true ∨ eq R'.lo S.lo = true) ∧ (eq R'.hi R.hi = true ∨ eq R'.hi S.hi = true) ∧
      le R'.lo R.lo = true ∧ le R'.lo S.lo = true ∧ le R.hi R'.hi = true ∧ le S.hi R'.hi = true := by
  have has : S.assigned = true := by unfold Proper at hS; unfold Ivl.assigned; grind
  unfold Proper at hS hR
  refine ⟨Ivl.assignCore R S.lo S.hi, by simp only [Ivl.assignPartial, Ivl.assign, has, expects_true, ok_bind, pure, Except.pure], ?_⟩
  simp only [Ivl.assignCore]
  refine ⟨?_, ?_, ?_, ?_, ?_, ?_⟩ <;> grind

/-- the range of a program on a box -/
def PExact (d : Bool) (zero : U) (t : PTree T U n) (X : Fin n → Ivl T) (R : Ivl U) : Prop :=
  (∀ v, Box X v → ∃ u, t.runS zero v = .ok u ∧ u ∈ᵢ R) ∧ Attains X (t.Near d) R

theorem setAt_self {A : Type} (X : Fin n → A) (i : Fin n) : setAt X i (X i) = X := by
  funext j; unfold setAt; split
  · next h => rw [h]
  · rfl

theorem box_setAt {X : Fin n → Ivl T} {i : Fin n} {Y : Ivl T} {v : Fin n → T} : Box (setAt X i Y) v ↔ v i ∈ᵢ Y ∧ ∀ j, j ≠ i → v j ∈ᵢ X j := by
  unfold Box setAt
  constructor
  · intro h; exact ⟨by simpa using h i, fun j hj => by simpa [hj] using h j⟩
  · rintro ⟨h1, h2⟩ j
    by_cases hj : j = i
    · subst hj; simpa using h1
    · simpa [hj] using h2 j hj

theorem runS_node (zero : U) (i : Fin n) (op : CmpOp) (c : T) (p q : PTree T U n) (v : Fin n → T) :
    (PTree.node i op c p q).runS zero v = if op.eval (v i) c then p.runS zero v else q.runS zero v := by
  simp only [PTree.runS]
  cases h : op.eval (v i) c
  · simp only [Bool.false_eq_true, if_false, Bool.not_false, if_true, Scalar.constrain, expects_true, ok_bind, pure, Except.pure, setAt_self, Scalar.assignPartial]
    cases q.runS zero v <;> rfl
  · simp only [if_true, Bool.not_true, Bool.false_eq_true, if_false, Scalar.constrain, expects_true, ok_bind, pure, Except.pure, setAt_self, Scalar.assignPartial]
    cases p.runS zero v <;> rfl

theorem Spec.Attains.mono {X Y : Fin n → Ivl T} {P Q : (Fin n → T) → U → Prop} {R S : Ivl U} (h : Attains Y P S) (hb : ∀ v, Box Y v → Box X v)
    (hPQ : ∀ v u, Box Y v → P v u → Q v u) :
    (eq R.lo S.lo = true → ∃ v u, Box X v ∧ Q v u ∧ eq u R.lo = true) ∧ (eq R.hi S.hi = true → ∃ v u, Box X v ∧ Q v u ∧ eq u R.hi = true) := by
  obtain ⟨⟨v, u, h1, h2, h3⟩, ⟨w, y, h4, h5, h6⟩⟩ := h
  exact ⟨fun e => ⟨v, u, hb v h1, hPQ v u h1 h2, by grind⟩, fun e => ⟨w, y, hb w h4, hPQ w y h4 h5, by grind⟩⟩

theorem ptree_ok {dbg d : Bool} (zero : U) (hs : d = true → LawfulStep T) (t : PTree T U n) : ∀ (D : (Fin n → T) → Prop), t.LeavesExact d D →
    ∀ X : Fin n → Ivl T, (∀ i, Proper (X i)) → (∀ v, Box X v → D v) → ∃ R, t.runI dbg d X = .ok R ∧ Proper R ∧ PExact d zero t X R := by
  induction t with
  | leaf f g =>
    intro D h X hX hD
    obtain ⟨R, h1, h2, h3⟩ := h dbg X hX hD
    refine ⟨R, h1, ?_, h2, h3⟩
    obtain ⟨v, u, hv, _, _⟩ := h3.1
    obtain ⟨u', _, hu'⟩ := h2 v hv
    exact CppOrder.le_trans _ _ _ hu'.1 hu'.2
  | node i op c p q ihp ihq =>
    rintro D ⟨hc, hp, hq⟩ X hX hD
    obtain ⟨b, hb, b0, b1⟩ := arm_ok (dbg := dbg) i.val hs (hX i) hc op
    obtain ⟨nb, hnb, c0, c1⟩ := arm_ok (dbg := dbg) i.val hs (hX i) hc op.neg
    have hmk := mkNot_build i.val (hX i) hc op hb
    rw [hnb] at hmk
    -- one branch
    have arm : ∀ (op : CmpOp) (r : PTree T U n), r.LeavesExact d (fun v => D v ∧ op.Closed d (v i) c) →
        (∀ D : (Fin n → T) → Prop, r.LeavesExact d D → ∀ X : Fin n → Ivl T, (∀ i, Proper (X i)) → (∀ v, Box X v → D v) →
          ∃ R, r.runI dbg d X = .ok R ∧ Proper R ∧ PExact d zero r X R) → ∀ Y, Proper Y →
        (∀ v, v ∈ᵢ Y → v ∈ᵢ X i ∧ op.Closed d v c) → ∃ S, r.runI dbg d (setAt X i Y) = .ok S ∧ Proper S ∧ PExact d zero r (setAt X i Y) S := by
      intro op r hr ih Y hY hYX
      refine ih _ hr _ ?_ ?_
      · intro j; unfold setAt; split
        · exact hY
        · exact hX j
      · intro v hv
        rw [box_setAt] at hv
        refine ⟨hD v fun j => ?_, (hYX _ hv.1).2⟩
        by_cases hj : j = i
        · subst hj; exact (hYX _ hv.1).1
        · exact hv.2 j hj
    have mono : ∀ {Y : Ivl T} {v : Fin n → T}, (∀ v, v ∈ᵢ Y → v ∈ᵢ X i) → Box (setAt X i Y) v → Box X v := by
      intro Y v hY hv j
      rw [box_setAt] at hv
      by_cases hj : j = i
      · subst hj; exact hY _ hv.1
      · exact hv.2 j hj
    have sub : ∀ {Y : Ivl T} {v : Fin n → T}, v i ∈ᵢ Y → Box X v → Box (setAt X i Y) v := fun h1 h2 => box_setAt.mpr ⟨h1, fun j _ => h2 j⟩
    have nn : ∀ {v : Fin n → T}, Box X v → op.neg.eval (v i) c = !op.eval (v i) c := fun hv => eval_neg op (CppOrder.le_right _ _ (hv i).1) hc
    have lo : (X i).lo ∈ᵢ X i := ⟨CppOrder.le_left _ _ (hX i), hX i⟩
    simp only [PTree.runI, hb, ok_bind, hmk]
    cases hpb : BoolSet.possibly b.truth
    · cases hpn : BoolSet.possibly nb.truth
      · have e1 := b0 hpb _ lo
        have e2 := c0 hpn _ lo
        rw [eval_neg op (CppOrder.le_right _ _ lo.1) hc, e1] at e2
        cases e2
      · obtain ⟨Y, y1, y2, y3, y4⟩ := c1 hpn
        obtain ⟨S, s1, s2, s3, s4⟩ := arm op.neg q hq ihq Y y2 y4
        obtain ⟨R, r1, r2, r3⟩ := first_assignP s2
        have m := s4.mono (X := X) (Q := (PTree.node i op c p q).Near d) (R := R) (fun v hv => mono (fun v hv => (y4 v hv).1) hv)
          (fun v u hv h => .inr ⟨(y4 _ (box_setAt.mp hv).1).2, h⟩)
        simp only [Bool.false_eq_true, if_false, if_true, pure, Except.pure, ok_bind, y1, s1, r1]
        refine ⟨R, rfl, ?_, ?_, m.1 r2, m.2 r3⟩
        · unfold Proper at *; grind
        · intro v hv
          have e1 := b0 hpb _ (hv i)
          obtain ⟨u, u1, u2⟩ := s3 v (sub (y3 _ (hv i) (by rw [nn hv, e1]; rfl)) hv)
          refine ⟨u, by rw [runS_node, e1]; simpa using u1, ?_⟩
          unfold Pt at *; grind
    · obtain ⟨Z, z1, z2, z3, z4⟩ := b1 hpb
      obtain ⟨S, s1, s2, s3, s4⟩ := arm op p hp ihp Z z2 z4
      obtain ⟨R, r1, r2, r3⟩ := first_assignP s2
      have hR : Proper R := by unfold Proper at *; grind
      have m : ∀ R' : Ivl U, _ := fun R' => s4.mono (X := X) (Q := (PTree.node i op c p q).Near d) (R := R') (fun v hv => mono (fun v hv => (z4 v hv).1) hv)
        (fun v u hv h => .inl ⟨(z4 _ (box_setAt.mp hv).1).2, h⟩)
      have inS : ∀ v, Box X v → op.eval (v i) c = true → ∃ u, (PTree.node i op c p q).runS zero v = .ok u ∧ u ∈ᵢ S := by
        intro v hv e1
        obtain ⟨u, u1, u2⟩ := s3 v (sub (z3 _ (hv i) e1) hv)
        exact ⟨u, by rw [runS_node, e1]; simpa using u1, u2⟩
      cases hpn : BoolSet.possibly nb.truth
      · simp only [Bool.false_eq_true, if_false, if_true, pure, Except.pure, ok_bind, z1, s1, r1]
        refine ⟨R, rfl, hR, ?_, (m R).1 r2, (m R).2 r3⟩
        intro v hv
        have e1 := c0 hpn _ (hv i)
        rw [nn hv] at e1
        obtain ⟨u, u1, u2⟩ := inS v hv (by simpa using e1)
        refine ⟨u, u1, ?_⟩
        unfold Pt at *; grind
      · obtain ⟨Y, y1, y2, y3, y4⟩ := c1 hpn
        obtain ⟨S', t1, t2, t3, t4⟩ := arm op.neg q hq ihq Y y2 y4
        obtain ⟨R', q1, q2, q3, q4, q5, q6, q7⟩ := second_assignP hR t2
        have m' := t4.mono (X := X) (Q := (PTree.node i op c p q).Near d) (R := R') (fun v hv => mono (fun v hv => (y4 v hv).1) hv)
          (fun v u hv h => .inr ⟨(y4 _ (box_setAt.mp hv).1).2, h⟩)
        simp only [if_true, pure, Except.pure, ok_bind, z1, s1, r1, y1, t1, q1]
        refine ⟨R', rfl, ?_, ?_, ?_, ?_⟩
        · unfold Proper at *; grind
        · intro v hv
          cases e1 : op.eval (v i) c
          · obtain ⟨u, u1, u2⟩ := t3 v (sub (y3 _ (hv i) (by rw [nn hv, e1]; rfl)) hv)
            refine ⟨u, by rw [runS_node, e1]; simpa using u1, ?_⟩
            unfold Pt at *; grind
          · obtain ⟨u, u1, u2⟩ := inS v hv e1
            refine ⟨u, u1, ?_⟩
            unfold Pt at *; grind
        · rcases q2 with e | e
          · exact (m R').1 (by grind)
          · exact m'.1 e
        · rcases q3 with e | e
          · exact (m R').2 (by grind)
          · exact m'.2 e

/-- at the seams the adjacent pieces have the value of the program -/
theorem near_seamless (zero : U) (d : Bool) (t : PTree T U n) : ∀ D : (Fin n → T) → Prop, t.LeavesExact d D → t.Seamless zero d D → ∀ v, D v → (∀ i, NotNan (v i)) →
    ∀ u, t.Near d v u → ∃ u', t.runS zero v = .ok u' ∧ (eq u u' = true ∨ u = u') := by
  induction t with
  | leaf f g => intro D _ _ v _ _ u h; exact ⟨u, h, .inr rfl⟩
  | node i op c p q ihp ihq =>
    rintro D ⟨hc, lp, lq⟩ ⟨h0, sp, sq⟩ v hv hn u h
    rw [runS_node]
    have cl : ∀ op : CmpOp, op.Closed d (v i) c → op.eval (v i) c = true ∨ eq (v i) c = true := by
      intro op h
      have := hn i
      unfold NotNan at this hc
      cases op <;> simp only [CmpOp.Closed, CmpOp.eval] at * <;> cases d <;> simp only [Bool.false_eq_true, if_false, if_true] at * <;> grind
    rcases h with ⟨h1, h2⟩ | ⟨h1, h2⟩
    · obtain ⟨u', e1, e2⟩ := ihp _ lp sp v ⟨hv, h1⟩ hn u h2
      by_cases he : op.eval (v i) c = true
      · rw [if_pos he]; exact ⟨u', e1, e2⟩
      · rw [if_neg he]
        obtain ⟨w, w', f1, f2, f3⟩ := h0 v hv ((cl op h1).resolve_left he)
        rw [e1] at f1; cases f1
        exact ⟨w', f2, .inl (by grind)⟩
    · obtain ⟨u', e1, e2⟩ := ihq _ lq sq v ⟨hv, h1⟩ hn u h2
      by_cases he : op.eval (v i) c = true
      · rw [if_pos he]
        have : eq (v i) c = true := (cl op.neg h1).resolve_left (by rw [eval_neg op (hn i) hc, he]; simp)
        obtain ⟨w, w', f1, f2, f3⟩ := h0 v hv this
        rw [e1] at f2; cases f2
        exact ⟨w, f1, .inl (by grind)⟩
      · rw [if_neg he]; exact ⟨u', e1, e2⟩

theorem closed_cases {d : Bool} {op : CmpOp} {a c : T} (ha : NotNan a) (hc : NotNan c) (h : op.Closed d a c) : op.eval a c = true ∨ eq a c = true := by
  unfold NotNan at ha hc
  cases op <;> cases d <;> simp [CmpOp.Closed, CmpOp.eval] at * <;> grind

/-- the hull of two intervals with a common value has no other values -/
theorem hull_mem {R' R S S' : Ivl U} {u w w' : U} (r2 : eq R.lo S.lo = true) (r3 : eq R.hi S.hi = true) (q2 : eq R'.lo R.lo = true ∨ eq R'.lo S'.lo = true)
    (q3 : eq R'.hi R.hi = true ∨ eq R'.hi S'.hi = true) (w2 : w ∈ᵢ S) (w4 : w' ∈ᵢ S') (f : eq w w' = true) (hu : u ∈ᵢ R') : u ∈ᵢ S ∨ u ∈ᵢ S' := by
  obtain ⟨a1, a2⟩ := w2; obtain ⟨b1, b2⟩ := w4; obtain ⟨u1, u2⟩ := hu
  have nu := CppOrder.le_right _ _ u1
  have nw := CppOrder.le_right _ _ a1
  rcases CppOrder.le_total u w nu nw with h | h
  · rcases q2 with e | e
    · left; exact ⟨by grind, by grind⟩
    · right; exact ⟨by grind, by grind⟩
  · rcases q3 with e | e
    · left; exact ⟨by grind, by grind⟩
    · right; exact ⟨by grind, by grind⟩

/-- for a continuous type and pieces that agree at the seams, no value between the bounds is missed -/
theorem ptree_onto {dbg : Bool} (zero : U) (t : PTree T U n) : ∀ D : (Fin n → T) → Prop, t.LeavesExact false D → t.LeavesOnto false D → t.Seamless zero false D →
    ∀ X : Fin n → Ivl T, (∀ i, Proper (X i)) → (∀ v, Box X v → D v) → ∀ R, t.runI dbg false X = .ok R → ∀ u, u ∈ᵢ R →
    ∃ v u', Box X v ∧ t.runS zero v = .ok u' ∧ eq u' u = true := by
  have hs : (false = true → LawfulStep T) := fun h => nomatch h
  induction t with
  | leaf f g =>
    intro D _ h _ X hX hD R hR u hu
    exact h dbg X R hX hD hR u hu
  | node i op c p q ihp ihq =>
    rintro D ⟨hc, hp, hq⟩ ⟨op1, oq1⟩ ⟨h0, sp, sq⟩ X hX hD R0 hR0 u hu
    obtain ⟨b, hb, b0, b1⟩ := arm_ok (dbg := dbg) i.val hs (hX i) hc op
    obtain ⟨nb, hnb, c0, c1⟩ := arm_ok (dbg := dbg) i.val hs (hX i) hc op.neg
    have hmk := mkNot_build i.val (hX i) hc op hb
    rw [hnb] at hmk
    have nan : ∀ {v : Fin n → T}, Box X v → NotNan (v i) := fun hv => CppOrder.le_right _ _ (hv i).1
    have mono : ∀ {Y : Ivl T} {v : Fin n → T}, (∀ v, v ∈ᵢ Y → v ∈ᵢ X i) → Box (setAt X i Y) v → Box X v := by
      intro Y v hY hv j
      rw [box_setAt] at hv
      by_cases hj : j = i
      · subst hj; exact hY _ hv.1
      · exact hv.2 j hj
    have prop : ∀ {Y : Ivl T}, Proper Y → ∀ j, Proper (setAt X i Y j) := by
      intro Y hY j; unfold setAt; split
      · exact hY
      · exact hX j
    have armp : ∀ Y, Proper Y → (∀ v, v ∈ᵢ Y → v ∈ᵢ X i ∧ op.Closed false v c) → ∃ S, p.runI dbg false (setAt X i Y) = .ok S ∧ Proper S ∧
        (∀ v, Box (setAt X i Y) v → ∃ u, p.runS zero v = .ok u ∧ u ∈ᵢ S) ∧
        ∀ u, u ∈ᵢ S → ∃ v u', Box X v ∧ (PTree.node i op c p q).runS zero v = .ok u' ∧ eq u' u = true := by
      intro Y hY hYX
      have hYD : ∀ v, Box (setAt X i Y) v → D v ∧ op.Closed false (v i) c := fun v hv => ⟨hD v (mono (fun v hv => (hYX v hv).1) hv), (hYX _ (box_setAt.mp hv).1).2⟩
      obtain ⟨S, s1, s2, s3, _⟩ := ptree_ok (dbg := dbg) zero hs p _ hp _ (prop hY) hYD
      refine ⟨S, s1, s2, s3, fun u hu => ?_⟩
      obtain ⟨v, u', v1, v2, v3⟩ := ihp _ hp op1 sp _ (prop hY) hYD S s1 u hu
      have vX : Box X v := mono (fun v hv => (hYX v hv).1) v1
      rcases closed_cases (nan vX) hc (hYD v v1).2 with e | e
      · exact ⟨v, u', vX, by rw [runS_node, if_pos e]; exact v2, v3⟩
      · by_cases e' : op.eval (v i) c = true
        · exact ⟨v, u', vX, by rw [runS_node, if_pos e']; exact v2, v3⟩
        · obtain ⟨w, w', f1, f2, f3⟩ := h0 v (hD v vX) e
          rw [v2] at f1; cases f1
          exact ⟨v, w', vX, by rw [runS_node, if_neg e']; exact f2, by grind⟩
    have armq : ∀ Y, Proper Y → (∀ v, v ∈ᵢ Y → v ∈ᵢ X i ∧ op.neg.Closed false v c) → ∃ S, q.runI dbg false (setAt X i Y) = .ok S ∧ Proper S ∧
        (∀ v, Box (setAt X i Y) v → ∃ u, q.runS zero v = .ok u ∧ u ∈ᵢ S) ∧
        ∀ u, u ∈ᵢ S → ∃ v u', Box X v ∧ (PTree.node i op c p q).runS zero v = .ok u' ∧ eq u' u = true := by
      intro Y hY hYX
      have hYD : ∀ v, Box (setAt X i Y) v → D v ∧ op.neg.Closed false (v i) c := fun v hv => ⟨hD v (mono (fun v hv => (hYX v hv).1) hv), (hYX _ (box_setAt.mp hv).1).2⟩
      obtain ⟨S, s1, s2, s3, _⟩ := ptree_ok (dbg := dbg) zero hs q _ hq _ (prop hY) hYD
      refine ⟨S, s1, s2, s3, fun u hu => ?_⟩
      obtain ⟨v, u', v1, v2, v3⟩ := ihq _ hq oq1 sq _ (prop hY) hYD S s1 u hu
      have vX : Box X v := mono (fun v hv => (hYX v hv).1) v1
      by_cases e' : op.eval (v i) c = true
      · have e := (closed_cases (nan vX) hc (hYD v v1).2).resolve_left (by rw [eval_neg op (nan vX) hc, e']; simp)
        obtain ⟨w, w', f1, f2, f3⟩ := h0 v (hD v vX) e
        rw [v2] at f2; cases f2
        exact ⟨v, w, vX, by rw [runS_node, if_pos e']; exact f1, by grind⟩
      · exact ⟨v, u', vX, by rw [runS_node, if_neg e']; exact v2, v3⟩
    simp only [PTree.runI, hb, ok_bind, hmk] at hR0
    have lo : (X i).lo ∈ᵢ X i := ⟨CppOrder.le_left _ _ (hX i), hX i⟩
    cases hpb : BoolSet.possibly b.truth
    · cases hpn : BoolSet.possibly nb.truth
      · have e1 := b0 hpb _ lo
        have e2 := c0 hpn _ lo
        rw [eval_neg op (CppOrder.le_right _ _ lo.1) hc, e1] at e2
        cases e2
      · obtain ⟨Y, y1, y2, y3, y4⟩ := c1 hpn
        obtain ⟨S, s1, s2, s3, s4⟩ := armq Y y2 y4
        obtain ⟨R, r1, r2, r3⟩ := first_assignP s2
        simp only [hpb, hpn, Bool.false_eq_true, if_false, if_true, pure, Except.pure, ok_bind, y1, s1, r1, Except.ok.injEq] at hR0
        subst hR0
        exact s4 u (by unfold Pt at *; grind)
    · obtain ⟨Z, z1, z2, z3, z4⟩ := b1 hpb
      obtain ⟨S, s1, s2, s3, s4⟩ := armp Z z2 z4
      obtain ⟨R, r1, r2, r3⟩ := first_assignP s2
      cases hpn : BoolSet.possibly nb.truth
      · simp only [hpb, hpn, Bool.false_eq_true, if_false, if_true, pure, Except.pure, ok_bind, z1, s1, r1, Except.ok.injEq] at hR0
        subst hR0
        exact s4 u (by unfold Pt at *; grind)
      · obtain ⟨Y, y1, y2, y3, y4⟩ := c1 hpn
        obtain ⟨S', t1, t2, t3, t4⟩ := armq Y y2 y4
        obtain ⟨R', q1, q2, q3, q4, q5, q6, q7⟩ := second_assignP (R := R) (by unfold Proper at *; grind) t2
        simp only [hpb, hpn, if_true, pure, Except.pure, ok_bind, z1, s1, r1, y1, t1, q1, Except.ok.injEq] at hR0
        subst hR0
        -- both branches reach the constant, where they agree
        have hcX : c ∈ᵢ X i := by
          obtain ⟨k1, k2⟩ := z4 Z.lo ⟨CppOrder.le_left _ _ z2, z2⟩
          obtain ⟨k3, k4⟩ := y4 Y.lo ⟨CppOrder.le_left _ _ y2, y2⟩
          unfold Pt at k1 k3 ⊢
          clear h0 ihp ihq armp armq hD mono prop nan
          cases op <;> simp only [CmpOp.Closed, CmpOp.neg, CmpOp.eval, Bool.false_eq_true, if_false] at k2 k4 <;> grind
        have hcl : ∀ o : CmpOp, o.Closed false c c := by
          intro o; unfold NotNan at hc
          clear h0 ihp ihq armp armq hD mono prop nan
          cases o <;> simp only [CmpOp.Closed, CmpOp.eval, Bool.false_eq_true, if_false] <;> grind
        have bx : ∀ Y' : Ivl T, c ∈ᵢ Y' → Box (setAt X i Y') (setAt (fun j => (X j).lo) i c) := by
          intro Y' h
          rw [box_setAt]
          refine ⟨by simpa [setAt] using h, fun j hj => ?_⟩
          simp only [setAt, hj, if_false]; exact ⟨CppOrder.le_left _ _ (hX j), hX j⟩
        have cZ := arm_closed i.val (hX i) hc op hb hpb z1 hcX (hcl op)
        have cY := arm_closed i.val (hX i) hc op.neg hnb hpn y1 hcX (hcl op.neg)
        obtain ⟨w, w1, w2⟩ := s3 _ (bx Z cZ)
        obtain ⟨w', w3, w4⟩ := t3 _ (bx Y cY)
        have vX := mono (fun v hv => (z4 v hv).1) (bx Z cZ)
        obtain ⟨a, a', f1, f2, f3⟩ := h0 _ (hD _ vX) (by simp only [setAt, if_true]; unfold NotNan at hc; grind)
        rw [w1] at f1; rw [w3] at f2; cases f1; cases f2
        exact (hull_mem r2 r3 q2 q3 w2 w4 f3 hu).elim (s4 u) (t4 u)

end
end Intervals
