import Verif.Props.SearchAny
import Verif.Props.Constraint
import Verif.Lemmas.Partition
import Verif.Spec.SearchBy
/-!
# C90: searching and partitioning with comparison functions and predicates of the caller
-/
set_option linter.unusedSectionVars false
namespace Intervals.Props
open Intervals CppVal Spec
variable {T : Type _} [CppVal T] [CppOrder T]

/-- C90, `partition_point` with any predicate that is a condition on each element, built from comparisons with `!`, `&` and `|`, on any range: it succeeds, and the
position interval contains the result of the scalar search wherever the intervals of the conditions are replaced by values (`ρ`). -/
theorem C90_search {V : Type _} (dbg : Bool) (a : List V) (E : V → CExpr T) (hE : ∀ e ∈ a, (E e).Proper) :
    ∃ R, partitionPointI (fun e => (E e).build dbg) a = .ok R ∧ Proper R ∧
      ∀ (ρ : Nat → T) (p : V → Bool), (∀ e ∈ a, EvE ρ (E e) (p e)) → ∃ r, partitionPointS (fun e => .ok (p e)) a = .ok r ∧ r ∈ᵢ R := by
  have hc : ∀ e, ∃ c, e ∈ a → (E e).build dbg = .ok c ∧ WF c ∧ ∀ ρ b, EvE ρ (E e) b → Ev ρ c b := by
    intro e
    by_cases he : e ∈ a
    · obtain ⟨c, h⟩ := build_wf (dbg := dbg) (E e) (hE e he)
      exact ⟨c, fun _ => h⟩
    · exact ⟨.plain BoolSet.empty, fun h => absurd h he⟩
  choose c hc using hc
  obtain ⟨R, h1, h2, _, _, h3⟩ := C51_any_range (fun e => (E e).build dbg) c a (fun e he => (hc e he).1) (fun e he => (hc e he).2.1.truth_ne)
  exact ⟨R, h1, h2, fun ρ p hp => h3 p fun e he => ev_truth (c e) (hc e he).2.1 _ ((hc e he).2.2 ρ _ (hp e he))⟩

section
variable [CppStep T]

/-- the condition `c` mentions the interval with its present bounds `x`, also on each side of a disjunction that can be true (disjunctions below a conjunction do not count), each conjunction below a disjunction can be true,
and strict comparisons have operands that step like the interval (these are the hypotheses of C18, C19 and C21) -/
def Narrows (d : Bool) (id : Nat) (x : Ivl T) (c : Cond T) : Prop :=
  StrictHom d (seen c) ∧ Mentions d id (seen c) ∧ SelfOperands d id (fun o => o.arg = .ivl x) (seen c) ∧ DisjEven d id (seen c) ∧ ConjSat id x (seen c)

private theorem self_mono {d : Bool} {y : Nat} {P Q : Operand T → Prop} (h : ∀ o, P o → Q o) : ∀ c : Cond T, SelfOperands d y P c → SelfOperands d y Q c
  | .plain _, _ => trivial
  | .leq _ _ _, hc => ⟨fun m => h _ (hc.1 m), fun m => h _ (hc.2 m)⟩
  | .less _ _ _, hc => ⟨fun m => h _ (hc.1 m), fun m => h _ (hc.2 m)⟩
  | .equal _ _ _, hc => ⟨fun m => h _ (hc.1 m), fun m => h _ (hc.2 m)⟩
  | .notEqual _ _ _, hc => ⟨fun m => h _ (hc.1 m), fun m => h _ (hc.2 m)⟩
  | .conj _ l r, hc => ⟨self_mono h l hc.1, self_mono h r hc.2⟩
  | .disj _ l r, hc => ⟨self_mono h l hc.1, self_mono h r hc.2⟩

private theorem narrows_ok {dbg d : Bool} {id : Nat} {x : Ivl T} (hs : d = true → LawfulStep T) (hx : Proper x) {e : CExpr T} {c : Cond T} {ρ : Nat → T}
    (hp : e.Proper) (hb : e.build dbg = .ok c) (hN : Narrows d id x c) (hρ : ρ id ∈ᵢ x) (he : EvE ρ e true) :
    ∃ R, constrain dbg d id x c = .ok R ∧ Proper R ∧ ρ id ∈ᵢ R ∧ ∀ v, v ∈ᵢ R → v ∈ᵢ x := by
  obtain ⟨n1, n2, n3, n4, n5⟩ := hN
  obtain ⟨R, hR⟩ := C21_success_partial dbg d id x e c ρ hs hp hb n1 n2 n3 hρ he n5
  have ev := C18_sound_partial dbg d id x R e c ρ hs hp hb n1 hρ he n4 hR
  have hx' : le x.lo x.hi = true := hx
  obtain ⟨h1, h2⟩ := C19_narrows_partial dbg d id x R e c hs hx hp hb n1
    ((self_mono (fun o ho => by rw [ho]; simp only [Arg.lo, Arg.hi]; constructor <;> grind) _ n3).eqOperands) hR
  exact ⟨R, hR, h1, ev, h2⟩

private theorem meet {l u l' u' v : T} (h1 : le l v = true) (h2 : le v u = true) (h3 : le l' v = true) (h4 : le v u' = true) :
    le (cmax l l') (cmin u u') = true ∧ le (cmax l l') v = true ∧ le v (cmin u u') = true ∧ (ge u l' && le l u') = true := by
  simp only [ge]; grind
private theorem meet_sub {l u l' u' v : T} (h1 : le (cmax l l') v = true) (h2 : le v (cmin u u') = true) (h : le l u = true) (h' : le l' u' = true) :
    le l v = true ∧ le v u = true := by grind

/-- C90, constraining an interval by a partition of any range under a predicate built from comparisons with `!`, `&` and `|`: if the conditions of the elements and
their negations narrow the interval and a value of it satisfies the condition on `range[jlo-1]` and not the one on `range[jhi]`, then the call succeeds, and the
result keeps the value and lies within the interval. -/
theorem C90_constrain {V : Type _} (dbg d : Bool) (id : Nat) (hs : d = true → LawfulStep T) (a : List V) (E : V → CExpr T) (x : Ivl T) (hx : Proper x)
    (hE : ∀ e ∈ a, (E e).Proper)
    (hN : ∀ e ∈ a, ∀ c, ((E e).build dbg = .ok c ∨ (CExpr.not (E e)).build dbg = .ok c) → Narrows d id x c)
    (J : Arg Index) (h0 : 0 ≤ J.lo.val) (h1 : J.hi.val ≤ a.length) (hlh : J.lo.val ≤ J.hi.val) (ρ : Nat → T) (hρ : ρ id ∈ᵢ x)
    (hlo : ∀ e, 0 < J.lo.val → a[(J.lo.val - 1).toNat]? = some e → EvE ρ (E e) true) (hhi : ∀ e, a[J.hi.val.toNat]? = some e → EvE ρ (E e) false) :
    ∃ R, constrainAt dbg d id x a (fun e => (E e).build dbg) J = .ok R ∧ Proper R ∧ ρ id ∈ᵢ R ∧ ∀ v, v ∈ᵢ R → v ∈ᵢ x := by
  have has : J.assigned = true := by
    cases J with
    | scalar v => rfl
    | ivl X => simp only [Arg.lo, Arg.hi] at hlh; simp [Arg.assigned, Ivl.assigned, gt, lt]; omega
  have eq : constrainAt dbg d id x a (fun e => (E e).build dbg) J = constrainPart dbg d id x a (fun e => (E e).build dbg) J := by
    simp [constrainAt, partitionAt, has, h0, h1, pure, Except.pure]
  rw [eq]
  by_cases hne : a = []
  · subst hne; exact ⟨x, by simp [constrainPart, pure, Except.pure], hx, hρ, fun v hv => hv⟩
  have hemp : a.isEmpty = false := by cases a <;> simp_all
  have lower : ∃ L, (if 0 < J.lo.val then (rangeAt a (J.lo.val - 1) >>= fun e => (E e).build dbg >>= fun c => constrain dbg d id x c) else pure x) = .ok L ∧
      Proper L ∧ ρ id ∈ᵢ L ∧ ∀ v, v ∈ᵢ L → v ∈ᵢ x := by
    by_cases hj : 0 < J.lo.val
    · obtain ⟨e, he, he'⟩ := rangeAt_ok (a := a) (i := J.lo.val - 1) (by omega) (by omega)
      have hm := List.mem_of_getElem? he'
      obtain ⟨c, hc, _⟩ := build_wf (dbg := dbg) (E e) (hE e hm)
      rw [if_pos hj, he, ok_bind, hc, ok_bind]
      exact narrows_ok hs hx (hE e hm) hc (hN e hm c (.inl hc)) hρ (hlo e hj he')
    · rw [if_neg hj]; exact ⟨x, rfl, hx, hρ, fun v hv => hv⟩
  have upper : ∃ U, (if J.hi.val < a.length then (rangeAt a J.hi.val >>= fun e => (E e).build dbg >>= fun c => Cond.mkNot dbg c >>= fun c' => constrain dbg d id x c')
      else pure x) = .ok U ∧ Proper U ∧ ρ id ∈ᵢ U ∧ ∀ v, v ∈ᵢ U → v ∈ᵢ x := by
    by_cases hj : J.hi.val < a.length
    · obtain ⟨e, he, he'⟩ := rangeAt_ok (a := a) (i := J.hi.val) (by omega) (by omega)
      have hm := List.mem_of_getElem? he'
      obtain ⟨c, hc, _⟩ := build_wf (dbg := dbg) (E e) (hE e hm)
      have hE' : (CExpr.not (E e)).Proper := hE e hm
      obtain ⟨c', hc', _⟩ := build_wf (dbg := dbg) (CExpr.not (E e)) hE'
      have hk : Cond.mkNot dbg c = .ok c' := by
        have := hc'
        simp only [CExpr.build, hc, ok_bind] at this
        exact this
      rw [if_pos hj, he, ok_bind, hc, ok_bind, hk, ok_bind]
      exact narrows_ok hs hx hE' hc' (hN e hm c' (.inr hc')) hρ (hhi e he')
    · rw [if_neg hj]; exact ⟨x, rfl, hx, hρ, fun v hv => hv⟩
  have unf : constrainPart dbg d id x a (fun e => (E e).build dbg) J =
      ((if 0 < J.lo.val then (rangeAt a (J.lo.val - 1) >>= fun e => (E e).build dbg >>= fun c => constrain dbg d id x c) else pure x) >>= fun xlo =>
       (if J.hi.val < a.length then (rangeAt a J.hi.val >>= fun e => (E e).build dbg >>= fun c => Cond.mkNot dbg c >>= fun c' => constrain dbg d id x c') else pure x) >>= fun xhi =>
       expectsDebug dbg (ge xlo.hi xhi.lo && le xlo.lo xhi.hi) >>= fun _ => Ivl.make (cmax xlo.lo xhi.lo) (cmin xlo.hi xhi.hi)) := by
    unfold constrainPart
    rw [hemp]
    by_cases c1 : 0 < J.lo.val <;> by_cases c2 : J.hi.val < (a.length : Int) <;>
      simp only [c1, c2, if_true, if_false, Bool.false_eq_true, bind_assoc]
  obtain ⟨L, e1, pL, mL, sL⟩ := lower
  obtain ⟨U, e2, pU, mU, sU⟩ := upper
  rw [unf, e1, e2, ok_bind, ok_bind]
  unfold Pt at mL mU
  obtain ⟨m1, m2, m3, m4⟩ := meet mL.1 mL.2 mU.1 mU.2
  rw [m4, expectsDebug_true, ok_bind, make_of_le m1]
  refine ⟨_, rfl, m1, ⟨m2, m3⟩, fun v hv => sL v ?_⟩
  unfold Pt at hv ⊢
  exact meet_sub hv.1 hv.2 pL pU
end

/-! ## `lower_bound` and `upper_bound` with `<` or `>` on a key -/

section
variable {V : Type _}
/-- the predicate as an expression -/
private def toE (k : Search) (o : Order) (key : V → T) (dE : Bool) (value : Operand T) (e : V) : CExpr T := match k, o with
  | .lower, .less => .cmp .lt (.scalar dE (key e)) value
  | .lower, .greater => .cmp .gt (.scalar dE (key e)) value
  | .upper, .less => .not (.cmp .lt value (.scalar dE (key e)))
  | .upper, .greater => .not (.cmp .gt value (.scalar dE (key e)))
private theorem pred_eq (k : Search) (o : Order) (key : V → T) (dbg dE : Bool) (value : Operand T) :
    k.predBy o key dbg dE value = fun e => (toE k o key dE value e).build dbg := by
  funext e; cases k <;> cases o <;> rfl
private theorem toE_proper (k : Search) (o : Order) (key : V → T) (dE : Bool) {value : Operand T} (hv : ProperA value.arg) {e : V} (he : NotNan (key e)) :
    (toE k o key dE value e).Proper := by
  cases k <;> cases o <;> first | exact ⟨he, hv⟩ | exact ⟨hv, he⟩

private theorem std_eq {pred pred' : V → Outcome Bool} {a : List V} (h : ∀ v ∈ a, pred v = pred' v) : partitionPointS pred a = partitionPointS pred' a := by
  have loop : ∀ (len first : Nat), ppLoop pred a first len = ppLoop pred' a first len := by
    intro len
    induction len using Nat.strongRecOn with
    | ind len ih =>
      intro first
      unfold ppLoop
      by_cases hl : len = 0
      · rw [if_pos hl, if_pos hl]
      rw [if_neg hl, if_neg hl]
      cases hg : a[first + len / 2]? with
      | none => rfl
      | some v =>
        simp only [h v (List.mem_of_getElem? hg)]
        cases pred' v with
        | error => rfl
        | ok b => cases b <;> simp only <;> exact ih _ (by omega) _
  simp only [partitionPointS, stdPartitionPoint, loop]

/-- the truth sets of the predicates -/
private theorem pred_truth (k : Search) (o : Order) (key : V → T) (dbg dE : Bool) {value : Operand T} {X : Ivl T} (hv : value.arg = .ivl X) (hX : Proper X) (e : V)
    (he : NotNan (key e)) : ∃ c, k.predBy o key dbg dE value e = .ok c ∧ c.truth ≠ BoolSet.empty ∧ BoolSet.always c.truth = o.holds k (key e) (o.first X) ∧
      BoolSet.possibly c.truth = o.holds k (key e) (o.last X) ∧ ∀ v, v ∈ᵢ X → BoolSet.contains c.truth (o.holds k (key e) v) = true := by
  have hpv : ProperA value.arg := by rw [hv]; exact hX
  have hs : (Operand.scalar dE (key e)).arg = .scalar (key e) := rfl
  have a2 : value.arg.assigned = true := properA_assigned hpv
  have a1 : (Arg.scalar (key e) : Arg T).assigned = true := rfl
  have n1 := compareLt_ne (.scalar (key e)) value.arg he hpv
  have n2 := compareLt_ne value.arg (.scalar (key e)) hpv he
  have hX' : le X.lo X.hi = true := hX
  have he' : le (key e) (key e) = true := he
  have hlo : value.arg.lo = X.lo := by rw [hv]; rfl
  have hhi : value.arg.hi = X.hi := by rw [hv]; rfl
  cases k <;> cases o
  · refine ⟨.less (compareLt (.scalar (key e)) value.arg) (.scalar dE (key e)) value, ?_, n1, ?_, ?_, fun v hv' => ?_⟩
    · simp [Search.predBy, lowerPredByI, Order.evI, condLt, opLt, hs, a1, a2, pure, Except.pure]
    all_goals unfold Pt at *
    all_goals simp only [Cond.truth, BoolSet.always, BoolSet.possibly, contains_lt, hlo, hhi, Arg.lo, Arg.hi, Order.holds, Order.first, Order.last]
    all_goals grind
  · refine ⟨.less (compareLt value.arg (.scalar (key e))) value (.scalar dE (key e)), ?_, n2, ?_, ?_, fun v hv' => ?_⟩
    · simp [Search.predBy, lowerPredByI, Order.evI, condGt, opGt, hs, a1, a2, pure, Except.pure]
    all_goals unfold Pt at *
    all_goals simp only [Cond.truth, BoolSet.always, BoolSet.possibly, contains_lt, hlo, hhi, Arg.lo, Arg.hi, Order.holds, Order.first, Order.last]
    all_goals grind
  · refine ⟨.leq (BoolSet.notCore (compareLt value.arg (.scalar (key e)))) (.scalar dE (key e)) value, ?_, not_ne_empty n2, ?_, ?_, fun v hv' => ?_⟩
    · simp [Search.predBy, upperPredByI, Order.veI, condLt, opLt, hs, a1, a2, pure, Except.pure, Cond.mkNot, notM_ok n2]
    all_goals unfold Pt at *
    all_goals simp only [Cond.truth, BoolSet.always, BoolSet.possibly, contains_not, contains_lt, hlo, hhi, Arg.lo, Arg.hi, Order.holds, Order.first, Order.last]
    all_goals grind
  · refine ⟨.leq (BoolSet.notCore (compareLt (.scalar (key e)) value.arg)) value (.scalar dE (key e)), ?_, not_ne_empty n1, ?_, ?_, fun v hv' => ?_⟩
    · simp [Search.predBy, upperPredByI, Order.veI, condGt, opGt, hs, a1, a2, pure, Except.pure, Cond.mkNot, notM_ok n1]
    all_goals unfold Pt at *
    all_goals simp only [Cond.truth, BoolSet.always, BoolSet.possibly, contains_not, contains_lt, hlo, hhi, Arg.lo, Arg.hi, Order.holds, Order.first, Order.last]
    all_goals grind

private theorem byI_eq (k : Search) (o : Order) (key : V → T) (dbg dE : Bool) (a : List V) (value : Operand T) :
    k.byI o key dbg dE a value = partitionPointI (k.predBy o key dbg dE value) a := by cases k <;> rfl
private theorem byS_eq (k : Search) (o : Order) (key : V → T) (a : List V) (ha : ∀ e ∈ a, NotNan (key e)) (v : T) (hv : NotNan v) :
    k.byS o key a v = partitionPointS (fun e => .ok (o.holds k (key e) v)) a := by
  cases k
  · cases o <;> rfl
  · exact std_eq fun e he => by
      have h1 : le (key e) (key e) = true := ha e he
      have h2 : le v v = true := hv
      cases o <;> simp only [upperPredByS, Order.veS, Order.holds, ok_bind, pure, Except.pure, Except.ok.injEq] <;> grind

private theorem holds_mono (k : Search) (o : Order) {u u' v : T} (h : match o with | .less => le u u' = true | .greater => le u' u = true)
    (h' : o.holds k u' v = true) : o.holds k u v = true := by
  cases k <;> cases o <;> simp only [Order.holds] at * <;> grind

/-- C90, the search for a number in a range sorted by the order: the partition point of "comes before the value" (`lower_bound`) or "does not come behind the value"
(`upper_bound`). -/
theorem C90_scalar (k : Search) (o : Order) (key : V → T) (a : List V) (ha : o.SortedBy key a) (v : T) (hv : NotNan v) :
    ∃ r, k.byS o key a v = .ok r ∧ IsPoint (fun e => o.holds k (key e) v) a r.val.toNat := by
  obtain ⟨j, hj⟩ := exists_point (p := fun e => o.holds k (key e) v) a (by
    cases o
    · exact ha.1.imp fun h => holds_mono k .less h
    · exact ha.1.imp fun h => holds_mono k .greater h)
  obtain ⟨r, h1, h2⟩ := stdPartitionPoint_spec (p := fun e => o.holds k (key e) v) (pred := fun e => .ok (o.holds k (key e) v)) (fun _ _ => rfl) hj
  refine ⟨r, by rw [byS_eq k o key a ha.2 v hv]; exact h1, ?_⟩
  rw [h2]; exact hj

/-- C90, the search for an interval, on a range of elements of any type in any order: it succeeds, its ends are the positions of the ends of the interval — the upper end of
the interval first for `>` —, and it contains the position of each of its values. -/
theorem C90_bounds (k : Search) (o : Order) (key : V → T) (dbg dE : Bool) (a : List V) (ha : ∀ e ∈ a, NotNan (key e)) (value : Operand T) (X : Ivl T)
    (hv : value.arg = .ivl X) (hX : Proper X) :
    ∃ R, k.byI o key dbg dE a value = .ok R ∧ k.byS o key a (o.first X) = .ok R.lo ∧ k.byS o key a (o.last X) = .ok R.hi ∧
      ∀ v, v ∈ᵢ X → ∃ r, k.byS o key a v = .ok r ∧ r ∈ᵢ R := by
  have hc : ∀ e, ∃ c, e ∈ a → (k.predBy o key dbg dE value e = .ok c ∧ c.truth ≠ BoolSet.empty ∧ BoolSet.always c.truth = o.holds k (key e) (o.first X) ∧
      BoolSet.possibly c.truth = o.holds k (key e) (o.last X) ∧ ∀ v, v ∈ᵢ X → BoolSet.contains c.truth (o.holds k (key e) v) = true) := by
    intro e
    by_cases he : e ∈ a
    · obtain ⟨c, h⟩ := pred_truth k o key dbg dE hv hX e (ha e he)
      exact ⟨c, fun _ => h⟩
    · exact ⟨.plain BoolSet.empty, fun h => absurd h he⟩
  choose c hc using hc
  obtain ⟨R, h1, _, h3, h4, h5⟩ := C51_any_range (k.predBy o key dbg dE value) c a (fun e he => (hc e he).1) (fun e he => (hc e he).2.1)
  have hX' : le X.lo X.hi = true := hX
  have nf : NotNan (o.first X) := by unfold NotNan; cases o <;> simp only [Order.first] <;> grind
  have nl : NotNan (o.last X) := by unfold NotNan; cases o <;> simp only [Order.last] <;> grind
  refine ⟨R, by rw [byI_eq]; exact h1, ?_, ?_, fun v hv' => ?_⟩
  · rw [byS_eq k o key a ha _ nf, ← h3]
    exact std_eq fun e he => by rw [(hc e he).2.2.1]
  · rw [byS_eq k o key a ha _ nl, ← h4]
    exact std_eq fun e he => by rw [(hc e he).2.2.2.1]
  · rw [byS_eq k o key a ha v (by unfold Pt NotNan at *; grind)]
    exact h5 _ fun e he => (hc e he).2.2.2.2 v hv'

section
variable [CppStep T]
private theorem toE_narrows (k : Search) (o : Order) (key : V → T) (dbg d : Bool) (id : Nat) {x : Ivl T} (hx : Proper x) (e : V) (he : NotNan (key e)) (c : Cond T)
    (h : (toE k o key d (.ident d id x) e).build dbg = .ok c ∨ (CExpr.not (toE k o key d (.ident d id x) e)).build dbg = .ok c) : Narrows d id x c := by
  have a2 : (Arg.ivl x).assigned = true := properA_assigned (A := .ivl x) hx
  have a1 : (Arg.scalar (key e) : Arg T).assigned = true := rfl
  have n1 := compareLt_ne (.scalar (key e)) (.ivl x) he hx
  have n2 := compareLt_ne (.ivl x) (.scalar (key e)) hx he
  rcases h with h | h <;> cases k <;> cases o <;>
    simp [toE, CExpr.build, buildCmp, condLt, condGt, opLt, opGt, Operand.arg, a1, a2, pure, Except.pure, Cond.mkNot, notM_ok n1, notM_ok n2, not_ne_empty n1,
      not_ne_empty n2, notM_ok (not_ne_empty n1), notM_ok (not_ne_empty n2)] at h <;>
    subst h <;>
    simp [Narrows, StrictHom, Mentions, SelfOperands, seen, DisjEven, ConjSat, Operand.matchesId, Operand.arg, Operand.disc]

/-- C90, constraining by the partitioning that the search returns, on a range sorted by the order: for positions that include the result of the scalar search for a value of
the interval the call succeeds, and the result keeps the value and lies within the interval. -/
theorem C90_partition (k : Search) (o : Order) (key : V → T) (dbg d : Bool) (id : Nat) (hs : d = true → LawfulStep T) (a : List V) (ha : o.SortedBy key a) (x : Ivl T)
    (hx : Proper x) (J : Arg Index) (h0 : 0 ≤ J.lo.val) (h1 : J.hi.val ≤ a.length) (hlh : J.lo.val ≤ J.hi.val) (v : T) (hv : v ∈ᵢ x) (r : Iter a.length)
    (hr : k.byS o key a v = .ok r) (hJ : J.lo.val ≤ r.val ∧ r.val ≤ J.hi.val) :
    ∃ R, constrainAt dbg d id x a (k.predBy o key dbg d (.ident d id x)) J = .ok R ∧ Proper R ∧ v ∈ᵢ R ∧ ∀ w, w ∈ᵢ R → w ∈ᵢ x := by
  have hx' : le x.lo x.hi = true := hx
  have nv : NotNan v := by unfold Pt NotNan at *; grind
  obtain ⟨r', hr', hp⟩ := C90_scalar k o key a ha v nv
  rw [hr] at hr'; cases hr'
  have hr0 := r.ge
  have ev : ∀ e ∈ a, EvE (fun _ => v) (toE k o key d (.ident d id x) e) (o.holds k (key e) v) := fun e he => by
    have h1 : le (key e) (key e) = true := ha.2 e he
    have h2 : le v v = true := nv
    cases k <;> cases o <;> simp only [toE, EvE, Order.holds]
    · exact ⟨key e, v, rfl, ⟨rfl, hv⟩, rfl⟩
    · exact ⟨key e, v, rfl, ⟨rfl, hv⟩, rfl⟩
    · exact ⟨v, key e, ⟨rfl, hv⟩, rfl, by simp only [CmpOp.eval]; grind⟩
    · exact ⟨v, key e, ⟨rfl, hv⟩, rfl, by simp only [CmpOp.eval, gt]; grind⟩
  rw [pred_eq]
  exact C90_constrain dbg d id hs a _ x hx (fun e he => toE_proper k o key d (value := .ident d id x) hx (ha.2 e he))
    (fun e he c hc => toE_narrows k o key dbg d id hx e (ha.2 e he) c hc) J h0 h1 hlh (fun _ => v) hv
    (fun e j0 he => by
      have := ev e (List.mem_of_getElem? he)
      have ht : o.holds k (key e) v = true := (hp.2 _ _ he).mpr (by omega)
      rwa [ht] at this)
    (fun e he => by
      have := ev e (List.mem_of_getElem? he)
      have hf : o.holds k (key e) v = false := by
        have := (hp.2 _ _ he).mp.mt (by omega)
        simpa using this
      rwa [hf] at this)
end

/-! Examples: `int` elements in descending order with `>`, and pairs by their first component with `<`. -/
private def desc : List (SInt 31) := [i32 9, i32 7, i32 4, i32 4, i32 1]
private def x36 : Ivl (SInt 31) := ⟨i32 3, i32 6⟩
private def pairs : List (SInt 31 × Bool) := [(i32 1, true), (i32 4, false), (i32 4, true), (i32 8, false)]

/-- `lower_bound(desc, [3,6], std::greater<>{})` is `[2,4]`, `upper_bound` too -/
example : ∃ R, Search.lower.byI .greater id true true desc (.ident true 0 x36) = .ok R ∧ (R.lo.val, R.hi.val) = (2, 4) ∧
    ∀ v, v ∈ᵢ x36 → ∃ r, Search.lower.byS .greater id desc v = .ok r ∧ r ∈ᵢ R := by
  obtain ⟨R, h1, h2, h3, h4⟩ := C90_bounds Search.lower .greater id true true desc (by decide) (.ident true 0 x36) x36 rfl (by decide)
  refine ⟨R, h1, ?_, h4⟩
  have e1 : Search.lower.byS .greater id desc (Order.greater.first x36) = .ok ⟨2, by decide, by decide⟩ := by decide +kernel
  have e2 : Search.lower.byS .greater id desc (Order.greater.last x36) = .ok ⟨4, by decide, by decide⟩ := by decide +kernel
  rw [e1] at h2; rw [e2] at h3
  rw [← Except.ok.inj h2, ← Except.ok.inj h3]
example : ∃ r, Search.upper.byS .less Prod.fst pairs (i32 4) = .ok r ∧ IsPoint (fun e => le e.1 (i32 4)) pairs r.val.toNat :=
  C90_scalar .upper .less Prod.fst pairs (by constructor <;> decide) (i32 4) (by decide)
/-- `constrain([3,6], preds[{2,4}])` keeps 4 (position 2) and 3 (position 4); `preds[4]` keeps 3 -/
example : ∃ R, constrainAt true true 0 x36 desc (Search.lower.predBy .greater id true true (.ident true 0 x36)) (.scalar ⟨4, by decide, by decide⟩) = .ok R ∧
    Proper R ∧ i32 3 ∈ᵢ R ∧ ∀ w, w ∈ᵢ R → w ∈ᵢ x36 :=
  C90_partition .lower .greater id true true 0 (fun _ => lawfulStep_bint _ _) desc (by constructor <;> decide) x36 (by decide) (.scalar ⟨4, by decide, by decide⟩)
    (by decide) (by decide) (by decide) (i32 3) (by decide) ⟨4, by decide, by decide⟩ (by decide +kernel) (by decide)
/-- the predicate `(e < x) & (e != 7)` -/
example : ∃ R, partitionPointI (fun e => (CExpr.and (.cmp .lt (.scalar true e) (.ident true 0 x36)) (.cmp .ne (.scalar true e) (.scalar true (i32 7)))).build true)
    [i32 1, i32 4, i32 7, i32 9] = .ok R ∧ Proper R ∧ ∀ (ρ : Nat → SInt 31) (p : SInt 31 → Bool),
      (∀ e ∈ [i32 1, i32 4, i32 7, i32 9], EvE ρ (CExpr.and (.cmp .lt (.scalar true e) (.ident true 0 x36)) (.cmp .ne (.scalar true e) (.scalar true (i32 7)))) (p e)) →
      ∃ r, partitionPointS (fun e => .ok (p e)) [i32 1, i32 4, i32 7, i32 9] = .ok r ∧ r ∈ᵢ R :=
  C90_search true _ _ fun e _ => by
    refine ⟨⟨?_, ?_⟩, ⟨?_, ?_⟩⟩
    · show le e e = true; simp [CppVal.le]
    · decide
    · show le e e = true; simp [CppVal.le]
    · decide
/-- constraining `[3,6]` by position 1 of `[2, 4]` under the predicate `(e < x) & (x != 6)` (a disjunction for `range[1]`) keeps 3 -/
example : ∃ R, constrainAt true true 0 x36 [i32 2, i32 4] (fun e => (CExpr.and (.cmp .lt (.scalar true e) (.ident true 0 x36))
      (.cmp .ne (.ident true 0 x36) (.scalar true (i32 6)))).build true) (.scalar ⟨1, by decide, by decide⟩) = .ok R ∧ Proper R ∧ i32 3 ∈ᵢ R ∧ ∀ v, v ∈ᵢ R → v ∈ᵢ x36 :=
  C90_constrain true true 0 (fun _ => lawfulStep_bint _ _) [i32 2, i32 4] _ x36 (by decide)
    (fun e he => by
      refine ⟨⟨?_, ?_⟩, ⟨?_, ?_⟩⟩
      · show le e e = true; simp [CppVal.le]
      · decide
      · decide
      · decide)
    (fun e he c hc => by
      simp only [List.mem_cons, List.not_mem_nil, or_false] at he
      rcases he with rfl | rfl <;> rcases hc with hc | hc <;> cases hc <;>
        simp [Narrows, Cond.mkAnd, Cond.mkOr, Cond.mkNot, Cond.isCond, StrictHom, Mentions, SelfOperands, seen, Cond.isDisj, DisjEven, ConjSat, ConjSat.Inner, Operand.matchesId, Operand.arg, Operand.disc])
    (.scalar ⟨1, by decide, by decide⟩) (by decide) (by decide) (by decide) (fun _ => i32 3) (by decide)
    (fun e _ he => by
      cases he
      exact ⟨true, true, ⟨i32 2, i32 3, rfl, ⟨rfl, by decide⟩, by decide⟩, ⟨i32 3, i32 6, ⟨rfl, by decide⟩, rfl, by decide⟩, rfl⟩)
    (fun e he => by
      cases he
      exact ⟨false, true, ⟨i32 4, i32 3, rfl, ⟨rfl, by decide⟩, by decide⟩, ⟨i32 3, i32 6, ⟨rfl, by decide⟩, rfl, by decide⟩, rfl⟩)
end
end Intervals.Props
