import Verif.Spec.SearchMixed
import Verif.Props.SearchBy
import Verif.Props.SearchAny
import Verif.Props.ConstraintTree
import Verif.Lemmas.Partition
/-!
# C106: searching, and constraining by a partition, in ranges of elements of another value type
-/
set_option linter.unusedSectionVars false
namespace Intervals.Props
open Intervals CppVal Spec
section search
variable {V U T : Type} [CppVal V] [CppNum V] [CppVal U] [CppNum U] [CppVal T] [CppNum T] [CppOrder U] [CppOrder T] {ce : V → T} {cx : U → T}

private theorem byS_findMS (k : Search) (a : List V) (v : U) : k.findMS ce cx a v = k.byS .less ce a (cx v) := by
  cases k <;> rfl

private theorem asks_holds (k : Search) (e v : T) : k.asks e v = Order.less.holds k e v := by cases k <;> rfl

/-- C106, the search for a number in a range in ascending order: the elements before the result are those below the value (`lower_bound`) or not above it (`upper_bound`), compared in the common
type. -/
theorem C106_scalar (k : Search) (a : List V) (ha : SortedM ce a) (v : U) (hv : NotNan (cx v)) :
    ∃ r, k.findMS ce cx a v = .ok r ∧ IsPoint (fun e => k.asks (ce e) (cx v)) a r.val.toNat := by
  obtain ⟨r, h1, h2⟩ := C90_scalar k .less ce a ha (cx v) hv
  exact ⟨r, by rw [byS_findMS]; exact h1, by simpa only [asks_holds] using h2⟩

/-- C106, the search for an interval in any range: it succeeds, its ends are the positions of the ends of the interval, and it contains the position of each of its values. -/
theorem C106_search (k : Search) (dbg : Bool) (a : List V) (ha : ∀ e ∈ a, NotNan (ce e)) (x : Ivl U) (hx : Proper x) (mono : MonoCast cx) :
    ∃ R, k.findM ce cx dbg a x = .ok R ∧ k.findMS ce cx a x.lo = .ok R.lo ∧ k.findMS ce cx a x.hi = .ok R.hi ∧
      ∀ v, v ∈ᵢ x → ∃ r, k.findMS ce cx a v = .ok r ∧ r ∈ᵢ R := by
  have hX : Proper (⟨cx x.lo, cx x.hi⟩ : Ivl T) := mono _ _ hx
  obtain ⟨R, h1, h2, h3, h4⟩ := C90_bounds k .less ce dbg false a ha (.anon false ⟨cx x.lo, cx x.hi⟩) _ rfl hX
  have a1 : x.assigned = true := assigned_of_proper (X := .ivl x) hx
  have a2 : (⟨cx x.lo, cx x.hi⟩ : Ivl T).assigned = true := assigned_of_proper (X := .ivl ⟨cx x.lo, cx x.hi⟩) hX
  refine ⟨R, ?_, by rw [byS_findMS]; exact h2, by rw [byS_findMS]; exact h3, fun v hv => ?_⟩
  · rw [← h1]
    cases k
    · simp [Search.findM, Search.byI, lowerBoundM, lowerBoundByI, partitionPointB, partitionPointI, lowerPredByI, Order.evI, condLt, opLtM, opLt, Operand.arg, Arg.assigned, a1, a2, pure,
        Except.pure, Cond.truth]
      rfl
    · simp [Search.findM, Search.byI, upperBoundM, upperBoundByI, partitionPointB, partitionPointI, upperPredByI, Order.veI, condLt, opLtM, opLt, Operand.arg, Arg.assigned, a1, a2, pure,
        Except.pure, Cond.truth, Cond.mkNot, bind_assoc]
      rfl
  · obtain ⟨r, g1, g2⟩ := h4 (cx v) ⟨mono _ _ hv.1, mono _ _ hv.2⟩
    exact ⟨r, by rw [byS_findMS]; exact g1, g2⟩

/-- C106: in debug mode the search for an unassigned interval in a range that is not empty is a contract violation. -/
theorem C106_unassigned (k : Search) (a : List V) (ha : a ≠ []) (x : Ivl U) (h : x.assigned = false) : k.findM ce cx true a x = .error .contract := by
  have hl : 0 < a.length := List.length_pos_iff.mpr ha
  have hg : a[a.length / 2]? = some a[a.length / 2] := List.getElem?_eq_getElem (by omega)
  cases k
  · simp only [Search.findM, lowerBoundM, partitionPointB, stdPartitionPoint]
    unfold ppLoop
    rw [if_neg (by omega), Nat.zero_add, hg]
    simp [opLtM, Arg.assigned, h, expectsDebug, expects]
  · simp only [Search.findM, upperBoundM, partitionPointB, stdPartitionPoint]
    unfold ppLoop
    rw [if_neg (by omega), Nat.zero_add, hg]
    simp [opLtM, Arg.assigned, h, expectsDebug, expects]
private theorem lt_le {u v w : T} (h : lt u v = true) (g : le v w = true) : lt u w = true := by grind
private theorem le_lt' {u v w : T} (h : le u v = true) (g : lt v w = true) : le w u = false := by grind
private theorem cmax_le {u v w : T} (h : le u w = true) (g : le v w = true) : le (cmax u v) w = true := by grind
private theorem asks_mono (k : Search) {e v w : T} (h : k.asks e v = true) (g : le v w = true) : k.asks e w = true := by
  cases k
  · exact lt_le h g
  · exact CppOrder.le_trans _ _ _ h g
private theorem asks_le (k : Search) {e v : T} (h : k.asks e v = true) : le e v = true := by cases k <;> simp only [Search.asks] at h <;> grind
private theorem not_asks_le (k : Search) {e v : T} (he : NotNan e) (hv : NotNan v) (h : k.asks e v = false) : le v e = true := by
  unfold NotNan at *; cases k <;> simp only [Search.asks] at h <;> grind
end search

section part
variable {ι : Type} {V : ι → Type} [∀ i, CppVal (V i)] [∀ i, CppNum (V i)] {T : Type} [CppVal T] [CppNum T] [CppOrder T] [CppStep T]
variable {E : OperandTypes V T} {d dbg : Bool} {x : Ivl T} {i : ι} [CppOrder (V i)]

private theorem cmaxN {s l : T} (hs : NotNan s) (hl : NotNan l) : NotNan (cmax s l) ∧ ∀ v, le (cmax s l) v = true ↔ le l v = true ∧ le s v = true := by
  unfold NotNan at *; exact ⟨by grind, fun v => by grind⟩
private theorem cminN {s l : T} (hs : NotNan s) (hl : NotNan l) : NotNan (cmin l s) ∧ ∀ v, le v (cmin l s) = true ↔ le v l = true ∧ le v s = true := by
  unfold NotNan at *; exact ⟨by grind, fun v => by grind⟩

private def relOf : Search → XRel
  | .lower => .lessX
  | .upper => .leqX

private theorem wf_lo (k : Search) (hx : Proper x) (e : V i) (he : NotNan e) (mono : MonoCast (E.cv i)) :
    ∃ s, k.predT E dbg x i e = .ok (.cmp s i (.scalar e) (relOf k)) ∧
      WfT E x (.cmp s i (.scalar e) (relOf k)) := by
  have w1 : x.assigned = true := assigned_of_proper (X := .ivl x) hx
  have hr : ProperA (.scalar e : Arg (V i)) := he
  cases k
  · exact ⟨_, by simp [relOf, Search.predT, lowerPredT, mkCmp, w1, Arg.assigned, pure, Except.pure], rfl, inferInstance, hr, mono⟩
  · obtain ⟨n1, n2⟩ := compare_not hx hr mono .xLess
    refine ⟨BoolSet.notCore (XRel.xLess.compare (E.cv i) x (.scalar e)), ?_, n1, inferInstance, hr, mono⟩
    simp [relOf, Search.predT, upperPredT, mkCmp, w1, Arg.assigned, pure, Except.pure, MCond.mkNot, notM_ok n2, XRel.neg]

private theorem constrain_wf (hx : Proper x) {s : BoolSet} {r : Arg (V i)} {k : XRel} (h : WfT E x (.cmp s i r k)) :
    constrainT E dbg d x (.cmp s i r k) = if BoolSet.contains (k.compare (E.cv i) x r) true then bodyX (E.cv i) (E.pr i) (E.su i) d x r k else .error .contract := by
  obtain ⟨e, _, h1, h2⟩ := h
  subst e
  have hw : WfT E x (.cmp (k.compare (E.cv i) x r) i r k) := ⟨rfl, inferInstance, h1, h2⟩
  rw [constrainT]
  cases hc : BoolSet.contains (k.compare (E.cv i) x r) true
  · rw [(leafT hx hw false false).2 hc]; rfl
  · rw [(leafT hx hw false false).1 hc, constrainM_body hx h1 k hc, if_pos rfl]
    cases bodyX (E.cv i) (E.pr i) (E.su i) d x r k <;> rfl

private theorem half_lo (k : Search) (hx : Proper x) (e : V i) (he : NotNan e) (mono : MonoCast (E.cv i)) :
    (k.predT E dbg x i e >>= fun c => constrainT E dbg d x c) =
      if k.asks (E.cv i e) x.hi then k.from E i e >>= fun s => Ivl.make (cmax s x.lo) x.hi else .error .contract := by
  obtain ⟨s, h1, h2⟩ := wf_lo (dbg := dbg) k hx e he mono
  rw [h1, ok_bind, constrain_wf hx h2]
  cases k
  · simp only [relOf, XRel.compare, contains_ltM, if_true, ivl_hi, Search.asks, bodyX, Search.from]
    rw [show (Arg.scalar e : Arg (V i)).lo = e from rfl]
    cases E.su i e <;> rfl
  · simp only [relOf, XRel.compare, contains_leM, if_true, ivl_hi, Search.asks, bodyX, Search.from]
    rfl

private theorem half_hi (k : Search) (hx : Proper x) (e : V i) (he : NotNan e) (mono : MonoCast (E.cv i)) :
    (k.predT E dbg x i e >>= fun c => MCond.mkNot dbg c >>= fun c' => constrainT E dbg d x c') =
      if k.asks (E.cv i e) x.lo then .error .contract else k.upto E i e >>= fun t => Ivl.make x.lo (cmin x.hi t) := by
  obtain ⟨s, h1, h2⟩ := wf_lo (dbg := dbg) k hx e he mono
  obtain ⟨w1, _, w3, w4⟩ := h2
  have hn : NotNan (E.cv i e) := mono _ _ he
  have hx' : le x.lo x.hi = true := hx
  have hxl := CppOrder.le_left _ _ hx'
  obtain ⟨n1, n2⟩ := compare_not hx w3 mono (relOf k)
  rw [h1, ok_bind]
  have hm : MCond.mkNot dbg (.cmp s i (.scalar e) (relOf k) : MCond V) =
      .ok (.cmp (BoolSet.notCore s) i (.scalar e) (XRel.neg (relOf k))) := by
    rw [w1]; simp [MCond.mkNot, notM_ok n2, pure, Except.pure]
  rw [hm, ok_bind, constrain_wf hx ⟨by rw [w1]; exact n1, inferInstance, w3, mono⟩]
  clear mono n1 n2 hm w4 h1
  unfold NotNan at hn
  cases k
  · have : le x.lo (E.cv i e) = !lt (E.cv i e) x.lo := by grind
    simp only [relOf, XRel.neg, XRel.compare, contains_leM, if_true, ivl_lo, Search.asks, bodyX, Search.upto]
    rw [show (Arg.scalar e : Arg (V i)).hi = e from rfl, this]
    by_cases h : lt (E.cv i e) x.lo = true <;> simp [h]
  · have : lt x.lo (E.cv i e) = !le (E.cv i e) x.lo := by grind
    simp only [relOf, XRel.neg, XRel.compare, contains_ltM, if_true, ivl_lo, Search.asks, bodyX, Search.upto]
    rw [show (Arg.scalar e : Arg (V i)).hi = e from rfl, this]
    by_cases h : le (E.cv i e) x.lo = true <;> cases E.pr i e <;> simp [h, pure, Except.pure]

/-- the call in terms of its two halves -/
private theorem call_eq (k : Search) (hx : Proper x) (a : List (V i)) (ha : ∀ e ∈ a, NotNan e) (mono : MonoCast (E.cv i)) (J : Arg Index) (h0 : 0 ≤ J.lo.val)
    (h1 : J.hi.val ≤ a.length) (hlh : J.lo.val ≤ J.hi.val) (hne : a ≠ []) :
    constrainAtT E dbg d x a (k.predT E dbg x i) J = (do
      let xlo ← (if 0 < J.lo.val then (rangeAt a (J.lo.val - 1) >>= fun e =>
        if k.asks (E.cv i e) x.hi then k.from E i e >>= fun s => Ivl.make (cmax s x.lo) x.hi else .error .contract) else pure x : Outcome (Ivl T))
      let xhi ← (if J.hi.val < a.length then (rangeAt a J.hi.val >>= fun e =>
        if k.asks (E.cv i e) x.lo then .error .contract else k.upto E i e >>= fun t => Ivl.make x.lo (cmin x.hi t)) else pure x : Outcome (Ivl T))
      expectsDebug dbg (ge xlo.hi xhi.lo && le xlo.lo xhi.hi)
      Ivl.make (cmax xlo.lo xhi.lo) (cmin xlo.hi xhi.hi)) := by
  have hemp : a.isEmpty = false := by cases a <;> simp_all
  have hJ : J.assigned = true := by
    cases J with
    | scalar s => rfl
    | ivl y => exact assigned_of_proper (X := .ivl y) (by simpa [ProperA, Proper, CppVal.le, Arg.lo, Arg.hi] using hlh)
  have e1 : 0 < J.lo.val → ∃ e, rangeAt a (J.lo.val - 1) = .ok e ∧ NotNan e := fun h => by
    obtain ⟨e, he, he'⟩ := rangeAt_ok (a := a) (i := J.lo.val - 1) (by omega) (by omega)
    exact ⟨e, he, ha e (List.mem_of_getElem? he')⟩
  have e2 : J.hi.val < a.length → ∃ e, rangeAt a J.hi.val = .ok e ∧ NotNan e := fun h => by
    obtain ⟨e, he, he'⟩ := rangeAt_ok (a := a) (i := J.hi.val) (by omega) (by omega)
    exact ⟨e, he, ha e (List.mem_of_getElem? he')⟩
  have unf : constrainAtT E dbg d x a (k.predT E dbg x i) J =
      ((if 0 < J.lo.val then (rangeAt a (J.lo.val - 1) >>= fun e => k.predT E dbg x i e >>= fun c => constrainT E dbg d x c) else pure x) >>= fun xlo =>
       (if J.hi.val < a.length then (rangeAt a J.hi.val >>= fun e => k.predT E dbg x i e >>= fun c => MCond.mkNot dbg c >>= fun c' => constrainT E dbg d x c') else pure x) >>= fun xhi =>
       expectsDebug dbg (ge xlo.hi xhi.lo && le xlo.lo xhi.hi) >>= fun _ => Ivl.make (cmax xlo.lo xhi.lo) (cmin xlo.hi xhi.hi)) := by
    have hp : partitionAt dbg a J = .ok J := by simp [partitionAt, hJ, h0, h1, expects, expectsDebug, pure, Except.pure]
    unfold constrainAtT
    rw [hp, ok_bind, hemp]
    by_cases c1 : 0 < J.lo.val <;> by_cases c2 : J.hi.val < (a.length : Int) <;>
      simp only [c1, c2, if_true, if_false, Bool.false_eq_true, bind_assoc]
  rw [unf]
  have r1 : (if 0 < J.lo.val then (rangeAt a (J.lo.val - 1) >>= fun e => k.predT E dbg x i e >>= fun c => constrainT E dbg d x c) else pure x) =
      (if 0 < J.lo.val then (rangeAt a (J.lo.val - 1) >>= fun e =>
        if k.asks (E.cv i e) x.hi then k.from E i e >>= fun s => Ivl.make (cmax s x.lo) x.hi else .error .contract) else pure x) := by
    by_cases c1 : 0 < J.lo.val
    · obtain ⟨e, g1, g2⟩ := e1 c1
      simp only [c1, if_true, g1, ok_bind]
      exact half_lo k hx e g2 mono
    · simp only [c1, if_false]
  have r2 : (if J.hi.val < a.length then (rangeAt a J.hi.val >>= fun e => k.predT E dbg x i e >>= fun c => MCond.mkNot dbg c >>= fun c' => constrainT E dbg d x c') else pure x) =
      (if J.hi.val < a.length then (rangeAt a J.hi.val >>= fun e =>
        if k.asks (E.cv i e) x.lo then .error .contract else k.upto E i e >>= fun t => Ivl.make x.lo (cmin x.hi t)) else pure x) := by
    by_cases c2 : J.hi.val < (a.length : Int)
    · obtain ⟨e, g1, g2⟩ := e2 c2
      simp only [c2, if_true, g1, ok_bind]
      exact half_hi k hx e g2 mono
    · simp only [c2, if_false]
  rw [r1, r2]

/-- C106, what constraining by a partition keeps: the values of `x` from `k.from` of the element before the partition to `k.upto` of the one behind; if there are none, the call is a contract
violation. -/
theorem C106_result (k : Search) (hx : Proper x) (a : List (V i)) (ha : ∀ e ∈ a, NotNan e) (mono : MonoCast (E.cv i)) (J : Arg Index) (h0 : 0 ≤ J.lo.val) (h1 : J.hi.val ≤ a.length)
    (hlh : J.lo.val ≤ J.hi.val) (s t : T)
    (hs : 0 < J.lo.val → ∃ e, a[(J.lo.val - 1).toNat]? = some e ∧ k.asks (E.cv i e) x.hi = true ∧ k.from E i e = .ok s ∧ NotNan s)
    (ht : J.hi.val < a.length → ∃ e, a[J.hi.val.toNat]? = some e ∧ k.asks (E.cv i e) x.lo = false ∧ k.upto E i e = .ok t ∧ NotNan t) :
    let Kept v := v ∈ᵢ x ∧ (0 < J.lo.val → le s v = true) ∧ (J.hi.val < a.length → le v t = true)
    ((∃ v, Kept v) → ∃ R, constrainAtT E dbg d x a (k.predT E dbg x i) J = .ok R ∧ Proper R ∧ ∀ v, v ∈ᵢ R ↔ Kept v) ∧
    ((¬∃ v, Kept v) → constrainAtT E dbg d x a (k.predT E dbg x i) J = .error .contract) := by
  intro Kept
  have hx' : le x.lo x.hi = true := hx
  have hxl := CppOrder.le_left _ _ hx'; have hxh := CppOrder.le_right _ _ hx'
  by_cases hne : a = []
  · have j0 : ¬ 0 < J.lo.val := by subst hne; simp at h1; omega
    have j1 : ¬ J.hi.val < a.length := by subst hne; simp; omega
    have hk : ∀ v, Kept v ↔ v ∈ᵢ x := fun v => ⟨fun h => h.1, fun h => ⟨h, fun g => absurd g j0, fun g => absurd g j1⟩⟩
    refine ⟨fun _ => ⟨x, ?_, hx, fun v => (hk v).symm⟩, fun h => absurd ⟨x.lo, (hk _).2 ⟨hxl, hx'⟩⟩ h⟩
    have hJ : J.assigned = true := by
      cases J with
      | scalar s => rfl
      | ivl y => exact assigned_of_proper (X := .ivl y) (by simpa [ProperA, Proper, CppVal.le, Arg.lo, Arg.hi] using hlh)
    subst hne
    have hp : partitionAt dbg ([] : List (V i)) J = .ok J := by simp only [partitionAt, hJ, h0, h1, expects, expectsDebug, pure, Except.pure]; simp
    unfold constrainAtT
    rw [hp, ok_bind]; rfl
  rw [call_eq k hx a ha mono J h0 h1 hlh hne]
  have mk : ∀ p q : T, NotNan p → NotNan q → (le p q = true ∧ Ivl.make p q = .ok ⟨p, q⟩) ∨ (le p q = false ∧ Ivl.make p q = .error .contract) := by
    intro p q hp hq
    by_cases h : le p q = true
    · exact .inl ⟨h, make_of_le h⟩
    · refine .inr ⟨by simpa using h, ?_⟩
      have : gt p q = true := by unfold NotNan at *; grind
      simp [Ivl.make, this]
  have lo : ∃ s', (if 0 < J.lo.val then (rangeAt a (J.lo.val - 1) >>= fun e =>
        if k.asks (E.cv i e) x.hi then k.from E i e >>= fun s => Ivl.make (cmax s x.lo) x.hi else .error .contract) else pure x : Outcome (Ivl T)) = Ivl.make s' x.hi ∧ NotNan s' ∧
        ∀ v, le s' v = true ↔ le x.lo v = true ∧ (0 < J.lo.val → le s v = true) := by
    by_cases c : 0 < J.lo.val
    · obtain ⟨e, g1, g2, g3, g4⟩ := hs c
      obtain ⟨e', q1, q2⟩ := rangeAt_ok (a := a) (i := J.lo.val - 1) (by omega) (by omega)
      rw [g1] at q2; cases q2
      refine ⟨cmax s x.lo, ?_, ?_, fun v => ?_⟩
      · rw [if_pos c, q1, ok_bind, if_pos g2, g3, ok_bind]
      · exact (cmaxN g4 hxl).1
      · simp only [c, true_imp_iff]; exact (cmaxN g4 hxl).2 v
    · exact ⟨x.lo, by rw [if_neg c, make_of_le hx']; rfl, hxl, fun v => by simp [c]⟩
  have hi : ∃ t', (if J.hi.val < a.length then (rangeAt a J.hi.val >>= fun e =>
        if k.asks (E.cv i e) x.lo then .error .contract else k.upto E i e >>= fun t => Ivl.make x.lo (cmin x.hi t)) else pure x : Outcome (Ivl T)) = Ivl.make x.lo t' ∧ NotNan t' ∧
        ∀ v, le v t' = true ↔ le v x.hi = true ∧ (J.hi.val < a.length → le v t = true) := by
    by_cases c : J.hi.val < (a.length : Int)
    · obtain ⟨e, g1, g2, g3, g4⟩ := ht c
      obtain ⟨e', q1, q2⟩ := rangeAt_ok (a := a) (i := J.hi.val) (by omega) (by omega)
      rw [g1] at q2; cases q2
      refine ⟨cmin x.hi t, ?_, ?_, fun v => ?_⟩
      · rw [if_pos c, q1, ok_bind, if_neg (by rw [g2]; decide), g3, ok_bind]
      · exact (cminN g4 hxh).1
      · simp only [c, true_imp_iff]; exact (cminN g4 hxh).2 v
    · exact ⟨x.hi, by rw [if_neg c, make_of_le hx']; rfl, hxh, fun v => by simp [c]⟩
  obtain ⟨s', a1, a2, a3⟩ := lo
  obtain ⟨t', b1, b2, b3⟩ := hi
  have kept : ∀ v, Kept v ↔ le s' v = true ∧ le v t' = true := fun v => by
    rw [a3, b3]; exact ⟨fun ⟨h1, h2, h3⟩ => ⟨⟨h1.1, h2⟩, h1.2, h3⟩, fun ⟨⟨h1, h2⟩, h3, h4⟩ => ⟨⟨h1, h3⟩, h2, h4⟩⟩
  have l1 : le x.lo s' = true := ((a3 s').1 a2).1
  have l2 : le t' x.hi = true := ((b3 t').1 b2).1
  rw [a1, b1]
  unfold NotNan at a2 b2
  refine ⟨fun ⟨v, hv⟩ => ?_, fun h => ?_⟩
  · obtain ⟨v1, v2⟩ := (kept v).1 hv
    have l3 : le s' t' = true := CppOrder.le_trans _ _ _ v1 v2
    have m1 : Ivl.make s' x.hi = .ok ⟨s', x.hi⟩ := make_of_le (CppOrder.le_trans _ _ _ l3 l2)
    have m2 : Ivl.make x.lo t' = .ok ⟨x.lo, t'⟩ := make_of_le (CppOrder.le_trans _ _ _ l1 l3)
    have m3 : le (cmax s' x.lo) (cmin x.hi t') = true := by clear mono kept a3 b3 hs ht; grind
    have m4 : (ge x.hi x.lo && le s' t') = true := by clear mono kept a3 b3 hs ht; grind
    refine ⟨⟨cmax s' x.lo, cmin x.hi t'⟩, ?_, m3, fun w => ?_⟩
    · rw [m1, m2]; simp only [ok_bind]
      rw [m4, make_of_le m3]; cases dbg <;> rfl
    · rw [kept]; unfold Pt; clear mono kept a3 b3 hs ht ha; grind
  · have l3 : le s' t' = false := by
      cases h' : le s' t' with
      | false => rfl
      | true => exact absurd ⟨s', (kept _).2 ⟨a2, h'⟩⟩ h
    rcases mk s' x.hi a2 hxh with ⟨c1, m1⟩ | ⟨c1, m1⟩
    · rcases mk x.lo t' hxl b2 with ⟨c2, m2⟩ | ⟨c2, m2⟩
      · rw [m1, m2]
        simp only [ok_bind]
        have m3 : gt (cmax s' x.lo) (cmin x.hi t') = true := by clear mono kept a3 b3 hs ht h mk ha; grind
        have m5 : Ivl.make (cmax s' x.lo) (cmin x.hi t') = .error .contract := by simp [Ivl.make, m3]
        rw [l3, m5]
        cases dbg <;> simp [expectsDebug, expects]
      · rw [m1, m2]; rfl
    · rw [m1]; rfl

/-- C106: a call whose condition cannot hold for any value of `x` — the element before the partition is not before the position of any value, or the element behind is before that of every
value — is a contract violation. -/
theorem C106_impossible (k : Search) (hx : Proper x) (a : List (V i)) (ha : ∀ e ∈ a, NotNan e) (mono : MonoCast (E.cv i)) (J : Arg Index) (h0 : 0 ≤ J.lo.val) (h1 : J.hi.val ≤ a.length)
    (hlh : J.lo.val ≤ J.hi.val) (e : V i) :
    (0 < J.lo.val → a[(J.lo.val - 1).toNat]? = some e → (∀ v, v ∈ᵢ x → k.asks (E.cv i e) v = false) → constrainAtT E dbg d x a (k.predT E dbg x i) J = .error .contract) ∧
    (J.hi.val < a.length → a[J.hi.val.toNat]? = some e → (∀ v, v ∈ᵢ x → k.asks (E.cv i e) v = true) →
      (0 < J.lo.val → ∃ e' s, a[(J.lo.val - 1).toNat]? = some e' ∧ k.from E i e' = .ok s ∧ NotNan s) → constrainAtT E dbg d x a (k.predT E dbg x i) J = .error .contract) := by
  have hx' : le x.lo x.hi = true := hx
  have hxl := CppOrder.le_left _ _ hx'; have hxh := CppOrder.le_right _ _ hx'
  refine ⟨fun c he hv => ?_, fun c he hv hs => ?_⟩
  · have hne : a ≠ [] := by rintro rfl; simp at he
    obtain ⟨e', q1, q2⟩ := rangeAt_ok (a := a) (i := J.lo.val - 1) (by omega) (by omega)
    rw [he] at q2; cases q2
    rw [call_eq k hx a ha mono J h0 h1 hlh hne, if_pos c, q1, ok_bind, if_neg (by rw [hv _ ⟨hx', hxh⟩]; decide)]; rfl
  · have hne : a ≠ [] := by rintro rfl; simp at he
    obtain ⟨e', q1, q2⟩ := rangeAt_ok (a := a) (i := J.hi.val) (by omega) (by omega)
    rw [he] at q2; cases q2
    rw [call_eq k hx a ha mono J h0 h1 hlh hne, if_pos c, q1, ok_bind, if_pos (hv _ ⟨hxl, hx'⟩)]
    by_cases c1 : 0 < J.lo.val
    · obtain ⟨f, s, f1, f2, f3⟩ := hs c1
      obtain ⟨e', q3, q4⟩ := rangeAt_ok (a := a) (i := J.lo.val - 1) (by omega) (by omega)
      rw [f1] at q4; cases q4
      rw [if_pos c1, q3, ok_bind]
      cases k.asks (E.cv i f) x.hi
      · rfl
      · rw [if_pos rfl, f2, ok_bind]
        cases h : gt (cmax s x.lo) x.hi <;> simp [Ivl.make, h, pure, Except.pure]
    · rw [if_neg c1]; rfl

/-- C106: where the element before the partition has no successor in its type, the call has undefined behaviour (unless no value of `x` lies behind that element). -/
theorem C106_ub (hx : Proper x) (a : List (V i)) (ha : ∀ e ∈ a, NotNan e) (mono : MonoCast (E.cv i)) (J : Arg Index) (h0 : 0 < J.lo.val) (h1 : J.hi.val ≤ a.length)
    (hlh : J.lo.val ≤ J.hi.val) (e : V i) (he : a[(J.lo.val - 1).toNat]? = some e) (v : T) (hv : v ∈ᵢ x) (hlt : lt (E.cv i e) v = true) (hu : E.su i e = .error .ub) :
    constrainAtT E dbg d x a (Search.lower.predT E dbg x i) J = .error .ub := by
  have hne : a ≠ [] := by rintro rfl; simp at he
  obtain ⟨e', q1, q2⟩ := rangeAt_ok (a := a) (i := J.lo.val - 1) (by omega) (by omega)
  rw [he] at q2; cases q2
  have hn : le (E.cv i e) (E.cv i e) = true := mono _ _ (ha e (List.mem_of_getElem? he))
  have hxh := CppOrder.le_right _ _ (show le x.lo x.hi = true from hx)
  have : Search.lower.asks (E.cv i e) x.hi = true := lt_le hlt hv.2
  rw [call_eq .lower hx a ha mono J (by omega) h1 hlh hne, if_pos h0, q1, ok_bind, if_pos this]
  simp only [Search.from, hu]; rfl

/-- C106: likewise for `upper_bound` where the element behind the partition has no predecessor. -/
theorem C106_ub_upper (hx : Proper x) (a : List (V i)) (ha : ∀ e ∈ a, NotNan e) (mono : MonoCast (E.cv i)) (J : Arg Index) (h0 : 0 ≤ J.lo.val) (h1 : J.hi.val < a.length)
    (hlh : J.lo.val ≤ J.hi.val) (e : V i) (he : a[J.hi.val.toNat]? = some e) (v : T) (hv : v ∈ᵢ x) (hlt : lt v (E.cv i e) = true) (hu : E.pr i e = .error .ub)
    (hs : 0 < J.lo.val → ∃ e', a[(J.lo.val - 1).toNat]? = some e' ∧ ∃ w, w ∈ᵢ x ∧ le (E.cv i e') w = true) :
    constrainAtT E dbg d x a (Search.upper.predT E dbg x i) J = .error .ub := by
  have hx' : le x.lo x.hi = true := hx
  have hne : a ≠ [] := by rintro rfl; simp at he
  obtain ⟨e', q1, q2⟩ := rangeAt_ok (a := a) (i := J.hi.val) (by omega) (by omega)
  rw [he] at q2; cases q2
  have : ¬ Search.upper.asks (E.cv i e) x.lo = true := by
    show ¬ le (E.cv i e) x.lo = true
    rw [le_lt' hv.1 hlt]; decide
  have hr : (if Search.upper.asks (E.cv i e) x.lo then .error .contract else Search.upper.upto E i e >>= fun t => Ivl.make x.lo (cmin x.hi t) : Outcome (Ivl T)) = .error .ub := by
    rw [if_neg this]; simp only [Search.upto, hu]; rfl
  rw [call_eq .upper hx a ha mono J h0 (by omega) hlh hne, if_pos h1, q1, ok_bind, hr]
  by_cases c1 : 0 < J.lo.val
  · obtain ⟨f, f1, w, f2, f3⟩ := hs c1
    obtain ⟨e', q3, q4⟩ := rangeAt_ok (a := a) (i := J.lo.val - 1) (by omega) (by omega)
    rw [f1] at q4; cases q4
    have p1 : Search.upper.asks (E.cv i f) x.hi = true := CppOrder.le_trans _ _ _ f3 f2.2
    have p2 : le (cmax (E.cv i f) x.lo) x.hi = true := cmax_le p1 hx'
    rw [if_pos c1, q3, ok_bind, if_pos p1]
    simp only [Search.from, ok_bind, make_of_le p2]; rfl
  · rw [if_neg c1]; rfl

/-- `InPart` in terms of the two elements next to the partition -/
theorem C106_part (k : Search) (a : List (V i)) (ha : SortedM (E.cv i) a) (J : Arg Index) (h0 : 0 ≤ J.lo.val) (h1 : J.hi.val ≤ a.length) (hlh : J.lo.val ≤ J.hi.val) (v : T)
    (hv : NotNan v) : k.InPart E a J v ↔ (∀ e, 0 < J.lo.val → a[(J.lo.val - 1).toNat]? = some e → k.asks (E.cv i e) v = true) ∧ (∀ e, a[J.hi.val.toNat]? = some e → k.asks (E.cv i e) v = false) := by
  obtain ⟨r, h2, h3, h4⟩ := C106_scalar (cx := fun v : T => v) k a ha v hv
  have r0 := r.ge; have r1 := r.le
  have ex : k.InPart E a J v ↔ J.lo.val ≤ r.val ∧ r.val ≤ J.hi.val := by
    unfold Search.InPart
    rw [h2]
    exact ⟨fun ⟨r', e, g⟩ => by cases e; exact g, fun g => ⟨r, rfl, g⟩⟩
  rw [ex]
  refine ⟨fun ⟨g1, g2⟩ => ⟨fun e c he => (h4 _ _ he).2 (by omega), fun e he => ?_⟩, fun ⟨g1, g2⟩ => ⟨?_, ?_⟩⟩
  · cases h : k.asks (E.cv i e) v with
    | false => rfl
    | true => have := (h4 _ _ he).1 h; omega
  · by_cases c : 0 < J.lo.val
    · have hb : (J.lo.val - 1).toNat < a.length := by omega
      have := (h4 _ _ (List.getElem?_eq_getElem hb)).1 (g1 _ c (List.getElem?_eq_getElem hb)); omega
    · omega
  · by_cases hb : J.hi.val.toNat < a.length
    · have := g2 _ (List.getElem?_eq_getElem hb)
      have : ¬ J.hi.val.toNat < r.val.toNat := fun h => by
        have h' := (h4 _ _ (List.getElem?_eq_getElem hb)).2 h
        simp only [this] at h'; cases h'
      omega
    · omega

private theorem result_part (k : Search) (hx : Proper x) (a : List (V i)) (ha : ∀ e ∈ a, NotNan e) (sorted : SortedM (E.cv i) a) (mono : MonoCast (E.cv i)) (J : Arg Index)
    (h0 : 0 ≤ J.lo.val) (h1 : J.hi.val ≤ a.length) (hlh : J.lo.val ≤ J.hi.val) (s t : T)
    (hs : 0 < J.lo.val → ∃ e, a[(J.lo.val - 1).toNat]? = some e ∧ k.from E i e = .ok s ∧ NotNan s)
    (ht : J.hi.val < a.length → ∃ e, a[J.hi.val.toNat]? = some e ∧ k.upto E i e = .ok t ∧ NotNan t) (v : T) (hv : v ∈ᵢ x) (hp : k.InPart E a J v) :
    let Kept v := v ∈ᵢ x ∧ (0 < J.lo.val → le s v = true) ∧ (J.hi.val < a.length → le v t = true)
    ((∃ v, Kept v) → ∃ R, constrainAtT E dbg d x a (k.predT E dbg x i) J = .ok R ∧ Proper R ∧ ∀ v, v ∈ᵢ R ↔ Kept v) ∧
    ((¬∃ v, Kept v) → constrainAtT E dbg d x a (k.predT E dbg x i) J = .error .contract) := by
  obtain ⟨p1, p2⟩ := (C106_part k a sorted J h0 h1 hlh v (CppOrder.le_right _ _ hv.1)).1 hp
  refine C106_result k hx a ha mono J h0 h1 hlh s t (fun c => ?_) (fun c => ?_)
  · obtain ⟨e, g1, g2, g3⟩ := hs c
    exact ⟨e, g1, asks_mono k (p1 e c g1) hv.2, g2, g3⟩
  · obtain ⟨e, g1, g2, g3⟩ := ht c
    refine ⟨e, g1, ?_, g2, g3⟩
    cases h : k.asks (E.cv i e) x.lo with
    | false => rfl
    | true => have := asks_mono k h hv.1; rw [p2 e g1] at this; cases this

/-- C106, values in the partition are kept — provided that they are not below the successor of the element before the partition (`lower_bound`), nor above the predecessor of the element behind
it (`upper_bound`). -/
theorem C106_keeps_partial (k : Search) (hx : Proper x) (a : List (V i)) (ha : ∀ e ∈ a, NotNan e) (sorted : SortedM (E.cv i) a) (mono : MonoCast (E.cv i)) (J : Arg Index)
    (h0 : 0 ≤ J.lo.val) (h1 : J.hi.val ≤ a.length) (hlh : J.lo.val ≤ J.hi.val) (s t : T)
    (hs : 0 < J.lo.val → ∃ e, a[(J.lo.val - 1).toNat]? = some e ∧ k.from E i e = .ok s ∧ NotNan s)
    (ht : J.hi.val < a.length → ∃ e, a[J.hi.val.toNat]? = some e ∧ k.upto E i e = .ok t ∧ NotNan t) (v : T) (hv : v ∈ᵢ x) (hp : k.InPart E a J v)
    (hsv : 0 < J.lo.val → le s v = true) (hvt : J.hi.val < a.length → le v t = true) :
    ∃ R, constrainAtT E dbg d x a (k.predT E dbg x i) J = .ok R ∧ v ∈ᵢ R := by
  obtain ⟨g, _⟩ := result_part (d := d) (dbg := dbg) k hx a ha sorted mono J h0 h1 hlh s t hs ht v hv hp
  obtain ⟨R, g1, _, g3⟩ := g ⟨v, hv, hsv, hvt⟩
  exact ⟨R, g1, (g3 v).2 ⟨hv, hsv, hvt⟩⟩

/-- C106, what the missing part of `C106_keeps_partial` comes to: a value of `x` that belongs to the partition but lies below that successor or above that predecessor is lost. -/
theorem C106_lost (k : Search) (hx : Proper x) (a : List (V i)) (ha : ∀ e ∈ a, NotNan e) (sorted : SortedM (E.cv i) a) (mono : MonoCast (E.cv i)) (J : Arg Index)
    (h0 : 0 ≤ J.lo.val) (h1 : J.hi.val ≤ a.length) (hlh : J.lo.val ≤ J.hi.val) (s t : T)
    (hs : 0 < J.lo.val → ∃ e, a[(J.lo.val - 1).toNat]? = some e ∧ k.from E i e = .ok s ∧ NotNan s)
    (ht : J.hi.val < a.length → ∃ e, a[J.hi.val.toNat]? = some e ∧ k.upto E i e = .ok t ∧ NotNan t) (v : T) (hv : v ∈ᵢ x) (hp : k.InPart E a J v)
    (hl : (0 < J.lo.val ∧ le s v = false) ∨ (J.hi.val < a.length ∧ le v t = false)) (R : Ivl T) (h : constrainAtT E dbg d x a (k.predT E dbg x i) J = .ok R) : ¬ v ∈ᵢ R := by
  obtain ⟨g, g'⟩ := result_part (d := d) (dbg := dbg) k hx a ha sorted mono J h0 h1 hlh s t hs ht v hv hp
  intro hr
  by_cases hk : ∃ v, v ∈ᵢ x ∧ (0 < J.lo.val → le s v = true) ∧ (J.hi.val < a.length → le v t = true)
  · obtain ⟨R', g1, _, g3⟩ := g hk
    rw [g1] at h; cases h
    obtain ⟨_, q1, q2⟩ := (g3 v).1 hr
    rcases hl with ⟨c, h⟩ | ⟨c, h⟩
    · rw [q1 c] at h; cases h
    · rw [q2 c] at h; cases h
  · rw [g' hk] at h; cases h

/-- C106 for elements whose type is not stepped (floating-point elements): every value of `x` in the partition is kept. -/
theorem C106_keeps_same (k : Search) (hx : Proper x) (a : List (V i)) (ha : ∀ e ∈ a, NotNan e) (sorted : SortedM (E.cv i) a) (mono : MonoCast (E.cv i)) (J : Arg Index)
    (h0 : 0 ≤ J.lo.val) (h1 : J.hi.val ≤ a.length) (hlh : J.lo.val ≤ J.hi.val) (same : ∀ v, E.pr i v = .ok v ∧ E.su i v = .ok v) (v : T) (hv : v ∈ᵢ x) (hp : k.InPart E a J v) :
    ∃ R, constrainAtT E dbg d x a (k.predT E dbg x i) J = .ok R ∧ v ∈ᵢ R := by
  have nv : NotNan v := CppOrder.le_right _ _ hv.1
  obtain ⟨p1, p2⟩ := (C106_part k a sorted J h0 h1 hlh v nv).1 hp
  have fr : ∀ e, k.from E i e = .ok (E.cv i e) := fun e => by cases k <;> simp [Search.from, (same e).2, pure, Except.pure]
  have up : ∀ e, k.upto E i e = .ok (E.cv i e) := fun e => by cases k <;> simp [Search.upto, (same e).1, pure, Except.pure]
  have hs : ∃ s, 0 < J.lo.val → ∃ e, a[(J.lo.val - 1).toNat]? = some e ∧ s = E.cv i e := by
    by_cases c : 0 < J.lo.val
    · have hb : (J.lo.val - 1).toNat < a.length := by omega
      exact ⟨E.cv i a[(J.lo.val - 1).toNat], fun _ => ⟨_, List.getElem?_eq_getElem hb, rfl⟩⟩
    · exact ⟨x.lo, fun h => absurd h c⟩
  have ht : ∃ t, J.hi.val < a.length → ∃ e, a[J.hi.val.toNat]? = some e ∧ t = E.cv i e := by
    by_cases c : J.hi.val < (a.length : Int)
    · have hb : J.hi.val.toNat < a.length := by omega
      exact ⟨E.cv i a[J.hi.val.toNat], fun _ => ⟨_, List.getElem?_eq_getElem hb, rfl⟩⟩
    · exact ⟨x.lo, fun h => absurd h c⟩
  obtain ⟨s, hs⟩ := hs
  obtain ⟨t, ht⟩ := ht
  have nn : ∀ e ∈ a, NotNan (E.cv i e) := sorted.2
  refine C106_keeps_partial k hx a ha sorted mono J h0 h1 hlh s t (fun c => ?_) (fun c => ?_) v hv hp (fun c => ?_) (fun c => ?_)
  · obtain ⟨e, g1, rfl⟩ := hs c
    exact ⟨e, g1, fr e, nn e (List.mem_of_getElem? g1)⟩
  · obtain ⟨e, g1, rfl⟩ := ht c
    exact ⟨e, g1, up e, nn e (List.mem_of_getElem? g1)⟩
  · obtain ⟨e, g1, rfl⟩ := hs c
    exact asks_le k (p1 e c g1)
  · obtain ⟨e, g1, rfl⟩ := ht c
    exact not_asks_le k (nn e (List.mem_of_getElem? g1)) nv (p2 e g1)
end part

section ints
variable {n : Nat} {dbg : Bool} {x : Ivl (SInt n)} {m : {m // m ≤ n}}

/-- C106 for an interval of integers and elements of a narrower integer type: the result is exactly the values of `x` in the partition, and a contract violation if there are none — except where
the element before the partition is the largest of its type (`lower_bound`) or the one behind it the smallest (`upper_bound`). -/
theorem C106_int_partial (k : Search) (hx : Proper x) (a : List (SInt m.1)) (sorted : a.Pairwise (fun u v => u.val ≤ v.val)) (J : Arg Index) (h0 : 0 ≤ J.lo.val) (h1 : J.hi.val ≤ a.length)
    (hlh : J.lo.val ≤ J.hi.val) (hs : k = .lower → 0 < J.lo.val → ∀ e, a[(J.lo.val - 1).toNat]? = some e → e.val ≠ 2^m.1 - 1)
    (ht : k = .upper → ∀ e, a[J.hi.val.toNat]? = some e → e.val ≠ -2^m.1) :
    ((∃ v, v ∈ᵢ x ∧ k.InPart (wideOperands n) a J v) →
      ∃ R, constrainAtT (wideOperands n) dbg true x a (k.predT (wideOperands n) dbg x m) J = .ok R ∧ ∀ v, v ∈ᵢ R ↔ v ∈ᵢ x ∧ k.InPart (wideOperands n) a J v) ∧
    ((¬∃ v, v ∈ᵢ x ∧ k.InPart (wideOperands n) a J v) → constrainAtT (wideOperands n) dbg true x a (k.predT (wideOperands n) dbg x m) J = .error .contract) := by
  have mono : MonoCast ((wideOperands n).cv m) := C101_casts (K := ℚ).1 m.2
  have nn : ∀ v : SInt m.1, NotNan v := fun v => by simp [NotNan, CppVal.le]
  have nN : ∀ v : SInt n, NotNan v := fun v => by simp [NotNan, CppVal.le]
  have ha : ∀ e ∈ a, NotNan e := fun e _ => nn e
  have hS : SortedM ((wideOperands n).cv m) a := ⟨sorted.imp fun h => mono _ _ (by simpa [CppVal.le] using h), fun _ _ => nN _⟩
  have part := fun v => C106_part (E := wideOperands n) k a hS J h0 h1 hlh v (nN v)
  have val : ∀ e : SInt m.1, ((wideOperands n).cv m e).val = e.val := fun e => rfl
  have ifs : ∃ s, 0 < J.lo.val → ∃ e, a[(J.lo.val - 1).toNat]? = some e ∧ k.from (wideOperands n) m e = .ok s ∧ ∀ v, le s v = k.asks ((wideOperands n).cv m e) v := by
    by_cases c : 0 < J.lo.val
    · have hb : (J.lo.val - 1).toNat < a.length := by omega
      have he := List.getElem?_eq_getElem hb
      generalize a[(J.lo.val - 1).toNat] = e at he
      cases k
      · rcases succ_sint e with ⟨p, p1, p2, _⟩ | ⟨_, p2⟩
        · have q1 : (wideOperands n).su m e = .ok p := p1
          refine ⟨(wideOperands n).cv m p, fun _ => ⟨e, he, by simp [Search.from, q1, pure, Except.pure], fun v => ?_⟩⟩
          simp only [Search.asks, CppVal.le, CppVal.lt, val]
          rw [decide_eq_decide]; omega
        · exact absurd p2 (hs rfl c e he)
      · exact ⟨(wideOperands n).cv m e, fun _ => ⟨e, he, rfl, fun v => rfl⟩⟩
    · exact ⟨x.lo, fun h => absurd h c⟩
  have ift : ∃ t, J.hi.val < a.length → ∃ e, a[J.hi.val.toNat]? = some e ∧ k.upto (wideOperands n) m e = .ok t ∧ ∀ v, le v t = !k.asks ((wideOperands n).cv m e) v := by
    by_cases c : J.hi.val < (a.length : Int)
    · have hb : J.hi.val.toNat < a.length := by omega
      have he := List.getElem?_eq_getElem hb
      generalize a[J.hi.val.toNat] = e at he
      cases k
      · refine ⟨(wideOperands n).cv m e, fun _ => ⟨e, he, rfl, fun v => ?_⟩⟩
        simp only [Search.asks, CppVal.le, CppVal.lt, val]
        rw [← decide_not, decide_eq_decide]; omega
      · rcases pred_sint e with ⟨p, p1, p2, _⟩ | ⟨_, p2⟩
        · have q1 : (wideOperands n).pr m e = .ok p := p1
          refine ⟨(wideOperands n).cv m p, fun _ => ⟨e, he, by simp [Search.upto, q1, pure, Except.pure], fun v => ?_⟩⟩
          simp only [Search.asks, CppVal.le, val]
          rw [← decide_not, decide_eq_decide]; omega
        · exact absurd p2 (ht rfl e he)
    · exact ⟨x.lo, fun h => absurd h c⟩
  obtain ⟨s, ifs⟩ := ifs
  obtain ⟨t, ift⟩ := ift
  have kept : ∀ v, (v ∈ᵢ x ∧ (0 < J.lo.val → le s v = true) ∧ (J.hi.val < a.length → le v t = true)) ↔ v ∈ᵢ x ∧ k.InPart (wideOperands n) a J v := by
    intro v
    rw [part v]
    refine and_congr_right fun _ => ⟨fun ⟨g1, g2⟩ => ⟨fun e c he => ?_, fun e he => ?_⟩, fun ⟨g1, g2⟩ => ⟨fun c => ?_, fun c => ?_⟩⟩
    · obtain ⟨e', q1, _, q3⟩ := ifs c
      rw [q1] at he; cases he; rw [← q3]; exact g1 c
    · have c : J.hi.val < (a.length : Int) := by have := (List.getElem?_eq_some_iff.mp he).1; omega
      obtain ⟨e', q1, _, q3⟩ := ift c
      rw [q1] at he; cases he
      have := q3 v; rw [g2 c] at this; simpa using this.symm
    · obtain ⟨e', q1, _, q3⟩ := ifs c
      rw [q3]; exact g1 e' c q1
    · obtain ⟨e', q1, _, q3⟩ := ift c
      rw [q3, g2 e' q1]; rfl
  refine ⟨fun ⟨v, hv, hp⟩ => ?_, fun hno => ?_⟩
  · obtain ⟨g, _⟩ := result_part (E := wideOperands n) (d := true) (dbg := dbg) k hx a ha hS mono J h0 h1 hlh s t (fun c => by obtain ⟨e, q1, q2, _⟩ := ifs c; exact ⟨e, q1, q2, nN _⟩)
      (fun c => by obtain ⟨e, q1, q2, _⟩ := ift c; exact ⟨e, q1, q2, nN _⟩) v hv hp
    obtain ⟨R, g1, _, g3⟩ := g ⟨v, (kept v).2 ⟨hv, hp⟩⟩
    exact ⟨R, g1, fun w => (g3 w).trans (kept w)⟩
  · have upx : ∀ v, v ∈ᵢ x → ∀ e, k.asks e v = true → k.asks e x.hi = true := fun v hv e h => asks_mono k h hv.2
    by_cases b1 : 0 < J.lo.val ∧ le s x.hi = false
    · obtain ⟨e, q1, _, q3⟩ := ifs b1.1
      refine (C106_impossible (E := wideOperands n) k hx a ha mono J h0 h1 hlh e).1 b1.1 q1 fun v hv => ?_
      cases h : k.asks ((wideOperands n).cv m e) v with
      | false => rfl
      | true => have := upx v hv _ h; rw [← q3, b1.2] at this; cases this
    by_cases b2 : J.hi.val < a.length ∧ le x.lo t = false
    · obtain ⟨e, q1, _, q3⟩ := ift b2.1
      refine (C106_impossible (E := wideOperands n) k hx a ha mono J h0 h1 hlh e).2 b2.1 q1 (fun v hv => ?_) fun c => by
        obtain ⟨e, q1, q2, _⟩ := ifs c; exact ⟨e, s, q1, q2, nN _⟩
      have := q3 x.lo
      rw [b2.2] at this
      exact asks_mono k (by simpa using this) hv.1
    refine (C106_result (E := wideOperands n) (d := true) (dbg := dbg) k hx a ha mono J h0 h1 hlh s t (fun c => ?_) (fun c => ?_)).2 fun ⟨v, hv⟩ => hno ⟨v, (kept v).1 hv⟩
    · obtain ⟨e, q1, q2, q3⟩ := ifs c
      refine ⟨e, q1, ?_, q2, nN _⟩
      rw [← q3]
      cases h : le s x.hi with
      | true => rfl
      | false => exact absurd ⟨c, h⟩ b1
    · obtain ⟨e, q1, q2, q3⟩ := ift c
      refine ⟨e, q1, ?_, q2, nN _⟩
      have := q3 x.lo
      cases h : le x.lo t with
      | true => rw [h] at this; simpa using this.symm
      | false => exact absurd ⟨c, h⟩ b2
end ints

section any
variable {ι : Type} {V : ι → Type} [∀ i, CppVal (V i)] [∀ i, CppNum (V i)] {T : Type} [CppVal T] [CppNum T] [CppOrder T] [CppStep T]
variable {E : OperandTypes V T} {dbg : Bool} {x : Ivl T}

/-- C106 for the caller's own predicates: `partition_point` on any range, sorted or not, with a predicate that is any condition on `x` over operands of several value types, succeeds, and it
contains the result of the scalar search for every Boolean predicate that is, at each element, a value the condition takes for some value of `x`. -/
theorem C106_any {W : Type} (hx : Proper x) (P : W → MExpr V) (a : List W) (hP : ∀ e ∈ a, (P e).Proper E) :
    ∃ R, partitionPointB (fun e => do return (← (P e).build E dbg x).truth) a = .ok R ∧ Proper R ∧
      ∀ p : W → Bool, (∀ e ∈ a, ∃ u, u ∈ᵢ x ∧ (P e).Sat E u (p e)) → ∃ r, partitionPointS (fun e => .ok (p e)) a = .ok r ∧ r ∈ᵢ R := by
  classical
  have ex : ∀ e, ∃ b : BoolSet, e ∈ a → ∃ c, (P e).build E dbg x = .ok c ∧ c.truth = b ∧ b ≠ BoolSet.empty ∧ ∀ u p, u ∈ᵢ x → (P e).Sat E u p → BoolSet.contains b p = true := fun e => by
    by_cases he : e ∈ a
    · obtain ⟨c, h1, h2, h3, _⟩ := build_wfT (dbg := dbg) hx (P e) (hP e he)
      exact ⟨c.truth, fun _ => ⟨c, h1, rfl, wf_ne hx c h2, fun u p hu hs => sat_truth hx hu c p h2 (h3 u p hu hs)⟩⟩
    · exact ⟨BoolSet.empty, fun h => absurd h he⟩
  choose b hb using ex
  obtain ⟨R, g1, g2, _, _, g5⟩ := C51_any_range (T := T) (fun e => do return Cond.plain (← (P e).build E dbg x).truth) (fun e => Cond.plain (b e)) a
    (fun e he => by obtain ⟨c, h1, h2, _⟩ := hb e he; rw [h1, ← h2]; rfl) (fun e he => by obtain ⟨c, _, _, h3, _⟩ := hb e he; exact h3)
  refine ⟨R, ?_, g2, fun p hp => g5 p fun e he => ?_⟩
  · rw [← g1]
    simp [partitionPointB, partitionPointI, bind_assoc, Cond.truth]
  · obtain ⟨u, h1, h2⟩ := hp e he
    obtain ⟨_, _, _, _, h5⟩ := hb e he
    exact h5 u _ h1 h2
end any

/-- C106 in full: constraining by a partition keeps every value of `x` that belongs to it. -/
def C106_full (F : Fmt ℚ) : Prop :=
  ∀ (k : Search) (m : Nat) (x : Ivl (Fl ℚ)) (a : List (SInt m)) (J : Arg Index) (v : Fl ℚ), Proper x → a.Pairwise (fun u v => u.val ≤ v.val) → 0 ≤ J.lo.val → J.hi.val ≤ a.length →
    J.lo.val ≤ J.hi.val → v ∈ᵢ x → k.InPart (doubleOperands F) a J v →
    ∃ R, constrainAtT (doubleOperands F) true false x a (k.predT (doubleOperands F) true x m) J = .ok R ∧ v ∈ᵢ R

/-- Disagreement fff: a table of `int` breakpoints `{ 0, 10 }` and an `interval<double>`: all of `[0.25, 5]` belongs to the partition 1 of `lower_bound`, but the constrained interval is
`[1, 5]`; `[0.25, 0.75]`, all of which belongs to it, is a contract violation; and all of `[5, 9.5]` belongs to the partition 1 of `upper_bound`, but the constrained interval is `[5, 9]`. -/
theorem C106_violated :
    letI := binary64Fmt
    letI E := doubleOperands binary64Fmt
    letI a : List (SInt 31) := [i32 0, i32 10]
    letI J : Arg Index := .scalar ⟨1, by decide, by decide⟩
    ¬ C106_full binary64Fmt ∧
    (Search.lower.findM (E.cv 31) (fun v : Fl ℚ => v) true a ⟨.num (1/4), .num 5⟩).map (fun R => (R.lo.val, R.hi.val)) = .ok (1, 1) ∧
    constrainAtT E true false ⟨.num (1/4), .num 5⟩ a (Search.lower.predT E true ⟨.num (1/4), .num 5⟩ 31) J = .ok ⟨.num 1, .num 5⟩ ∧
    (Search.lower.findM (E.cv 31) (fun v : Fl ℚ => v) true a ⟨.num (1/4), .num (3/4)⟩).map (fun R => (R.lo.val, R.hi.val)) = .ok (1, 1) ∧
    constrainAtT E true false ⟨.num (1/4), .num (3/4)⟩ a (Search.lower.predT E true ⟨.num (1/4), .num (3/4)⟩ 31) J = .error .contract ∧
    (Search.upper.findM (E.cv 31) (fun v : Fl ℚ => v) true a ⟨.num 5, .num (19/2)⟩).map (fun R => (R.lo.val, R.hi.val)) = .ok (1, 1) ∧
    constrainAtT E true false ⟨.num 5, .num (19/2)⟩ a (Search.upper.predT E true ⟨.num 5, .num (19/2)⟩ 31) J = .ok ⟨.num 5, .num 9⟩ := by
  let _ := binary64Fmt
  refine ⟨fun h => ?_, by decide +kernel, by decide +kernel, by decide +kernel, by decide +kernel, by decide +kernel, by decide +kernel⟩
  obtain ⟨R, h1, _⟩ := h .lower 31 ⟨.num (1/4), .num (3/4)⟩ [i32 0, i32 10] (.scalar ⟨1, by decide, by decide⟩) (.num (1/2)) (by decide +kernel) (by decide) (by decide) (by decide) (by decide)
    ⟨by decide +kernel, by decide +kernel⟩ ⟨⟨1, by decide, by decide⟩, by decide +kernel, by decide, by decide⟩
  have : constrainAtT (doubleOperands binary64Fmt) true false ⟨.num (1/4), .num (3/4)⟩ [i32 0, i32 10]
    (Search.lower.predT (doubleOperands binary64Fmt) true ⟨.num (1/4), .num (3/4)⟩ 31) (.scalar ⟨1, by decide, by decide⟩) = .error .contract := by decide +kernel
  rw [this] at h1; cases h1

/-- a breakpoint `INT_MAX` and an interval of `long` that reaches beyond it: undefined behaviour; an `int8_t` table and an interval of `int`: exact -/
example :
    constrainAtT (wideOperands 63) true true ⟨i64 0, i64 3000000000⟩ [i32 2147483647] (Search.lower.predT (wideOperands 63) true ⟨i64 0, i64 3000000000⟩ ⟨31, by decide⟩)
      (.scalar ⟨1, by decide, by decide⟩) = .error .ub ∧
    constrainAtT (wideOperands 63) true true ⟨i64 0, i64 3000000000⟩ [i32 3, i32 7] (Search.lower.predT (wideOperands 63) true ⟨i64 0, i64 3000000000⟩ ⟨31, by decide⟩)
      (.scalar ⟨1, by decide, by decide⟩) = .ok ⟨i64 4, i64 7⟩ ∧
    constrainAtT (wideOperands 63) true true ⟨i64 0, i64 3000000000⟩ [i32 3, i32 7] (Search.upper.predT (wideOperands 63) true ⟨i64 0, i64 3000000000⟩ ⟨31, by decide⟩)
      (.scalar ⟨1, by decide, by decide⟩) = .ok ⟨i64 3, i64 6⟩ ∧
    (Search.lower.findM (widenV (by decide : 31 ≤ 63)) (fun v : SInt 63 => v) true [i32 3, i32 7] ⟨i64 0, i64 5⟩).map (fun R => (R.lo.val, R.hi.val)) = .ok (0, 1) := by
  decide +kernel

/-- the hypotheses of the theorems on partitions: the partition 1 of `{ 3, 7 }` holds 5, and the steps are defined -/
example : Search.lower.InPart (wideOperands 63) (i := ⟨31, by decide⟩) [i32 3, i32 7] (.scalar ⟨1, by decide, by decide⟩) (i64 5) ∧
    Search.lower.from (wideOperands 63) ⟨31, by decide⟩ (i32 3) = .ok (i64 4) ∧ Search.lower.upto (wideOperands 63) ⟨31, by decide⟩ (i32 7) = .ok (i64 7) :=
  ⟨⟨⟨1, by decide, by decide⟩, by decide +kernel, by decide, by decide⟩, by decide, by decide⟩
end Intervals.Props
