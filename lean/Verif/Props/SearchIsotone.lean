import Verif.Props.SearchMixed
/-!
# C90, C106: searches with a comparison function of the caller, or in ranges of another value type, are inclusion isotone on every range
-/
set_option linter.unusedSectionVars false
namespace Intervals.Props
open Intervals CppVal Spec

/-- C90: a smaller interval has a smaller interval of positions, on any range — sorted or not — and for both comparisons. -/
theorem C90_isotone {T : Type _} [CppVal T] [CppOrder T] {V : Type _} (k : Search) (o : Order) (key : V → T) (dbg dE : Bool) (a : List V) (ha : ∀ e ∈ a, NotNan (key e)) (value value' : Operand T)
    (x x' : Ivl T) (hv : value.arg = .ivl x) (hv' : value'.arg = .ivl x') (hx : Proper x) (hsub : ∀ v, v ∈ᵢ x → v ∈ᵢ x') :
    ∃ P P', k.byI o key dbg dE a value = .ok P ∧ k.byI o key dbg dE a value' = .ok P' ∧ P'.lo.val ≤ P.lo.val ∧ P.lo.val ≤ P.hi.val ∧ P.hi.val ≤ P'.hi.val := by
  have l1 : x.lo ∈ᵢ x := ⟨CppOrder.le_left _ _ hx, hx⟩
  have l2 : x.hi ∈ᵢ x := ⟨hx, CppOrder.le_right _ _ hx⟩
  have hx' : Proper x' := CppOrder.le_trans _ _ _ (hsub _ l1).1 (hsub _ l1).2
  have f1 : o.first x ∈ᵢ x := by cases o <;> assumption
  have f2 : o.last x ∈ᵢ x := by cases o <;> assumption
  obtain ⟨P, p1, p2, p3, p4⟩ := C90_bounds k o key dbg dE a ha value x hv hx
  obtain ⟨P', q1, q2, q3, q4⟩ := C90_bounds k o key dbg dE a ha value' x' hv' hx'
  obtain ⟨r, r1, r2⟩ := q4 _ (hsub _ f1)
  obtain ⟨s, s1, s2⟩ := q4 _ (hsub _ f2)
  obtain ⟨t, t1, t2⟩ := p4 _ f1
  obtain rfl := Except.ok.inj (p2.symm.trans r1)
  obtain rfl := Except.ok.inj (p3.symm.trans s1)
  obtain rfl := Except.ok.inj (p2.symm.trans t1)
  refine ⟨P, P', p1, q1, ?_, ?_, ?_⟩
  · simpa [CppVal.le] using r2.1
  · simpa [CppVal.le] using t2.2
  · simpa [CppVal.le] using s2.2

/-- C106: a smaller interval has a smaller interval of positions, on any range — sorted or not — of elements of any value type. -/
theorem C106_isotone {V U T : Type} [CppVal V] [CppNum V] [CppVal U] [CppNum U] [CppVal T] [CppNum T] [CppOrder U] [CppOrder T] {ce : V → T} {cx : U → T} (k : Search) (dbg : Bool) (a : List V)
    (ha : ∀ e ∈ a, NotNan (ce e)) (x x' : Ivl U) (hx : Proper x) (hsub : ∀ v, v ∈ᵢ x → v ∈ᵢ x') (mono : MonoCast cx) :
    ∃ P P', k.findM ce cx dbg a x = .ok P ∧ k.findM ce cx dbg a x' = .ok P' ∧ P'.lo.val ≤ P.lo.val ∧ P.lo.val ≤ P.hi.val ∧ P.hi.val ≤ P'.hi.val := by
  have l1 : x.lo ∈ᵢ x := ⟨CppOrder.le_left _ _ hx, hx⟩
  have l2 : x.hi ∈ᵢ x := ⟨hx, CppOrder.le_right _ _ hx⟩
  have hx' : Proper x' := CppOrder.le_trans _ _ _ (hsub _ l1).1 (hsub _ l1).2
  obtain ⟨P, p1, p2, p3, p4⟩ := C106_search k dbg a ha x hx mono
  obtain ⟨P', q1, q2, q3, q4⟩ := C106_search k dbg a ha x' hx' mono
  obtain ⟨r, r1, r2⟩ := q4 _ (hsub _ l1)
  obtain ⟨s, s1, s2⟩ := q4 _ (hsub _ l2)
  obtain ⟨t, t1, t2⟩ := p4 _ l1
  obtain rfl := Except.ok.inj (p2.symm.trans r1)
  obtain rfl := Except.ok.inj (p3.symm.trans s1)
  obtain rfl := Except.ok.inj (p2.symm.trans t1)
  refine ⟨P, P', p1, q1, ?_, ?_, ?_⟩
  · simpa [CppVal.le] using r2.1
  · simpa [CppVal.le] using t2.2
  · simpa [CppVal.le] using s2.2

/-- C51: on any range, a predicate whose truth sets are smaller gives a smaller interval of positions. -/
theorem C51_isotone {V T : Type _} [CppVal T] [CppOrder T] (pred pred' : V → Outcome (Cond T)) (c c' : V → Cond T) (a : List V) (hp : ∀ v ∈ a, pred v = .ok (c v)) (hp' : ∀ v ∈ a, pred' v = .ok (c' v))
    (hne : ∀ v ∈ a, (c v).truth ≠ BoolSet.empty) (hsub : ∀ v ∈ a, ∀ b, BoolSet.contains (c v).truth b = true → BoolSet.contains (c' v).truth b = true) :
    ∃ P P', partitionPointI pred a = .ok P ∧ partitionPointI pred' a = .ok P' ∧ P'.lo.val ≤ P.lo.val ∧ P.lo.val ≤ P.hi.val ∧ P.hi.val ≤ P'.hi.val := by
  have h1 : ∀ b : BoolSet, b ≠ BoolSet.empty → BoolSet.contains b (BoolSet.always b) = true ∧ BoolSet.contains b (BoolSet.possibly b) = true := by decide
  have h2 : ∀ b : BoolSet, BoolSet.contains b true = true ∨ BoolSet.contains b false = true → b ≠ BoolSet.empty := by decide
  have hne' : ∀ v ∈ a, (c' v).truth ≠ BoolSet.empty := fun v hv => by
    apply h2
    have := hsub v hv _ (h1 _ (hne v hv)).1
    cases hb : BoolSet.always (c v).truth <;> rw [hb] at this <;> simp [this]
  obtain ⟨P, p1, p2, p3, p4, p5⟩ := C51_any_range pred c a hp hne
  obtain ⟨P', q1, q2, q3, q4, q5⟩ := C51_any_range pred' c' a hp' hne'
  obtain ⟨r, r1, r2⟩ := q5 (fun v => BoolSet.always (c v).truth) (fun v hv => hsub v hv _ (h1 _ (hne v hv)).1)
  obtain ⟨s, s1, s2⟩ := q5 (fun v => BoolSet.possibly (c v).truth) (fun v hv => hsub v hv _ (h1 _ (hne v hv)).2)
  obtain rfl := Except.ok.inj (p3.symm.trans r1)
  obtain rfl := Except.ok.inj (p4.symm.trans s1)
  refine ⟨P, P', p1, q1, ?_, ?_, ?_⟩
  · simpa [CppVal.le] using r2.1
  · simpa [Proper, CppVal.le] using p2
  · simpa [CppVal.le] using s2.2

section leaf
variable {V T : Type} [CppVal V] [CppNum V] [CppOrder V] [CppVal T] [CppNum T] [CppOrder T]
theorem compare_isotone {cv : V → T} {x x' : Ivl T} {r : Arg V} (h1 : le x'.lo x.lo = true) (h2 : le x.hi x'.hi = true) (hr : le (cv r.lo) (cv r.hi) = true) (hx : le x.lo x.hi = true) (k : XRel) (b : Bool)
    (h : BoolSet.contains (k.compare cv x r) b = true) : BoolSet.contains (k.compare cv x' r) b = true := by
  cases k <;> cases b <;> simp only [XRel.compare, contains_ltM, contains_leM, contains_eqM, contains_neM, if_true, ivl_lo, ivl_hi, CppVal.ge, CppVal.gt, Bool.false_eq_true, if_false, Bool.or_eq_true, Bool.and_eq_true] at h ⊢ <;> grind
end leaf

section tree
variable {ι : Type} {V : ι → Type} [∀ i, CppVal (V i)] [∀ i, CppNum (V i)] {T : Type} [CppVal T] [CppNum T] [CppOrder T] [CppStep T]
variable {E : OperandTypes V T} {dbg : Bool} {x x' : Ivl T}

theorem and_isotone (a b a' b' : BoolSet) (ha : a ≠ BoolSet.empty) (hb : b ≠ BoolSet.empty) (h1 : ∀ v, BoolSet.contains a v = true → BoolSet.contains a' v = true)
    (h2 : ∀ v, BoolSet.contains b v = true → BoolSet.contains b' v = true) (v : Bool) : BoolSet.contains (BoolSet.and a b) v = true → BoolSet.contains (BoolSet.and a' b') v = true := by
  revert a b a' b' v; decide
theorem or_isotone (a b a' b' : BoolSet) (ha : a ≠ BoolSet.empty) (hb : b ≠ BoolSet.empty) (h1 : ∀ v, BoolSet.contains a v = true → BoolSet.contains a' v = true)
    (h2 : ∀ v, BoolSet.contains b v = true → BoolSet.contains b' v = true) (v : Bool) : BoolSet.contains (BoolSet.or a b) v = true → BoolSet.contains (BoolSet.or a' b') v = true := by
  revert a b a' b' v; decide

theorem and_truth (c c' : MCond V) : (MCond.mkAnd c c').truth = BoolSet.and c.truth c'.truth := by unfold MCond.mkAnd; dsimp only; split <;> rfl
theorem or_truth (c c' : MCond V) : (MCond.mkOr c c').truth = BoolSet.or c.truth c'.truth := by unfold MCond.mkOr; dsimp only; split <;> rfl

/-- C104: the truth set of a condition is inclusion isotone in the interval: with a smaller interval it has no new truth value. -/
theorem C104_truth_isotone (hx : Proper x) (hsub : ∀ u, u ∈ᵢ x → u ∈ᵢ x') : ∀ e : MExpr V, e.Proper E → ∃ c c', e.build E dbg x = .ok c ∧ e.build E dbg x' = .ok c' ∧
    c.truth ≠ BoolSet.empty ∧ ∀ b, BoolSet.contains c.truth b = true → BoolSet.contains c'.truth b = true := by
  have l1 : x.lo ∈ᵢ x := ⟨CppOrder.le_left _ _ hx, hx⟩
  have l2 : x.hi ∈ᵢ x := ⟨hx, CppOrder.le_right _ _ hx⟩
  have hx' : Proper x' := CppOrder.le_trans _ _ _ (hsub _ l1).1 (hsub _ l1).2
  intro e hp
  obtain ⟨c, h1, h2, -⟩ := build_wfT (dbg := dbg) hx e hp
  obtain ⟨c', h1', h2', -⟩ := build_wfT (dbg := dbg) hx' e hp
  refine ⟨c, c', h1, h1', wf_ne hx c h2, ?_⟩
  clear h2 h2'
  induction e generalizing c c' with
  | plain s => cases h1; cases h1'; exact fun _ h => h
  | away s => cases h1; cases h1'; exact fun _ h => h
  | cmp i r k =>
    have := hp.1
    simp only [MExpr.build, mkCmp, bind_eq_ok, pure, Except.pure, Except.ok.injEq] at h1 h1'
    obtain ⟨_, -, rfl⟩ := h1
    obtain ⟨_, -, rfl⟩ := h1'
    exact fun b h => compare_isotone (hsub _ l1).1 (hsub _ l2).2 (hp.2.2 _ _ (proper_le hp.2.1)) hx k b h
  | and e f ie iF =>
    simp only [MExpr.build, bind_eq_ok, pure, Except.pure, Except.ok.injEq] at h1 h1'
    obtain ⟨a, ha, b, hb, rfl⟩ := h1
    obtain ⟨a', ha', b', hb', rfl⟩ := h1'
    obtain ⟨_, g1, g2, _⟩ := build_wfT (dbg := dbg) hx e hp.1
    obtain ⟨_, g3, g4, _⟩ := build_wfT (dbg := dbg) hx f hp.2
    rw [ha] at g1; cases g1; rw [hb] at g3; cases g3
    rw [and_truth, and_truth]
    exact and_isotone _ _ _ _ (wf_ne hx _ g2) (wf_ne hx _ g4) (ie hp.1 _ ha _ ha') (iF hp.2 _ hb _ hb')
  | or e f ie iF =>
    simp only [MExpr.build, bind_eq_ok, pure, Except.pure, Except.ok.injEq] at h1 h1'
    obtain ⟨a, ha, b, hb, rfl⟩ := h1
    obtain ⟨a', ha', b', hb', rfl⟩ := h1'
    obtain ⟨_, g1, g2, _⟩ := build_wfT (dbg := dbg) hx e hp.1
    obtain ⟨_, g3, g4, _⟩ := build_wfT (dbg := dbg) hx f hp.2
    rw [ha] at g1; cases g1; rw [hb] at g3; cases g3
    rw [or_truth, or_truth]
    exact or_isotone _ _ _ _ (wf_ne hx _ g2) (wf_ne hx _ g4) (ie hp.1 _ ha _ ha') (iF hp.2 _ hb _ hb')
  | not e ie =>
    simp only [MExpr.build, bind_eq_ok] at h1 h1'
    obtain ⟨a, ha, h1⟩ := h1
    obtain ⟨a', ha', h1'⟩ := h1'
    obtain ⟨_, g1, g2, _⟩ := build_wfT (dbg := dbg) hx e hp
    obtain ⟨_, g3, g4, _⟩ := build_wfT (dbg := dbg) hx' e hp
    rw [ha] at g1; cases g1; rw [ha'] at g3; cases g3
    obtain ⟨_, n1, -, n2, -⟩ := mkNot_wf (dbg := dbg) hx a g2
    obtain ⟨_, n3, -, n4, -⟩ := mkNot_wf (dbg := dbg) hx' a' g4
    rw [h1] at n1; cases n1; rw [h1'] at n3; cases n3
    intro b
    rw [n2, n4, contains_not, contains_not]
    exact ie hp _ ha _ ha' _

/-- C106: `partition_point` with any condition on `x` on any range: a smaller interval has a smaller interval of positions. -/
theorem C106_any_isotone {W : Type} (hx : Proper x) (hsub : ∀ u, u ∈ᵢ x → u ∈ᵢ x') (P : W → MExpr V) (a : List W) (hP : ∀ e ∈ a, (P e).Proper E) :
    ∃ R R', partitionPointB (fun e => do return (← (P e).build E dbg x).truth) a = .ok R ∧ partitionPointB (fun e => do return (← (P e).build E dbg x').truth) a = .ok R' ∧
      R'.lo.val ≤ R.lo.val ∧ R.lo.val ≤ R.hi.val ∧ R.hi.val ≤ R'.hi.val := by
  classical
  have ex : ∀ e, ∃ b b' : BoolSet, e ∈ a → (∃ c c', (P e).build E dbg x = .ok c ∧ c.truth = b ∧ (P e).build E dbg x' = .ok c' ∧ c'.truth = b') ∧ b ≠ BoolSet.empty ∧
      ∀ v, BoolSet.contains b v = true → BoolSet.contains b' v = true := fun e => by
    by_cases he : e ∈ a
    · obtain ⟨c, c', h1, h2, h3, h4⟩ := C104_truth_isotone (dbg := dbg) hx hsub (P e) (hP e he)
      exact ⟨c.truth, c'.truth, fun _ => ⟨⟨c, c', h1, rfl, h2, rfl⟩, h3, h4⟩⟩
    · exact ⟨BoolSet.empty, BoolSet.empty, fun h => absurd h he⟩
  choose b b' hb using ex
  obtain ⟨R, R', g1, g2, g3⟩ := C51_isotone (T := T) (fun e => do return Cond.plain (← (P e).build E dbg x).truth) (fun e => do return Cond.plain (← (P e).build E dbg x').truth)
    (fun e => Cond.plain (b e)) (fun e => Cond.plain (b' e)) a
    (fun e he => by obtain ⟨⟨c, c', h1, h2, h3, h4⟩, -⟩ := hb e he; rw [h1, ← h2]; rfl) (fun e he => by obtain ⟨⟨c, c', h1, h2, h3, h4⟩, -⟩ := hb e he; rw [h3, ← h4]; rfl)
    (fun e he => (hb e he).2.1) (fun e he => (hb e he).2.2)
  refine ⟨R, R', ?_, ?_, g3⟩
  · rw [← g1]; simp [partitionPointB, partitionPointI, Cond.truth]
  · rw [← g2]; simp [partitionPointB, partitionPointI, Cond.truth]
end tree

/-! Non-vacuity: `[4, 5]` and `[3, 6]` in the unsorted range `{ 7, 1, 4 }` with `>`; `int` elements and `interval<long long>`; the predicate `x > e & !(x == 6)` with `int` elements. -/
private theorem in45 : ∀ v, v ∈ᵢ (⟨i32 4, i32 5⟩ : Ivl (SInt 31)) → v ∈ᵢ (⟨i32 3, i32 6⟩ : Ivl (SInt 31)) := fun v ⟨h1, h2⟩ =>
  ⟨CppOrder.le_trans _ _ _ (by decide) h1, CppOrder.le_trans _ _ _ h2 (by decide)⟩
example : ∃ P P' : Ivl (Iter 3), Search.lower.byI .greater id true true [i32 7, i32 1, i32 4] (.ident true 0 ⟨i32 4, i32 5⟩) = .ok P ∧ Search.lower.byI .greater id true true [i32 7, i32 1, i32 4] (.ident true 0 ⟨i32 3, i32 6⟩) = .ok P' ∧
    P'.lo.val ≤ P.lo.val ∧ P.lo.val ≤ P.hi.val ∧ P.hi.val ≤ P'.hi.val :=
  C90_isotone .lower .greater id true true [i32 7, i32 1, i32 4] (by decide) _ _ _ _ rfl rfl (by decide) in45
example : (Search.lower.findM (widenV (by decide : 31 ≤ 63)) (fun v : SInt 63 => v) true [i32 3, i32 7] ⟨i64 4, i64 5⟩).map (fun R => (R.lo.val, R.hi.val)) = .ok (1, 1) ∧
    (Search.lower.findM (widenV (by decide : 31 ≤ 63)) (fun v : SInt 63 => v) true [i32 3, i32 7] ⟨i64 0, i64 5⟩).map (fun R => (R.lo.val, R.hi.val)) = .ok (0, 1) := by decide +kernel
private def above (e : SInt 31) : MExpr (fun m : {m // m ≤ 31} => SInt m.1) := .and (.cmp ⟨31, by decide⟩ (.scalar e) .lessX) (.not (.cmp ⟨31, by decide⟩ (.scalar (i32 6)) .xEq))
private def tab : List (SInt 31) := [i32 3, i32 4, i32 8]
example : ∃ R R', partitionPointB (fun e => do return (← (above e).build (wideOperands 31) true ⟨i32 4, i32 5⟩).truth) tab = .ok R ∧
    partitionPointB (fun e => do return (← (above e).build (wideOperands 31) true ⟨i32 3, i32 6⟩).truth) tab = .ok R' ∧ R'.lo.val ≤ R.lo.val ∧ R.lo.val ≤ R.hi.val ∧ R.hi.val ≤ R'.hi.val :=
  C106_any_isotone (E := wideOperands 31) (by decide) in45 above tab fun e _ =>
    ⟨⟨inferInstance, by show le e e = true; simp [CppVal.le], C101_casts (K := ℚ).1 (by decide)⟩, ⟨inferInstance, by decide, C101_casts (K := ℚ).1 (by decide)⟩⟩
end Intervals.Props
