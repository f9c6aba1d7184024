import Verif.Lemmas.Enumerate
import Verif.Lemmas.Accum
import Verif.Props.Basic
import Verif.Model.IntVal
/-!
# C53: enumeration, C54: indexed access
-/
set_option linter.unusedSectionVars false
namespace Intervals.Props
open Intervals CppVal Spec

/-! ## C53 -/

/-- C53 for scalars: the scalar itself, once. -/
theorem C53_scalar {V : Type _} (v : V) : visits (enumerateS v) = .ok [v] := by
  unfold visits enumerateS
  rw [forEach_step _ _ ⟨v, true⟩ [] v rfl rfl rfl, ok_bind]
  exact forEach_done _ _ _ rfl

/-- C53 for integer and iterator intervals: `lower, lower+1, …, upper`, each once; no increment leaves the type's range (the outcome is
`ok` for every assigned interval, also one that ends at the type's maximum). -/
theorem C53_interval {l h : Int} (x : Ivl (BInt l h)) (hx : x.lo.val ≤ x.hi.val) :
    ∃ it vs, enumerateI x = .ok it ∧ visits it = .ok vs ∧
      vs.map (·.val) = (List.range (x.hi.val - x.lo.val + 1).toNat).map (fun (i : Nat) => x.lo.val + i) := by
  have has : x.assigned = true := by simp [Ivl.assigned, gt, lt]; omega
  refine ⟨⟨x.lo, x.hi, false⟩, ivlVals l h (x.hi.val - x.lo.val).toNat x.lo.val, by simp [enumerateI, has, pure, Except.pure], ?_, ?_⟩
  · unfold visits
    rw [forEach_interval _ (x.hi.val - x.lo.val).toNat _ _ _ (by omega), foldlM_collect]
    simp
  · rw [ivlVals_val _ _ x.lo.ge (by have := x.hi.le; omega)]
    congr 2
    omega

/-- C53 for sets: the visited values are a sublist of the reflected values (index order, each once) consisting of exactly the members. -/
theorem C53_set {V : Type _} [DecidableEq V] {vals : List V} (hn : vals.Nodup) (s : CSet vals) (hs : ∃ v, SMem v s) :
    ∃ it vs, enumerateSet s = .ok it ∧ visits it = .ok vs ∧ vs.Sublist vals ∧ ∀ v, v ∈ vs ↔ SMem v s := by
  have has : CSet.assigned s = true := (assigned_iff hn).mpr hs
  have key := forEach_set (fun v l => .ok (l ++ [v])) s vals.length 0 (by omega) ([] : List V)
  rw [foldlM_collect] at key
  have e : enumerateSet s = SetIt.advance s (((0 : Nat) : Int) - 1) := by simp [enumerateSet, has, SetIt.inc]
  rw [bind_eq_ok] at key
  obtain ⟨it, h1, h2⟩ := key
  refine ⟨it, _, by rw [e, h1], h2, ?_, fun v => ?_⟩
  · simpa using membersFrom_sublist s vals.length 0 (by omega)
  · simp only [List.nil_append]
    rw [mem_membersFrom s v vals.length 0 (by omega)]
    constructor
    · rintro ⟨j, _, hj, hb, rfl⟩
      exact (SMem_getElem hn hj).mpr hb
    · intro h
      obtain ⟨i, hi, hb⟩ := SMem_iff.mp h
      obtain ⟨hi1, hi2, _⟩ := findValueIndex_ok hi
      exact ⟨i, by omega, hi1, hb, hi2⟩

/-- C53: enumerating an unassigned interval or set fails fast. -/
theorem C53_unassigned {l h : Int} (x : Ivl (BInt l h)) (hx : x.hi.val < x.lo.val) {V : Type _} [DecidableEq V] (vals : List V) :
    enumerateI x = .error .contract ∧ enumerateSet (CSet.empty vals) = .error .contract := by
  have has : x.assigned = false := by simp [Ivl.assigned, gt, lt]; omega
  constructor
  · simp [enumerateI, has]
  · simp [enumerateSet, CSet.assigned, CSet.empty]

/-- C53: advancing (either form) or dereferencing an exhausted iterator fails fast. -/
theorem C53_exhausted {V : Type _} [DecidableEq V] {vals : List V} {l h : Int} (a : SingleIt V) (b : SetIt vals) (c : IvlIt l h)
    (ha : a.exhausted = true) (hb : b.exhausted = true) (hc : c.exhausted = true) :
    (a.inc = .error .contract ∧ a.postInc = .error .contract ∧ a.deref = .error .contract) ∧
    (b.inc = .error .contract ∧ b.postInc = .error .contract ∧ b.deref = .error .contract) ∧
    (c.inc = .error .contract ∧ c.postInc = .error .contract ∧ c.deref = .error .contract) := by
  simp [SingleIt.inc, SingleIt.postInc, SingleIt.deref, SetIt.inc, SetIt.postInc, SetIt.deref, IvlIt.inc, IvlIt.postInc, IvlIt.deref,
    ha, hb, hc]

/-- C53: post-increment advances like pre-increment and returns the iterator as it was. -/
theorem C53_post_increment {V : Type _} [DecidableEq V] {vals : List V} {l h : Int} (a a' o : SingleIt V) (b b' p : SetIt vals) (c c' q : IvlIt l h) :
    (a.postInc = .ok (a', o) ↔ a.inc = .ok a' ∧ o = a) ∧ (b.postInc = .ok (b', p) ↔ b.inc = .ok b' ∧ p = b) ∧
    (c.postInc = .ok (c', q) ↔ c.inc = .ok c' ∧ q = c) := by
  refine ⟨?_, ?_, ?_⟩
  · obtain ⟨v, e⟩ := a
    cases e <;> simp [SingleIt.postInc, SingleIt.inc, pure, Except.pure, eq_comm]
  · cases e : b.inc <;> simp [SetIt.postInc, e, pure, Except.pure, eq_comm]
  · cases e : c.inc <;> simp [IvlIt.postInc, e, pure, Except.pure, eq_comm]

/-! Enumerating up to the largest `int`; a set with a gap. -/
example : (enumerateI (⟨i32 (2^31 - 3), i32 (2^31 - 1)⟩ : Ivl (SInt 31)) >>= fun it => visits it).map (List.map (·.val)) =
    .ok [2^31 - 3, 2^31 - 2, 2^31 - 1] := by
  obtain ⟨it, vs, h1, h2, h3⟩ := C53_interval (⟨i32 (2^31 - 3), i32 (2^31 - 1)⟩ : Ivl (SInt 31)) (by decide)
  rw [h1, ok_bind, h2]
  simp only [Except.map, h3]
  decide
example : Sign.vals.Nodup ∧ ∃ v, SMem v (CSet.fromBits Sign.vals 5) := ⟨by decide, .pos, by decide⟩

/-! ## C54 -/

section
/-- the elements `a[lo], …, a[hi]` -/
private def slice {V : Type _} (a : List V) (i : Ivl Index) : List V := (a.drop i.lo.val.toNat).take (i.hi.val - i.lo.val + 1).toNat

private theorem atLoop_eq {V A : Type _} (step : A → V → Outcome A) (a : List V) (ha : (a.length : Int) < 2^63) (last : Index) (k : Nat) :
    ∀ (p : Index) (r : A), 0 ≤ p.val → last.val + 1 = p.val + k → last.val < a.length →
    atLoop step a last p r = ((a.drop p.val.toNat).take k).foldlM step r := by
  induction k with
  | zero => intro p r h0 h1 h2; unfold atLoop; rw [if_neg (by omega)]; rfl
  | succ k ih =>
    intro p r h0 h1 h2
    obtain ⟨v, hv, hv'⟩ : ∃ v, rangeAt a p.val = .ok v ∧ a[p.val.toNat]? = some v := by
      have hi : p.val.toNat < a.length := by omega
      refine ⟨a[p.val.toNat], ?_, List.getElem?_eq_getElem hi⟩
      unfold rangeAt
      rw [if_neg (by omega), List.getElem?_eq_getElem hi]
    have hd : a.drop p.val.toNat = v :: a.drop (p.val.toNat + 1) := by
      have hi : p.val.toNat < a.length := by omega
      rw [List.getElem?_eq_getElem hi] at hv'; cases hv'
      exact List.drop_eq_getElem_cons hi
    unfold atLoop
    rw [if_pos (by omega), hv, hd, List.take_succ_cons, List.foldlM_cons]
    dsimp only
    cases hs : step r v with
    | error e => rfl
    | ok r' =>
      dsimp only [ok_bind]
      have hrep : -(2:Int)^63 ≤ p.val + 1 ∧ p.val + 1 ≤ 2^63 - 1 := by omega
      have hof : BInt.ofInt (-(2:Int)^63) ((2:Int)^63 - 1) (p.val + 1) = .ok ⟨p.val + 1, hrep.1, hrep.2⟩ := by
        unfold BInt.ofInt; rw [dif_pos hrep]
      split
      · next e he => rw [hof] at he; cases he
      · next q hq =>
        rw [hof] at hq; cases hq
        rw [ih _ _ (by simp only; omega) (by simp only; omega) h2]
        congr 3
        simp only; omega

private theorem atGen_eq {V A : Type _} (empty : A) (step : A → V → Outcome A) (a : List V) (ha : (a.length : Int) < 2^63) (i : Ivl Index)
    (hi : i.lo.val ≤ i.hi.val) (h0 : 0 ≤ i.lo.val) (h1 : i.hi.val < a.length) : atGen empty step a i = (slice a i).foldlM step empty := by
  have has : i.assigned = true := by simp [Ivl.assigned, gt, lt]; omega
  unfold atGen slice
  rw [has]
  simp only [expects_true, ok_bind, h0, h1, decide_true, Bool.and_true]
  exact atLoop_eq step a ha i.hi _ _ _ h0 (by omega) h1

private theorem mem_slice {V : Type _} {a : List V} {i : Ivl Index} (hi : i.lo.val ≤ i.hi.val) (h0 : 0 ≤ i.lo.val) {v : V} :
    v ∈ slice a i ↔ ∃ k : Int, i.lo.val ≤ k ∧ k ≤ i.hi.val ∧ a[k.toNat]? = some v := by
  unfold slice
  rw [List.mem_iff_getElem?]
  constructor
  · rintro ⟨n, hn⟩
    rw [List.getElem?_take] at hn
    split at hn
    · rw [List.getElem?_drop] at hn
      refine ⟨i.lo.val + n, by omega, by omega, ?_⟩
      rw [← hn]; congr 1; omega
    · cases hn
  · rintro ⟨k, hk1, hk2, hk3⟩
    refine ⟨(k - i.lo.val).toNat, ?_⟩
    rw [List.getElem?_take, if_pos (by omega), List.getElem?_drop, ← hk3]
    congr 1; omega
private theorem slice_ne {V : Type _} {a : List V} {i : Ivl Index} (hi : i.lo.val ≤ i.hi.val) (h0 : 0 ≤ i.lo.val) (h1 : i.hi.val < a.length) :
    slice a i ≠ [] := by
  intro h
  have hl : i.lo.val.toNat < a.length := by omega
  have : a[i.lo.val.toNat] ∈ slice a i := (mem_slice hi h0).mpr ⟨i.lo.val, by omega, hi, List.getElem?_eq_getElem hl⟩
  rw [h] at this; cases this

/-- C54 for scalar indices: the element, or fail-fast outside the range. -/
theorem C54_scalar_index {V : Type _} (a : List V) (i : Index) :
    atS a i = if 0 ≤ i.val ∧ i.val < a.length then (match a[i.val.toNat]? with | some v => .ok v | none => .error .ub) else .error .contract := by
  unfold atS rangeAt
  by_cases h : 0 ≤ i.val ∧ i.val < a.length
  · rw [if_pos h]
    simp only [h.1, h.2, decide_true, Bool.and_true, expects_true, ok_bind]; rw [if_neg (by omega)]; rfl
  · rw [if_neg h]
    have : (decide (0 ≤ i.val) && decide (i.val < (a.length : Int))) = false := by
      rw [Bool.eq_false_iff]; intro hc; simp at hc; exact h hc
    rw [this]; rfl

section
variable {T : Type} [CppVal T] [CppOrder T] [CppLimits T] [CppLawfulLimits T]

/-- C54 for a range of intervals: the result is the smallest interval containing the selected elements. -/
theorem C54_intervals (a : List (Ivl T)) (ha : (a.length : Int) < 2^63) (i : Ivl Index) (hi : i.lo.val ≤ i.hi.val) (h0 : 0 ≤ i.lo.val)
    (h1 : i.hi.val < a.length) (hp : ∀ k : Int, i.lo.val ≤ k → k ≤ i.hi.val → ∀ X, a[k.toNat]? = some X → Proper X) :
    ∃ R S, atII a i = .ok R ∧ Proper R ∧ IsHull S R ∧
      ∀ X, X ∈ S ↔ ∃ k : Int, i.lo.val ≤ k ∧ k ≤ i.hi.val ∧ a[k.toNat]? = some X := by
  have e : ∀ (l : List (Ivl T)) (r : Ivl T), l.foldlM (fun r v => Ivl.assignPartial r v) r = runIvlOps (l.map .assign) r := by
    intro l
    induction l with
    | nil => intro r; rfl
    | cons v l ih => intro r; simp only [List.foldlM_cons, List.map_cons, runIvlOps, IvlOp.run]; congr 1; funext r'; exact ih r'
  have hl : ∀ (l acc : List (Ivl T)), live (l.map .assign) acc = acc ++ l := by
    intro l
    induction l with
    | nil => intro acc; simp [live]
    | cons a l ih => intro acc; simp [live, ih]
  obtain ⟨R, r1, _, r3⟩ := C12_history ((slice a i).map .assign) (T := T) (fun op hop => by
    obtain ⟨X, hX, rfl⟩ := List.mem_map.mp hop
    obtain ⟨k, k1, k2, k3⟩ := (mem_slice hi h0).mp hX
    exact hp k k1 k2 X k3)
  rw [hl, List.nil_append] at r3
  have := r3 (slice_ne hi h0 h1)
  refine ⟨R, slice a i, ?_, this.1, this.2, fun X => mem_slice hi h0⟩
  unfold atII
  rw [atGen_eq _ _ a ha i hi h0 h1, e, r1]

/-- C54 for a range of scalars: the result is an interval that contains every selected element and whose bounds are selected elements. -/
theorem C54_scalars (a : List T) (ha : (a.length : Int) < 2^63) (i : Ivl Index) (hi : i.lo.val ≤ i.hi.val) (h0 : 0 ≤ i.lo.val)
    (h1 : i.hi.val < a.length) (hp : ∀ k : Int, i.lo.val ≤ k → k ≤ i.hi.val → ∀ v, a[k.toNat]? = some v → NotNan v) :
    ∃ R, atI a i = .ok R ∧ (∀ k : Int, i.lo.val ≤ k → k ≤ i.hi.val → ∀ v, a[k.toNat]? = some v → v ∈ᵢ R) ∧
      (∃ k : Int, i.lo.val ≤ k ∧ k ≤ i.hi.val ∧ ∃ v, a[k.toNat]? = some v ∧ eq R.lo v = true) ∧
      (∃ k : Int, i.lo.val ≤ k ∧ k ≤ i.hi.val ∧ ∃ v, a[k.toNat]? = some v ∧ eq R.hi v = true) := by
  have e : atI a i = atII (a.map Ivl.ofVal) i := by
    unfold atI atII
    rw [atGen_eq _ _ a ha i hi h0 h1, atGen_eq _ _ _ (by simpa using ha) i hi h0 (by simpa using h1)]
    unfold slice
    rw [← List.map_drop, ← List.map_take, List.foldlM_map]
  have hget : ∀ (k : Int) (X : Ivl T), (a.map Ivl.ofVal)[k.toNat]? = some X ↔ ∃ v, a[k.toNat]? = some v ∧ X = Ivl.ofVal v := by
    intro k X; simp [eq_comm]
  obtain ⟨R, S, r1, r2, ⟨r3, ⟨X, hX, hX'⟩, ⟨Y, hY, hY'⟩⟩, r4⟩ := C54_intervals (a.map Ivl.ofVal) (by simpa using ha) i hi h0 (by simpa using h1)
    (fun k k1 k2 X hX => by
      obtain ⟨v, hv, rfl⟩ := (hget k X).mp hX
      exact hp k k1 k2 v hv)
  refine ⟨R, by rw [e, r1], fun k k1 k2 v hv => ?_, ?_, ?_⟩
  · exact r3 (Ivl.ofVal v) ((r4 _).mpr ⟨k, k1, k2, (hget k _).mpr ⟨v, hv, rfl⟩⟩)
  · obtain ⟨k, k1, k2, k3⟩ := (r4 X).mp hX
    obtain ⟨v, hv, rfl⟩ := (hget k X).mp k3
    exact ⟨k, k1, k2, v, hv, hX'⟩
  · obtain ⟨k, k1, k2, k3⟩ := (r4 Y).mp hY
    obtain ⟨v, hv, rfl⟩ := (hget k Y).mp k3
    exact ⟨k, k1, k2, v, hv, hY'⟩
end

section
variable {V : Type _} [DecidableEq V] {vals : List V}
/-- C54 for a range of enumerators or `bool`s: the result is exactly the set of the selected elements. -/
theorem C54_enumerators (dbg : Bool) (a : List V) (ha : (a.length : Int) < 2^63) (i : Ivl Index) (hi : i.lo.val ≤ i.hi.val) (h0 : 0 ≤ i.lo.val)
    (h1 : i.hi.val < a.length) (hp : ∀ v ∈ a, v ∈ vals) :
    ∃ R : CSet vals, atSet dbg a i = .ok R ∧ ∀ v, SMem v R ↔ ∃ k : Int, i.lo.val ≤ k ∧ k ≤ i.hi.val ∧ a[k.toNat]? = some v := by
  have e : ∀ (l : List V), (∀ v ∈ l, v ∈ vals) → ∀ (r : CSet vals), ∃ R, l.foldlM (fun r v => do CSet.assignSet dbg r (← CSet.ofVal vals v)) r = .ok R ∧
      ∀ v, SMem v R ↔ SMem v r ∨ v ∈ l := by
    intro l
    induction l with
    | nil => intro _ r; exact ⟨r, rfl, by simp⟩
    | cons w l ih =>
      intro hl r
      obtain ⟨s, hs, hs'⟩ := assignVal_ok (CSet.empty vals) (hl w (by simp))
      obtain ⟨R, hR, hR'⟩ := ih (fun v hv => hl v (by simp [hv])) (r ||| s)
      refine ⟨R, ?_, fun v => ?_⟩
      · have hw : SMem w s := (hs' w).mpr (.inr rfl)
        simp only [List.foldlM_cons, CSet.ofVal, hs, ok_bind, CSet.assignSet, assigned_of_SMem hw, expectsDebug_true, pure, Except.pure]
        simpa only [CSet.ofVal, CSet.assignSet, pure, Except.pure] using hR
      · rw [hR', SMem_or, hs']
        have := @SMem_empty V _ vals v
        simp only [List.mem_cons, this, false_or, or_assoc]
  obtain ⟨R, hR, hR'⟩ := e (slice a i) (fun v hv => by
    obtain ⟨k, _, _, hk⟩ := (mem_slice hi h0).mp hv
    exact hp v (List.mem_of_getElem? hk)) (CSet.empty vals)
  refine ⟨R, ?_, fun v => ?_⟩
  · unfold atSet; rw [atGen_eq _ _ a ha i hi h0 h1, hR]
  · rw [hR', mem_slice hi h0]
    have := @SMem_empty V _ vals v
    simp only [this, false_or]
/-- C54 for a range of sets: the result is exactly the union of the selected sets. -/
theorem C54_sets (dbg : Bool) (a : List (CSet vals)) (ha : (a.length : Int) < 2^63) (i : Ivl Index) (hi : i.lo.val ≤ i.hi.val) (h0 : 0 ≤ i.lo.val)
    (h1 : i.hi.val < a.length) (hp : ∀ s ∈ a, ∃ v, SMem v s) :
    ∃ R : CSet vals, atSetSet dbg a i = .ok R ∧
      ∀ v, SMem v R ↔ ∃ k : Int, i.lo.val ≤ k ∧ k ≤ i.hi.val ∧ ∃ s, a[k.toNat]? = some s ∧ SMem v s := by
  have e : ∀ (l : List (CSet vals)), (∀ s ∈ l, ∃ v, SMem v s) → ∀ (r : CSet vals), ∃ R, l.foldlM (fun r v => CSet.assignSet dbg r v) r = .ok R ∧
      ∀ v, SMem v R ↔ SMem v r ∨ ∃ s ∈ l, SMem v s := by
    intro l
    induction l with
    | nil => intro _ r; exact ⟨r, rfl, by simp⟩
    | cons s l ih =>
      intro hl r
      obtain ⟨w, hw⟩ := hl s (by simp)
      obtain ⟨R, hR, hR'⟩ := ih (fun v hv => hl v (by simp [hv])) (r ||| s)
      refine ⟨R, ?_, fun v => ?_⟩
      · simp only [List.foldlM_cons, CSet.assignSet, assigned_of_SMem hw, expectsDebug_true, ok_bind, pure, Except.pure]
        simpa only [CSet.assignSet, pure, Except.pure] using hR
      · rw [hR', SMem_or]
        simp only [List.mem_cons, exists_eq_or_imp, or_assoc]
  obtain ⟨R, hR, hR'⟩ := e (slice a i) (fun s hs => by
    obtain ⟨k, _, _, hk⟩ := (mem_slice hi h0).mp hs
    exact hp s (List.mem_of_getElem? hk)) (CSet.empty vals)
  refine ⟨R, ?_, fun v => ?_⟩
  · unfold atSetSet; rw [atGen_eq _ _ a ha i hi h0 h1, hR]
  · rw [hR']
    have := @SMem_empty V _ vals v
    constructor
    · rintro (h | ⟨s, hs, hv⟩)
      · exact absurd h this
      · obtain ⟨k, k1, k2, k3⟩ := (mem_slice hi h0).mp hs
        exact ⟨k, k1, k2, s, k3, hv⟩
    · rintro ⟨k, k1, k2, s, k3, hv⟩
      exact .inr ⟨s, (mem_slice hi h0).mpr ⟨k, k1, k2, k3⟩, hv⟩
end

/-- C54: an unassigned index interval or one that reaches outside the range fails fast, whatever the element type. -/
theorem C54_fail_fast {V A : Type _} (empty : A) (step : A → V → Outcome A) (a : List V) (i : Ivl Index)
    (h : i.hi.val < i.lo.val ∨ i.lo.val < 0 ∨ (a.length : Int) ≤ i.hi.val) : atGen empty step a i = .error .contract := by
  unfold atGen
  cases has : i.assigned with
  | false => rfl
  | true =>
    have hle : i.lo.val ≤ i.hi.val := by simpa [Ivl.assigned, gt, lt] using has
    have : (decide (0 ≤ i.lo.val) && decide (i.hi.val < (a.length : Int))) = false := by
      rw [Bool.eq_false_iff]; intro hc; simp at hc; omega
    rw [this]; rfl

/-- C54: the scalar form fails fast in no other case (the interval form likewise, by the theorems above). -/
theorem C54_fail_fast_scalar {V : Type _} (a : List V) (i : Index) : atS a i = .error .contract ↔ ¬ (0 ≤ i.val ∧ i.val < a.length) := by
  rw [C54_scalar_index]
  split
  · next h =>
    have : i.val.toNat < a.length := by omega
    rw [List.getElem?_eq_getElem this]
    simp [h]
  · next h => simp [h]
end

private def ix (v : Int) (h : -(2:Int)^63 ≤ v ∧ v ≤ 2^63 - 1 := by decide) : Index := ⟨v, h.1, h.2⟩
/-! Selecting the last two elements of a range. -/
example : ([i32 4, i32 9, i32 2].length : Int) < 2^63 ∧ 0 ≤ (ix 1).val ∧ (ix 1).val ≤ (ix 2).val ∧ (ix 2).val < [i32 4, i32 9, i32 2].length ∧
    atI [i32 4, i32 9, i32 2] ⟨ix 1, ix 2⟩ = .ok ⟨i32 2, i32 9⟩ := by
  refine ⟨by decide, by decide, by decide, by decide, ?_⟩
  unfold atI
  rw [atGen_eq _ _ _ (by decide) _ (by decide) (by decide) (by decide)]
  decide +kernel
end Intervals.Props
