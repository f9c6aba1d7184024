import Verif.Model.TableLookup
import Verif.Props.Search
import Verif.Props.Enumerate
import Verif.Props.SearchMixed
/-!
# C108: the interval of positions found by a search is the set of positions; step functions given by a table have exact ranges
-/
set_option linter.unusedSectionVars false
namespace Intervals.Props
open Intervals CppVal Spec

section order
variable {T : Type _} [CppVal T] [CppOrder T]
private theorem lt_of_le_lt {u v w : T} (h : le u v = true) (g : lt v w = true) : lt u w = true := by grind
private theorem lt_of_lt_le {u v w : T} (h : lt u v = true) (g : le v w = true) : lt u w = true := by grind
private theorem le_of_lt_ {u v : T} (h : lt u v = true) : le u v = true := by grind
private theorem not_lt_of_le {u v : T} (h : le v u = true) : lt u v = false := by grind
private theorem not_le_of_lt {u v : T} (h : lt u v = true) : le v u = false := by grind
private theorem le_of_not_lt_ {u v : T} (h : ¬ lt u v = true) (hu : NotNan u) (hv : NotNan v) : le v u = true := by unfold NotNan at *; grind
private theorem lt_of_not_le_ {u v : T} (h : ¬ le u v = true) (hu : NotNan u) (hv : NotNan v) : lt v u = true := by unfold NotNan at *; grind
end order

section search
variable {T : Type _} [CppVal T] [CppOrder T]

/-- what the search asks of an element and a value -/
private def ask (k : Search) (e v : T) : Bool := match k with | .lower => lt e v | .upper => le e v

private theorem findS_point (k : Search) (a : List T) (ha : SortedR a) (v : T) (hv : NotNan v) :
    ∃ r, k.findS a v = .ok r ∧ IsPoint (fun e => ask k e v) a r.val.toNat := by
  cases k
  · exact (C51_scalar a ha v hv).1
  · exact (C51_scalar a ha v hv).2

private theorem findI_ends (k : Search) (dbg d : Bool) (a : List T) (ha : SortedR a) (value : Operand T) (x : Ivl T) (hv : value.arg = .ivl x) (hx : Proper x) :
    ∃ P, k.findI dbg d a value = .ok P ∧ k.findS a x.lo = .ok P.lo ∧ k.findS a x.hi = .ok P.hi ∧ ∀ v, v ∈ᵢ x → ∃ r, k.findS a v = .ok r ∧ r ∈ᵢ P := by
  cases k
  · exact C51_lower_bound dbg d a ha value x hv hx
  · exact C51_upper_bound dbg d a ha value x hv hx

/-- C108: a position is in the interval found by the search for `x` and is the position of a value of `x` exactly if it is one of the ends or lies between two different elements. -/
theorem C108_positions (k : Search) (dbg d : Bool) (a : List T) (ha : SortedR a) (value : Operand T) (x : Ivl T) (hv : value.arg = .ivl x) (hx : Proper x) :
    ∃ P, k.findI dbg d a value = .ok P ∧ ∀ r : Iter a.length, (∃ v, v ∈ᵢ x ∧ k.findS a v = .ok r) ↔
      r ∈ᵢ P ∧ (r = P.lo ∨ r = P.hi ∨ ∃ e e', a[r.val.toNat - 1]? = some e ∧ a[r.val.toNat]? = some e' ∧ lt e e' = true) := by
  have hx1 : le x.lo x.hi = true := hx
  have nl := CppOrder.le_left _ _ hx1
  have nh := CppOrder.le_right _ _ hx1
  obtain ⟨P, h1, h2, h3, h4⟩ := findI_ends k dbg d a ha value x hv hx
  obtain ⟨rl, g1, pl⟩ := findS_point k a ha x.lo nl; rw [h2] at g1; cases g1
  obtain ⟨rh, g2, ph⟩ := findS_point k a ha x.hi nh; rw [h3] at g2; cases g2
  refine ⟨P, h1, fun r => ⟨fun ⟨v, hvx, hf⟩ => ?_, fun ⟨⟨m1, m2⟩, hc⟩ => ?_⟩⟩
  · obtain ⟨r', e, hm⟩ := h4 v hvx
    rw [hf] at e; cases e
    have nv := CppOrder.le_right _ _ hvx.1
    refine ⟨hm, ?_⟩
    by_cases c1 : r = P.lo
    · exact .inl c1
    by_cases c2 : r = P.hi
    · exact .inr (.inl c2)
    obtain ⟨m1, m2⟩ := hm
    have m1 : P.lo.val ≤ r.val := by simpa [CppVal.le] using m1
    have m2 : r.val ≤ P.hi.val := by simpa [CppVal.le] using m2
    have d1 : P.lo.val ≠ r.val := fun e => c1 (BInt.ext e).symm
    have d2 : r.val ≠ P.hi.val := fun e => c2 (BInt.ext e)
    have b0 := P.lo.ge; have b1 := P.hi.le
    have i1 : r.val.toNat - 1 < a.length := by omega
    have i2 : r.val.toNat < a.length := by omega
    obtain ⟨r', e, pr⟩ := findS_point k a ha v nv
    rw [hf] at e; cases e
    have q1 := (pr.2 (r.val.toNat - 1) _ (List.getElem?_eq_getElem i1)).2 (by omega)
    have q2 : ¬ ask k a[r.val.toNat] v = true := fun h => by
      have := (pr.2 _ _ (List.getElem?_eq_getElem i2)).1 h; omega
    refine .inr (.inr ⟨_, _, List.getElem?_eq_getElem i1, List.getElem?_eq_getElem i2, ?_⟩)
    have ne := ha.2 _ (List.getElem_mem i2)
    cases k
    · exact lt_of_lt_le q1 (le_of_not_lt_ q2 ne nv)
    · exact lt_of_le_lt q1 (lt_of_not_le_ q2 ne nv)
  · by_cases c1 : r = P.lo
    · exact ⟨x.lo, ⟨nl, hx1⟩, by rw [c1]; exact h2⟩
    by_cases c2 : r = P.hi
    · exact ⟨x.hi, ⟨hx1, nh⟩, by rw [c2]; exact h3⟩
    have m1 : P.lo.val ≤ r.val := by simpa [CppVal.le] using m1
    have m2 : r.val ≤ P.hi.val := by simpa [CppVal.le] using m2
    have d1 : P.lo.val ≠ r.val := fun e => c1 (BInt.ext e).symm
    have d2 : r.val ≠ P.hi.val := fun e => c2 (BInt.ext e)
    have b0 := P.lo.ge; have b1 := P.hi.le
    obtain ⟨e, e', he, he', hlt⟩ : ∃ e e', a[r.val.toNat - 1]? = some e ∧ a[r.val.toNat]? = some e' ∧ lt e e' = true := by
      rcases hc with h | h | h
      · exact absurd h c1
      · exact absurd h c2
      · exact h
    have nE := ha.2 _ (List.mem_of_getElem? he)
    have nE' := ha.2 _ (List.mem_of_getElem? he')
    -- the elements before `e'` and behind `e`
    have low : ∀ i u, a[i]? = some u → i < r.val.toNat → le u e = true := fun i u hu hi => by
      obtain ⟨hi', rfl⟩ := List.getElem?_eq_some_iff.mp hu
      obtain ⟨hj', rfl⟩ := List.getElem?_eq_some_iff.mp he
      rcases Nat.lt_or_ge i (r.val.toNat - 1) with h | h
      · exact List.pairwise_iff_getElem.mp ha.1 _ _ _ _ h
      · have : i = r.val.toNat - 1 := by omega
        subst this; exact nE
    have upp : ∀ i u, a[i]? = some u → ¬ i < r.val.toNat → le e' u = true := fun i u hu hi => by
      obtain ⟨hi', rfl⟩ := List.getElem?_eq_some_iff.mp hu
      obtain ⟨hj', rfl⟩ := List.getElem?_eq_some_iff.mp he'
      rcases Nat.lt_or_ge r.val.toNat i with h | h
      · exact List.pairwise_iff_getElem.mp ha.1 _ _ _ _ h
      · have : i = r.val.toNat := by omega
        subst this; exact nE'
    have fin : ∀ v, NotNan v → IsPoint (fun u => ask k u v) a r.val.toNat → k.findS a v = .ok r := fun v nv hp => by
      obtain ⟨r', hr, pr⟩ := findS_point k a ha v nv
      have := isPoint_unique hp pr
      have b := r'.ge; have b' := r.ge
      rw [hr, show r' = r from BInt.ext (by omega)]
    cases k with
    | lower =>
      have l1 : le x.lo e' = true := by
        refine le_of_not_lt_ (fun h => ?_) nE' nl
        have := (pl.2 _ _ he').1 h; omega
      have l2 : le e' x.hi = true := le_of_lt_ ((ph.2 _ _ he').2 (by omega))
      refine ⟨e', ⟨l1, l2⟩, fin e' nE' ⟨by omega, fun i u hu => ⟨fun h => ?_, fun h => lt_of_le_lt (low i u hu h) hlt⟩⟩⟩
      rcases Nat.lt_or_ge i r.val.toNat with g | g
      · exact g
      · have h : lt u e' = true := h
        rw [not_lt_of_le (upp i u hu (by omega))] at h; cases h
    | upper =>
      have l1 : le x.lo e = true := by
        have : ¬ le e x.lo = true ∨ le e x.lo = true := by cases le e x.lo <;> simp
        rcases this with h | h
        · exact le_of_lt_ (lt_of_not_le_ h nE nl)
        · have := (pl.2 _ _ he).1 h; omega
      have l2 : le e x.hi = true := (ph.2 _ _ he).2 (by omega)
      refine ⟨e, ⟨l1, l2⟩, fin e nE ⟨by omega, fun i u hu => ⟨fun h => ?_, fun h => low i u hu h⟩⟩⟩
      rcases Nat.lt_or_ge i r.val.toNat with g | g
      · exact g
      · have h : le u e = true := h
        rw [not_le_of_lt (lt_of_lt_le hlt (upp i u hu (by omega)))] at h; cases h

/-- C108: in a strictly increasing range the interval of positions is the set of the positions of the values of `x`. -/
theorem C108_strict (k : Search) (dbg d : Bool) (a : List T) (ha : StrictR a) (value : Operand T) (x : Ivl T) (hv : value.arg = .ivl x) (hx : Proper x) :
    ∃ P, k.findI dbg d a value = .ok P ∧ ∀ r : Iter a.length, r ∈ᵢ P ↔ ∃ v, v ∈ᵢ x ∧ k.findS a v = .ok r := by
  obtain ⟨P, h1, h2⟩ := C108_positions k dbg d a (Intervals.StrictR.sorted ha) value x hv hx
  refine ⟨P, h1, fun r => ⟨fun hr => (h2 r).2 ⟨hr, ?_⟩, fun h => ((h2 r).1 h).1⟩⟩
  by_cases c1 : r = P.lo
  · exact .inl c1
  by_cases c2 : r = P.hi
  · exact .inr (.inl c2)
  have m1 : P.lo.val ≤ r.val := by simpa [CppVal.le] using hr.1
  have m2 : r.val ≤ P.hi.val := by simpa [CppVal.le] using hr.2
  have d1 : P.lo.val ≠ r.val := fun e => c1 (BInt.ext e).symm
  have d2 : r.val ≠ P.hi.val := fun e => c2 (BInt.ext e)
  have b0 := P.lo.ge; have b1 := P.hi.le
  exact .inr (.inr ⟨_, _, List.getElem?_eq_getElem (by omega), List.getElem?_eq_getElem (by omega), List.pairwise_iff_getElem.mp ha.1 _ _ _ _ (by omega)⟩)
end search

section table
private theorem index_ok {n : Nat} (h63 : (n : Int) < 2^63) (r : Iter n) : ∃ i : Index, stepIndexS r = .ok i ∧ i.val = r.val := by
  have := r.ge; have := r.le
  exact ⟨⟨r.val, by omega, by omega⟩, by simp [stepIndexS, Iter.diff, SInt.of, BInt.ofInt]; (split <;> simp_all); omega, rfl⟩
private theorem indexI_ok {n : Nat} (h63 : (n : Int) < 2^63) (dbg : Bool) (P : Ivl (Iter n)) (hP : P.lo.val ≤ P.hi.val) :
    ∃ i : Ivl Index, stepIndexI dbg P = .ok i ∧ i.lo.val = P.lo.val ∧ i.hi.val = P.hi.val := by
  obtain ⟨l, hl, el⟩ := index_ok h63 P.lo
  obtain ⟨u, hu, eu⟩ := index_ok h63 P.hi
  have hz : BInt.ofInt 0 n 0 = .ok ⟨0, by omega, by omega⟩ := by simp [BInt.ofInt]
  have as : P.assigned = true := by simpa [Ivl.assigned, CppVal.gt, CppVal.lt] using hP
  rw [stepIndexS, hz, ok_bind] at hl hu
  refine ⟨⟨l, u⟩, ?_, el, eu⟩
  unfold stepIndexI iterDiffI
  rw [hz, ok_bind]
  simp only [Arg.assigned, as, Arg.lo, Arg.hi, Bool.and_true, expectsDebug_true, ok_bind, hl, hu]
  have : ¬ P.hi.val < P.lo.val := by omega
  simp [Ivl.make, CppVal.gt, CppVal.lt, el, eu, this]

variable {T : Type _} [CppVal T] [CppOrder T] {W : Type} [CppVal W] [CppOrder W] [CppLimits W] [CppLawfulLimits W]

private theorem proper_iter {n : Nat} {P : Ivl (Iter n)} {r : Iter n} (h : r ∈ᵢ P) : P.lo.val ≤ r.val ∧ r.val ≤ P.hi.val :=
  ⟨by simpa [CppVal.le] using h.1, by simpa [CppVal.le] using h.2⟩

private theorem stepS_eq {n : Nat} (h63 : (n : Int) < 2^63) {V : Type _} (ys : List V) (hl : ys.length = n + 1) (r : Iter n) :
    ∃ y, ys[r.val.toNat]? = some y ∧ ∀ f : Outcome (Iter n), f = .ok r → stepS f ys = .ok y := by
  obtain ⟨i, hi, e⟩ := index_ok h63 r
  have := r.ge; have := r.le
  refine ⟨_, List.getElem?_eq_getElem (by omega), fun f hf => ?_⟩
  have hq : ys[i.val.toNat]? = some ys[r.val.toNat] := by rw [e]; exact List.getElem?_eq_getElem (by omega)
  rw [stepS, hf, ok_bind, hi, ok_bind, C54_scalar_index, if_pos ⟨by omega, by omega⟩, hq]

/-- the interval program at an interval of positions: the hull of the values at these positions -/
private theorem step_hull (dbg : Bool) {n : Nat} (ys : List W) (hlen : ys.length = n + 1) (h63 : (ys.length : Int) < 2^63) (hy : ∀ y ∈ ys, NotNan y) (P : Ivl (Iter n))
    (hP : P.lo.val ≤ P.hi.val) : ∃ R, (∀ F : Outcome (Ivl (Iter n)), F = .ok P → stepI dbg F ys = .ok R) ∧
      (∀ r f, r ∈ᵢ P → f = .ok r → ∃ y, stepS f ys = .ok y ∧ y ∈ᵢ R) ∧
      (∃ r, r ∈ᵢ P ∧ ∃ y, stepS (.ok r) ys = .ok y ∧ eq R.lo y = true) ∧ (∃ r, r ∈ᵢ P ∧ ∃ y, stepS (.ok r) ys = .ok y ∧ eq R.hi y = true) := by
  have h63' : (n : Int) < 2^63 := by omega
  obtain ⟨i, i1, i2, i3⟩ := indexI_ok h63' dbg P hP
  have b0 := P.lo.ge; have b1 := P.hi.le
  obtain ⟨R, r1, r2, ⟨p, p1, p2, y, p3, p4⟩, ⟨q, q1, q2, z, q3, q4⟩⟩ := C54_scalars ys h63 i (by omega) (by omega) (by omega)
    (fun k _ _ v hv => hy v (List.mem_of_getElem? hv))
  have att : ∀ (p : Int) (y : W), i.lo.val ≤ p → p ≤ i.hi.val → ys[p.toNat]? = some y → ∃ r, r ∈ᵢ P ∧ stepS (.ok r) ys = .ok y := fun p y l u hp => by
    obtain ⟨y', y1, y2⟩ := stepS_eq h63' ys hlen ⟨p, by omega, by omega⟩
    rw [show (⟨p, by omega, by omega⟩ : Iter n).val = p from rfl, hp] at y1; cases y1
    exact ⟨⟨p, by omega, by omega⟩, ⟨by simp [CppVal.le]; omega, by simp [CppVal.le]; omega⟩, y2 _ rfl⟩
  refine ⟨R, fun F hF => by rw [stepI, hF, ok_bind, i1, ok_bind, r1], fun r f hr hf => ?_, ?_, ?_⟩
  · have := proper_iter hr
    obtain ⟨y, y1, y2⟩ := stepS_eq h63' ys hlen r
    exact ⟨y, y2 _ hf, r2 r.val (by omega) (by omega) y y1⟩
  · obtain ⟨r, hr, e⟩ := att p y p1 p2 p3
    exact ⟨r, hr, y, e, p4⟩
  · obtain ⟨r, hr, e⟩ := att q z q1 q2 q3
    exact ⟨r, hr, z, e, q4⟩

/-- C108, tables of numbers: the result encloses the values of the step function at the values of `x`; if the abscissas are strictly increasing, its bounds are such values. -/
theorem C108_step (k : Search) (dbg d : Bool) (a : List T) (ha : SortedR a) (value : Operand T) (x : Ivl T) (hv : value.arg = .ivl x) (hx : Proper x)
    (ys : List W) (hlen : ys.length = a.length + 1) (h63 : (ys.length : Int) < 2^63) (hy : ∀ y ∈ ys, NotNan y) :
    ∃ R, stepI dbg (k.findI dbg d a value) ys = .ok R ∧ (∀ v, v ∈ᵢ x → ∃ y, stepS (k.findS a v) ys = .ok y ∧ y ∈ᵢ R) ∧
      (StrictR a → (∃ v, v ∈ᵢ x ∧ ∃ y, stepS (k.findS a v) ys = .ok y ∧ eq R.lo y = true) ∧ (∃ v, v ∈ᵢ x ∧ ∃ y, stepS (k.findS a v) ys = .ok y ∧ eq R.hi y = true)) := by
  obtain ⟨P, h1, h2, h3, h4⟩ := findI_ends k dbg d a ha value x hv hx
  have hx1 : le x.lo x.hi = true := hx
  obtain ⟨r, e, hr⟩ := h4 x.lo ⟨CppOrder.le_left _ _ hx1, hx1⟩
  have := proper_iter hr
  obtain ⟨R, r1, r2, ⟨p, p1, y, p2, p3⟩, ⟨q, q1, z, q2, q3⟩⟩ := step_hull dbg ys hlen h63 hy P (by omega)
  refine ⟨R, r1 _ h1, fun v hv => ?_, fun hs => ?_⟩
  · obtain ⟨r, e, hr⟩ := h4 v hv
    exact r2 r _ hr e
  · obtain ⟨P', g1, g2⟩ := C108_strict k dbg d a hs value x hv hx
    rw [h1] at g1; cases g1
    obtain ⟨v, v1, v2⟩ := (g2 p).1 p1
    obtain ⟨w, w1, w2⟩ := (g2 q).1 q1
    exact ⟨⟨v, v1, y, by rw [v2]; exact p2, p3⟩, ⟨w, w1, z, by rw [w2]; exact q2, q3⟩⟩

private theorem eq_le {u v : W} (h : eq u v = true) : le u v = true ∧ le v u = true := by grind

/-- C108: a smaller interval gives a smaller result, in every sorted table. -/
theorem C108_isotone (k : Search) (dbg d : Bool) (a : List T) (ha : SortedR a) (value value' : Operand T) (x x' : Ivl T) (hv : value.arg = .ivl x) (hv' : value'.arg = .ivl x')
    (hx : Proper x) (hsub : ∀ v, v ∈ᵢ x → v ∈ᵢ x') (ys : List W) (hlen : ys.length = a.length + 1) (h63 : (ys.length : Int) < 2^63) (hy : ∀ y ∈ ys, NotNan y) :
    ∃ R R', stepI dbg (k.findI dbg d a value) ys = .ok R ∧ stepI dbg (k.findI dbg d a value') ys = .ok R' ∧ ∀ y, y ∈ᵢ R → y ∈ᵢ R' := by
  have hx1 : le x.lo x.hi = true := hx
  have xl := hsub x.lo ⟨CppOrder.le_left _ _ hx1, hx1⟩
  have xh := hsub x.hi ⟨hx1, CppOrder.le_right _ _ hx1⟩
  obtain ⟨P, h1, h2, h3, h4⟩ := findI_ends k dbg d a ha value x hv hx
  obtain ⟨P', h1', -, -, h4'⟩ := findI_ends k dbg d a ha value' x' hv' (CppOrder.le_trans _ _ _ xl.1 xl.2)
  obtain ⟨r, e, hr⟩ := h4 x.lo ⟨CppOrder.le_left _ _ hx1, hx1⟩
  have c0 := proper_iter hr
  obtain ⟨r1, e1, hr1⟩ := h4' _ xl; rw [h2] at e1; cases e1
  obtain ⟨r2, e2, hr2⟩ := h4' _ xh; rw [h3] at e2; cases e2
  have c1 := proper_iter hr1; have c2 := proper_iter hr2
  have sub : ∀ r, r ∈ᵢ P → r ∈ᵢ P' := fun r h => by
    have := proper_iter h
    exact ⟨by simp [CppVal.le]; omega, by simp [CppVal.le]; omega⟩
  obtain ⟨R, s1, -, ⟨p, p1, y, p2, p3⟩, ⟨q, q1, z, q2, q3⟩⟩ := step_hull dbg ys hlen h63 hy P (by omega)
  obtain ⟨R', s1', s2', -, -⟩ := step_hull dbg ys hlen h63 hy P' (by omega)
  obtain ⟨y', t1, t2⟩ := s2' p _ (sub p p1) rfl
  rw [p2] at t1; cases t1
  obtain ⟨z', u1, u2⟩ := s2' q _ (sub q q1) rfl
  rw [q2] at u1; cases u1
  exact ⟨R, R', s1 _ h1, s1' _ h1', fun w hw => ⟨CppOrder.le_trans _ _ _ t2.1 (CppOrder.le_trans _ _ _ (eq_le p3).2 hw.1), CppOrder.le_trans _ _ _ hw.2 (CppOrder.le_trans _ _ _ (eq_le q3).1 u2.2)⟩⟩

/-- C108, abscissas of another value type (C106): the result encloses the values of the step function at the values of `x`, for abscissas in any order. -/
theorem C108_mixed {V U : Type} [CppVal V] [CppVal U] {T : Type} [CppVal T] [CppOrder T] [CppNum V] [CppNum U] [CppNum T] [CppOrder U] (ce : V → T) (cx : U → T) (k : Search) (dbg : Bool) (a : List V)
    (ha : ∀ e ∈ a, NotNan (ce e)) (x : Ivl U) (hx : Proper x) (mono : MonoCast cx) (ys : List W) (hlen : ys.length = a.length + 1) (h63 : (ys.length : Int) < 2^63) (hy : ∀ y ∈ ys, NotNan y) :
    ∃ R, stepI dbg (k.findM ce cx dbg a x) ys = .ok R ∧ ∀ v, v ∈ᵢ x → ∃ y, stepS (k.findMS ce cx a v) ys = .ok y ∧ y ∈ᵢ R := by
  obtain ⟨P, h1, h2, h3, h4⟩ := C106_search k dbg a ha x hx mono
  have hx1 : le x.lo x.hi = true := hx
  obtain ⟨r, e, hr⟩ := h4 x.lo ⟨CppOrder.le_left _ _ hx1, hx1⟩
  have := proper_iter hr
  obtain ⟨R, r1, r2, -, -⟩ := step_hull dbg ys hlen h63 hy P (by omega)
  exact ⟨R, r1 _ h1, fun v hv => by obtain ⟨r, e, hr⟩ := h4 v hv; exact r2 r _ hr e⟩

/-- C108, tables of enumerators: with strictly increasing abscissas the result is the set of the values of the step function at the values of `x`; in any sorted table it contains them. -/
theorem C108_step_set {V : Type _} [DecidableEq V] {vals : List V} (k : Search) (dbg d : Bool) (a : List T) (ha : SortedR a) (value : Operand T) (x : Ivl T) (hv : value.arg = .ivl x)
    (hx : Proper x) (ys : List V) (hlen : ys.length = a.length + 1) (h63 : (ys.length : Int) < 2^63) (hy : ∀ y ∈ ys, y ∈ vals) :
    ∃ R : CSet vals, stepSet dbg (k.findI dbg d a value) ys = .ok R ∧ (∀ v, v ∈ᵢ x → ∃ y, stepS (k.findS a v) ys = .ok y ∧ SMem y R) ∧
      (StrictR a → ∀ y, SMem y R → ∃ v, v ∈ᵢ x ∧ stepS (k.findS a v) ys = .ok y) := by
  obtain ⟨P, h1, h2, h3, h4⟩ := findI_ends k dbg d a ha value x hv hx
  have hx1 : le x.lo x.hi = true := hx
  have h63' : (a.length : Int) < 2^63 := by omega
  obtain ⟨r, e, hr⟩ := h4 x.lo ⟨CppOrder.le_left _ _ hx1, hx1⟩
  have := proper_iter hr
  obtain ⟨i, i1, i2, i3⟩ := indexI_ok h63' dbg P (by omega)
  have b0 := P.lo.ge; have b1 := P.hi.le
  obtain ⟨R, r1, r2⟩ := C54_enumerators (vals := vals) dbg ys h63 i (by omega) (by omega) (by omega) hy
  refine ⟨R, by rw [stepSet, h1, ok_bind, i1, ok_bind, r1], fun v hv => ?_, fun hs y hyR => ?_⟩
  · obtain ⟨r, e, hr⟩ := h4 v hv
    have := proper_iter hr
    obtain ⟨y, y1, y2⟩ := stepS_eq h63' ys hlen r
    exact ⟨y, y2 _ e, (r2 y).2 ⟨r.val, by omega, by omega, y1⟩⟩
  · obtain ⟨P', g1, g2⟩ := C108_strict k dbg d a hs value x hv hx
    rw [h1] at g1; cases g1
    obtain ⟨p, l, u, hp⟩ := (r2 y).1 hyR
    obtain ⟨v, hvx, hf⟩ := (g2 ⟨p, by omega, by omega⟩).1 ⟨by simp [CppVal.le]; omega, by simp [CppVal.le]; omega⟩
    obtain ⟨y', y1, y2⟩ := stepS_eq h63' ys hlen ⟨p, by omega, by omega⟩
    rw [show (⟨p, by omega, by omega⟩ : Iter a.length).val = p from rfl, hp] at y1; cases y1
    exact ⟨v, hvx, y2 _ hf⟩
end table

/-! Fees by quantity: up to 10 items 5, up to 100 items 3, more 4.  For between 8 and 60 items the fee is between 3 and 5. -/
example : StrictR [i32 10, i32 100] ∧ Proper (⟨i32 8, i32 60⟩ : Ivl (SInt 31)) ∧
    stepI true (Search.lower.findI true true [i32 10, i32 100] (.ident true 0 ⟨i32 8, i32 60⟩)) [i32 5, i32 3, i32 4] = .ok ⟨i32 3, i32 5⟩ ∧
    stepS (Search.lower.findS [i32 10, i32 100] (i32 60)) [i32 5, i32 3, i32 4] = .ok (i32 3) ∧
    stepS (Search.upper.findS [i32 10, i32 100] (i32 10)) [i32 5, i32 3, i32 4] = .ok (i32 3) := by decide +kernel
/-! The sign of a difference as a step function with values in `sign`, for a set result. -/
example : (stepSet (vals := Sign.vals) true (Search.upper.findI true true [i32 0, i32 1] (.ident true 0 ⟨i32 0, i32 7⟩)) [Sign.neg, Sign.zero, Sign.pos]) =
    CSet.ofList Sign.vals [Sign.zero, Sign.pos] := by decide +kernel
/-! Abscissas `int` and an interval of `double`s. -/
example : letI := binary64Fmt
    stepI true (Search.lower.findM ((doubleOperands binary64Fmt).cv 31) (fun v : Fl ℚ => v) true [i32 0, i32 10] ⟨.num (1/4), .num 12⟩) [i32 5, i32 3, i32 4] = .ok ⟨i32 3, i32 4⟩ := by decide +kernel

/-- C108, why the abscissas must differ: between two equal ones the table has a value that the step function never takes, and it is a bound of the result. -/
theorem C108_duplicates : SortedR [i32 1, i32 1] ∧ (∀ dbg, stepI dbg (Search.lower.findI dbg true [i32 1, i32 1] (.ident true 0 ⟨i32 0, i32 2⟩)) [i32 0, i32 9, i32 1] = .ok ⟨i32 0, i32 9⟩) ∧
    ∀ (k : Search) v, stepS (k.findS [i32 1, i32 1] v) [i32 0, i32 9, i32 1] ≠ .ok (i32 9) := by
  have hs : SortedR [i32 1, i32 1] := by unfold SortedR NotNan; decide +kernel
  refine ⟨hs, by decide +kernel, fun k v h => ?_⟩
  obtain ⟨r, hr, p1, p2⟩ := findS_point k _ hs v (by simp [NotNan, CppVal.le])
  have e := (p2 0 _ rfl).symm.trans (p2 1 _ rfl)
  have b := r.ge
  simp only [List.length_cons, List.length_nil] at p1
  rw [hr] at h
  have : r.val = 0 ∨ r.val = 2 := by omega
  rcases this with q | q
  · obtain rfl : r = ⟨0, by decide, by decide⟩ := BInt.ext q
    revert h; decide +kernel
  · obtain rfl : r = ⟨2, by decide, by decide⟩ := BInt.ext q
    revert h; decide +kernel
end Intervals.Props
