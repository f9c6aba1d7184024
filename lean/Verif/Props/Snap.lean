import Verif.Model.TableLookup
import Verif.Spec.Snap
import Verif.Props.Search
import Verif.Props.Iter
/-!
# C109: snapping to a grid with `lower_bound` and `upper_bound`
-/
set_option linter.unusedSectionVars false
namespace Intervals.Props
open Intervals CppVal Spec

section order
variable {T : Type _} [CppVal T] [CppOrder T]
private theorem le_not_lt {u v : T} (h : le v u = true) : lt u v = false := by grind
private theorem not_lt_le {u v : T} (h : ¬ lt u v = true) (hu : NotNan u) (hv : NotNan v) : le v u = true := by unfold NotNan at *; grind
private theorem le_total' {u v : T} (h : ¬ le u v = true) (hu : NotNan u) (hv : NotNan v) : le v u = true := by unfold NotNan at *; grind
private theorem eq_le' {u v : T} (h : eq u v = true) : le u v = true ∧ le v u = true := by grind
private theorem le_eq' {u v : T} (h : le u v = true) (g : le v u = true) : eq u v = true := by grind
end order

variable {T : Type} [CppVal T] [CppOrder T]
private theorem sorted_get {a : List T} (ha : SortedR a) {i j : Nat} {u v : T} (hi : a[i]? = some u) (hj : a[j]? = some v) (h : i ≤ j) : le u v = true := by
  obtain ⟨h1, rfl⟩ := List.getElem?_eq_some_iff.mp hi
  obtain ⟨h2, rfl⟩ := List.getElem?_eq_some_iff.mp hj
  rcases Nat.lt_or_eq_of_le h with g | g
  · exact List.pairwise_iff_getElem.mp ha.1 _ _ _ _ g
  · subst g; exact ha.2 _ (List.getElem_mem _)

private theorem up_pos {a : List T} (ha : SortedR a) {v : T} (hv : NotNan v) {j : Nat} (hj : IsLowerBound a v j) :
    (j = a.length ∧ ∀ u ∈ a, lt u v = true) ∨ (j < a.length ∧ ∃ e, a[j]? = some e ∧ LeastAbove a v e) := by
  rcases Nat.lt_or_ge j a.length with h | h
  · refine .inr ⟨h, a[j], List.getElem?_eq_getElem h, List.getElem_mem h, ?_, fun u hu huv => ?_⟩
    · refine not_lt_le (fun c => ?_) (ha.2 _ (List.getElem_mem h)) hv
      have := (hj.2 j _ (List.getElem?_eq_getElem h)).1 c; omega
    · obtain ⟨i, hi, rfl⟩ := List.mem_iff_getElem.mp hu
      have e := List.getElem?_eq_getElem hi
      rcases Nat.lt_or_ge i j with g | g
      · have : lt a[i] v = true := (hj.2 i _ e).2 g
        rw [le_not_lt huv] at this; cases this
      · exact sorted_get ha (List.getElem?_eq_getElem h) e g
  · have : j = a.length := by have := hj.1; omega
    refine .inl ⟨this, fun u hu => ?_⟩
    obtain ⟨i, hi, rfl⟩ := List.mem_iff_getElem.mp hu
    exact (hj.2 i _ (List.getElem?_eq_getElem hi)).2 (by omega)

private theorem readAt_some {a : List T} {r : Iter a.length} {e : T} (h : a[r.val.toNat]? = some e) : readAt a r = .ok e := by
  unfold readAt; rw [h]
private theorem readAt_end {a : List T} {r : Iter a.length} (h : r.val = a.length) : readAt a r = .error .ub := by
  unfold readAt; rw [List.getElem?_eq_none (by omega)]

/-- C109, snapping a number up: the result is the least element not below it; dereferencing the end is undefined behaviour if all elements are below it. -/
theorem C109_up_scalar (a : List T) (ha : SortedR a) (v : T) (hv : NotNan v) :
    ((∃ u ∈ a, le v u = true) → ∃ e, snapUpS a v = .ok e ∧ LeastAbove a v e) ∧ ((∀ u ∈ a, lt u v = true) → snapUpS a v = .error .ub) := by
  obtain ⟨r, h1, h2⟩ := (C51_scalar a ha v hv).1
  have b0 := r.ge
  rcases up_pos ha hv h2 with ⟨c, h⟩ | ⟨c, e, he, h⟩
  · refine ⟨fun ⟨u, hu, huv⟩ => ?_, fun _ => by rw [snapUpS, h1, ok_bind]; exact readAt_end (by omega)⟩
    have := h u hu; rw [le_not_lt huv] at this; cases this
  · refine ⟨fun _ => ⟨e, by rw [snapUpS, h1, ok_bind]; exact readAt_some he, h⟩, fun g => ?_⟩
    have := g e h.1; rw [le_not_lt h.2.1] at this; cases this

variable [CppLimits T] [CppLawfulLimits T]
/-- C109, snapping an interval up: the result encloses the snapped values and its bounds are those of the bounds of `x`; if some value of `x` lies above all elements, the behaviour is
undefined, although other values can be snapped. -/
theorem C109_up (dbg d : Bool) (a : List T) (ha : SortedR a) (value : Operand T) (x : Ivl T) (hv : value.arg = .ivl x) (hx : Proper x) :
    ((∃ u ∈ a, le x.hi u = true) → ∃ R, snapUpI dbg d a value = .ok R ∧ (∀ v, v ∈ᵢ x → ∃ e, snapUpS a v = .ok e ∧ e ∈ᵢ R) ∧
      (∃ e, snapUpS a x.lo = .ok e ∧ eq R.lo e = true) ∧ (∃ e, snapUpS a x.hi = .ok e ∧ eq R.hi e = true)) ∧
    ((∀ u ∈ a, lt u x.hi = true) → snapUpI dbg d a value = .error .ub) := by
  have hx1 : le x.lo x.hi = true := hx
  have nl := CppOrder.le_left _ _ hx1
  have nh := CppOrder.le_right _ _ hx1
  obtain ⟨P, h1, h2, h3, h4⟩ := C51_lower_bound dbg d a ha value x hv hx
  obtain ⟨_, g1, pl⟩ := (C51_scalar a ha x.lo nl).1; rw [h2] at g1; cases g1
  obtain ⟨_, g2, ph⟩ := (C51_scalar a ha x.hi nh).1; rw [h3] at g2; cases g2
  have b0 := P.lo.ge; have b1 := P.hi.le
  have hP : P.lo.val ≤ P.hi.val := by
    obtain ⟨r, e, hr⟩ := h4 x.lo ⟨nl, hx1⟩
    have l1 : P.lo.val ≤ r.val := by simpa [CppVal.le] using hr.1
    have l2 : r.val ≤ P.hi.val := by simpa [CppVal.le] using hr.2
    omega
  rcases C29_deref a ha.2 P hP with ⟨e, hu⟩ | ⟨e, R, r1, r2, ⟨i, u, r3, r4, r5⟩, ⟨j, w, r6, r7, r8⟩⟩
  · refine ⟨fun ⟨u, hu, huv⟩ => ?_, fun _ => by rw [snapUpI, h1, ok_bind, hu]⟩
    rcases up_pos ha nh ph with ⟨-, h⟩ | ⟨c, -⟩
    · have := h u hu; rw [le_not_lt huv] at this; cases this
    · omega
  · refine ⟨fun _ => ⟨R, by rw [snapUpI, h1, ok_bind, r1], fun v hv => ?_, ?_, ?_⟩, fun g => ?_⟩
    · obtain ⟨r, e, hr⟩ := h4 v hv
      have l1 : P.lo.val ≤ r.val := by simpa [CppVal.le] using hr.1
      have l2 : r.val ≤ P.hi.val := by simpa [CppVal.le] using hr.2
      have q : a[r.val.toNat]? = some a[r.val.toNat] := List.getElem?_eq_getElem (by omega)
      refine ⟨_, by rw [snapUpS, e, ok_bind]; exact readAt_some q, r2 r.val.toNat _ ⟨?_, ?_⟩ q⟩
      · show P.lo.val ≤ _; omega
      · show _ ≤ P.hi.val; omega
    · have q : a[P.lo.val.toNat]? = some a[P.lo.val.toNat] := List.getElem?_eq_getElem (by omega)
      refine ⟨_, by rw [snapUpS, h2, ok_bind]; exact readAt_some q, ?_⟩
      have r3 : P.lo.val ≤ (i : Int) := r3.1
      have m := r2 P.lo.val.toNat _ ⟨by show P.lo.val ≤ _; omega, by show _ ≤ P.hi.val; omega⟩ q
      exact le_eq' m.1 (CppOrder.le_trans _ _ _ (sorted_get ha q r4 (by omega)) (eq_le' r5).2)
    · have q : a[P.hi.val.toNat]? = some a[P.hi.val.toNat] := List.getElem?_eq_getElem (by omega)
      refine ⟨_, by rw [snapUpS, h3, ok_bind]; exact readAt_some q, ?_⟩
      have r6 : (j : Int) ≤ P.hi.val := r6.2
      have m := r2 P.hi.val.toNat _ ⟨by show P.lo.val ≤ _; omega, by show _ ≤ P.hi.val; omega⟩ q
      exact le_eq' (CppOrder.le_trans _ _ _ (eq_le' r8).1 (sorted_get ha r7 q (by omega))) m.2
    · rcases up_pos ha nh ph with ⟨c, -⟩ | ⟨c, e, he, h⟩
      · omega
      · have := g e h.1; rw [le_not_lt h.2.1] at this; cases this

private theorem down_pos {a : List T} (ha : SortedR a) {v : T} (hv : NotNan v) {j : Nat} (hj : IsUpperBound a v j) :
    (j = 0 ∧ ∀ u ∈ a, lt v u = true) ∨ (0 < j ∧ ∃ e, a[j - 1]? = some e ∧ GreatestBelow a v e) := by
  have hl := hj.1
  rcases Nat.eq_zero_or_pos j with h | h
  · refine .inl ⟨h, fun u hu => ?_⟩
    obtain ⟨i, hi, rfl⟩ := List.mem_iff_getElem.mp hu
    by_contra c
    have := (hj.2 i _ (List.getElem?_eq_getElem hi)).1 (not_lt_le c hv (ha.2 _ hu)); omega
  · have hp : j - 1 < a.length := by omega
    refine .inr ⟨h, a[j - 1], List.getElem?_eq_getElem hp, List.getElem_mem hp, (hj.2 _ _ (List.getElem?_eq_getElem hp)).2 (by omega), fun u hu huv => ?_⟩
    obtain ⟨i, hi, rfl⟩ := List.mem_iff_getElem.mp hu
    have e := List.getElem?_eq_getElem hi
    have := (hj.2 i _ e).1 huv
    exact sorted_get ha e (List.getElem?_eq_getElem hp) (by omega)

private theorem pred_pos {n : Nat} {r : Iter n} (h : 0 < r.val) : ∃ p : Iter n, Iter.pred r = .ok p ∧ p.val = r.val - 1 := by
  have b := r.le
  exact ⟨⟨r.val - 1, by omega, by omega⟩, by unfold Iter.pred BInt.ofInt; rw [dif_pos ⟨by omega, by omega⟩], rfl⟩
private theorem pred_zero {n : Nat} {r : Iter n} (h : r.val = 0) : Iter.pred r = .error .ub := by
  unfold Iter.pred BInt.ofInt; rw [dif_neg (by omega)]

/-- C109, snapping a number down: the result is the greatest element not above it; going before the beginning is undefined behaviour if all elements are above it. -/
theorem C109_down_scalar (a : List T) (ha : SortedR a) (v : T) (hv : NotNan v) :
    ((∃ u ∈ a, le u v = true) → ∃ e, snapDownS a v = .ok e ∧ GreatestBelow a v e) ∧ ((∀ u ∈ a, lt v u = true) → snapDownS a v = .error .ub) := by
  obtain ⟨r, h1, h2⟩ := (C51_scalar a ha v hv).2
  have b0 := r.ge
  rcases down_pos ha hv h2 with ⟨c, h⟩ | ⟨c, e, he, h⟩
  · refine ⟨fun ⟨u, hu, huv⟩ => ?_, fun _ => by rw [snapDownS, h1, ok_bind, pred_zero (by omega)]; rfl⟩
    have := h u hu; rw [le_not_lt huv] at this; cases this
  · obtain ⟨p, p1, p2⟩ := pred_pos (r := r) (by omega)
    refine ⟨fun _ => ⟨e, by rw [snapDownS, h1, ok_bind, p1, ok_bind]; exact readAt_some (by rw [p2, show (r.val - 1).toNat = r.val.toNat - 1 by omega]; exact he), h⟩, fun g => ?_⟩
    have := g e h.1; rw [le_not_lt h.2.1] at this; cases this

/-- C109, snapping an interval down: the result encloses the snapped values and its bounds are those of the bounds of `x`; if some value of `x` lies below all elements, the behaviour is
undefined. -/
theorem C109_down (dbg d : Bool) (a : List T) (ha : SortedR a) (value : Operand T) (x : Ivl T) (hv : value.arg = .ivl x) (hx : Proper x) :
    ((∃ u ∈ a, le u x.lo = true) → ∃ R, snapDownI dbg d a value = .ok R ∧ (∀ v, v ∈ᵢ x → ∃ e, snapDownS a v = .ok e ∧ e ∈ᵢ R) ∧
      (∃ e, snapDownS a x.lo = .ok e ∧ eq R.lo e = true) ∧ (∃ e, snapDownS a x.hi = .ok e ∧ eq R.hi e = true)) ∧
    ((∀ u ∈ a, lt x.lo u = true) → snapDownI dbg d a value = .error .ub) := by
  have hx1 : le x.lo x.hi = true := hx
  have nl := CppOrder.le_left _ _ hx1
  have nh := CppOrder.le_right _ _ hx1
  obtain ⟨P, h1, h2, h3, h4⟩ := C51_upper_bound dbg d a ha value x hv hx
  obtain ⟨_, g1, pl⟩ := (C51_scalar a ha x.lo nl).2; rw [h2] at g1; cases g1
  have b0 := P.lo.ge; have b1 := P.hi.le
  have hP : P.lo.val ≤ P.hi.val := by
    obtain ⟨r, e, hr⟩ := h4 x.lo ⟨nl, hx1⟩
    have l1 : P.lo.val ≤ r.val := by simpa [CppVal.le] using hr.1
    have l2 : r.val ≤ P.hi.val := by simpa [CppVal.le] using hr.2
    omega
  rcases down_pos ha nl pl with ⟨c, h⟩ | ⟨c, e, he, h⟩
  · refine ⟨fun ⟨u, hu, huv⟩ => ?_, fun _ => by rw [snapDownI, h1, ok_bind, prevI, pred_zero (by omega)]; rfl⟩
    have := h u hu; rw [le_not_lt huv] at this; cases this
  · obtain ⟨p, p1, p2⟩ := pred_pos (r := P.lo) (by omega)
    obtain ⟨q, q1, q2⟩ := pred_pos (r := P.hi) (by omega)
    have hQ : (⟨p, q⟩ : Ivl (Iter a.length)).lo.val ≤ (⟨p, q⟩ : Ivl (Iter a.length)).hi.val := by show p.val ≤ q.val; omega
    have hprev : prevI P = .ok ⟨p, q⟩ := by
      have : ¬ q.val < p.val := by omega
      rw [prevI, p1, ok_bind, q1, ok_bind]; simp [Ivl.make, CppVal.gt, CppVal.lt, this]
    rcases C29_deref a ha.2 ⟨p, q⟩ hQ with ⟨e, -⟩ | ⟨-, R, r1, r2, ⟨i, u, r3, r4, r5⟩, ⟨j, w, r6, r7, r8⟩⟩
    · have e : q.val = a.length := e; omega
    · have snap : ∀ v r, upperBoundS a v = .ok r → P.lo.val ≤ r.val → r.val ≤ P.hi.val → ∃ e, snapDownS a v = .ok e ∧ a[r.val.toNat - 1]? = some e ∧ e ∈ᵢ R := fun v r hr l1 l2 => by
        obtain ⟨s, s1, s2⟩ := pred_pos (r := r) (by omega)
        have g : a[r.val.toNat - 1]? = some a[r.val.toNat - 1] := List.getElem?_eq_getElem (by omega)
        refine ⟨_, by rw [snapDownS, hr, ok_bind, s1, ok_bind]; exact readAt_some (by rw [s2, show (r.val - 1).toNat = r.val.toNat - 1 by omega]; exact g), g, r2 _ _ ⟨?_, ?_⟩ g⟩
        · show p.val ≤ _; omega
        · show _ ≤ q.val; omega
      refine ⟨fun _ => ⟨R, by rw [snapDownI, h1, ok_bind, hprev, ok_bind, r1], fun v hv => ?_, ?_, ?_⟩, fun g => ?_⟩
      · obtain ⟨r, e, hr⟩ := h4 v hv
        have l1 : P.lo.val ≤ r.val := by simpa [CppVal.le] using hr.1
        have l2 : r.val ≤ P.hi.val := by simpa [CppVal.le] using hr.2
        obtain ⟨e', s1, -, s3⟩ := snap v r e l1 l2
        exact ⟨e', s1, s3⟩
      · obtain ⟨e', s1, s2, s3⟩ := snap x.lo P.lo h2 (by omega) hP
        have r3 : p.val ≤ (i : Int) := r3.1
        exact ⟨e', s1, le_eq' s3.1 (CppOrder.le_trans _ _ _ (sorted_get ha s2 r4 (by omega)) (eq_le' r5).2)⟩
      · obtain ⟨e', s1, s2, s3⟩ := snap x.hi P.hi h3 hP (by omega)
        have r6 : (j : Int) ≤ q.val := r6.2
        exact ⟨e', s1, le_eq' (CppOrder.le_trans _ _ _ (eq_le' r8).1 (sorted_get ha r7 s2 (by omega))) s3.2⟩
      · have := g e h.1; rw [le_not_lt h.2.1] at this; cases this

/-- C109: the elements in the result of snapping up are the snapped values of `x`, … -/
theorem C109_up_grid (dbg d : Bool) (a : List T) (ha : SortedR a) (value : Operand T) (x : Ivl T) (hv : value.arg = .ivl x) (hx : Proper x) (R : Ivl T) (h : snapUpI dbg d a value = .ok R)
    (e : T) (he : e ∈ a) : e ∈ᵢ R ↔ ∃ v, v ∈ᵢ x ∧ ∃ e', snapUpS a v = .ok e' ∧ eq e e' = true := by
  have hx1 : le x.lo x.hi = true := hx
  have nl := CppOrder.le_left _ _ hx1
  have nh := CppOrder.le_right _ _ hx1
  obtain ⟨g1, g2⟩ := C109_up dbg d a ha value x hv hx
  have top : ∃ u ∈ a, le x.hi u = true := by
    by_contra c
    have := g2 (fun u hu => by by_contra g; exact c ⟨u, hu, not_lt_le g (ha.2 u hu) nh⟩)
    rw [h] at this; cases this
  obtain ⟨R', r1, r2, ⟨l, l1, l2⟩, ⟨u, u1, u2⟩⟩ := g1 top
  rw [h] at r1; cases r1
  obtain ⟨l', hl, ll⟩ := (C109_up_scalar a ha x.lo nl).1 (by obtain ⟨w, w1, w2⟩ := top; exact ⟨w, w1, CppOrder.le_trans _ _ _ hx1 w2⟩)
  rw [l1] at hl; cases hl
  obtain ⟨u', hu, uu⟩ := (C109_up_scalar a ha x.hi nh).1 top
  rw [u1] at hu; cases hu
  constructor
  · intro hm
    by_cases c : le e x.hi = true
    · have hxe : le x.lo e = true := CppOrder.le_trans _ _ _ ll.2.1 (CppOrder.le_trans _ _ _ (eq_le' l2).2 hm.1)
      obtain ⟨e', s1, s2⟩ := (C109_up_scalar a ha e (ha.2 e he)).1 ⟨e, he, ha.2 e he⟩
      exact ⟨e, ⟨hxe, c⟩, e', s1, le_eq' s2.2.1 (s2.2.2 e he (ha.2 e he))⟩
    · have : le x.hi e = true := le_total' c (ha.2 e he) nh
      exact ⟨x.hi, ⟨hx1, nh⟩, u, u1, le_eq' (CppOrder.le_trans _ _ _ hm.2 (eq_le' u2).1) (uu.2.2 e he this)⟩
  · rintro ⟨v, hv, e', s1, s2⟩
    obtain ⟨w, w1, w2⟩ := r2 v hv
    rw [s1] at w1; cases w1
    exact ⟨CppOrder.le_trans _ _ _ w2.1 (eq_le' s2).2, CppOrder.le_trans _ _ _ (eq_le' s2).1 w2.2⟩

/-- … and likewise for snapping down. -/
theorem C109_down_grid (dbg d : Bool) (a : List T) (ha : SortedR a) (value : Operand T) (x : Ivl T) (hv : value.arg = .ivl x) (hx : Proper x) (R : Ivl T)
    (h : snapDownI dbg d a value = .ok R) (e : T) (he : e ∈ a) : e ∈ᵢ R ↔ ∃ v, v ∈ᵢ x ∧ ∃ e', snapDownS a v = .ok e' ∧ eq e e' = true := by
  have hx1 : le x.lo x.hi = true := hx
  have nl := CppOrder.le_left _ _ hx1
  have nh := CppOrder.le_right _ _ hx1
  obtain ⟨g1, g2⟩ := C109_down dbg d a ha value x hv hx
  have bot : ∃ u ∈ a, le u x.lo = true := by
    by_contra c
    have := g2 (fun u hu => by by_contra g; exact c ⟨u, hu, not_lt_le g nl (ha.2 u hu)⟩)
    rw [h] at this; cases this
  obtain ⟨R', r1, r2, ⟨l, l1, l2⟩, ⟨u, u1, u2⟩⟩ := g1 bot
  rw [h] at r1; cases r1
  obtain ⟨l', hl, ll⟩ := (C109_down_scalar a ha x.lo nl).1 bot
  rw [l1] at hl; cases hl
  obtain ⟨u', hu, uu⟩ := (C109_down_scalar a ha x.hi nh).1 (by obtain ⟨w, w1, w2⟩ := bot; exact ⟨w, w1, CppOrder.le_trans _ _ _ w2 hx1⟩)
  rw [u1] at hu; cases hu
  constructor
  · intro hm
    by_cases c : le x.lo e = true
    · have hxe : le e x.hi = true := CppOrder.le_trans _ _ _ hm.2 (CppOrder.le_trans _ _ _ (eq_le' u2).1 uu.2.1)
      obtain ⟨e', s1, s2⟩ := (C109_down_scalar a ha e (ha.2 e he)).1 ⟨e, he, ha.2 e he⟩
      exact ⟨e, ⟨c, hxe⟩, e', s1, le_eq' (s2.2.2 e he (ha.2 e he)) s2.2.1⟩
    · have : le e x.lo = true := le_total' c nl (ha.2 e he)
      exact ⟨x.lo, ⟨nl, hx1⟩, l, l1, le_eq' (ll.2.2 e he this) (CppOrder.le_trans _ _ _ (eq_le' l2).2 hm.1)⟩
  · rintro ⟨v, hv, e', s1, s2⟩
    obtain ⟨w, w1, w2⟩ := r2 v hv
    rw [s1] at w1; cases w1
    exact ⟨CppOrder.le_trans _ _ _ w2.1 (eq_le' s2).2, CppOrder.le_trans _ _ _ (eq_le' s2).1 w2.2⟩

/-- C109: a smaller interval snaps to a smaller one. -/
theorem C109_isotone (dbg d : Bool) (a : List T) (ha : SortedR a) (value value' : Operand T) (x x' : Ivl T) (hv : value.arg = .ivl x) (hv' : value'.arg = .ivl x') (hx : Proper x)
    (hsub : ∀ v, v ∈ᵢ x → v ∈ᵢ x') :
    (∀ R', snapUpI dbg d a value' = .ok R' → ∃ R, snapUpI dbg d a value = .ok R ∧ ∀ v, v ∈ᵢ R → v ∈ᵢ R') ∧
    (∀ R', snapDownI dbg d a value' = .ok R' → ∃ R, snapDownI dbg d a value = .ok R ∧ ∀ v, v ∈ᵢ R → v ∈ᵢ R') := by
  have hx1 : le x.lo x.hi = true := hx
  have xl := hsub x.lo ⟨CppOrder.le_left _ _ hx1, hx1⟩
  have xh := hsub x.hi ⟨hx1, CppOrder.le_right _ _ hx1⟩
  have hx' : Proper x' := CppOrder.le_trans _ _ _ xl.1 xl.2
  have nl' := CppOrder.le_left _ _ xl.1
  have nh' := CppOrder.le_right _ _ xh.2
  constructor
  · intro R' h'
    obtain ⟨g1, g2⟩ := C109_up dbg d a ha value' x' hv' hx'
    have top : ∃ u ∈ a, le x'.hi u = true := by
      by_contra c
      have := g2 (fun u hu => by by_contra g; exact c ⟨u, hu, not_lt_le g (ha.2 u hu) nh'⟩)
      rw [h'] at this; cases this
    obtain ⟨_, r1, r2, -, -⟩ := g1 top
    rw [h'] at r1; cases r1
    obtain ⟨R, s1, s2, ⟨l, l1, l2⟩, ⟨u, u1, u2⟩⟩ := (C109_up dbg d a ha value x hv hx).1 (by obtain ⟨w, w1, w2⟩ := top; exact ⟨w, w1, CppOrder.le_trans _ _ _ xh.2 w2⟩)
    obtain ⟨e, e1, e2⟩ := r2 _ xl; rw [l1] at e1; cases e1
    obtain ⟨e, e1, e3⟩ := r2 _ xh; rw [u1] at e1; cases e1
    exact ⟨R, s1, fun v hv => ⟨CppOrder.le_trans _ _ _ e2.1 (CppOrder.le_trans _ _ _ (eq_le' l2).2 hv.1), CppOrder.le_trans _ _ _ hv.2 (CppOrder.le_trans _ _ _ (eq_le' u2).1 e3.2)⟩⟩
  · intro R' h'
    obtain ⟨g1, g2⟩ := C109_down dbg d a ha value' x' hv' hx'
    have bot : ∃ u ∈ a, le u x'.lo = true := by
      by_contra c
      have := g2 (fun u hu => by by_contra g; exact c ⟨u, hu, not_lt_le g nl' (ha.2 u hu)⟩)
      rw [h'] at this; cases this
    obtain ⟨_, r1, r2, -, -⟩ := g1 bot
    rw [h'] at r1; cases r1
    obtain ⟨R, s1, s2, ⟨l, l1, l2⟩, ⟨u, u1, u2⟩⟩ := (C109_down dbg d a ha value x hv hx).1 (by obtain ⟨w, w1, w2⟩ := bot; exact ⟨w, w1, CppOrder.le_trans _ _ _ w2 xl.1⟩)
    obtain ⟨e, e1, e2⟩ := r2 _ xl; rw [l1] at e1; cases e1
    obtain ⟨e, e1, e3⟩ := r2 _ xh; rw [u1] at e1; cases e1
    exact ⟨R, s1, fun v hv => ⟨CppOrder.le_trans _ _ _ e2.1 (CppOrder.le_trans _ _ _ (eq_le' l2).2 hv.1), CppOrder.le_trans _ _ _ hv.2 (CppOrder.le_trans _ _ _ (eq_le' u2).1 e3.2)⟩⟩

/-! The grid 0, 5, 10, 20: the interval [3, 12] snaps up to [5, 20] and down to [0, 10]; [15, 25] cannot be snapped up though 15 can. -/
example : SortedR [i32 0, i32 5, i32 10, i32 20] ∧ Proper (⟨i32 3, i32 12⟩ : Ivl (SInt 31)) ∧
    snapUpI true true [i32 0, i32 5, i32 10, i32 20] (.ident true 0 ⟨i32 3, i32 12⟩) = .ok ⟨i32 5, i32 20⟩ ∧
    snapDownI true true [i32 0, i32 5, i32 10, i32 20] (.ident true 0 ⟨i32 3, i32 12⟩) = .ok ⟨i32 0, i32 10⟩ ∧
    snapUpI true true [i32 0, i32 5, i32 10, i32 20] (.ident true 0 ⟨i32 15, i32 25⟩) = .error .ub ∧
    snapUpS [i32 0, i32 5, i32 10, i32 20] (i32 15) = .ok (i32 20) ∧ snapDownS [i32 0, i32 5, i32 10, i32 20] (i32 15) = .ok (i32 10) := by
  refine ⟨by unfold SortedR NotNan; decide +kernel, by decide, ?_⟩
  decide +kernel
end Intervals.Props
