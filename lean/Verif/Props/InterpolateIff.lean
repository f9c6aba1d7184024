import Verif.Props.Interpolate
import Verif.Props.BlendFlt
import Verif.Props.FltClass
/-!
# C55: the tables for which the interpolation example is right

`C55_iff` characterises, in every format, the tables of numbers for which the interval version contains the scalar results: all widths are
positive and finite, all differences of ordinates are finite.
-/
set_option linter.unusedSectionVars false
namespace Intervals.Props
open Intervals CppVal Spec Fl

variable {K : Type} [Field K] [LinearOrder K] [IsStrictOrderedRing K] [Fmt K]

/-- what `interpolate_linear` does, once the positions are known -/
theorem interpolateLinear_run (dbg : Bool) (xs ys : List (Fl K)) (id idi : Nat) (x : Ivl (Fl K)) (hn : 2 ≤ xs.length)
    (hlen : ys.length = xs.length) (h63 : (xs.length : Int) < 2^63) (pos : Ivl (Iter xs.length))
    (hpos : lowerBoundI dbg false xs (.ident false id x) = .ok pos) (hp : pos.lo.val ≤ pos.hi.val) (y0 yn : Fl K)
    (hy0 : rangeAt ys 0 = .ok y0) (hyn : rangeAt ys ((xs.length : Int) - 1) = .ok yn) :
    interpolateLinear dbg xs ys id idi x = (do
      let r1 ← if pos.lo.val = 0 then Ivl.assignPartial Ivl.unassigned (Ivl.ofVal y0) else pure Ivl.unassigned
      let r2 ← if pos.hi.val = xs.length then Ivl.assignPartial r1 (Ivl.ofVal yn) else pure r1
      if 0 < pos.hi.val ∧ pos.lo.val < xs.length then
        (ivlVals (-(2:Int)^63) (2^63 - 1) (min ((xs.length : Int) - 1) pos.hi.val - max 1 pos.lo.val).toNat (max 1 pos.lo.val)).foldlM
          (fun s j => lerpBody dbg xs ys id x j s) r2
      else pure r2) := by
  have p0 := pos.lo.ge; have p1 := pos.hi.le; have p2 := pos.lo.le; have p3 := pos.hi.ge
  obtain ⟨i, hi, hil, hih⟩ : ∃ i : Ivl Index, iterDiffI 63 dbg (.ivl pos) (.scalar ⟨0, by omega, by omega⟩) = .ok i ∧ i.lo.val = pos.lo.val ∧ i.hi.val = pos.hi.val := by
    have has : pos.assigned = true := by simp [Ivl.assigned, gt, lt]; omega
    have d1 : Iter.diff 63 pos.lo (⟨0, by omega, by omega⟩ : Iter xs.length) = .ok ⟨pos.lo.val - 0, by omega, by omega⟩ := by
      unfold Iter.diff SInt.of BInt.ofInt; rw [dif_pos ⟨by simp only; omega, by simp only; omega⟩]
    have d2 : Iter.diff 63 pos.hi (⟨0, by omega, by omega⟩ : Iter xs.length) = .ok ⟨pos.hi.val - 0, by omega, by omega⟩ := by
      unfold Iter.diff SInt.of BInt.ofInt; rw [dif_pos ⟨by simp only; omega, by simp only; omega⟩]
    refine ⟨⟨⟨pos.lo.val - 0, by omega, by omega⟩, ⟨pos.hi.val - 0, by omega, by omega⟩⟩, ?_, by simp, by simp⟩
    simp only [iterDiffI, Arg.assigned, has, Bool.and_self, expectsDebug_true, ok_bind, Arg.lo, Arg.hi, d1, d2]
    exact make_of_le (bint_le.mpr (by simp only; omega))
  have hz : SInt.of 63 0 = .ok ⟨0, by decide, by decide⟩ := rfl
  have hnn : SInt.of 63 (xs.length : Int) = .ok ⟨xs.length, by omega, by omega⟩ := by
    unfold SInt.of BInt.ofInt; rw [dif_pos ⟨by omega, by omega⟩]
  have hb : BInt.ofInt 0 (xs.length : Int) 0 = .ok (⟨0, by omega, by omega⟩ : Iter xs.length) := by
    unfold BInt.ofInt; rw [dif_pos ⟨by omega, by omega⟩]
  obtain ⟨below, above, nb, na, c1, c2, c3, c4, k1, k2, k3, k4⟩ := middle_cond dbg idi i ⟨0, by decide, by decide⟩ ⟨xs.length, by omega, by omega⟩ rfl
    (by simp only; omega) (by omega) (by omega) (by simp only; omega)
  simp only at k1 k2 k3 k4
  have hm : ∀ r2, lerpMiddle dbg xs ys id idi x i (Cond.mkAnd nb na) r2 = (if 0 < pos.hi.val ∧ pos.lo.val < xs.length then
        (ivlVals (-(2:Int)^63) (2^63 - 1) (min ((xs.length : Int) - 1) pos.hi.val - max 1 pos.lo.val).toNat (max 1 pos.lo.val)).foldlM
          (fun s j => lerpBody dbg xs ys id x j s) r2
      else pure r2) := by
    intro r2
    unfold lerpMiddle
    simp only [k3, hil, hih]
    split
    · next h =>
      obtain ⟨ic, q1, q2, q3⟩ := k4 (by omega) (by omega)
      have has : ic.assigned = true := by simp only [Ivl.assigned, gt, lt]; simp; omega
      have hit : enumerateI ic = .ok ⟨ic.lo, ic.hi, false⟩ := by simp [enumerateI, has, pure, Except.pure]
      rw [q1, ok_bind, hit, ok_bind, forEach_interval _ (ic.hi.val - ic.lo.val).toNat ic.lo ic.hi r2 (by omega), q2, q3, hil, hih]
    · rfl
  unfold interpolateLinear
  simp only [hn, hlen, decide_true, expects_true, expectsDebug_true, ok_bind, hz, hnn, hb, hpos, hi, c1, c2, c3, c4, hy0, hyn, hm, k1, k2, hil, hih]

private theorem rangeAt_nat {V : Type _} {a : List V} {i : Int} {n : Nat} {v : V} (h : a[n]? = some v) (e : i = n) : rangeAt a i = .ok v := by
  subst e; unfold rangeAt; rw [if_neg (by omega), Int.toNat_natCast, h]

/-- the position of an abscissa -/
theorem lowerBound_at {xs : List (Fl K)} (hs : StrictR xs) {j : Nat} {a : Fl K} (h : xs[j]? = some a) :
    ∃ r : Iter xs.length, lowerBoundS xs a = .ok r ∧ r.val = j := by
  obtain ⟨⟨r, hr, hr1, hr2⟩, _⟩ := C51_scalar xs (Intervals.StrictR.sorted hs) a (hs.2 a (List.mem_of_getElem? h))
  have r0 := r.ge; have r1 := r.le
  refine ⟨r, hr, ?_⟩
  obtain ⟨b, rfl⟩ := List.getElem?_eq_some_iff.mp h
  have a2 : ¬ (j < r.val.toNat) := fun h' => by
    have := (hr2 j _ h).mpr h'
    have n := hs.2 _ (List.mem_of_getElem? h)
    rw [CppOrder.lt_iff] at this
    simp_all [NotNan]
  by_contra hne
  have : r.val.toNat < j := by omega
  have a1 := (hr2 (r.val.toNat) xs[r.val.toNat] (List.getElem?_eq_getElem (by omega))).mp
    (List.pairwise_iff_getElem.mp hs.1 r.val.toNat j (by omega) b (by omega))
  omega

/-- the scalar result at the right end of a cell -/
theorem scalar_right (dbg : Bool) (xs ys : List (Fl K)) (hs : StrictR xs) (hlen : ys.length = xs.length) (j : Nat) (x0 x1 y0 y1 : Fl K)
    (h0 : xs[j]? = some x0) (h1 : xs[j + 1]? = some x1) (k0 : ys[j]? = some y0) (k1 : ys[j + 1]? = some y1) :
    interpolateLinearScalar dbg xs ys x1 = .ok (lerpPoint x0 x1 y0 y1 x1) := by
  obtain ⟨r, hr, hrj⟩ := lowerBound_at hs h1
  obtain ⟨b1, e1⟩ := List.getElem?_eq_some_iff.mp h1
  unfold interpolateLinearScalar
  simp only [show 2 ≤ xs.length by omega, hlen, decide_true, expects_true, expectsDebug_true, ok_bind, hr, hrj]
  rw [if_neg (by omega), if_neg (by omega), rangeAt_nat h0 (by omega), rangeAt_nat h1 (by omega), rangeAt_nat k0 (by omega), rangeAt_nat k1 (by omega)]
  rfl

/-- the partition of a whole cell does not narrow it -/
theorem cell_constrain (dbg : Bool) (id : Nat) (xs : List (Fl K)) (j : Nat) (x0 x1 : Fl K) (h0 : xs[j]? = some x0) (h1 : xs[j + 1]? = some x1)
    (hlt : lt x0 x1 = true) (J : Index) (hJ : J.val = j + 1) :
    constrainAt dbg false id ⟨x0, x1⟩ xs (lowerPredI dbg false (.ident false id ⟨x0, x1⟩)) (.scalar J) = .ok ⟨x0, x1⟩ := by
  obtain ⟨b1, -⟩ := List.getElem?_eq_some_iff.mp h1
  have hle : le x0 x1 = true := by grind
  have has : (⟨x0, x1⟩ : Ivl (Fl K)).assigned = true := Intervals.assigned_of_proper (X := .ivl ⟨x0, x1⟩) hle
  have n0 : le x0 x0 = true := CppOrder.le_left _ _ hle
  have n1 : le x1 x1 = true := CppOrder.le_right _ _ hle
  have l0 : lt x0 x0 = false := by grind
  have l1 : lt x1 x1 = false := by grind
  have hne : xs.isEmpty = false := by cases xs with | nil => simp at b1 | cons => rfl
  have e1 : BoolSet.contains (compareLt (.scalar x0) (.ivl (⟨x0, x1⟩ : Ivl (Fl K)))) true = true := by
    simp [contains_lt, Arg.lo, Arg.hi, hlt]
  have e2 : BoolSet.contains (BoolSet.notCore (compareLt (.scalar x1) (.ivl (⟨x0, x1⟩ : Ivl (Fl K))))) true = true := by
    rw [contains_not]
    simp [contains_lt, Arg.lo, Arg.hi, ge, hle]
  have e3 : compareLt (.scalar x1) (.ivl (⟨x0, x1⟩ : Ivl (Fl K))) ≠ BoolSet.empty := by
    intro h; rw [h] at e2; revert e2; decide
  have p1 : lowerPredI dbg false (.ident false id (⟨x0, x1⟩ : Ivl (Fl K))) x0 = .ok (.less (compareLt (.scalar x0) (.ivl ⟨x0, x1⟩)) (.scalar false x0) (.ident false id ⟨x0, x1⟩)) := by
    simp [lowerPredI, condLt, opLt, Operand.arg, Arg.assigned, has, pure, Except.pure]
  have p2 : lowerPredI dbg false (.ident false id (⟨x0, x1⟩ : Ivl (Fl K))) x1 = .ok (.less (compareLt (.scalar x1) (.ivl ⟨x0, x1⟩)) (.scalar false x1) (.ident false id ⟨x0, x1⟩)) := by
    simp [lowerPredI, condLt, opLt, Operand.arg, Arg.assigned, has, pure, Except.pure]
  have mk : Ivl.make x0 x1 = .ok ⟨x0, x1⟩ := make_ok_of_le hle
  have c1 : cmax x0 x0 = x0 := by simp [cmax]
  have c2 : cmin x1 x1 = x1 := by simp [cmin]
  have hJ1 : J.val - 1 = (j : Int) := by omega
  have hr0 : rangeAt xs (J.val - 1) = .ok x0 := rangeAt_nat h0 hJ1
  have hr1 : rangeAt xs J.val = .ok x1 := rangeAt_nat h1 (by omega)
  have q1 : constrain dbg false id (⟨x0, x1⟩ : Ivl (Fl K)) (.less (compareLt (.scalar x0) (.ivl ⟨x0, x1⟩)) (.scalar false x0) (.ident false id ⟨x0, x1⟩)) = .ok ⟨x0, x1⟩ := by
    simp [constrain, detailConstrain, Operand.matchesId, e1, Operand.arg, Arg.lo, hlt, succStep, Operand.disc, c1, mk, pure, Except.pure]
  have q2 : constrain dbg false id (⟨x0, x1⟩ : Ivl (Fl K)) (.leq (BoolSet.notCore (compareLt (.scalar x1) (.ivl ⟨x0, x1⟩))) (.ident false id ⟨x0, x1⟩) (.scalar false x1)) = .ok ⟨x0, x1⟩ := by
    simp [constrain, detailConstrain, Operand.matchesId, e2, Operand.arg, Arg.hi, hle, c2, mk, pure, Except.pure]
  have hpa : partitionAt dbg xs (.scalar J) = .ok (.scalar J) := by
    have d1 : decide (0 ≤ J.val) = true := by simp; omega
    have d2 : decide (J.val ≤ xs.length) = true := by simp; omega
    show (expects true >>= fun _ => expectsDebug dbg (decide (0 ≤ J.val) && decide (J.val ≤ xs.length)) >>= fun _ => pure (Arg.scalar J)) = _
    rw [d1, d2]; simp [pure, Except.pure]
  unfold constrainAt
  rw [hpa, ok_bind]
  unfold constrainPart
  simp only [hne, Bool.false_eq_true, if_false, Arg.lo, Arg.hi, if_pos (show 0 < J.val by omega), if_pos (show J.val < (xs.length : Int) by omega), hr0, hr1, ok_bind,
    p1, p2, q1, Cond.mkNot, notM_ok e3, pure, Except.pure, q2, ge, hle, Bool.and_self, expectsDebug_true, c1, c2, mk]

private theorem scalar_mem {a w : Fl K} {k : K} (ha : Is a k) (hw : w ∈ₐ (Arg.scalar a)) : Is w k := by
  have f := finite_of_between ha.1 ha.1 hw.1 hw.2
  have i := Is.of_finite f
  have l1 := (ha.le_iff i).mp hw.1
  have l2 := (i.le_iff ha).mp hw.2
  rwa [le_antisymm l2 l1] at i

private theorem proper_of {R : Ivl (Fl K)} {v : Fl K} (h : v ∈ᵢ R) : Proper R := CppOrder.le_trans _ _ _ h.1 h.2

private theorem assign_nan (r : Ivl (Fl K)) : Ivl.assignPartial r ⟨.nan, .nan⟩ = .ok r := by
  cases r with
  | mk l u => cases l <;> cases u <;> rfl

private theorem mul_zero_inf {w : Fl K} (h : w.isInf = true) : Fl.mul (.num 0) w = .nan := by
  cases w <;> simp [isInf] at h <;> simp [Fl.mul, isNan, isZero, isInf]
private theorem mul_num_ne_nan {u w : Fl K} {k : K} (hu : Is u k) (hk : k ≠ 0) (h : w ≠ .nan) : Fl.mul u w ≠ .nan := by
  obtain ⟨f1, f2, f3⟩ := finite_flags hu.1
  intro e
  rw [mul_eq_nan (ne_nan_of_finite hu.1) h, f2] at e
  simp only [Bool.false_eq_true, false_and, false_or] at e
  exact hk (hu.2 ▸ f3.mp e.1)

/-- over a whole cell, an infinite difference of ordinates makes the contribution NaN, which is ignored -/
theorem body_nan (dbg : Bool) (xs ys : List (Fl K)) (id : Nat) (j : Nat) (x0 x1 y0 y1 : Fl K) (h0 : xs[j]? = some x0) (h1 : xs[j + 1]? = some x1)
    (k0 : ys[j]? = some y0) (k1 : ys[j + 1]? = some y1) (fx0 : x0.isFinite = true) (fx1 : x1.isFinite = true)
    (hlt : lt x0 x1 = true) (fw : (Fl.sub x1 x0).isFinite = true) (pw : lt (.num 0) (Fl.sub x1 x0) = true)
    (hdy : (Fl.sub y1 y0).isInf = true) (J : Index) (hJ : J.val = j + 1) (r : Ivl (Fl K)) :
    lerpBody dbg xs ys id ⟨x0, x1⟩ J r = .ok r := by
  have hle : le x0 x1 = true := by grind
  have n0 : le x0 x0 = true := CppOrder.le_left _ _ hle
  have iw := Is.of_finite fw
  have w0 := ((Is.num 0).lt_iff iw).mp pw
  have ndy : NotNan (Fl.sub y1 y0) := Fl.le_refl_of_ne (by intro h; rw [h] at hdy; simp [isInf] at hdy)
  unfold lerpBody
  rw [rangeAt_nat h0 (by omega), rangeAt_nat h1 (by omega), rangeAt_nat k0 (by omega), rangeAt_nat k1 (by omega)]
  simp only [ok_bind, cell_constrain dbg id xs j x0 x1 h0 h1 hlt J hJ]
  have fin : ∀ v, v ∈ᵢ (⟨x0, x1⟩ : Ivl (Fl K)) → v.isFinite = true := fun v hv => finite_of_between fx0 fx1 hv.1 hv.2
  rcases C30_sub dbg (.ivl ⟨x0, x1⟩) (.scalar x0) hle n0 with ⟨⟨a, b, ha, hb, e⟩, _⟩ | ⟨_, d, ed, hd, _, _⟩
  · exact absurd e (sub_finite_ne_nan (fin a ha) (ne_nan_of_le_left hb.2))
  have dz : (.num 0 : Fl K) ∈ᵢ d := by have := hd x0 x0 ⟨n0, hle⟩ ⟨n0, n0⟩; rwa [sub_self fx0] at this
  have nw : NotNan (Fl.sub x1 x0) := Fl.le_refl_of_ne (ne_nan_of_finite fw)
  have z0 : ¬ (Fl.num 0) ∈ₐ (Arg.scalar (Fl.sub x1 x0)) := by
    intro hz
    have := (iw.le_iff (Is.num 0)).mp hz.1
    linarith
  rw [ed, ok_bind]
  rcases C32_exact dbg (.ivl d) (.scalar (Fl.sub x1 x0)) (proper_of dz) nw z0 with ⟨⟨a, b, ha, hb, e⟩, eq'⟩ | ⟨_, q, eq', hq, _, _⟩
  · rw [eq', ok_bind, show mulI dbg (.ivl ⟨.nan, .nan⟩) (.scalar (Fl.sub y1 y0)) = .ok ⟨.nan, .nan⟩ from (C34_mul dbg (.scalar (Fl.sub y1 y0)) rfl).1, ok_bind, show addI dbg (.scalar y0) (.ivl ⟨.nan, .nan⟩) = .ok ⟨.nan, .nan⟩ from (C34_add_sub dbg (.scalar y0) rfl).2.1, ok_bind]
    exact assign_nan r
  have qz : (.num 0 : Fl K) ∈ᵢ q := by have := hq _ _ dz ⟨nw, nw⟩; rwa [Fl.zero_div fw pw] at this
  rw [eq', ok_bind]
  rcases C31_mul dbg (.ivl q) (.scalar (Fl.sub y1 y0)) (proper_of qz) ndy with ⟨_, ep⟩ | ⟨hno, _⟩
  · rw [ep, ok_bind, show addI dbg (.scalar y0) (.ivl ⟨.nan, .nan⟩) = .ok ⟨.nan, .nan⟩ from (C34_add_sub dbg (.scalar y0) rfl).2.1, ok_bind]
    exact assign_nan r
  · exfalso
    refine hno _ _ qz ⟨ndy, ndy⟩ ?_
    exact mul_zero_inf hdy

private theorem pinf_le {a : Fl K} (h : le .pinf a = true) : a = .pinf := by
  have hk : ∀ k : K, le .pinf (.num k : Fl K) = true → False := fun k => by simp [CppVal.le, ext]
  cases a with
  | num k => exact (hk k h).elim
  | nzero => exact (hk 0 h).elim
  | pinf => rfl
  | ninf => simp [CppVal.le, ext] at h
  | nan => simp [CppVal.le, ext] at h
private theorem le_ninf {a : Fl K} (h : le a .ninf = true) : a = .ninf := by
  cases a <;> simp [CppVal.le, ext] at h ⊢

/-- `p` lies between products of 1 and numbers that compare equal to `w` -/
def OneTimes (w p : Fl K) : Prop := ∃ u b u' b', Is u 1 ∧ Is u' 1 ∧ b ∈ₐ (Arg.scalar w) ∧ b' ∈ₐ (Arg.scalar w) ∧
  le (Fl.mul u b) p = true ∧ le p (Fl.mul u' b') = true

/-- at the right end of the cell before, the contribution is the ordinate there, up to rounding -/
theorem body_point (one : (Fmt.rnd (1 : K) : Fl K) = .num 1) (dbg : Bool) (xs ys : List (Fl K)) (id : Nat) (hs : StrictR xs) (x : Ivl (Fl K)) (hx : Proper x)
    (pos : Ivl (Iter xs.length))
    (hpos : lowerBoundI dbg false xs (.ident false id x) = .ok pos) (j : Nat) (hj : pos.lo.val ≤ (j + 1 : Int)) (hj' : (j + 1 : Int) ≤ pos.hi.val)
    (x0 x1 y0 y1 : Fl K) (h0 : xs[j]? = some x0) (h1 : xs[j + 1]? = some x1) (k0 : ys[j]? = some y0) (k1 : ys[j + 1]? = some y1)
    (fx0 : x0.isFinite = true) (fx1 : x1.isFinite = true) (fy0 : y0.isFinite = true) (fy1 : y1.isFinite = true)
    (fw : (Fl.sub x1 x0).isFinite = true) (pw : lt (.num 0) (Fl.sub x1 x0) = true) (hxl : x.lo = x1) (J : Index) (hJ : J.val = j + 1) :
    ∃ Y, (∀ r, lerpBody dbg xs ys id x J r = Ivl.assignPartial r Y) ∧ Proper Y ∧
      (∃ a p, Is a y0.val ∧ OneTimes (Fl.sub y1 y0) p ∧ Y.lo = Fl.add a p) ∧
      (∃ a p, Is a y0.val ∧ OneTimes (Fl.sub y1 y0) p ∧ Y.hi = Fl.add a p) := by
  obtain ⟨b1, -⟩ := List.getElem?_eq_some_iff.mp h1
  have hsort : SortedR xs := Intervals.StrictR.sorted hs
  obtain ⟨xc, hxc⟩ := C52_positions_partial .lower dbg false id (by simp) xs hsort x hx pos hpos (.scalar J) (by simp only [Arg.lo]; omega)
    (by simp only [Arg.hi]; omega) (by simp [Arg.lo, Arg.hi]) (by simp)
  obtain ⟨w1, w2, _, _, w3⟩ := C52_within .lower dbg false id (by simp) xs hsort x hx (.scalar J) (by simp only [Arg.lo]; omega)
    (by simp only [Arg.hi]; omega) (by simp [Arg.lo, Arg.hi]) xc hxc
  have w3' := w3 x1 (by simp only [Arg.hi, hJ]; exact h1)
  rw [hxl] at w2
  have i0 := Is.of_finite fx0; have i1 := Is.of_finite fx1
  have j0 := Is.of_finite fy0; have j1 := Is.of_finite fy1
  have iw := Is.of_finite fw
  have pw' := ((Is.num 0).lt_iff iw).mp pw
  have xcs : ∀ v, v ∈ᵢ xc → Is v x1.val := fun v hv =>
    scalar_mem i1 ⟨CppOrder.le_trans _ _ _ w2 hv.1, CppOrder.le_trans _ _ _ hv.2 w3'⟩
  have n0 : NotNan x0 := Fl.le_refl_of_ne (ne_nan_of_finite fx0)
  have xm : xc.lo ∈ᵢ xc := ⟨CppOrder.le_left _ _ w1, w1⟩
  have wx : ext (Fl.sub x1 x0) = ext (Fmt.rnd (x1.val - x0.val) : Fl K) := ext_sub i1 i0
  -- the difference
  have ds : ∀ a b, a ∈ₐ (Arg.ivl xc) → b ∈ₐ (Arg.scalar x0) → Is (Fl.sub a b) (Fl.sub x1 x0).val := fun a b ha hb =>
    Is.of_ext ((ext_sub (xcs a ha) (scalar_mem i0 hb)).trans wx.symm) iw
  have single : ∀ {R : Ivl (Fl K)} {k : K}, Is R.lo k → Is R.hi k → ∀ v, v ∈ᵢ R → Is v k := by
    intro R k hl hh v hv
    have f := Is.of_finite (finite_of_between hl.1 hh.1 hv.1 hv.2)
    have l1 := (hl.le_iff f).mp hv.1
    have l2 := (f.le_iff hh).mp hv.2
    rwa [le_antisymm l2 l1] at f
  rcases C30_sub dbg (.ivl xc) (.scalar x0) w1 n0 with ⟨⟨a, b, ha, hb, e⟩, _⟩ | ⟨_, d, ed, hd, ⟨a1, b1, ha1, hb1, e1⟩, ⟨a2, b2, ha2, hb2, e2⟩⟩
  · exact absurd e (ne_nan_of_finite (ds a b ha hb).1)
  have dI : ∀ v, v ∈ᵢ d → Is v (Fl.sub x1 x0).val := single (e1 ▸ ds _ _ ha1 hb1) (e2 ▸ ds _ _ ha2 hb2)
  have nw : NotNan (Fl.sub x1 x0) := Fl.le_refl_of_ne (ne_nan_of_finite fw)
  have z0 : ¬ (Fl.num 0) ∈ₐ (Arg.scalar (Fl.sub x1 x0)) := by
    intro hz
    have := (iw.le_iff (Is.num 0)).mp hz.1
    linarith
  have pd : Proper d := proper_of (hd _ _ ha1 hb1)
  have qs : ∀ a b, a ∈ₐ (Arg.ivl d) → b ∈ₐ (Arg.scalar (Fl.sub x1 x0)) → Is (Fl.div a b) 1 := fun a b ha hb => by
    refine Is.of_ext (ext_div (dI a ha) (scalar_mem iw hb) pw'.ne') ?_
    rw [_root_.div_self pw'.ne', one]; exact Is.num 1
  rcases C32_exact dbg (.ivl d) (.scalar (Fl.sub x1 x0)) pd nw z0 with ⟨⟨a, b, ha, hb, e⟩, _⟩ | ⟨_, q, eq', hq, ⟨c1, g1, hc1, hg1, q1⟩, ⟨c2, g2, hc2, hg2, q2⟩⟩
  · exact absurd e (ne_nan_of_finite (qs a b ha hb).1)
  have qI : ∀ v, v ∈ᵢ q → Is v 1 := single (q1 ▸ qs _ _ hc1 hg1) (q2 ▸ qs _ _ hc2 hg2)
  have pq : Proper q := proper_of (hq _ _ hc1 hg1)
  have ndy' : Fl.sub y1 y0 ≠ .nan := sub_finite_ne_nan fy1 (ne_nan_of_finite fy0)
  have ndy : NotNan (Fl.sub y1 y0) := Fl.le_refl_of_ne ndy'
  rcases C31_mul dbg (.ivl q) (.scalar (Fl.sub y1 y0)) pq ndy with ⟨⟨a, b, ha, hb, e⟩, _⟩ | ⟨_, p, ep, hp', ⟨c3, g3, hc3, hg3, m1⟩, ⟨c4, g4, hc4, hg4, m2⟩⟩
  · exact absurd e (mul_num_ne_nan (qI a ha) one_ne_zero (ne_nan_of_le_left hb.2))
  have pp : Proper p := proper_of (hp' _ _ hc3 hg3)
  have pI : ∀ v, v ∈ᵢ p → OneTimes (Fl.sub y1 y0) v := fun v hv =>
    ⟨c3, g3, c4, g4, qI _ hc3, qI _ hc4, hg3, hg4, m1 ▸ hv.1, m2 ▸ hv.2⟩
  have ny0 : NotNan y0 := Fl.le_refl_of_ne (ne_nan_of_finite fy0)
  rcases C30_add dbg (.scalar y0) (.ivl p) ny0 pp with ⟨⟨a, b, ha, hb, e⟩, _⟩ | ⟨_, Y, er, hr, ⟨c5, g5, hc5, hg5, m5⟩, ⟨c6, g6, hc6, hg6, m6⟩⟩
  · exact absurd e (add_finite_ne_nan (scalar_mem j0 ha).1 (ne_nan_of_le_left hb.2))
  refine ⟨Y, ?_, proper_of (hr _ _ hc5 hg5), ⟨c5, g5, scalar_mem j0 hc5, pI _ hg5, m5.symm⟩, ⟨c6, g6, scalar_mem j0 hc6, pI _ hg6, m6.symm⟩⟩
  intro r
  unfold lerpBody
  rw [rangeAt_nat h0 (by omega), rangeAt_nat h1 (by omega), rangeAt_nat k0 (by omega), rangeAt_nat k1 (by omega)]
  simp only [ok_bind]
  rw [show constrainAt dbg false id x xs (lowerPredI dbg false (.ident false id x)) (.scalar J) = .ok xc from hxc]
  simp only [ok_bind, ed, eq', ep, er]

/-- such a contribution does not overflow away from the ordinate -/
theorem point_safe {y0 y1 a p : Fl K} (r0 : Representable y0) (fy0 : y0.isFinite = true) (fy1 : y1.isFinite = true) (ha : Is a y0.val)
    (hp : OneTimes (Fl.sub y1 y0) p) : (0 ≤ y1.val → Fl.add a p ≠ .ninf) ∧ (y1.val ≤ 0 → Fl.add a p ≠ .pinf) := by
  have j0 := Is.of_finite fy0; have j1 := Is.of_finite fy1
  obtain ⟨u, b, u', b', hu, hu', hb, hb', l1, l2⟩ := hp
  have rn : (Fmt.rnd (-y0.val) : Fl K) = .num (-y0.val) := Fmt.rnd_symm _ (rnd_rep r0 j0)
  have dx : ext (Fl.sub y1 y0) = ext (Fmt.rnd (y1.val - y0.val) : Fl K) := ext_sub j1 j0
  have n : Is (.num (-y0.val) : Fl K) (-y0.val) := Is.num _
  have u0 : le (.num 0) u = true := ((Is.num 0).le_iff hu).mpr zero_le_one
  have u0' : le (.num 0) u' = true := ((Is.num 0).le_iff hu').mpr zero_le_one
  have pn : p ≠ .nan := ne_nan_of_le_left l2
  have e : ∀ v : Fl K, Is v 1 → Is (Fl.mul (.num (-y0.val)) v) (-y0.val) := fun v hv => by
    refine Is.of_ext (ext_mul n hv) ?_
    rw [mul_one, rn]; exact n
  have z : ∀ v : Fl K, Is v (-y0.val) → Is (Fl.add v a) 0 := fun v hv => by
    refine Is.of_ext (ext_add hv ha) ?_
    rw [neg_add_cancel, Fmt.rnd_zero]; exact Is.num 0
  constructor
  · intro h hc
    have s1 : le (.num (-y0.val)) (Fl.sub y1 y0) = true := by
      rw [le_ext rfl dx, ← rn]; exact Fmt.rnd_mono _ _ (by linarith)
    have s2 : le (.num (-y0.val)) b = true := CppOrder.le_trans _ _ _ s1 hb.1
    have s3 := mul_mono u0 s2 (ne_nan_of_finite (e u hu).1) (by rw [Fl.mul_comm']; exact mul_num_ne_nan hu one_ne_zero (ne_nan_of_le_right s2))
    rw [Fl.mul_comm' b] at s3
    have s4 := CppOrder.le_trans _ _ _ s3 l1
    have s5 := add_mono_left (b := a) s4 (ne_nan_of_finite (z _ (e u hu)).1) (by rw [Fl.add_comm']; exact add_finite_ne_nan ha.1 pn)
    rw [Fl.add_comm' p, hc] at s5
    exact absurd (le_ninf s5) (fun h => by have := (z _ (e u hu)).1; rw [h] at this; simp [isFinite] at this)
  · intro h hc
    have s1 : le (Fl.sub y1 y0) (.num (-y0.val)) = true := by
      rw [le_ext dx rfl, ← rn]; exact Fmt.rnd_mono _ _ (by linarith)
    have s2 : le b' (.num (-y0.val)) = true := CppOrder.le_trans _ _ _ hb'.2 s1
    have s3 := mul_mono u0' s2 (by rw [Fl.mul_comm']; exact mul_num_ne_nan hu' one_ne_zero (ne_nan_of_le_left s2)) (ne_nan_of_finite (e u' hu').1)
    rw [Fl.mul_comm' b'] at s3
    have s4 := CppOrder.le_trans _ _ _ l2 s3
    have s5 := add_mono_left (b := a) s4 (by rw [Fl.add_comm']; exact add_finite_ne_nan ha.1 pn) (ne_nan_of_finite (z _ (e u' hu')).1)
    rw [Fl.add_comm' p, hc] at s5
    exact absurd (pinf_le s5) (fun h => by have := (z _ (e u' hu')).1; rw [h] at this; simp [isFinite] at this)

/-- the sign of an ordinate from which the difference overflows -/
theorem sign_of_overflow {y0 y1 : Fl K} (r1 : Representable y1) (fy0 : y0.isFinite = true) (fy1 : y1.isFinite = true) :
    (Fl.sub y1 y0 = .pinf → y0.val ≤ 0) ∧ (Fl.sub y1 y0 = .ninf → 0 ≤ y0.val) := by
  have j0 := Is.of_finite fy0; have j1 := Is.of_finite fy1
  have dx : ext (Fl.sub y1 y0) = ext (Fmt.rnd (y1.val - y0.val) : Fl K) := ext_sub j1 j0
  have rn := rnd_rep r1 j1
  constructor
  · intro h
    by_contra hc
    have : le (Fl.sub y1 y0) (.num y1.val) = true := by
      rw [le_ext dx rfl, ← rn]; exact Fmt.rnd_mono _ _ (by linarith)
    rw [h] at this
    simpa using pinf_le this
  · intro h
    by_contra hc
    have : le (.num y1.val) (Fl.sub y1 y0) = true := by
      rw [le_ext rfl dx, ← rn]; exact Fmt.rnd_mono _ _ (by linarith)
    rw [h] at this
    simpa using le_ninf this

private theorem cmax_cases (a b : Fl K) : cmax a b = a ∨ cmax a b = b := by unfold cmax; split <;> simp
private theorem cmin_cases (a b : Fl K) : cmin a b = a ∨ cmin a b = b := by unfold cmin; split <;> simp
private theorem assign_out {r Y R : Ivl (Fl K)} (h : Ivl.assignPartial r Y = .ok R) : (R.lo = r.lo ∨ R.lo = Y.lo) ∧ (R.hi = r.hi ∨ R.hi = Y.hi) := by
  simp only [Ivl.assignPartial, Ivl.assign, bind_eq_ok, pure, Except.pure, Except.ok.injEq] at h
  obtain ⟨_, _, rfl⟩ := h
  exact ⟨cmin_cases _ _, cmax_cases _ _⟩

private theorem one_inf {w y : Fl K} (hw : w.isInf = true) (hy : y.isFinite = true) : Fl.add y (Fl.mul (.num 1) w) = w := by
  have h1 : ¬ (1 : K) < 0 := not_lt.mpr zero_le_one
  cases w <;> simp [isInf] at hw <;> cases y <;> simp [isFinite] at hy <;>
    simp [Fl.mul, Fl.add, isNan, isInf, isZero, signBit, infS, h1]

/-- If the difference of two neighbouring ordinates overflows, the result for the whole cell does not contain the scalar result at its right
end, in every format and for every such table. -/
theorem C55_height_fails (one : (Fmt.rnd (1 : K) : Fl K) = .num 1) (dbg : Bool) (xs ys : List (Fl K)) (id idi : Nat)
    (hlen : ys.length = xs.length) (h63 : (xs.length : Int) < 2^63) (hs : StrictR xs) (fx : ∀ v ∈ xs, v.isFinite = true)
    (fy : ∀ v ∈ ys, v.isFinite = true) (ry : ∀ v ∈ ys, Representable v)
    (hw : ∀ (j : Nat) (x0 x1 : Fl K), xs[j]? = some x0 → xs[j + 1]? = some x1 → (Fl.sub x1 x0).isFinite = true ∧ lt (.num 0) (Fl.sub x1 x0) = true)
    (j : Nat) (x0 x1 y0 y1 : Fl K) (h0 : xs[j]? = some x0) (h1 : xs[j + 1]? = some x1) (k0 : ys[j]? = some y0) (k1 : ys[j + 1]? = some y1)
    (hdy : (Fl.sub y1 y0).isFinite = false) :
    ∃ R, interpolateLinear dbg xs ys id idi ⟨x0, x1⟩ = .ok R ∧ ∃ y, interpolateLinearScalar dbg xs ys x1 = .ok y ∧ ¬ y ∈ᵢ R := by
  obtain ⟨b1, -⟩ := List.getElem?_eq_some_iff.mp h1
  have fx0 := fx x0 (List.mem_of_getElem? h0); have fx1 := fx x1 (List.mem_of_getElem? h1)
  have fy0 := fy y0 (List.mem_of_getElem? k0); have fy1 := fy y1 (List.mem_of_getElem? k1)
  obtain ⟨fw, pw⟩ := hw j x0 x1 h0 h1
  have hlt : lt x0 x1 = true := by
    obtain ⟨b0, rfl⟩ := List.getElem?_eq_some_iff.mp h0
    obtain ⟨b1, rfl⟩ := List.getElem?_eq_some_iff.mp h1
    exact List.pairwise_iff_getElem.mp hs.1 j (j + 1) b0 b1 (by omega)
  have hle : le x0 x1 = true := by grind
  have ndy : Fl.sub y1 y0 ≠ .nan := sub_finite_ne_nan fy1 (ne_nan_of_finite fy0)
  have hinf : (Fl.sub y1 y0).isInf = true := by
    generalize Fl.sub y1 y0 = w at hdy ndy
    cases w <;> simp_all [isFinite, isInf]
  -- the scalar result
  have hsc : interpolateLinearScalar dbg xs ys x1 = .ok (Fl.sub y1 y0) := by
    rw [scalar_right dbg xs ys hs hlen j x0 x1 y0 y1 h0 h1 k0 k1]
    unfold lerpPoint
    rw [Fl.div_self fw pw, one]
    congr 1
    exact one_inf hinf fy0
  obtain ⟨pos, hpos, hplo, hphi, -⟩ := C51_lower_bound dbg false xs (Intervals.StrictR.sorted hs) (.ident false id ⟨x0, x1⟩) ⟨x0, x1⟩ rfl hle
  obtain ⟨r0, hr0, hr0'⟩ := lowerBound_at hs h0
  obtain ⟨r1, hr1, hr1'⟩ := lowerBound_at hs h1
  rw [hr0] at hplo; cases hplo
  rw [hr1] at hphi; cases hphi
  have hn : 2 ≤ xs.length := by omega
  obtain ⟨z0, hz0⟩ : ∃ v, ys[0]? = some v := ⟨_, List.getElem?_eq_getElem (by omega)⟩
  obtain ⟨zn, hzn⟩ : ∃ v, ys[xs.length - 1]? = some v := ⟨_, List.getElem?_eq_getElem (by omega)⟩
  have hrun := interpolateLinear_run dbg xs ys id idi ⟨x0, x1⟩ hn hlen h63 pos hpos (by omega) z0 zn (rangeAt_nat hz0 (by omega)) (rangeAt_nat hzn (by omega))
  have j0 := Is.of_finite fy0
  -- a result that is not infinite in the direction of the overflow
  have fin : ∀ R : Ivl (Fl K), (Fl.sub y1 y0 = .pinf → R.hi ≠ .pinf) → (Fl.sub y1 y0 = .ninf → R.lo ≠ .ninf) → ¬ Fl.sub y1 y0 ∈ᵢ R := by
    intro R g1 g2 hm
    generalize Fl.sub y1 y0 = w at hinf g1 g2 hm
    cases w <;> simp [isInf] at hinf
    · exact g2 rfl (le_ninf hm.1)
    · exact g1 rfl (pinf_le hm.2)
  have bn := body_nan dbg xs ys id j x0 x1 y0 y1 h0 h1 k0 k1 fx0 fx1 hlt fw pw hinf ⟨(j : Int) + 1, by omega, by omega⟩ rfl
  cases j with
  | zero =>
    rw [k0] at hz0; cases hz0
    have hY : ∃ R, Ivl.assignPartial Ivl.unassigned (Ivl.ofVal y0) = .ok R := by
      have : (Ivl.ofVal y0).assigned = true := Intervals.assigned_of_proper (X := .ivl (Ivl.ofVal y0)) (Fl.le_refl_of_ne (ne_nan_of_finite fy0))
      simp [Ivl.assignPartial, Ivl.assign, this, pure, Except.pure]
    obtain ⟨R, hR⟩ := hY
    refine ⟨R, ?_, _, hsc, ?_⟩
    · rw [hrun, hr0', hr1']
      simp only [Nat.cast_zero, if_true, hR, ok_bind]
      rw [if_neg (by omega), pure_bind, if_pos ⟨by omega, by omega⟩]
      rw [show (min ((xs.length : Int) - 1) ((0 + 1 : Nat) : Int) - max 1 (0 : Int)).toNat = 0 by omega, show max 1 (0 : Int) = ((0:Nat):Int) + 1 by omega]
      rw [ivlVals, dif_pos ⟨by omega, by omega⟩]
      simp only [List.foldlM_cons, List.foldlM_nil, bn, ok_bind]
      rfl
    · obtain ⟨o1, o2⟩ := assign_out hR
      refine fin R (fun _ h => ?_) (fun _ h => ?_)
      · rw [h] at o2
        rcases o2 with o | o
        · exact absurd o (by simp [Ivl.unassigned, CppLimits.bot])
        · simp only [Ivl.ofVal] at o; rw [← o] at fy0; simp [isFinite] at fy0
      · rw [h] at o1
        rcases o1 with o | o
        · exact absurd o (by simp [Ivl.unassigned, CppLimits.top])
        · simp only [Ivl.ofVal] at o; rw [← o] at fy0; simp [isFinite] at fy0
  | succ i =>
    obtain ⟨a0, ha0⟩ : ∃ v, xs[i]? = some v := ⟨_, List.getElem?_eq_getElem (by omega)⟩
    obtain ⟨c0, hc0⟩ : ∃ v, ys[i]? = some v := ⟨_, List.getElem?_eq_getElem (by omega)⟩
    obtain ⟨fw', pw'⟩ := hw i a0 x0 ha0 h0
    have fc0 := fy c0 (List.mem_of_getElem? hc0)
    obtain ⟨Y, hY, pY, ⟨a, p, ia, hp, e1⟩, ⟨a', p', ia', hp', e2⟩⟩ := body_point one dbg xs ys id hs ⟨x0, x1⟩ hle pos hpos i (by omega) (by omega) a0 x0 c0 y0 ha0 h0 hc0 k0
      (fx a0 (List.mem_of_getElem? ha0)) fx0 fc0 fy0 fw' pw' rfl ⟨(i : Int) + 1, by omega, by omega⟩ rfl
    have has : Y.assigned = true := Intervals.assigned_of_proper (X := .ivl Y) pY
    obtain ⟨R, hR⟩ : ∃ R, Ivl.assignPartial Ivl.unassigned Y = .ok R := by
      simp [Ivl.assignPartial, Ivl.assign, has, pure, Except.pure]
    refine ⟨R, ?_, _, hsc, ?_⟩
    · rw [hrun, hr0', hr1']
      simp only [show ¬ ((i + 1 : Nat) : Int) = 0 by omega, show ¬ ((i + 1 + 1 : Nat) : Int) = (xs.length : Int) by omega, if_false, pure_bind]
      rw [if_pos ⟨by omega, by omega⟩]
      rw [show (min ((xs.length : Int) - 1) ((i + 1 + 1 : Nat) : Int) - max 1 ((i + 1 : Nat) : Int)).toNat = 1 by omega, show max 1 ((i + 1 : Nat) : Int) = (i : Int) + 1 by omega]
      rw [ivlVals, dif_pos ⟨by omega, by omega⟩, ivlVals, dif_pos ⟨by omega, by omega⟩]
      have bn' : ∀ r, lerpBody dbg xs ys id ⟨x0, x1⟩ ⟨(i : Int) + 1 + 1, by omega, by omega⟩ r = .ok r := fun r => bn r
      simp only [List.foldlM_cons, List.foldlM_nil, hY, hR, bn', ok_bind]
      rfl
    · obtain ⟨o1, o2⟩ := assign_out hR
      have rc := ry c0 (List.mem_of_getElem? hc0)
      have sg := sign_of_overflow (ry y1 (List.mem_of_getElem? k1)) fy0 fy1
      refine fin R (fun hd h => ?_) (fun hd h => ?_)
      · rw [h] at o2
        rcases o2 with o | o
        · exact absurd o (by simp [Ivl.unassigned, CppLimits.bot])
        · exact (point_safe rc fc0 fy0 ia' hp').2 (sg.1 hd) (e2.symm.trans o.symm)
      · rw [h] at o1
        rcases o1 with o | o
        · exact absurd o (by simp [Ivl.unassigned, CppLimits.top])
        · exact (point_safe rc fc0 fy0 ia hp).1 (sg.2 hd) (e1.symm.trans o.symm)

/-- C55 for the table: for every interval, the interval version succeeds and contains the scalar result of every point. -/
def C55_holds (xs ys : List (Fl K)) : Prop :=
  ∀ (dbg : Bool) (id idi : Nat) (x : Ivl (Fl K)), Proper x →
    ∃ R, interpolateLinear dbg xs ys id idi x = .ok R ∧ ∀ v, v ∈ᵢ x → ∃ y, interpolateLinearScalar dbg xs ys v = .ok y ∧ y ∈ᵢ R

/-- C55 in every format with a finite 1: it holds for a strictly increasing table of numbers if and only if no difference overflows and no
width underflows to zero. -/
theorem C55_iff (one : (Fmt.rnd (1 : K) : Fl K) = .num 1) (xs ys : List (Fl K)) (hn : 2 ≤ xs.length)
    (hlen : ys.length = xs.length) (h63 : (xs.length : Int) < 2^63) (hs : StrictR xs) (fx : ∀ v ∈ xs, v.isFinite = true)
    (fy : ∀ v ∈ ys, v.isFinite = true) (ry : ∀ v ∈ ys, Representable v) :
    C55_holds xs ys ↔ ∀ (j : Nat) (x0 x1 y0 y1 : Fl K), xs[j]? = some x0 → xs[j + 1]? = some x1 → ys[j]? = some y0 → ys[j + 1]? = some y1 →
      (Fl.sub x1 x0).isFinite = true ∧ lt (.num 0) (Fl.sub x1 x0) = true ∧ (Fl.sub y1 y0).isFinite = true := by
  constructor
  · intro h
    have nan : ∀ (j : Nat) (x0 x1 : Fl K), xs[j]? = some x0 → xs[j + 1]? = some x1 → Fl.div (Fl.sub x1 x0) (Fl.sub x1 x0) ≠ .nan := by
      intro j x0 x1 h0 h1 hd
      obtain ⟨b1, -⟩ := List.getElem?_eq_some_iff.mp h1
      obtain ⟨y0, k0⟩ : ∃ v, ys[j]? = some v := ⟨_, List.getElem?_eq_getElem (by omega)⟩
      obtain ⟨y1, k1⟩ : ∃ v, ys[j + 1]? = some v := ⟨_, List.getElem?_eq_getElem (by omega)⟩
      have n1 : NotNan x1 := hs.2 x1 (List.mem_of_getElem? h1)
      obtain ⟨R, -, hR⟩ := h true 0 1 ⟨x1, x1⟩ n1
      obtain ⟨y, e, hy⟩ := hR x1 ⟨n1, n1⟩
      rw [scalar_right true xs ys hs hlen j x0 x1 y0 y1 h0 h1 k0 k1] at e
      unfold lerpPoint at e
      rw [hd] at e
      have e2 : ∀ b : Fl K, Fl.mul .nan b = .nan := fun b => by cases b <;> rfl
      have e3 : ∀ b : Fl K, Fl.add b .nan = .nan := fun b => by cases b <;> rfl
      rw [e2, e3] at e
      cases e
      exact ne_nan_of_le_right hy.1 rfl
    have hw : ∀ (j : Nat) (x0 x1 : Fl K), xs[j]? = some x0 → xs[j + 1]? = some x1 → (Fl.sub x1 x0).isFinite = true ∧ lt (.num 0) (Fl.sub x1 x0) = true := by
      intro j x0 x1 h0 h1
      have hd := nan j x0 x1 h0 h1
      have i0 := Is.of_finite (fx x0 (List.mem_of_getElem? h0)); have i1 := Is.of_finite (fx x1 (List.mem_of_getElem? h1))
      have hlt : lt x0 x1 = true := by
        obtain ⟨b0, rfl⟩ := List.getElem?_eq_some_iff.mp h0
        obtain ⟨b1, rfl⟩ := List.getElem?_eq_some_iff.mp h1
        exact List.pairwise_iff_getElem.mp hs.1 j (j + 1) b0 b1 (by omega)
      have hlt' := (i0.lt_iff i1).mp hlt
      have hp : le (.num 0) (Fl.sub x1 x0) = true := by
        rw [le_ext rfl (ext_sub i1 i0), ← Fmt.rnd_zero]; exact Fmt.rnd_mono _ _ (by linarith)
      generalize Fl.sub x1 x0 = w at hd hp
      have fw : w.isFinite = true := by
        cases w with
        | num | nzero => rfl
        | pinf => exact absurd rfl hd
        | ninf => exact absurd rfl hd
        | nan => exact absurd rfl hd
      have iw := Is.of_finite fw
      have := ((Is.num 0).le_iff iw).mp hp
      refine ⟨fw, ((Is.num 0).lt_iff iw).mpr (lt_of_le_of_ne this fun e => hd ?_)⟩
      obtain ⟨f1, f2, f3⟩ := finite_flags fw
      simp [Fl.div, f1, f2, f3.mpr e.symm]
    intro j x0 x1 y0 y1 h0 h1 k0 k1
    refine ⟨(hw j x0 x1 h0 h1).1, (hw j x0 x1 h0 h1).2, ?_⟩
    by_contra hc
    obtain ⟨R, e, y, ey, hy⟩ := C55_height_fails one true xs ys 0 1 hlen h63 hs fx fy ry hw j x0 x1 y0 y1 h0 h1 k0 k1 (by simpa using hc)
    have i0 := Is.of_finite (fx x0 (List.mem_of_getElem? h0)); have i1 := Is.of_finite (fx x1 (List.mem_of_getElem? h1))
    have hle : le x0 x1 = true := by
      obtain ⟨b0, rfl⟩ := List.getElem?_eq_some_iff.mp h0
      obtain ⟨b1, rfl⟩ := List.getElem?_eq_some_iff.mp h1
      have := List.pairwise_iff_getElem.mp hs.1 j (j + 1) b0 b1 (by omega)
      exact (i0.le_iff i1).mpr ((i0.lt_iff i1).mp this).le
    obtain ⟨R', e', hR'⟩ := h true 0 1 ⟨x0, x1⟩ hle
    rw [e] at e'; cases e'
    obtain ⟨y', ey', hy'⟩ := hR' x1 ⟨hle, CppOrder.le_right _ _ hle⟩
    rw [ey] at ey'; cases ey'
    exact hy hy'
  · intro h dbg id idi x hx
    refine C55_rounded_partial dbg xs ys id idi x hx hn hlen h63 (Intervals.StrictR.sorted hs)
      (fun y hy => ne_nan_of_finite (fy y hy)) ?_
    intro j x0 x1 y0 y1 h0 h1 k0 k1
    obtain ⟨a1, a2, a3⟩ := h j x0 x1 y0 y1 h0 h1 k0 k1
    exact ⟨fx x0 (List.mem_of_getElem? h0), fx x1 (List.mem_of_getElem? h1), fy y0 (List.mem_of_getElem? k0), a1, a2, a3, by rw [one]; rfl⟩

/-! Non-vacuity: in `double`, a table that overflows in the second cell and one that does not. -/
example : let := binary64Fmt
    let M : ℚ := (2^53 - 1) * 2^971
    (Fmt.rnd (1 : ℚ) : Fl ℚ) = .num 1 ∧ StrictR ([.num (-1), .nzero, .num 3] : List (Fl ℚ)) ∧
      (∀ v ∈ ([.num 5, .num (-M), .num M] : List (Fl ℚ)), v.isFinite = true ∧ Representable v) ∧
      (Fl.sub (.num M : Fl ℚ) (.num (-M))).isFinite = false ∧
      ∀ dbg, interpolateLinear dbg [.num (-1), .nzero, .num 3] [.num 5, .num (-M), .num M] 0 1 ⟨.nzero, .num 3⟩ = .ok ⟨.num (-M), .num (-M)⟩ ∧
        interpolateLinearScalar dbg [.num (-1), .nzero, .num 3] [.num 5, .num (-M), .num M] (.num 3) = .ok .pinf := by
  refine ⟨by decide +kernel, by unfold StrictR NotNan; decide +kernel, by decide +kernel, by decide +kernel, by decide +kernel⟩
example : let := binary64Fmt
    (Fl.sub (.num 3 : Fl ℚ) .nzero).isFinite = true ∧ lt (.num 0) (Fl.sub (.num 3 : Fl ℚ) .nzero) = true ∧ (Fl.sub (.num 7 : Fl ℚ) (.num (-2))).isFinite = true := by
  decide +kernel
end Intervals.Props
