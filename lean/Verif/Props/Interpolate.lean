import Verif.Lemmas.Interpolate
import Verif.Lemmas.Exact
import Verif.Lemmas.BinFmt
import Verif.Lemmas.IntArith
import Verif.Props.Enumerate
import Mathlib.Data.Rat.Floor
/-!
# C55, C56: the interpolation examples
-/
set_option linter.unusedSectionVars false
namespace Intervals.Props
open Intervals CppVal Spec

section
variable {T : Type _} [CppVal T] [CppOrder T] [CppLimits T] [CppLawfulLimits T]
/-- `assign_partial` only enlarges the interval -/
theorem assign_grow {r X : Ivl T} (h1 : NotNan r.lo) (h2 : NotNan r.hi) (hX : Proper X) :
    ∃ r', Ivl.assignPartial r X = .ok r' ∧ NotNan r'.lo ∧ NotNan r'.hi ∧ (∀ v, v ∈ᵢ r → v ∈ᵢ r') ∧ (∀ v, v ∈ᵢ X → v ∈ᵢ r') := by
  have has : X.assigned = true := Intervals.assigned_of_proper (X := .ivl X) hX
  have nl : NotNan X.lo := CppOrder.le_left _ _ hX
  have nu : NotNan X.hi := CppOrder.le_right _ _ hX
  have a1 := cmin_le h1 nl; have a2 := le_cmax h2 nu
  refine ⟨Ivl.assignCore r X.lo X.hi, ?_, cmin_notNan h1 nl, cmax_notNan h2 nu, fun v hv => ?_, fun v hv => ?_⟩
  · simp [Ivl.assignPartial, Ivl.assign, has, pure, Except.pure]
  · exact ⟨CppOrder.le_trans _ _ _ a1.1 hv.1, CppOrder.le_trans _ _ _ hv.2 a2.1⟩
  · exact ⟨CppOrder.le_trans _ _ _ a1.2 hv.1, CppOrder.le_trans _ _ _ hv.2 a2.2⟩

/-- so does a loop of assignments -/
theorem fold_grow {J : Type _} (body : J → Ivl T → Outcome (Ivl T)) (S : J → T → Prop) (js : List J)
    (hs : ∀ j ∈ js, ∃ Y, Proper Y ∧ (∀ v, S j v → v ∈ᵢ Y) ∧ ∀ r, body j r = Ivl.assignPartial r Y) :
    ∀ r : Ivl T, NotNan r.lo → NotNan r.hi → ∃ r', js.foldlM (fun s j => body j s) r = .ok r' ∧ NotNan r'.lo ∧ NotNan r'.hi ∧
      (∀ v, v ∈ᵢ r → v ∈ᵢ r') ∧ ∀ j ∈ js, ∀ v, S j v → v ∈ᵢ r' := by
  induction js with
  | nil => intro r h1 h2; exact ⟨r, rfl, h1, h2, fun v hv => hv, by simp⟩
  | cons j js ih =>
    intro r h1 h2
    obtain ⟨Y, hY, hS, hb⟩ := hs j (by simp)
    obtain ⟨r1, e1, n1, n2, g1, g2⟩ := assign_grow h1 h2 hY
    obtain ⟨r2, e2, m1, m2, g3, g4⟩ := ih (fun k hk => hs k (by simp [hk])) r1 n1 n2
    refine ⟨r2, by simp only [List.foldlM_cons, hb, e1, ok_bind, e2], m1, m2, fun v hv => g3 v (g1 v hv), ?_⟩
    intro k hk v hv
    rcases List.mem_cons.mp hk with rfl | hk
    · exact g3 v (g2 v (hS v hv))
    · exact g4 k hk v hv
end

private theorem le_of_lt' {T : Type _} [CppVal T] [CppOrder T] {a b : T} (h : lt a b = true) : le a b = true := by grind
private theorem lt_mono' {T : Type _} [CppVal T] [CppOrder T] {a l u : T} (h : lt a l = true) (h' : le l u = true) : lt a u = true := by grind

private theorem le_of_not_lt' {T : Type _} [CppVal T] [CppOrder T] {a b : T} (h : ¬ lt a b = true) (ha : NotNan a) (hb : NotNan b) : le b a = true := by
  unfold NotNan at *; grind
private theorem not_lt_of_le' {T : Type _} [CppVal T] [CppOrder T] {a b : T} (h : le a b = true) : ¬ lt b a = true := by grind

variable {K : Type} [Field K] [LinearOrder K] [IsStrictOrderedRing K] [Fmt K]

private theorem rangeAt_some {V : Type _} {a : List V} {i : Int} {v : V} (h0 : 0 ≤ i) (h : a[i.toNat]? = some v) : rangeAt a i = .ok v := by
  unfold rangeAt; rw [if_neg (by omega), h]
private theorem get_lt {V : Type _} {a : List V} {i : Int} (h0 : 0 ≤ i) (h1 : i < a.length) : ∃ v, a[i.toNat]? = some v :=
  ⟨_, List.getElem?_eq_getElem (by omega)⟩

/-- C55 for every floating-point format: the result of the interval version contains the scalar result of every point.  Full statement:
without `TableOk`, for strictly sorted tables of numbers; it is false in `double` if the width of a cell overflows (`C55_violated_double`).  In
exact arithmetic the condition always holds (`C55_exact`). -/
theorem C55_rounded_partial (dbg : Bool) (xs ys : List (Fl K)) (id idi : Nat) (x : Ivl (Fl K)) (hx : Proper x) (hn : 2 ≤ xs.length)
    (hlen : ys.length = xs.length) (h63 : (xs.length : Int) < 2^63) (hs : SortedR xs) (hy : ∀ y ∈ ys, y ≠ .nan) (ht : TableOk xs ys) :
    ∃ R, interpolateLinear dbg xs ys id idi x = .ok R ∧ ∀ v, v ∈ᵢ x → ∃ y, interpolateLinearScalar dbg xs ys v = .ok y ∧ y ∈ᵢ R := by
  obtain ⟨pos, hpos, hplo, hphi, hpmem⟩ := C51_lower_bound dbg false xs hs (.ident false id x) x rfl hx
  have p0 := pos.lo.ge; have p1 := pos.hi.le; have p2 := pos.lo.le; have p3 := pos.hi.ge
  have ppos : pos.lo.val ≤ pos.hi.val := by
    obtain ⟨r, hr, hr'⟩ := hpmem x.lo ⟨CppOrder.le_left _ _ hx, hx⟩
    have h1 := bint_le.mp hr'.1; have h2 := bint_le.mp hr'.2; omega
  -- the interval of positions
  obtain ⟨i, hi, hil, hih⟩ : ∃ i : Ivl Index, iterDiffI 63 dbg (.ivl pos) (.scalar ⟨0, by omega, by omega⟩) = .ok i ∧ i.lo.val = pos.lo.val ∧ i.hi.val = pos.hi.val := by
    have has : pos.assigned = true := by simp [Ivl.assigned, gt, lt]; omega
    have d1 : Iter.diff 63 pos.lo (⟨0, by omega, by omega⟩ : Iter xs.length) = .ok ⟨pos.lo.val - 0, by omega, by omega⟩ := by
      unfold Iter.diff SInt.of BInt.ofInt; rw [dif_pos ⟨by simp only; omega, by simp only; omega⟩]
    have d2 : Iter.diff 63 pos.hi (⟨0, by omega, by omega⟩ : Iter xs.length) = .ok ⟨pos.hi.val - 0, by omega, by omega⟩ := by
      unfold Iter.diff SInt.of BInt.ofInt; rw [dif_pos ⟨by simp only; omega, by simp only; omega⟩]
    refine ⟨⟨⟨pos.lo.val - 0, by omega, by omega⟩, ⟨pos.hi.val - 0, by omega, by omega⟩⟩, ?_, by simp, by simp⟩
    simp only [iterDiffI, Arg.assigned, has, Bool.and_self, expectsDebug_true, ok_bind, Arg.lo, Arg.hi, d1, d2]
    exact make_of_le (bint_le.mpr (by simp only; omega))
  have hz : SInt.of 63 0 = .ok ⟨0, by decide, by decide⟩ := rfl
  have hnn : SInt.of 63 (xs.length : Int) = .ok ⟨xs.length, by omega, by omega⟩ := by
    unfold SInt.of BInt.ofInt; rw [dif_pos ⟨by omega, by omega⟩]
  have hb : BInt.ofInt 0 (xs.length : Int) 0 = .ok (⟨0, by omega, by omega⟩ : Iter xs.length) := by
    unfold BInt.ofInt; rw [dif_pos ⟨by omega, by omega⟩]
  obtain ⟨below, above, nb, na, c1, c2, c3, c4, k1, k2, k3, k4⟩ := middle_cond dbg idi i ⟨0, by decide, by decide⟩ ⟨xs.length, by omega, by omega⟩ rfl
    (by simp only; omega) (by omega) (by omega) (by simp only; omega)
  simp only at k1 k2 k3 k4
  obtain ⟨y0, hy0⟩ := get_lt (a := ys) (i := 0) (by omega) (by omega)
  obtain ⟨yn, hyn⟩ := get_lt (a := ys) (i := (xs.length : Int) - 1) (by omega) (by omega)
  have ny0 : NotNan y0 := Fl.le_refl_of_ne (hy _ (List.mem_of_getElem? hy0))
  have nyn : NotNan yn := Fl.le_refl_of_ne (hy _ (List.mem_of_getElem? hyn))
  -- first part
  obtain ⟨r1, e1, n1, n1', g1⟩ : ∃ r1 : Ivl (Fl K), (if BoolSet.possibly below.truth then (do Ivl.assignPartial Ivl.unassigned (Ivl.ofVal (← rangeAt ys 0))) else pure Ivl.unassigned) = .ok r1 ∧
      NotNan r1.lo ∧ NotNan r1.hi ∧ (i.lo.val = 0 → y0 ∈ᵢ r1) := by
    by_cases h : i.lo.val = 0
    · rw [if_pos (k1.mpr h), rangeAt_some (by omega) hy0, ok_bind]
      obtain ⟨r1, e1, n1, n2, _, g2⟩ := assign_grow (r := (Ivl.unassigned : Ivl (Fl K))) notNan_top notNan_bot (X := Ivl.ofVal y0) ny0
      exact ⟨r1, e1, n1, n2, fun _ => g2 y0 ⟨ny0, ny0⟩⟩
    · rw [if_neg (fun h' => h (k1.mp h'))]
      exact ⟨_, rfl, notNan_top, notNan_bot, fun h' => absurd h' h⟩
  obtain ⟨r2, e2, n2, n2', g2, g2'⟩ : ∃ r2 : Ivl (Fl K), (if BoolSet.possibly above.truth then (do Ivl.assignPartial r1 (Ivl.ofVal (← rangeAt ys ((xs.length : Int) - 1)))) else pure r1) = .ok r2 ∧
      NotNan r2.lo ∧ NotNan r2.hi ∧ (∀ v, v ∈ᵢ r1 → v ∈ᵢ r2) ∧ (i.hi.val = xs.length → yn ∈ᵢ r2) := by
    by_cases h : i.hi.val = xs.length
    · rw [if_pos (k2.mpr h), rangeAt_some (by omega) hyn, ok_bind]
      obtain ⟨r2, e1, n1, n2, g1, g2⟩ := assign_grow n1 n1' (X := Ivl.ofVal yn) nyn
      exact ⟨r2, e1, n1, n2, g1, fun _ => g2 yn ⟨nyn, nyn⟩⟩
    · rw [if_neg (fun h' => h (k2.mp h'))]
      exact ⟨_, rfl, n1, n1', fun v hv => hv, fun h' => absurd h' h⟩
  -- third part
  obtain ⟨r3, e3, g3, g3'⟩ : ∃ r3, lerpMiddle dbg xs ys id idi x i (Cond.mkAnd nb na) r2 = .ok r3 ∧ (∀ v, v ∈ᵢ r2 → v ∈ᵢ r3) ∧
      ∀ (j : Int), i.lo.val ≤ j → j ≤ i.hi.val → 0 < j → j < xs.length → ∀ v, v ∈ᵢ x → ∀ r : Iter xs.length, lowerBoundS xs v = .ok r → r.val = j →
        ∀ x0 x1 y0 y1, xs[(j-1).toNat]? = some x0 → xs[j.toNat]? = some x1 → ys[(j-1).toNat]? = some y0 → ys[j.toNat]? = some y1 →
          lerpPoint x0 x1 y0 y1 v ∈ᵢ r3 := by
    unfold lerpMiddle
    by_cases h : 0 < i.hi.val ∧ i.lo.val < xs.length
    · rw [if_pos (k3.mpr h)]
      obtain ⟨ic, q1, q2, q3⟩ := k4 h.1 h.2
      have has : ic.assigned = true := by simp only [Ivl.assigned, gt, lt]; simp; omega
      have hit : enumerateI ic = .ok ⟨ic.lo, ic.hi, false⟩ := by simp [enumerateI, has, pure, Except.pure]
      rw [q1, ok_bind, hit, ok_bind]
      have hbody : ∀ j ∈ ivlVals (-(2:Int)^63) (2^63 - 1) (ic.hi.val - ic.lo.val).toNat ic.lo.val, ∃ Y, Proper Y ∧
          (∀ w, (∃ v, v ∈ᵢ x ∧ (∃ r : Iter xs.length, lowerBoundS xs v = .ok r ∧ r.val = j.val) ∧
            ∃ x0 x1 y0 y1, xs[(j.val-1).toNat]? = some x0 ∧ xs[j.val.toNat]? = some x1 ∧ ys[(j.val-1).toNat]? = some y0 ∧ ys[j.val.toNat]? = some y1 ∧
              w = lerpPoint x0 x1 y0 y1 v) → w ∈ᵢ Y) ∧ ∀ r, lerpBody dbg xs ys id x j r = Ivl.assignPartial r Y := by
        intro j hj
        rw [mem_ivlVals ic.lo.ge (by have := ic.hi.le; omega)] at hj
        obtain ⟨a0, ha0⟩ := get_lt (a := xs) (i := j.val - 1) (by omega) (by omega)
        obtain ⟨a1, ha1⟩ := get_lt (a := xs) (i := j.val) (by omega) (by omega)
        obtain ⟨b0, hb0⟩ := get_lt (a := ys) (i := j.val - 1) (by omega) (by omega)
        obtain ⟨b1, hb1⟩ := get_lt (a := ys) (i := j.val) (by omega) (by omega)
        have hcell : CellOk a0 a1 b0 b1 := ht (j.val - 1).toNat a0 a1 b0 b1 ha0 (by rw [show (j.val - 1).toNat + 1 = j.val.toNat by omega]; exact ha1) hb0
          (by rw [show (j.val - 1).toNat + 1 = j.val.toNat by omega]; exact hb1)
        obtain ⟨xc, hxc⟩ := C52_positions_partial .lower dbg false id (by simp) xs hs x hx pos hpos (.scalar j) (by simp only [Arg.lo]; omega)
          (by simp only [Arg.hi]; omega) (by simp [Arg.lo, Arg.hi]) (by simp)
        obtain ⟨w1, _, _, w2, w3⟩ := C52_within .lower dbg false id (by simp) xs hs x hx (.scalar j) (by simp only [Arg.lo]; omega)
          (by simp only [Arg.hi]; omega) (by simp [Arg.lo, Arg.hi]) xc hxc
        obtain ⟨d, q, p, r, f1, f2, f3, f4, f5, f6⟩ := lerp_encl dbg hcell xc w1 (w2 a0 (by simp only [Arg.lo]; omega) ha0) (w3 a1 ha1)
        refine ⟨r, f5, ?_, ?_⟩
        · rintro w ⟨v, hv, ⟨rr, hrr, hrv⟩, a0', a1', b0', b1', u1, u2, u3, u4, rfl⟩
          rw [ha0] at u1; rw [ha1] at u2; rw [hb0] at u3; rw [hb1] at u4
          cases u1; cases u2; cases u3; cases u4
          exact f6 v (C52_keeps .lower dbg false id (by simp) xs hs x hx (.scalar j) (by simp only [Arg.lo]; omega)
            (by simp only [Arg.hi]; omega) (by simp [Arg.lo, Arg.hi]) xc hxc v hv rr hrr (by simp only [Arg.lo, Arg.hi]; omega))
        · intro rr
          unfold lerpBody
          rw [rangeAt_some (by omega) ha0, rangeAt_some (by omega) ha1, rangeAt_some (by omega) hb0, rangeAt_some (by omega) hb1]
          simp only [ok_bind]
          rw [show constrainAt dbg false id x xs (lowerPredI dbg false (.ident false id x)) (.scalar j) = .ok xc from hxc]
          simp only [ok_bind, f1, f2, f3, f4]
      obtain ⟨r3, e3, _, _, g3, g4⟩ := fold_grow _ _ _ hbody r2 n2 n2'
      refine ⟨r3, ?_, g3, ?_⟩
      · rw [forEach_interval _ (ic.hi.val - ic.lo.val).toNat ic.lo ic.hi r2 (by omega)]; exact e3
      · intro j j1 j2 j3 j4 v hv r hr hrj x0 x1 y0 y1 u1 u2 u3 u4
        refine g4 ⟨j, by omega, by omega⟩ ?_ _ ⟨v, hv, ⟨r, hr, hrj⟩, x0, x1, y0, y1, u1, u2, u3, u4, rfl⟩
        rw [mem_ivlVals ic.lo.ge (by have := ic.hi.le; omega)]
        simp only
        omega
    · rw [if_neg (fun h' => h (k3.mp h'))]
      exact ⟨r2, rfl, fun v hv => hv, fun j j1 j2 j3 j4 => absurd ⟨by omega, by omega⟩ h⟩
  refine ⟨r3, ?_, ?_⟩
  · unfold interpolateLinear
    simp only [hn, hlen, decide_true, expects_true, expectsDebug_true, ok_bind, hz, hnn, hb, hpos, hi, c1, c2, c3, c4]
    by_cases p1 : BoolSet.possibly below.truth = true <;> by_cases p2 : BoolSet.possibly above.truth = true <;>
      simp only [p1, p2, if_true, if_false, Bool.false_eq_true] at e1 e2 ⊢ <;>
      simp only [← bind_assoc, e1, e2, ok_bind, e3]
  · intro v hv
    obtain ⟨r, hr, hr'⟩ := hpmem v hv
    have q1 := bint_le.mp hr'.1; have q2 := bint_le.mp hr'.2
    have q3 := r.ge; have q4 := r.le
    unfold interpolateLinearScalar
    simp only [hn, hlen, decide_true, expects_true, expectsDebug_true, ok_bind, hr]
    by_cases z1 : r.val = 0
    · rw [if_pos z1]
      exact ⟨y0, rangeAt_some (by omega) hy0, g3 _ (g2 _ (g1 (by omega)))⟩
    · rw [if_neg z1]
      by_cases z2 : r.val = xs.length
      · rw [if_pos z2]
        exact ⟨yn, rangeAt_some (by omega) hyn, g3 _ (g2' (by omega))⟩
      · rw [if_neg z2]
        obtain ⟨a0, ha0⟩ := get_lt (a := xs) (i := r.val - 1) (by omega) (by omega)
        obtain ⟨a1, ha1⟩ := get_lt (a := xs) (i := r.val) (by omega) (by omega)
        obtain ⟨b0, hb0⟩ := get_lt (a := ys) (i := r.val - 1) (by omega) (by omega)
        obtain ⟨b1, hb1⟩ := get_lt (a := ys) (i := r.val) (by omega) (by omega)
        rw [rangeAt_some (by omega) ha0, rangeAt_some (by omega) ha1, rangeAt_some (by omega) hb0, rangeAt_some (by omega) hb1]
        exact ⟨_, rfl, g3' r.val (by omega) (by omega) (by omega) (by omega) v hv r hr rfl a0 a1 b0 b1 ha0 ha1 hb0 hb1⟩

/-- C55 in exact arithmetic: for every strictly increasing table of numbers, the interval version does not fail, and its result contains the scalar
result of every point of the interval. -/
theorem C55_exact (dbg : Bool) (xs ys : List (Fl K)) (id idi : Nat) (x : Ivl (Fl K)) (hx : Proper x) (hn : 2 ≤ xs.length)
    (hlen : ys.length = xs.length) (h63 : (xs.length : Int) < 2^63) (hs : StrictR xs) (fx : ∀ v ∈ xs, v.isFinite = true)
    (fy : ∀ v ∈ ys, v.isFinite = true) :
    letI := exactFmt K
    ∃ R, interpolateLinear dbg xs ys id idi x = .ok R ∧ ∀ v, v ∈ᵢ x → ∃ y, interpolateLinearScalar dbg xs ys v = .ok y ∧ y ∈ᵢ R := by
  letI := exactFmt K
  refine C55_rounded_partial dbg xs ys id idi x hx hn hlen h63 ⟨hs.1.imp le_of_lt', hs.2⟩
    (fun y hy => Fl.ne_nan_of_finite (fy y hy)) ?_
  intro j x0 x1 y0 y1 h0 h1 k0 k1
  have f0 := Fl.Is.of_finite (fx x0 (List.mem_of_getElem? h0))
  have f1 := Fl.Is.of_finite (fx x1 (List.mem_of_getElem? h1))
  have g0 := Fl.Is.of_finite (fy y0 (List.mem_of_getElem? k0))
  have g1 := Fl.Is.of_finite (fy y1 (List.mem_of_getElem? k1))
  have hlt : lt x0 x1 = true := by
    obtain ⟨b0, rfl⟩ := List.getElem?_eq_some_iff.mp h0
    obtain ⟨b1, rfl⟩ := List.getElem?_eq_some_iff.mp h1
    exact List.pairwise_iff_getElem.mp hs.1 j (j + 1) b0 b1 (by omega)
  have hlt' := (f0.lt_iff f1).mp hlt
  exact ⟨f0.1, f1.1, g0.1, (f1.sub f0).1, ((Fl.Is.num 0).lt_iff (f1.sub f0)).mpr (by linarith), (g1.sub g0).1, rfl⟩

/-- In `double` C55 is false without conditions on the table: with `xs = {-M, M}`, `M` the largest number, `x1 - x0` overflows; at `x = M` the
scalar function computes `∞/∞ = NaN`, which is in no interval. -/
theorem C55_violated_double : ∃ (xs ys : List (Fl ℚ)) (x : Ivl (Fl ℚ)) (v : Fl ℚ), StrictR xs ∧ 2 ≤ xs.length ∧ ys.length = xs.length ∧
    (∀ a ∈ xs, a.isFinite = true) ∧ (∀ a ∈ ys, a.isFinite = true) ∧ Proper x ∧ v ∈ᵢ x ∧
    (let := binary64Fmt; (∀ a ∈ xs, Fl.Representable a) ∧ (∀ a ∈ ys, Fl.Representable a) ∧
      ∀ dbg, interpolateLinearScalar dbg xs ys v = .ok .nan) :=
  ⟨[.num (-((2^53 - 1) * 2^971)), .num ((2^53 - 1) * 2^971)], [.num 0, .num 1], ⟨.num 0, .num ((2^53 - 1) * 2^971)⟩, .num ((2^53 - 1) * 2^971),
    by unfold StrictR NotNan; decide +kernel, by decide, by decide, by decide +kernel, by decide +kernel, by decide +kernel,
    by unfold Pt; decide +kernel, by decide +kernel, by decide +kernel, by decide +kernel⟩

/-- The conditions on the abscissae in `C55_rounded_partial` are necessary, in every format: if the width of a cell overflows, the scalar result
at its right end is NaN, which no interval contains. -/
theorem C55_width_violated (dbg : Bool) (xs ys : List (Fl K)) (hs : StrictR xs) (hlen : ys.length = xs.length) (j : Nat) (x0 x1 : Fl K)
    (h0 : xs[j]? = some x0) (h1 : xs[j + 1]? = some x1) (hw : Fl.sub x1 x0 = .pinf) :
    interpolateLinearScalar dbg xs ys x1 = .ok .nan := by
  obtain ⟨b1, e1⟩ := List.getElem?_eq_some_iff.mp h1
  have n1 : NotNan x1 := hs.2 x1 (List.mem_of_getElem? h1)
  have hsort : SortedR xs := Intervals.StrictR.sorted hs
  obtain ⟨⟨r, hr, hr1, hr2⟩, _⟩ := C51_scalar xs hsort x1 n1
  have r0 := r.ge; have r1 := r.le
  have hrj : r.val = (j : Int) + 1 := by
    have a1 : j < r.val.toNat := (hr2 j x0 h0).mp (by
      obtain ⟨b0, rfl⟩ := List.getElem?_eq_some_iff.mp h0
      subst e1
      exact List.pairwise_iff_getElem.mp hs.1 j (j + 1) b0 b1 (by omega))
    have a2 : ¬ (j + 1 < r.val.toNat) := fun h => by
      have := (hr2 (j + 1) x1 h1).mpr h
      rw [CppOrder.lt_iff] at this
      simp_all
    omega
  obtain ⟨y0, k0⟩ : ∃ v, ys[j]? = some v := ⟨_, List.getElem?_eq_getElem (by omega)⟩
  obtain ⟨y1, k1⟩ : ∃ v, ys[j + 1]? = some v := ⟨_, List.getElem?_eq_getElem (by omega)⟩
  unfold interpolateLinearScalar
  simp only [show 2 ≤ xs.length by omega, hlen, decide_true, expects_true, expectsDebug_true, ok_bind, hr, hrj]
  rw [if_neg (by omega), if_neg (by omega), rangeAt_some (by omega) (v := x0) (by rw [show ((j : Int) + 1 - 1).toNat = j by omega]; exact h0),
    rangeAt_some (by omega) (v := x1) (by rw [show ((j : Int) + 1).toNat = j + 1 by omega]; exact h1),
    rangeAt_some (by omega) (v := y0) (by rw [show ((j : Int) + 1 - 1).toNat = j by omega]; exact k0),
    rangeAt_some (by omega) (v := y1) (by rw [show ((j : Int) + 1).toNat = j + 1 by omega]; exact k1)]
  simp only [ok_bind, lerpPoint, hw]
  have e : Fl.div (.pinf : Fl K) .pinf = .nan := rfl
  have e2 : ∀ b : Fl K, Fl.mul .nan b = .nan := fun b => by cases b <;> rfl
  have e3 : ∀ b : Fl K, Fl.add b .nan = .nan := fun b => by cases b <;> rfl
  rw [e, e2, e3]; rfl

/-- The condition on the ordinates cannot be dropped either: in `double`, with `ys = {-M, M}`, `y1 - y0` overflows.  On `[0, 1]` the product
`[0, 1]*∞` is the NaN interval, which `assign_partial` ignores; the result is `[-M, -M]`, but the scalar result at 1 is `∞`. -/
theorem C55_height_violated : (let := binary64Fmt;
    let M : ℚ := (2^53 - 1) * 2^971
    ∀ dbg, interpolateLinear dbg [.num 0, .num 1] [.num (-M), .num M] 0 1 ⟨.num 0, .num 1⟩ = .ok ⟨.num (-M), .num (-M)⟩ ∧
      interpolateLinearScalar dbg [.num 0, .num 1] [.num (-M), .num M] (.num 1) = .ok .pinf) := by decide +kernel

/-- C55 for scalars: called with a number, the interval-aware function is the scalar function. -/
theorem C55_generic_scalar (dbg : Bool) (xs ys : List (Fl K)) (v : Fl K) (hv : v ≠ .nan) (h63 : (xs.length : Int) < 2^63) (hs : SortedR xs) :
    interpolateLinearS dbg xs ys v = interpolateLinearScalar dbg xs ys v := by
  have nv : NotNan v := Fl.le_refl_of_ne hv
  have hnn : SInt.of 63 (xs.length : Int) = .ok ⟨xs.length, by omega, by omega⟩ := by
    unfold SInt.of BInt.ofInt; rw [dif_pos ⟨by omega, by omega⟩]
  have hb : BInt.ofInt 0 (xs.length : Int) 0 = .ok (⟨0, by omega, by omega⟩ : Iter xs.length) := by
    unfold BInt.ofInt; rw [dif_pos ⟨by omega, by omega⟩]
  obtain ⟨⟨r, hr, _⟩, _⟩ := C51_scalar xs hs v nv
  have r0 := r.ge; have r1 := r.le
  have hd : Iter.diff 63 r (⟨0, by omega, by omega⟩ : Iter xs.length) = .ok ⟨r.val - 0, by omega, by omega⟩ := by
    unfold Iter.diff SInt.of BInt.ofInt; rw [dif_pos ⟨by simp only; omega, by simp only; omega⟩]
  unfold interpolateLinearS interpolateLinearScalar
  by_cases hn : 2 ≤ xs.length
  swap
  · simp only [hn, decide_false]; rfl
  simp only [hn, decide_true, expects_true, ok_bind]
  congr 1
  funext _
  simp only [hnn, hb, hr, hd, ok_bind, Int.sub_zero]
  by_cases z1 : r.val = 0
  · have : ¬ ((0:Int) = xs.length) := by omega
    simp only [z1, decide_true, if_true, this, decide_false, Bool.false_eq_true, if_false, Bool.not_true, Bool.false_and]
    cases rangeAt ys 0 <;> rfl
  · by_cases z2 : r.val = xs.length
    · have z3 : ¬ ((xs.length : Int) = 0) := by omega
      simp only [z1, z2, decide_true, if_true, decide_false, Bool.false_eq_true, if_false, Bool.not_true, Bool.and_false, ok_bind, pure, Except.pure, z3]
      cases rangeAt ys ((xs.length : Int) - 1) <;> rfl
    · simp only [z1, z2, decide_true, if_true, decide_false, Bool.false_eq_true, if_false, Bool.not_false, Bool.and_true, ok_bind, pure, Except.pure, expects_true]
      have hc : constrainAtS dbg v xs (lowerPredS v) (.scalar (⟨r.val, by omega, by omega⟩ : Index)) = .ok v :=
        C52_scalar .lower dbg xs hs v nv r hr _ (by simp only [Arg.hi]; omega) (by simp only [Arg.lo]; omega) (by simp [Arg.lo, Arg.hi])
      rw [forEach_step _ _ (SingleIt.mk _ true) _ (⟨r.val, by omega, by omega⟩ : Index) rfl rfl rfl]
      simp only [hc]
      cases rangeAt xs (r.val - 1) <;> try rfl
      cases rangeAt xs r.val <;> try rfl
      cases rangeAt ys (r.val - 1) <;> try rfl
      cases rangeAt ys r.val <;> try rfl
      simp only [ok_bind]
      exact forEach_done _ _ _ rfl

/-! The example of the documentation: the table `1 ↦ 1, 2 ↦ 3, 4 ↦ 9, 8 ↦ -3`; `y([1.5, 5])` is `[2, 9]`. -/
example : (let := exactFmt ℚ; interpolateLinear (K := ℚ) true [.num 1, .num 2, .num 4, .num 8] [.num 1, .num 3, .num 9, .num (-3)] 0 1
    ⟨.num (3/2), .num 5⟩) = .ok ⟨.num 2, .num 9⟩ := by decide +kernel
example : StrictR ([.num 1, .num 2, .num 4, .num 8] : List (Fl ℚ)) := by unfold StrictR NotNan; decide +kernel
example : (let := exactFmt ℚ; interpolateLinearScalar (K := ℚ) true [.num 1, .num 2, .num 4, .num 8] [.num 1, .num 3, .num 9, .num (-3)] (.num 5)) =
    .ok (.num 6) := by decide +kernel

/-! ## C56 -/

private theorem count_read (c : Counter) : Counter.read c = .ok ⟨c.val, by have := c.ge; omega, by have := c.le; norm_num at this; omega⟩ := by
  have := c.ge; have := c.le
  unfold Counter.read SInt.of BInt.ofInt; rw [dif_pos ⟨by omega, by norm_num at *; omega⟩]

private theorem deref_count (last : Counter) (hl : last.val < 2^63 - 1) : ∀ (k : Nat) (pos : Counter) (acc : Ivl Index), pos.val + k = last.val →
    acc.hi.val ≤ last.val →
    ∃ R : Ivl Index, derefLoop Counter.read last pos acc = .ok R ∧ R.hi.val = last.val ∧ R.lo.val = min acc.lo.val pos.val := by
  intro k
  induction k with
  | zero =>
    intro pos acc hk ha
    have p0 := pos.ge
    have hof : BInt.ofInt 0 ((2^63 - 1 : Nat) : Int) (pos.val + 1) = .ok (⟨pos.val + 1, by omega, by norm_num; omega⟩ : Counter) := by
      unfold BInt.ofInt; rw [dif_pos ⟨by omega, by norm_num; omega⟩]
    rw [derefLoop, if_pos (by omega), count_read]
    simp only
    split
    · next e he => rw [hof] at he; cases he
    · next q hq =>
      rw [hof] at hq; cases hq
      rw [derefLoop, if_neg (by simp only; omega)]
      refine ⟨_, rfl, ?_, ?_⟩
      · simp only [Ivl.assignVal, Ivl.assignCore]; rw [sint_cmax]; simp only; omega
      · simp only [Ivl.assignVal, Ivl.assignCore]; rw [sint_cmin]
  | succ k ih =>
    intro pos acc hk ha
    have p0 := pos.ge
    have hof : BInt.ofInt 0 ((2^63 - 1 : Nat) : Int) (pos.val + 1) = .ok (⟨pos.val + 1, by omega, by norm_num; omega⟩ : Counter) := by
      unfold BInt.ofInt; rw [dif_pos ⟨by omega, by norm_num; omega⟩]
    rw [derefLoop, if_pos (by omega), count_read]
    simp only
    split
    · next e he => rw [hof] at he; cases he
    · next q hq =>
      rw [hof] at hq; cases hq
      obtain ⟨R, h1, h2, h3⟩ := ih ⟨pos.val + 1, by omega, by norm_num; omega⟩
        (Ivl.assignVal acc ⟨pos.val, by omega, by norm_num; omega⟩) (by simp only; omega)
        (by simp only [Ivl.assignVal, Ivl.assignCore]; rw [sint_cmax]; simp only; omega)
      refine ⟨R, h1, h2, ?_⟩
      rw [h3]
      simp only [Ivl.assignVal, Ivl.assignCore]; rw [sint_cmin]; simp only; omega

/-- what `interpolate_nearest_neighbour` returns: it contains the scalar results, and its bounds are scalar results if no two midpoints coincide -/
theorem nearest_full (dbg : Bool) (mid : Fl K → Fl K → Fl K) (xs ys : List (Fl K)) (id : Nat) (x : Ivl (Fl K)) (hx : Proper x)
    (hmid : ∀ a ∈ xs, ∀ b ∈ xs, le a b = true → le a (mid a b) = true ∧ le (mid a b) b = true) (hn : 2 ≤ xs.length)
    (hlen : ys.length = xs.length) (h63 : (xs.length : Int) < 2^63) (hs : SortedR xs) (hy : ∀ y ∈ ys, y ≠ .nan) :
    ∃ R, nearest dbg mid xs ys id x = .ok R ∧ (∀ v, v ∈ᵢ x → ∃ y, nearestScalar dbg mid xs ys v = .ok y ∧ y ∈ᵢ R) ∧
      ((∀ (i : Nat) (a b c : Fl K), xs[i]? = some a → xs[i + 1]? = some b → xs[i + 2]? = some c → lt (mid a b) (mid b c) = true) →
        (∃ v, v ∈ᵢ x ∧ ∃ y, nearestScalar dbg mid xs ys v = .ok y ∧ eq R.lo y = true) ∧
        (∃ v, v ∈ᵢ x ∧ ∃ y, nearestScalar dbg mid xs ys v = .ok y ∧ eq R.hi y = true)) ∧
      ∃ j k : Nat, IsPoint (fun i => lt (mid ((xs[i]?).getD .nan) ((xs[i+1]?).getD .nan)) x.lo) (List.range (xs.length - 1)) j ∧
        IsPoint (fun i => lt (mid ((xs[i]?).getD .nan) ((xs[i+1]?).getD .nan)) x.hi) (List.range (xs.length - 1)) k ∧
        (∀ q : Nat, j ≤ q → q ≤ k → ∀ y, ys[q]? = some y → y ∈ᵢ R) ∧ (∃ q : Nat, j ≤ q ∧ q ≤ k ∧ ∃ y, ys[q]? = some y ∧ eq R.lo y = true) ∧
        (∃ q : Nat, j ≤ q ∧ q ≤ k ∧ ∃ y, ys[q]? = some y ∧ eq R.hi y = true) := by
  -- the midpoints
  let m : Nat → Fl K := fun i => mid ((xs[i]?).getD .nan) ((xs[i+1]?).getD .nan)
  have hr : ∀ i : Nat, i < xs.length → rangeAt xs (i : Int) = .ok ((xs[i]?).getD .nan) := fun i hi => by
    rw [rangeAt_some (v := xs[i]) (by omega) (by simp [hi])]; simp [hi]
  have hpw := List.pairwise_iff_getElem.mp hs.1
  have hmb : ∀ i, (h : i + 1 < xs.length) → le xs[i] (m i) = true ∧ le (m i) xs[i+1] = true := fun i h => by
    have e : m i = mid xs[i] xs[i+1] := by simp only [m]; rw [List.getElem?_eq_getElem h, List.getElem?_eq_getElem (show i < xs.length by omega)]; rfl
    rw [e]
    exact hmid _ (List.getElem_mem _) _ (List.getElem_mem _) (hpw i (i+1) (by omega) h (by omega))
  have hmn : ∀ i ∈ List.range (xs.length - 1), NotNan (m i) := fun i hi => by
    have := List.mem_range.mp hi
    exact CppOrder.le_left _ _ (hmb i (by omega)).2
  have hmm : (List.range (xs.length - 1)).Pairwise (fun i j => le (m i) (m j) = true) := by
    refine (List.pairwise_lt_range (n := xs.length - 1)).imp_of_mem ?_
    intro i j hi hj hij
    have hi := List.mem_range.mp hi; have hj := List.mem_range.mp hj
    have a1 := (hmb i (by omega)).2; have a2 := (hmb j (by omega)).1
    have a3 : le xs[i+1] xs[j] = true := by
      rcases Nat.lt_or_ge (i+1) j with h | h
      · exact hpw (i+1) j (by omega) (by omega) h
      · have : i + 1 = j := by omega
        subst this
        exact CppOrder.le_left _ _ a2
    exact CppOrder.le_trans _ _ _ a1 (CppOrder.le_trans _ _ _ a3 a2)
  have hpt : ∀ v : Fl K, ∃ j, IsPoint (fun i => lt (m i) v) (List.range (xs.length - 1)) j := fun v => by
    refine exists_point _ (hmm.imp_of_mem ?_)
    intro i j hi hj hij
    have n1 := hmn i hi; have n2 := hmn j hj
    unfold NotNan at n1 n2
    generalize m i = a at *; generalize m j = b at *
    clear hmm hmn hmb hpw hr hmid hs hx
    grind
  obtain ⟨j, hj⟩ := hpt x.lo
  obtain ⟨k, hk⟩ := hpt x.hi
  have hpx : ProperA (Arg.ivl x) := hx
  have hpred : ∀ i ∈ List.range (xs.length - 1), nnPredI dbg mid xs id x i = .ok (.less (compareLt (.scalar (m i)) (.ivl x)) (.scalar false (m i)) (.ident false id x)) := by
    intro i hi
    have hi' := List.mem_range.mp hi
    unfold nnPredI
    rw [hr i (by omega), show (i : Int) + 1 = ((i + 1 : Nat) : Int) by omega, hr (i+1) (by omega)]
    exact lowerPredI_ok dbg false (.ident false id x) hpx (m i) (hmn i hi)
  have hpredS : ∀ v, ∀ i ∈ List.range (xs.length - 1), nnPredS mid xs v i = .ok (lt (m i) v) := by
    intro v i hi
    have hi' := List.mem_range.mp hi
    unfold nnPredS
    rw [hr i (by omega), show (i : Int) + 1 = ((i + 1 : Nat) : Int) by omega, hr (i+1) (by omega)]
    rfl
  obtain ⟨P, p1, p2, p3, p4⟩ := C51_partition_point (nnPredI dbg mid xs id x) _ (List.range (xs.length - 1)) hpred
    (fun i hi => compareLt_ne _ _ (hmn i hi) hpx) j k
    ⟨hj.1, fun i v e => by
      simp only [Cond.truth]; rw [lower_always hpx (hmn v (List.mem_of_getElem? e))]; exact hj.2 i v e⟩
    ⟨hk.1, fun i v e => by simp only [Cond.truth, lower_possibly]; exact hk.2 i v e⟩
  have hlr : (List.range (xs.length - 1)).length = xs.length - 1 := List.length_range
  have hj1 := hj.1; have hk1 := hk.1
  have hcnt : ∀ it : Iter (List.range (xs.length - 1)).length, ∃ c, Counter.ofIter it = .ok c ∧ c.val = it.val := fun it => by
    have := it.ge; have := it.le
    refine ⟨⟨it.val, by omega, by norm_num; omega⟩, ?_, rfl⟩
    unfold Counter.ofIter BInt.ofInt; rw [dif_pos ⟨by omega, by norm_num; omega⟩]
  obtain ⟨c, hc, hc'⟩ := hcnt P.lo
  obtain ⟨d, hd, hd'⟩ := hcnt P.hi
  have hjk : j ≤ k := by
    rcases Nat.lt_or_ge k j with h | h
    · have e : (List.range (xs.length - 1))[k]? = some k := by rw [List.getElem?_range]; omega
      have h1 := (hj.2 k k e).mpr h
      have h2 : ¬ lt (m k) x.hi = true := fun h' => by have := (hk.2 k k e).mp h'; omega
      exact absurd (lt_mono' h1 hx) h2
    · exact h
  obtain ⟨i, i1, i2, i3⟩ := deref_count d (by omega) (k - j) c Ivl.unassigned (by omega) (by
    show (CppLimits.bot : Index).val ≤ _
    have : (CppLimits.bot : Index).val = -(2:Int)^63 := rfl
    have := d.ge; omega)
  have htop : (Ivl.unassigned : Ivl Index).lo.val = 2^63 - 1 := rfl
  have hcl : c.val ≤ 2^63 - 1 := by have := c.le; norm_num at this ⊢; omega
  have i4 : i.lo.val = c.val := by rw [i3, htop]; omega
  obtain ⟨R, r1, r2, ⟨kl, kl1, kl2, yl, kl3, kl4⟩, ⟨ku, ku1, ku2, yu, ku3, ku4⟩⟩ := C54_scalars ys (by omega) i (by omega) (by omega) (by omega)
    (fun k _ _ v hv => Fl.le_refl_of_ne (hy v (List.mem_of_getElem? hv)))
  -- the scalar function at a point whose position is known
  have hsc : ∀ (v : Fl K) (q : Nat), IsPoint (fun i => lt (m i) v) (List.range (xs.length - 1)) q → ∀ y, ys[q]? = some y →
      nearestScalar dbg mid xs ys v = .ok y := by
    intro v q hq y hy'
    obtain ⟨s, hs1, hs2⟩ := stdPartitionPoint_spec (hpredS v) hq
    obtain ⟨e, he, he'⟩ := hcnt s
    have := hq.1
    unfold nearestScalar
    simp only [hn, hlen, decide_true, expects_true, expectsDebug_true, ok_bind, hs1, he, count_read]
    rw [C54_scalar_index, if_pos ⟨by simp only; omega, by simp only; omega⟩]
    simp only [show e.val.toNat = q by omega, hy']
  have hrg : ∀ i < xs.length - 1, (List.range (xs.length - 1))[i]? = some i := fun i hi => by rw [List.getElem?_range hi]
  refine ⟨R, ?_, fun v hv => ?_, fun hst => ?_, j, k, hj, hk, fun q q1 q2 y hy' => r2 (q : Int) (by omega) (by omega) y hy',
    ⟨kl.toNat, by omega, by omega, yl, kl3, kl4⟩, ⟨ku.toNat, by omega, by omega, yu, ku3, ku4⟩⟩
  · unfold nearest
    simp only [hn, hlen, decide_true, expects_true, expectsDebug_true, ok_bind, p1, hc, hd, derefI, i1, r1]
  · obtain ⟨r, hr1, hr2⟩ := p4 (fun i => lt (m i) v) (fun i hi => by
      have h1 := hmn i hi
      simp only [Cond.truth, contains_lt, Arg.lo, Arg.hi]
      have h2 := hv.1; have h3 := hv.2
      unfold NotNan at h1
      generalize m i = a at *
      clear hmm hmn hmb hpw hr hmid hs hx hpred hpredS hpt hj hk p4 p1 hsc
      grind) (hpt v)
    obtain ⟨q, hq⟩ := hpt v
    obtain ⟨t, ht1, ht2⟩ := stdPartitionPoint_spec (pred := fun i => .ok (lt (m i) v)) (fun _ _ => rfl) hq
    have hrt : r = t := by
      have := hr1.symm.trans ht1
      cases this; rfl
    have q1 := bint_le.mp hr2.1; have q2 := bint_le.mp hr2.2
    rw [hrt] at q1 q2
    obtain ⟨y, hy'⟩ := get_lt (a := ys) (i := (q : Int)) (by omega) (by omega)
    exact ⟨y, hsc v q hq y hy', r2 (q : Int) (by omega) (by omega) y hy'⟩
  · -- every position between the first and the last one is the position of some point
    have hml : ∀ i, i + 2 < xs.length → lt (m i) (m (i + 1)) = true := fun i hi => by
      simp only [m]
      rw [List.getElem?_eq_getElem (show i < xs.length by omega), List.getElem?_eq_getElem (show i + 1 < xs.length by omega),
        List.getElem?_eq_getElem (show i + 1 + 1 < xs.length by omega)]
      exact hst i _ _ _ (List.getElem?_eq_getElem (by omega)) (List.getElem?_eq_getElem (by omega)) (List.getElem?_eq_getElem (by omega))
    have hat : ∀ q : Nat, j ≤ q → q ≤ k → ∃ v, v ∈ᵢ x ∧ IsPoint (fun i => lt (m i) v) (List.range (xs.length - 1)) q := by
      intro q q1 q2
      have hx' : le x.lo x.hi = true := hx
      by_cases e1 : q = j
      · subst e1; exact ⟨x.lo, ⟨CppOrder.le_left _ _ hx', hx'⟩, hj⟩
      by_cases e2 : q = k
      · subst e2; exact ⟨x.hi, ⟨hx', CppOrder.le_right _ _ hx'⟩, hk⟩
      have a1 : ¬ lt (m q) x.lo = true := fun h => by have := (hj.2 q q (hrg q (by omega))).mp h; omega
      have a2 : lt (m q) x.hi = true := (hk.2 q q (hrg q (by omega))).mpr (by omega)
      have nq := hmn q (List.mem_range.mpr (by omega))
      have nl : NotNan x.lo := CppOrder.le_left _ _ hx'
      refine ⟨m q, ⟨le_of_not_lt' a1 nq nl, le_of_lt' a2⟩, by omega, fun i v e => ?_⟩
      obtain ⟨hi, e'⟩ := List.getElem?_eq_some_iff.mp e
      rw [List.getElem_range] at e'
      subst e'
      rw [List.length_range] at hi
      constructor
      · intro h
        by_contra hge
        rcases Nat.lt_or_ge q i with h' | h'
        · have := List.pairwise_iff_getElem.mp hmm q i (by omega) (by omega) h'
          rw [List.getElem_range, List.getElem_range] at this
          exact absurd h (not_lt_of_le' this)
        · obtain rfl : i = q := by omega
          exact absurd h (not_lt_of_le' nq)
      · intro h
        have h1 := hml i (by omega)
        rcases Nat.lt_or_ge (i + 1) q with h' | h'
        · have := List.pairwise_iff_getElem.mp hmm (i + 1) q (by omega) (by omega) h'
          rw [List.getElem_range, List.getElem_range] at this
          exact lt_mono' h1 this
        · obtain rfl : i + 1 = q := by omega
          exact h1
    constructor
    · obtain ⟨v, hv, hq⟩ := hat kl.toNat (by omega) (by omega)
      exact ⟨v, hv, yl, hsc v _ hq yl kl3, kl4⟩
    · obtain ⟨v, hv, hq⟩ := hat ku.toNat (by omega) (by omega)
      exact ⟨v, hv, yu, hsc v _ hq yu ku3, ku4⟩

/-- C56: for sorted `xs` and for every `midpoint` function that returns a value between its arguments, the interval version does not fail, and its
result contains the scalar result of every point of the interval. -/
theorem C56_nearest (dbg : Bool) (mid : Fl K → Fl K → Fl K) (xs ys : List (Fl K)) (id : Nat) (x : Ivl (Fl K)) (hx : Proper x)
    (hmid : ∀ a ∈ xs, ∀ b ∈ xs, le a b = true → le a (mid a b) = true ∧ le (mid a b) b = true) (hn : 2 ≤ xs.length)
    (hlen : ys.length = xs.length) (h63 : (xs.length : Int) < 2^63) (hs : SortedR xs) (hy : ∀ y ∈ ys, y ≠ .nan) :
    ∃ R, nearest dbg mid xs ys id x = .ok R ∧ ∀ v, v ∈ᵢ x → ∃ y, nearestScalar dbg mid xs ys v = .ok y ∧ y ∈ᵢ R := by
  obtain ⟨R, h1, h2, -⟩ := nearest_full dbg mid xs ys id x hx hmid hn hlen h63 hs hy
  exact ⟨R, h1, h2⟩

/-- C56 with exact midpoints, as `std::midpoint` computes them when nothing is rounded -/
theorem C56_exact (dbg : Bool) (xs ys : List (Fl K)) (id : Nat) (x : Ivl (Fl K)) (hx : Proper x) (hn : 2 ≤ xs.length)
    (hlen : ys.length = xs.length) (h63 : (xs.length : Int) < 2^63) (hs : SortedR xs) (fx : ∀ v ∈ xs, v.isFinite = true)
    (hy : ∀ y ∈ ys, y ≠ .nan) :
    letI := exactFmt K
    let mid : Fl K → Fl K → Fl K := fun a b => .num ((a.val + b.val) / 2)
    ∃ R, nearest dbg mid xs ys id x = .ok R ∧ ∀ v, v ∈ᵢ x → ∃ y, nearestScalar dbg mid xs ys v = .ok y ∧ y ∈ᵢ R := by
  letI := exactFmt K
  refine C56_nearest dbg _ xs ys id x hx (fun a ha b hb hab => ?_) hn hlen h63 hs hy
  have f0 := Fl.Is.of_finite (fx a ha)
  have f1 := Fl.Is.of_finite (fx b hb)
  have h := (f0.le_iff f1).mp hab
  exact ⟨(f0.le_iff (Fl.Is.num _)).mpr (by linarith), ((Fl.Is.num _).le_iff f1).mpr (by linarith)⟩

/-- C56 in every format: `std::midpoint` performs at most one inexact operation ([numeric.ops.midpoint]), so it returns half the exact sum,
rounded once (also when the sum itself would overflow); the table must be finite numbers of the format. -/
theorem C56_rounded (dbg : Bool) (xs ys : List (Fl K)) (id : Nat) (x : Ivl (Fl K)) (hx : Proper x) (hn : 2 ≤ xs.length)
    (hlen : ys.length = xs.length) (h63 : (xs.length : Int) < 2^63) (hs : SortedR xs) (fx : ∀ v ∈ xs, v.isFinite = true)
    (rx : ∀ v ∈ xs, v.Representable) (hy : ∀ y ∈ ys, y ≠ .nan) :
    let mid : Fl K → Fl K → Fl K := fun a b => Fmt.rnd ((a.val + b.val) / 2)
    ∃ R, nearest dbg mid xs ys id x = .ok R ∧ ∀ v, v ∈ᵢ x → ∃ y, nearestScalar dbg mid xs ys v = .ok y ∧ y ∈ᵢ R := by
  have low : ∀ v : Fl K, v.isFinite = true → v.Representable → ∀ k, v.val ≤ k → le v (Fmt.rnd k) = true := by
    intro v hv hr k hk
    cases v with
    | num a => have e : (Fmt.rnd a : Fl K) = .num a := hr
               rw [← e]; exact Fmt.rnd_mono _ _ hk
    | nzero => have := Fmt.rnd_mono (0 : K) k hk
               rw [Fmt.rnd_zero] at this
               exact CppOrder.le_trans _ (Fl.num 0) _ (by simp) this
    | nan | pinf | ninf => simp [Fl.isFinite] at hv
  have upp : ∀ v : Fl K, v.isFinite = true → v.Representable → ∀ k, k ≤ v.val → le (Fmt.rnd k) v = true := by
    intro v hv hr k hk
    cases v with
    | num a => have e : (Fmt.rnd a : Fl K) = .num a := hr
               rw [← e]; exact Fmt.rnd_mono _ _ hk
    | nzero => have := Fmt.rnd_mono k (0 : K) hk
               rw [Fmt.rnd_zero] at this
               exact CppOrder.le_trans _ (Fl.num 0) _ this (by simp)
    | nan | pinf | ninf => simp [Fl.isFinite] at hv
  refine C56_nearest dbg _ xs ys id x hx (fun a ha b hb hab => ?_) hn hlen h63 hs hy
  have f0 := Fl.Is.of_finite (fx a ha)
  have f1 := Fl.Is.of_finite (fx b hb)
  have h := (f0.le_iff f1).mp hab
  exact ⟨low a (fx a ha) (rx a ha) _ (by linarith), upp b (fx b hb) (rx b hb) _ (by linarith)⟩

/-! The example of the documentation: `y([1.5, 5])` is `[1, 9]`. -/
example : (let := exactFmt ℚ; nearest (K := ℚ) true (fun a b => .num ((a.val + b.val) / 2)) [.num 1, .num 2, .num 4, .num 8]
    [.num 1, .num 3, .num 9, .num (-3)] 0 ⟨.num (3/2), .num 5⟩) = .ok ⟨.num 1, .num 9⟩ := by decide +kernel
example : SortedR ([.num 1, .num 2, .num 4, .num 8] : List (Fl ℚ)) := by unfold SortedR NotNan; decide +kernel
/-! In a format with 3 bits, the midpoint 5.5 of 5 and 6 is rounded to 6. -/
example : (let := binFmt (K := ℚ) 3 (-10) 1000 (by decide) (by decide); nearest (K := ℚ) true (fun a b => Fmt.rnd ((a.val + b.val) / 2))
    [.num 5, .num 6, .num 8] [.num 1, .num 3, .num 2] 0 ⟨.num 6, .num 7⟩) = .ok ⟨.num 1, .num 3⟩ := by decide +kernel
end Intervals.Props
