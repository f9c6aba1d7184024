import Verif.Props.InterpolateIff
/-!
# C107: searching, constraining by a partition and interpolating are inclusion isotone; interpolating is tight

In exact arithmetic the result of `interpolate_linear` is the smallest interval that contains the scalar results; so is the result of
`interpolate_nearest_neighbour`, in every format, if the midpoints are distinct.
-/
set_option linter.unusedSectionVars false
namespace Intervals.Props
open Intervals CppVal Spec Fl

variable {K : Type} [Field K] [LinearOrder K] [IsStrictOrderedRing K]

private theorem le_of_eq'' {T : Type _} [CppVal T] [CppOrder T] {a b : T} (h : eq a b = true) : le a b = true ∧ le b a = true := by grind

private theorem lt_mono'' {T : Type _} [CppVal T] [CppOrder T] {a b c : T} (h : lt a b = true) (h' : le b c = true) : lt a c = true := by grind
private theorem le_of_not_lt'' {T : Type _} [CppVal T] [CppOrder T] {a b : T} (h : ¬ lt a b = true) (ha : NotNan a) (hb : NotNan b) : le b a = true := by
  unfold NotNan at *; grind

private theorem rangeAt_nat {V : Type _} {a : List V} {i : Int} {n : Nat} {v : V} (h : a[n]? = some v) (e : i = n) : rangeAt a i = .ok v := by
  subst e; unfold rangeAt; rw [if_neg (by omega), Int.toNat_natCast, h]
private theorem proper_of {R : Ivl (Fl K)} {v : Fl K} (h : v ∈ᵢ R) : Proper R := CppOrder.le_trans _ _ _ h.1 h.2
/-- the state of the result: nothing assigned yet, or bounds that satisfy `A` -/
private def Inv (A : Fl K → Prop) (r : Ivl (Fl K)) : Prop := r = Ivl.unassigned ∨ (A r.lo ∧ A r.hi)

private theorem pinf_le {a : Fl K} (h : le .pinf a = true) : a = .pinf := by
  have hk : ∀ k : K, le .pinf (.num k : Fl K) = true → False := fun k => by simp [CppVal.le, ext]
  cases a with
  | num k => exact (hk k h).elim
  | nzero => exact (hk 0 h).elim
  | pinf => rfl
  | ninf => simp [CppVal.le, ext] at h
  | nan => simp [CppVal.le, ext] at h
private theorem le_ninf {a : Fl K} (h : le a .ninf = true) : a = .ninf := by
  cases a <;> simp [CppVal.le, ext] at h ⊢
private theorem cmin_top {a : Fl K} (h : NotNan a) : cmin .pinf a = a := by
  unfold cmin
  by_cases hl : lt a .pinf = true
  · rw [if_pos hl]
  · rw [if_neg hl]; exact (pinf_le (le_of_not_lt'' hl h (by simp [NotNan, CppVal.le, ext]))).symm
private theorem cmax_bot {a : Fl K} (h : NotNan a) : cmax .ninf a = a := by
  unfold cmax
  by_cases hl : lt .ninf a = true
  · rw [if_pos hl]
  · rw [if_neg hl]; exact (le_ninf (le_of_not_lt'' hl (by simp [NotNan, CppVal.le, ext]) h)).symm

private theorem assign_inv {A : Fl K → Prop} {r Y : Ivl (Fl K)} (hr : Inv A r) (hY : Proper Y) (h1 : A Y.lo) (h2 : A Y.hi) :
    ∃ r', Ivl.assignPartial r Y = .ok r' ∧ Inv A r' := by
  have has : Y.assigned = true := Intervals.assigned_of_proper (X := .ivl Y) hY
  refine ⟨Ivl.assignCore r Y.lo Y.hi, by simp [Ivl.assignPartial, Ivl.assign, has, pure, Except.pure], .inr ?_⟩
  unfold Ivl.assignCore
  rcases hr with rfl | ⟨a1, a2⟩
  · have c1 := cmin_top (CppOrder.le_left _ _ hY)
    have c2 := cmax_bot (CppOrder.le_right _ _ hY)
    exact ⟨by show A (cmin (.pinf : Fl K) Y.lo); rw [c1]; exact h1, by show A (cmax (.ninf : Fl K) Y.hi); rw [c2]; exact h2⟩
  · simp only [cmin, cmax]
    constructor <;> split <;> assumption

private theorem fold_inv {A : Fl K → Prop} {J : Type _} (body : J → Ivl (Fl K) → Outcome (Ivl (Fl K))) (js : List J)
    (hs : ∀ j ∈ js, ∃ Y, Proper Y ∧ A Y.lo ∧ A Y.hi ∧ ∀ r, body j r = Ivl.assignPartial r Y) :
    ∀ r, Inv A r → ∃ r', js.foldlM (fun s j => body j s) r = .ok r' ∧ Inv A r' := by
  induction js with
  | nil => intro r h; exact ⟨r, rfl, h⟩
  | cons j js ih =>
    intro r h
    obtain ⟨Y, hY, a1, a2, hb⟩ := hs j (by simp)
    obtain ⟨r1, e1, i1⟩ := assign_inv h hY a1 a2
    obtain ⟨r2, e2, i2⟩ := ih (fun k hk => hs k (by simp [hk])) r1 i1
    exact ⟨r2, by simp only [List.foldlM_cons, hb, e1, ok_bind, e2], i2⟩

section search
variable {T : Type _} [CppVal T] [CppOrder T] [CppStep T]
/-- C107 for the searches: a smaller interval has a smaller interval of positions. -/
theorem C107_search (k : Search) (dbg d : Bool) (a : List T) (ha : SortedR a) (value value' : Operand T) (x x' : Ivl T) (hv : value.arg = .ivl x)
    (hv' : value'.arg = .ivl x') (hx : Proper x) (hsub : ∀ v, v ∈ᵢ x → v ∈ᵢ x') :
    ∃ P P', k.findI dbg d a value = .ok P ∧ k.findI dbg d a value' = .ok P' ∧ P'.lo.val ≤ P.lo.val ∧ P.hi.val ≤ P'.hi.val := by
  have hx1 : le x.lo x.hi = true := hx
  have xl := hsub x.lo ⟨CppOrder.le_left _ _ hx1, hx1⟩
  have xh := hsub x.hi ⟨hx1, CppOrder.le_right _ _ hx1⟩
  have hx' : Proper x' := CppOrder.le_trans _ _ _ xl.1 xl.2
  cases k with
  | lower =>
    obtain ⟨P, e, l, h, -⟩ := C51_lower_bound dbg d a ha value x hv hx
    obtain ⟨P', e', -, -, m⟩ := C51_lower_bound dbg d a ha value' x' hv' hx'
    obtain ⟨r, hr, q⟩ := m x.lo xl; rw [l] at hr; cases hr
    obtain ⟨r, hr, q'⟩ := m x.hi xh; rw [h] at hr; cases hr
    exact ⟨P, P', e, e', bint_le.mp q.1, bint_le.mp q'.2⟩
  | upper =>
    obtain ⟨P, e, l, h, -⟩ := C51_upper_bound dbg d a ha value x hv hx
    obtain ⟨P', e', -, -, m⟩ := C51_upper_bound dbg d a ha value' x' hv' hx'
    obtain ⟨r, hr, q⟩ := m x.lo xl; rw [l] at hr; cases hr
    obtain ⟨r, hr, q'⟩ := m x.hi xh; rw [h] at hr; cases hr
    exact ⟨P, P', e, e', bint_le.mp q.1, bint_le.mp q'.2⟩

/-- C107 for constraining by a partition: isotone in the interval and in the partition. -/
theorem C107_constrain (k : Search) (dbg d : Bool) (id : Nat) (hs : d = true → LawfulStep T) (a : List T) (ha : SortedR a) (x x' : Ivl T)
    (hx : Proper x) (hsub : ∀ v, v ∈ᵢ x → v ∈ᵢ x') (J J' : Arg Index) (h0 : 0 ≤ J'.lo.val) (hl : J'.lo.val ≤ J.lo.val) (hlh : J.lo.val ≤ J.hi.val)
    (hh : J.hi.val ≤ J'.hi.val) (h1 : J'.hi.val ≤ a.length) (R R' : Ivl T)
    (h : constrainAt dbg d id x a (k.predI dbg d (.ident d id x)) J = .ok R)
    (h' : constrainAt dbg d id x' a (k.predI dbg d (.ident d id x')) J' = .ok R') : ∀ v, v ∈ᵢ R → v ∈ᵢ R' :=
  constrainAt_mono k dbg d id hs a ha x x' hx hsub J J' h0 hl hlh hh h1 R R' h h'
end search
/-! For the table `{ 1, 2, 4 }`, `[1.5, 3]` and partition 1 give `[1.5, 2]`; `[0, 3]` and the partitions 0 to 1 give `[0, 2]`. -/
example : constrainAt true false 0 (⟨.num (3/2), .num 3⟩ : Ivl (Fl ℚ)) [.num 1, .num 2, .num 4] (Search.predI true false .lower (.ident false 0 ⟨.num (3/2), .num 3⟩))
      (.scalar ⟨1, by decide, by decide⟩) = .ok ⟨.num (3/2), .num 2⟩ ∧
    constrainAt true false 0 (⟨.num 0, .num 3⟩ : Ivl (Fl ℚ)) [.num 1, .num 2, .num 4] (Search.predI true false .lower (.ident false 0 ⟨.num 0, .num 3⟩))
      (.ivl ⟨⟨0, by decide, by decide⟩, ⟨1, by decide, by decide⟩⟩) = .ok ⟨.num 0, .num 2⟩ := by
  letI := exactFmt ℚ
  decide +kernel

section exact
attribute [local instance] exactFmt

private theorem scalar_mem {a w : Fl K} {k : K} (ha : Is a k) (hw : w ∈ₐ (Arg.scalar a)) : Is w k := by
  have f := Is.of_finite (finite_of_between ha.1 ha.1 hw.1 hw.2)
  have l1 := (ha.le_iff f).mp hw.1
  have l2 := (f.le_iff ha).mp hw.2
  rwa [le_antisymm l2 l1] at f

/-- the ordinate at `v` of the line through two points -/
private def line (x0 x1 y0 y1 v : K) : K := y0 + (v - x0) / (x1 - x0) * (y1 - y0)

private theorem lerp_is {x0 x1 y0 y1 v : Fl K} {a b c d t : K} (h0 : Is x0 a) (h1 : Is x1 b) (k0 : Is y0 c) (k1 : Is y1 d) (hv : Is v t) (h : a < b) :
    Is (lerpPoint x0 x1 y0 y1 v) (line a b c d t) :=
  k0.add (((hv.sub h0).div (h1.sub h0) (by linarith)).mul (k1.sub k0))

/-- the bounds of the formula on an interval inside the cell are values at points of the interval -/
private theorem lerp_tight (dbg : Bool) {x0 x1 y0 y1 : Fl K} {a b c e : K} (h0 : Is x0 a) (h1 : Is x1 b) (k0 : Is y0 c) (k1 : Is y1 e) (hab : a < b)
    (xc : Ivl (Fl K)) (hp : Proper xc) (l0 : le x0 xc.lo = true) (l1 : le xc.hi x1 = true) :
    ∃ d q p r, subI dbg (.ivl xc) (.scalar x0) = .ok d ∧ divI dbg (.ivl d) (.scalar (Fl.sub x1 x0)) = .ok q ∧
      mulI dbg (.ivl q) (.scalar (Fl.sub y1 y0)) = .ok p ∧ addI dbg (.scalar y0) (.ivl p) = .ok r ∧ Proper r ∧
      (∃ t : K, Fl.num t ∈ᵢ xc ∧ Is r.lo (line a b c e t)) ∧ (∃ t : K, Fl.num t ∈ᵢ xc ∧ Is r.hi (line a b c e t)) := by
  have fin : ∀ v, v ∈ᵢ xc → v.isFinite = true := fun v hv =>
    Fl.finite_of_between h0.1 h1.1 (CppOrder.le_trans _ _ _ l0 hv.1) (CppOrder.le_trans _ _ _ hv.2 l1)
  have hp' : le xc.lo xc.hi = true := hp
  have il := Is.of_finite (fin xc.lo ⟨CppOrder.le_left _ _ hp', hp'⟩)
  have ih := Is.of_finite (fin xc.hi ⟨hp', CppOrder.le_right _ _ hp'⟩)
  have iw := h1.sub h0
  have ie := k1.sub k0
  have n0 : NotNan x0 := Fl.le_refl_of_ne h0.ne_nan
  have nw : NotNan (Fl.sub x1 x0) := Fl.le_refl_of_ne iw.ne_nan
  have nz : NotNan (Fl.sub y1 y0) := Fl.le_refl_of_ne ie.ne_nan
  have ny : NotNan y0 := Fl.le_refl_of_ne k0.ne_nan
  have hba : b - a ≠ 0 := by linarith
  have hba' : 0 < b - a := by linarith
  have dk : ∀ u w, u ∈ₐ (Arg.ivl xc) → w ∈ₐ (Arg.scalar x0) → Is (Fl.sub u w) (u.val - a) := fun u w hu hw =>
    (Is.of_finite (fin u hu)).sub (scalar_mem h0 hw)
  rcases C30_sub dbg (.ivl xc) (.scalar x0) hp n0 with ⟨⟨u, w, hu, hw, e⟩, _⟩ | ⟨_, d, ed, hd, ⟨a1, b1, ha1, hb1, e1⟩, ⟨a2, b2, ha2, hb2, e2⟩⟩
  · exact absurd e (dk u w hu hw).ne_nan
  have d1 := dk _ _ ha1 hb1; rw [e1] at d1
  have d2 := dk _ _ ha2 hb2; rw [e2] at d2
  have m1 := (il.le_iff (Is.of_finite (fin a1 ha1))).mp ha1.1
  have m2 := ((Is.of_finite (fin a2 ha2)).le_iff ih).mp ha2.2
  have pd : Proper d := proper_of (hd _ _ ha1 hb1)
  have dI : IsI d (a1.val - a) (a2.val - a) := ⟨d1, d2⟩
  have z0 : ¬ (Fl.num 0) ∈ₐ (Arg.scalar (Fl.sub x1 x0)) := fun hz => by
    have := Is.unique (scalar_mem iw hz) (Is.num 0)
    linarith
  have qk : ∀ u w, u ∈ₐ (Arg.ivl d) → w ∈ₐ (Arg.scalar (Fl.sub x1 x0)) → ∃ s, Is u s ∧ a1.val - a ≤ s ∧ s ≤ a2.val - a ∧ Is (Fl.div u w) (s / (b - a)) := by
    intro u w hu hw
    obtain ⟨s, hs, s1, s2⟩ := dI.mem.mp hu
    exact ⟨s, hs, s1, s2, hs.div (scalar_mem iw hw) hba⟩
  rcases C32_exact dbg (.ivl d) (.scalar (Fl.sub x1 x0)) pd nw z0 with ⟨⟨u, w, hu, hw, e⟩, _⟩ | ⟨_, q, eq', hq, ⟨c1, g1, hc1, hg1, q1⟩, ⟨c2, g2, hc2, hg2, q2⟩⟩
  · obtain ⟨s, _, _, _, h⟩ := qk u w hu hw
    exact absurd e h.ne_nan
  obtain ⟨s1, _, s1l, _, i1⟩ := qk _ _ hc1 hg1; rw [q1] at i1
  obtain ⟨s2, _, _, s2h, i2⟩ := qk _ _ hc2 hg2; rw [q2] at i2
  have pq : Proper q := proper_of (hq _ _ hc1 hg1)
  have qI : IsI q (s1 / (b - a)) (s2 / (b - a)) := ⟨i1, i2⟩
  -- a value of the quotient belongs to a point of the interval
  have back : ∀ u, u ∈ᵢ q → ∃ t : K, Fl.num t ∈ᵢ xc ∧ Is u ((t - a) / (b - a)) := by
    intro u hu
    obtain ⟨s, hs, l, h⟩ := qI.mem.mp hu
    rw [div_le_iff₀ hba'] at l
    rw [le_div_iff₀ hba'] at h
    refine ⟨s * (b - a) + a, ⟨(il.le_iff (Is.num _)).mpr (by linarith), ((Is.num _).le_iff ih).mpr (by linarith)⟩, ?_⟩
    rwa [add_sub_cancel_right, mul_div_cancel_right₀ _ hba]
  have mk : ∀ u w, u ∈ₐ (Arg.ivl q) → w ∈ₐ (Arg.scalar (Fl.sub y1 y0)) → ∃ t : K, Fl.num t ∈ᵢ xc ∧ Is (Fl.mul u w) ((t - a) / (b - a) * (e - c)) := by
    intro u w hu hw
    obtain ⟨t, ht, h⟩ := back u hu
    exact ⟨t, ht, h.mul (scalar_mem ie hw)⟩
  rcases C31_mul dbg (.ivl q) (.scalar (Fl.sub y1 y0)) pq nz with ⟨⟨u, w, hu, hw, e⟩, _⟩ | ⟨_, p, ep, hmp, ⟨c3, g3, hc3, hg3, p1⟩, ⟨c4, g4, hc4, hg4, p2⟩⟩
  · obtain ⟨t, _, h⟩ := mk u w hu hw
    exact absurd e h.ne_nan
  obtain ⟨t1, ht1, j1⟩ := mk _ _ hc3 hg3; rw [p1] at j1
  obtain ⟨t2, ht2, j2⟩ := mk _ _ hc4 hg4; rw [p2] at j2
  have pp : Proper p := proper_of (hmp _ _ hc3 hg3)
  have pI : IsI p _ _ := ⟨j1, j2⟩
  have plo : p.lo ∈ᵢ p := ⟨CppOrder.le_left _ _ pp, pp⟩
  have phi : p.hi ∈ᵢ p := ⟨pp, CppOrder.le_right _ _ pp⟩
  rcases C30_add dbg (.scalar y0) (.ivl p) ny pp with ⟨⟨u, w, hu, hw, e⟩, _⟩ | ⟨_, r, er, hr, ⟨c5, g5, hc5, hg5, r1⟩, ⟨c6, g6, hc6, hg6, r2⟩⟩
  · obtain ⟨s, hs, _⟩ := pI.mem.mp hw
    exact absurd e ((scalar_mem k0 hu).add hs).ne_nan
  obtain ⟨s5, hs5, l5, _⟩ := pI.mem.mp hg5
  obtain ⟨s6, hs6, _, l6⟩ := pI.mem.mp hg6
  have rl := (scalar_mem k0 hc5).add hs5; rw [r1] at rl
  have ru := (scalar_mem k0 hc6).add hs6; rw [r2] at ru
  have w1 := (rl.le_iff (k0.add j1)).mp (hr y0 p.lo ⟨ny, ny⟩ plo).1
  have w2 := ((k0.add j2).le_iff ru).mp (hr y0 p.hi ⟨ny, ny⟩ phi).2
  refine ⟨d, q, p, r, ed, eq', ep, er, proper_of (hr _ _ hc5 hg5), ⟨t1, ht1, ?_⟩, ⟨t2, ht2, ?_⟩⟩
  · unfold line
    rwa [show s5 = (t1 - a) / (b - a) * (e - c) by linarith] at rl
  · unfold line
    rwa [show s6 = (t2 - a) / (b - a) * (e - c) by linarith] at ru

/-- C107 for `interpolate_linear`, in exact arithmetic: for every strictly increasing table of numbers and every interval, the result contains the scalar
result of every point of the interval, and both its bounds are scalar results of such points. -/
theorem C107_linear (dbg : Bool) (xs ys : List (Fl K)) (id idi : Nat) (x : Ivl (Fl K)) (hx : Proper x) (hn : 2 ≤ xs.length)
    (hlen : ys.length = xs.length) (h63 : (xs.length : Int) < 2^63) (hs : StrictR xs) (fx : ∀ v ∈ xs, v.isFinite = true)
    (fy : ∀ v ∈ ys, v.isFinite = true) :
    ∃ R, interpolateLinear dbg xs ys id idi x = .ok R ∧ (∀ v, v ∈ᵢ x → ∃ y, interpolateLinearScalar dbg xs ys v = .ok y ∧ y ∈ᵢ R) ∧
      (∃ v, v ∈ᵢ x ∧ ∃ y, interpolateLinearScalar dbg xs ys v = .ok y ∧ eq R.lo y = true) ∧
      (∃ v, v ∈ᵢ x ∧ ∃ y, interpolateLinearScalar dbg xs ys v = .ok y ∧ eq R.hi y = true) := by
  obtain ⟨R, hR, henc⟩ := C55_exact dbg xs ys id idi x hx hn hlen h63 hs fx fy
  have hsort : SortedR xs := Intervals.StrictR.sorted hs
  have hx' : le x.lo x.hi = true := hx
  have xl : x.lo ∈ᵢ x := ⟨CppOrder.le_left _ _ hx', hx'⟩
  have xh : x.hi ∈ᵢ x := ⟨hx', CppOrder.le_right _ _ hx'⟩
  -- the values that occur
  let A : Fl K → Prop := fun u => ∃ v, v ∈ᵢ x ∧ ∃ y k, interpolateLinearScalar dbg xs ys v = .ok y ∧ Is y k ∧ Is u k
  have fA : ∀ u, A u → u.isFinite = true := fun u ⟨_, _, _, _, _, _, h⟩ => h.1
  suffices h : Inv A R by
    rcases h with h | ⟨⟨v, hv, y, k, h1, h2, h3⟩, ⟨v', hv', y', k', h1', h2', h3'⟩⟩
    · exfalso
      obtain ⟨y, -, h2⟩ := henc x.lo xl
      have := proper_of h2
      rw [h] at this
      revert this
      simp [Proper, Ivl.unassigned, CppLimits.top, CppLimits.bot]
    · exact ⟨R, hR, henc, ⟨v, hv, y, h1, (h3.eq_iff h2).mpr rfl⟩, ⟨v', hv', y', h1', (h3'.eq_iff h2').mpr rfl⟩⟩
  obtain ⟨pos, hpos, hplo, hphi, hpmem⟩ := C51_lower_bound dbg false xs hsort (.ident false id x) x rfl hx
  have p0 := pos.lo.ge; have p1 := pos.hi.le; have p2 := pos.lo.le; have p3 := pos.hi.ge
  have ppos : pos.lo.val ≤ pos.hi.val := by
    obtain ⟨r, hr, hr'⟩ := hpmem x.lo xl
    have h1 := bint_le.mp hr'.1; have h2 := bint_le.mp hr'.2; omega
  obtain ⟨y0, hy0⟩ : ∃ y, ys[0]? = some y := ⟨_, List.getElem?_eq_getElem (by omega)⟩
  obtain ⟨yn, hyn⟩ : ∃ y, ys[xs.length - 1]? = some y := ⟨_, List.getElem?_eq_getElem (by omega)⟩
  have ry0 : rangeAt ys 0 = .ok y0 := rangeAt_nat hy0 rfl
  have ryn : rangeAt ys ((xs.length : Int) - 1) = .ok yn := rangeAt_nat hyn (by omega)
  have iy0 := Is.of_finite (fy y0 (List.mem_of_getElem? hy0))
  have iyn := Is.of_finite (fy yn (List.mem_of_getElem? hyn))
  -- the scalar function at the points before the table, beyond it, and in a cell
  have s0 : ∀ v (r : Iter xs.length), lowerBoundS xs v = .ok r → r.val = 0 → interpolateLinearScalar dbg xs ys v = .ok y0 := by
    intro v r hr h
    unfold interpolateLinearScalar
    simp only [hn, hlen, decide_true, expects_true, expectsDebug_true, ok_bind, hr, h, if_true, ry0]
  have sn : ∀ v (r : Iter xs.length), lowerBoundS xs v = .ok r → r.val = xs.length → interpolateLinearScalar dbg xs ys v = .ok yn := by
    intro v r hr h
    unfold interpolateLinearScalar
    simp only [hn, hlen, decide_true, expects_true, expectsDebug_true, ok_bind, hr, h]
    rw [if_neg (by omega), if_pos trivial, ryn]
  have cell : ∀ (j : Nat) (a0 a1 b0 b1 : Fl K), xs[j]? = some a0 → xs[j + 1]? = some a1 → ys[j]? = some b0 → ys[j + 1]? = some b1 →
      ∀ t : K, Fl.num t ∈ᵢ x → a0.val ≤ t → t ≤ a1.val → ∃ v, v ∈ᵢ x ∧ ∃ y, interpolateLinearScalar dbg xs ys v = .ok y ∧ Is y (line a0.val a1.val b0.val b1.val t) := by
    intro j a0 a1 b0 b1 h0 h1 k0 k1 t ht l0 l1
    have i0 := Is.of_finite (fx a0 (List.mem_of_getElem? h0)); have i1 := Is.of_finite (fx a1 (List.mem_of_getElem? h1))
    have m0 := Is.of_finite (fy b0 (List.mem_of_getElem? k0)); have m1 := Is.of_finite (fy b1 (List.mem_of_getElem? k1))
    obtain ⟨c0, e0⟩ := List.getElem?_eq_some_iff.mp h0
    obtain ⟨c1, e1⟩ := List.getElem?_eq_some_iff.mp h1
    have hpw := List.pairwise_iff_getElem.mp hs.1
    have hab : a0.val < a1.val := by
      have := hpw j (j + 1) c0 c1 (by omega)
      rw [e0, e1] at this
      exact (i0.lt_iff i1).mp this
    rcases eq_or_lt_of_le l0 with hl | hl
    · -- the left end belongs to the cell before
      have ha : a0 ∈ᵢ x := by
        constructor
        · exact CppOrder.le_trans _ _ _ ht.1 (((Is.num t).le_iff i0).mpr hl.ge)
        · exact CppOrder.le_trans _ _ _ ((i0.le_iff (Is.num t)).mpr hl.le) ht.2
      have hline : line a0.val a1.val b0.val b1.val t = b0.val := by
        unfold line; rw [← hl]; simp
      rw [hline]
      obtain ⟨r, hr, hrj⟩ := lowerBound_at hs h0
      refine ⟨a0, ha, ?_⟩
      cases j with
      | zero =>
        rw [hy0] at k0; cases k0
        exact ⟨y0, s0 a0 r hr (by simpa using hrj), m0⟩
      | succ j =>
        obtain ⟨a', h'⟩ : ∃ v, xs[j]? = some v := ⟨_, List.getElem?_eq_getElem (by omega)⟩
        obtain ⟨b', k'⟩ : ∃ v, ys[j]? = some v := ⟨_, List.getElem?_eq_getElem (by omega)⟩
        refine ⟨_, scalar_right dbg xs ys hs hlen j a' a0 b' b0 h' h0 k' k0, ?_⟩
        have i' := Is.of_finite (fx a' (List.mem_of_getElem? h')); have m' := Is.of_finite (fy b' (List.mem_of_getElem? k'))
        obtain ⟨c', e'⟩ := List.getElem?_eq_some_iff.mp h'
        have hlt : a'.val < a0.val := by
          have := hpw j (j + 1) c' c0 (by omega)
          rw [e0, e'] at this
          exact (i'.lt_iff i0).mp this
        have := lerp_is i' i0 m' m0 i0 hlt
        have hz : a0.val - a'.val ≠ 0 := by linarith
        rwa [show line a'.val a0.val b'.val b0.val a0.val = b0.val by unfold line; rw [div_self hz]; ring] at this
    · refine ⟨.num t, ht, ?_⟩
      obtain ⟨⟨r, hr, hr1, hr2⟩, _⟩ := C51_scalar xs hsort (.num t) (Fl.le_refl_of_ne (Is.num t).ne_nan)
      have q0 := r.ge; have q1 := r.le
      have g1 : j < r.val.toNat := (hr2 j a0 h0).mp ((i0.lt_iff (Is.num t)).mpr hl)
      have g2 : ¬ j + 1 < r.val.toNat := fun h => by
        have := (i1.lt_iff (Is.num t)).mp ((hr2 (j + 1) a1 h1).mpr h)
        linarith
      refine ⟨lerpPoint a0 a1 b0 b1 (.num t), ?_, lerp_is i0 i1 m0 m1 (Is.num t) hab⟩
      unfold interpolateLinearScalar
      simp only [hn, hlen, decide_true, expects_true, expectsDebug_true, ok_bind, hr]
      rw [if_neg (by omega), if_neg (by omega), rangeAt_nat h0 (by omega), rangeAt_nat h1 (by omega), rangeAt_nat k0 (by omega), rangeAt_nat k1 (by omega)]
      rfl
  -- the run
  have hrun := interpolateLinear_run dbg xs ys id idi x hn hlen h63 pos hpos ppos y0 yn ry0 ryn
  have ofV : ∀ u : Fl K, A u → ∀ r, Inv A r → ∃ r', Ivl.assignPartial r (Ivl.ofVal u) = .ok r' ∧ Inv A r' := fun u hu r hr =>
    assign_inv hr (Fl.le_refl_of_ne (ne_nan_of_finite (fA u hu))) hu hu
  obtain ⟨r1, e1, v1⟩ : ∃ r1, (if pos.lo.val = 0 then Ivl.assignPartial Ivl.unassigned (Ivl.ofVal y0) else pure (Ivl.unassigned : Ivl (Fl K))) = .ok r1 ∧ Inv A r1 := by
    by_cases h : pos.lo.val = 0
    · rw [if_pos h]
      exact ofV y0 ⟨x.lo, xl, y0, _, s0 _ _ hplo h, iy0, iy0⟩ _ (.inl rfl)
    · rw [if_neg h]; exact ⟨_, rfl, .inl rfl⟩
  obtain ⟨r2, e2, v2⟩ : ∃ r2, (if pos.hi.val = xs.length then Ivl.assignPartial r1 (Ivl.ofVal yn) else pure r1) = .ok r2 ∧ Inv A r2 := by
    by_cases h : pos.hi.val = xs.length
    · rw [if_pos h]
      exact ofV yn ⟨x.hi, xh, yn, _, sn _ _ hphi h, iyn, iyn⟩ _ v1
    · rw [if_neg h]; exact ⟨_, rfl, v1⟩
  replace hrun : interpolateLinear dbg xs ys id idi x = (if 0 < pos.hi.val ∧ pos.lo.val < xs.length then
        (ivlVals (-(2:Int)^63) (2^63 - 1) (min ((xs.length : Int) - 1) pos.hi.val - max 1 pos.lo.val).toNat (max 1 pos.lo.val)).foldlM
          (fun s j => lerpBody dbg xs ys id x j s) r2
      else pure r2) := by
    rw [hrun]
    by_cases h1 : pos.lo.val = 0 <;> by_cases h2 : pos.hi.val = xs.length <;>
      simp only [h1, h2, if_true, if_false] at e1 e2 ⊢ <;> simp only [e1, e2, ok_bind]
  by_cases hm : 0 < pos.hi.val ∧ pos.lo.val < xs.length
  swap
  · rw [if_neg hm, hR] at hrun
    cases hrun; exact v2
  rw [if_pos hm] at hrun
  obtain ⟨r3, e3, v3⟩ := fold_inv (fun j s => lerpBody dbg xs ys id x j s)
    (ivlVals (-(2:Int)^63) (2^63 - 1) (min ((xs.length : Int) - 1) pos.hi.val - max 1 pos.lo.val).toNat (max 1 pos.lo.val)) (by
      intro j hj
      rw [mem_ivlVals (by omega) (by omega)] at hj
      obtain ⟨i, hi⟩ : ∃ i : Nat, j.val = i + 1 := ⟨(j.val - 1).toNat, by omega⟩
      obtain ⟨a0, h0⟩ : ∃ v, xs[i]? = some v := ⟨_, List.getElem?_eq_getElem (by omega)⟩
      obtain ⟨a1, h1⟩ : ∃ v, xs[i + 1]? = some v := ⟨_, List.getElem?_eq_getElem (by omega)⟩
      obtain ⟨b0, k0⟩ : ∃ v, ys[i]? = some v := ⟨_, List.getElem?_eq_getElem (by omega)⟩
      obtain ⟨b1, k1⟩ : ∃ v, ys[i + 1]? = some v := ⟨_, List.getElem?_eq_getElem (by omega)⟩
      have i0 := Is.of_finite (fx a0 (List.mem_of_getElem? h0)); have i1 := Is.of_finite (fx a1 (List.mem_of_getElem? h1))
      have m0 := Is.of_finite (fy b0 (List.mem_of_getElem? k0)); have m1 := Is.of_finite (fy b1 (List.mem_of_getElem? k1))
      have hab : a0.val < a1.val := by
        obtain ⟨c0, d0⟩ := List.getElem?_eq_some_iff.mp h0
        obtain ⟨c1, d1⟩ := List.getElem?_eq_some_iff.mp h1
        have := List.pairwise_iff_getElem.mp hs.1 i (i + 1) c0 c1 (by omega)
        rw [d0, d1] at this
        exact (i0.lt_iff i1).mp this
      obtain ⟨xc, hxc⟩ := C52_positions_partial .lower dbg false id (by simp) xs hsort x hx pos hpos (.scalar j) (by simp only [Arg.lo]; omega)
        (by simp only [Arg.hi]; omega) (by simp [Arg.lo, Arg.hi]) (by simp)
      obtain ⟨w1, w4, w5, w2, w3⟩ := C52_within .lower dbg false id (by simp) xs hsort x hx (.scalar j) (by simp only [Arg.lo]; omega)
        (by simp only [Arg.hi]; omega) (by simp [Arg.lo, Arg.hi]) xc hxc
      have w2' := w2 a0 (by simp only [Arg.lo]; omega) (by simp only [Arg.lo]; rw [show (j.val - 1).toNat = i by omega]; exact h0)
      have w3' := w3 a1 (by simp only [Arg.hi]; rw [show j.val.toNat = i + 1 by omega]; exact h1)
      obtain ⟨d, q, p, r, f1, f2, f3, f4, f5, ⟨t1, u1, g1⟩, ⟨t2, u2, g2⟩⟩ := lerp_tight dbg i0 i1 m0 m1 hab xc w1 w2' w3'
      have att : ∀ (u : Fl K) (t : K), Fl.num t ∈ᵢ xc → Is u (line a0.val a1.val b0.val b1.val t) → A u := by
        intro u t ht hu
        obtain ⟨v, hv, y, hy, hy'⟩ := cell i a0 a1 b0 b1 h0 h1 k0 k1 t
          ⟨CppOrder.le_trans _ _ _ w4 ht.1, CppOrder.le_trans _ _ _ ht.2 w5⟩
          ((i0.le_iff (Is.num t)).mp (CppOrder.le_trans _ _ _ w2' ht.1)) (((Is.num t).le_iff i1).mp (CppOrder.le_trans _ _ _ ht.2 w3'))
        exact ⟨v, hv, y, _, hy, hy', hu⟩
      refine ⟨r, f5, att _ t1 u1 g1, att _ t2 u2 g2, fun s => ?_⟩
      unfold lerpBody
      rw [rangeAt_nat h0 (by omega), rangeAt_nat h1 (by omega), rangeAt_nat k0 (by omega), rangeAt_nat k1 (by omega)]
      simp only [ok_bind]
      rw [show constrainAt dbg false id x xs (lowerPredI dbg false (.ident false id x)) (.scalar j) = .ok xc from hxc]
      simp only [ok_bind, f1, f2, f3, f4]) r2 v2
  rw [e3, hR] at hrun
  cases hrun
  exact v3

/-- C107: hence no smaller interval contains the scalar results. -/
theorem C107_linear_least (dbg : Bool) (xs ys : List (Fl K)) (id idi : Nat) (x : Ivl (Fl K)) (hx : Proper x) (hn : 2 ≤ xs.length)
    (hlen : ys.length = xs.length) (h63 : (xs.length : Int) < 2^63) (hs : StrictR xs) (fx : ∀ v ∈ xs, v.isFinite = true)
    (fy : ∀ v ∈ ys, v.isFinite = true) (R : Ivl (Fl K)) (hR : interpolateLinear dbg xs ys id idi x = .ok R) (S : Ivl (Fl K))
    (hS : ∀ v, v ∈ᵢ x → ∀ y, interpolateLinearScalar dbg xs ys v = .ok y → y ∈ᵢ S) : ∀ y, y ∈ᵢ R → y ∈ᵢ S := by
  obtain ⟨R', h1, -, ⟨v, hv, a, ha, ea⟩, ⟨w, hw, b, hb, eb⟩⟩ := C107_linear dbg xs ys id idi x hx hn hlen h63 hs fx fy
  rw [hR] at h1; cases h1
  have s1 := (hS v hv a ha).1
  have s2 := (hS w hw b hb).2
  exact fun y hy => ⟨CppOrder.le_trans _ _ _ s1 (CppOrder.le_trans _ _ _ (le_of_eq'' ea).2 hy.1), CppOrder.le_trans _ _ _ hy.2 (CppOrder.le_trans _ _ _ (le_of_eq'' eb).1 s2)⟩

/-! On the table of the documentation the bounds of `y([1.5, 5]) = [2, 9]` are the values at 1.5 and at the knot 4; the value at the right end is 6. -/
example : (let := exactFmt ℚ; ∀ dbg, interpolateLinearScalar (K := ℚ) dbg [.num 1, .num 2, .num 4, .num 8] [.num 1, .num 3, .num 9, .num (-3)] (.num (3/2)) = .ok (.num 2) ∧
    interpolateLinearScalar (K := ℚ) dbg [.num 1, .num 2, .num 4, .num 8] [.num 1, .num 3, .num 9, .num (-3)] (.num 4) = .ok (.num 9)) := by decide +kernel
end exact

section formats
variable [Fmt K]

private theorem exact_mono {f : Fl K → Fl K → Fl K} {X X' Y Y' : Arg (Fl K)} {R R' : Ivl (Fl K)} (h : FloatExact2 f X Y (.ok R)) (hR : Proper R)
    (h' : FloatExact2 f X' Y' (.ok R')) (hR' : Proper R') (hX : ∀ a, a ∈ₐ X → a ∈ₐ X') (hY : ∀ a, a ∈ₐ Y → a ∈ₐ Y') : ∀ v, v ∈ᵢ R → v ∈ᵢ R' := by
  rcases h with ⟨_, e⟩ | ⟨_, _, e, _, ⟨a, b, ha, hb, e1⟩, ⟨c, d, hc, hd, e2⟩⟩
  · cases e; exact absurd hR (by simp [Proper, CppVal.le, ext])
  cases e
  rcases h' with ⟨_, e⟩ | ⟨_, _, e, henc, _⟩
  · cases e; exact absurd hR' (by simp [Proper, CppVal.le, ext])
  cases e
  intro v hv
  have l := (henc a b (hX a ha) (hY b hb)).1
  have u := (henc c d (hX c hc) (hY d hd)).2
  rw [e1] at l; rw [e2] at u
  exact ⟨CppOrder.le_trans _ _ _ l hv.1, CppOrder.le_trans _ _ _ hv.2 u⟩

/-- what the loop body assigns for cell `j` -/
private def Piece (dbg : Bool) (xs ys : List (Fl K)) (id : Nat) (x : Ivl (Fl K)) (j : Index) (P : Ivl (Fl K)) : Prop :=
  ∃ x0 x1 y0 y1 xc d q p, xs[(j.val - 1).toNat]? = some x0 ∧ xs[j.val.toNat]? = some x1 ∧ ys[(j.val - 1).toNat]? = some y0 ∧ ys[j.val.toNat]? = some y1 ∧
    constrainAt dbg false id x xs (lowerPredI dbg false (.ident false id x)) (.scalar j) = .ok xc ∧ CellOk x0 x1 y0 y1 ∧ Proper xc ∧
    subI dbg (.ivl xc) (.scalar x0) = .ok d ∧ divI dbg (.ivl d) (.scalar (Fl.sub x1 x0)) = .ok q ∧
    mulI dbg (.ivl q) (.scalar (Fl.sub y1 y0)) = .ok p ∧ addI dbg (.scalar y0) (.ivl p) = .ok P ∧ Proper d ∧ Proper q ∧ Proper p ∧ Proper P

private theorem piece_mono {dbg : Bool} {xs ys : List (Fl K)} {id : Nat} {x x' : Ivl (Fl K)} {j : Index} {P P' : Ivl (Fl K)} (hs : SortedR xs) (hx : Proper x)
    (hsub : ∀ v, v ∈ᵢ x → v ∈ᵢ x') (hj : 0 ≤ j.val) (hj' : j.val ≤ xs.length) (h : Piece dbg xs ys id x j P) (h' : Piece dbg xs ys id x' j P') :
    ∀ v, v ∈ᵢ P → v ∈ᵢ P' := by
  obtain ⟨x0, x1, y0, y1, xc, d, q, p, a0, a1, b0, b1, hc, hcell, pc, e1, e2, e3, e4, w1, w2, w3, w4⟩ := h
  obtain ⟨x0', x1', y0', y1', xc', d', q', p', a0', a1', b0', b1', hc', _, pc', e1', e2', e3', e4', w1', w2', w3', w4'⟩ := h'
  rw [a0] at a0'; rw [a1] at a1'; rw [b0] at b0'; rw [b1] at b1'
  cases a0'; cases a1'; cases b0'; cases b1'
  obtain ⟨fx0, fx1, fy0, fdx, pos, fdy, one⟩ := hcell
  have n : ∀ {u : Fl K}, u.isFinite = true → NotNan u := fun h => Fl.le_refl_of_ne (ne_nan_of_finite h)
  have mc := constrainAt_mono .lower dbg false id (by simp) xs hs x x' hx hsub (.scalar j) (.scalar j) (by simpa [Arg.lo] using hj) (le_refl _)
    (by simp [Arg.lo, Arg.hi]) (le_refl _) (by simpa [Arg.hi] using hj') xc xc' hc hc'
  have z0 : ¬ (Fl.num 0) ∈ₐ (Arg.scalar (Fl.sub x1 x0)) := by
    intro hz
    have := hz.1
    rw [CppOrder.lt_iff] at pos
    simp [this] at pos
  have md := exact_mono (X := .ivl xc) (X' := .ivl xc') (e1 ▸ C30_sub dbg (.ivl xc) (.scalar x0) pc (n fx0)) w1 (e1' ▸ C30_sub dbg (.ivl xc') (.scalar x0) pc' (n fx0)) w1' mc (fun _ h => h)
  have mq := exact_mono (X := .ivl d) (X' := .ivl d') (e2 ▸ C32_exact dbg (.ivl d) (.scalar (Fl.sub x1 x0)) w1 (n fdx) z0) w2
    (e2' ▸ C32_exact dbg (.ivl d') (.scalar (Fl.sub x1 x0)) w1' (n fdx) z0) w2' md (fun _ h => h)
  have mp := exact_mono (X := .ivl q) (X' := .ivl q') (e3 ▸ C31_mul dbg (.ivl q) (.scalar (Fl.sub y1 y0)) w2 (n fdy)) w3
    (e3' ▸ C31_mul dbg (.ivl q') (.scalar (Fl.sub y1 y0)) w2' (n fdy)) w3' mq (fun _ h => h)
  exact exact_mono (Y := .ivl p) (Y' := .ivl p') (e4 ▸ C30_add dbg (.scalar y0) (.ivl p) (n fy0) w3) w4 (e4' ▸ C30_add dbg (.scalar y0) (.ivl p') (n fy0) w3') w4' (fun _ h => h) mp

/-- the intervals assigned to the result of `interpolate_linear` -/
private def PieceOf (dbg : Bool) (xs ys : List (Fl K)) (id : Nat) (x : Ivl (Fl K)) (pos : Ivl (Iter xs.length)) (P : Ivl (Fl K)) : Prop :=
  (pos.lo.val = 0 ∧ ∃ y, ys[0]? = some y ∧ P = Ivl.ofVal y) ∨ (pos.hi.val = xs.length ∧ ∃ y, ys[xs.length - 1]? = some y ∧ P = Ivl.ofVal y) ∨
  ∃ j : Index, 1 ≤ j.val ∧ pos.lo.val ≤ j.val ∧ j.val ≤ pos.hi.val ∧ j.val < xs.length ∧ Piece dbg xs ys id x j P

private theorem run_pieces (dbg : Bool) (xs ys : List (Fl K)) (id idi : Nat) (x : Ivl (Fl K)) (hx : Proper x) (hn : 2 ≤ xs.length)
    (hlen : ys.length = xs.length) (h63 : (xs.length : Int) < 2^63) (hs : SortedR xs) (hy : ∀ y ∈ ys, y ≠ .nan) (ht : TableOk xs ys)
    (pos : Ivl (Iter xs.length)) (hpos : lowerBoundI dbg false xs (.ident false id x) = .ok pos) (ppos : pos.lo.val ≤ pos.hi.val) :
    ∃ R, interpolateLinear dbg xs ys id idi x = .ok R ∧ (∀ P, PieceOf dbg xs ys id x pos P → ∀ v, v ∈ᵢ P → v ∈ᵢ R) ∧
      (∀ j : Index, 1 ≤ j.val → pos.lo.val ≤ j.val → j.val ≤ pos.hi.val → j.val < xs.length → ∃ P, Piece dbg xs ys id x j P) ∧
      ∀ A : Fl K → Prop, (∀ P, PieceOf dbg xs ys id x pos P → A P.lo ∧ A P.hi) → Inv A R := by
  have p0 := pos.lo.ge; have p1 := pos.hi.le; have p2 := pos.lo.le; have p3 := pos.hi.ge
  obtain ⟨y0, hy0⟩ : ∃ y, ys[0]? = some y := ⟨_, List.getElem?_eq_getElem (by omega)⟩
  obtain ⟨yn, hyn⟩ : ∃ y, ys[xs.length - 1]? = some y := ⟨_, List.getElem?_eq_getElem (by omega)⟩
  have ry0 : rangeAt ys 0 = .ok y0 := rangeAt_nat hy0 rfl
  have ryn : rangeAt ys ((xs.length : Int) - 1) = .ok yn := rangeAt_nat hyn (by omega)
  have ny0 : NotNan y0 := Fl.le_refl_of_ne (hy _ (List.mem_of_getElem? hy0))
  have nyn : NotNan yn := Fl.le_refl_of_ne (hy _ (List.mem_of_getElem? hyn))
  have body : ∀ j : Index, 1 ≤ j.val → pos.lo.val ≤ j.val → j.val ≤ pos.hi.val → j.val < xs.length →
      ∃ P, Piece dbg xs ys id x j P ∧ ∀ r, lerpBody dbg xs ys id x j r = Ivl.assignPartial r P := by
    intro j j1 j2 j3 j4
    obtain ⟨i, hi⟩ : ∃ i : Nat, j.val = i + 1 := ⟨(j.val - 1).toNat, by omega⟩
    obtain ⟨a0, h0⟩ : ∃ v, xs[i]? = some v := ⟨_, List.getElem?_eq_getElem (by omega)⟩
    obtain ⟨a1, h1⟩ : ∃ v, xs[i + 1]? = some v := ⟨_, List.getElem?_eq_getElem (by omega)⟩
    obtain ⟨b0, k0⟩ : ∃ v, ys[i]? = some v := ⟨_, List.getElem?_eq_getElem (by omega)⟩
    obtain ⟨b1, k1⟩ : ∃ v, ys[i + 1]? = some v := ⟨_, List.getElem?_eq_getElem (by omega)⟩
    have hcell := ht i a0 a1 b0 b1 h0 h1 k0 k1
    have t1 : (j.val - 1).toNat = i := by omega
    have t2 : j.val.toNat = i + 1 := by omega
    obtain ⟨xc, hxc⟩ := C52_positions_partial .lower dbg false id (by simp) xs hs x hx pos hpos (.scalar j) (by simp only [Arg.lo]; omega)
      (by simp only [Arg.hi]; omega) (by simp [Arg.lo, Arg.hi]) (by simp)
    obtain ⟨w1, w4, w5, w2, w3⟩ := C52_within .lower dbg false id (by simp) xs hs x hx (.scalar j) (by simp only [Arg.lo]; omega)
      (by simp only [Arg.hi]; omega) (by simp [Arg.lo, Arg.hi]) xc hxc
    have w2' := w2 a0 (by simp only [Arg.lo]; omega) (by simp only [Arg.lo]; rw [t1]; exact h0)
    have w3' := w3 a1 (by simp only [Arg.hi]; rw [t2]; exact h1)
    obtain ⟨d, q, p, r, f1, f2, f3, f4, g1, g2, g3, g4, _⟩ := lerp_encl_full dbg hcell xc w1 w2' w3'
    refine ⟨r, ⟨a0, a1, b0, b1, xc, d, q, p, by rw [t1]; exact h0, by rw [t2]; exact h1, by rw [t1]; exact k0, by rw [t2]; exact k1, hxc, hcell, w1, f1, f2, f3, f4,
      g1, g2, g3, g4⟩, fun s => ?_⟩
    unfold lerpBody
    rw [rangeAt_nat h0 (by omega), rangeAt_nat h1 (by omega), rangeAt_nat k0 (by omega), rangeAt_nat k1 (by omega)]
    simp only [ok_bind]
    rw [show constrainAt dbg false id x xs (lowerPredI dbg false (.ident false id x)) (.scalar j) = .ok xc from hxc]
    simp only [ok_bind, f1, f2, f3, f4]
  have uniq : ∀ j P P', Piece dbg xs ys id x j P → Piece dbg xs ys id x j P' → P = P' := by
    rintro j P P' ⟨x0, x1, y0, y1, xc, d, q, p, a0, a1, b0, b1, hc, _, _, e1, e2, e3, e4, _⟩ ⟨x0', x1', y0', y1', xc', d', q', p', a0', a1', b0', b1', hc', _, _, e1', e2', e3', e4', _⟩
    rw [a0] at a0'; rw [a1] at a1'; rw [b0] at b0'; rw [b1] at b1'; rw [hc] at hc'
    cases a0'; cases a1'; cases b0'; cases b1'; cases hc'
    rw [e1] at e1'; cases e1'; rw [e2] at e2'; cases e2'; rw [e3] at e3'; cases e3'; rw [e4] at e4'; cases e4'; rfl
  have hrun := interpolateLinear_run dbg xs ys id idi x hn hlen h63 pos hpos ppos y0 yn ry0 ryn
  -- the same run with a growing result, and with the invariant
  obtain ⟨r1, e1, n1, n1', g1, v1⟩ : ∃ r1, (if pos.lo.val = 0 then Ivl.assignPartial Ivl.unassigned (Ivl.ofVal y0) else pure (Ivl.unassigned : Ivl (Fl K))) = .ok r1 ∧
      NotNan r1.lo ∧ NotNan r1.hi ∧ (pos.lo.val = 0 → y0 ∈ᵢ r1) ∧ ∀ A : Fl K → Prop, (pos.lo.val = 0 → A y0) → Inv A r1 := by
    by_cases h : pos.lo.val = 0
    · rw [if_pos h]
      obtain ⟨r1, e1, n1, n2, _, g2⟩ := assign_grow (r := (Ivl.unassigned : Ivl (Fl K))) notNan_top notNan_bot (X := Ivl.ofVal y0) ny0
      refine ⟨r1, e1, n1, n2, fun _ => g2 y0 ⟨ny0, ny0⟩, fun A hA => ?_⟩
      obtain ⟨r', e', i'⟩ := assign_inv (A := A) (r := Ivl.unassigned) (.inl rfl) (Y := Ivl.ofVal y0) ny0 (hA h) (hA h)
      rw [e1] at e'; cases e'; exact i'
    · rw [if_neg h]
      exact ⟨_, rfl, notNan_top, notNan_bot, fun h' => absurd h' h, fun _ _ => .inl rfl⟩
  obtain ⟨r2, e2, n2, n2', g2, g2', v2⟩ : ∃ r2, (if pos.hi.val = xs.length then Ivl.assignPartial r1 (Ivl.ofVal yn) else pure r1) = .ok r2 ∧
      NotNan r2.lo ∧ NotNan r2.hi ∧ (∀ v, v ∈ᵢ r1 → v ∈ᵢ r2) ∧ (pos.hi.val = xs.length → yn ∈ᵢ r2) ∧
      ∀ A : Fl K → Prop, (pos.lo.val = 0 → A y0) → (pos.hi.val = xs.length → A yn) → Inv A r2 := by
    by_cases h : pos.hi.val = xs.length
    · rw [if_pos h]
      obtain ⟨r2, e2, m1, m2, q1, q2⟩ := assign_grow n1 n1' (X := Ivl.ofVal yn) nyn
      refine ⟨r2, e2, m1, m2, q1, fun _ => q2 yn ⟨nyn, nyn⟩, fun A hA hB => ?_⟩
      obtain ⟨r', e', i'⟩ := assign_inv (v1 A hA) (Y := Ivl.ofVal yn) nyn (hB h) (hB h)
      rw [e2] at e'; cases e'; exact i'
    · rw [if_neg h]
      exact ⟨_, rfl, n1, n1', fun v hv => hv, fun h' => absurd h' h, fun A hA _ => v1 A hA⟩
  replace hrun : interpolateLinear dbg xs ys id idi x = (if 0 < pos.hi.val ∧ pos.lo.val < xs.length then
        (ivlVals (-(2:Int)^63) (2^63 - 1) (min ((xs.length : Int) - 1) pos.hi.val - max 1 pos.lo.val).toNat (max 1 pos.lo.val)).foldlM
          (fun s j => lerpBody dbg xs ys id x j s) r2
      else pure r2) := by
    rw [hrun]
    by_cases h1 : pos.lo.val = 0 <;> by_cases h2 : pos.hi.val = xs.length <;>
      simp only [h1, h2, if_true, if_false] at e1 e2 ⊢ <;> simp only [e1, e2, ok_bind]
  have ends : ∀ A : Fl K → Prop, (∀ P, PieceOf dbg xs ys id x pos P → A P.lo ∧ A P.hi) → Inv A r2 := fun A hA =>
    v2 A (fun h => (hA _ (.inl ⟨h, y0, hy0, rfl⟩)).1) (fun h => (hA _ (.inr (.inl ⟨h, yn, hyn, rfl⟩))).1)
  have point : ∀ {u v : Fl K} {R : Ivl (Fl K)}, u ∈ᵢ R → v ∈ᵢ Ivl.ofVal u → v ∈ᵢ R := fun h h' =>
    ⟨CppOrder.le_trans _ _ _ h.1 h'.1, CppOrder.le_trans _ _ _ h'.2 h.2⟩
  have ex : ∀ j : Index, 1 ≤ j.val → pos.lo.val ≤ j.val → j.val ≤ pos.hi.val → j.val < xs.length → ∃ P, Piece dbg xs ys id x j P := fun j a b c d => by
    obtain ⟨P, hP, _⟩ := body j a b c d
    exact ⟨P, hP⟩
  by_cases hm : 0 < pos.hi.val ∧ pos.lo.val < xs.length
  swap
  · rw [if_neg hm] at hrun
    refine ⟨r2, hrun, ?_, ex, ends⟩
    rintro P (⟨h, y, hy', rfl⟩ | ⟨h, y, hy', rfl⟩ | ⟨j, j1, j2, j3, j4, _⟩) v hv
    · rw [hy0] at hy'; cases hy'; exact point (g2 _ (g1 h)) hv
    · rw [hyn] at hy'; cases hy'; exact point (g2' h) hv
    · omega
  rw [if_pos hm] at hrun
  have mem : ∀ j : Index, j ∈ ivlVals (-(2:Int)^63) (2^63 - 1) (min ((xs.length : Int) - 1) pos.hi.val - max 1 pos.lo.val).toNat (max 1 pos.lo.val) ↔
      (1 ≤ j.val ∧ pos.lo.val ≤ j.val ∧ j.val ≤ pos.hi.val ∧ j.val < xs.length) := fun j => by
    rw [mem_ivlVals (by omega) (by omega)]; omega
  obtain ⟨r3, e3, _, _, g3, g4⟩ := fold_grow (fun j s => lerpBody dbg xs ys id x j s) (fun j v => ∀ P, Piece dbg xs ys id x j P → v ∈ᵢ P)
    (ivlVals (-(2:Int)^63) (2^63 - 1) (min ((xs.length : Int) - 1) pos.hi.val - max 1 pos.lo.val).toNat (max 1 pos.lo.val)) (fun j hj => by
      obtain ⟨j1, j2, j3, j4⟩ := (mem j).mp hj
      obtain ⟨P, hP, hb⟩ := body j j1 j2 j3 j4
      have pp := hP
      obtain ⟨_, _, _, _, _, _, _, _, _, _, _, _, _, _, _, _, _, _, _, _, _, _, w⟩ := pp
      exact ⟨P, w, fun v hv => hv P hP, hb⟩) r2 n2 n2'
  rw [e3] at hrun
  refine ⟨r3, hrun, ?_, ex, fun A hA => ?_⟩
  · rintro P (⟨h, y, hy', rfl⟩ | ⟨h, y, hy', rfl⟩ | ⟨j, j1, j2, j3, j4, hP⟩) v hv
    · rw [hy0] at hy'; cases hy'; exact g3 _ (point (g2 _ (g1 h)) hv)
    · rw [hyn] at hy'; cases hy'; exact g3 _ (point (g2' h) hv)
    · exact g4 j ((mem j).mpr ⟨j1, j2, j3, j4⟩) v fun P' hP' => uniq j P P' hP hP' ▸ hv
  · obtain ⟨r', e', i'⟩ := fold_inv (A := A) (fun j s => lerpBody dbg xs ys id x j s)
      (ivlVals (-(2:Int)^63) (2^63 - 1) (min ((xs.length : Int) - 1) pos.hi.val - max 1 pos.lo.val).toNat (max 1 pos.lo.val)) (fun j hj => by
        obtain ⟨j1, j2, j3, j4⟩ := (mem j).mp hj
        obtain ⟨P, hP, hb⟩ := body j j1 j2 j3 j4
        have pp := hP
        obtain ⟨_, _, _, _, _, _, _, _, _, _, _, _, _, _, _, _, _, _, _, _, _, _, w⟩ := pp
        have := hA P (.inr (.inr ⟨j, j1, j2, j3, j4, hP⟩))
        exact ⟨P, w, this.1, this.2, hb⟩) r2 (ends A hA)
    rw [e3] at e'; cases e'; exact i'

/-- C107 for `interpolate_linear` in every format: under the conditions of C55 (no difference of the table overflows, no width underflows), a smaller interval
gives a smaller result. -/
theorem C107_linear_isotone (dbg : Bool) (xs ys : List (Fl K)) (id idi : Nat) (x x' : Ivl (Fl K)) (hx : Proper x) (hsub : ∀ v, v ∈ᵢ x → v ∈ᵢ x')
    (hn : 2 ≤ xs.length) (hlen : ys.length = xs.length) (h63 : (xs.length : Int) < 2^63) (hs : SortedR xs) (hy : ∀ y ∈ ys, y ≠ .nan) (ht : TableOk xs ys) :
    ∃ R R', interpolateLinear dbg xs ys id idi x = .ok R ∧ interpolateLinear dbg xs ys id idi x' = .ok R' ∧ ∀ y, y ∈ᵢ R → y ∈ᵢ R' := by
  have hx1 : le x.lo x.hi = true := hx
  have xl : x.lo ∈ᵢ x := ⟨CppOrder.le_left _ _ hx1, hx1⟩
  have xh : x.hi ∈ᵢ x := ⟨hx1, CppOrder.le_right _ _ hx1⟩
  have hx' : Proper x' := proper_of (hsub x.lo xl)
  obtain ⟨pos, hpos, hplo, hphi, hpmem⟩ := C51_lower_bound dbg false xs hs (.ident false id x) x rfl hx
  obtain ⟨pos', hpos', hplo', hphi', hpmem'⟩ := C51_lower_bound dbg false xs hs (.ident false id x') x' rfl hx'
  have l1 : pos'.lo.val ≤ pos.lo.val ∧ pos.lo.val ≤ pos'.hi.val := by
    obtain ⟨r, hr, hr'⟩ := hpmem' x.lo (hsub _ xl)
    rw [hplo] at hr; cases hr
    exact ⟨bint_le.mp hr'.1, bint_le.mp hr'.2⟩
  have l2 : pos'.lo.val ≤ pos.hi.val ∧ pos.hi.val ≤ pos'.hi.val := by
    obtain ⟨r, hr, hr'⟩ := hpmem' x.hi (hsub _ xh)
    rw [hphi] at hr; cases hr
    exact ⟨bint_le.mp hr'.1, bint_le.mp hr'.2⟩
  have l3 : pos.lo.val ≤ pos.hi.val := by
    obtain ⟨r, hr, hr'⟩ := hpmem x.lo xl
    have h1 := bint_le.mp hr'.1; have h2 := bint_le.mp hr'.2; omega
  have p0 := pos.lo.ge; have p1 := pos'.lo.ge; have p2 := pos.hi.le; have p3 := pos'.hi.le
  obtain ⟨R, hR, _, _, inv⟩ := run_pieces dbg xs ys id idi x hx hn hlen h63 hs hy ht pos hpos l3
  obtain ⟨R', hR', sub', ex', _⟩ := run_pieces dbg xs ys id idi x' hx' hn hlen h63 hs hy ht pos' hpos' (by omega)
  refine ⟨R, R', hR, hR', ?_⟩
  have key : Inv (fun u => u ∈ᵢ R') R := by
    refine inv _ fun P hP => ?_
    have grow : ∃ P', PieceOf dbg xs ys id x' pos' P' ∧ Proper P ∧ ∀ v, v ∈ᵢ P → v ∈ᵢ P' := by
      rcases hP with ⟨h, y, hy', rfl⟩ | ⟨h, y, hy', rfl⟩ | ⟨j, j1, j2, j3, j4, hP⟩
      · exact ⟨_, .inl ⟨by omega, y, hy', rfl⟩, Fl.le_refl_of_ne (hy y (List.mem_of_getElem? hy')), fun _ h => h⟩
      · exact ⟨_, .inr (.inl ⟨by omega, y, hy', rfl⟩), Fl.le_refl_of_ne (hy y (List.mem_of_getElem? hy')), fun _ h => h⟩
      · obtain ⟨P', hP'⟩ := ex' j j1 (by omega) (by omega) j4
        have pp := hP
        obtain ⟨_, _, _, _, _, _, _, _, _, _, _, _, _, _, _, _, _, _, _, _, _, _, w⟩ := pp
        exact ⟨P', .inr (.inr ⟨j, j1, by omega, by omega, j4, hP'⟩), w, piece_mono hs hx hsub (by omega) (by omega) hP hP'⟩
    obtain ⟨P', hP', w, hsubP⟩ := grow
    have w' : le P.lo P.hi = true := w
    exact ⟨sub' P' hP' _ (hsubP _ ⟨CppOrder.le_left _ _ w', w'⟩), sub' P' hP' _ (hsubP _ ⟨w', CppOrder.le_right _ _ w'⟩)⟩
  intro y hy
  rcases key with h | ⟨h1, h2⟩
  · rw [h] at hy
    have := proper_of hy
    exact absurd this (by simp [Proper, Ivl.unassigned, CppLimits.top, CppLimits.bot])
  · exact ⟨CppOrder.le_trans _ _ _ h1.1 hy.1, CppOrder.le_trans _ _ _ hy.2 h2.2⟩
end formats
/-! On the table of the documentation `y([1.5, 3]) = [2, 6]` lies within `y([1.5, 5]) = [2, 9]`. -/
example : (let := exactFmt ℚ; interpolateLinear (K := ℚ) true [.num 1, .num 2, .num 4, .num 8] [.num 1, .num 3, .num 9, .num (-3)] 0 1
    ⟨.num (3/2), .num 3⟩) = .ok ⟨.num 2, .num 6⟩ := by decide +kernel

section nearest
variable [Fmt K]
/-- C107 for `interpolate_nearest_neighbour`, in every format: if no two midpoints coincide, both bounds of the result are scalar results of points of the
interval.  Without the condition on the midpoints it is false (`C107_nearest_rounded`). -/
theorem C107_nearest_distinct (dbg : Bool) (mid : Fl K → Fl K → Fl K) (xs ys : List (Fl K)) (id : Nat) (x : Ivl (Fl K)) (hx : Proper x)
    (hmid : ∀ a ∈ xs, ∀ b ∈ xs, le a b = true → le a (mid a b) = true ∧ le (mid a b) b = true) (hn : 2 ≤ xs.length)
    (hlen : ys.length = xs.length) (h63 : (xs.length : Int) < 2^63) (hs : SortedR xs) (hy : ∀ y ∈ ys, y ≠ .nan)
    (hst : ∀ (i : Nat) (a b c : Fl K), xs[i]? = some a → xs[i + 1]? = some b → xs[i + 2]? = some c → lt (mid a b) (mid b c) = true) :
    ∃ R, nearest dbg mid xs ys id x = .ok R ∧ (∀ v, v ∈ᵢ x → ∃ y, nearestScalar dbg mid xs ys v = .ok y ∧ y ∈ᵢ R) ∧
      (∃ v, v ∈ᵢ x ∧ ∃ y, nearestScalar dbg mid xs ys v = .ok y ∧ eq R.lo y = true) ∧
      (∃ v, v ∈ᵢ x ∧ ∃ y, nearestScalar dbg mid xs ys v = .ok y ∧ eq R.hi y = true) := by
  obtain ⟨R, h1, h2, h3, -⟩ := nearest_full dbg mid xs ys id x hx hmid hn hlen h63 hs hy
  exact ⟨R, h1, h2, h3 hst⟩

private theorem point_mono {V : Type _} {f g : V → Bool} {a : List V} {j k : Nat} (hf : IsPoint f a j) (hg : IsPoint g a k) (h : ∀ v ∈ a, f v = true → g v = true) : j ≤ k := by
  rcases Nat.lt_or_ge k j with hlt | hge
  · have hj := hf.1
    have e : a[k]? = some a[k] := List.getElem?_eq_getElem (by omega)
    have := (hg.2 k _ e).mp (h _ (List.mem_of_getElem? e) ((hf.2 k _ e).mpr hlt))
    omega
  · exact hge

/-- C107: `interpolate_nearest_neighbour` is inclusion isotone, in every format and for every sorted table. -/
theorem C107_nearest_isotone (dbg : Bool) (mid : Fl K → Fl K → Fl K) (xs ys : List (Fl K)) (id : Nat) (x x' : Ivl (Fl K)) (hx : Proper x)
    (hsub : ∀ v, v ∈ᵢ x → v ∈ᵢ x')
    (hmid : ∀ a ∈ xs, ∀ b ∈ xs, le a b = true → le a (mid a b) = true ∧ le (mid a b) b = true) (hn : 2 ≤ xs.length)
    (hlen : ys.length = xs.length) (h63 : (xs.length : Int) < 2^63) (hs : SortedR xs) (hy : ∀ y ∈ ys, y ≠ .nan) :
    ∃ R R', nearest dbg mid xs ys id x = .ok R ∧ nearest dbg mid xs ys id x' = .ok R' ∧ ∀ y, y ∈ᵢ R → y ∈ᵢ R' := by
  have hx1 : le x.lo x.hi = true := hx
  have xl := hsub x.lo ⟨CppOrder.le_left _ _ hx1, hx1⟩
  have xh := hsub x.hi ⟨hx1, CppOrder.le_right _ _ hx1⟩
  have hx' : Proper x' := proper_of xl
  obtain ⟨R, h1, -, -, j, k, hj, hk, -, ⟨a, a1, a2, u, a3, a4⟩, ⟨b, b1, b2, w, b3, b4⟩⟩ := nearest_full dbg mid xs ys id x hx hmid hn hlen h63 hs hy
  obtain ⟨R', h1', -, -, j', k', hj', hk', s, -, -⟩ := nearest_full dbg mid xs ys id x' hx' hmid hn hlen h63 hs hy
  have l1 := point_mono hj' hj fun _ _ h => lt_mono'' h xl.1
  have l2 := point_mono hk hk' fun _ _ h => lt_mono'' h xh.2
  have s1 := s a (by omega) (by omega) u a3
  have s2 := s b (by omega) (by omega) w b3
  exact ⟨R, R', h1, h1', fun y hy => ⟨CppOrder.le_trans _ _ _ s1.1 (CppOrder.le_trans _ _ _ (le_of_eq'' a4).2 hy.1),
    CppOrder.le_trans _ _ _ hy.2 (CppOrder.le_trans _ _ _ (le_of_eq'' b4).1 s2.2)⟩⟩
end nearest
/-! The bounds of `y([1.5, 5]) = [1, 9]` are the values at 1.5 and at 3.5; the value at the right end is 9 too. -/
example : (let := exactFmt ℚ; ∀ dbg, nearestScalar (K := ℚ) dbg (fun a b => .num ((a.val + b.val) / 2)) [.num 1, .num 2, .num 4, .num 8]
    [.num 1, .num 3, .num 9, .num (-3)] (.num (3/2)) = .ok (.num 1)) := by decide +kernel

/-- with exact midpoints the condition holds for every strictly increasing table of numbers -/
theorem C107_nearest_exact (dbg : Bool) (xs ys : List (Fl K)) (id : Nat) (x : Ivl (Fl K)) (hx : Proper x) (hn : 2 ≤ xs.length)
    (hlen : ys.length = xs.length) (h63 : (xs.length : Int) < 2^63) (hs : StrictR xs) (fx : ∀ v ∈ xs, v.isFinite = true)
    (hy : ∀ y ∈ ys, y ≠ .nan) :
    letI := exactFmt K
    let mid : Fl K → Fl K → Fl K := fun a b => .num ((a.val + b.val) / 2)
    ∃ R, nearest dbg mid xs ys id x = .ok R ∧ (∀ v, v ∈ᵢ x → ∃ y, nearestScalar dbg mid xs ys v = .ok y ∧ y ∈ᵢ R) ∧
      (∃ v, v ∈ᵢ x ∧ ∃ y, nearestScalar dbg mid xs ys v = .ok y ∧ eq R.lo y = true) ∧
      (∃ v, v ∈ᵢ x ∧ ∃ y, nearestScalar dbg mid xs ys v = .ok y ∧ eq R.hi y = true) := by
  letI := exactFmt K
  refine C107_nearest_distinct dbg _ xs ys id x hx (fun a ha b hb hab => ?_) hn hlen h63 (Intervals.StrictR.sorted hs) hy (fun i a b c ha hb hc => ?_)
  · have f0 := Fl.Is.of_finite (fx a ha)
    have f1 := Fl.Is.of_finite (fx b hb)
    have h := (f0.le_iff f1).mp hab
    exact ⟨(f0.le_iff (Fl.Is.num _)).mpr (by linarith), ((Fl.Is.num _).le_iff f1).mpr (by linarith)⟩
  · have f0 := Fl.Is.of_finite (fx a (List.mem_of_getElem? ha))
    have f1 := Fl.Is.of_finite (fx b (List.mem_of_getElem? hb))
    have f2 := Fl.Is.of_finite (fx c (List.mem_of_getElem? hc))
    obtain ⟨n0, rfl⟩ := List.getElem?_eq_some_iff.mp ha
    obtain ⟨n1, rfl⟩ := List.getElem?_eq_some_iff.mp hb
    obtain ⟨n2, rfl⟩ := List.getElem?_eq_some_iff.mp hc
    have h1 := (f0.lt_iff f1).mp (List.pairwise_iff_getElem.mp hs.1 i (i + 1) n0 n1 (by omega))
    have h2 := (f1.lt_iff f2).mp (List.pairwise_iff_getElem.mp hs.1 (i + 1) (i + 2) n1 n2 (by omega))
    exact ((Fl.Is.num _).lt_iff (Fl.Is.num _)).mpr (by linarith)

/-- In a rounded format two midpoints can coincide though the table is strictly increasing: with 3 bits, those of 5, 6 and of 6, 7 are both rounded to 6.
The ordinate at 6 is then no scalar result, but it is the upper bound of the result. -/
theorem C107_nearest_rounded : letI := binFmt (K := ℚ) 3 (-10) 1000 (by decide) (by decide)
    let mid : Fl ℚ → Fl ℚ → Fl ℚ := fun a b => Fmt.rnd ((a.val + b.val) / 2)
    let xs : List (Fl ℚ) := [.num 5, .num 6, .num 7]
    let ys : List (Fl ℚ) := [.num 1, .num 5, .num 2]
    StrictR xs ∧ (∀ v ∈ xs ++ ys, Representable v) ∧ ∀ dbg, nearest dbg mid xs ys 0 ⟨.num 5, .num 7⟩ = .ok ⟨.num 1, .num 5⟩ ∧
      ∀ v y, nearestScalar dbg mid xs ys v = .ok y → y = .num 1 ∨ y = .num 2 := by
  letI := binFmt (K := ℚ) 3 (-10) 1000 (by decide) (by decide)
  have rep : ∀ v ∈ [num 5, num 6, num 7] ++ [num 1, num 5, (num 2 : Fl ℚ)], Representable v := by
    simp only [List.cons_append, List.nil_append, List.forall_mem_cons, Representable]
    exact ⟨by decide +kernel, by decide +kernel, by decide +kernel, by decide +kernel, by decide +kernel, by decide +kernel, by simp⟩
  refine ⟨by unfold StrictR NotNan; decide +kernel, rep, fun dbg => ⟨by revert dbg; decide +kernel, fun v y h => ?_⟩⟩
  have m0 : (Fmt.rnd ((5 + 6) / 2) : Fl ℚ) = .num 6 := by decide +kernel
  have m1 : (Fmt.rnd ((6 + 7) / 2) : Fl ℚ) = .num 6 := by decide +kernel
  have hp : ∀ i ∈ List.range 2, nnPredS (fun a b : Fl ℚ => Fmt.rnd ((a.val + b.val) / 2)) [.num 5, .num 6, .num 7] v i = .ok (lt (.num 6) v) := by
    intro i hi
    have : i = 0 ∨ i = 1 := by have := List.mem_range.mp hi; omega
    rcases this with rfl | rfl
    · exact congrArg (fun u => (.ok (lt u v) : Outcome Bool)) m0
    · exact congrArg (fun u => (.ok (lt u v) : Outcome Bool)) m1
  unfold nearestScalar at h
  simp only [List.length_cons, List.length_nil, Nat.reduceAdd, Nat.reduceLeDiff, decide_true, expects_true, expectsDebug_true, ok_bind, Nat.reduceSub] at h
  by_cases hv : lt (.num 6) v = true
  · obtain ⟨s, e, e'⟩ := stdPartitionPoint_spec hp (j := 2) ⟨by simp, fun i w hw => by
      obtain ⟨hi, -⟩ := List.getElem?_eq_some_iff.mp hw
      simp only [List.length_range] at hi; simp [hv, hi]⟩
    obtain rfl : s = ⟨2, by decide, by decide⟩ := BInt.ext e'
    rw [e] at h
    right
    have : (.ok (.num 2) : Outcome (Fl ℚ)) = .ok y := h
    cases this; rfl
  · obtain ⟨s, e, e'⟩ := stdPartitionPoint_spec hp (j := 0) ⟨by simp, fun i w hw => by simp [hv]⟩
    obtain rfl : s = ⟨0, by decide, by decide⟩ := BInt.ext e'
    rw [e] at h
    left
    have : (.ok (.num 1) : Outcome (Fl ℚ)) = .ok y := h
    cases this; rfl
end Intervals.Props
