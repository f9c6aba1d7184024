import Verif.Model.NarrowInt
import Verif.Props.IntArith
import Verif.Props.Narrow
/-!
# C76: products and quotients of intervals of integer types narrower than `int`

The claim is that the result contains the product of every pair of points (`C76_full`).  It is false (`C76_violated`): products that the
narrow type cannot represent are reduced modulo `2^(k+1)` without any diagnostic.  `C76_mul_partial` and the theorems after it determine
exactly when the result is right.
-/
namespace Intervals.Props
open Intervals CppVal Spec CppNum

variable {k m : Nat}

/-- products of the narrow type do not overflow `int` -/
theorem rep_mul (h : 2 * k < m) (a b : SInt k) : Rep m (a.val * b.val) := by
  have a1 := a.ge; have a2 := a.le; have b1 := b.ge; have b2 := b.le
  have p : (0:Int) < 2^k := Int.pow_pos (by decide)
  have e : (2:Int)^(2*k) = 2^k * 2^k := by rw [← Int.pow_add, Nat.two_mul]
  have l : (2:Int)^(2*k) * 2 ≤ 2^m := by
    rw [← Int.pow_succ]; exact pow_le_pow_right₀ (by decide) h
  have q : (0:Int) < 2^k * 2^k := by positivity
  constructor <;> nlinarith

theorem wrap_congr (v : Int) : (2:Int)^(k+1) ∣ v - wrapInt k v := by
  unfold wrapInt
  have := Int.emod_add_mul_ediv (v + 2^k) (2^(k+1))
  exact ⟨(v + 2^k) / 2^(k+1), by omega⟩

/-- the store of a product into a narrow variable -/
theorem promoted_mul (h : 2 * k < m) (a b : SInt k) :
    (promotedNum m k).mul a b = .ok ⟨wrapInt k (a.val * b.val), wrapInt_ge _ _, wrapInt_le _ _⟩ := by
  change (SInt.of m (a.val * b.val) >>= fun v => pure (narrowCastV k v)) = _
  rw [SInt.of_ok (rep_mul h a b)]; rfl

theorem hull2_bounds (a b : SInt k) : ∃ R, hull2 a b = .ok R ∧ R.lo.val = min a.val b.val ∧ R.hi.val = max a.val b.val := by
  unfold hull2
  rw [sint_make _ _ (by rw [sint_cmin, sint_cmax]; omega)]
  exact ⟨_, rfl, sint_cmin _ _, sint_cmax _ _⟩
theorem hull4_bounds (a b c d : SInt k) : ∃ R, hull4 a b c d = .ok R ∧ R.lo.val = min (min a.val b.val) (min c.val d.val) ∧
    R.hi.val = max (max a.val b.val) (max c.val d.val) := by
  unfold hull4
  rw [sint_make _ _ (by simp only [sint_cmin, sint_cmax]; omega)]
  exact ⟨_, rfl, by simp only [sint_cmin], by simp only [sint_cmax]⟩

theorem mulN_bounds (h : 2 * k < m) (dbg : Bool) (X Y : Arg (SInt k)) (hX : Inhab X) (hY : Inhab Y) :
    ∃ R, mulN m dbg X Y = .ok R ∧
      R.lo.val = min (min (wrapInt k (X.lo.val * Y.lo.val)) (wrapInt k (X.lo.val * Y.hi.val)))
        (min (wrapInt k (X.hi.val * Y.lo.val)) (wrapInt k (X.hi.val * Y.hi.val))) ∧
      R.hi.val = max (max (wrapInt k (X.lo.val * Y.lo.val)) (wrapInt k (X.lo.val * Y.hi.val)))
        (max (wrapInt k (X.hi.val * Y.lo.val)) (wrapInt k (X.hi.val * Y.hi.val))) := by
  have hd : ∀ f : Unit → Outcome (Ivl (SInt k)), (expectsDebug dbg (X.assigned && Y.assigned) >>= f) = f () := by
    intro f; rw [assigned_of_inhab hX, assigned_of_inhab hY]; simp only [Bool.and_self, expectsDebug_true, ok_bind]
  have two : ∀ a b c d : SInt k, ∃ R, (do
        let v1 ← (promotedNum m k).mul a b
        let v2 ← (promotedNum m k).mul c d
        hull2 v1 v2) = .ok R ∧ R.lo.val = min (wrapInt k (a.val * b.val)) (wrapInt k (c.val * d.val)) ∧
        R.hi.val = max (wrapInt k (a.val * b.val)) (wrapInt k (c.val * d.val)) := by
    intro a b c d
    rw [promoted_mul h, promoted_mul h]
    exact hull2_bounds _ _
  unfold mulN mulI
  rw [hd]
  cases X with
  | scalar s =>
    obtain ⟨R, hR, e1, e2⟩ := two s Y.lo s Y.hi
    exact ⟨R, hR, by simp only [alo_s, ahi_s]; omega, by simp only [alo_s, ahi_s]; omega⟩
  | ivl x =>
    cases Y with
    | scalar s =>
      obtain ⟨R, hR, e1, e2⟩ := two x.lo s x.hi s
      exact ⟨R, hR, by simp only [alo_s, ahi_s, alo_i, ahi_i]; omega, by simp only [alo_s, ahi_s, alo_i, ahi_i]; omega⟩
    | ivl y =>
      have : ∃ R, (do
        let v1 ← (promotedNum m k).mul x.lo y.lo
        let v2 ← (promotedNum m k).mul x.lo y.hi
        let v3 ← (promotedNum m k).mul x.hi y.lo
        let v4 ← (promotedNum m k).mul x.hi y.hi
        hull4 v1 v2 v3 v4) = .ok R ∧
        R.lo.val = min (min (wrapInt k (x.lo.val * y.lo.val)) (wrapInt k (x.lo.val * y.hi.val)))
          (min (wrapInt k (x.hi.val * y.lo.val)) (wrapInt k (x.hi.val * y.hi.val))) ∧
        R.hi.val = max (max (wrapInt k (x.lo.val * y.lo.val)) (wrapInt k (x.lo.val * y.hi.val)))
          (max (wrapInt k (x.hi.val * y.lo.val)) (wrapInt k (x.hi.val * y.hi.val))) := by
        rw [promoted_mul h, promoted_mul h, promoted_mul h, promoted_mul h]
        exact hull4_bounds _ _ _ _
      obtain ⟨R, hR, e1, e2⟩ := this
      exact ⟨R, hR, e1, e2⟩

/-- C76 as stated: products, quotients and products with signs contain the results of all points. -/
def C76_full : Prop :=
  (∀ (k m : Nat) (dbg : Bool) (X Y : Arg (SInt k)), 2 * k < m → Inhab X → Inhab Y →
    ∃ R, mulN m dbg X Y = .ok R ∧ ∀ a b, InI a X → InI b Y → R.lo.val ≤ a * b ∧ a * b ≤ R.hi.val) ∧
  (∀ (k m : Nat) (dbg : Bool) (X : Ivl (SInt k)) (y : SInt k), k < m → Inhab (.ivl X) → y.val ≠ 0 →
    ∃ R, divN m dbg X y = .ok R ∧ ∀ a q, InI a (.ivl X) → IsQuot a y.val q → R.lo.val ≤ q ∧ q ≤ R.hi.val) ∧
  (∀ (k m : Nat) (h : k < m) (dbg : Bool) (s : Sign) (X : Ivl (SInt k)), Inhab (.ivl X) →
    ∃ R, signMulN m h.le dbg s X = .ok R ∧ ∀ a, InI a (.ivl X) → R.lo.val ≤ signMulInt s a ∧ signMulInt s a ≤ R.hi.val) ∧
  (∀ (k m : Nat) (S : SignSet) (x : SInt k), k < m →
    ∃ R, valMulSignSetN m x S = .ok R ∧ ∀ s, SMem s S → R.lo.val ≤ signMulInt s x.val ∧ signMulInt s x.val ≤ R.hi.val)

/-- C76, products: always an interval; it contains the product of every pair of points if and only if the narrow type can represent every
such product, and is then exact.  In any case the bounds are products of points up to a multiple of `2^(k+1)`.  (Missing: enclosure when a
product is not representable, see `C76_violated`.) -/
theorem C76_mul_partial (h : 2 * k < m) (dbg : Bool) (X Y : Arg (SInt k)) (hX : Inhab X) (hY : Inhab Y) :
    ∃ R, mulN m dbg X Y = .ok R ∧ R.lo.val ≤ R.hi.val ∧
      ((∀ a b, InI a X → InI b Y → R.lo.val ≤ a * b ∧ a * b ≤ R.hi.val) ↔ ∀ a b, InI a X → InI b Y → Rep k (a * b)) ∧
      ((∀ a b, InI a X → InI b Y → Rep k (a * b)) → ExactInt2 (fun a b => some (a * b)) X Y (.ok R)) ∧
      (∃ a b, InI a X ∧ InI b Y ∧ (2:Int)^(k+1) ∣ a * b - R.lo.val) ∧
      (∃ a b, InI a X ∧ InI b Y ∧ (2:Int)^(k+1) ∣ a * b - R.hi.val) := by
  obtain ⟨R, hR, hl, hh⟩ := mulN_bounds h dbg X Y hX hY
  have hx := InI.lo X hX; have hx' := InI.hi X hX; have hy := InI.lo Y hY; have hy' := InI.hi Y hY
  have hc : ∀ a b, InI a X → InI b Y → _ := fun a b ha hb =>
    corner_bound (fun a b => a * b) X.lo.val X.hi.val Y.lo.val Y.hi.val
      (fun b _ _ => between_mul_left b _ _) (fun a _ _ => between_mul_right a _ _) a b
      (InI.bounds ha).1 (InI.bounds ha).2 (InI.bounds hb).1 (InI.bounds hb).2
  have enc : (∀ a b, InI a X → InI b Y → Rep k (a * b)) → ∀ a b, InI a X → InI b Y → R.lo.val ≤ a * b ∧ a * b ≤ R.hi.val := by
    intro hr a b ha hb
    have := hc a b ha hb
    rw [wrapInt_rep (hr _ _ hx hy), wrapInt_rep (hr _ _ hx hy'), wrapInt_rep (hr _ _ hx' hy), wrapInt_rep (hr _ _ hx' hy')] at hl hh
    rw [hl, hh]; simpa using this
  have pick : ∀ v, v = wrapInt k (X.lo.val * Y.lo.val) ∨ v = wrapInt k (X.lo.val * Y.hi.val) ∨ v = wrapInt k (X.hi.val * Y.lo.val) ∨
      v = wrapInt k (X.hi.val * Y.hi.val) → ∃ a b, InI a X ∧ InI b Y ∧ v = wrapInt k (a * b) := by
    rintro v (e | e | e | e)
    · exact ⟨_, _, hx, hy, e⟩
    · exact ⟨_, _, hx, hy', e⟩
    · exact ⟨_, _, hx', hy, e⟩
    · exact ⟨_, _, hx', hy', e⟩
  obtain ⟨a1, b1, ha1, hb1, e1⟩ := pick R.lo.val (by omega)
  obtain ⟨a2, b2, ha2, hb2, e2⟩ := pick R.hi.val (by omega)
  refine ⟨R, hR, by omega, ⟨fun he a b ha hb => ?_, enc⟩, fun hr => ?_, ⟨a1, b1, ha1, hb1, ?_⟩, ⟨a2, b2, ha2, hb2, ?_⟩⟩
  · have := he a b ha hb
    have l := R.lo.rep; have r := R.hi.rep
    exact ⟨by have := l.1; omega, by have := r.2; omega⟩
  · right
    refine ⟨fun a b ha hb => ⟨_, rfl, hr a b ha hb⟩, R, rfl, fun a b v ha hb hv => ?_, ⟨a1, b1, ha1, hb1, ?_⟩, ⟨a2, b2, ha2, hb2, ?_⟩⟩
    · cases hv; exact enc hr a b ha hb
    · rw [e1, wrapInt_rep (hr _ _ ha1 hb1)]
    · rw [e2, wrapInt_rep (hr _ _ ha2 hb2)]
  · rw [e1]; exact wrap_congr _
  · rw [e2]; exact wrap_congr _

/-- `[1, 300] * [1, 300]` for `short` -/
def shortI : Ivl (SInt 15) := ⟨⟨1, by decide, by decide⟩, ⟨300, by decide, by decide⟩⟩
/-- the negation of `C76_full`: `interval<short>{ 1, 300 }*interval<short>{ 1, 300 }` is `[1, 24464]`; it misses even `150*200 = 30000`,
which a `short` can represent. -/
theorem C76_violated : ¬ C76_full := by
  intro hf
  obtain ⟨R, hR, hin⟩ := hf.1 15 31 true (.ivl shortI) (.ivl shortI) (by decide)
    (show (1:Int) ≤ 300 by decide) (show (1:Int) ≤ 300 by decide)
  have e : (mulN 31 true (.ivl shortI) (.ivl shortI)).map (fun R => (R.lo.val, R.hi.val)) = .ok (1, 24464) := by decide
  rw [hR] at e
  have := hin 150 200 (show (1:Int) ≤ 150 ∧ (150:Int) ≤ 300 by decide) (show (1:Int) ≤ 200 ∧ (200:Int) ≤ 300 by decide)
  have e2 : R.hi.val = 24464 := by
    simp only [Except.map, Except.ok.injEq, Prod.mk.injEq] at e; exact e.2
  omega

theorem rep_tdiv {a y : Int} (ha : Rep k a) (hy : y ≠ 0) : -2^k ≤ a.tdiv y ∧ a.tdiv y ≤ 2^k ∧ (Rep k (a.tdiv y) ↔ ¬ (a = -2^k ∧ y = -1)) := by
  have p : (0:Int) < 2^k := Int.pow_pos (by decide)
  obtain ⟨a1, a2⟩ := ha
  by_cases y1 : y = -1
  · subst y1
    rw [Int.tdiv_neg, Int.tdiv_one]
    refine ⟨by omega, by omega, ?_⟩
    unfold Rep; omega
  · have hb : (a.tdiv y).natAbs ≤ a.natAbs := Int.natAbs_tdiv_le_natAbs a y
    by_cases y2 : y = 1
    · subst y2
      rw [Int.tdiv_one]
      exact ⟨a1, by omega, fun _ => by omega, fun _ => ⟨a1, a2⟩⟩
    · have hlt : 0 < a.natAbs → (a.tdiv y).natAbs < a.natAbs := by
        intro h0
        rw [Int.natAbs_tdiv]
        exact Nat.div_lt_self h0 (by omega)
      have : -2^k ≤ a.tdiv y ∧ a.tdiv y < 2^k := by
        rcases Nat.eq_zero_or_pos a.natAbs with h0 | h0
        · omega
        · have := hlt h0; omega
      exact ⟨this.1, by omega, fun _ => by omega, fun _ => this⟩

theorem rep_widen (h : k < m) {v : Int} (h1 : -2^k ≤ v) (h2 : v ≤ 2^k) : Rep m v := by
  have l : (2:Int)^k * 2 ≤ 2^m := by
    rw [← Int.pow_succ]; exact pow_le_pow_right₀ (by decide) h
  have p : (0:Int) < 2^k := Int.pow_pos (by decide)
  exact ⟨by omega, by omega⟩

theorem wrap_top : wrapInt k (2^k) = -2^k := by
  have e : (2:Int)^(k+1) = 2 * 2^k := by rw [Int.pow_succ]; omega
  have p : (0:Int) < 2^k := Int.pow_pos (by decide)
  unfold wrapInt
  rw [show (2:Int)^k + 2^k = 2^(k+1) by omega, Int.emod_self]; omega

/-- C76, quotients of an interval and a value: undefined for divisor 0, otherwise an interval; it contains every quotient, and is then
exact, except if the interval contains `-2^k` and the divisor is `-1`. -/
theorem C76_div_partial (h : k < m) (dbg : Bool) (X : Ivl (SInt k)) (y : SInt k) (hX : Inhab (.ivl X)) :
    (y.val = 0 → divN m dbg X y = .error .ub) ∧
    (y.val ≠ 0 → ∃ R, divN m dbg X y = .ok R ∧ R.lo.val ≤ R.hi.val ∧
      (¬ (X.lo.val = -2^k ∧ y.val = -1) → ExactInt2 divInt (.ivl X) (.scalar y) (.ok R)) ∧
      ((∀ a q, InI a (.ivl X) → IsQuot a y.val q → R.lo.val ≤ q ∧ q ≤ R.hi.val) ↔ ¬ (X.lo.val = -2^k ∧ y.val = -1))) := by
  have hd : ∀ f : Unit → Outcome (Ivl (SInt k)), (expectsDebug dbg ((Arg.ivl X).assigned && (Arg.scalar y).assigned) >>= f) = f () := by
    intro f; rw [assigned_of_inhab hX]; simp only [Arg.assigned, Bool.and_self, expectsDebug_true, ok_bind]
  have hdiv : divN m dbg X y = (do
      let v1 ← (promotedNum m k).div X.lo y
      let v2 ← (promotedNum m k).div X.hi y
      hull2 v1 v2) := by
    unfold divN divI; rw [hd]; rfl
  rw [hdiv]
  refine ⟨fun h0 => ?_, fun h0 => ?_⟩
  · have : (promotedNum m k).div X.lo y = .error .ub := by
      change (if y.val = 0 then _ else _) = _
      rw [if_pos h0]
    rw [this]; rfl
  change X.lo.val ≤ X.hi.val at hX
  have store : ∀ a : SInt k, (promotedNum m k).div a y = .ok ⟨wrapInt k (a.val.tdiv y.val), wrapInt_ge _ _, wrapInt_le _ _⟩ := by
    intro a
    obtain ⟨t1, t2, _⟩ := rep_tdiv a.rep h0
    change (if y.val = 0 then _ else (SInt.of m (a.val.tdiv y.val) >>= fun v => pure (narrowCastV k v))) = _
    rw [if_neg h0, SInt.of_ok (rep_widen h t1 t2)]; rfl
  rw [store, store]
  obtain ⟨R, hR, hl, hh⟩ := hull2_bounds (k := k) ⟨wrapInt k (X.lo.val.tdiv y.val), wrapInt_ge _ _, wrapInt_le _ _⟩
    ⟨wrapInt k (X.hi.val.tdiv y.val), wrapInt_ge _ _, wrapInt_le _ _⟩
  simp only at hl hh
  have repa : ∀ a, InI a (.ivl X) → Rep k a := fun a ha => by
    have l := X.lo.rep; have r := X.hi.rep; obtain ⟨_, _⟩ := ha; exact ⟨by have := l.1; omega, by have := r.2; omega⟩
  have enc : ¬ (X.lo.val = -2^k ∧ y.val = -1) → (∀ a, InI a (.ivl X) → R.lo.val ≤ a.tdiv y.val ∧ a.tdiv y.val ≤ R.hi.val) ∧
      R.lo.val = min (X.lo.val.tdiv y.val) (X.hi.val.tdiv y.val) ∧ R.hi.val = max (X.lo.val.tdiv y.val) (X.hi.val.tdiv y.val) := by
    intro hne
    have hr1 := (rep_tdiv X.lo.rep h0).2.2.mpr hne
    have hr2 := (rep_tdiv X.hi.rep h0).2.2.mpr (by have := X.lo.ge; omega)
    rw [wrapInt_rep hr1, wrapInt_rep hr2] at hl hh
    refine ⟨fun a ha => ?_, hl, hh⟩
    have := between_tdiv_left y.val X.lo.val X.hi.val h0 a ha.1 ha.2
    rw [hl, hh]; exact this
  refine ⟨R, hR, by omega, fun hne => ?_, fun he hbad => ?_, fun hne a q ha hq => ?_⟩
  · obtain ⟨e1, e2, e3⟩ := enc hne
    right
    have some_eq : ∀ a, divInt a y.val = some (a.tdiv y.val) := fun a => by unfold divInt; rw [if_neg h0]
    refine ⟨fun a b ha hb => ?_, R, rfl, fun a b v ha hb hv => ?_, ?_, ?_⟩
    · cases hb
      refine ⟨_, some_eq a, ?_⟩
      have := e1 a ha; have l := R.lo.rep; have r := R.hi.rep
      exact ⟨by have := l.1; omega, by have := r.2; omega⟩
    · cases hb
      rw [some_eq] at hv; cases hv; exact e1 a ha
    · rcases Int.le_total (X.lo.val.tdiv y.val) (X.hi.val.tdiv y.val) with hc | hc
      · exact ⟨X.lo.val, y.val, ⟨Int.le_refl _, hX⟩, rfl, by rw [some_eq]; congr 1; omega⟩
      · exact ⟨X.hi.val, y.val, ⟨hX, Int.le_refl _⟩, rfl, by rw [some_eq]; congr 1; omega⟩
    · rcases Int.le_total (X.lo.val.tdiv y.val) (X.hi.val.tdiv y.val) with hc | hc
      · exact ⟨X.hi.val, y.val, ⟨hX, Int.le_refl _⟩, rfl, by rw [some_eq]; congr 1; omega⟩
      · exact ⟨X.lo.val, y.val, ⟨Int.le_refl _, hX⟩, rfl, by rw [some_eq]; congr 1; omega⟩
  · have := he X.lo.val _ ⟨Int.le_refl _, hX⟩ (isQuot_tdiv _ _ h0)
    rw [hbad.1, hbad.2, Int.tdiv_neg, Int.tdiv_one] at this
    have r := R.hi.le
    omega
  · have := (C27_quotient a y.val q).mpr ⟨h0, hq⟩
    unfold divInt at this
    rw [if_neg h0] at this
    cases this
    exact (enc hne).1 a ha

/-- C76, products of a sign and an interval: exact, except for a negative sign and an interval that contains `-2^k`: then the upper bound is
`-2^k` again, and the result is an unassigned interval unless the argument is `[-2^k, -2^k]`. -/
theorem C76_sign_partial (h : k < m) (dbg : Bool) (s : Sign) (X : Ivl (SInt k)) (hX : Inhab (.ivl X)) (res : Outcome (Ivl (SInt k)))
    (hres : res = signMulN m h.le dbg s X ∨ res = mulSignN m h.le dbg X s) :
    ∃ R, res = .ok R ∧
      (¬ (s = .neg ∧ X.lo.val = -2^k) → ExactInt1 (fun a => some (signMulInt s a)) X (.ok R)) ∧
      (s = .neg ∧ X.lo.val = -2^k → R.hi.val = -2^k ∧ (R.assigned = true ↔ X.hi.val = -2^k)) := by
  have hm : 1 ≤ m := by omega
  obtain ⟨v, hv, he⟩ := signVal_int hm s
  have ha : (Arg.ivl X).assigned = true := assigned_of_inhab hX
  change X.lo.val ≤ X.hi.val at hX
  have p : (0:Int) < 2^k := Int.pow_pos (by decide)
  have l1 := X.lo.ge; have l2 := X.lo.le; have u1 := X.hi.ge; have u2 := X.hi.le
  have bnd : ∀ a : SInt k, -2^k ≤ signMulInt s a.val ∧ signMulInt s a.val ≤ 2^k := by
    intro a; have := a.ge; have := a.le
    cases s <;> simp only [signMulInt] <;> omega
  have key : ∃ Q : Ivl (SInt m), res = .ok (convertI (narrowCastV k) Q) ∧
      Q.lo.val = min (signMulInt s X.lo.val) (signMulInt s X.hi.val) ∧ Q.hi.val = max (signMulInt s X.lo.val) (signMulInt s X.hi.val) := by
    rcases hres with hres | hres
    · have : signMulN m h.le dbg s X = (do
          let v1 ← SInt.of m (v.val * X.lo.val)
          let v2 ← SInt.of m (v.val * X.hi.val)
          hull2 v1 v2) >>= fun r => pure (convertI (narrowCastV k) r) := by
        unfold signMulN mulM
        rw [hv, ha]
        simp only [Arg.assigned, Bool.and_self, expectsDebug_true, ok_bind]; rfl
      rw [hres, this, (he _).1, (he _).1]
      rcases prog2 m (signMulInt s X.lo.val) (signMulInt s X.hi.val) with ⟨hn, _⟩ | ⟨_, _, Q, hQ, q1, q2⟩
      · exact absurd (rep_widen h (bnd X.lo).1 (bnd X.lo).2) (by have := rep_widen h (bnd X.hi).1 (bnd X.hi).2; tauto)
      · rw [hQ]; exact ⟨Q, rfl, q1, q2⟩
    · have : mulSignN m h.le dbg X s = (do
          let v1 ← SInt.of m (X.lo.val * v.val)
          let v2 ← SInt.of m (X.hi.val * v.val)
          hull2 v1 v2) >>= fun r => pure (convertI (narrowCastV k) r) := by
        unfold mulSignN mulM
        rw [hv, ha]
        simp only [Arg.assigned, Bool.and_self, expectsDebug_true, ok_bind]; rfl
      rw [hres, this, (he _).2, (he _).2]
      rcases prog2 m (signMulInt s X.lo.val) (signMulInt s X.hi.val) with ⟨hn, _⟩ | ⟨_, _, Q, hQ, q1, q2⟩
      · exact absurd (rep_widen h (bnd X.lo).1 (bnd X.lo).2) (by have := rep_widen h (bnd X.hi).1 (bnd X.hi).2; tauto)
      · rw [hQ]; exact ⟨Q, rfl, q1, q2⟩
  obtain ⟨Q, hQ, q1, q2⟩ := key
  have qa : Q.assigned = true := (assigned_iff Q).mpr (by omega)
  have cl : (convertI (narrowCastV k) Q).lo.val = wrapInt k Q.lo.val := by unfold convertI; rw [if_pos qa]; rfl
  have ch : (convertI (narrowCastV k) Q).hi.val = wrapInt k Q.hi.val := by unfold convertI; rw [if_pos qa]; rfl
  refine ⟨_, hQ, fun hne => ?_, fun ⟨hs, hlo⟩ => ?_⟩
  · have r1 : Rep k Q.lo.val := by
      cases s <;> simp only [signMulInt] at q1 <;> simp at hne <;> exact ⟨by omega, by omega⟩
    have r2 : Rep k Q.hi.val := by
      cases s <;> simp only [signMulInt] at q2 <;> simp at hne <;> exact ⟨by omega, by omega⟩
    rw [wrapInt_rep r1] at cl
    rw [wrapInt_rep r2] at ch
    apply exact1_of_ends
    right
    refine ⟨_, rfl, ?_, ?_, fun a ha' => ?_⟩
    · rw [cl]
      rcases Int.le_total (signMulInt s X.lo.val) (signMulInt s X.hi.val) with hc | hc
      · exact ⟨X.lo.val, ⟨Int.le_refl _, hX⟩, by omega⟩
      · exact ⟨X.hi.val, ⟨hX, Int.le_refl _⟩, by omega⟩
    · rw [ch]
      rcases Int.le_total (signMulInt s X.lo.val) (signMulInt s X.hi.val) with hc | hc
      · exact ⟨X.hi.val, ⟨hX, Int.le_refl _⟩, by omega⟩
      · exact ⟨X.lo.val, ⟨Int.le_refl _, hX⟩, by omega⟩
    · obtain ⟨i1, i2⟩ := ha'
      rw [cl, ch, q1, q2]
      cases s <;> simp only [signMulInt] <;> omega
  · subst hs
    simp only [signMulInt] at q1 q2
    have e1 : Q.hi.val = 2^k := by omega
    have e2 : Q.lo.val = -X.hi.val := by omega
    rw [e1, wrap_top] at ch
    rw [e2] at cl
    refine ⟨ch, ?_⟩
    rw [assigned_iff, cl, ch]
    by_cases hx : X.hi.val = -2^k
    · rw [hx, Int.neg_neg, wrap_top]; simp
    · rw [wrapInt_rep ⟨by omega, by omega⟩]; omega

/-- C76, products of a sign and a value: right except for `-1 * -2^k`, which is `-2^k`. -/
theorem C76_sign_scalar_partial (h : k < m) (s : Sign) (x : SInt k) (res : Outcome (SInt k))
    (hres : res = signMulValN m h.le s x ∨ res = valMulSignN m h.le x s) :
    ∃ r, res = .ok r ∧ (¬ (s = .neg ∧ x.val = -2^k) → r.val = signMulInt s x.val) ∧ (s = .neg ∧ x.val = -2^k → r.val = -2^k) := by
  obtain ⟨v, hv, he⟩ := signVal_int (n := m) (by omega) s
  have p : (0:Int) < 2^k := Int.pow_pos (by decide)
  have l1 := x.ge; have l2 := x.le
  have bnd : -2^k ≤ signMulInt s x.val ∧ signMulInt s x.val ≤ 2^k := by
    cases s <;> simp only [signMulInt] <;> omega
  have key : ∃ q : SInt m, q.val = signMulInt s x.val ∧ res = .ok (narrowCastV k q) := by
    rcases hres with hres | hres
    · have : signMulValN m h.le s x = SInt.of m (v.val * x.val) >>= fun r => pure (narrowCastV k r) := by
        unfold signMulValN; rw [hv]; rfl
      rw [hres, this, (he _).1, SInt.of_ok (rep_widen h bnd.1 bnd.2)]
      exact ⟨_, rfl, rfl⟩
    · have : valMulSignN m h.le x s = SInt.of m (x.val * v.val) >>= fun r => pure (narrowCastV k r) := by
        unfold valMulSignN; rw [hv]; rfl
      rw [hres, this, (he _).2, SInt.of_ok (rep_widen h bnd.1 bnd.2)]
      exact ⟨_, rfl, rfl⟩
  obtain ⟨q, hq, hres⟩ := key
  refine ⟨_, hres, fun hne => ?_, fun ⟨hs, hx⟩ => ?_⟩
  · change wrapInt k q.val = _
    rw [hq]
    apply wrapInt_rep
    cases s <;> simp only [signMulInt] <;> simp at hne <;> exact ⟨by omega, by omega⟩
  · change wrapInt k q.val = _
    subst hs
    rw [hq]; simp only [signMulInt, hx, Int.neg_neg]; exact wrap_top

/-- C76, products of a value and a set of signs: the smallest interval that contains the products, except for the product of `-2^k` and a set
with the negative sign, where the result does not reach above 0. -/
theorem C76_signset_scalar_partial (h : k < m) (S : SignSet) (x : SInt k) (res : Outcome (Ivl (SInt k)))
    (hres : res = valMulSignSetN m x S ∨ res = signSetMulValN m S x) :
    ∃ R, res = .ok R ∧
      (¬ (SMem .neg S ∧ x.val = -2^k) →
        ((∀ s, ¬ SMem s S) → R.assigned = false) ∧
        (∀ s, SMem s S → R.lo.val ≤ signMulInt s x.val ∧ signMulInt s x.val ≤ R.hi.val) ∧
        ((∃ s, SMem s S) → (∃ s, SMem s S ∧ signMulInt s x.val = R.lo.val) ∧ (∃ s, SMem s S ∧ signMulInt s x.val = R.hi.val))) ∧
      (SMem .neg S ∧ x.val = -2^k → R.lo.val = -2^k ∧ R.hi.val = if SMem .zero S then 0 else -2^k) := by
  have p : (0:Int) < 2^k := Int.pow_pos (by decide)
  have l1 := x.ge; have l2 := x.le
  have hr : res = valMulSignSetN m x S := by rcases hres with h | h <;> exact h
  have hneg : (promotedNum m k).neg x = .ok ⟨wrapInt k (-x.val), wrapInt_ge _ _, wrapInt_le _ _⟩ := by
    change (SInt.of m (-x.val) >>= fun v => pure (narrowCastV k v)) = _
    rw [SInt.of_ok (rep_widen h (by omega) (by omega))]; rfl
  have hs : valMulSignSetN m x S = (do
      let r := if SMem .pos S then Ivl.assignVal Ivl.unassigned x else Ivl.unassigned
      let r := if SMem .zero S then Ivl.assignVal r (zero : SInt k) else r
      if SMem .neg S then (do pure (Ivl.assignVal r (← (promotedNum m k).neg x))) else pure r) := by
    let _ := promotedNum m k
    exact valMulSignSet_spec S x
  by_cases hbad : SMem .neg S ∧ x.val = -2^k
  · rw [hr, hs, hneg, if_pos hbad.1]
    refine ⟨_, rfl, fun hn => absurd hbad hn, fun _ => ?_⟩
    have w : wrapInt k (- -2^k) = -2^k := by rw [Int.neg_neg]; exact wrap_top
    have z : (CppNum.zero : SInt k).val = 0 := rfl
    have u1 : (Ivl.unassigned : Ivl (SInt k)).lo.val = 2^k - 1 := rfl
    have u2 : (Ivl.unassigned : Ivl (SInt k)).hi.val = -2^k := rfl
    by_cases hp : SMem .pos S <;> by_cases hz : SMem .zero S <;>
      simp only [hp, hz, if_true, if_false, Ivl.assignVal, Ivl.assignCore, sint_cmin, sint_cmax, hbad.2, w, z] <;> (try rw [u1]) <;> (try rw [u2]) <;> omega
  · have heq : valMulSignSetN m x S = valMulSignSet x S := by
      rw [hs, valMulSignSet_spec]
      by_cases hm : SMem .neg S
      · have hrep : Rep k (-x.val) := by
          have : x.val ≠ -2^k := fun e => hbad ⟨hm, e⟩
          exact ⟨by omega, by omega⟩
        have e2 : (CppNum.neg x) = .ok (⟨wrapInt k (-x.val), wrapInt_ge _ _, wrapInt_le _ _⟩ : SInt k) := by
          change SInt.of k (-x.val) = _
          rw [SInt.of_ok hrep]
          congr 1
          exact BInt.ext (wrapInt_rep hrep).symm
        rw [hneg, e2]
      · simp only [if_neg hm]
    rcases C28_signset_mul_scalar S x res (Or.inl (by rw [hr, heq])) with ⟨⟨hm, hrep⟩, _⟩ | ⟨_, R, hR, h1, h2, h3⟩
    · have : x.val ≠ -2^k := fun e => hbad ⟨hm, e⟩
      exact absurd (show Rep k (-x.val) from ⟨by omega, by omega⟩) hrep
    · exact ⟨R, hR, fun _ => ⟨h1, h2, h3⟩, fun hb => absurd hb hbad⟩

/-- every part of `C76_full` is false -/
theorem C76_violated_all (h : k < m) (hk : 1 ≤ k) (dbg : Bool) (X : Ivl (SInt k)) (hX : Inhab (.ivl X)) (hlo : X.lo.val = -2^k) :
    (∃ (y : SInt k) (R : Ivl (SInt k)) (a q : Int), divN m dbg X y = .ok R ∧ InI a (.ivl X) ∧ IsQuot a y.val q ∧ R.hi.val < q) ∧
    (∃ (R : Ivl (SInt k)) (a : Int), signMulN m h.le dbg .neg X = .ok R ∧ InI a (.ivl X) ∧ R.hi.val < signMulInt .neg a) ∧
    (∀ S : SignSet, SMem .neg S → ∃ R : Ivl (SInt k), valMulSignSetN m X.lo S = .ok R ∧ R.hi.val < signMulInt .neg X.lo.val) := by
  have p : (0:Int) < 2^k := Int.pow_pos (by decide)
  have il : InI X.lo.val (.ivl X) := ⟨Int.le_refl _, hX⟩
  refine ⟨?_, ?_, fun S hS => ?_⟩
  · obtain ⟨y, hy⟩ : ∃ y : SInt k, y.val = -1 := ⟨⟨-1, by omega, by omega⟩, rfl⟩
    have y0 : y.val ≠ 0 := by omega
    obtain ⟨R, hR, -⟩ := (C76_div_partial h dbg X y hX).2 y0
    refine ⟨y, R, X.lo.val, _, hR, il, isQuot_tdiv _ _ y0, ?_⟩
    rw [hlo, hy, Int.tdiv_neg, Int.tdiv_one]
    have := R.hi.le; omega
  · obtain ⟨R, hR, -⟩ := C76_sign_partial h dbg .neg X hX _ (Or.inl rfl)
    refine ⟨R, _, hR, il, ?_⟩
    simp only [signMulInt]
    have := R.hi.le; omega
  · obtain ⟨R, hR, -⟩ := C76_signset_scalar_partial h S X.lo _ (Or.inl rfl)
    refine ⟨R, hR, ?_⟩
    simp only [signMulInt]
    have := R.hi.le; omega

/-! Examples meeting the hypotheses. -/

/-- `interval<signed char>{ -3, 4 }*interval<signed char>{ -10, 7 }`: all products are representable -/
example : ∃ R, mulN (k := 7) 31 true (.ivl ⟨⟨-3, by decide, by decide⟩, ⟨4, by decide, by decide⟩⟩)
      (.ivl ⟨⟨-10, by decide, by decide⟩, ⟨7, by decide, by decide⟩⟩) = .ok R ∧ R.lo.val = -40 ∧ R.hi.val = 30 := by
  refine ⟨⟨⟨-40, by decide, by decide⟩, ⟨30, by decide, by decide⟩⟩, by decide, rfl, rfl⟩
example : Inhab (.ivl shortI) := show (1:Int) ≤ 300 by decide
/-- `interval<signed char>{ -128, 5 }/signed char(-1)`: the quotient 128 wraps to -128 -/
example : (divN (k := 7) 31 true ⟨⟨-128, by decide, by decide⟩, ⟨5, by decide, by decide⟩⟩ ⟨-1, by decide, by decide⟩).map
    (fun R => (R.lo.val, R.hi.val)) = .ok (-128, -5) := by decide
/-- `negative_sign*interval<signed char>{ -128, 5 }` is unassigned -/
example : (signMulN (k := 7) 31 (by decide) true .neg ⟨⟨-128, by decide, by decide⟩, ⟨5, by decide, by decide⟩⟩).map
    (fun R => (R.lo.val, R.hi.val, R.assigned)) = .ok (-5, -128, false) := by decide
example : (signMulValN (k := 7) 31 (by decide) .neg ⟨-128, by decide, by decide⟩).map (fun r => r.val) = .ok (-128) := by decide
example : (valMulSignSetN (k := 7) 31 ⟨-128, by decide, by decide⟩ (CSet.fromBits _ 7)).map (fun R => (R.lo.val, R.hi.val)) = .ok (-128, 0) := by decide

end Intervals.Props
