import Verif.Model.Interpolate
import Verif.Spec.Interpolate
import Verif.Lemmas.Accum
import Verif.Lemmas.Elem
import Verif.Lemmas.Enumerate
import Verif.Lemmas.Partition
import Verif.Props.FltArith
import Verif.Props.Partition
/-! Lemmas for the interpolation examples. -/
set_option linter.unusedSectionVars false
namespace Intervals
open CppVal Spec Props

section flt
variable {K : Type} [Field K] [LinearOrder K] [IsStrictOrderedRing K] [Fmt K]

theorem Fl.ne_nan_of_finite {a : Fl K} (h : a.isFinite = true) : a ≠ .nan := by rintro rfl; simp [Fl.isFinite] at h
theorem Fl.add_finite_ne_nan {a b : Fl K} (ha : a.isFinite = true) (hb : b ≠ .nan) : Fl.add a b ≠ .nan := by
  intro h
  rw [Fl.add_eq_nan (ne_nan_of_finite ha) hb] at h
  rcases h with ⟨rfl, _⟩ | ⟨rfl, _⟩ <;> simp [Fl.isFinite] at ha
theorem Fl.sub_finite_ne_nan {a b : Fl K} (ha : a.isFinite = true) (hb : b ≠ .nan) : Fl.sub a b ≠ .nan :=
  add_finite_ne_nan ha (by rwa [ne_eq, Fl.neg_ne_nan])
theorem Fl.mul_finite_ne_nan {a b : Fl K} (ha : a.isFinite = true) (hb : b.isFinite = true) : Fl.mul a b ≠ .nan := by
  intro h
  rw [Fl.mul_eq_nan (ne_nan_of_finite ha) (ne_nan_of_finite hb)] at h
  cases a <;> cases b <;> simp_all [Fl.isFinite, Fl.isInf]
theorem Fl.div_finite_ne_nan {a b : Fl K} (ha : a.isFinite = true) (hb : b.isFinite = true) (h0 : lt (.num 0) b = true) : Fl.div a b ≠ .nan := by
  intro h
  rw [Fl.div_eq_nan (ne_nan_of_finite ha) (ne_nan_of_finite hb)] at h
  cases a <;> cases b <;> simp_all [Fl.isFinite, Fl.isInf, Fl.isZero, lt, Fl.ext]
theorem Fl.sub_self {a : Fl K} (ha : a.isFinite = true) : Fl.sub a a = .num 0 := by
  cases a with
  | num k =>
    simp only [Fl.sub, Fl.neg]
    split
    · next h => subst h; simp [Fl.add, Fl.isNan, Fl.isInf, Fl.isZero, Fl.signBit]
    · next h => simp [Fl.add, Fl.isNan, Fl.isInf, Fl.isZero, h, Fl.val, Fmt.rnd_zero]
  | nzero => simp [Fl.sub, Fl.neg, Fl.add, Fl.isNan, Fl.isInf, Fl.isZero, Fl.signBit]
  | _ => simp [Fl.isFinite] at ha
theorem Fl.div_self {a : Fl K} (ha : a.isFinite = true) (h0 : lt (.num 0) a = true) : Fl.div a a = Fmt.rnd 1 := by
  cases a with
  | num k =>
    have hk : k ≠ 0 := by rintro rfl; simp [lt, Fl.ext] at h0
    simp [Fl.div, Fl.isNan, Fl.isInf, Fl.isZero, hk, Fl.val]
  | nzero => simp [lt, Fl.ext] at h0
  | _ => simp [Fl.isFinite] at ha
theorem Fl.zero_div {a : Fl K} (ha : a.isFinite = true) (h0 : lt (.num 0) a = true) : Fl.div (.num 0) a = .num 0 := by
  cases a with
  | num k =>
    have hk : 0 < k := by simpa [lt, Fl.ext] using h0
    simp [Fl.div, Fl.isNan, Fl.isInf, Fl.isZero, hk.ne', Fl.signBit, hk.le, Fl.zeroS]
  | nzero => simp [lt, Fl.ext] at h0
  | _ => simp [Fl.isFinite] at ha
theorem Fl.signBit_pos {a : Fl K} (h0 : lt (.num 0) a = true) : Fl.signBit a = false := by
  cases a with
  | num k =>
    have hk : 0 < k := by simpa [lt, Fl.ext] using h0
    simp [Fl.signBit, hk.le]
  | nzero => simp [lt, Fl.ext] at h0
  | ninf => simp [lt, Fl.ext] at h0
  | pinf => rfl
  | nan => rfl
theorem Fl.sub_mono {a a' b b' : Fl K} (h : le a a' = true) (hb : le b' b = true) (ha : a.isFinite = true) (ha' : a'.isFinite = true) :
    le (Fl.sub a b) (Fl.sub a' b') = true := by
  have nb := Fl.ne_nan_of_le_right hb; have nb' := Fl.ne_nan_of_le_left hb
  have h1 : le (Fl.add a (Fl.neg b)) (Fl.add a' (Fl.neg b)) = true :=
    Fl.add_mono_left h (Fl.sub_finite_ne_nan ha nb) (Fl.sub_finite_ne_nan ha' nb)
  have h2 : le (Fl.add (Fl.neg b) a') (Fl.add (Fl.neg b') a') = true :=
    Fl.add_mono_left (Fl.neg_anti hb) (by rw [Fl.add_comm']; exact Fl.sub_finite_ne_nan ha' nb)
      (by rw [Fl.add_comm']; exact Fl.sub_finite_ne_nan ha' nb')
  rw [Fl.add_comm', Fl.add_comm' (Fl.neg b')] at h2
  exact CppOrder.le_trans _ _ _ h1 h2

/-- the formula on an interval inside the cell -/
theorem lerp_encl_full (dbg : Bool) {x0 x1 y0 y1 : Fl K} (h : CellOk x0 x1 y0 y1) (xc : Ivl (Fl K)) (hp : Proper xc) (h0 : le x0 xc.lo = true)
    (h1 : le xc.hi x1 = true) :
    ∃ d q p r, subI dbg (.ivl xc) (.scalar x0) = .ok d ∧ divI dbg (.ivl d) (.scalar (Fl.sub x1 x0)) = .ok q ∧
      mulI dbg (.ivl q) (.scalar (Fl.sub y1 y0)) = .ok p ∧ addI dbg (.scalar y0) (.ivl p) = .ok r ∧ Proper d ∧ Proper q ∧ Proper p ∧ Proper r ∧
      ∀ v, v ∈ᵢ xc → lerpPoint x0 x1 y0 y1 v ∈ᵢ r := by
  obtain ⟨fx0, fx1, fy0, fdx, pos, fdy, one⟩ := h
  have n0 : NotNan x0 := Fl.le_refl_of_ne (Fl.ne_nan_of_finite fx0)
  have fin : ∀ v, v ∈ᵢ xc → v.isFinite = true := fun v hv =>
    Fl.finite_of_between fx0 fx1 (CppOrder.le_trans _ _ _ h0 hv.1) (CppOrder.le_trans _ _ _ hv.2 h1)
  have key : ∀ a b, a ∈ₐ (.ivl xc) → b ∈ₐ (Arg.scalar x0) → le (.num 0) (Fl.sub a b) = true ∧ le (Fl.sub a b) (Fl.sub x1 x0) = true := by
    intro a b ha hb
    constructor
    · rw [← Fl.sub_self fx0]
      exact Fl.sub_mono (CppOrder.le_trans _ _ _ h0 ha.1) hb.2 fx0 (fin a ha)
    · exact Fl.sub_mono (CppOrder.le_trans _ _ _ ha.2 h1) hb.1 (fin a ha) fx1
  rcases Props.C30_sub dbg (.ivl xc) (.scalar x0) hp n0 with ⟨⟨a, b, ha, hb, e⟩, _⟩ | ⟨_, d, ed, hd, ⟨a1, b1, ha1, hb1, e1⟩, ⟨a2, b2, ha2, hb2, e2⟩⟩
  · exact absurd e (Fl.sub_finite_ne_nan (fin a ha) (Fl.ne_nan_of_le_left hb.2))
  have dlo := (key _ _ ha1 hb1).1; rw [e1] at dlo
  have dhi := (key _ _ ha2 hb2).2; rw [e2] at dhi
  have pd : Proper d := by
    have := hd _ _ ha1 hb1
    exact CppOrder.le_trans _ _ _ this.1 this.2
  have f0 : (Fl.num (0:K)).isFinite = true := rfl
  have dfin : ∀ v, v ∈ᵢ d → v.isFinite = true := fun v hv =>
    Fl.finite_of_between f0 fdx (CppOrder.le_trans _ _ _ dlo hv.1) (CppOrder.le_trans _ _ _ hv.2 dhi)
  have ndx : NotNan (Fl.sub x1 x0) := Fl.le_refl_of_ne (Fl.ne_nan_of_finite fdx)
  have sc : ∀ b, b ∈ₐ (Arg.scalar (Fl.sub x1 x0)) → b = Fl.sub x1 x0 := by
    intro b hb
    generalize Fl.sub x1 x0 = w at *
    cases w <;> cases b <;> simp_all [PtA, Fl.isFinite, lt, Fl.ext]
    all_goals first | (exfalso; linarith [hb.1, hb.2]) | exact le_antisymm hb.2 hb.1
  have z0 : ¬ (Fl.num 0) ∈ₐ (Arg.scalar (Fl.sub x1 x0)) := by
    intro hz
    have := hz.1
    rw [CppOrder.lt_iff] at pos
    simp [this] at pos
  have qb : ∀ a, a ∈ᵢ d → le (.num 0) (Fl.div a (Fl.sub x1 x0)) = true ∧ le (Fl.div a (Fl.sub x1 x0)) (Fmt.rnd 1) = true := by
    intro a ha
    have sb := Fl.signBit_pos pos
    constructor
    · rw [← Fl.zero_div fdx pos]
      exact Fl.div_mono_pos sb (CppOrder.le_trans _ _ _ dlo ha.1) (Fl.div_finite_ne_nan f0 fdx pos) (Fl.div_finite_ne_nan (dfin a ha) fdx pos)
    · rw [← Fl.div_self fdx pos]
      exact Fl.div_mono_pos sb (CppOrder.le_trans _ _ _ ha.2 dhi) (Fl.div_finite_ne_nan (dfin a ha) fdx pos) (Fl.div_finite_ne_nan fdx fdx pos)
  rcases Props.C32_exact dbg (.ivl d) (.scalar (Fl.sub x1 x0)) pd ndx z0 with ⟨⟨a, b, ha, hb, e⟩, _⟩ | ⟨_, q, eq', hq, ⟨c1, g1, hc1, hg1, q1⟩, ⟨c2, g2, hc2, hg2, q2⟩⟩
  · rw [sc b hb] at e; exact absurd e (Fl.div_finite_ne_nan (dfin a ha) fdx pos)
  have qlo := (qb _ hc1).1; rw [← sc g1 hg1, q1] at qlo
  have qhi := (qb _ hc2).2; rw [← sc g2 hg2, q2] at qhi
  have pq : Proper q := by
    have := hq _ _ hc1 hg1
    exact CppOrder.le_trans _ _ _ this.1 this.2
  have qfin : ∀ v, v ∈ᵢ q → v.isFinite = true := fun v hv =>
    Fl.finite_of_between f0 one (CppOrder.le_trans _ _ _ qlo hv.1) (CppOrder.le_trans _ _ _ hv.2 qhi)
  have ndy : NotNan (Fl.sub y1 y0) := Fl.le_refl_of_ne (Fl.ne_nan_of_finite fdy)
  have dyfin : ∀ b, b ∈ₐ (Arg.scalar (Fl.sub y1 y0)) → b.isFinite = true := fun b hb => Fl.finite_of_between fdy fdy hb.1 hb.2
  rcases Props.C31_mul dbg (.ivl q) (.scalar (Fl.sub y1 y0)) pq ndy with ⟨⟨a, b, ha, hb, e⟩, _⟩ | ⟨_, p, ep, hp', ⟨c3, g3, hc3, hg3, _⟩, _⟩
  · exact absurd e (Fl.mul_finite_ne_nan (qfin a ha) (dyfin b hb))
  have pp : Proper p := by
    have := hp' _ _ hc3 hg3
    exact CppOrder.le_trans _ _ _ this.1 this.2
  have ny0 : NotNan y0 := Fl.le_refl_of_ne (Fl.ne_nan_of_finite fy0)
  rcases Props.C30_add dbg (.scalar y0) (.ivl p) ny0 pp with ⟨⟨a, b, ha, hb, e⟩, _⟩ | ⟨_, r, er, hr, ⟨c4, g4, hc4, hg4, _⟩, _⟩
  · exact absurd e (Fl.add_finite_ne_nan (Fl.finite_of_between fy0 fy0 ha.1 ha.2) (Fl.ne_nan_of_le_left hb.2))
  have pr : Proper r := by
    have := hr _ _ hc4 hg4
    exact CppOrder.le_trans _ _ _ this.1 this.2
  exact ⟨d, q, p, r, ed, eq', ep, er, pd, pq, pp, pr, fun v hv =>
    hr _ _ ⟨ny0, ny0⟩ (hp' _ _ (hq _ _ (hd _ _ hv ⟨n0, n0⟩) ⟨ndx, ndx⟩) ⟨ndy, ndy⟩)⟩
theorem lerp_encl (dbg : Bool) {x0 x1 y0 y1 : Fl K} (h : CellOk x0 x1 y0 y1) (xc : Ivl (Fl K)) (hp : Proper xc) (h0 : le x0 xc.lo = true)
    (h1 : le xc.hi x1 = true) :
    ∃ d q p r, subI dbg (.ivl xc) (.scalar x0) = .ok d ∧ divI dbg (.ivl d) (.scalar (Fl.sub x1 x0)) = .ok q ∧
      mulI dbg (.ivl q) (.scalar (Fl.sub y1 y0)) = .ok p ∧ addI dbg (.scalar y0) (.ivl p) = .ok r ∧ Proper r ∧
      ∀ v, v ∈ᵢ xc → lerpPoint x0 x1 y0 y1 v ∈ᵢ r := by
  obtain ⟨d, q, p, r, e1, e2, e3, e4, -, -, -, pr, h⟩ := lerp_encl_full dbg h xc hp h0 h1
  exact ⟨d, q, p, r, e1, e2, e3, e4, pr, h⟩
end flt

section cond
theorem bint_le {l h : Int} {a b : BInt l h} : CppVal.le a b = true ↔ a.val ≤ b.val := decide_eq_true_iff
theorem bint_lt {l h : Int} {a b : BInt l h} : CppVal.lt a b = true ↔ a.val < b.val := decide_eq_true_iff
theorem bint_ge {l h : Int} {a b : BInt l h} : CppVal.ge a b = true ↔ b.val ≤ a.val := decide_eq_true_iff
theorem bint_eq {l h : Int} {a b : BInt l h} : CppVal.eq a b = true ↔ a.val = b.val := decide_eq_true_iff
theorem bint_ne {l h : Int} {a b : BInt l h} : CppVal.ne a b = true ↔ a.val ≠ b.val := by
  unfold CppVal.ne; rw [Bool.not_eq_true', ← Bool.not_eq_true, bint_eq]
/-- `!(i == 0) & !(i == n)` -/
theorem middle_cond (dbg : Bool) (idi : Nat) (i : Ivl Index) (zero n : Index) (hz : zero.val = 0) (hn : 2 ≤ n.val) (h0 : 0 ≤ i.lo.val)
    (hi : i.lo.val ≤ i.hi.val) (h1 : i.hi.val ≤ n.val) :
    ∃ below above nb na, condEq dbg (.ident true idi i) (.scalar true zero) = .ok below ∧
      condEq dbg (.ident true idi i) (.scalar true n) = .ok above ∧
      Cond.mkNot dbg below = .ok nb ∧ Cond.mkNot dbg above = .ok na ∧
      (BoolSet.possibly below.truth = true ↔ i.lo.val = 0) ∧ (BoolSet.possibly above.truth = true ↔ i.hi.val = n.val) ∧
      (BoolSet.possibly (Cond.mkAnd nb na).truth = true ↔ 0 < i.hi.val ∧ i.lo.val < n.val) ∧
      (0 < i.hi.val → i.lo.val < n.val → ∃ ic, constrain dbg true idi i (Cond.mkAnd nb na) = .ok ic ∧ ic.lo.val = max 1 i.lo.val ∧
        ic.hi.val = min (n.val - 1) i.hi.val) := by
  have has : i.assigned = true := by simp [Ivl.assigned, gt, lt]; omega
  have ne : ∀ (y : Index), compareEq (.ivl i) (.scalar y) ≠ BoolSet.empty := by
    intro y
    apply ne_empty_of
    simp only [contains_eq, Arg.lo, Arg.hi, if_true, Bool.false_eq_true, if_false, Bool.and_eq_true, Bool.or_eq_true, bint_ge, bint_le, bint_ne]
    omega
  have hc : ∀ (y : Index), condEq dbg (.ident true idi i) (.scalar true y) = .ok (.equal (compareEq (.ivl i) (.scalar y)) (.ident true idi i) (.scalar true y)) := by
    intro y
    simp [condEq, opEq, Operand.arg, Arg.assigned, has, pure, Except.pure]
  have hn' : ∀ (y : Index), Cond.mkNot dbg (.equal (compareEq (.ivl i) (.scalar y)) (.ident true idi i) (.scalar true y)) =
      .ok (.notEqual (BoolSet.notCore (compareEq (.ivl i) (.scalar y))) (.ident true idi i) (.scalar true y)) := by
    intro y
    simp [Cond.mkNot, notM_ok (ne y), pure, Except.pure]
  have ct : ∀ (y : Index), BoolSet.contains (compareEq (.ivl i) (.scalar y)) true = true ↔ i.lo.val ≤ y.val ∧ y.val ≤ i.hi.val := by
    intro y
    simp only [contains_eq, Arg.lo, Arg.hi, if_true, Bool.and_eq_true, bint_ge, bint_le]
  have cf : ∀ (y : Index), BoolSet.contains (BoolSet.notCore (compareEq (.ivl i) (.scalar y))) true = true ↔ ¬ (i.lo.val = y.val ∧ i.hi.val = y.val) := by
    intro y
    simp only [contains_not, contains_eq, Arg.lo, Arg.hi, Bool.not_true, Bool.false_eq_true, if_false, Bool.or_eq_true, bint_ne]
    omega
  refine ⟨_, _, _, _, hc zero, hc n, hn' zero, hn' n, ?_, ?_, ?_, ?_⟩
  · show BoolSet.contains _ true = true ↔ _
    simp only [Cond.truth]
    rw [ct, hz]; omega
  · show BoolSet.contains _ true = true ↔ _
    simp only [Cond.truth]
    rw [ct]; omega
  · show BoolSet.contains _ true = true ↔ _
    simp only [Cond.mkAnd, Cond.isCond, Bool.or_self, if_true, Cond.truth]
    rw [contains_and_true _ _ (not_ne_empty (ne _)) (not_ne_empty (ne _)), Bool.and_eq_true, cf, cf, hz]
    omega
  · intro hp1 hp2
    have c1 : BoolSet.contains (BoolSet.notCore (compareEq (.ivl i) (.scalar zero))) true = true := by rw [cf, hz]; omega
    have c2 : BoolSet.contains (BoolSet.notCore (compareEq (.ivl i) (.scalar n))) true = true := by rw [cf]; omega
    have c3 : BoolSet.contains (BoolSet.and (BoolSet.notCore (compareEq (.ivl i) (.scalar zero))) (BoolSet.notCore (compareEq (.ivl i) (.scalar n)))) true = true := by
      rw [contains_and_true _ _ (not_ne_empty (ne _)) (not_ne_empty (ne _)), c1, c2]; rfl
    have nn := n.le
    have leaf : ∀ (y : Index), BoolSet.contains (BoolSet.notCore (compareEq (.ivl i) (.scalar y))) true = true → ∀ f o,
        ∃ R : Ivl Index, detailConstrain dbg true idi i (.notEqual (BoolSet.notCore (compareEq (.ivl i) (.scalar y))) (.ident true idi i) (.scalar true y)) f o =
          .ok (R, true) ∧ R.lo.val = (if i.lo.val = y.val then i.lo.val + 1 else i.lo.val) ∧
          R.hi.val = (if i.lo.val ≠ y.val ∧ i.hi.val = y.val then i.hi.val - 1 else i.hi.val) := by
      intro y hy f o
      have hne := (cf y).mp hy
      have e1 : expectsDebug dbg (CppVal.ne i.lo y || CppVal.ne i.hi y) = .ok () := by
        have : (CppVal.ne i.lo y || CppVal.ne i.hi y) = true := by simp [CppVal.ne, CppVal.eq]; omega
        rw [this, expectsDebug_true]
      have hie : ∀ v : Int, (∃ w : Index, w.val = v) → ∃ w : Index, BInt.ofInt (-(2:Int)^63) ((2:Int)^63-1) v = .ok w ∧ w.val = v := by
        rintro v ⟨w, rfl⟩
        exact ⟨w, by unfold BInt.ofInt; rw [dif_pos ⟨w.ge, w.le⟩], rfl⟩
      simp only [detailConstrain, Operand.matchesId, beq_self_eq_true, Bool.and_self, Bool.true_or, if_true, hy, Operand.arg, Arg.lo, Arg.hi, e1, ok_bind,
        Bool.true_and, Operand.disc, Bool.and_false, Bool.false_and, Bool.false_eq_true, if_false]
      by_cases a1 : i.lo.val = y.val
      · have a2 : i.lo.val ≠ i.hi.val := by omega
        rw [if_pos (by simp [CppVal.ne, CppVal.eq, a1, a2]; omega), if_pos a1]
        have hlt : i.lo.val + 1 ≤ 2^63 - 1 := by have := i.hi.le; omega
        have hs : succStep true i.lo = .ok ⟨i.lo.val + 1, by have := i.lo.ge; omega, hlt⟩ := by
          simp only [succStep, if_true, CppStep.succ, BInt.ofInt]
          rw [dif_pos ⟨by have := i.lo.ge; omega, hlt⟩]
        rw [hs, ok_bind]
        refine ⟨⟨⟨i.lo.val + 1, by have := i.lo.ge; omega, hlt⟩, i.hi⟩, ?_, rfl, ?_⟩
        · rw [make_of_le (by simp [le]; omega)]; rfl
        · rw [if_neg (by omega)]
      · rw [if_neg (by simp [CppVal.ne, CppVal.eq, a1]), if_neg a1]
        by_cases a3 : i.hi.val = y.val
        · have a2 : i.lo.val ≠ i.hi.val := by omega
          rw [if_pos (by simp [CppVal.ne, CppVal.eq, a2, a3]; omega), if_pos ⟨a1, a3⟩]
          have hlt : -(2:Int)^63 ≤ i.hi.val - 1 := by have := i.lo.ge; omega
          have hs : predStep true i.hi = .ok ⟨i.hi.val - 1, hlt, by have := i.hi.le; omega⟩ := by
            simp only [predStep, if_true, CppStep.pred, BInt.ofInt]
            rw [dif_pos ⟨hlt, by have := i.hi.le; omega⟩]
          rw [hs, ok_bind]
          refine ⟨⟨i.lo, ⟨i.hi.val - 1, hlt, by have := i.hi.le; omega⟩⟩, ?_, rfl, rfl⟩
          rw [make_of_le (by simp [le]; omega)]; rfl
        · rw [if_neg (by simp [CppVal.ne, CppVal.eq, a3]), if_neg (by simp [a3])]
          exact ⟨i, rfl, rfl, rfl⟩
    obtain ⟨R1, r1, r1l, r1h⟩ := leaf zero c1 false false
    obtain ⟨R2, r2, r2l, r2h⟩ := leaf n c2 true false
    rw [hz] at r1l r1h
    have b1 : R1.lo.val = max 1 i.lo.val := by rw [r1l]; split <;> omega
    have b2 : R1.hi.val = i.hi.val := by rw [r1h]; split <;> omega
    have b3 : R2.lo.val = i.lo.val := by rw [r2l]; split <;> omega
    have b4 : R2.hi.val = min (n.val - 1) i.hi.val := by rw [r2h]; split <;> omega
    have e2 : expectsDebug dbg (ge R1.hi R2.lo && le R1.lo R2.hi) = .ok () := by
      have : (ge R1.hi R2.lo && le R1.lo R2.hi) = true := by simp [ge, le]; omega
      rw [this, expectsDebug_true]
    have m1 : (cmax R1.lo R2.lo).val = max 1 i.lo.val := by unfold cmax; simp only [lt]; split <;> simp_all <;> omega
    have m2 : (cmin R1.hi R2.hi).val = min (n.val - 1) i.hi.val := by unfold cmin; simp only [lt]; split <;> simp_all <;> omega
    refine ⟨⟨cmax R1.lo R2.lo, cmin R1.hi R2.hi⟩, ?_, m1, m2⟩
    rw [show Cond.mkAnd (T := Index) _ _ = .conj (BoolSet.and (BoolSet.notCore (compareEq (.ivl i) (.scalar zero)))
      (BoolSet.notCore (compareEq (.ivl i) (.scalar n)))) _ _ from rfl]
    unfold constrain
    rw [detailConstrain]
    simp only [Cond.isDisj, Bool.false_eq_true, if_false]
    rw [r1, ok_bind]
    dsimp only
    rw [r2, ok_bind]
    dsimp only
    rw [if_pos c3, e2, ok_bind, make_of_le (by rw [bint_le, m1, m2]; omega)]
    rfl
end cond
end Intervals
