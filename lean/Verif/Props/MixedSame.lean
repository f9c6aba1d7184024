import Verif.Props.MixedPow
import Verif.Props.BlendFlt
/-!
# C100: weights and blends of mixed types in every floating-point format
-/
set_option linter.unusedSectionVars false
set_option linter.unusedVariables false
namespace Intervals.Props
open Intervals Spec CppVal
section
variable {n : Nat} {K : Type} [Field K] [LinearOrder K] [IsStrictOrderedRing K] [F : Fmt K]

/-- the operand converted to the floating-point type -/
def toFloatD : DArg n K → Arg (Fl K)
  | .int a => mapA toFloatV a
  | .flt a => a
/-- an operand of integer type has representable bounds -/
def ExactD : DArg n K → Prop
  | .int a => F.rnd (a.lo.val : K) = .num (a.lo.val : K) ∧ F.rnd (a.hi.val : K) = .num (a.hi.val : K)
  | .flt _ => True

theorem toFloatD_lo (a : DArg n K) : (toFloatD a).lo = a.lo.toF := by rcases a with (_ | _) | (_ | _) <;> rfl
theorem toFloatD_hi (a : DArg n K) : (toFloatD a).hi = a.hi.toF := by rcases a with (_ | _) | (_ | _) <;> rfl

theorem lt_cast {a b : SInt n} (ha : F.rnd (a.val : K) = .num (a.val : K)) (hb : F.rnd (b.val : K) = .num (b.val : K)) :
    lt (toFloatV a : Fl K) (toFloatV b) = lt a b := by
  show lt (F.rnd (a.val : K)) (F.rnd (b.val : K)) = decide (a.val < b.val)
  rw [ha, hb]; simp [CppVal.lt, Fl.ext]
theorem le_cast {a b : SInt n} (ha : F.rnd (a.val : K) = .num (a.val : K)) (hb : F.rnd (b.val : K) = .num (b.val : K)) :
    le (toFloatV a : Fl K) (toFloatV b) = le a b := by
  show le (F.rnd (a.val : K)) (F.rnd (b.val : K)) = decide (a.val ≤ b.val)
  rw [ha, hb]; simp [CppVal.le, Fl.ext]
theorem zero_cast : (toFloatV (CppNum.zero : SInt n) : Fl K) = .num 0 := by
  show F.rnd (((0 : Int)) : K) = _
  simpa using F.rnd_zero
theorem zero_exact : F.rnd ((CppNum.zero : SInt n).val : K) = .num ((CppNum.zero : SInt n).val : K) := by
  have : (CppNum.zero : SInt n).val = 0 := rfl
  rw [this]; simpa using F.rnd_zero
theorem one_cast (hn : 1 ≤ n) (one : F.rnd (1 : K) = .num 1) : (toFloatV (CppNum.one : SInt n) : Fl K) = .num 1 := by
  have e : (CppNum.one : SInt n).val = 1 := by show (if n = 0 then (0 : Int) else 1) = 1; rw [if_neg (by omega)]
  show F.rnd (((CppNum.one : SInt n).val : Int) : K) = _
  rw [e]; simpa using one

theorem assigned_cast {a : DArg n K} (h : ExactD a) : (toFloatD a).assigned = a.assigned := by
  rcases a with (v | y) | a
  · rfl
  · show (!lt _ _) = !lt _ _
    exact congrArg _ (lt_cast h.2 h.1)
  · rfl

theorem geZero_cast {a : DArg n K} (h : ExactD a) (dbg : Bool) : a.geZero dbg = geA dbg (toFloatD a) zeroA := by
  rcases a with (v | y) | (v | y)
  · show pure (BoolSet.single (le CppNum.zero v)) = (pure (BoolSet.single (le (.num 0) (toFloatV v))) : Outcome BoolSet)
    have h1 : F.rnd (v.val : K) = .num (v.val : K) := h.1
    rw [← zero_cast (n := n), le_cast zero_exact h1]
  · have e := assigned_cast h
    show opGe dbg (.ivl y) (.scalar CppNum.zero) = opGe dbg (.ivl ⟨toFloatV y.lo, toFloatV y.hi⟩) (.scalar (.num 0))
    have e : (Arg.ivl (⟨toFloatV y.lo, toFloatV y.hi⟩ : Ivl (Fl K))).assigned = (Arg.ivl y).assigned := e
    have h1 : F.rnd (y.lo.val : K) = .num (y.lo.val : K) := h.1
    have h2 : F.rnd (y.hi.val : K) = .num (y.hi.val : K) := h.2
    unfold opGe
    rw [e, ← zero_cast (n := n)]
    simp only [Arg.assigned, compareLeq, Arg.lo, Arg.hi, CppVal.gt, le_cast zero_exact h2, lt_cast h1 zero_exact]
    rfl
  · rfl
  · rfl

theorem isNegInf_cast {v : SInt n} (h : F.rnd (v.val : K) = .num (v.val : K)) : isNegInf (toFloatV v : Fl K) = false ∧ isPosInf (toFloatV v : Fl K) = false := by
  have e : (toFloatV v : Fl K) = .num (v.val : K) := h
  rw [e]; exact ⟨rfl, rfl⟩

theorem addM_cast {a : Arg (SInt n)} (h : ExactD (.int a : DArg n K)) (dbg : Bool) (b : Arg (Fl K)) :
    addM toFloatV (fun v => v) dbg a b = addI dbg (mapA toFloatV a) b ∧ addM (fun v => v) toFloatV dbg b a = addI dbg b (mapA toFloatV a) := by
  have e : (mapA (toFloatV (K := K)) a).assigned = a.assigned := assigned_cast h
  have e1 := isNegInf_cast h.1; have e2 := isNegInf_cast h.2
  have l1 : (mapA (toFloatV (K := K)) a).lo = toFloatV a.lo := by cases a <;> rfl
  have l2 : (mapA (toFloatV (K := K)) a).hi = toFloatV a.hi := by cases a <;> rfl
  have i1 : isNegInf a.lo = false := rfl
  have i2 : isPosInf a.hi = false := rfl
  constructor
  · unfold addM addI
    rw [e, l1, l2]; simp only [e1, e2, i1, i2]
  · unfold addM addI
    rw [e, l1, l2]; simp only [e1, e2, i1, i2]

/-- both are floating-point, or one of them is -/
theorem add_cast (a b : DArg n K) (ty : ¬ (IsIntD a ∧ IsIntD b)) :
    DVal.add a.lo b.hi = .ok (.flt (Fl.add (toFloatD a).lo (toFloatD b).hi)) ∧ DVal.add a.hi b.lo = .ok (.flt (Fl.add (toFloatD a).hi (toFloatD b).lo)) := by
  simp only [toFloatD_lo, toFloatD_hi]
  rcases a with a | a <;> rcases b with b | b
  · exact absurd ⟨trivial, trivial⟩ ty
  all_goals exact ⟨rfl, rfl⟩
theorem add_nonneg' {u v : Fl K} (hu : le (.num 0) u = true) (hv : le (.num 0) v = true) : le (.num 0) (Fl.add u v) = true := by
  cases u <;> cases v <;> simp_all [Fl.add, Fl.isNan, Fl.isInf, Fl.isZero, Fl.signBit, Fl.val]
  all_goals (repeat' split) <;> simp_all [Fl.zero_le_rnd, add_nonneg]
theorem div_castF (v : DVal n K) (w : Fl K) : DVal.div v (.flt w) = .ok (.flt (Fl.div v.toF w)) := by cases v <;> rfl
theorem sumPos_cast {a b : DArg n K} (ty : ¬ (IsIntD a ∧ IsIntD b)) (ha : ExactD a) (hb : ExactD b) (dbg : Bool)
    (pa : (do return BoolSet.always (← geA dbg (toFloatD a) zeroA) : Outcome Bool) = .ok true) (pb : (do return BoolSet.always (← geA dbg (toFloatD b) zeroA) : Outcome Bool) = .ok true) :
    DArg.sumPos dbg a b = (do opGt dbg (.ivl (← addI dbg (toFloatD a) (toFloatD b))) zeroA) := by
  have sc : ∀ u v : Fl K, (do return BoolSet.always (← geA dbg (.scalar u) zeroA) : Outcome Bool) = .ok true → (do return BoolSet.always (← geA dbg (.scalar v) zeroA) : Outcome Bool) = .ok true →
      (do return BoolSet.single (gt (← CppNum.add u v) (CppNum.zero : Fl K)) : Outcome BoolSet) = (do opGt dbg (.ivl (← addI dbg (.scalar u) (.scalar v))) zeroA) := by
    intro u v hu hv
    have al : ∀ b, BoolSet.always (BoolSet.single b) = b := by decide
    have hu : le (.num 0) u = true := by
      have : (Except.ok (BoolSet.always (BoolSet.single (le (.num 0) u))) : Outcome Bool) = .ok true := hu
      rw [al] at this; simpa using this
    have hv : le (.num 0) v = true := by
      have : (Except.ok (BoolSet.always (BoolSet.single (le (.num 0) v))) : Outcome Bool) = .ok true := hv
      rw [al] at this; simpa using this
    have i1 : isNegInf u = false := by cases u <;> simp_all [CppVal.le, Fl.ext] <;> rfl
    have i2 : isNegInf v = false := by cases v <;> simp_all [CppVal.le, Fl.ext] <;> rfl
    have hs : le (.num 0) (Fl.add u v) = true := add_nonneg' hu hv
    have nn : NotNan (Fl.add u v) := CppOrder.le_right _ _ hs
    show (Except.ok (BoolSet.single (lt (.num 0) (Fl.add u v))) : Outcome BoolSet) = _
    have ea : addI dbg (.scalar u) (.scalar v) = .ok ⟨Fl.add u v, Fl.add u v⟩ := by
      unfold addI
      simp only [Arg.assigned, Bool.and_self, expectsDebug_true, ok_bind, Arg.lo, Arg.hi, i1, i2, Bool.false_and, Bool.or_self, Bool.and_false, Bool.false_eq_true, if_false]
      exact make_ok_of_le nn
    rw [ea]
    simp only [ok_bind]
    unfold opGt zeroA
    have : (Arg.ivl (⟨Fl.add u v, Fl.add u v⟩ : Ivl (Fl K))).assigned = true := assigned_of_proper (X := .ivl ⟨Fl.add u v, Fl.add u v⟩) nn
    rw [this]
    simp only [Arg.assigned, Bool.and_self, expectsDebug_true, ok_bind]
    show _ = (Except.ok (if ge (.num 0) (Fl.add u v) = true then BoolSet.assign (if lt (.num 0) (Fl.add u v) = true then BoolSet.assign BoolSet.empty true else BoolSet.empty) false
      else if lt (.num 0) (Fl.add u v) = true then BoolSet.assign BoolSet.empty true else BoolSet.empty) : Outcome BoolSet)
    by_cases hc : lt (.num 0) (Fl.add u v) = true
    · have : ¬ ge (.num 0) (Fl.add u v) = true := by
        show ¬ le _ _ = true
        unfold NotNan at nn; grind
      rw [if_neg this, if_pos hc, hc]; rfl
    · have : ge (.num 0) (Fl.add u v) = true := by
        show le _ _ = true
        unfold NotNan at nn; grind
      rw [if_pos this, if_neg hc, Bool.eq_false_iff.mpr hc]; rfl
  rcases a with a | a <;> rcases b with b | b
  · exact absurd ⟨trivial, trivial⟩ ty
  · have e := (addM_cast ha dbg b).1
    rcases a with u | x <;> rcases b with v | y
    · exact sc _ _ pa pb
    all_goals
      show (do opGt dbg (.ivl (← addM toFloatV (fun v => v) dbg _ _)) (.scalar CppNum.zero)) = _
      rw [e]; rfl
  · have e := (addM_cast hb dbg a).2
    rcases a with u | x <;> rcases b with v | y
    · exact sc _ _ pa pb
    all_goals
      show (do opGt dbg (.ivl (← addM (fun v => v) toFloatV dbg _ _)) (.scalar CppNum.zero)) = _
      rw [e]; rfl
  · rcases a with u | x <;> rcases b with v | y
    · exact sc _ _ pa pb
    all_goals rfl

theorem pre_cast {α : Type} {a b : DArg n K} (ty : ¬ (IsIntD a ∧ IsIntD b)) (ha : ExactD a) (hb : ExactD b) (f : Unit → Outcome α) :
    (do expects (BoolSet.always (← a.geZero true)); expects (BoolSet.always (← b.geZero true)); expects (BoolSet.always (← DArg.sumPos true a b)); f () : Outcome α) =
    (do expects (BoolSet.always (← geA true (toFloatD a) zeroA)); expects (BoolSet.always (← geA true (toFloatD b) zeroA))
        expects (BoolSet.always (← opGt true (.ivl (← addI true (toFloatD a) (toFloatD b))) zeroA)); f ()) := by
  rw [geZero_cast ha, geZero_cast hb]
  have s := sumPos_cast ty ha hb true
  cases e1 : geA true (toFloatD a) zeroA with
  | error z => rfl
  | ok t1 =>
    cases e2 : geA true (toFloatD b) zeroA with
    | error z => rfl
    | ok t2 =>
      rw [e1, e2] at s
      cases c1 : BoolSet.always t1 with
      | false => simp [c1, expects]
      | true =>
        cases c2 : BoolSet.always t2 with
        | false => simp [c1, c2, expects]
        | true =>
          rw [s (by simp [c1]) (by simp [c2])]
          simp [c1, c2, expects]

/-- C100: in every floating-point format, `fractional_weights` of an integer and a floating-point weight is `fractional_weights` of the converted weights, if the bounds of the integer
weight are representable. -/
theorem C100_weights_same (dbg : Bool) (a b : DArg n K) (ty : ¬ (IsIntD a ∧ IsIntD b)) (ha : ExactD a) (hb : ExactD b) :
    fractionalWeightsD dbg a b = fractionalWeightsI dbg (toFloatD a) (toFloatD b) := by
  unfold fractionalWeightsD fractionalWeightsI
  obtain ⟨q1, q2⟩ := add_cast a b ty
  rw [assigned_cast ha, assigned_cast hb]
  have tf : ∀ w : Fl K, (DVal.flt w : DVal n K).toF = w := fun _ => rfl
  simp only [q1, q2, ok_bind, div_castF, tf, ← toFloatD_lo, ← toFloatD_hi]
  cases dbg with
  | false => rfl
  | true =>
    congr 1; funext _
    rw [if_pos rfl, if_pos rfl]
    exact pre_cast ty ha hb (fun _ => _)

theorem ge_cast {x y : DArg n K} (hx : ExactD x) (hy : ExactD y) :
    DVal.ge x.lo y.lo = ge (toFloatD x).lo (toFloatD y).lo ∧ DVal.ge x.hi y.hi = ge (toFloatD x).hi (toFloatD y).hi := by
  rw [toFloatD_lo, toFloatD_lo, toFloatD_hi, toFloatD_hi]
  rcases x with x | x <;> rcases y with y | y
  · exact ⟨(le_cast hy.1 hx.1).symm, (le_cast hy.2 hx.2).symm⟩
  all_goals exact ⟨rfl, rfl⟩

/-- C100: in every floating-point format that represents 1, `blend_fractions` with a floating-point fraction and values of integer types is `blend_fractions` of the converted values, if
their bounds are representable. -/
theorem C100_fractions_same (hn : 1 ≤ n) (one : F.rnd (1 : K) = .num 1) (dbg : Bool) (f : Arg (Fl K)) (x y : DArg n K) (hx : ExactD x) (hy : ExactD y) :
    blendFractionsD dbg (.flt f) x y = blendFractionsI dbg f (toFloatD x) (toFloatD y) := by
  unfold blendFractionsD blendFractionsI
  obtain ⟨q1, q2⟩ := ge_cast hx hy
  have a1 : (DArg.flt f : DArg n K).assigned = f.assigned := rfl
  have l1 : (DArg.flt f : DArg n K).lo = .flt f.lo := rfl
  have l2 : (DArg.flt f : DArg n K).hi = .flt f.hi := rfl
  have i1 : ∀ (c : Bool) (u v : Fl K), (if c = true then (.flt u : DVal n K) else .flt v) = .flt (if c = true then u else v) := by intro c u v; cases c <;> rfl
  have m : ∀ (u : Fl K) (v : DVal n K), DVal.mul (.flt u) v = .ok (.flt (Fl.mul u v.toF)) := by intro u v; cases v <;> rfl
  have sb : ∀ u : Fl K, DVal.sub (DVal.one : DVal n K) (.flt u) = .ok (.flt (Fl.sub (.num 1) u)) := by
    intro u
    show Except.ok (DVal.flt (Fl.sub (toFloatV (CppNum.one : SInt n)) u)) = _
    rw [one_cast hn one]
  have ad : ∀ u v : Fl K, DVal.add (.flt u : DVal n K) (.flt v) = .ok (.flt (Fl.add u v)) := fun _ _ => rfl
  have tf : ∀ w : Fl K, (DVal.flt w : DVal n K).toF = w := fun _ => rfl
  have g1 : (DArg.flt f : DArg n K).geZero dbg = geA dbg f zeroA := by cases f <;> rfl
  have g2 : (DArg.flt f : DArg n K).leOne dbg = leA dbg f (.scalar (.num 1)) := by cases f <;> rfl
  rw [assigned_cast hx, assigned_cast hy]
  simp only [q1, q2, l1, l2, i1, m, sb, ad, ok_bind, a1, g1, g2, tf, ← toFloatD_lo, ← toFloatD_hi]

theorem div_one_cast (hn : 1 ≤ n) (one : F.rnd (1 : K) = .num 1) (u v : DVal n K) (h : ∀ i j, u = .int i → v = .int j → False) :
    (do DVal.div (DVal.one : DVal n K) (← DVal.add DVal.one (← DVal.div u v))) = .ok (.flt (Fl.div (.num 1) (Fl.add (.num 1) (Fl.div u.toF v.toF)))) := by
  have d : DVal.div u v = .ok (.flt (Fl.div u.toF v.toF)) := by
    cases u <;> cases v
    · exact (h _ _ rfl rfl).elim
    all_goals rfl
  rw [d]
  simp only [ok_bind]
  show Except.ok (DVal.flt (Fl.div (toFloatV (CppNum.one : SInt n)) (Fl.add (toFloatV (CppNum.one : SInt n)) (Fl.div u.toF v.toF)))) = _
  rw [one_cast hn one]

/-- C100: the same for `blend_linear` if at least one of the weights is floating-point. -/
theorem C100_linear_same (hn : 1 ≤ n) (one : F.rnd (1 : K) = .num 1) (dbg : Bool) (a b x y : DArg n K) (ty : ¬ (IsIntD a ∧ IsIntD b)) (ha : ExactD a) (hb : ExactD b)
    (hx : ExactD x) (hy : ExactD y) : blendLinearD dbg a b x y = blendLinearI dbg (toFloatD a) (toFloatD b) (toFloatD x) (toFloatD y) := by
  unfold blendLinearD blendLinearI
  have e1 : ∀ i j, b.hi = .int i → a.lo = .int j → False := by
    rcases a with a | a <;> rcases b with b | b <;> intro i j h1 h2 <;> first | exact ty ⟨trivial, trivial⟩ | (cases h1; done) | (cases h2; done)
  have e2 : ∀ i j, b.lo = .int i → a.hi = .int j → False := by
    rcases a with a | a <;> rcases b with b | b <;> intro i j h1 h2 <;> first | exact ty ⟨trivial, trivial⟩ | (cases h1; done) | (cases h2; done)
  have d1 := div_one_cast hn one _ _ e1
  have d2 := div_one_cast hn one _ _ e2
  rw [assigned_cast ha, assigned_cast hb, assigned_cast hx, assigned_cast hy]
  have body : ∀ dbg, (do
      let qlo ← DVal.div DVal.one (← DVal.add DVal.one (← DVal.div b.hi a.lo))
      let qhi ← DVal.div DVal.one (← DVal.add DVal.one (← DVal.div b.lo a.hi))
      blendFractionsD dbg (← DArg.make qlo qhi) x y) =
      (do
        let qlo := Fl.div (.num 1) (Fl.add (.num 1) (Fl.div (toFloatD b).hi (toFloatD a).lo))
        let qhi := Fl.div (.num 1) (Fl.add (.num 1) (Fl.div (toFloatD b).lo (toFloatD a).hi))
        blendFractionsI dbg (.ivl (← Ivl.make qlo qhi)) (toFloatD x) (toFloatD y)) := by
    intro dbg
    have h1 : ∀ k : DVal n K → Outcome (Ivl (Fl K)), (do k (← DVal.div (DVal.one : DVal n K) (← DVal.add DVal.one (← DVal.div b.hi a.lo)))) =
        k (.flt (Fl.div (.num 1) (Fl.add (.num 1) (Fl.div b.hi.toF a.lo.toF)))) := by
      intro k
      have := congrArg (fun o : Outcome (DVal n K) => o >>= k) d1
      simpa only [bind_assoc, ok_bind] using this
    have h2 : ∀ k : DVal n K → Outcome (Ivl (Fl K)), (do k (← DVal.div (DVal.one : DVal n K) (← DVal.add DVal.one (← DVal.div b.lo a.hi)))) =
        k (.flt (Fl.div (.num 1) (Fl.add (.num 1) (Fl.div b.lo.toF a.hi.toF)))) := by
      intro k
      have := congrArg (fun o : Outcome (DVal n K) => o >>= k) d2
      simpa only [bind_assoc, ok_bind] using this
    rw [h1, h2]
    simp only [DArg.make, DVal.toF, toFloatD_lo, toFloatD_hi, bind_assoc, pure_bind, C100_fractions_same hn one dbg _ x y hx hy]
  cases dbg with
  | false =>
    congr 1; funext _
    exact body false
  | true =>
    congr 1; funext _
    rw [if_pos rfl, if_pos rfl]
    have := pre_cast ty ha hb (fun _ => (do
        let qlo := Fl.div (.num 1) (Fl.add (.num 1) (Fl.div (toFloatD b).hi (toFloatD a).lo))
        let qhi := Fl.div (.num 1) (Fl.add (.num 1) (Fl.div (toFloatD b).lo (toFloatD a).hi))
        blendFractionsI true (.ivl (← Ivl.make qlo qhi)) (toFloatD x) (toFloatD y)))
    rw [← body true] at this
    rw [this]
    simp only [body true]
end

/-- `blend_linear([1,2], 2., 0, [3,3])` in `double` with an `int` weight and an `int` value -/
example : letI := binary64Fmt
    ExactD (.int (.ivl ⟨i32 1, i32 2⟩) : DArg 31 ℚ) ∧ ExactD (.int (.scalar (i32 0)) : DArg 31 ℚ) ∧ binary64Fmt.rnd 1 = .num 1 ∧
    blendLinearD true (.int (.ivl ⟨i32 1, i32 2⟩) : DArg 31 ℚ) (.flt (.scalar (.num 2))) (.int (.scalar (i32 0))) (.flt (.ivl ⟨.num 3, .num 3⟩)) =
      .ok ⟨.num (3/2), .num 2⟩ := by
  refine ⟨⟨?_, ?_⟩, ⟨?_, ?_⟩, ?_, ?_⟩ <;> decide +kernel
end Intervals.Props
