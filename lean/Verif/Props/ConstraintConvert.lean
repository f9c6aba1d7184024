import Verif.Props.ConstraintMixed
/-!
# C101: operands of another type as operands of the interval's type
-/
set_option linter.unusedSectionVars false
set_option linter.unusedVariables false
namespace Intervals.Props
open Intervals Spec CppVal
section
variable {V T : Type} [CppVal V] [CppNum V] [CppOrder V] [CppVal T] [CppNum T] [CppOrder T] [CppStep T]
variable {cv : V → T} {pr su : V → Outcome V} {d dbg : Bool} {x : Ivl T} {r : Arg V}

/-- C101: if stepping and converting commute at the bounds of `r`, then constraining by `r` is `constrain` as in C18–C24 with the converted operand (a discrete one if `e`). -/
theorem C101_converted (d e dbg : Bool) (i : Nat) (x : Ivl T) (o : Operand T) (he : o.disc = e) (hn : o.matchesId d i = false)
    (ol : o.arg.lo = cv r.lo) (oh : o.arg.hi = cv r.hi) (oa : o.arg.assigned = r.assigned) (oe : eq (cv r.lo) (cv r.hi) = eq r.lo r.hi)
    (hp : predStep e (cv r.hi) = (do return cv (← pr r.hi))) (hs : succStep e (cv r.lo) = (do return cv (← su r.lo))) (k : XRel) :
    (do constrain dbg d i x (← condX dbg d i x o k) : Outcome (Ivl T)) = constrainM cv pr su d dbg x r k := by
  have hm : (Operand.ident d i x).matchesId d i = true := by simp [Operand.matchesId]
  have a : (Arg.ivl x).assigned = x.assigned := rfl
  have b1 : (do constrain dbg d i x (← condX dbg d i x o k) : Outcome (Ivl T)) =
      (do expectsDebug dbg (x.assigned && o.arg.assigned); constrain dbg d i x (match k with
        | .xLess => .less (compareLt (.ivl x) o.arg) (.ident d i x) o
        | .lessX => .less (compareLt o.arg (.ivl x)) o (.ident d i x)
        | .xLeq => .leq (compareLeq (.ivl x) o.arg) (.ident d i x) o
        | .leqX => .leq (compareLeq o.arg (.ivl x)) o (.ident d i x)
        | .xEq => .equal (compareEq (.ivl x) o.arg) (.ident d i x) o
        | .eqX => .equal (compareEq o.arg (.ivl x)) o (.ident d i x)
        | .xNe => .notEqual (compareNeq (.ivl x) o.arg) (.ident d i x) o
        | .neX => .notEqual (compareNeq o.arg (.ivl x)) o (.ident d i x))) := by
    cases k <;> simp only [condX, condLt, condLe, condEq, condNe, opLt, opLe, opEq, opNe, Operand.arg, a] <;>
      cases dbg <;> cases h1 : x.assigned <;> cases h2 : o.arg.assigned <;> simp [expectsDebug]
  rw [b1, oa]
  unfold constrainM
  congr 1
  funext _
  unfold constrain
  have ia : (Operand.ident d i x).arg = .ivl x := rfl
  have id' : (Operand.ident d i x).disc = d := rfl
  have m1 : compareLtM (fun v : T => v) cv (.ivl x) r = compareLt (.ivl x) o.arg := by simp only [compareLtM, compareLt, ol, oh]
  have m1' : compareLtM cv (fun v : T => v) r (.ivl x) = compareLt o.arg (.ivl x) := by simp only [compareLtM, compareLt, ol, oh]
  have m2 : compareLeqM (fun v : T => v) cv (.ivl x) r = compareLeq (.ivl x) o.arg := by simp only [compareLeqM, compareLeq, ol, oh]
  have m2' : compareLeqM cv (fun v : T => v) r (.ivl x) = compareLeq o.arg (.ivl x) := by simp only [compareLeqM, compareLeq, ol, oh]
  have m3 : compareEqM (fun v : T => v) cv (.ivl x) r = compareEq (.ivl x) o.arg := by simp only [compareEqM, compareEq, ol, oh]
  have m3' : compareEqM cv (fun v : T => v) r (.ivl x) = compareEq o.arg (.ivl x) := by simp only [compareEqM, compareEq, ol, oh]
  have m4 : compareNeqM (fun v : T => v) cv (.ivl x) r = compareNeq (.ivl x) o.arg := by simp only [compareNeqM, compareNeq, ol, oh]
  have m4' : compareNeqM cv (fun v : T => v) r (.ivl x) = compareNeq o.arg (.ivl x) := by simp only [compareNeqM, compareNeq, ol, oh]
  cases k <;> simp only [detailConstrain, hm, hn, constrainRel, XRel.compare, if_true, Bool.or_true, Bool.true_or, Bool.false_eq_true, if_false, ia, id', he, ivl_lo, ivl_hi,
    Bool.and_true, Bool.and_false, Bool.false_and, m1, m2, m3, m4, m1', m2', m3', m4', ol, oh, oe, hp, hs]
  all_goals split
  all_goals first
    | rfl
    | simp only [bind_assoc, pure_bind, expects_true, ok_bind, bind_pure]
  all_goals
    congr 1; funext _
    split
    · simp only [bind_assoc, pure_bind, expects_true, ok_bind, bind_pure]
    · split <;> simp only [bind_assoc, pure_bind, expects_true, ok_bind, bind_pure]

theorem make_ne_ub (a b : T) : Ivl.make a b ≠ .error .ub := by
  unfold Ivl.make expects; split <;> simp [bind, Except.bind, pure, Except.pure]

/-- C101: constraining is undefined behaviour exactly if the comparison is `x < r` (or `r < x`), it is possible, and stepping the bound of `r` in the type of `r` is undefined. -/
theorem C101_ub_iff (hx : Proper x) (hr : ProperA r) (mono : MonoCast cv) (step : d = true → LawfulStep T) (k : XRel) :
    constrainM cv pr su d dbg x r k = .error .ub ↔
      (k = .xLess ∧ pr r.hi = .error .ub ∧ lt x.lo (cv r.hi) = true) ∨ (k = .lessX ∧ su r.lo = .error .ub ∧ lt (cv r.lo) x.hi = true) := by
  have l1 : x.lo ∈ᵢ x := ⟨CppOrder.le_left _ _ hx, hx⟩
  have l2 : x.hi ∈ᵢ x := ⟨hx, CppOrder.le_right _ _ hx⟩
  constructor
  · intro e
    cases hc : BoolSet.contains (k.compare cv x r) true with
    | false => rw [constrainM_impossible hx hr k hc] at e; exact absurd e (by simp)
    | true =>
      rw [constrainM_body hx hr k hc] at e
      cases k <;> simp only [XRel.compare, contains_ltM, contains_leM, contains_eqM, contains_neM, if_true, ivl_lo, ivl_hi] at hc
      · left
        refine ⟨rfl, ?_, hc⟩
        cases hp : pr r.hi with
        | error z => cases z <;> simp_all [bodyX]
        | ok p => simp only [bodyX, hp, ok_bind] at e; exact absurd e (make_ne_ub _ _)
      · right
        refine ⟨rfl, ?_, hc⟩
        cases hp : su r.lo with
        | error z => cases z <;> simp_all [bodyX]
        | ok p => simp only [bodyX, hp, ok_bind] at e; exact absurd e (make_ne_ub _ _)
      · exact absurd e (make_ne_ub _ _)
      · exact absurd e (make_ne_ub _ _)
      · exact absurd e (make_ne_ub _ _)
      · exact absurd e (make_ne_ub _ _)
      · obtain ⟨R, h, -⟩ := body_ne (r := r) hx hr mono step
        simp only [bodyX, h] at e; exact absurd e (by simp)
      · obtain ⟨R, h, -⟩ := body_ne (r := r) hx hr mono step
        simp only [bodyX, h] at e; exact absurd e (by simp)
  · rintro (⟨rfl, h1, h2⟩ | ⟨rfl, h1, h2⟩)
    · exact C101_ub hx hr mono _ ⟨x.lo, l1, _, hi_mem hr, h2⟩ (Or.inl ⟨rfl, h1⟩)
    · exact C101_ub hx hr mono _ ⟨x.hi, l2, _, lo_mem hr, h2⟩ (Or.inr ⟨rfl, h1⟩)
end

/-! ## Floating-point intervals and integers -/
section float
variable {K : Type} [Field K] [LinearOrder K] [IsStrictOrderedRing K] {m : Nat}

/-- C101: for a floating-point interval and a signed integer operand, constraining is undefined behaviour exactly if it is `x < r` where `r` is at most the smallest number of its type and
`x` may be smaller, or the same with the largest number.  (`constrain(x, x < INT_MIN)` for an `interval<double>`.) -/
theorem C101_float_ub (F : Fmt K) (dbg : Bool) (x : Ivl (Fl K)) (r : Arg (SInt m)) (hx : Proper x) (hr : ProperA r) (k : XRel) :
    constrainM (toFloatV (K := K)) (predStep true) (succStep true) false dbg x r k = .error .ub ↔
      (k = .xLess ∧ r.hi.val = -2^m ∧ lt x.lo (toFloatV r.hi) = true) ∨ (k = .lessX ∧ r.lo.val = 2^m - 1 ∧ lt (toFloatV r.lo) x.hi = true) := by
  rw [C101_ub_iff (d := false) hx hr (C101_casts.2.2.1 F m) (fun h => absurd h (by decide))]
  have hp : predStep true r.hi = .error .ub ↔ r.hi.val = -2^m := by
    obtain ⟨p, e, -, h⟩ | ⟨e, h⟩ := pred_sint r.hi <;> simp [e, h]
  have hs : succStep true r.lo = .error .ub ↔ r.lo.val = 2^m - 1 := by
    obtain ⟨p, e, -, h⟩ | ⟨e, h⟩ := succ_sint r.lo <;> simp [e, h]
  rw [hp, hs]

/-- the operand of a floating-point condition that stands for a number or interval of integers -/
def intOperand [Fmt K] : Arg (SInt m) → Operand (Fl K)
  | .scalar v => .scalar true (toFloatV v)
  | .ivl y => .anon true ⟨toFloatV y.lo, toFloatV y.hi⟩

/-- C101: a floating-point interval constrained by integers that are not at the limit of their type, and that are representable together with their successors and predecessors, gives
what C24 says of operands of a discrete type. -/
theorem C101_converted_float (F : Fmt K) (dbg : Bool) (i : Nat) (x : Ivl (Fl K)) (r : Arg (SInt m)) (hl : r.hi.val ≠ -2^m) (hu : r.lo.val ≠ 2^m - 1)
    (e1 : F.rnd (r.lo.val : K) = .num (r.lo.val : K)) (e2 : F.rnd (r.hi.val : K) = .num (r.hi.val : K))
    (e3 : F.rnd ((r.lo.val + 1 : Int) : K) = .num (r.lo.val + 1 : K)) (e4 : F.rnd ((r.hi.val - 1 : Int) : K) = .num (r.hi.val - 1 : K)) (k : XRel) :
    (do constrain dbg false i x (← condX dbg false i x (intOperand r) k) : Outcome (Ivl (Fl K))) =
      constrainM (toFloatV (K := K)) (predStep true) (succStep true) false dbg x r k := by
  have c1 : toFloatV (K := K) r.lo = .num (r.lo.val : K) := e1
  have c2 : toFloatV (K := K) r.hi = .num (r.hi.val : K) := e2
  refine C101_converted false true dbg i x (intOperand r) ?_ ?_ ?_ ?_ ?_ ?_ ?_ ?_ k
  · cases r <;> rfl
  · cases r <;> rfl
  · cases r <;> rfl
  · cases r <;> rfl
  · cases r with
    | scalar v => rfl
    | ivl y =>
      show (!CppVal.gt (toFloatV (K := K) y.lo) (toFloatV y.hi)) = !CppVal.gt y.lo y.hi
      have c1 : toFloatV (K := K) y.lo = .num (y.lo.val : K) := c1
      have c2 : toFloatV (K := K) y.hi = .num (y.hi.val : K) := c2
      rw [c1, c2]
      show (!CppVal.lt (Fl.num (y.hi.val : K)) (.num (y.lo.val : K))) = !decide (y.hi.val < y.lo.val)
      simp [CppVal.lt, Fl.ext]
  · rw [c1, c2]
    show _ = decide (r.lo.val = r.hi.val)
    simp [CppVal.eq, Fl.ext]
  · obtain ⟨p, e, h, -⟩ | ⟨-, h⟩ := pred_sint r.hi
    · rw [c2, e]
      show _ = Except.ok (F.rnd (p.val : K))
      rw [h, e4]; rfl
    · exact absurd h hl
  · obtain ⟨p, e, h, -⟩ | ⟨-, h⟩ := succ_sint r.lo
    · rw [c1, e]
      show _ = Except.ok (F.rnd (p.val : K))
      rw [h, e3]; rfl
    · exact absurd h hu
end float

/-- C101 is violated: `constrain(x, x < INT_MIN)` for `x = interval<double>{ -2^40, 0 }` -/
theorem C101_violated_double : letI := binary64Fmt
    constrainM (toFloatV (K := ℚ) (n := 31)) (predStep true) (succStep true) false false ⟨.num (-2^40), .num 0⟩ (.scalar (i32 (-2^31))) .xLess = .error .ub := by
  decide +kernel

/-- `constrain(x, x > 3)` for `x = interval<double>{ 0., 10. }` (the integer is stepped: disagreement b) -/
example : letI := binary64Fmt
    (i32 3).val ≠ -2^31 ∧ binary64Fmt.rnd ((i32 3).val : ℚ) = .num 3 ∧ binary64Fmt.rnd (((i32 3).val + 1 : Int) : ℚ) = .num 4 ∧ binary64Fmt.rnd (((i32 3).val - 1 : Int) : ℚ) = .num 2 ∧
    constrainM (toFloatV (K := ℚ) (n := 31)) (predStep true) (succStep true) false true ⟨.num 0, .num 10⟩ (.scalar (i32 3)) .lessX = .ok ⟨.num 4, .num 10⟩ := by
  decide +kernel
end Intervals.Props
