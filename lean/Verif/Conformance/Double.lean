import Verif.Conformance.Common
import Verif.Model.FltClass
import Verif.Model.Elem
import Verif.Model.Programs
import Verif.Model.Scalar
import Verif.Lemmas.BinFmt
import Mathlib.Data.Rat.Floor
/-!
# test/test-interval.cpp:19–1274 (`TEST_CASE("interval<>")`), 1956–1994 run on the model

The tables are copied from the test file.  Values are binary64 numbers: `r q` is the `double` nearest to the rational `q` and all operations
round.  Functions of `<cmath>` are replaced by monotone stand-ins where a check does not depend on their values (sections "sqrt()" to "exp()"
compare with the same function; "asin()", "acos()", "atan2()", "pow(): indefinite" check which calls throw or give NaN).  Not transcribed: the
sections that compare with numerical values of `std::pow`, `std::sin`, `std::cos`, `std::tan` up to a tolerance.
-/
namespace Intervals.Conformance.DoubleTests
open CppVal CppNum

attribute [local instance] binary64Fmt

/-- a `double` literal -/
def r (q : ℚ) : Fl ℚ := Fmt.rnd q
abbrev D := Fl ℚ
abbrev I := Ivl D

/-! value() (29–34) -/
example : check ((⟨r 1, r 1⟩ : I).value) (eq · (r 1)) ∧ throws ((Ivl.unassigned : I).value) ∧ throws ((⟨r 1, r 2⟩ : I).value) := by
  decide +kernel

/-- below, a, in, b, above (37–57) -/
def relTable : List (D × D × D × D × D) := [
  (.nan, .ninf, .ninf, .ninf, r (-1)),
  (.nan, .ninf, r (-2), r (-1), r (-5/10)),
  (.nan, .ninf, r (-1), .nzero, r (5/10)),
  (.nan, .ninf, r 0, r 1, r 2),
  (.nan, .ninf, r 0, r 1, .pinf),
  (.nan, .ninf, r 0, .pinf, .nan),
  (r (-2), r (-15/10), r (-15/10), r (-15/10), r (-1)),
  (r (-2), r (-15/10), r (-1), r (-1/10), r 0),
  (r (-2), r (-15/10), r (-1), r 0, r (5/10)),
  (r (-2), r (-15/10), r 0, r 1, r 2),
  (r (-2), r (-15/10), r 0, .pinf, .nan),
  (r (-2), r 0, r 0, r 0, r 1),
  (r (-2), r 0, r (1/10), r 1, r (15/10)),
  (r (-2), r 0, r 1, .pinf, .nan),
  (r (-2), r (1/10), r (1/10), r (1/10), r 1),
  (r 0, r (1/10), r (1/10), r (1/10), r 1),
  (r (1/100), r (1/10), r (1/10), r (1/10), r 1),
  (r (-2), r (1/10), r 1, r 2, r 3),
  (r (-2), r (1/10), r 1, .pinf, .nan)]

/-! mixed relational operators (58–81) -/
example : relTable.all (fun (l, a, x, b, u) => relRow l a x b u) = true := by decide +kernel

/-- below, a, in, b, above (102–122; the same table in 189–209, 213–233) -/
def table : List (D × D × D × D × D) := [
  (.nan, .ninf, .ninf, .ninf, r (-1)),
  (.nan, .ninf, r (-2), r (-1), r (-5/10)),
  (.nan, .ninf, r (-1), .nzero, r (5/10)),
  (.nan, .ninf, r 0, r 1, r 2),
  (.nan, .ninf, r 0, r 1, .pinf),
  (.nan, .ninf, r 0, .pinf, .nan),
  (r (-2), r (-15/10), r (-15/10), r (-15/10), r (-1)),
  (r (-2), r (-15/10), r (-1), r (-1/10), r 0),
  (r (-2), r (-15/10), r (-1), .nzero, r (5/10)),
  (r (-2), r (-15/10), r 0, r 1, r 2),
  (r (-2), r (-15/10), r 0, .pinf, .nan),
  (r (-2), r 0, r 0, r 0, r 1),
  (r (-2), r 0, r (1/10), r 1, r (15/10)),
  (r (-2), r 0, r 1, .pinf, .nan),
  (r (-2), r (1/10), r (1/10), r (1/10), r 1),
  (r 0, r (1/10), r (1/10), r (1/10), r 1),
  (r (1/100), r (1/10), r (1/10), r (1/10), r 1),
  (r (-2), r (1/10), r 1, r 2, r 3),
  (r (-2), r (1/10), r 1, .pinf, .nan)]

/-! unary operators (127–186) -/
example : table.all (fun (_, a, _, b, _) => cornerCheck (negI true ⟨a, b⟩) [neg a, neg b]) = true := by decide +kernel
example : table.all (fun (_, a, _, b, _) =>
    check (squareV a) fun a2 => check (squareV b) fun b2 =>
      bounds (squareI true ⟨a, b⟩) (if le a (r 0) && ge b (r 0) then r 0 else minL a2 [b2]) (maxL a2 [b2])) = true := by decide +kernel
example : table.all (fun (_, a, _, b, _) => sgnRow a b) = true := by decide +kernel
example : table.all (fun (_, a, _, b, _) =>
    check (isInfI true ⟨a, b⟩) (fun s =>
      (BoolSet.always s == (a.isInf && eq a b)) && (BoolSet.possibly s == (a.isInf || b.isInf))) &&
    check (isFiniteI true ⟨a, b⟩) (fun s =>
      (BoolSet.always s == (!a.isInf && !b.isInf)) && (BoolSet.possibly s == (ne a b || !a.isInf)))) = true := by decide +kernel

/-- stand-ins for `<cmath>`: increasing functions (`acos` decreasing) -/
def standIn : Libm ℚ where
  sqrt x := x
  cbrt x := x
  log x := if eq x (r 0) then .ninf else Fl.sub x (r 1)
  exp x := if eq x .ninf then r 0 else Fl.add (cmax x (r (-1))) (r 2)
  cos _ := r 0
  tan x := x
  asin x := x
  acos x := Fl.neg x
  atan x := x
  atan2 y x := Fl.sub y x
  pi := r 3
attribute [local instance] standIn

example : table.all (fun (_, a, _, b, _) =>
    (!ge a (r 0) || cornerCheck (sqrtI true ⟨a, b⟩) [sqrtS true a, sqrtS true b]) &&
    cornerCheck (cbrtI true ⟨a, b⟩) [.ok (Libm.cbrt a), .ok (Libm.cbrt b)] &&
    (!ge a (r 0) || cornerCheck (logI true ⟨a, b⟩) [logS true a, logS true b]) &&
    (!lt b (r 100) || cornerCheck (expI true ⟨a, b⟩) [.ok (Libm.exp a), .ok (Libm.exp b)])) = true := by decide +kernel

/-! binary operators (238–396) -/
def binary (f : D × D × D → D × D × D → Bool) : Bool :=
  table.all fun (_, a, x, b, _) => table.all fun (_, c, y, d, _) => f (a, x, b) (c, y, d)
/-- `(p & q) | (s & t)` for sets of truth values, of which at least one operand of each operator is a `set<bool>` -/
def andOr (p q s t : Outcome BoolSet) : Outcome BoolSet := do
  return BoolSet.or (BoolSet.and (← p) (← q)) (BoolSet.and (← s) (← t))
def b2s (b : Bool) : Outcome BoolSet := .ok (BoolSet.single b)
/-- the test's case distinction: `CHECK(possibly(isnan(z)))` if the operation is `indefinite`, otherwise `e` -/
def unlessNan (indefinite : Outcome BoolSet) (z : Outcome I) (e : Bool) : Bool :=
  check indefinite fun s => if BoolSet.possibly s then possibly (do isNanI true (← z)) else e
def isInf' (x : Arg D) : Outcome BoolSet := match x with
  | .ivl x => isInfI true x
  | .scalar x => b2s x.isInf
def eq' (x : Arg D) (v : D) : Outcome BoolSet := match x with
  | .ivl x => opEq true (.ivl x) (.scalar v)
  | .scalar x => b2s (eq x v)

example : binary (fun (a, _, b) (c, _, d) =>
    let x : Arg D := .ivl ⟨a, b⟩; let y : Arg D := .ivl ⟨c, d⟩
    let z := addI true x y
    unlessNan (andOr (eq' x .pinf) (eq' y .ninf) (eq' x .ninf) (eq' y .pinf)) z
      (cornerCheck z [add a c, add a d, add b c, add b d])) = true := by decide +kernel
example : binary (fun (a, _, b) (c, _, d) =>
    let x : Arg D := .ivl ⟨a, b⟩; let y : Arg D := .ivl ⟨c, d⟩
    let z := subI true x y
    unlessNan (andOr (eq' x .ninf) (eq' y .ninf) (eq' x .pinf) (eq' y .pinf)) z
      (cornerCheck z [sub a c, sub a d, sub b c, sub b d])) = true := by decide +kernel
example : binary (fun (a, xin, b) (c, yin, d) =>
    let x : Arg D := .ivl ⟨a, b⟩; let y : Arg D := .ivl ⟨c, d⟩
    let z := mulI true x y
    unlessNan (andOr (isInf' x) (eq' y (r 0)) (isInf' y) (eq' x (r 0))) z
      (cornerCheck z [mul a c, mul a d, mul b c, mul b d] && hits z [mul a yin, mul xin c, mul xin yin, mul b yin, mul xin d])) = true := by
  decide +kernel
example : binary (fun (a, xin, b) (c, _, _) =>
    let x : Arg D := .ivl ⟨a, b⟩; let y : Arg D := .scalar c
    let z := mulI true x y
    unlessNan (andOr (isInf' x) (eq' y (r 0)) (isInf' y) (eq' x (r 0))) z
      (cornerCheck z [mul a c, mul b c] && hits z [mul a c, mul xin c, mul b c])) = true := by decide +kernel
example : binary (fun (a, xin, b) (c, yin, d) =>
    let x : Arg D := .ivl ⟨a, b⟩; let y : Arg D := .ivl ⟨c, d⟩
    let z := divI true x y
    unlessNan (andOr (eq' x (r 0)) (eq' y (r 0)) (isInf' x) (isInf' y)) z
      (if always (opNe true x (.scalar (r 0))) && (⟨c, d⟩ : I).enclosesVal (r 0) then bounds z .ninf .pinf
       else cornerCheck z [div a c, div a d, div b c, div b d] &&
         hits z [div a yin, div xin c, div xin yin, div b yin, div xin d])) = true := by decide +kernel
example : binary (fun (a, xin, b) (c, _, _) =>
    let x : Arg D := .ivl ⟨a, b⟩; let y : Arg D := .scalar c
    let z := divI true x y
    unlessNan (andOr (eq' x (r 0)) (eq' y (r 0)) (isInf' x) (isInf' y)) z
      (cornerCheck z [div a c, div b c] && hits z [div a c, div xin c, div b c])) = true := by decide +kernel
example : binary (fun (a, _, _) (c, yin, d) =>
    let x : Arg D := .scalar a; let y : Arg D := .ivl ⟨c, d⟩
    let z := divI true x y
    unlessNan (andOr (eq' x (r 0)) (eq' y (r 0)) (isInf' x) (isInf' y)) z
      (if ne a (r 0) && (⟨c, d⟩ : I).enclosesVal (r 0) then bounds z .ninf .pinf
       else cornerCheck z [div a c, div a d] && hits z [div a c, div a yin, div a d])) = true := by decide +kernel

/-! pow(): indefinite (457–463) -/
example : [(.scalar (r (-3/2)) : Arg D), .scalar (r (3/2)), .ivl ⟨r (-1), r 0⟩, .ivl ⟨r 0, r 1⟩].all (fun y =>
    possibly (do isNanI true (← powI true (.ivl ⟨r (-1), r 0⟩) y))) = true := by decide +kernel

/-! arc sine, arc cosine, arc tangent (583–612) (`std::sqrt(1./4)` is 0.5; `std::sqrt(1./2)` replaced by 0.7) -/
def ratios : List D := [.ninf, r (-2), r (-1), r (-7/10), r (-1/2), r (-1/2), r 0, r (1/2), r (1/2), r (7/10), r 1, r 2, .pinf]
example : (List.range ratios.length).all (fun i => (ratios.drop i).all (fun b =>
    let a := ratios.getD i .nan
    let x : I := ⟨a, b⟩
    (if ge a (r (-1)) && le b (r 1) then
      bounds (asinI true x) (Libm.asin a) (Libm.asin b) && bounds (acosI true x) (Libm.acos b) (Libm.acos a)
     else throws (asinI true x) && throws (acosI true x)) &&
    bounds (atanI true x) (Libm.atan a) (Libm.atan b))) = true := by decide +kernel

/-- x, y, indefinite (616–649) -/
def atan2Table : List (I × I × Bool) := [
  (⟨r (-3),r (-3)⟩, ⟨r (-4),r (-4)⟩, false),
  (⟨r 2,r 2⟩, ⟨r (-4),r (-4)⟩, false),
  (⟨r 2,r 2⟩, ⟨r 1,r 1⟩, false),
  (⟨r (-3),r (-3)⟩, ⟨r 1,r 1⟩, false),
  (⟨r (-3),r (-1)⟩, ⟨r (-4),r (-2)⟩, false),
  (⟨r (-3),r 0⟩, ⟨r (-4),r (-2)⟩, false),
  (⟨r (-3),r 2⟩, ⟨r (-4),r (-2)⟩, false),
  (⟨r 0,r 2⟩, ⟨r (-4),r (-2)⟩, false),
  (⟨r 1,r 4⟩, ⟨r (-4),r 0⟩, false),
  (⟨r 1,r 4⟩, ⟨r (-4),r 2⟩, false),
  (⟨r 1,r 4⟩, ⟨r 0,r 2⟩, false),
  (⟨r 1,r 4⟩, ⟨r 1,r 2⟩, false),
  (⟨r 0,r 4⟩, ⟨r 1,r 2⟩, false),
  (⟨r (-3),r 2⟩, ⟨r 1,r 2⟩, false),
  (⟨r (-3),r 0⟩, ⟨r 1,r 2⟩, false),
  (⟨r (-3),r (-1)⟩, ⟨r 1,r 2⟩, false),
  (⟨r (-3),r 0⟩, ⟨r 0,r 0⟩, true),
  (⟨r 0,r 0⟩, ⟨r 0,r 2⟩, true),
  (⟨r 0,r 0⟩, ⟨r 0,r 0⟩, true),
  (⟨r (-3),r 0⟩, ⟨r 0,r 2⟩, true),
  (⟨r (-3),r 0⟩, ⟨r (-1),r 2⟩, true),
  (⟨r (-3),r 0⟩, ⟨r (-1),r 0⟩, true),
  (⟨r 0,r 1⟩, ⟨r 0,r 2⟩, true),
  (⟨r 0,r 1⟩, ⟨r (-1),r 2⟩, true),
  (⟨r 0,r 1⟩, ⟨r (-1),r 0⟩, true),
  (⟨r (-3),r 1⟩, ⟨r 0,r 2⟩, true),
  (⟨r (-3),r 1⟩, ⟨r (-1),r 2⟩, true),
  (⟨r (-3),r 1⟩, ⟨r (-1),r 0⟩, true)]
/-! atan2() (650–676): which rows are indefinite -/
example : atan2Table.all (fun (x, y, indefinite) =>
    let z := atan2I true (.ivl y) (.ivl x)
    if indefinite then possibly (do isNanI true (← z))
    else always (do BoolSet.not true (← isNanI true (← z))) &&
      cornerCheck z [atan2S true y.lo x.lo, atan2S true y.lo x.hi, atan2S true y.hi x.lo, atan2S true y.hi x.hi] &&
      cornerCheck (atan2I true (.ivl y) (.scalar x.lo)) [atan2S true y.lo x.lo, atan2S true y.hi x.lo] &&
      cornerCheck (atan2I true (.scalar y.lo) (.ivl x)) [atan2S true y.lo x.lo, atan2S true y.lo x.hi]) = true := by decide +kernel

/-! if_else() (687–705) -/
example : matchesV (Ivl.ifElseVV F (r 1) (r 2)) (r 2) ∧ matchesI (Ivl.ifElseVV FT (r 1) (r 2)) ⟨r 1, r 2⟩ ∧
    matchesV (Ivl.ifElseVV T (r 1) (r 2)) (r 1) := by decide +kernel
example : matchesV (Ivl.ifElseIV F ⟨r 1, r 2⟩ (r 3)) (r 3) ∧ matchesI (Ivl.ifElseIV FT ⟨r 1, r 2⟩ (r 3)) ⟨r 1, r 3⟩ ∧
    matchesI (Ivl.ifElseIV T ⟨r 1, r 2⟩ (r 3)) ⟨r 1, r 2⟩ := by decide +kernel
example : matchesI (Ivl.ifElseVI F (r 1) ⟨r 3, r 4⟩) ⟨r 3, r 4⟩ ∧ matchesI (Ivl.ifElseVI FT (r 1) ⟨r 3, r 4⟩) ⟨r 1, r 4⟩ ∧
    matchesV (Ivl.ifElseVI T (r 1) ⟨r 3, r 4⟩) (r 1) := by decide +kernel
example : matchesI (Ivl.ifElse F (⟨r 1, r 2⟩ : I) ⟨r 3, r 4⟩) ⟨r 3, r 4⟩ ∧ matchesI (Ivl.ifElse FT (⟨r 1, r 2⟩ : I) ⟨r 3, r 4⟩) ⟨r 1, r 4⟩ ∧
    matchesI (Ivl.ifElse T (⟨r 1, r 2⟩ : I) ⟨r 3, r 4⟩) ⟨r 1, r 2⟩ := by decide +kernel

/-! constrain(): scalar (710–728) -/
example : [(.ninf : D), r (-1), r 0, r 1, r 2].all (fun a => [r (-2), r (-1), r 0, r 1, r 2, r 3].all (fun x =>
    let cond := ge x a && le x (r 2)
    if possiblyB cond then check (Scalar.constrain x cond) (eq · x)
    else check (Scalar.constrain x (!cond)) (eq · x) && throws (Scalar.constrain x cond))) = true := by decide +kernel

/-- x, y, ltc, leqc, xc, yc (733–764) -/
def ltTable : List (I × I × BoolSet × BoolSet × I × I) := [
  (⟨r (-2), r (-2)⟩, ⟨r 1, r 1⟩, T, T, ⟨r (-2), r (-2)⟩, ⟨r 1, r 1⟩),
  (⟨r 1, r 1⟩, ⟨r 1, r 1⟩, F, T, ⟨r 1, r 1⟩, ⟨r 1, r 1⟩),
  (⟨r 3, r 3⟩, ⟨r 1, r 1⟩, F, F, ⟨r 0, r 0⟩, ⟨r 0, r 0⟩),
  (⟨r (-2), r (-1)⟩, ⟨r 1, r 1⟩, T, T, ⟨r (-2), r (-1)⟩, ⟨r 1, r 1⟩),
  (⟨r (-2), r 1⟩, ⟨r 1, r 1⟩, FT, T, ⟨r (-2), r 1⟩, ⟨r 1, r 1⟩),
  (⟨r (-2), r 3⟩, ⟨r 1, r 1⟩, FT, FT, ⟨r (-2), r 1⟩, ⟨r 1, r 1⟩),
  (⟨r 1, r 3⟩, ⟨r 1, r 1⟩, F, FT, ⟨r 1, r 1⟩, ⟨r 1, r 1⟩),
  (⟨r 2, r 3⟩, ⟨r 1, r 1⟩, F, F, ⟨r 0, r 0⟩, ⟨r 0, r 0⟩),
  (⟨r 1, r 1⟩, ⟨r 2, r 3⟩, T, T, ⟨r 1, r 1⟩, ⟨r 2, r 3⟩),
  (⟨r 1, r 1⟩, ⟨r 1, r 3⟩, FT, T, ⟨r 1, r 1⟩, ⟨r 1, r 3⟩),
  (⟨r 1, r 1⟩, ⟨r (-2), r 3⟩, FT, FT, ⟨r 1, r 1⟩, ⟨r 1, r 3⟩),
  (⟨r 1, r 1⟩, ⟨r (-2), r 1⟩, F, FT, ⟨r 1, r 1⟩, ⟨r 1, r 1⟩),
  (⟨r 1, r 1⟩, ⟨r (-2), r (-1)⟩, F, F, ⟨r 0, r 0⟩, ⟨r 0, r 0⟩),
  (⟨r (-2), r (-1)⟩, ⟨r 1, r 3⟩, T, T, ⟨r (-2), r (-1)⟩, ⟨r 1, r 3⟩),
  (⟨r (-2), r 1⟩, ⟨r 1, r 3⟩, FT, T, ⟨r (-2), r 1⟩, ⟨r 1, r 3⟩),
  (⟨r (-2), r 2⟩, ⟨r 1, r 3⟩, FT, FT, ⟨r (-2), r 2⟩, ⟨r 1, r 3⟩),
  (⟨r (-2), r 3⟩, ⟨r 1, r 3⟩, FT, FT, ⟨r (-2), r 3⟩, ⟨r 1, r 3⟩),
  (⟨r (-2), r 5⟩, ⟨r 1, r 3⟩, FT, FT, ⟨r (-2), r 3⟩, ⟨r 1, r 3⟩),
  (⟨r 1, r 2⟩, ⟨r 1, r 3⟩, FT, FT, ⟨r 1, r 2⟩, ⟨r 1, r 3⟩),
  (⟨r 1, r 3⟩, ⟨r 1, r 3⟩, FT, FT, ⟨r 1, r 3⟩, ⟨r 1, r 3⟩),
  (⟨r 1, r 5⟩, ⟨r 1, r 3⟩, FT, FT, ⟨r 1, r 3⟩, ⟨r 1, r 3⟩),
  (⟨r 2, r 3⟩, ⟨r 1, r 3⟩, FT, FT, ⟨r 2, r 3⟩, ⟨r 2, r 3⟩),
  (⟨r 2, r 5⟩, ⟨r 1, r 3⟩, FT, FT, ⟨r 2, r 3⟩, ⟨r 2, r 3⟩),
  (⟨r 3, r 5⟩, ⟨r 1, r 3⟩, F, FT, ⟨r 3, r 3⟩, ⟨r 3, r 3⟩),
  (⟨r 4, r 5⟩, ⟨r 1, r 3⟩, F, F, ⟨r 0, r 0⟩, ⟨r 0, r 0⟩)]
/-! constrain(): x < y, x <= y (765–849) -/
example : ltTable.all (fun (x, y, ltc, leqc, xc, yc) => ltRow false x y ltc leqc xc yc xc yc) = true := by decide +kernel

/-- x, y, c, xyc (853–879) -/
def eqTable : List (I × I × BoolSet × I) := [
  (⟨r (-2), r (-2)⟩, ⟨r 1, r 1⟩, F, ⟨r 0, r 0⟩),
  (⟨r 1, r 1⟩, ⟨r 1, r 1⟩, T, ⟨r 1, r 1⟩),
  (⟨r 3, r 3⟩, ⟨r 1, r 1⟩, F, ⟨r 0, r 0⟩),
  (⟨r (-2), r (-1)⟩, ⟨r 1, r 1⟩, F, ⟨r 0, r 0⟩),
  (⟨r (-2), r 1⟩, ⟨r 1, r 1⟩, FT, ⟨r 1, r 1⟩),
  (⟨r (-2), r 3⟩, ⟨r 1, r 1⟩, FT, ⟨r 1, r 1⟩),
  (⟨r 1, r 3⟩, ⟨r 1, r 1⟩, FT, ⟨r 1, r 1⟩),
  (⟨r 2, r 3⟩, ⟨r 1, r 1⟩, F, ⟨r 0, r 0⟩),
  (⟨r (-2), r (-1)⟩, ⟨r 1, r 3⟩, F, ⟨r 0, r 0⟩),
  (⟨r (-2), r 1⟩, ⟨r 1, r 3⟩, FT, ⟨r 1, r 1⟩),
  (⟨r (-2), r 2⟩, ⟨r 1, r 3⟩, FT, ⟨r 1, r 2⟩),
  (⟨r (-2), r 3⟩, ⟨r 1, r 3⟩, FT, ⟨r 1, r 3⟩),
  (⟨r (-2), r 5⟩, ⟨r 1, r 3⟩, FT, ⟨r 1, r 3⟩),
  (⟨r 1, r 2⟩, ⟨r 1, r 3⟩, FT, ⟨r 1, r 2⟩),
  (⟨r 1, r 3⟩, ⟨r 1, r 3⟩, FT, ⟨r 1, r 3⟩),
  (⟨r 1, r 5⟩, ⟨r 1, r 3⟩, FT, ⟨r 1, r 3⟩),
  (⟨r 2, r 3⟩, ⟨r 1, r 3⟩, FT, ⟨r 2, r 3⟩),
  (⟨r 2, r 5⟩, ⟨r 1, r 3⟩, FT, ⟨r 2, r 3⟩),
  (⟨r 3, r 5⟩, ⟨r 1, r 3⟩, FT, ⟨r 3, r 3⟩),
  (⟨r 4, r 5⟩, ⟨r 1, r 3⟩, F, ⟨r 0, r 0⟩)]
/-! constrain(): x == y, x != y (880–923) -/
example : eqTable.all (fun (x, y, c, xyc) =>
    let ox := Operand.ident false 0 x
    let oy := Operand.ident false 1 y
    block false x y (condEq true ox oy) c xyc xyc true &&
    check (BoolSet.not true c) (fun nc => truthIs (condNe true ox oy) nc) &&
    (let cc := cnot (condNe true ox oy)
     if BoolSet.contains c true then matchesI (cx false x cc) xyc && matchesI (cy false y cc) xyc
     else throws (cx false x cc) && throws (cy false y cc))) = true := by decide +kernel

/-! constrain(): & and | (925–1116) -/
def xs : List I := [r (-2), r 1, r 2, r 3, r 4, r 5, r 6, r 7].flatMap fun lo =>
  ([r (-1), r 1, r 2, r 3, r 4, r 5, r 6, r 7, r 8].filter (fun hi => ge hi lo)).map fun hi => ⟨lo, hi⟩
def abTable : List (I × I) := [
  (⟨r 1, r 1⟩, ⟨r 1, r 1⟩),
  (⟨r 1, r 1⟩, ⟨r 4, r 4⟩),
  (⟨r 1, r 1⟩, ⟨r 4, r 6⟩),
  (⟨r 4, r 4⟩, ⟨r 4, r 6⟩),
  (⟨r 1, r 3⟩, ⟨r 4, r 4⟩),
  (⟨r 1, r 3⟩, ⟨r 4, r 6⟩),
  (⟨r 1, r 4⟩, ⟨r 4, r 4⟩),
  (⟨r 1, r 4⟩, ⟨r 4, r 6⟩)]
example : xs.all (fun x => abTable.all (fun (a, b) => andRow false x a b)) = true := by decide +kernel
example : xs.all (fun x => ([⟨r 1, r 1⟩, ⟨r 1, r 2⟩, ⟨r 1, r 4⟩, ⟨r 2, r 4⟩, ⟨r 4, r 4⟩] : List I).all (fun a =>
    ([⟨r 2, r 2⟩, ⟨r 2, r 3⟩, ⟨r 4, r 6⟩] : List I).all (fun b => orRow false x a b))) = true := by decide +kernel

/-! constraint not considered (1118–1129); `x + 1` is a temporary -/
example : let x : I := ⟨r 1, r 1⟩; let y : I := ⟨r 2, r 2⟩; let a : Operand D := .ident false 2 ⟨r 0, r 0⟩
    check (cx false x (condGe true (.ident false 0 x) a)) (fun _ => true) ∧
    throws (cx false x (do condGe true (.anon false (← addI true (.ivl x) (.scalar (r 1)))) a)) ∧
    throws (cx false x (condGe true (.ident false 1 y) a)) := by decide +kernel

/-! constraint not satisfiable (1130–1140) -/
example : let x : I := ⟨r 1, r 1⟩; let ox : Operand D := .ident false 0 x; let a : Operand D := .ident false 2 ⟨r 3, r 3⟩
    throws (cx false x (condEq true ox a)) ∧ throws (cx false x (condGe true ox a)) ∧ throws (cx false x (condLt true a ox)) := by
  decide +kernel

/-! composite sub-constraint not satisfiable (1141–1150) -/
example : let x : I := ⟨r 1, r 1⟩; let ox : Operand D := .ident false 0 x; let oy : Operand D := .ident false 1 ⟨r 2, r 2⟩
    let a : Operand D := .ident false 2 ⟨r 3, r 3⟩
    check (cx false x (cor (condEq true ox a) (condLt true oy a))) (fun _ => true) ∧
    throws (cx false x (cor (condEq true ox a) (condEq true oy a))) := by decide +kernel

/-! erroneous nested constraint (1151–1181): `a` is at address 0, `ac` at address 1; the literals `3`, `4` are `int`s -/
example : ([⟨r 1, r 4⟩, ⟨r 1, r 5⟩, ⟨r 4, r 5⟩] : List I).all (fun a =>
    let oa : Operand D := .ident false 0 a
    let c := cor (condLe true oa (.scalar true (r 3))) (.ok (.plain (BoolSet.single true)))
    check c (fun c => BoolSet.possibly c.truth) &&
    check (cx false a c) (fun ac =>
      let good := condGt true (.ident false 1 ac) (.scalar true (r 4))
      let bad := condGt true oa (.scalar true (r 4))
      check good (fun g => !BoolSet.possibly g.truth || check (cy false ac good) (fun _ => true)) &&
      check bad (fun b => !BoolSet.possibly b.truth || throws (cy false ac bad)))) = true := by decide +kernel

/-! min and max (1956–1994) -/
def minMaxTable : List (I × I × I × I) := [
  (⟨r 0, r 2⟩, ⟨r 3, r 3⟩, ⟨r 0, r 2⟩, ⟨r 3, r 3⟩),
  (⟨r 0, r 2⟩, ⟨r 1, r 3⟩, ⟨r 0, r 2⟩, ⟨r 1, r 3⟩),
  (⟨r 0, r 3⟩, ⟨r 1, r 2⟩, ⟨r 0, r 2⟩, ⟨r 1, r 3⟩)]
example : minMaxTable.all (fun (a, b, minab, maxab) =>
    matchesI (minI true (.ivl a) (.ivl b)) minab && matchesI (maxI true (.ivl a) (.ivl b)) maxab &&
    (let c := cand (condGe true (.ident false 0 a) (.scalar true (r 1))) (condGe true (.ident false 1 b) (.scalar true (r 1)))
     check c (fun cc => !BoolSet.possibly cc.truth ||
       check (cx false a c) (fun ac => check (cy false b c) (fun bc =>
         check (minI true (.ivl a) (.ivl bc)) (fun _ => true) && check (minI true (.ivl ac) (.ivl b)) (fun _ => true) &&
         check (maxI true (.scalar (r 1)) (.ivl minab)) (fun e => matchesI (minI true (.ivl ac) (.ivl bc)) e)))))) = true := by
  decide +kernel

/-! example: max() (1183–1273) -/
example : matchesI (maxG0 true false (⟨r 0, r 2⟩ : I) ⟨r 3, r 4⟩) ⟨r 3, r 4⟩ ∧ matchesI (maxG0 true false (⟨r 3, r 4⟩ : I) ⟨r 0, r 2⟩) ⟨r 3, r 4⟩ ∧
    matchesI (maxG0 true false (⟨r 0, r 2⟩ : I) ⟨r 1, r 4⟩) ⟨r 0, r 4⟩ ∧ matchesI (maxG0 true false (⟨r 0, r 4⟩ : I) ⟨r 1, r 3⟩) ⟨r 0, r 4⟩ := by
  decide +kernel
example : matchesI (imax true false (⟨r 0, r 2⟩ : I) ⟨r 3, r 4⟩) ⟨r 3, r 4⟩ ∧ matchesI (imax true false (⟨r 3, r 4⟩ : I) ⟨r 0, r 2⟩) ⟨r 3, r 4⟩ ∧
    matchesI (imax true false (⟨r 0, r 2⟩ : I) ⟨r 1, r 4⟩) ⟨r 1, r 4⟩ ∧ matchesI (imax true false (⟨r 0, r 4⟩ : I) ⟨r 1, r 3⟩) ⟨r 1, r 4⟩ := by
  decide +kernel

end Intervals.Conformance.DoubleTests
