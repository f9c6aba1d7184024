import Verif.Conformance.Common
import Verif.Model.IntArith
import Verif.Model.Programs
import Verif.Model.Scalar
/-!
# test/test-interval.cpp:1275–2087 (`TEST_CASE("interval<int>")`) run on the model

The tables are copied from the test file.  `n v` is the `int` literal `v`.
-/
namespace Intervals.Conformance.IntTests
open CppVal CppNum

/-- an `int` literal -/
def n (v : Int) : SInt 31 := if h : -(2:Int)^31 ≤ v ∧ v ≤ (2:Int)^31 - 1 then ⟨v, h.1, h.2⟩ else ⟨0, by decide, by decide⟩

abbrev I := Ivl (SInt 31)

/-! value() (1284–1289) -/
example : check ((⟨n 1, n 1⟩ : I).value) (eq · (n 1)) ∧ throws ((Ivl.unassigned : I).value) ∧ throws ((⟨n 1, n 2⟩ : I).value) := by
  decide +kernel

/-- below, a, in, b, above (1292–1302; the same table in 1342–1352, 1384–1394, 1399–1409) -/
def table : List (SInt 31 × SInt 31 × SInt 31 × SInt 31 × SInt 31) := [
  (n (-200), n (-150), n (-150), n (-150), n (-100)),
  (n (-200), n (-150), n (-100), n (-10), n 0),
  (n (-200), n (-150), n (-100), n 0, n 50),
  (n (-200), n (-150), n 0, n 100, n 200),
  (n (-200), n 0, n 0, n 0, n 100),
  (n (-200), n 0, n 10, n 100, n 150),
  (n (-200), n 10, n 10, n 10, n 100),
  (n 0, n 10, n 10, n 10, n 100),
  (n 1, n 10, n 10, n 10, n 100),
  (n (-200), n 10, n 100, n 200, n 300)]

/-! mixed relational operators (1305–1322) -/
example : table.all (fun (l, a, x, b, u) => relRow l a x b u) = true := by decide +kernel

/-! unary operators (1358–1380) -/
example : table.all (fun (_, a, _, b, _) => cornerCheck (negI true ⟨a, b⟩) [neg a, neg b]) = true := by decide +kernel
example : table.all (fun (_, a, _, b, _) =>
    check (squareV a) fun a2 => check (squareV b) fun b2 =>
      bounds (squareI true ⟨a, b⟩) (if le a (n 0) && ge b (n 0) then n 0 else minL a2 [b2]) (maxL a2 [b2])) = true := by decide +kernel
example : table.all (fun (_, a, _, b, _) => sgnRow a b) = true := by decide +kernel

/-! binary operators (1415–1497) -/
def binary (f : SInt 31 × SInt 31 × SInt 31 → SInt 31 × SInt 31 × SInt 31 → Bool) : Bool :=
  table.all fun (_, a, x, b, _) => table.all fun (_, c, y, d, _) => f (a, x, b) (c, y, d)

example : binary (fun (a, _, b) (c, _, d) =>
    cornerCheck (addI true (.ivl ⟨a, b⟩) (.ivl ⟨c, d⟩)) [add a c, add a d, add b c, add b d]) = true := by decide +kernel
example : binary (fun (a, _, b) (c, _, d) =>
    cornerCheck (subI true (.ivl ⟨a, b⟩) (.ivl ⟨c, d⟩)) [sub a c, sub a d, sub b c, sub b d]) = true := by decide +kernel
example : binary (fun (a, x, b) (c, y, d) =>
    let z := mulI true (.ivl ⟨a, b⟩) (.ivl ⟨c, d⟩)
    cornerCheck z [mul a c, mul a d, mul b c, mul b d] && hits z [mul a y, mul x c, mul x y, mul b y, mul x d]) = true := by decide +kernel
example : binary (fun (a, x, b) (c, _, _) =>
    let z := mulI true (.ivl ⟨a, b⟩) (.scalar c)
    cornerCheck z [mul a c, mul b c] && hits z [mul a c, mul x c, mul b c]) = true := by decide +kernel
example : binary (fun (a, x, b) (c, y, d) =>
    let z := divI true (.ivl ⟨a, b⟩) (.ivl ⟨c, d⟩)
    !always (opNe true (.ivl ⟨c, d⟩) (.scalar (n 0))) ||
    (cornerCheck z [div a c, div a d, div b c, div b d] && hits z [div a y, div x c, div x y, div b y, div x d])) = true := by decide +kernel
example : binary (fun (a, x, b) (c, _, _) =>
    let z := divI true (.ivl ⟨a, b⟩) (.scalar c)
    eq c (n 0) || (cornerCheck z [div a c, div b c] && hits z [div a c, div x c, div b c])) = true := by decide +kernel
example : binary (fun (a, _, _) (c, y, d) =>
    let z := divI true (.scalar a) (.ivl ⟨c, d⟩)
    !always (opNe true (.ivl ⟨c, d⟩) (.scalar (n 0))) || (cornerCheck z [div a c, div a d] && hits z [div a c, div a y, div a d])) = true := by
  decide +kernel

/-! if_else() (1499–1517) -/
example : Scalar.ifElse true (n 1) (n 2) = n 1 ∧ Scalar.ifElse false (n 1) (n 2) = n 2 := by decide +kernel
example : matchesV (Ivl.ifElseVV F (n 1) (n 2)) (n 2) ∧ matchesI (Ivl.ifElseVV FT (n 1) (n 2)) ⟨n 1, n 2⟩ ∧
    matchesV (Ivl.ifElseVV T (n 1) (n 2)) (n 1) := by decide +kernel
example : matchesV (Ivl.ifElseIV F ⟨n 1, n 2⟩ (n 3)) (n 3) ∧ matchesI (Ivl.ifElseIV FT ⟨n 1, n 2⟩ (n 3)) ⟨n 1, n 3⟩ ∧
    matchesI (Ivl.ifElseIV T ⟨n 1, n 2⟩ (n 3)) ⟨n 1, n 2⟩ := by decide +kernel
example : matchesI (Ivl.ifElseVI F (n 1) ⟨n 3, n 4⟩) ⟨n 3, n 4⟩ ∧ matchesI (Ivl.ifElseVI FT (n 1) ⟨n 3, n 4⟩) ⟨n 1, n 4⟩ ∧
    matchesV (Ivl.ifElseVI T (n 1) ⟨n 3, n 4⟩) (n 1) := by decide +kernel
example : matchesI (Ivl.ifElse F (⟨n 1, n 2⟩ : I) ⟨n 3, n 4⟩) ⟨n 3, n 4⟩ ∧ matchesI (Ivl.ifElse FT (⟨n 1, n 2⟩ : I) ⟨n 3, n 4⟩) ⟨n 1, n 4⟩ ∧
    matchesI (Ivl.ifElse T (⟨n 1, n 2⟩ : I) ⟨n 3, n 4⟩) ⟨n 1, n 2⟩ := by decide +kernel

/-! constrain(): scalar (1522–1540) -/
example : [n (-1), n 0, n 1, n 2].all (fun a => [n (-2), n (-1), n 0, n 1, n 2, n 3].all (fun x =>
    let cond := ge x a && le x (n 2)
    if possiblyB cond then check (Scalar.constrain x cond) (eq · x)
    else check (Scalar.constrain x (!cond)) (eq · x) && throws (Scalar.constrain x cond))) = true := by decide +kernel

/-- x, y, ltc, leqc, xltc, yltc, xleqc, yleqc (1545–1579) -/
def ltTable : List (I × I × BoolSet × BoolSet × I × I × I × I) := [
  (⟨n (-2), n (-2)⟩, ⟨n 1, n 1⟩, T, T, ⟨n (-2), n (-2)⟩, ⟨n 1, n 1⟩, ⟨n (-2), n (-2)⟩, ⟨n 1, n 1⟩),
  (⟨n 1, n 1⟩, ⟨n 1, n 1⟩, F, T, ⟨n 0, n 0⟩, ⟨n 0, n 0⟩, ⟨n 1, n 1⟩, ⟨n 1, n 1⟩),
  (⟨n 3, n 3⟩, ⟨n 1, n 1⟩, F, F, ⟨n 0, n 0⟩, ⟨n 0, n 0⟩, ⟨n 0, n 0⟩, ⟨n 0, n 0⟩),
  (⟨n (-2), n (-1)⟩, ⟨n 1, n 1⟩, T, T, ⟨n (-2), n (-1)⟩, ⟨n 1, n 1⟩, ⟨n (-2), n (-1)⟩, ⟨n 1, n 1⟩),
  (⟨n (-2), n 1⟩, ⟨n 1, n 1⟩, FT, T, ⟨n (-2), n 0⟩, ⟨n 1, n 1⟩, ⟨n (-2), n 1⟩, ⟨n 1, n 1⟩),
  (⟨n (-2), n 3⟩, ⟨n 1, n 1⟩, FT, FT, ⟨n (-2), n 0⟩, ⟨n 1, n 1⟩, ⟨n (-2), n 1⟩, ⟨n 1, n 1⟩),
  (⟨n 1, n 3⟩, ⟨n 1, n 1⟩, F, FT, ⟨n 0, n 0⟩, ⟨n 0, n 0⟩, ⟨n 1, n 1⟩, ⟨n 1, n 1⟩),
  (⟨n 2, n 3⟩, ⟨n 1, n 1⟩, F, F, ⟨n 0, n 0⟩, ⟨n 0, n 0⟩, ⟨n 0, n 0⟩, ⟨n 0, n 0⟩),
  (⟨n 1, n 1⟩, ⟨n 2, n 3⟩, T, T, ⟨n 1, n 1⟩, ⟨n 2, n 3⟩, ⟨n 1, n 1⟩, ⟨n 2, n 3⟩),
  (⟨n 1, n 1⟩, ⟨n 1, n 3⟩, FT, T, ⟨n 1, n 1⟩, ⟨n 2, n 3⟩, ⟨n 1, n 1⟩, ⟨n 1, n 3⟩),
  (⟨n 1, n 1⟩, ⟨n (-2), n 3⟩, FT, FT, ⟨n 1, n 1⟩, ⟨n 2, n 3⟩, ⟨n 1, n 1⟩, ⟨n 1, n 3⟩),
  (⟨n 1, n 1⟩, ⟨n (-2), n 1⟩, F, FT, ⟨n 0, n 0⟩, ⟨n 0, n 0⟩, ⟨n 1, n 1⟩, ⟨n 1, n 1⟩),
  (⟨n 1, n 1⟩, ⟨n (-2), n (-1)⟩, F, F, ⟨n 0, n 0⟩, ⟨n 0, n 0⟩, ⟨n 0, n 0⟩, ⟨n 0, n 0⟩),
  (⟨n (-2), n (-1)⟩, ⟨n 1, n 3⟩, T, T, ⟨n (-2), n (-1)⟩, ⟨n 1, n 3⟩, ⟨n (-2), n (-1)⟩, ⟨n 1, n 3⟩),
  (⟨n (-2), n 1⟩, ⟨n 1, n 3⟩, FT, T, ⟨n (-2), n 1⟩, ⟨n 1, n 3⟩, ⟨n (-2), n 1⟩, ⟨n 1, n 3⟩),
  (⟨n (-2), n 2⟩, ⟨n 1, n 3⟩, FT, FT, ⟨n (-2), n 2⟩, ⟨n 1, n 3⟩, ⟨n (-2), n 2⟩, ⟨n 1, n 3⟩),
  (⟨n (-2), n 3⟩, ⟨n 1, n 3⟩, FT, FT, ⟨n (-2), n 2⟩, ⟨n 1, n 3⟩, ⟨n (-2), n 3⟩, ⟨n 1, n 3⟩),
  (⟨n (-2), n 5⟩, ⟨n 1, n 3⟩, FT, FT, ⟨n (-2), n 2⟩, ⟨n 1, n 3⟩, ⟨n (-2), n 3⟩, ⟨n 1, n 3⟩),
  (⟨n 1, n 2⟩, ⟨n 1, n 3⟩, FT, FT, ⟨n 1, n 2⟩, ⟨n 2, n 3⟩, ⟨n 1, n 2⟩, ⟨n 1, n 3⟩),
  (⟨n 1, n 3⟩, ⟨n 1, n 3⟩, FT, FT, ⟨n 1, n 2⟩, ⟨n 2, n 3⟩, ⟨n 1, n 3⟩, ⟨n 1, n 3⟩),
  (⟨n 1, n 5⟩, ⟨n 1, n 3⟩, FT, FT, ⟨n 1, n 2⟩, ⟨n 2, n 3⟩, ⟨n 1, n 3⟩, ⟨n 1, n 3⟩),
  (⟨n 2, n 3⟩, ⟨n 1, n 3⟩, FT, FT, ⟨n 2, n 2⟩, ⟨n 3, n 3⟩, ⟨n 2, n 3⟩, ⟨n 2, n 3⟩),
  (⟨n 2, n 5⟩, ⟨n 1, n 3⟩, FT, FT, ⟨n 2, n 2⟩, ⟨n 3, n 3⟩, ⟨n 2, n 3⟩, ⟨n 2, n 3⟩),
  (⟨n 3, n 5⟩, ⟨n 1, n 3⟩, F, FT, ⟨n 0, n 0⟩, ⟨n 0, n 0⟩, ⟨n 3, n 3⟩, ⟨n 3, n 3⟩),
  (⟨n 4, n 5⟩, ⟨n 1, n 3⟩, F, F, ⟨n 0, n 0⟩, ⟨n 0, n 0⟩, ⟨n 0, n 0⟩, ⟨n 0, n 0⟩)]

/-! constrain(): x < y, x <= y (1580–1667) -/
example : ltTable.all (fun (x, y, ltc, leqc, xlt, ylt, xle, yle) => ltRow true x y ltc leqc xlt ylt xle yle) = true := by decide +kernel

/-- x, y, c, xyc, xneqc, yneqc (1671–1703) -/
def eqTable : List (I × I × BoolSet × I × I × I) := [
  (⟨n (-2), n (-2)⟩, ⟨n 1, n 1⟩, F, ⟨n 0, n 0⟩, ⟨n (-2), n (-2)⟩, ⟨n 1, n 1⟩),
  (⟨n 1, n 1⟩, ⟨n 1, n 1⟩, T, ⟨n 1, n 1⟩, ⟨n 0, n 0⟩, ⟨n 0, n 0⟩),
  (⟨n 3, n 3⟩, ⟨n 1, n 1⟩, F, ⟨n 0, n 0⟩, ⟨n 3, n 3⟩, ⟨n 1, n 1⟩),
  (⟨n (-2), n (-1)⟩, ⟨n 1, n 1⟩, F, ⟨n 0, n 0⟩, ⟨n (-2), n (-1)⟩, ⟨n 1, n 1⟩),
  (⟨n (-2), n 1⟩, ⟨n 1, n 1⟩, FT, ⟨n 1, n 1⟩, ⟨n (-2), n 0⟩, ⟨n 1, n 1⟩),
  (⟨n (-2), n 3⟩, ⟨n 1, n 1⟩, FT, ⟨n 1, n 1⟩, ⟨n (-2), n 3⟩, ⟨n 1, n 1⟩),
  (⟨n 1, n 3⟩, ⟨n 1, n 1⟩, FT, ⟨n 1, n 1⟩, ⟨n 2, n 3⟩, ⟨n 1, n 1⟩),
  (⟨n 2, n 3⟩, ⟨n 1, n 1⟩, F, ⟨n 0, n 0⟩, ⟨n 2, n 3⟩, ⟨n 1, n 1⟩),
  (⟨n 1, n 1⟩, ⟨n (-2), n (-1)⟩, F, ⟨n 0, n 0⟩, ⟨n 1, n 1⟩, ⟨n (-2), n (-1)⟩),
  (⟨n 1, n 1⟩, ⟨n (-2), n 1⟩, FT, ⟨n 1, n 1⟩, ⟨n 1, n 1⟩, ⟨n (-2), n 0⟩),
  (⟨n 1, n 1⟩, ⟨n (-2), n 3⟩, FT, ⟨n 1, n 1⟩, ⟨n 1, n 1⟩, ⟨n (-2), n 3⟩),
  (⟨n 1, n 1⟩, ⟨n 1, n 3⟩, FT, ⟨n 1, n 1⟩, ⟨n 1, n 1⟩, ⟨n 2, n 3⟩),
  (⟨n 1, n 1⟩, ⟨n 2, n 3⟩, F, ⟨n 0, n 0⟩, ⟨n 1, n 1⟩, ⟨n 2, n 3⟩),
  (⟨n (-2), n (-1)⟩, ⟨n 1, n 3⟩, F, ⟨n 0, n 0⟩, ⟨n (-2), n (-1)⟩, ⟨n 1, n 3⟩),
  (⟨n (-2), n 1⟩, ⟨n 1, n 3⟩, FT, ⟨n 1, n 1⟩, ⟨n (-2), n 1⟩, ⟨n 1, n 3⟩),
  (⟨n (-2), n 2⟩, ⟨n 1, n 3⟩, FT, ⟨n 1, n 2⟩, ⟨n (-2), n 2⟩, ⟨n 1, n 3⟩),
  (⟨n (-2), n 3⟩, ⟨n 1, n 3⟩, FT, ⟨n 1, n 3⟩, ⟨n (-2), n 3⟩, ⟨n 1, n 3⟩),
  (⟨n (-2), n 5⟩, ⟨n 1, n 3⟩, FT, ⟨n 1, n 3⟩, ⟨n (-2), n 5⟩, ⟨n 1, n 3⟩),
  (⟨n 1, n 2⟩, ⟨n 1, n 3⟩, FT, ⟨n 1, n 2⟩, ⟨n 1, n 2⟩, ⟨n 1, n 3⟩),
  (⟨n 1, n 3⟩, ⟨n 1, n 3⟩, FT, ⟨n 1, n 3⟩, ⟨n 1, n 3⟩, ⟨n 1, n 3⟩),
  (⟨n 1, n 5⟩, ⟨n 1, n 3⟩, FT, ⟨n 1, n 3⟩, ⟨n 1, n 5⟩, ⟨n 1, n 3⟩),
  (⟨n 2, n 3⟩, ⟨n 1, n 3⟩, FT, ⟨n 2, n 3⟩, ⟨n 2, n 3⟩, ⟨n 1, n 3⟩),
  (⟨n 2, n 5⟩, ⟨n 1, n 3⟩, FT, ⟨n 2, n 3⟩, ⟨n 2, n 5⟩, ⟨n 1, n 3⟩),
  (⟨n 3, n 5⟩, ⟨n 1, n 3⟩, FT, ⟨n 3, n 3⟩, ⟨n 3, n 5⟩, ⟨n 1, n 3⟩),
  (⟨n 4, n 5⟩, ⟨n 1, n 3⟩, F, ⟨n 0, n 0⟩, ⟨n 4, n 5⟩, ⟨n 1, n 3⟩)]

/-! constrain(): x == y, x != y (1704–1748) -/
example : eqTable.all (fun (x, y, c, xyc, xne, yne) =>
    let ox := Operand.ident true 0 x
    let oy := Operand.ident true 1 y
    block true x y (condEq true ox oy) c xyc xyc true &&
    check (BoolSet.not true c) (fun nc => block true x y (condNe true ox oy) nc xne yne true)) = true := by decide +kernel

/-! constrain(): & and | (1750–1941) -/
def xs : List I := [n (-2), n 1, n 2, n 3, n 4, n 5, n 6, n 7].flatMap fun lo =>
  ([n (-1), n 1, n 2, n 3, n 4, n 5, n 6, n 7, n 8].filter (fun hi => ge hi lo)).map fun hi => ⟨lo, hi⟩
def abTable : List (I × I) := [
  (⟨n 1, n 1⟩, ⟨n 1, n 1⟩),
  (⟨n 1, n 1⟩, ⟨n 4, n 4⟩),
  (⟨n 1, n 1⟩, ⟨n 4, n 6⟩),
  (⟨n 4, n 4⟩, ⟨n 4, n 6⟩),
  (⟨n 1, n 3⟩, ⟨n 4, n 4⟩),
  (⟨n 1, n 3⟩, ⟨n 4, n 6⟩),
  (⟨n 1, n 4⟩, ⟨n 4, n 4⟩),
  (⟨n 1, n 4⟩, ⟨n 4, n 6⟩)]
example : xs.all (fun x => abTable.all (fun (a, b) => andRow true x a b)) = true := by decide +kernel
example : xs.all (fun x => ([⟨n 1, n 1⟩, ⟨n 1, n 2⟩, ⟨n 1, n 4⟩, ⟨n 2, n 4⟩, ⟨n 4, n 4⟩] : List I).all (fun a =>
    ([⟨n 2, n 2⟩, ⟨n 2, n 3⟩, ⟨n 4, n 6⟩] : List I).all (fun b => orRow true x a b))) = true := by decide +kernel

/-! constraint not applied (1943–1954); `x + 1` is a temporary -/
example : let x : I := ⟨n 1, n 1⟩; let y : I := ⟨n 2, n 2⟩; let a : Operand (SInt 31) := .ident true 2 ⟨n 0, n 0⟩
    check (cx true x (condGe true (.ident true 0 x) a)) (fun _ => true) ∧
    throws (cx true x (do condGe true (.anon true (← addI true (.ivl x) (.scalar (n 1)))) a)) ∧
    throws (cx true x (condGe true (.ident true 1 y) a)) := by decide +kernel

/-! example: max() (1996–2086) -/
example : matchesI (maxG0 true true (⟨n 0, n 2⟩ : I) ⟨n 3, n 4⟩) ⟨n 3, n 4⟩ ∧ matchesI (maxG0 true true (⟨n 3, n 4⟩ : I) ⟨n 0, n 2⟩) ⟨n 3, n 4⟩ ∧
    matchesI (maxG0 true true (⟨n 0, n 2⟩ : I) ⟨n 1, n 4⟩) ⟨n 0, n 4⟩ ∧ matchesI (maxG0 true true (⟨n 0, n 4⟩ : I) ⟨n 1, n 3⟩) ⟨n 0, n 4⟩ := by
  decide +kernel
example : matchesI (imax true true (⟨n 0, n 2⟩ : I) ⟨n 3, n 4⟩) ⟨n 3, n 4⟩ ∧ matchesI (imax true true (⟨n 3, n 4⟩ : I) ⟨n 0, n 2⟩) ⟨n 3, n 4⟩ ∧
    matchesI (imax true true (⟨n 0, n 2⟩ : I) ⟨n 1, n 4⟩) ⟨n 1, n 4⟩ ∧ matchesI (imax true true (⟨n 0, n 4⟩ : I) ⟨n 1, n 3⟩) ⟨n 1, n 4⟩ := by
  decide +kernel

end Intervals.Conformance.IntTests
