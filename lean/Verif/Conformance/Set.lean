import Verif.Conformance.Common
import Verif.Model.CSet
import Verif.Model.Sign
import Verif.Model.IntArith
import Verif.Model.FltArith
import Verif.Lemmas.BinFmt
import Mathlib.Data.Rat.Floor
/-!
# test/test-set.cpp and test/test-sign.cpp run on the model
-/
namespace Intervals.Conformance.SetTests
open CppVal CppNum

/-! ## test-set.cpp -/

/-- `collect` (26–45).  As written it assigns `func(x, y)` of the *sets* — the result of the operator under test — for each pair of members, so
for non-empty operands it returns the operator's own result. -/
def collect (x y : BoolSet) (f : BoolSet → BoolSet → Outcome BoolSet) : Outcome BoolSet :=
  [false, true].foldlM (fun res cx => if BoolSet.contains x cx then
    [false, true].foldlM (fun res cy => if BoolSet.contains y cy then do return res ||| (← f x y) else .ok res) res else .ok res) BoolSet.empty
/-- what `collect` evidently means to compute: the results of the operation on all pairs of members -/
def collectMembers (x y : BoolSet) (f : Bool → Bool → Bool) : BoolSet :=
  [false, true].foldl (fun res cx => if BoolSet.contains x cx then
    [false, true].foldl (fun res cy => if BoolSet.contains y cy then BoolSet.assign res (f cx cy) else res) res else res) BoolSet.empty

/-- `set<bool>` as an instance of the generic set with values `false`, `true` -/
abbrev B : List Bool := [false, true]
/-- `set<bool>`'s `==` and `!=`, which are the generic ones (set.hpp:219–275) -/
def eqB (x y : BoolSet) : Outcome BoolSet := CSet.opEq (vals := B) true x y
def neB (x y : BoolSet) : Outcome BoolSet := CSet.opNe (vals := B) true x y

/-! fail on uninitialized read (53–69) -/
example : [false, true].all (fun v =>
    let s0 : CSet B := CSet.empty B
    check (CSet.containsVal s0 v) (fun _ => true) && check (CSet.matchesVal s0 v) (fun _ => true) &&
    throws (do CSet.opEq true s0 (← CSet.ofVal B v)) && throws (do CSet.opNe true s0 (← CSet.ofVal B v)) &&
    throws (BoolSet.not true BoolSet.empty)) = true := by decide +kernel

/-! single-valued sets (70–92) -/
example : [false, true].all (fun v =>
    let s := BoolSet.single v
    let ns := BoolSet.single (!v)
    BoolSet.contains s v && CSet.containsSet (vals := B) s s && !BoolSet.contains s (!v) && !CSet.containsSet (vals := B) s ns &&
    check (CSet.matchesVal (vals := B) s v) id && BoolSet.matchesSet s s && check (CSet.matchesVal (vals := B) s (!v)) (!·) &&
    !BoolSet.matchesSet s ns && check (eqB s s) (BoolSet.matchesSet · T) && check (eqB s ns) (BoolSet.matchesSet · F) &&
    check (neB s s) (BoolSet.matchesSet · F) && check (neB s ns) (BoolSet.matchesSet · T) &&
    check (BoolSet.not true s) (BoolSet.matchesSet · ns) && check (BoolSet.not true ns) (BoolSet.matchesSet · s) &&
    (BoolSet.possibly s == v) && (BoolSet.always s == v)) = true := by decide +kernel

/-! multi-valued sets (93–111) -/
example : [false, true].all (fun v =>
    let s := BoolSet.single v
    CSet.containsSet (vals := B) FT FT && BoolSet.contains FT v && CSet.containsSet (vals := B) FT s && BoolSet.matchesSet FT FT &&
    check (CSet.matchesVal (vals := B) FT v) (!·) && !BoolSet.matchesSet FT s && check (eqB FT FT) (BoolSet.matchesSet · FT) &&
    check (eqB FT s) (BoolSet.matchesSet · FT) && check (neB FT s) (BoolSet.matchesSet · FT) &&
    check (BoolSet.not true FT) (BoolSet.matchesSet · FT) && BoolSet.possibly FT && !BoolSet.always FT) = true := by decide +kernel

/-! assignment (112–134) -/
example : [false, true].all (fun v =>
    let s := BoolSet.assign BoolSet.empty v
    possibly (eqB s (BoolSet.single v)) && always (eqB s (BoolSet.single v)) && check (eqB s (BoolSet.single v)) (BoolSet.matchesSet · T) &&
    (let s := BoolSet.assign s (!v); possibly (eqB s FT) && notAlways (eqB s FT)) &&
    check (do CSet.assignPartial (vals := B) true (CSet.reset s) (← CSet.ofVal B v)) (fun s =>
      check (CSet.matchesVal s v) id &&
      check (do CSet.assignPartial (vals := B) true s (← CSet.ofVal B (!v))) (BoolSet.matchesSet · FT)) &&
    check (CSet.ofVal B v) (fun s' => check (CSet.matchesVal (CSet.resetFree (vals := B) s s') v) id)) = true := by decide +kernel

/-- the enumeration of 18–23 with its reflected values `red = 2`, `green = 1`, `blue = 4` -/
inductive Color where
  | red
  | green
  | blue
  deriving DecidableEq
open Color
abbrev CV : List Color := [red, green, blue]
def cs (l : List Color) : Outcome (CSet CV) := CSet.ofList CV l

/-! multi-valued sets (enum): multiple values (142–169) -/
example : (do
    let s1 ← cs [red, green, blue]
    let p1 ← cs [red, green]
    let p2 ← cs [red, blue]
    let p3 ← cs [green, blue]
    let eqIs (x y : CSet CV) (s : BoolSet) : Bool := check (CSet.opEq true x y) (BoolSet.matchesSet · s)
    return throws (CSet.value true (CSet.empty CV)) && throws (CSet.value true p1) && throws (CSet.value true p2) &&
      throws (CSet.value true p3) && throws (CSet.value true s1) &&
      CSet.containsSet s1 s1 && CSet.containsSet s1 p1 && CSet.containsSet s1 p2 && CSet.containsSet s1 p3 &&
      CSet.matchesSet s1 s1 && !CSet.matchesSet s1 p1 && !CSet.matchesSet s1 p2 && !CSet.matchesSet s1 p3 &&
      !CSet.matchesSet p1 p2 && !CSet.matchesSet p1 p3 && !CSet.matchesSet p2 p3 &&
      eqIs s1 s1 FT && eqIs p1 (← cs [red]) FT && eqIs p1 (← cs [blue]) F && eqIs p1 p2 FT && eqIs p1 p3 FT && eqIs p2 p3 FT &&
      eqIs s1 p1 FT && eqIs s1 p2 FT && eqIs s1 p3 FT : Outcome Bool) = .ok true := by decide +kernel
/-! … single value (170–180) -/
example : [red, green, blue].all (fun v => check (cs [red, green, blue]) (fun s1 => check (cs [v]) (fun s =>
    check (CSet.containsVal s1 v) id && CSet.containsSet s1 s && check (CSet.matchesVal s1 v) (!·) && !CSet.matchesSet s1 s &&
    check (CSet.value true s) (· == v)))) = true := by decide +kernel

/-! negation (182–188) -/
example : BoolSet.not true T = .ok F ∧ BoolSet.not true F = .ok T ∧ BoolSet.not true FT = .ok FT := by decide +kernel

/-- the operators of 189–418 on two sets with the `std::` function object they are compared with -/
def ops : List ((BoolSet → BoolSet → Outcome BoolSet) × (Bool → Bool → Bool)) := [
  (fun x y => .ok (BoolSet.and x y), and), (fun x y => .ok (BoolSet.or x y), or), (fun x y => .ok (BoolSet.xor x y), xor),
  (eqB, fun a b => a == b), (neB, fun a b => a != b), (fun x y => .ok (BoolSet.leq x y), fun a b => !a || b),
  (fun x y => .ok (BoolSet.lt x y), fun a b => !a && b), (fun x y => .ok (BoolSet.geq x y), fun a b => a || !b),
  (fun x y => .ok (BoolSet.gt x y), fun a b => a && !b)]

/-! binary logical operators (340–418) as written -/
example : ops.all (fun (op, _) => [F, T, FT].all (fun x => [F, T, FT].all (fun y =>
    check (op x y) (fun z => check (collect x y op) (BoolSet.matchesSet z ·))))) = true := by decide +kernel
/-- … and with `collect` as meant: the wrong table entry for `{false, true} >= {true}` and `{true} <= {false, true}` (`C02_violated`) would be
found -/
example : (ops.zipIdx.flatMap fun ((op, f), i) => [F, T, FT].flatMap fun x => [F, T, FT].filterMap fun y =>
    if check (op x y) (fun z => BoolSet.matchesSet z (collectMembers x y f)) then none else some (i, x, y)) =
    [(5, T, FT), (7, FT, T)] := by decide +kernel

/-- the mixed overloads `bool ∘ set`, `set ∘ bool` -/
def mixedOps : List ((Bool → BoolSet → Outcome BoolSet) × (BoolSet → Bool → Outcome BoolSet) × (Bool → Bool → Bool)) := [
  (fun x y => .ok (BoolSet.andBS x y), fun x y => .ok (BoolSet.andSB x y), and),
  (fun x y => .ok (BoolSet.orBS x y), fun x y => .ok (BoolSet.orSB x y), or),
  (fun x y => .ok (BoolSet.xorBS x y), fun x y => .ok (BoolSet.xorSB x y), xor),
  (fun x y => eqB (BoolSet.single x) y, fun x y => eqB x (BoolSet.single y), fun a b => a == b),
  (fun x y => neB (BoolSet.single x) y, fun x y => neB x (BoolSet.single y), fun a b => a != b),
  (fun x y => .ok (BoolSet.leqBS x y), fun x y => .ok (BoolSet.leqSB x y), fun a b => !a || b),
  (fun x y => .ok (BoolSet.ltBS x y), fun x y => .ok (BoolSet.ltSB x y), fun a b => !a && b),
  (fun x y => .ok (BoolSet.geqBS x y), fun x y => .ok (BoolSet.geqSB x y), fun a b => a || !b),
  (fun x y => .ok (BoolSet.gtBS x y), fun x y => .ok (BoolSet.gtSB x y), fun a b => a && !b)]

/-! mixed binary logical operators (189–339): as written, `collect` applies the operator to the sets converted from both operands -/
example : (mixedOps.zip ops).all (fun ((bs, sb, _), (op, _)) => [false, true].all (fun x => [F, T, FT].all (fun y =>
    check (bs x y) (fun z => check (collect (BoolSet.single x) y op) (BoolSet.matchesSet z ·)) &&
    check (sb y x) (fun z => check (collect y (BoolSet.single x) op) (BoolSet.matchesSet z ·))))) = true := by decide +kernel
/-- … and as meant, with the same wrong entry -/
example : (mixedOps.zipIdx.flatMap fun ((bs, sb, f), i) => [false, true].flatMap fun x => [F, T, FT].filterMap fun y =>
    if check (bs x y) (BoolSet.matchesSet · (collectMembers (BoolSet.single x) y f)) &&
      check (sb y x) (BoolSet.matchesSet · (collectMembers y (BoolSet.single x) f)) then none else some (i, x, y)) =
    [(5, true, FT), (7, true, FT)] := by decide +kernel

/-! Boolean predicates (419–457) -/
example : (possiblyB true && !possiblyB false && BoolSet.possibly T && BoolSet.possibly FT && !BoolSet.possibly F &&
    possiblyNotB false && !possiblyNotB true && BoolSet.possiblyNot F && BoolSet.possiblyNot FT && !BoolSet.possiblyNot T &&
    alwaysB true && !alwaysB false && BoolSet.always T && !BoolSet.always FT && !BoolSet.always F &&
    neverB false && !neverB true && BoolSet.never F && !BoolSet.never FT && !BoolSet.never T &&
    !contingentB true && !contingentB false && !BoolSet.contingent T && BoolSet.contingent FT && !BoolSet.contingent F) = true := by decide +kernel

/-! ## test-sign.cpp -/

/-! general (24–37) -/
example : Sign.plus .neg = .neg ∧ Sign.plus .zero = .zero ∧ Sign.plus .pos = .pos ∧ Sign.minus .neg = .pos ∧ Sign.minus .zero = .zero ∧
    Sign.minus .pos = .neg ∧ Sign.mul .neg .neg = .pos ∧ Sign.mul .pos .neg = .neg ∧ Sign.mul .neg .zero = .zero ∧
    Sign.mul .zero .zero = .zero ∧ Sign.mul .pos .zero = .zero := by decide +kernel

/-! double (38–52): `eps` is 2⁻⁵², `min` is 2⁻¹⁰²² -/
example : letI := binary64Fmt
    let r (q : ℚ) : Fl ℚ := Fmt.rnd q
    let sg (x : Fl ℚ) : Outcome Sign := sgnScalar true (.num 0) x
    sg (r 0) = .ok .zero ∧ sg .nzero = .ok .zero ∧ sg (r (1/2^52)) = .ok .pos ∧ sg (r (1/2^1022)) = .ok .pos ∧ sg (r 1) = .ok .pos ∧
    sg (r (-1/2^52)) = .ok .neg ∧ sg (r (-1/2^1022)) = .ok .neg ∧ sg (r (-1)) = .ok .neg ∧
    check (signMulVal .neg (r 2)) (eq · (r (-2))) ∧ check (signMulVal .zero (r 2)) (eq · (r 0)) ∧ check (signMulVal .pos (r 2)) (eq · (r 2)) ∧
    throws (sg .nan) := by decide +kernel

/-! int (53–64) -/
example : sgnScalar true (i32 0) (i32 (-2)) = .ok .neg ∧ sgnScalar true (i32 0) (i32 0) = .ok .zero ∧ sgnScalar true (i32 0) (i32 3) = .ok .pos ∧
    signMulVal .neg (i32 2) = .ok (i32 (-2)) ∧ signMulVal .zero (i32 2) = .ok (i32 0) ∧ signMulVal .pos (i32 2) = .ok (i32 2) := by
  decide +kernel

end Intervals.Conformance.SetTests
