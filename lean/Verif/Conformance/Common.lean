import Verif.Model.Constraint
import Verif.Model.Arith
/-!
# The repository's own tests, run on the model: shared helpers

The modules under `Verif/Conformance` transcribe test cases of /repo/test and evaluate them on the model.  They are *tests of the
model* (does it compute what the authors of the library assert about the code?), not proofs of properties: none of the theorems
`Cxx_…` lives here, and no theorem uses these modules.  The tests are compiled with `gsl_CONFIG_CONTRACT_CHECKING_AUDIT` and
`gsl_CONFIG_CONTRACT_VIOLATION_THROWS` (test/CMakeLists.txt:28–29), so `dbg = true` throughout.
-/
namespace Intervals.Conformance
open CppVal CppNum

/-- `CHECK(p(e))` where evaluating `e` must not throw. -/
def check {α : Type _} (o : Outcome α) (p : α → Bool) : Bool :=
  match o with
  | .ok a => p a
  | .error _ => false
/-- `CHECK_THROWS_AS(e, gsl::fail_fast)`. -/
def throws {α : Type _} (o : Outcome α) : Bool :=
  match o with
  | .error .contract => true
  | _ => false
/-- `CHECK(possibly(e))`, `CHECK(always(e))` and their negations. -/
def possibly (o : Outcome BoolSet) : Bool := check o BoolSet.possibly
def notPossibly (o : Outcome BoolSet) : Bool := check o (fun s => !BoolSet.possibly s)
def always (o : Outcome BoolSet) : Bool := check o BoolSet.always
def notAlways (o : Outcome BoolSet) : Bool := check o (fun s => !BoolSet.always s)

def F : BoolSet := BoolSet.single false
def T : BoolSet := BoolSet.single true
def FT : BoolSet := BoolSet.both

section
variable {V : Type _} [CppVal V]

/-- `std::min({…})`, `std::max({…})` of a non-empty list: the first smallest / largest element. -/
def minL (v : V) (l : List V) : V := l.foldl (fun m x => if lt x m then x else m) v
def maxL (v : V) (l : List V) : V := l.foldl (fun m x => if lt m x then x else m) v

/-- `z.lower() == lo && z.upper() == hi`. -/
def bounds (o : Outcome (Ivl V)) (lo hi : V) : Bool :=
  check o (fun z => check (z.lower true) (eq · lo) && check (z.upper true) (eq · hi))
/-- `e.matches(X)`. -/
def matchesI (o : Outcome (Ivl V)) (X : Ivl V) : Bool := check o (fun z => z.matchesIvl X)
def matchesV (o : Outcome (Ivl V)) (v : V) : Bool := check o (fun z => z.matchesVal v)

/-- one row of "mixed relational operators" (test-interval.cpp:60–80; 1305–1322); the `below`/`above` checks are skipped for a NaN -/
def relRow (below a xin b above : V) : Bool :=
  let x : Arg V := .ivl ⟨a, b⟩
  let s (v : V) : Arg V := .scalar v
  (!le below below || (always (opLt true (s below) x) && notPossibly (opGe true (s below) x))) &&
  always (opLe true (s a) x) && notPossibly (opGt true (s a) x) &&
  possibly (opLe true (s xin) x) && notAlways (opGt true (s xin) x) &&
  possibly (opGe true (s xin) x) && notAlways (opLt true (s xin) x) &&
  always (opGe true (s b) x) && notPossibly (opLt true (s b) x) &&
  (!le above above || (always (opGt true (s above) x) && notPossibly (opLe true (s above) x)))

/-- the values of scalar expressions, none of which may fail -/
def evalAll : List (Outcome V) → Outcome (List V)
  | [] => .ok []
  | o :: os => do return (← o) :: (← evalAll os)
/-- `z.lower() == std::min({ … })`, `z.upper() == std::max({ … })` -/
def cornerCheck (z : Outcome (Ivl V)) (vs : List (Outcome V)) : Bool :=
  check (evalAll vs) (fun | [] => false | v :: l => bounds z (minL v l) (maxL v l))
/-- `possibly(z == e)` for each of the scalar expressions -/
def hits (z : Outcome (Ivl V)) (vs : List (Outcome V)) : Bool :=
  check z (fun z => vs.all (fun v => check v (fun v => possibly (opEq true (.ivl z) (.scalar v)))))

/-- "sgn()" (test-interval.cpp:173–178; 1375–1380): each sign is possible iff the comparison with zero is -/
def sgnRow [CppNum V] (a b : V) : Bool :=
  let x : Arg V := .ivl ⟨a, b⟩
  let z : Arg V := .scalar (zero : V)
  let sg (s : Sign) : Outcome BoolSet := do CSet.opEq true (← sgnI true ⟨a, b⟩) (← CSet.ofVal Sign.vals s)
  let same (o1 o2 : Outcome BoolSet) : Bool := check o1 (fun s1 => check o2 (fun s2 => BoolSet.possibly s1 == BoolSet.possibly s2))
  same (sg .pos) (opGt true x z) && same (sg .zero) (opEq true x z) && same (sg .neg) (opLt true x z)

section constrain
variable [CppStep V]

/-- `constrain(x, c)`, `constrain(y, c)` for the objects at addresses 0 and 1. -/
def cx (d : Bool) (x : Ivl V) (c : Outcome (Cond V)) : Outcome (Ivl V) := do constrain true d 0 x (← c)
def cy (d : Bool) (y : Ivl V) (c : Outcome (Cond V)) : Outcome (Ivl V) := do constrain true d 1 y (← c)
def truthIs (c : Outcome (Cond V)) (s : BoolSet) : Bool := check c (fun c => BoolSet.matchesSet c.truth s)

/-- The body of a condition block: `CHECK(cc.matches(s))`; if the condition contains `true`, both constrained operands match, otherwise
(if `alsoThrows`) both calls throw. -/
def block (d : Bool) (x y : Ivl V) (cc : Outcome (Cond V)) (s : BoolSet) (xc yc : Ivl V) (alsoThrows : Bool) : Bool :=
  truthIs cc s &&
  if BoolSet.contains s true then matchesI (cx d x cc) xc && matchesI (cy d y cc) yc
  else !alsoThrows || (throws (cx d x cc) && throws (cy d y cc))

/-- "x < y, x <= y" (test-interval.cpp:731–850; 1543–1668): the four blocks `x <= y`, `y >= x`, `x < y`, `y > x`. -/
def ltRow (d : Bool) (x y : Ivl V) (ltc leqc : BoolSet) (xlt ylt xle yle : Ivl V) : Bool :=
  let ox := Operand.ident d 0 x
  let oy := Operand.ident d 1 y
  block d x y (condLe true ox oy) leqc xle yle true &&
  block d x y (condGe true oy ox) leqc xle yle true &&
  block d x y (condLt true ox oy) ltc xlt ylt (!BoolSet.contains leqc true) &&
  block d x y (condGt true oy ox) ltc xlt ylt (!BoolSet.contains leqc true)

/-- `!c` -/
def cnot (c : Outcome (Cond V)) : Outcome (Cond V) := do Cond.mkNot true (← c)
def cand (l r : Outcome (Cond V)) : Outcome (Cond V) := do return Cond.mkAnd (← l) (← r)
def cor (l r : Outcome (Cond V)) : Outcome (Cond V) := do return Cond.mkOr (← l) (← r)

/-- one block of "(x >= a) & (x <= b)": `cc` must match `c`; then `constrain(x, cc)` is the intersection with the outer bounds, or throws -/
def andBlock (d : Bool) (x a b : Ivl V) (cc : Outcome (Cond V)) (c : BoolSet) : Bool :=
  truthIs cc c &&
  if BoolSet.contains c true then matchesI (cx d x cc) ⟨maxL x.lo [a.lo], minL x.hi [b.hi]⟩
  else throws (cx d x cc)
/-- the same for the negated condition: `cc.matches(!c)`, `cc.contains(false)`, `constrain(x, !cc)` -/
def orBlock (d : Bool) (x a b : Ivl V) (cc : Outcome (Cond V)) (c : BoolSet) : Bool :=
  check (BoolSet.not true c) (truthIs cc) &&
  if BoolSet.contains c true then matchesI (cx d x (cnot cc)) ⟨maxL x.lo [a.lo], minL x.hi [b.hi]⟩
  else throws (cx d x (cnot cc))

/-- "(x >= a) & (x <= b)" (test-interval.cpp:929–1078; 1754–1903); `interval(a)` is a temporary copy, i.e. an operand without identity -/
def andRow (d : Bool) (x a b : Ivl V) : Bool :=
  let ox := Operand.ident d 0 x
  let oa := Operand.ident d 1 a
  let ob := Operand.ident d 2 b
  let ta := Operand.anon d a
  let tb := Operand.anon d b
  let c := BoolSet.empty
  let c := if ge x.hi a.lo && le x.lo b.hi then BoolSet.assign c true else c
  let c := if lt x.lo a.hi || gt x.hi b.lo then BoolSet.assign c false else c
  andBlock d x a b (cand (condGe true ox oa) (condLe true ox ob)) c &&
  andBlock d x a b (cand (condLe true oa ox) (condGe true ob ox)) c &&
  andBlock d x a b (cand (condGe true ox ta) (condLe true ox tb)) c &&
  andBlock d x a b (cand (condLe true ta ox) (condGe true tb ox)) c &&
  orBlock d x a b (cor (condLt true ox oa) (condGt true ox ob)) c &&
  orBlock d x a b (cor (condGt true oa ox) (condLt true ob ox)) c &&
  orBlock d x a b (cor (condLt true ox ta) (condGt true ox tb)) c &&
  orBlock d x a b (cor (condGt true ta ox) (condLt true tb ox)) c

/-- "(x >= a) | (x >= b)" (test-interval.cpp:1079–1115; 1904–1940) -/
def orRow (d : Bool) (x a b : Ivl V) : Bool :=
  let ox := Operand.ident d 0 x
  let oa := Operand.ident d 1 a
  let ob := Operand.ident d 2 b
  let c := BoolSet.empty
  let c := if ge x.hi (minL a.lo [b.lo]) then BoolSet.assign c true else c
  let c := if lt x.lo (minL a.hi [b.hi]) then BoolSet.assign c false else c
  let cc := cor (condGe true ox oa) (condGe true ox ob)
  truthIs cc c &&
  if BoolSet.contains c true then matchesI (cx d x cc) ⟨maxL x.lo [minL a.lo [b.lo]], x.hi⟩
  else throws (cx d x cc)

end constrain
end
end Intervals.Conformance
