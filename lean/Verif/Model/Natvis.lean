import Verif.Model.Constraint
import Verif.Model.CSet
/-!
# The debugger visualizer (src/intervals.natvis)

The file is a table from class templates to texts.  For an object the debugger takes the rule for its class or, if there is none, for the nearest
base class that has one; a `*` as the last template argument in a rule matches any number of arguments.  Texts are lists of characters; `shw v` is the
text of a number (`{ v,g }`) and `raw s` is the text that the debugger itself gives to a `set<bool>`, for which the file has no `DisplayString`.

Simplifications: the type `makeshift::detail::reflector`, which the file names in casts to `set<bool, …>`, is taken to be the default argument
`makeshift::reflector` of `set` (set.hpp:34), so that the casts are valid; `id` items (addresses) are left out;
`as_regular` (intervals.natvis:97–102) is shown as the value in it and has no definition of its own here.
-/
namespace Intervals.Natvis
open Intervals CppVal

/-- The `Name` attributes of the rules, in order (intervals.natvis:4, 16, 24, 32, 39, 48, 56, 64, 72, 80, 88, 97), without template arguments. -/
def rules : List String :=
  ["intervals::set", "intervals::detail::iterator_interval_base", "intervals::detail::iterator_interval_base", "intervals::detail::constrained_interval",
    "intervals::detail::arithmetic_interval_base", "intervals::detail::less_constraint", "intervals::detail::less_equal_constraint",
    "intervals::detail::equality_constraint", "intervals::detail::inequality_constraint", "intervals::detail::constraint_conjunction",
    "intervals::detail::constraint_disjunction", "intervals::as_regular"]

/-- The class of a condition and its base classes (detail/interval.hpp:319, 332–379; `condition : set<bool>`). -/
def classes {T : Type _} : Cond T → List String
  | .plain _ => ["intervals::set"]
  | .leq _ _ _ => ["intervals::detail::less_equal_constraint", "intervals::detail::condition", "intervals::set"]
  | .less _ _ _ => ["intervals::detail::less_constraint", "intervals::detail::condition", "intervals::set"]
  | .equal _ _ _ => ["intervals::detail::equal_constraint", "intervals::detail::condition", "intervals::set"]
  | .notEqual _ _ _ => ["intervals::detail::not_equal_constraint", "intervals::detail::condition", "intervals::set"]
  | .conj _ _ _ => ["intervals::detail::constraint_conjunction", "intervals::detail::condition", "intervals::set"]
  | .disj _ _ _ => ["intervals::detail::constraint_disjunction", "intervals::detail::condition", "intervals::set"]

/-- The rule that the debugger applies to an object of the given classes (most derived class first). -/
def ruleFor (cs : List String) : Option String := cs.find? (fun c => rules.contains c)

section
variable {T : Type _} [CppVal T] (shw : T → List Char) (raw : BoolSet → List Char)

/-- `DisplayString`s of `arithmetic_interval_base` (intervals.natvis:40–42). -/
def ivlText (X : Ivl T) : List Char :=
  if gt X.lo X.hi then "uninitialized".toList
  else if eq X.lo X.hi then shw X.lo
  else "[".toList ++ shw X.lo ++ ", ".toList ++ shw X.hi ++ "]".toList

/-- `DisplayString`s of `iterator_interval_base` (intervals.natvis:17–18, 25–26); for an `index_iterator`, `shw` is the text of the index. -/
def iterText (X : Ivl T) : List Char :=
  if eq X.lo X.hi then "→".toList ++ shw X.lo
  else "[→".toList ++ shw X.lo ++ ", →".toList ++ shw X.hi ++ "]".toList

/-- The text of an operand of a comparison: a number, an interval, or an interval with identity, which is shown as the interval it is derived from
(intervals.natvis:33). -/
def opText : Operand T → List Char
  | .scalar _ v => shw v
  | .anon _ X => ivlText shw X
  | .ident _ _ X => ivlText shw X

/-- The `member` view of a condition (`DisplayString IncludeView="member"`, intervals.natvis:49, 57, 65, 73, 81, 89); an object whose rule has no such
view, or only the rule of the base class `set`, is shown as a `set<bool>`. -/
def memberText : Cond T → List Char
  | .plain s => raw s
  | .leq s l r => match ruleFor (classes (.leq s l r)) with
    | some "intervals::detail::less_equal_constraint" => opText shw l ++ " ≤ ".toList ++ opText shw r
    | _ => raw s
  | .less s l r => match ruleFor (classes (.less s l r)) with
    | some "intervals::detail::less_constraint" => opText shw l ++ " < ".toList ++ opText shw r
    | _ => raw s
  | .equal s l r => match ruleFor (classes (.equal s l r)) with
    | some "intervals::detail::equality_constraint" => opText shw l ++ " = ".toList ++ opText shw r
    | _ => raw s
  | .notEqual s l r => match ruleFor (classes (.notEqual s l r)) with
    | some "intervals::detail::inequality_constraint" => opText shw l ++ " ≠ ".toList ++ opText shw r
    | _ => raw s
  | .conj s l r => match ruleFor (classes (.conj s l r)) with
    | some "intervals::detail::constraint_conjunction" => memberText l ++ " ∧ ".toList ++ memberText r
    | _ => raw s
  | .disj s l r => match ruleFor (classes (.disj s l r)) with
    | some "intervals::detail::constraint_disjunction" => memberText l ++ " ∨ ".toList ++ memberText r
    | _ => raw s

/-- The text of a condition (`DisplayString` without a view, intervals.natvis:50, 58, 66, 74, 82, 90). -/
def condText : Cond T → List Char
  | .plain s => raw s
  | .leq s l r => match ruleFor (classes (.leq s l r)) with
    | some "intervals::detail::less_equal_constraint" => raw s ++ " ⇔ ".toList ++ opText shw l ++ " ≤ ".toList ++ opText shw r
    | _ => raw s
  | .less s l r => match ruleFor (classes (.less s l r)) with
    | some "intervals::detail::less_constraint" => raw s ++ " ⇔ ".toList ++ opText shw l ++ " < ".toList ++ opText shw r
    | _ => raw s
  | .equal s l r => match ruleFor (classes (.equal s l r)) with
    | some "intervals::detail::equality_constraint" => raw s ++ " ⇔ ".toList ++ opText shw l ++ " = ".toList ++ opText shw r
    | _ => raw s
  | .notEqual s l r => match ruleFor (classes (.notEqual s l r)) with
    | some "intervals::detail::inequality_constraint" => raw s ++ " ⇔ ".toList ++ opText shw l ++ " ≠ ".toList ++ opText shw r
    | _ => raw s
  | .conj s l r => match ruleFor (classes (.conj s l r)) with
    | some "intervals::detail::constraint_conjunction" =>
      raw s ++ " ⇔ (".toList ++ memberText shw raw l ++ ") ∧ (".toList ++ memberText shw raw r ++ ")".toList
    | _ => raw s
  | .disj s l r => match ruleFor (classes (.disj s l r)) with
    | some "intervals::detail::constraint_disjunction" =>
      raw s ++ " ⇔ (".toList ++ memberText shw raw l ++ ") ∨ (".toList ++ memberText shw raw r ++ ")".toList
    | _ => raw s
end

/-- The items in the expanded view of a set (intervals.natvis:5–14): the loop over `i` from 0 to `num_values`, with item `[i]` for every bit that is
set. -/
def setItems {V : Type _} [DecidableEq V] {vals : List V} (x : CSet vals) (i : Nat) : List (Nat × V) :=
  if h : i < vals.length then
    if x.getLsbD i then (i, vals[i]) :: setItems x (i + 1) else setItems x (i + 1)
  else []
termination_by vals.length - i

end Intervals.Natvis
