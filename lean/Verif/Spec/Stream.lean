import Verif.Spec.Set
/-!
# Specification vocabulary for stream output
-/
namespace Intervals.Spec
/-- the comma-separated list of the texts -/
def commaList : List (List Char) → List Char
  | [] => []
  | [a] => a
  | a :: b :: l => a ++ ", ".toList ++ commaList (b :: l)

/-- `t` is the text of the set: its members, in the order of the values of the type, between braces -/
def SetText {V : Type _} [DecidableEq V] {vals : List V} (shw : V → List Char) (x : CSet vals) (t : List Char) : Prop :=
  ∃ ms : List V, ms.Sublist vals ∧ (∀ v, v ∈ ms ↔ SMem v x) ∧ t = "{ ".toList ++ commaList (ms.map shw) ++ " }".toList
end Intervals.Spec
