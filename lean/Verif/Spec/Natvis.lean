import Verif.Model.Constraint
/-!
# Specification vocabulary for texts of conditions
-/
namespace Intervals.Spec
/-- a comparison -/
inductive Rel where
  | le | lt | eq | ne
  deriving DecidableEq

/-- its sign -/
def Rel.sign : Rel → List Char
  | .le => " ≤ ".toList
  | .lt => " < ".toList
  | .eq => " = ".toList
  | .ne => " ≠ ".toList

/-- The formula of a condition, for given truth values of its comparisons and of its constant parts. -/
def Cond.means {T : Type _} (ρ : Rel → Operand T → Operand T → Bool) (κ : BoolSet → Bool) : Cond T → Bool
  | .plain s => κ s
  | .leq _ l r => ρ .le l r
  | .less _ l r => ρ .lt l r
  | .equal _ l r => ρ .eq l r
  | .notEqual _ l r => ρ .ne l r
  | .conj _ l r => Cond.means ρ κ l && Cond.means ρ κ r
  | .disj _ l r => Cond.means ρ κ l || Cond.means ρ κ r

/-- a comparison with its text, or a constant -/
inductive Atom (T : Type _) where
  | rel (o : Rel) (l r : Operand T)
  | const (s : BoolSet)
namespace Atom
variable {T : Type _}
/-- how an atom is written -/
def text (op : Operand T → List Char) (raw : BoolSet → List Char) : Atom T → List Char
  | rel o l r => op l ++ o.sign ++ op r
  | const s => raw s
/-- its truth value -/
def means (ρ : Rel → Operand T → Operand T → Bool) (κ : BoolSet → Bool) : Atom T → Bool
  | rel o l r => ρ o l r
  | const s => κ s
end Atom

/-- the texts, separated by `sep` -/
def sepBy (sep : List Char) : List (List Char) → List Char
  | [] => []
  | [a] => a
  | a :: b :: l => a ++ sep ++ sepBy sep (b :: l)

/-- A formula without parentheses, read in the usual way (∧ binds more tightly than ∨): a disjunction of conjunctions of atoms. -/
def flatText {T : Type _} (op : Operand T → List Char) (raw : BoolSet → List Char) (f : List (List (Atom T))) : List Char :=
  sepBy " ∨ ".toList (f.map fun c => sepBy " ∧ ".toList (c.map (Atom.text op raw)))
/-- what it means -/
def flatMeans {T : Type _} (ρ : Rel → Operand T → Operand T → Bool) (κ : BoolSet → Bool) (f : List (List (Atom T))) : Bool :=
  f.any fun c => c.all (Atom.means ρ κ)

/-- The text `t`, read in the usual way, is a formula for the condition. -/
def Reads {T : Type _} (op : Operand T → List Char) (raw : BoolSet → List Char) (c : Cond T) (t : List Char) : Prop :=
  ∃ f : List (List (Atom T)), (∀ d ∈ f, d ≠ []) ∧ f ≠ [] ∧ t = flatText op raw f ∧ ∀ ρ κ, flatMeans ρ κ f = Cond.means ρ κ c

/-- no comparison with `==` or `!=` -/
def Cond.NoEq {T : Type _} : Cond T → Prop
  | .equal _ _ _ => False
  | .notEqual _ _ _ => False
  | .conj _ l r => Cond.NoEq l ∧ Cond.NoEq r
  | .disj _ l r => Cond.NoEq l ∧ Cond.NoEq r
  | _ => True
/-- no disjunction anywhere -/
def Cond.NoDisj {T : Type _} : Cond T → Prop
  | .disj _ _ _ => False
  | .conj _ l r => Cond.NoDisj l ∧ Cond.NoDisj r
  | _ => True
/-- no disjunction within a conjunction -/
def Cond.Dnf {T : Type _} : Cond T → Prop
  | .disj _ l r => Cond.Dnf l ∧ Cond.Dnf r
  | .conj _ l r => Cond.NoDisj l ∧ Cond.NoDisj r
  | _ => True
end Intervals.Spec
