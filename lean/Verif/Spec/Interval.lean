import Verif.Model.Interval
/-!
# Specification vocabulary for intervals

`v ∈ᵢ X`  — `v` is a point of `X`: `lower <= v` and `v <= upper`.
`Proper X` — `X` is assigned and has no NaN bound: `lower <= upper`.
-/
namespace Intervals.Spec
open Intervals CppVal
variable {T : Type _} [CppVal T]

/-- `v` is a point of the interval -/
def Pt (v : T) (X : Ivl T) : Prop := le X.lo v = true ∧ le v X.hi = true
@[inherit_doc] scoped infix:50 " ∈ᵢ " => Pt

/-- assigned and NaN-free -/
def Proper (X : Ivl T) : Prop := le X.lo X.hi = true

/-- not a NaN -/
def NotNan (v : T) : Prop := le v v = true

/-- `v` is a point of the operand (a scalar `s` is the degenerate interval `[s,s]`) -/
def PtA (v : T) : Arg T → Prop
  | .scalar s => le s v = true ∧ le v s = true
  | .ivl X => v ∈ᵢ X
@[inherit_doc] scoped infix:50 " ∈ₐ " => PtA

/-- assigned and NaN-free operand -/
def ProperA : Arg T → Prop
  | .scalar s => NotNan s
  | .ivl X => Proper X

instance (v : T) (X : Ivl T) : Decidable (Pt v X) := inferInstanceAs (Decidable (_ ∧ _))
instance (X : Ivl T) : Decidable (Proper X) := inferInstanceAs (Decidable (_ = _))
instance (v : T) : Decidable (NotNan v) := inferInstanceAs (Decidable (_ = _))
instance (A : Arg T) : Decidable (ProperA A) := by cases A <;> unfold ProperA <;> infer_instance

/-- Exact set extension of a comparison: `r` is in the result iff some pair of points compares to `r`. -/
def ExactCmp (op : T → T → Bool) (A B : Arg T) (R : BoolSet) : Prop :=
  ∀ r, BoolSet.contains R r = true ↔ ∃ a b, a ∈ₐ A ∧ b ∈ₐ B ∧ op a b = r

/-- `R` is the smallest interval containing the items `S`: it contains them all, and each bound equals a bound of an item. -/
def IsHull (S : List (Ivl T)) (R : Ivl T) : Prop :=
  (∀ X ∈ S, le R.lo X.lo = true ∧ le X.hi R.hi = true) ∧ (∃ X ∈ S, eq R.lo X.lo = true) ∧ (∃ X ∈ S, eq R.hi X.hi = true)

/-- One mutating call on an interval (member functions and the free functions built on them). -/
inductive IvlOp (T : Type _) where
  | reset                      -- x.reset()
  | resetVal (v : T)           -- x.reset(v)
  | resetIvl (r : Ivl T)       -- x.reset(r)
  | assignVal (v : T)          -- x.assign(v)
  | assign (r : Ivl T)         -- x.assign(r), assign_partial(x, r)

/-- Running one call, by the model's functions. -/
def IvlOp.run [CppLimits T] (x : Ivl T) : IvlOp T → Outcome (Ivl T)
  | .reset => .ok (Ivl.reset x)
  | .resetVal v => .ok (Ivl.resetVal x v)
  | .resetIvl r => .ok (Ivl.resetIvl x r)
  | .assignVal v => .ok (Ivl.assignVal x v)
  | .assign r => Ivl.assignPartial x r
def runIvlOps [CppLimits T] : List (IvlOp T) → Ivl T → Outcome (Ivl T)
  | [], x => .ok x
  | op :: ops, x => do runIvlOps ops (← op.run x)

/-- What is in the accumulator according to the documentation: the items assigned since the last reset. -/
def live : List (IvlOp T) → List (Ivl T) → List (Ivl T)
  | [], acc => acc
  | .reset :: ops, _ => live ops []
  | .resetVal v :: ops, _ => live ops [⟨v, v⟩]
  | .resetIvl r :: ops, _ => live ops [r]
  | .assignVal v :: ops, acc => live ops (acc ++ [⟨v, v⟩])
  | .assign r :: ops, acc => live ops (acc ++ [r])

/-- Calls with NaN-free, assigned arguments. -/
def IvlOp.proper : IvlOp T → Prop
  | .reset => True
  | .resetVal v => NotNan v
  | .resetIvl r => Proper r
  | .assignVal v => NotNan v
  | .assign r => Proper r

end Intervals.Spec
