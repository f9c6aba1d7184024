import Verif.Spec.ConstraintMixed
import Verif.Model.ConstraintTree
/-!
# Specification vocabulary for compound conditions over operands of several value types
-/
namespace Intervals.Spec
open Intervals CppVal
variable {ι : Type} {V : ι → Type} [∀ i, CppVal (V i)] [∀ i, CppNum (V i)] {T : Type} [CppVal T] [CppNum T] [CppStep T]

/-- A condition on `x` as written in the program. -/
inductive MExpr {ι : Type} (V : ι → Type) where
  | plain (s : BoolSet)
  | cmp (i : ι) (r : Arg (V i)) (k : XRel)
  | away (s : BoolSet)
  | and (e f : MExpr V)
  | or (e f : MExpr V)
  | not (e : MExpr V)

/-- Running the library's operators on the expression. -/
def MExpr.build (E : OperandTypes V T) (dbg : Bool) (x : Ivl T) : MExpr V → Outcome (MCond V)
  | .plain s => .ok (.plain s)
  | .cmp i r k => mkCmp E dbg x i r k
  | .away s => .ok (.away s)
  | .and e f => do return MCond.mkAnd (← e.build E dbg x) (← f.build E dbg x)
  | .or e f => do return MCond.mkOr (← e.build E dbg x) (← f.build E dbg x)
  | .not e => do MCond.mkNot dbg (← e.build E dbg x)

/-- the condition can have the truth value `p` if `x` has the value `u`, for some values of the other operands -/
def MExpr.Sat (E : OperandTypes V T) (u : T) : Bool → MExpr V → Prop
  | p, .plain s => BoolSet.contains s p = true
  | p, .away s => BoolSet.contains s p = true
  | p, .cmp i r k => ∃ v, v ∈ₐ r ∧ holdsX k u (E.cv i v) = p
  | true, .and e f => e.Sat E u true ∧ f.Sat E u true
  | false, .and e f => e.Sat E u false ∨ f.Sat E u false
  | true, .or e f => e.Sat E u true ∨ f.Sat E u true
  | false, .or e f => e.Sat E u false ∧ f.Sat E u false
  | p, .not e => e.Sat E u (!p)

/-- all operands are assigned and NaN-free, their conversions are monotone, and no truth set is empty -/
def MExpr.Proper (E : OperandTypes V T) : MExpr V → Prop
  | .plain s => s ≠ BoolSet.empty
  | .away s => s ≠ BoolSet.empty
  | .cmp i r _ => CppOrder (V i) ∧ ProperA r ∧ MonoCast (E.cv i)
  | .and e f => e.Proper E ∧ f.Proper E
  | .or e f => e.Proper E ∧ f.Proper E
  | .not e => e.Proper E

/-- the call, if it returns, returns a part of `x` -/
def Narrows (x : Ivl T) (o : Outcome (Ivl T)) : Prop := ∀ R, o = .ok R → Spec.Proper R ∧ ∀ u, u ∈ᵢ R → u ∈ᵢ x
/-- the comparison on its own, or its opposite, keeps the values that satisfy it, and returns a part of `x` (C101 says when) -/
def GoodLeaf (E : OperandTypes V T) (dbg d : Bool) (x : Ivl T) (i : ι) (r : Arg (V i)) (k : XRel) : Prop :=
  Keeps (E.cv i) x r k (constrainM (E.cv i) (E.pr i) (E.su i) d dbg x r k) ∧ Narrows x (constrainM (E.cv i) (E.pr i) (E.su i) d dbg x r k)
/-- every comparison, with the sign it has in the condition, has the property `P` -/
def MExpr.All (P : ∀ i, Arg (V i) → XRel → Prop) : Bool → MExpr V → Prop
  | _, .plain _ => True
  | _, .away _ => True
  | p, .cmp i r k => P i r (if p then k else k.neg)
  | p, .and e f => e.All P p ∧ f.All P p
  | p, .or e f => e.All P p ∧ f.All P p
  | p, .not e => e.All P (!p)

/-- the condition mentions `x` where `constrain` looks: not in a disjunction that is an operand of a conjunction -/
def MentionsT : MCond V → Bool
  | .plain _ => false
  | .away _ => false
  | .cmp _ _ _ _ => true
  | .conj _ l r => (!l.isDisj && MentionsT l) || (!r.isDisj && MentionsT r)
  | .disj _ l r => MentionsT l || MentionsT r
/-- each side of every disjunction that is not below a conjunction mentions `x` or cannot be true -/
def DisjEvenT : MCond V → Prop
  | .disj _ l r => (BoolSet.contains l.truth true = false ∨ (MentionsT l = true ∧ DisjEvenT l)) ∧
      (BoolSet.contains r.truth true = false ∨ (MentionsT r = true ∧ DisjEvenT r))
  | _ => True
/-- the condition is a conjunction of comparisons and plain truth sets -/
def NoDisjT : MCond V → Prop
  | .conj _ l r => NoDisjT l ∧ NoDisjT r
  | .disj _ _ _ => False
  | _ => True

/-- constraining by the comparison keeps exactly the values that satisfy it, and is a contract violation if there is none (C101 says when) -/
def ExactLeaf (E : OperandTypes V T) (dbg d : Bool) (x : Ivl T) (i : ι) (r : Arg (V i)) (k : XRel) : Prop :=
  ((∃ u, SatX (E.cv i) x r k u) → ∃ R, constrainM (E.cv i) (E.pr i) (E.su i) d dbg x r k = .ok R ∧ Spec.Proper R ∧ ∀ u, u ∈ᵢ R ↔ SatX (E.cv i) x r k u) ∧
  ((¬ ∃ u, SatX (E.cv i) x r k u) → constrainM (E.cv i) (E.pr i) (E.su i) d dbg x r k = .error .contract)
/-- no `bool` or `set<bool>` occurs as an operand -/
def MExpr.NoPlain : MExpr V → Prop
  | .plain _ => False
  | .away _ => True
  | .cmp _ _ _ => True
  | .and e f => e.NoPlain ∧ f.NoPlain
  | .or e f => e.NoPlain ∧ f.NoPlain
  | .not e => e.NoPlain
/-- the condition is a conjunction, and what does not mention `x` may be true: `p` tells whether the condition is taken as it is or negated -/
def MExpr.Conj : Bool → MExpr V → Prop
  | _, .plain _ => False
  | p, .away s => BoolSet.contains s p = true
  | _, .cmp _ _ _ => True
  | true, .and e f => e.Conj true ∧ f.Conj true
  | false, .or e f => e.Conj false ∧ f.Conj false
  | false, .and _ _ => False
  | true, .or _ _ => False
  | p, .not e => e.Conj (!p)
/-- the condition mentions `x` -/
def MExpr.Mentions : MExpr V → Bool
  | .plain _ => false
  | .away _ => false
  | .cmp _ _ _ => true
  | .and e f => e.Mentions || f.Mentions
  | .or e f => e.Mentions || f.Mentions
  | .not e => e.Mentions
/-- `constrain(x, e)` returns the smallest interval that contains all values of `x` that satisfy `e` -/
def Tight (E : OperandTypes V T) (dbg d : Bool) (x : Ivl T) (e : MExpr V) : Prop :=
  ∃ c R, e.build E dbg x = .ok c ∧ constrainT E dbg d x c = .ok R ∧ (∀ u, u ∈ᵢ x → e.Sat E u true → u ∈ᵢ R) ∧
    (R.lo ∈ᵢ x ∧ e.Sat E R.lo true) ∧ (R.hi ∈ᵢ x ∧ e.Sat E R.hi true)
end Intervals.Spec
