import Verif.Spec.Interval
import Verif.Model.Constraint
/-!
# Specification vocabulary for conditions

A condition is written as an expression over comparisons.  A *valuation* `ρ` gives every interval object (address) one value; `EvE ρ e b`
says that the expression `e` can evaluate to `b` when each named interval is replaced by its value, each temporary interval by one of
its points, and each plain `set<bool>` by one of its members.
-/
namespace Intervals.Spec
open Intervals CppVal
variable {T : Type _} [CppVal T]

inductive CmpOp where
  | eq | ne | lt | le | gt | ge
  deriving DecidableEq

/-- the scalar comparison -/
def CmpOp.eval : CmpOp → T → T → Bool
  | .eq => CppVal.eq
  | .ne => CppVal.ne
  | .lt => CppVal.lt
  | .le => CppVal.le
  | .gt => CppVal.gt
  | .ge => CppVal.ge

/-- A condition as written in the program. -/
inductive CExpr (T : Type _) where
  | plain (s : BoolSet)
  | cmp (op : CmpOp) (l r : Operand T)
  | and (e f : CExpr T)
  | or (e f : CExpr T)
  | not (e : CExpr T)

/-- the comparison operators of the library -/
def buildCmp (dbg : Bool) : CmpOp → Operand T → Operand T → Outcome (Cond T)
  | .eq => condEq dbg
  | .ne => condNe dbg
  | .lt => condLt dbg
  | .le => condLe dbg
  | .gt => condGt dbg
  | .ge => condGe dbg
/-- Running the library's operators on the expression. -/
def CExpr.build (dbg : Bool) : CExpr T → Outcome (Cond T)
  | .plain s => .ok (.plain s)
  | .cmp op l r => buildCmp dbg op l r
  | .and e f => do return Cond.mkAnd (← e.build dbg) (← f.build dbg)
  | .or e f => do return Cond.mkOr (← e.build dbg) (← f.build dbg)
  | .not e => do Cond.mkNot dbg (← e.build dbg)

/-- `v` is a value of the operand under `ρ` (a named interval has the value `ρ id`, which must be one of the points it had when it was
compared). -/
def Val (ρ : Nat → T) : Operand T → T → Prop
  | .scalar _ s, v => v = s
  | .anon _ X, v => v ∈ᵢ X
  | .ident _ id X, v => v = ρ id ∧ v ∈ᵢ X

/-- `b` is a possible truth value of the expression at `ρ`. -/
def EvE (ρ : Nat → T) : CExpr T → Bool → Prop
  | .plain s, b => BoolSet.contains s b = true
  | .cmp op l r, b => ∃ u v, Val ρ l u ∧ Val ρ r v ∧ op.eval u v = b
  | .and e f, b => ∃ p q, EvE ρ e p ∧ EvE ρ f q ∧ (p && q) = b
  | .or e f, b => ∃ p q, EvE ρ e p ∧ EvE ρ f q ∧ (p || q) = b
  | .not e, b => EvE ρ e (!b)

/-- `b` is a possible truth value of a condition object at `ρ`, judged by its comparison tree (not by its stored truth set). -/
def Ev (ρ : Nat → T) : Cond T → Bool → Prop
  | .plain s, b => BoolSet.contains s b = true
  | .leq _ l r, b => ∃ u v, Val ρ l u ∧ Val ρ r v ∧ le u v = b
  | .less _ l r, b => ∃ u v, Val ρ l u ∧ Val ρ r v ∧ lt u v = b
  | .equal _ l r, b => ∃ u v, Val ρ l u ∧ Val ρ r v ∧ eq u v = b
  | .notEqual _ l r, b => ∃ u v, Val ρ l u ∧ Val ρ r v ∧ ne u v = b
  | .conj _ l r, b => ∃ p q, Ev ρ l p ∧ Ev ρ r q ∧ (p && q) = b
  | .disj _ l r, b => ∃ p q, Ev ρ l p ∧ Ev ρ r q ∧ (p || q) = b

/-- no plain `bool`/`set<bool>` operand in the tree -/
def NoPlain : Cond T → Prop
  | .plain _ => False
  | .conj _ l r => NoPlain l ∧ NoPlain r
  | .disj _ l r => NoPlain l ∧ NoPlain r
  | _ => True

/-- all operands are assigned and NaN-free, and no plain operand is the empty set -/
def CExpr.Proper : CExpr T → Prop
  | .plain s => s ≠ BoolSet.empty
  | .cmp _ l r => ProperA l.arg ∧ ProperA r.arg
  | .and e f => e.Proper ∧ f.Proper
  | .or e f => e.Proper ∧ f.Proper
  | .not e => e.Proper

/-- the condition compares the interval object `id` (of a type that is discrete iff `d`) -/
def Mentions (d : Bool) (id : Nat) : Cond T → Prop
  | .plain _ => False
  | .leq _ l r | .less _ l r | .equal _ l r | .notEqual _ l r => l.matchesId d id = true ∨ r.matchesId d id = true
  | .conj _ l r => Mentions d id l ∨ Mentions d id r
  | .disj _ l r => Mentions d id l ∨ Mentions d id r

/-- What `constrain` looks at: a disjunction that is an operand of a conjunction counts only as a `set<bool>`. -/
def seen : Cond T → Cond T
  | .conj s l r => .conj s (if l.isDisj then .plain l.truth else seen l) (if r.isDisj then .plain r.truth else seen r)
  | .disj s l r => .disj s (seen l) (seen r)
  | c => c

/-- each side of every disjunction (not below a conjunction) mentions the interval or cannot be true -/
def DisjEven (d : Bool) (id : Nat) : Cond T → Prop
  | .disj _ l r => (BoolSet.contains l.truth true = false ∨ (Mentions d id l ∧ DisjEven d id l)) ∧
      (BoolSet.contains r.truth true = false ∨ (Mentions d id r ∧ DisjEven d id r))
  | _ => True

/-- strict comparisons have operands that step like values of the interval's own type -/
def StrictHom (d : Bool) : Cond T → Prop
  | .less _ l r => l.disc = d ∧ r.disc = d
  | .conj _ l r => StrictHom d l ∧ StrictHom d r
  | .disj _ l r => StrictHom d l ∧ StrictHom d r
  | _ => True

/-- a predicate holds for the operand of every comparison (of the kinds selected) that refers to the interval `id` -/
def SelfOperands (d : Bool) (id : Nat) (P : Operand T → Prop) : Cond T → Prop
  | .plain _ => True
  | .leq _ l r | .less _ l r | .equal _ l r | .notEqual _ l r =>
    (l.matchesId d id = true → P l) ∧ (r.matchesId d id = true → P r)
  | .conj _ l r => SelfOperands d id P l ∧ SelfOperands d id P r
  | .disj _ l r => SelfOperands d id P l ∧ SelfOperands d id P r

/-- the same, for `==` and `!=` only -/
def EqOperands (d : Bool) (id : Nat) (P : Operand T → Prop) : Cond T → Prop
  | .equal _ l r | .notEqual _ l r => (l.matchesId d id = true → P l) ∧ (r.matchesId d id = true → P r)
  | .conj _ l r => EqOperands d id P l ∧ EqOperands d id P r
  | .disj _ l r => EqOperands d id P l ∧ EqOperands d id P r
  | _ => True

/-- every conjunction below a disjunction can be true for some value of the interval `x`, unless its truth set says that it cannot -/
def ConjSat (id : Nat) (x : Ivl T) : Cond T → Prop
  | .conj _ l r => ConjSat id x l ∧ ConjSat id x r
  | .disj _ l r => Inner l ∧ Inner r
  | _ => True
where
  Inner : Cond T → Prop
    | .conj s l r => (BoolSet.contains s true = true → ∃ ρ : Nat → T, ρ id ∈ᵢ x ∧ Ev ρ (.conj s l r) true) ∧ Inner l ∧ Inner r
    | .disj _ l r => Inner l ∧ Inner r
    | _ => True

/-- some comparison that mentions the interval and is not below a disjunction cannot be true -/
def ImpossibleMention (d : Bool) (id : Nat) : Cond T → Prop
  | .plain _ => False
  | .leq s l r | .less s l r | .equal s l r | .notEqual s l r =>
    (l.matchesId d id = true ∨ r.matchesId d id = true) ∧ BoolSet.contains s true = false
  | .conj _ l r => ImpossibleMention d id l ∨ ImpossibleMention d id r
  | .disj _ _ _ => False

/-- a predicate holds for every operand of the expression that is the interval object `id` -/
def CExpr.AtId (id : Nat) (P : Ivl T → Prop) : CExpr T → Prop
  | .plain _ => True
  | .cmp _ l r => at_ l ∧ at_ r
  | .and e f => e.AtId id P ∧ f.AtId id P
  | .or e f => e.AtId id P ∧ f.AtId id P
  | .not e => e.AtId id P
where
  at_ : Operand T → Prop
    | .ident _ i X => i = id → P X
    | _ => True

/-- the interval object `id` does not occur in the expression -/
def CExpr.Free (id : Nat) (e : CExpr T) : Prop := e.AtId id (fun _ => False)
/-- wherever the interval object `id` occurs in the expression, its bounds were `x` -/
def CExpr.Current (id : Nat) (x : Ivl T) (e : CExpr T) : Prop := e.AtId id (fun X => X = x)

/-- Discrete stepping: `++`/`--` give the neighbouring value whenever there is one. -/
structure LawfulStep (T : Type _) [CppVal T] [CppStep T] : Prop where
  succ_of_lt : ∀ a b : T, lt a b = true → ∃ s, CppStep.succ a = some s ∧ le s b = true ∧ lt a s = true
  pred_of_lt : ∀ a b : T, lt a b = true → ∃ p, CppStep.pred b = some p ∧ le a p = true ∧ lt p b = true

/-- the values next to the bounds that `constrain` may step away from exist: below the upper bound of an integral right operand of `<` and
above the lower bound of an integral left one, if the comparison is possible; and, for an interval of integers, inside the operands of `!=`
that are not single values -/
def Steps [CppStep T] (d : Bool) : Cond T → Prop
  | .less _ l r => lt l.arg.lo r.arg.hi = true → (r.disc = true → ∃ p, CppStep.pred r.arg.hi = some p ∧ le p p = true) ∧
      (l.disc = true → ∃ s, CppStep.succ l.arg.lo = some s ∧ le s s = true)
  | .notEqual _ l r => d = true →
      (lt l.arg.lo l.arg.hi = true → (∃ s, CppStep.succ l.arg.lo = some s ∧ le s s = true) ∧ ∃ p, CppStep.pred l.arg.hi = some p ∧ le p p = true) ∧
      (lt r.arg.lo r.arg.hi = true → (∃ s, CppStep.succ r.arg.lo = some s ∧ le s s = true) ∧ ∃ p, CppStep.pred r.arg.hi = some p ∧ le p p = true)
  | .conj _ l r => Steps d l ∧ Steps d r
  | .disj _ l r => Steps d l ∧ Steps d r
  | _ => True

/-- two calls have the same outcome: both return equal bounds, or both fail in the same way -/
def SameOutcome (a b : Outcome (Ivl T)) : Prop :=
  match a, b with
  | .ok R, .ok S => eq R.lo S.lo = true ∧ eq R.hi S.hi = true
  | .error e, .error e' => e = e'
  | _, _ => False

/-- between any two values there is another -/
def DenseVal (T : Type _) [CppVal T] : Prop := ∀ a b : T, lt a b = true → ∃ c, lt a c = true ∧ lt c b = true

/-- `u` is a value of `x` that satisfies the comparison with some value of the other operand `Y`; `left`: `u op y`, otherwise
`y op u`. -/
def Satisfies (op : CmpOp) (left : Bool) (x : Ivl T) (Y : Arg T) (u : T) : Prop :=
  u ∈ᵢ x ∧ ∃ y, y ∈ₐ Y ∧ (if left then op.eval u y else op.eval y u) = true

/-- the bounds of `R` belong to `P`, and everything in `P` lies between them -/
def AttainedBounds (P : T → Prop) (R : Ivl T) : Prop := P R.lo ∧ P R.hi ∧ ∀ u, P u → u ∈ᵢ R

/-- everything in `P` lies between the bounds of `R`, which are the infimum and the supremum of `P` -/
def LimitBounds (P : T → Prop) (R : Ivl T) : Prop :=
  (∀ u, P u → u ∈ᵢ R) ∧ (∀ w, lt R.lo w = true → ∃ u, P u ∧ lt u w = true) ∧ (∀ w, lt w R.hi = true → ∃ u, P u ∧ lt w u = true)

/-- the single comparison `x op y` (`left`) or `y op x`, with `x` the interval object `id` -/
def single (op : CmpOp) (left d : Bool) (id : Nat) (x : Ivl T) (y : Operand T) : CExpr T :=
  if left then .cmp op (.ident d id x) y else .cmp op y (.ident d id x)

/-- not a strict relation -/
def CmpOp.nonStrict : CmpOp → Bool
  | .lt | .gt => false
  | _ => true

end Intervals.Spec
