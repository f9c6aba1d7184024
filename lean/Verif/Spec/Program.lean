import Verif.Spec.Constraint
import Verif.Model.Scalar
import Mathlib.Data.List.Forall2
/-!
# Interval-aware programs

The generic code the library is meant for (README "Interval-aware programming"): source that is instantiated once with scalars and once with intervals.

    auto x = T{ };                       decl x
    auto x = f(y, z);                    letF x f [y, z]
    auto x = constrain(y, c);            constrain x y k          (`c`: the k-th enclosing branch condition, innermost first)
    assign_partial(x, y);                assignPartial x y
    assign(x, y);                        assign x y
    reset(x, y);                         reset x y
    { p }                                block p
    auto x = g(y, z);                    call x p [y, z] r        (where `T g(T v0, T v1) { p return vr; }`)
    auto c = e;                          branch e p q
    if (possibly(c)) { p }               (inside `q`, the condition at hand is `!c`)
    if (possibly(!c)) { q }

Loops with a fixed number of iterations are sequences of blocks (`forLoop`), recursive functions are unfolded (`unfold`).

`runI` runs a program on intervals, calling the model of the library; `runS` runs it on scalars.  Variables are numbered; the number is also the
address of the interval object (all variables of one program are distinct objects).  All variables have one value type, discrete iff `d`.
-/
namespace Intervals.Spec
open Intervals CppVal
variable {T : Type}

/-- an operand of a comparison in the source -/
inductive PTerm (T : Type) where
  | var (x : Nat)
  | lit (v : T)

/-- a branch condition in the source -/
inductive PCond (T : Type) where
  | cmp (op : CmpOp) (l r : PTerm T)
  | and (e f : PCond T)
  | or (e f : PCond T)
  | not (e : PCond T)

/-- a function that the program calls: its overload for intervals and its overload for scalars -/
structure Fn (T : Type) where
  arity : Nat
  ivl : Bool → List (Ivl T) → Outcome (Ivl T)
  pt : List T → Outcome T

inductive Prog (T : Type) where
  | skip
  | seq (p q : Prog T)
  | decl (x : Nat)
  | letF (x : Nat) (f : Fn T) (args : List Nat)
  | constrain (x y k : Nat)
  | assignPartial (x y : Nat)
  | assign (x y : Nat)
  | reset (x y : Nat)
  | block (p : Prog T)
  | call (x : Nat) (p : Prog T) (args : List Nat) (r : Nat)
  | branch (e : PCond T) (p q : Prog T)

/-- variable update -/
def upd {A : Type} (s : Nat → A) (x : Nat) (v : A) : Nat → A := fun y => if y = x then v else s y

/-- the variables of a function at the start of a call: the parameters are the first ones -/
def frame {A : Type} (dflt : A) (vs : List A) : Nat → A := fun i => vs[i]?.getD dflt

section run
variable [CppVal T]

/-- the operand as the library sees it: a variable is an interval object, a literal is a scalar -/
def PTerm.inst (d : Bool) (S : Nat → Ivl T) : PTerm T → Operand T
  | .var x => .ident d x (S x)
  | .lit v => .scalar d v
def PCond.inst (d : Bool) (S : Nat → Ivl T) : PCond T → CExpr T
  | .cmp op l r => .cmp op (l.inst d S) (r.inst d S)
  | .and e f => .and (e.inst d S) (f.inst d S)
  | .or e f => .or (e.inst d S) (f.inst d S)
  | .not e => .not (e.inst d S)

def PTerm.eval (s : Nat → T) : PTerm T → T
  | .var x => s x
  | .lit v => v
def PCond.eval (s : Nat → T) : PCond T → Bool
  | .cmp op l r => op.eval (l.eval s) (r.eval s)
  | .and e f => e.eval s && f.eval s
  | .or e f => e.eval s || f.eval s
  | .not e => !e.eval s

/-- The program instantiated with intervals: state, stack of the enclosing conditions.  The second component of the result is a ghost observation:
every function call so far has returned an assigned, NaN-free interval. -/
def runI [CppLimits T] [CppStep T] (dbg d : Bool) : Prog T → (Nat → Ivl T) → List (Cond T) → Outcome ((Nat → Ivl T) × Bool)
  | .skip, S, _ => .ok (S, true)
  | .seq p q, S, K => do
    let (S1, b1) ← runI dbg d p S K
    let (S2, b2) ← runI dbg d q S1 K
    return (S2, b1 && b2)
  | .decl x, S, _ => .ok (upd S x Ivl.unassigned, true)
  | .letF x f args, S, _ => do
    let R ← f.ivl dbg (args.map S)
    return (upd S x R, le R.lo R.hi)
  | .constrain x y k, S, K =>
    match K[k]? with
    | none => .error .contract
    | some c => do return (upd S x (← Intervals.constrain dbg d y (S y) c), true)
  | .assignPartial x y, S, _ => do return (upd S x (← Ivl.assignPartial (S x) (S y)), true)
  | .assign x y, S, _ => do return (upd S x (← Ivl.assignFree (S x) (S y)), true)
  | .reset x y, S, _ => .ok (upd S x (Ivl.resetFree (S x) (S y)), true)
  | .block p, S, K => runI dbg d p S K
  | .call x p args r, S, _ => do
    let (S1, b) ← runI dbg d p (frame Ivl.unassigned (args.map S)) []
    return (upd S x (S1 r), b)
  | .branch e p q, S, K => do
    let c ← (e.inst d S).build dbg
    let (S1, b1) ← if BoolSet.possibly c.truth then runI dbg d p S (c :: K) else pure (S, true)
    let nc ← Cond.mkNot dbg c
    let (S2, b2) ← if BoolSet.possibly nc.truth then runI dbg d q S1 (nc :: K) else pure (S1, true)
    return (S2, b1 && b2)

/-- The program instantiated with scalars (`assign_partial`, `constrain` of math.hpp:267–273, 283–290; `possibly` of a `bool`). `zero` is `T{ }`. -/
def runS (zero : T) : Prog T → (Nat → T) → List Bool → Outcome (Nat → T)
  | .skip, s, _ => .ok s
  | .seq p q, s, K => do runS zero q (← runS zero p s K) K
  | .decl x, s, _ => .ok (upd s x zero)
  | .letF x f args, s, _ => do return upd s x (← f.pt (args.map s))
  | .constrain x y k, s, K =>
    match K[k]? with
    | none => .error .contract
    | some c => do return upd s x (← Scalar.constrain (s y) c)
  | .assignPartial x y, s, _ => .ok (upd s x (Scalar.assignPartial (s x) (s y)))
  | .assign x y, s, _ => .ok (upd s x (Scalar.assign (s x) (s y)))
  | .reset x y, s, _ => .ok (upd s x (Scalar.reset (s x) (s y)))
  | .block p, s, K => runS zero p s K
  | .call x p args r, s, _ => do return upd s x ((← runS zero p (frame zero (args.map s)) []) r)
  | .branch e p q, s, K => do
    let c := e.eval s
    let s1 ← if c then runS zero p s (c :: K) else pure s
    if !c then runS zero q s1 ((!c) :: K) else pure s1

end run

/-! ## Which programs are well-formed -/

def PTerm.uses (y : Nat) : PTerm T → Bool
  | .var x => y == x
  | .lit _ => false
/-- the condition mentions variable `y` -/
def PCond.uses (y : Nat) : PCond T → Bool
  | .cmp _ l r => l.uses y || r.uses y
  | .and e f | .or e f => e.uses y || f.uses y
  | .not e => e.uses y
/-- `e` (`pol = true`) or `!e` (`pol = false`) is a disjunction -/
def PCond.isOr : PCond T → Bool → Bool
  | .cmp _ _ _, _ => false
  | .and _ _, pol => !pol
  | .or _ _, pol => pol
  | .not e, pol => e.isOr (!pol)
/-- `e` or `!e` mentions variable `y` outside of disjunctions that are operands of a conjunction; the library ignores those -/
def PCond.seenUses (y : Nat) : PCond T → Bool → Bool
  | .cmp _ l r, _ => l.uses y || r.uses y
  | .and e f, pol => (!(pol && e.isOr pol) && e.seenUses y pol) || (!(pol && f.isOr pol) && f.seenUses y pol)
  | .or e f, pol => (!(!pol && e.isOr pol) && e.seenUses y pol) || (!(!pol && f.isOr pol) && f.seenUses y pol)
  | .not e, pol => e.seenUses y (!pol)
/-- in `e` or `!e`, both sides of every disjunction mention `y`, disjunctions below a conjunction excepted -/
def PCond.disjUses (y : Nat) : PCond T → Bool → Bool
  | .cmp _ _ _, _ => true
  | .and e f, pol => pol || (e.seenUses y pol && f.seenUses y pol && (e.disjUses y pol && f.disjUses y pol))
  | .or e f, pol => !pol || (e.seenUses y pol && f.seenUses y pol && (e.disjUses y pol && f.disjUses y pol))
  | .not e, pol => e.disjUses y (!pol)

section
variable [CppVal T]
/-- every variable is in `D`, no literal is a NaN -/
def PTerm.ok (D : List Nat) : PTerm T → Bool
  | .var x => D.contains x
  | .lit v => le v v
def PCond.ok (D : List Nat) : PCond T → Bool
  | .cmp _ l r => l.ok D && r.ok D
  | .and e f | .or e f => e.ok D && f.ok D
  | .not e => e.ok D
end

/-- Static context: the variables in scope, those certainly assigned, the enclosing conditions (with `false`: the negation is at hand), the variables declared
outside the innermost branch. -/
structure Ctx (T : Type) where
  scope : List Nat
  asgd : List Nat
  conds : List (PCond T × Bool)
  outer : List Nat

/-- the context of the body of a function with parameters `ins` -/
def Ctx.start (ins : List Nat) : Ctx T := ⟨ins, ins, [], []⟩

/-- declares a fresh, certainly assigned variable -/
def Ctx.bind (Γ : Ctx T) (x : Nat) : Ctx T := { Γ with scope := x :: Γ.scope, asgd := x :: Γ.asgd }

/-- The rules of interval-aware programming.  Only assigned variables are read; a new variable is fresh; a variable is not assigned to while a condition
about it is at hand; a variable is constrained with a condition that mentions it (in both sides of every disjunction that is not below a conjunction); only a variable declared in the same
branch is overwritten (`reset`).  After a branch, a variable is assigned if it was before or if both branches assign it. -/
def Prog.check [CppVal T] : Prog T → Ctx T → Option (Ctx T)
  | .skip, Γ => some Γ
  | .seq p q, Γ => (p.check Γ).bind q.check
  | .decl x, Γ => if Γ.scope.contains x then none else some { Γ with scope := x :: Γ.scope }
  | .letF x f args, Γ => if !Γ.scope.contains x && args.all Γ.asgd.contains && args.length == f.arity then some (Γ.bind x) else none
  | .constrain x y k, Γ =>
    match Γ.conds[k]? with
    | none => none
    | some (e, pol) => if !Γ.scope.contains x && Γ.asgd.contains y && e.seenUses y pol && e.disjUses y pol then some (Γ.bind x) else none
  | .assignPartial x y, Γ =>
    if Γ.scope.contains x && Γ.asgd.contains y && Γ.conds.all (fun c => !c.1.uses x) then some { Γ with asgd := x :: Γ.asgd } else none
  | .assign x y, Γ =>
    if Γ.scope.contains x && Γ.asgd.contains y && Γ.conds.all (fun c => !c.1.uses x) then some { Γ with asgd := x :: Γ.asgd } else none
  | .reset x y, Γ =>
    if Γ.scope.contains x && Γ.asgd.contains y && !Γ.outer.contains x then some { Γ with asgd := x :: Γ.asgd } else none
  | .block p, Γ => (p.check Γ).bind fun Γp => some { Γ with asgd := Γ.asgd ++ Γ.scope.filter Γp.asgd.contains }
  | .call x p args r, Γ =>
    (p.check (Ctx.start (List.range args.length))).bind fun Γp =>
    if !Γ.scope.contains x && args.all Γ.asgd.contains && Γp.asgd.contains r then some (Γ.bind x) else none
  | .branch e p q, Γ =>
    if e.ok Γ.asgd then
      (p.check { Γ with conds := (e, true) :: Γ.conds, outer := Γ.scope }).bind fun Γp =>
      (q.check { Γ with conds := (e, false) :: Γ.conds, outer := Γ.scope }).bind fun Γq =>
      some { Γ with asgd := Γ.asgd ++ Γ.scope.filter (fun x => Γp.asgd.contains x && Γq.asgd.contains x) }
    else none

/-- the scalar function's value at points of the arguments lies in the interval function's result, whenever that is assigned and NaN-free -/
def Fn.Encl [CppVal T] (f : Fn T) : Prop := ∀ dbg Xs vs R, Xs.length = f.arity → List.Forall₂ (fun v X => v ∈ᵢ X) vs Xs → f.ivl dbg Xs = .ok R → Proper R →
  ∃ v, f.pt vs = .ok v ∧ v ∈ᵢ R
/-- the interval function returns an assigned, NaN-free interval for all such arguments -/
def Fn.Total [CppVal T] (f : Fn T) : Prop := ∀ dbg Xs, Xs.length = f.arity → (∀ X ∈ Xs, Proper X) → ∃ R, f.ivl dbg Xs = .ok R ∧ Proper R

/-- the interval function is inclusion isotone: of two lists of arguments, one within the other, the results lie within each other -/
def Fn.Iso [CppVal T] (f : Fn T) : Prop := ∀ dbg Xs Ys R Q, Xs.length = f.arity → List.Forall₂ (fun X Y => ∀ v, v ∈ᵢ X → v ∈ᵢ Y) Xs Ys →
  (∀ X ∈ Xs, Proper X) → f.ivl dbg Xs = .ok R → f.ivl dbg Ys = .ok Q → Proper R → Proper Q → ∀ v, v ∈ᵢ R → v ∈ᵢ Q

/-- moreover, the interval function is defined for the narrower arguments if it is for the wider ones -/
def Fn.IsoDef [CppVal T] (f : Fn T) : Prop := ∀ dbg Xs Ys Q, Xs.length = f.arity → List.Forall₂ (fun X Y => ∀ v, v ∈ᵢ X → v ∈ᵢ Y) Xs Ys →
  (∀ X ∈ Xs, Proper X) → f.ivl dbg Ys = .ok Q → Proper Q → ∃ R, f.ivl dbg Xs = .ok R ∧ Proper R ∧ ∀ v, v ∈ᵢ R → v ∈ᵢ Q

/-- a predicate of all functions called in the program -/
def Prog.AllFn (P : Fn T → Prop) : Prog T → Prop
  | .seq p q => p.AllFn P ∧ q.AllFn P
  | .letF _ f _ => P f
  | .branch _ p q => p.AllFn P ∧ q.AllFn P
  | .block p => p.AllFn P
  | .call _ p _ _ => p.AllFn P
  | _ => True

/-- a (negated) comparison of two different things -/
def PCond.single : PCond T → Bool
  | .cmp _ (.var x) (.var y) => x != y
  | .cmp _ _ _ => true
  | .not e => e.single
  | _ => false
/-- all branch conditions are single comparisons -/
def Prog.Single : Prog T → Prop
  | .seq p q => p.Single ∧ q.Single
  | .branch e p q => e.single = true ∧ p.Single ∧ q.Single
  | .block p => p.Single
  | .call _ p _ _ => p.Single
  | _ => True
/-- `assign`, which fails if its left-hand side is assigned, is not used -/
def Prog.NoAssign : Prog T → Prop
  | .assign _ _ => False
  | .seq p q => p.NoAssign ∧ q.NoAssign
  | .branch _ p q => p.NoAssign ∧ q.NoAssign
  | .block p => p.NoAssign
  | .call _ p _ _ => p.NoAssign
  | _ => True

/-- `for (int i = 0; i < n; ++i) { p(i) }` -/
def forLoop (p : Nat → Prog T) : Nat → Prog T
  | 0 => .skip
  | n + 1 => .seq (forLoop p n) (.block (p n))

/-- a function that fails -/
def abortFn : Fn T := ⟨0, fun _ _ => .error .contract, fun _ => .error .contract⟩
/-- The recursive function `T g(…) { body(g) return vr; }`, unfolded `n` times; deeper calls fail.  A terminating run does not notice a sufficiently large `n`. -/
def unfold (body : Prog T → Prog T) (r : Nat) : Nat → Prog T
  | 0 => .letF r abortFn []
  | n + 1 => body (unfold body r n)

end Intervals.Spec
