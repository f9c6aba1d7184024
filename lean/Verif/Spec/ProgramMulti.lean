import Verif.Spec.Program
import Verif.Model.ConstraintMulti
import Verif.Spec.Set
/-!
# Interval-aware programs over several value types

The programs of Spec/Program.lean, with variables of different types.  `σ` names the value types of intervals, `Ty s` is the type named `s`, a variable `(.ivl s, n)` has type
`Ty s` (or `interval<Ty s>`); `disc s`: the type is integral or an iterator.  `κ` names enumerations (and `bool`), `vals k` are the values of the enumeration named `k`, a variable
`(.set k, n)` is an enumerator (or a `set<...>` of them).

    auto x = T{ };                       decl x                   (`set<E> x;`)
    auto x = f(y, z);                    letF x f [y, z]          (`f` has a signature)
    auto x = constrain(y, c);            constrain s x y k        (`c`: the k-th enclosing branch condition, innermost first)
    assign_partial(x, y);                assignPartial s x y
    assign(x, y);                        assign s x y
    reset(x, y);                         reset s x y
    { p }                                block p
    auto x = g(y, z);                    call x p [y, z] r        (where `R g(S v0, T v1) { p return vr; }`)
    auto c = e;                          branch e p q
    if (possibly(c)) { p }               (inside `q`, the condition at hand is `!c`)
    if (possibly(!c)) { q }
    for (auto v : enumerate(f(y, z))) p(v)     each f [y, z] p    (`v` is a scalar: a number, an enumerator, a `bool`)
-/
namespace Intervals.Spec
open Intervals CppVal

/-- the type of a variable: an interval, or a set of enumerators -/
inductive VSort (σ κ : Type) where
  | ivl (s : σ)
  | set (k : κ)
  deriving DecidableEq
/-- is it a set? -/
def VSort.isSet {σ κ : Type} : VSort σ κ → Bool
  | .ivl _ => false
  | .set _ => true
/-- a variable -/
abbrev MVar (σ κ : Type) := VSort σ κ × Nat

variable {σ κ : Type} {Ty : σ → Type} {En : κ → Type} {vals : (k : κ) → List (En k)}

/-- the type of a variable in the program for scalars -/
@[reducible] def Sc (Ty : σ → Type) (En : κ → Type) : VSort σ κ → Type
  | .ivl s => Ty s
  | .set k => En k
/-- the type of a variable in the program for intervals -/
@[reducible] def Dm (Ty : σ → Type) {En : κ → Type} (vals : (k : κ) → List (En k)) : VSort σ κ → Type
  | .ivl s => Ivl (Ty s)
  | .set k => CSet (vals k)

section
variable [∀ s, CppVal (Ty s)]
/-- a point of the interval, a member of the set -/
def DMem [∀ k, DecidableEq (En k)] : {t : VSort σ κ} → Sc Ty En t → Dm Ty vals t → Prop
  | .ivl _, v, X => v ∈ᵢ X
  | .set _, v, X => SMem v X
/-- an assigned, NaN-free interval, a set that is not empty -/
def Dm.proper : {t : VSort σ κ} → Dm Ty vals t → Bool
  | .ivl _, X => le X.lo X.hi
  | .set _, X => CSet.assigned X
/-- likewise -/
abbrev DProper {t : VSort σ κ} (X : Dm Ty vals t) : Prop := Dm.proper X = true
/-- default-constructed -/
def Dm.unassigned [∀ s, CppLimits (Ty s)] : (t : VSort σ κ) → Dm Ty vals t
  | .ivl _ => Ivl.unassigned
  | .set k => CSet.empty (vals k)
/-- `assign_partial(x, y)` -/
def Dm.assignPartial (dbg : Bool) : {t : VSort σ κ} → Dm Ty vals t → Dm Ty vals t → Outcome (Dm Ty vals t)
  | .ivl _, X, Y => Ivl.assignPartial X Y
  | .set _, X, Y => CSet.assignPartial dbg X Y
/-- `assign(x, y)` -/
def Dm.assignFree : {t : VSort σ κ} → Dm Ty vals t → Dm Ty vals t → Outcome (Dm Ty vals t)
  | .ivl _, X, Y => Ivl.assignFree X Y
  | .set _, X, Y => .ok (CSet.assignFree X Y)
/-- `reset(x, y)` -/
def Dm.resetFree : {t : VSort σ κ} → Dm Ty vals t → Dm Ty vals t → Dm Ty vals t
  | .ivl _, X, Y => Ivl.resetFree X Y
  | .set _, X, Y => CSet.resetFree X Y
end
@[inherit_doc] scoped infix:50 " ∈ₘ " => DMem

/-- a predicate with its signature: its overload for intervals, which returns the set of possible truth values, and its overload for scalars -/
structure MPred (Ty : σ → Type) {En : κ → Type} (vals : (k : κ) → List (En k)) where
  arity : Nat
  sig : Fin arity → VSort σ κ
  ivl : Bool → ((i : Fin arity) → Dm Ty vals (sig i)) → Outcome BoolSet
  pt : ((i : Fin arity) → Sc Ty En (sig i)) → Bool

/-- a branch condition: calls of predicates (`isfinite(x)`) and comparisons of operands of one type each, combined -/
inductive MCond (Ty : σ → Type) {En : κ → Type} (vals : (k : κ) → List (En k)) where
  | pred (f : MPred Ty vals) (args : Fin f.arity → Nat)
  | cmp (s : σ) (op : CmpOp) (l r : PTerm (Ty s))
  | and (e f : MCond Ty vals)
  | or (e f : MCond Ty vals)
  | not (e : MCond Ty vals)

/-- a function with its signature: its overload for intervals and its overload for scalars -/
structure MFn (Ty : σ → Type) {En : κ → Type} (vals : (k : κ) → List (En k)) where
  arity : Nat
  sig : Fin arity → VSort σ κ
  res : VSort σ κ
  ivl : Bool → ((i : Fin arity) → Dm Ty vals (sig i)) → Outcome (Dm Ty vals res)
  pt : ((i : Fin arity) → Sc Ty En (sig i)) → Outcome (Sc Ty En res)

/-- a function whose results are enumerated: the values that `for (auto v : enumerate(f(x, y)))` visits for intervals `x`, `y`, in order, and the value `f(x, y)` for scalars -/
structure Each (Ty : σ → Type) {En : κ → Type} (vals : (k : κ) → List (En k)) where
  arity : Nat
  sig : Fin arity → VSort σ κ
  V : Type
  visit : Bool → ((i : Fin arity) → Dm Ty vals (sig i)) → Outcome (List V)
  pt : ((i : Fin arity) → Sc Ty En (sig i)) → Outcome V

inductive MProg (Ty : σ → Type) {En : κ → Type} (vals : (k : κ) → List (En k)) : Type 1 where
  | skip
  | seq (p q : MProg Ty vals)
  | decl (x : MVar σ κ)
  | letF (x : Nat) (f : MFn Ty vals) (args : Fin f.arity → Nat)
  | constrain (s : σ) (x y k : Nat)
  | assignPartial (t : VSort σ κ) (x y : Nat)
  | assign (t : VSort σ κ) (x y : Nat)
  | reset (t : VSort σ κ) (x y : Nat)
  | block (p : MProg Ty vals)
  | call (x : Nat) (p : MProg Ty vals) (args : List (MVar σ κ)) (r : MVar σ κ)
  | branch (e : MCond Ty vals) (p q : MProg Ty vals)
  | each (f : Each Ty vals) (args : Fin f.arity → Nat) (body : f.V → MProg Ty vals)

/-- the values of the variables -/
abbrev Env (A : σ → Type) := (x : σ × Nat) → A x.1
/-- the variables that are intervals -/
abbrev Env.ivls (S : Env (Dm Ty vals)) : Env fun s => Ivl (Ty s) := fun y => S (.ivl y.1, y.2)
/-- their values in the program for scalars -/
abbrev Env.pts (s : Env (Sc Ty En)) : Env Ty := fun y => s (.ivl y.1, y.2)
/-- the variables of one type -/
abbrev Env.on {A : σ → Type} (S : Env A) (s : σ) : Nat → A s := fun n => S (s, n)

section
variable [DecidableEq σ] {A : σ → Type}
/-- variable update -/
def mupd (S : Env A) (x : σ × Nat) (v : A x.1) : Env A := fun y => if h : x = y then h ▸ v else S y
/-- the variables of a function at the start of a call: parameter `i` is number `i` of its type -/
def mframe (dflt : (s : σ) → A s) (S : Env A) (args : List (σ × Nat)) : Env A := fun y =>
  match args[y.2]? with
  | some a => if h : a.1 = y.1 then h ▸ S a else dflt y.1
  | none => dflt y.1
end
/-- the parameters of such a function -/
def params (args : List (σ × Nat)) : List (σ × Nat) := args.mapIdx fun i a => (a.1, i)

/-- runs the loop body for each value; the flags (see `runI`) are conjoined -/
def loopM {V A : Type _} (f : V → A → Outcome (A × Bool)) : List V → A → Outcome (A × Bool)
  | [], a => .ok (a, true)
  | v :: vs, a => do
    let (a1, b1) ← f v a
    let (a2, b2) ← loopM f vs a1
    return (a2, b1 && b2)

section run
variable [∀ s, CppVal (Ty s)]

/-- running the library's operators on the condition -/
def MCond.build (dbg : Bool) (disc : σ → Bool) (S : Env (Dm Ty vals)) : MCond Ty vals → Outcome (HCond Ty)
  | .pred f args => do return .plain (← f.ivl dbg (fun i => S (f.sig i, args i)))
  | .cmp s op l r => do return .cmp s (← buildCmp dbg op (l.inst (disc s) (S.ivls.on s)) (r.inst (disc s) (S.ivls.on s)))
  | .and e f => do return HCond.mkAnd (← e.build dbg disc S) (← f.build dbg disc S)
  | .or e f => do return HCond.mkOr (← e.build dbg disc S) (← f.build dbg disc S)
  | .not e => do HCond.mkNot dbg (← e.build dbg disc S)

/-- the condition on scalars -/
def MCond.eval (s : Env (Sc Ty En)) : MCond Ty vals → Bool
  | .pred f args => f.pt (fun i => s (f.sig i, args i))
  | .cmp t op l r => op.eval (l.eval (s.pts.on t)) (r.eval (s.pts.on t))
  | .and e f => e.eval s && f.eval s
  | .or e f => e.eval s || f.eval s
  | .not e => !e.eval s

variable [DecidableEq σ] [DecidableEq κ]

/-- The program instantiated with intervals; as `runI` of Spec/Program.lean. -/
def runMI [∀ s, CppLimits (Ty s)] [∀ s, CppStep (Ty s)] (dbg : Bool) (disc : σ → Bool) : MProg Ty vals → Env (Dm Ty vals) → List (HCond Ty) →
    Outcome (Env (Dm Ty vals) × Bool)
  | .skip, S, _ => .ok (S, true)
  | .seq p q, S, K => do
    let (S1, b1) ← runMI dbg disc p S K
    let (S2, b2) ← runMI dbg disc q S1 K
    return (S2, b1 && b2)
  | .decl x, S, _ => .ok (mupd S x (Dm.unassigned x.1), true)
  | .letF x f args, S, _ => do
    let R ← f.ivl dbg (fun i => S (f.sig i, args i))
    return (mupd S (f.res, x) R, Dm.proper R)
  | .constrain s x y k, S, K =>
    match K[k]? with
    | none => .error .contract
    | some c => do return (mupd S (.ivl s, x) (← constrainH dbg (disc s) s y (S (.ivl s, y)) c), true)
  | .assignPartial t x y, S, _ => do return (mupd S (t, x) (← Dm.assignPartial dbg (S (t, x)) (S (t, y))), true)
  | .assign t x y, S, _ => do return (mupd S (t, x) (← Dm.assignFree (S (t, x)) (S (t, y))), true)
  | .reset t x y, S, _ => .ok (mupd S (t, x) (Dm.resetFree (S (t, x)) (S (t, y))), true)
  | .block p, S, K => runMI dbg disc p S K
  | .call x p args r, S, _ => do
    let (S1, b) ← runMI dbg disc p (mframe Dm.unassigned S args) []
    return (mupd S (r.1, x) (S1 r), b)
  | .branch e p q, S, K => do
    let c ← e.build dbg disc S
    let (S1, b1) ← if BoolSet.possibly c.truth then runMI dbg disc p S (c :: K) else pure (S, true)
    let nc ← HCond.mkNot dbg c
    let (S2, b2) ← if BoolSet.possibly nc.truth then runMI dbg disc q S1 (nc :: K) else pure (S1, true)
    return (S2, b1 && b2)
  | .each f args body, S, K => do
    let vs ← f.visit dbg (fun i => S (f.sig i, args i))
    loopM (fun v S => runMI dbg disc (body v) S K) vs S

/-- The program instantiated with scalars; `zero s` is `T{ }`; `enumerate` of a scalar visits it (C53). -/
def runMS (zero : (t : VSort σ κ) → Sc Ty En t) : MProg Ty vals → Env (Sc Ty En) → List Bool → Outcome (Env (Sc Ty En))
  | .skip, s, _ => .ok s
  | .seq p q, s, K => do runMS zero q (← runMS zero p s K) K
  | .decl x, s, _ => .ok (mupd s x (zero x.1))
  | .letF x f args, s, _ => do return mupd s (f.res, x) (← f.pt (fun i => s (f.sig i, args i)))
  | .constrain t x y k, s, K =>
    match K[k]? with
    | none => .error .contract
    | some c => do return mupd s (.ivl t, x) (← Scalar.constrain (s (.ivl t, y)) c)
  | .assignPartial t x y, s, _ => .ok (mupd s (t, x) (Scalar.assignPartial (s (t, x)) (s (t, y))))
  | .assign t x y, s, _ => .ok (mupd s (t, x) (Scalar.assign (s (t, x)) (s (t, y))))
  | .reset t x y, s, _ => .ok (mupd s (t, x) (Scalar.reset (s (t, x)) (s (t, y))))
  | .block p, s, K => runMS zero p s K
  | .call x p args r, s, _ => do return mupd s (r.1, x) ((← runMS zero p (mframe zero s args) []) r)
  | .branch e p q, s, K => do
    let c := e.eval s
    let s1 ← if c then runMS zero p s (c :: K) else pure s
    if !c then runMS zero q s1 ((!c) :: K) else pure s1
  | .each f args body, s, K => do runMS zero (body (← f.pt (fun i => s (f.sig i, args i)))) s K

end run

/-! ## Which programs are well-formed -/

section
variable [DecidableEq σ] [DecidableEq κ]
/-- the condition mentions variable `y` -/
def MCond.uses (y : MVar σ κ) : MCond Ty vals → Bool
  | .pred f args => decide (∃ i, (f.sig i, args i) = y)
  | .cmp s _ l r => decide (.ivl s = y.1) && (l.uses y.2 || r.uses y.2)
  | .and e f | .or e f => e.uses y || f.uses y
  | .not e => e.uses y

/-- what the type of a condition object tells: a set of truth values, a comparison with its operands, a conjunction, a disjunction -/
inductive Skel (Ty : σ → Type) where
  | plain
  | cmp (s : σ) (l r : PTerm (Ty s))
  | conj (k m : Skel Ty)
  | disj (k m : Skel Ty)
/-- more than a set of truth values -/
def Skel.isCond : Skel Ty → Bool
  | .plain => false
  | _ => true
def Skel.isDisj : Skel Ty → Bool
  | .disj _ _ => true
  | _ => false
/-- the type of `k & m` -/
def Skel.and (k m : Skel Ty) : Skel Ty := if k.isCond || m.isCond then .conj k m else .plain
/-- the type of `k | m` -/
def Skel.or (k m : Skel Ty) : Skel Ty := if k.isCond || m.isCond then .disj k m else .plain
/-- the type of `!k`: just a set of truth values if one operand is one -/
def Skel.neg : Skel Ty → Skel Ty
  | .plain => .plain
  | .cmp s l r => .cmp s l r
  | .conj k m => if k.isCond && m.isCond then .disj k.neg m.neg else .plain
  | .disj k m => if k.isCond && m.isCond then .conj k.neg m.neg else .plain
/-- the type of the condition object -/
def MCond.skel : MCond Ty vals → Skel Ty
  | .pred _ _ => .plain
  | .cmp s _ l r => .cmp s l r
  | .and e f => e.skel.and f.skel
  | .or e f => e.skel.or f.skel
  | .not e => e.skel.neg
/-- the type of `e` (`pol = true`) or `!e` (`pol = false`) -/
def MCond.skelP (e : MCond Ty vals) (pol : Bool) : Skel Ty := if pol then e.skel else e.skel.neg
/-- mentions variable `y` in a comparison, outside of disjunctions that are operands of a conjunction; the library ignores those -/
def Skel.seenUses (y : σ × Nat) : Skel Ty → Bool
  | .plain => false
  | .cmp s l r => decide (s = y.1) && (l.uses y.2 || r.uses y.2)
  | .conj k m => (!k.isDisj && k.seenUses y) || (!m.isDisj && m.seenUses y)
  | .disj k m => k.seenUses y || m.seenUses y
/-- both sides of every disjunction mention `y`, disjunctions below a conjunction excepted -/
def Skel.disjUses (y : σ × Nat) : Skel Ty → Bool
  | .disj k m => k.seenUses y && m.seenUses y && (k.disjUses y && m.disjUses y)
  | _ => true
/-- `e` or `!e` mentions variable `y` outside of disjunctions that are operands of a conjunction -/
def MCond.seenUses (y : σ × Nat) (e : MCond Ty vals) (pol : Bool) : Bool := (e.skelP pol).seenUses y
/-- in `e` or `!e`, both sides of every disjunction mention `y`, disjunctions below a conjunction excepted -/
def MCond.disjUses (y : σ × Nat) (e : MCond Ty vals) (pol : Bool) : Bool := (e.skelP pol).disjUses y

/-- for assigned, NaN-free arguments the predicate returns; it encloses the scalar predicate's values, of which there are some; it has
all truth values that it has for narrower arguments -/
structure MPred.Lawful [∀ s, CppVal (Ty s)] [∀ k, DecidableEq (En k)] (f : MPred Ty vals) : Prop where
  total : ∀ dbg Xs, (∀ i, DProper (Xs i)) → ∃ b, f.ivl dbg Xs = .ok b ∧ b ≠ BoolSet.empty
  encl : ∀ dbg Xs vs b, (∀ i, vs i ∈ₘ Xs i) → f.ivl dbg Xs = .ok b → BoolSet.contains b (f.pt vs) = true
  iso : ∀ dbg Xs Ys b c, (∀ i, DProper (Xs i)) → (∀ i v, v ∈ₘ Xs i → v ∈ₘ Ys i) → f.ivl dbg Xs = .ok b → f.ivl dbg Ys = .ok c →
    ∀ v, BoolSet.contains b v = true → BoolSet.contains c v = true

/-- every variable is in `D`, no literal is a NaN, the predicates are lawful -/
def MCond.ok [∀ s, CppVal (Ty s)] [∀ k, DecidableEq (En k)] (D : List (MVar σ κ)) : MCond Ty vals → Prop
  | .pred f args => f.Lawful ∧ ∀ i, (f.sig i, args i) ∈ D
  | .cmp _ _ l r => term l ∧ term r
  | .and e f | .or e f => e.ok D ∧ f.ok D
  | .not e => e.ok D
where
  term {s : σ} : PTerm (Ty s) → Prop
    | .var x => (.ivl s, x) ∈ D
    | .lit v => le v v = true
end

/-- Static context, as `Ctx` of Spec/Program.lean. -/
structure MCtx (Ty : σ → Type) {En : κ → Type} (vals : (k : κ) → List (En k)) where
  scope : List (MVar σ κ)
  asgd : List (MVar σ κ)
  conds : List (MCond Ty vals × Bool)
  outer : List (MVar σ κ)

/-- the context of the body of a function with parameters `ins` -/
def MCtx.start (ins : List (MVar σ κ)) : MCtx Ty vals := ⟨ins, ins, [], []⟩
/-- declares a fresh, certainly assigned variable -/
def MCtx.bind (Γ : MCtx Ty vals) (x : MVar σ κ) : MCtx Ty vals := { Γ with scope := x :: Γ.scope, asgd := x :: Γ.asgd }

/-- The rules of interval-aware programming (`Prog.check` of Spec/Program.lean): `Wf p Γ Δ` says that `p` may follow in the context `Γ` and leaves the context `Δ`.  A variable is
certainly assigned after a loop if it was before or if every iteration assigns it; the body must not overwrite (`reset`, for sets also `assign`) variables declared outside of the
loop. -/
def MProg.Wf [DecidableEq σ] [DecidableEq κ] [∀ s, CppVal (Ty s)] [∀ k, DecidableEq (En k)] : MProg Ty vals → MCtx Ty vals → MCtx Ty vals → Prop
  | .skip, Γ, Δ => Δ = Γ
  | .seq p q, Γ, Δ => ∃ Γ1, p.Wf Γ Γ1 ∧ q.Wf Γ1 Δ
  | .decl x, Γ, Δ => x ∉ Γ.scope ∧ Δ = { Γ with scope := x :: Γ.scope }
  | .letF x f args, Γ, Δ => (f.res, x) ∉ Γ.scope ∧ (∀ i, (f.sig i, args i) ∈ Γ.asgd) ∧ Δ = Γ.bind (f.res, x)
  | .constrain s x y k, Γ, Δ => ∃ e pol, Γ.conds[k]? = some (e, pol) ∧ (.ivl s, x) ∉ Γ.scope ∧ (.ivl s, y) ∈ Γ.asgd ∧ e.seenUses (s, y) pol = true ∧
      e.disjUses (s, y) pol = true ∧ Δ = Γ.bind (.ivl s, x)
  | .assignPartial s x y, Γ, Δ => (s, x) ∈ Γ.scope ∧ (s, y) ∈ Γ.asgd ∧ (∀ c ∈ Γ.conds, c.1.uses (s, x) = false) ∧ Δ = { Γ with asgd := (s, x) :: Γ.asgd }
  | .assign s x y, Γ, Δ => (s, x) ∈ Γ.scope ∧ (s, y) ∈ Γ.asgd ∧ (∀ c ∈ Γ.conds, c.1.uses (s, x) = false) ∧ (s.isSet = true → (s, x) ∉ Γ.outer) ∧
      Δ = { Γ with asgd := (s, x) :: Γ.asgd }
  | .reset s x y, Γ, Δ => (s, x) ∈ Γ.scope ∧ (s, y) ∈ Γ.asgd ∧ (s, x) ∉ Γ.outer ∧ Δ = { Γ with asgd := (s, x) :: Γ.asgd }
  | .block p, Γ, Δ => ∃ Γp, p.Wf Γ Γp ∧ Δ = { Γ with asgd := Γ.asgd ++ Γ.scope.filter (· ∈ Γp.asgd) }
  | .call x p args r, Γ, Δ => ∃ Γp, p.Wf (MCtx.start (params args)) Γp ∧ (r.1, x) ∉ Γ.scope ∧ (∀ a ∈ args, a ∈ Γ.asgd) ∧ r ∈ Γp.asgd ∧ Δ = Γ.bind (r.1, x)
  | .branch e p q, Γ, Δ => e.ok Γ.asgd ∧ ∃ Γp Γq, p.Wf { Γ with conds := (e, true) :: Γ.conds, outer := Γ.scope } Γp ∧
      q.Wf { Γ with conds := (e, false) :: Γ.conds, outer := Γ.scope } Γq ∧
      Δ = { Γ with asgd := Γ.asgd ++ Γ.scope.filter (fun x => x ∈ Γp.asgd ∧ x ∈ Γq.asgd) }
  | .each f args body, Γ, Δ => (∀ i, (f.sig i, args i) ∈ Γ.asgd) ∧ ∃ E : List (MVar σ κ), (∀ x ∈ E, x ∈ Γ.scope) ∧
      (∀ v, ∃ Γv, (body v).Wf { Γ with outer := Γ.scope } Γv ∧ ∀ x ∈ E, x ∈ Γv.asgd) ∧ Δ = { Γ with asgd := Γ.asgd ++ E }

section
variable [∀ s, CppVal (Ty s)] [∀ k, DecidableEq (En k)]
/-- the scalar function's value at points of the arguments lies in the interval function's result, whenever that is assigned and NaN-free -/
def MFn.Encl (f : MFn Ty vals) : Prop := ∀ dbg Xs vs R, (∀ i, vs i ∈ₘ Xs i) → f.ivl dbg Xs = .ok R → DProper R → ∃ v, f.pt vs = .ok v ∧ v ∈ₘ R
/-- the interval function returns an assigned, NaN-free interval for all such arguments -/
def MFn.Total (f : MFn Ty vals) : Prop := ∀ dbg Xs, (∀ i, DProper (Xs i)) → ∃ R, f.ivl dbg Xs = .ok R ∧ DProper R
/-- the scalar function's value at points of the arguments is visited -/
def Each.Encl (f : Each Ty vals) : Prop := ∀ dbg Xs vs ws, (∀ i, vs i ∈ₘ Xs i) → f.visit dbg Xs = .ok ws → ∃ v, f.pt vs = .ok v ∧ v ∈ ws
/-- for all assigned, NaN-free arguments the function returns, and some value is visited -/
def Each.Total (f : Each Ty vals) : Prop := ∀ dbg Xs, (∀ i, DProper (Xs i)) → ∃ ws, f.visit dbg Xs = .ok ws ∧ ws ≠ []
/-- the interval function's result for narrower arguments lies within its result for wider ones, if both are assigned and NaN-free -/
def MFn.Iso (f : MFn Ty vals) : Prop := ∀ dbg Xs Ys R Q, (∀ i, DProper (Xs i)) → (∀ i v, v ∈ₘ Xs i → v ∈ₘ Ys i) → f.ivl dbg Xs = .ok R → f.ivl dbg Ys = .ok Q →
  DProper R → DProper Q → ∀ v, v ∈ₘ R → v ∈ₘ Q
/-- moreover, it is defined for the narrower arguments if it is for the wider ones -/
def MFn.IsoDef (f : MFn Ty vals) : Prop := ∀ dbg Xs Ys Q, (∀ i, DProper (Xs i)) → (∀ i v, v ∈ₘ Xs i → v ∈ₘ Ys i) → f.ivl dbg Ys = .ok Q → DProper Q →
  ∃ R, f.ivl dbg Xs = .ok R ∧ DProper R ∧ ∀ v, v ∈ₘ R → v ∈ₘ Q
/-- something is visited; what is visited for narrower arguments is visited for wider ones, in the same order -/
def Each.Iso (f : Each Ty vals) : Prop := ∀ dbg Xs Ys vs ws, (∀ i, DProper (Xs i)) → (∀ i v, v ∈ₘ Xs i → v ∈ₘ Ys i) → f.visit dbg Xs = .ok vs → f.visit dbg Ys = .ok ws →
  vs ≠ [] ∧ vs.Sublist ws
/-- moreover, it is defined for the narrower arguments if it is for the wider ones -/
def Each.IsoDef (f : Each Ty vals) : Prop := ∀ dbg Xs Ys ws, (∀ i, DProper (Xs i)) → (∀ i v, v ∈ₘ Xs i → v ∈ₘ Ys i) → f.visit dbg Ys = .ok ws →
  ∃ vs, f.visit dbg Xs = .ok vs ∧ vs ≠ [] ∧ vs.Sublist ws
end

/-- the enumeration `en` visits exactly the points of an assigned, NaN-free interval -/
def VisitsAll {T : Type} [CppVal T] (en : Ivl T → Outcome (List T)) : Prop := ∀ X, Proper X → ∃ vs, en X = .ok vs ∧ ∀ v, v ∈ vs ↔ v ∈ᵢ X

/-- a predicate of all functions called in the program, a predicate of all functions whose results are enumerated -/
def MProg.All (P : MFn Ty vals → Prop) (Q : Each Ty vals → Prop) : MProg Ty vals → Prop
  | .seq p q => p.All P Q ∧ q.All P Q
  | .letF _ f _ => P f
  | .branch _ p q => p.All P Q ∧ q.All P Q
  | .block p => p.All P Q
  | .call _ p _ _ => p.All P Q
  | .each f _ body => Q f ∧ ∀ v, (body v).All P Q
  | _ => True

/-- a (negated) predicate or comparison of two different things -/
def MCond.single : MCond Ty vals → Bool
  | .pred _ _ => true
  | .cmp _ _ (.var x) (.var y) => x != y
  | .cmp _ _ _ _ => true
  | .not e => e.single
  | _ => false
/-- all branch conditions are single predicates or comparisons; `assign`, which fails if its left-hand side is an assigned interval, is used only for
sets -/
def MProg.Plain : MProg Ty vals → Prop
  | .assign t _ _ => t.isSet = true
  | .seq p q => p.Plain ∧ q.Plain
  | .branch e p q => e.single = true ∧ p.Plain ∧ q.Plain
  | .block p => p.Plain
  | .call _ p _ _ => p.Plain
  | .each _ _ body => ∀ v, (body v).Plain
  | _ => True
/-- all branch conditions are single predicates or comparisons -/
def MProg.Single : MProg Ty vals → Prop
  | .seq p q => p.Single ∧ q.Single
  | .branch e p q => e.single = true ∧ p.Single ∧ q.Single
  | .block p => p.Single
  | .call _ p _ _ => p.Single
  | .each _ _ body => ∀ v, (body v).Single
  | _ => True

end Intervals.Spec
