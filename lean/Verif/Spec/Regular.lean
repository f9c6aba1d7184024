import Verif.Model.Regular
/-!
# Specification vocabulary for `as_regular`: variables with values
-/
namespace Intervals.Regular

/-- an assignment statement -/
inductive Stmt where
  | copy (a b : Nat)  -- a = b
  | move (a b : Nat)  -- a = std::move(b)

variable {V : Type _}
/-- what the statement means for variables that simply hold values -/
def Stmt.meaning (moved : V → V) (env : Nat → V) : Stmt → Nat → V
  | .copy a b => fun n => if n = a then env b else env n
  | .move a b => fun n => if n = a then env b else if n = b then moved (env b) else env n
/-- the statement run on the model -/
def Stmt.run (t : Ty V) (m : Mem V) : Stmt → Res V
  | .copy a b => copyAssign t m a b
  | .move a b => moveAssign t m a b
def Stmt.selfMove : Stmt → Prop
  | .copy _ _ => False
  | .move a b => a = b
def runAll (t : Ty V) : List Stmt → Mem V → Res V
  | [], m => .ret m
  | s :: ss, m => match s.run t m with
    | .ret m' => runAll t ss m'
    | r => r
/-- the objects `0, …, n-1` are alive and hold the values of `env`; nothing else is alive -/
def Holds (n : Nat) (env : Nat → V) (m : Mem V) : Prop := (∀ k, m (.obj k) = if k < n then some (env k) else none) ∧ m .tmp = none
def Stmt.within (n : Nat) : Stmt → Prop
  | .copy a b => a < n ∧ b < n
  | .move a b => a < n ∧ b < n
/-- copying the source throws -/
def Stmt.Throws (t : Ty V) (env : Nat → V) : Stmt → Prop
  | .copy _ b => t.copyThrows (env b) = true
  | .move _ _ => False
/-- moving the value throws, inside a function that is `noexcept` -/
def Stmt.Terminates (t : Ty V) (env : Nat → V) : Stmt → Prop
  | .copy _ b => t.moveThrows (env b) = true
  | .move _ b => t.moveThrows (env b) = true
instance (t : Ty V) (env : Nat → V) (s : Stmt) : Decidable (s.Throws t env) := by cases s <;> unfold Stmt.Throws <;> infer_instance
instance (t : Ty V) (env : Nat → V) (s : Stmt) : Decidable (s.Terminates t env) := by cases s <;> unfold Stmt.Terminates <;> infer_instance
instance (s : Stmt) : Decidable s.selfMove := by cases s <;> unfold Stmt.selfMove <;> infer_instance
/-- how a sequence of assignments to variables ends -/
inductive Hist (V : Type _) where
  | done (env : Nat → V)
  | threw (env : Nat → V)
  | terminated
  | selfMoved
/-- the sequence up to the first statement that throws, terminates, or moves a variable onto itself -/
def history (t : Ty V) (env : Nat → V) : List Stmt → Hist V
  | [] => .done env
  | s :: ss =>
    if s.Throws t env then .threw env
    else if s.selfMove then .selfMoved
    else if s.Terminates t env then .terminated
    else history t (s.meaning t.moved env) ss
end Intervals.Regular
