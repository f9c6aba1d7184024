/-!
# `as_regular<T>` (include/intervals/utility.hpp:12–64)

Memory is a function from locations to slots; a slot holds a live object of type `T` or raw storage.  Each `as_regular<T>` object is one slot
(its `value_`, utility.hpp:16); `tmp` is the local variable `copy` of the copy assignment.  Using an object whose lifetime has not begun
or has ended is undefined behaviour.
-/
namespace Intervals.Regular

/-- What is assumed of `T`: a copy or a move construction yields the value of the source or throws; a move leaves the source in the state
`moved v`.  A move construction out of a live object. -/
structure Ty (V : Type _) where
  copyThrows : V → Bool
  moveThrows : V → Bool
  moved : V → V

inductive Loc where
  | obj (n : Nat)
  | tmp
  deriving DecidableEq

/-- a slot: `none` is raw storage -/
abbrev Mem (V : Type _) := Loc → Option V
def Mem.set {V : Type _} (m : Mem V) (l : Loc) (s : Option V) : Mem V := fun k => if k = l then s else m k

/-- how a call ends: normally, by an exception that leaves the memory in the given state, by `std::terminate`, or with undefined behaviour -/
inductive Res (V : Type _) where
  | ret (m : Mem V)
  | threw (m : Mem V)
  | terminated
  | ub

variable {V : Type _}

/-- `_construct_inplace(T& rhs) noexcept` (utility.hpp:18–23): destroy `value_`, then move-construct it from `rhs`. -/
def constructInplace (t : Ty V) (m : Mem V) (self rhs : Loc) : Res V :=
  match m self with
  | none => .ub
  | some _ =>
    let m1 := m.set self none
    match m1 rhs with
    | none => .ub
    | some v => if t.moveThrows v then .terminated else .ret ((m1.set rhs (some (t.moved v))).set self (some v))

/-- `operator =(as_regular const&)` (utility.hpp:35–41); the destructor of `copy` runs on return. -/
def copyAssign (t : Ty V) (m : Mem V) (self rhs : Nat) : Res V :=
  match m (.obj rhs) with
  | none => .ub
  | some v =>
    if t.copyThrows v then .threw m
    else
      match constructInplace t (m.set .tmp (some v)) (.obj self) .tmp with
      | .ret m' => .ret (m'.set .tmp none)
      | r => r

/-- `operator =(as_regular&&) noexcept` (utility.hpp:42–47). -/
def moveAssign (t : Ty V) (m : Mem V) (self rhs : Nat) : Res V := constructInplace t m (.obj self) (.obj rhs)

/-- `operator ()()` (utility.hpp:49–63): the value. -/
def call (m : Mem V) (self : Nat) : Option V := m (.obj self)
end Intervals.Regular
