import Verif.Model.CSet
import Verif.Model.Interval
/-!
# Stream output (include/intervals/set.hpp:228–251, include/intervals/interval.hpp:646–661)

A stream is the list of characters written to it.  `shw` is `stream << value` for the element type; formatting flags, widths and stream
errors are not modelled.
-/
namespace Intervals
open CppVal

/-- The loop of `operator <<` for sets (set.hpp:234–248), from index `i` on.  The C++ condition is `i != n`; `i` starts at 0 and is
incremented by 1, so `i < n` is the same. -/
def streamSetLoop {V : Type _} [DecidableEq V] {vals : List V} (shw : V → List Char) (x : CSet vals) (i : Nat) (first : Bool) (stream : List Char) :
    Outcome (List Char) :=
  if h : i < vals.length then
    match CSet.containsIndex x i with
    | .error e => .error e
    | .ok false => streamSetLoop shw x (i + 1) first stream
    | .ok true =>
      let stream := if first then stream else stream ++ [','] ++ [' ']
      streamSetLoop shw x (i + 1) false (stream ++ shw vals[i])
  else .ok stream
termination_by vals.length - i

/-- `operator <<` for sets (set.hpp:228–251). -/
def streamSet {V : Type _} [DecidableEq V] {vals : List V} (shw : V → List Char) (stream : List Char) (x : CSet vals) : Outcome (List Char) := do
  let stream ← streamSetLoop shw x 0 true (stream ++ ['{'] ++ [' '])
  return stream ++ [' '] ++ ['}']

/-- `operator <<` for intervals (interval.hpp:646–661). -/
def streamIvl {T : Type _} [CppVal T] (dbg : Bool) (shw : T → List Char) (stream : List Char) (x : Ivl T) : Outcome (List Char) := do
  expectsDebug dbg x.assigned
  if eq x.lo x.hi then return stream ++ shw x.lo
  else return stream ++ ['['] ++ shw x.lo ++ [',', ' '] ++ shw x.hi ++ [']']
end Intervals
