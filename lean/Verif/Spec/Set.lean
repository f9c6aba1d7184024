import Verif.Model.Sign
/-!
# Specification vocabulary for `set<T>`
-/
namespace Intervals.Spec
variable {T : Type _} [DecidableEq T] {vals : List T}

/-- `v` is a member of `s`: the query `s.contains(v)` returns true. -/
def SMem (v : T) (s : CSet vals) : Prop := CSet.containsVal s v = .ok true

instance (v : T) (s : CSet vals) : Decidable (SMem v s) := inferInstanceAs (Decidable (_ = _))

/-- One mutating call on a `set<T>`. -/
inductive SetOp (vals : List T) where
  | reset                         -- s.reset()
  | resetTo (r : CSet vals)       -- s.reset(r)
  | assignSet (r : CSet vals)     -- s.assign(r)
  | assignVal (v : T)             -- s.assign(v)

/-- Does the call discard what was there before? -/
def SetOp.clears : SetOp vals → Prop
  | .reset => True
  | .resetTo _ => True
  | .assignSet _ => False
  | .assignVal _ => False

/-- Does the call put `v` into the set? -/
def SetOp.adds (v : T) : SetOp vals → Prop
  | .reset => False
  | .resetTo r => SMem v r
  | .assignSet r => SMem v r
  | .assignVal w => v = w

/-- Calls the documentation allows: values are reflected values; in debug mode an assigned set must not be empty. -/
def SetOp.legal (dbg : Bool) : SetOp vals → Prop
  | .reset => True
  | .resetTo _ => True
  | .assignSet r => dbg = true → ∃ v, SMem v r
  | .assignVal v => v ∈ vals

/-- Running one call, by the model's functions. -/
def SetOp.run (dbg : Bool) (s : CSet vals) : SetOp vals → Outcome (CSet vals)
  | .reset => .ok (CSet.reset s)
  | .resetTo r => .ok (CSet.resetSet s r)
  | .assignSet r => CSet.assignSet dbg s r
  | .assignVal v => CSet.assignVal s v

/-- Running a history of calls. -/
def runSetOps (dbg : Bool) : List (SetOp vals) → CSet vals → Outcome (CSet vals)
  | [], s => .ok s
  | op :: ops, s => do runSetOps dbg ops (← op.run dbg s)

/-- `v` is in the set after `ops` on `s`: some call added it, or it was there from the start, and no later call cleared the set. -/
def InHistory (s : CSet vals) (ops : List (SetOp vals)) (v : T) : Prop :=
  (∃ pre op post, ops = pre ++ op :: post ∧ op.adds v ∧ ∀ o ∈ post, ¬ o.clears) ∨
  (SMem v s ∧ ∀ o ∈ ops, ¬ o.clears)

instance {p : Sign → Prop} [DecidablePred p] : Decidable (∀ s, p s) :=
  decidable_of_iff (p .neg ∧ p .zero ∧ p .pos) ⟨fun ⟨a, b, c⟩ s => by cases s <;> assumption, fun h => ⟨h _, h _, h _⟩⟩
instance {p : Sign → Prop} [DecidablePred p] : Decidable (∃ s, p s) :=
  decidable_of_iff (p .neg ∨ p .zero ∨ p .pos)
    ⟨fun h => by rcases h with h | h | h <;> exact ⟨_, h⟩, fun ⟨s, h⟩ => by cases s <;> simp [h]⟩

/-- set extension of a binary sign function -/
def IsSignExt2 (f : Sign → Sign → Sign) (A B R : SignSet) : Prop :=
  ∀ r, SMem r R ↔ ∃ a b, SMem a A ∧ SMem b B ∧ f a b = r

instance (f A B R) : Decidable (IsSignExt2 f A B R) := inferInstanceAs (Decidable (∀ _, _ ↔ _))

end Intervals.Spec
