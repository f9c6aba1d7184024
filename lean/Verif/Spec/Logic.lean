import Verif.Model.BoolSet
/-!
# Specification vocabulary for `set<bool>`

`BMem b S` — `b` is a member of the set `S`, i.e. `S.contains(b)` returns true.
`IsExt2 f A B R` — `R` is exactly the set of values `f a b` with `a` a member of `A` and `b` a member of `B`
(the *set extension* of the README).
-/
namespace Intervals.Spec

/-- membership in a `set<bool>` -/
def BMem (b : Bool) (S : BoolSet) : Prop := S.contains b = true

instance (b : Bool) (S : BoolSet) : Decidable (BMem b S) := inferInstanceAs (Decidable (_ = _))

/-- set extension of a unary Boolean function -/
def IsExt1 (f : Bool → Bool) (A R : BoolSet) : Prop :=
  ∀ r, BMem r R ↔ ∃ a, BMem a A ∧ f a = r

/-- set extension of a binary Boolean function -/
def IsExt2 (f : Bool → Bool → Bool) (A B R : BoolSet) : Prop :=
  ∀ r, BMem r R ↔ ∃ a b, BMem a A ∧ BMem b B ∧ f a b = r

/-- set extension of a binary Boolean function with a plain `bool` on the right -/
def IsExt2R (f : Bool → Bool → Bool) (A : BoolSet) (b : Bool) (R : BoolSet) : Prop :=
  ∀ r, BMem r R ↔ ∃ a, BMem a A ∧ f a b = r

/-- set extension of a binary Boolean function with a plain `bool` on the left -/
def IsExt2L (f : Bool → Bool → Bool) (a : Bool) (B R : BoolSet) : Prop :=
  ∀ r, BMem r R ↔ ∃ b, BMem b B ∧ f a b = r

instance (f A R) : Decidable (IsExt1 f A R) := inferInstanceAs (Decidable (∀ _, _ ↔ _))
instance (f A B R) : Decidable (IsExt2 f A B R) := inferInstanceAs (Decidable (∀ _, _ ↔ _))
instance (f A b R) : Decidable (IsExt2R f A b R) := inferInstanceAs (Decidable (∀ _, _ ↔ _))
instance (f a B R) : Decidable (IsExt2L f a B R) := inferInstanceAs (Decidable (∀ _, _ ↔ _))

/-- the order on `bool` used by the C++ operators: `false < true` -/
def bge (a b : Bool) : Bool := a || !b
def bgt (a b : Bool) : Bool := a && !b

end Intervals.Spec
