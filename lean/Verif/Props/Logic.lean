import Verif.Spec.Logic
/-!
# C01–C04: four-valued logic

Each statement ranges over the complete finite domain of `set<bool>` (4 values) and `bool`; the proofs evaluate the whole table.
-/
namespace Intervals.Props
open Intervals Intervals.Spec BoolSet

/-! ## C01 -/

/-- C01: `!` is the set extension of negation; in debug mode an empty operand is a contract violation, otherwise it never fails. -/
theorem C01_not : ∀ (dbg : Bool) (A : BoolSet),
    (dbg = true → BoolSet.assigned A = true) →
    ∃ R, BoolSet.not dbg A = .ok R ∧ IsExt1 (fun a => !a) A R := by
  have h : ∀ A : BoolSet, IsExt1 (fun a => !a) A (notCore A) := by decide
  intro dbg A hd
  refine ⟨notCore A, ?_, h A⟩
  unfold BoolSet.not
  rw [show expectsDebug dbg (BoolSet.assigned A) = .ok () from expectsDebug_eq_ok.mpr hd]
  rfl

/-- C01: `!` on an empty set is caught in debug mode. -/
theorem C01_not_empty : BoolSet.not true BoolSet.empty = .error .contract := rfl

/-- C01: `&` is the set extension of conjunction. -/
theorem C01_and : ∀ A B : BoolSet, IsExt2 (fun a b => a && b) A B (BoolSet.and A B) := by decide
theorem C01_and_set_bool : ∀ (A : BoolSet) (b : Bool), IsExt2R (fun a b => a && b) A b (BoolSet.andSB A b) := by decide
theorem C01_and_bool_set : ∀ (a : Bool) (B : BoolSet), IsExt2L (fun a b => a && b) a B (BoolSet.andBS a B) := by decide
/-- C01: `|` is the set extension of disjunction. -/
theorem C01_or : ∀ A B : BoolSet, IsExt2 (fun a b => a || b) A B (BoolSet.or A B) := by decide
theorem C01_or_set_bool : ∀ (A : BoolSet) (b : Bool), IsExt2R (fun a b => a || b) A b (BoolSet.orSB A b) := by decide
theorem C01_or_bool_set : ∀ (a : Bool) (B : BoolSet), IsExt2L (fun a b => a || b) a B (BoolSet.orBS a B) := by decide
/-- C01: `^` is the set extension of exclusive or. -/
theorem C01_xor : ∀ A B : BoolSet, IsExt2 (fun a b => a != b) A B (BoolSet.xor A B) := by decide
theorem C01_xor_set_bool : ∀ (A : BoolSet) (b : Bool), IsExt2R (fun a b => a != b) A b (BoolSet.xorSB A b) := by decide
theorem C01_xor_bool_set : ∀ (a : Bool) (B : BoolSet), IsExt2L (fun a b => a != b) a B (BoolSet.xorBS a B) := by decide
/-- C01: `>` is the set extension of `>` on bool. -/
theorem C01_gt : ∀ A B : BoolSet, IsExt2 bgt A B (BoolSet.gt A B) := by decide
theorem C01_gt_set_bool : ∀ (A : BoolSet) (b : Bool), IsExt2R bgt A b (BoolSet.gtSB A b) := by decide
theorem C01_gt_bool_set : ∀ (a : Bool) (B : BoolSet), IsExt2L bgt a B (BoolSet.gtBS a B) := by decide
/-- C01: `<` is the set extension of `<` on bool. -/
theorem C01_lt : ∀ A B : BoolSet, IsExt2 (fun a b => bgt b a) A B (BoolSet.lt A B) := by decide
theorem C01_lt_set_bool : ∀ (A : BoolSet) (b : Bool), IsExt2R (fun a b => bgt b a) A b (BoolSet.ltSB A b) := by decide
theorem C01_lt_bool_set : ∀ (a : Bool) (B : BoolSet), IsExt2L (fun a b => bgt b a) a B (BoolSet.ltBS a B) := by decide

/-- C01: the tables of `==` and `!=`, which no operator uses, hold the set extensions of `==` and `!=` on bool; the table of `!=` is that of `^`. -/
theorem C01_eq_tables : (∀ A B : BoolSet, IsExt2 (fun a b => a == b) A B (lookup lutEq (toBits A) (toBits B)) ∧
    IsExt2 (fun a b => a != b) A B (lookup lutNeq (toBits A) (toBits B))) ∧ lutNeq = lutXor := by decide

/-- C01: an empty operand makes every binary connective empty. -/
theorem C01_empty_contagious : ∀ A : BoolSet,
    BoolSet.and A empty = empty ∧ BoolSet.and empty A = empty ∧
    BoolSet.or A empty = empty ∧ BoolSet.or empty A = empty ∧
    BoolSet.xor A empty = empty ∧ BoolSet.xor empty A = empty ∧
    BoolSet.gt A empty = empty ∧ BoolSet.gt empty A = empty ∧
    BoolSet.lt A empty = empty ∧ BoolSet.lt empty A = empty ∧ notCore empty = empty := by decide

example : BMem true (BoolSet.and both both) ∧ BMem false (BoolSet.and both both) ∧ ¬ BMem true (BoolSet.and both (single false)) := by decide

/-! ## C02 — the property is false of the code; see DESIGN.md §5 -/

/-- C02, full statement (false): `A >= B` is the set extension of `>=` on bool. -/
def C02_full : Prop :=
  (∀ A B : BoolSet, IsExt2 bge A B (BoolSet.geq A B)) ∧ (∀ A B : BoolSet, IsExt2 (fun a b => bge b a) A B (BoolSet.leq A B))

/-- C02 is violated: `set{false,true} >= set{true}` omits `false` although `false >= true` is false. -/
theorem C02_violated : ¬ C02_full := by unfold C02_full; decide

/-- The wrong entry concretely: the result is `{true}`, claiming the comparison *always* holds. -/
theorem C02_wrong_entry : BoolSet.geq both (single true) = single true ∧
    BoolSet.always (BoolSet.geq both (single true)) = true ∧ bge false true = false := by decide

/-- C02 partial: the property holds for all other operand pairs (missing: left operand `{false,true}` with right operand `{true}`,
and the mirrored pair for `<=`); and no value outside the set extension is ever returned. -/
theorem C02_geq_partial : ∀ A B : BoolSet,
    (¬ (A = both ∧ B = single true) → IsExt2 bge A B (BoolSet.geq A B)) ∧
    (¬ (B = both ∧ A = single true) → IsExt2 (fun a b => bge b a) A B (BoolSet.leq A B)) ∧
    (∀ r, BMem r (BoolSet.geq A B) → ∃ a b, BMem a A ∧ BMem b B ∧ bge a b = r) := by decide
theorem C02_geq_mixed_partial : ∀ (A : BoolSet) (b : Bool),
    (¬ (A = both ∧ b = true) → IsExt2R bge A b (BoolSet.geqSB A b)) ∧ IsExt2L bge b A (BoolSet.geqBS b A) ∧
    IsExt2R (fun a b => bge b a) A b (BoolSet.leqSB A b) ∧
    (¬ (A = both ∧ b = true) → IsExt2L (fun a b => bge b a) b A (BoolSet.leqBS b A)) := by decide

example : ¬ (both = both ∧ single false = single true) ∧ IsExt2 bge both (single false) (BoolSet.geq both (single false)) := by decide

/-! ## C03 -/

/-- C03: associativity and commutativity. -/
theorem C03_assoc_comm : ∀ A B C : BoolSet,
    BoolSet.and (BoolSet.and A B) C = BoolSet.and A (BoolSet.and B C) ∧
    BoolSet.or (BoolSet.or A B) C = BoolSet.or A (BoolSet.or B C) ∧
    BoolSet.and A B = BoolSet.and B A ∧ BoolSet.or A B = BoolSet.or B A ∧
    BoolSet.xor (BoolSet.xor A B) C = BoolSet.xor A (BoolSet.xor B C) ∧ BoolSet.xor A B = BoolSet.xor B A := by decide
/-- C03: idempotence. -/
theorem C03_idem : ∀ A : BoolSet, BoolSet.and A A = A ∧ BoolSet.or A A = A := by decide
/-- C03: distributivity, both ways. -/
theorem C03_distrib : ∀ A B C : BoolSet,
    BoolSet.and A (BoolSet.or B C) = BoolSet.or (BoolSet.and A B) (BoolSet.and A C) ∧
    BoolSet.or A (BoolSet.and B C) = BoolSet.and (BoolSet.or A B) (BoolSet.or A C) := by decide
/-- C03: De Morgan and involution. -/
theorem C03_de_morgan : ∀ A B : BoolSet,
    notCore (BoolSet.and A B) = BoolSet.or (notCore A) (notCore B) ∧
    notCore (BoolSet.or A B) = BoolSet.and (notCore A) (notCore B) ∧ notCore (notCore A) = A := by decide
/-- C03: exclusive or is contained in its expansion by `&`, `|`, `!`. -/
theorem C03_xor : ∀ A B : BoolSet, ∀ r, BMem r (BoolSet.xor A B) →
    BMem r (BoolSet.or (BoolSet.and A (notCore B)) (BoolSet.and (notCore A) B)) := by decide
/-- C03: the mixed overloads agree with the singleton set. -/
theorem C03_mixed : ∀ (A : BoolSet) (b : Bool),
    BoolSet.andSB A b = BoolSet.and A (single b) ∧ BoolSet.andBS b A = BoolSet.and (single b) A ∧
    BoolSet.orSB A b = BoolSet.or A (single b) ∧ BoolSet.orBS b A = BoolSet.or (single b) A ∧
    BoolSet.xorSB A b = BoolSet.xor A (single b) ∧ BoolSet.xorBS b A = BoolSet.xor (single b) A := by decide

/-! ## C04 -/

/-- C04: what each projection says about membership. -/
theorem C04_projections : ∀ A : BoolSet,
    (possibly A = true ↔ BMem true A) ∧ (possiblyNot A = true ↔ BMem false A) ∧
    (always A = true ↔ ¬ BMem false A) ∧ (never A = true ↔ ¬ BMem true A) ∧
    (contingent A = true ↔ BMem true A ∧ BMem false A) ∧ (vacuous A = true ↔ ¬ BMem true A ∧ ¬ BMem false A) := by decide
/-- C04: dualities through negation. -/
theorem C04_duality : ∀ A : BoolSet,
    always A = !possibly (notCore A) ∧ never A = !possibly A ∧ possiblyNot A = possibly (notCore A) ∧
    never A = always (notCore A) ∧ contingent (notCore A) = contingent A ∧ vacuous (notCore A) = vacuous A := by decide
/-- C04: a plain bool behaves like the singleton set. -/
theorem C04_bool : ∀ b : Bool,
    possiblyB b = possibly (single b) ∧ possiblyNotB b = possiblyNot (single b) ∧ alwaysB b = always (single b) ∧
    neverB b = never (single b) ∧ contingentB b = contingent (single b) ∧ vacuousB b = vacuous (single b) := by decide

end Intervals.Props
