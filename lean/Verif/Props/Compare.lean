import Verif.Spec.Interval
import Verif.Spec.Logic
import Verif.Lemmas.Val
import Verif.Model.IntVal
/-!
# C09–C11: comparisons of intervals (and scalars), generic in the value type
-/
set_option linter.unusedSectionVars false
namespace Intervals.Props
open Intervals Intervals.Spec CppVal
variable {T : Type _} [CppVal T] [CppOrder T]

private theorem properA_le {A : Arg T} (h : ProperA A) : le A.lo A.hi = true := by
  cases A <;> exact h
private theorem ptA_iff {A : Arg T} {v : T} : v ∈ₐ A ↔ le A.lo v = true ∧ le v A.hi = true := by
  cases A <;> exact Iff.rfl
private theorem properA_assigned {A : Arg T} (h : ProperA A) : A.assigned = true := by
  have := properA_le h
  cases A with
  | scalar v => rfl
  | ivl X => simp only [Arg.assigned, Ivl.assigned, Arg.lo, Arg.hi] at *; grind
private theorem guard_ok {A B : Arg T} (dbg : Bool) (hA : ProperA A) (hB : ProperA B) :
    expectsDebug dbg (A.assigned && B.assigned) = .ok () := by
  rw [properA_assigned hA, properA_assigned hB]; simp
private theorem bits2 (p q : Bool) :
    BoolSet.contains (if q then BoolSet.assign (if p then BoolSet.assign BoolSet.empty true else BoolSet.empty) false
      else (if p then BoolSet.assign BoolSet.empty true else BoolSet.empty)) true = p ∧
    BoolSet.contains (if q then BoolSet.assign (if p then BoolSet.assign BoolSet.empty true else BoolSet.empty) false
      else (if p then BoolSet.assign BoolSet.empty true else BoolSet.empty)) false = q := by
  revert p q; decide
private theorem bits2' (p q : Bool) :
    BoolSet.contains (if q then BoolSet.assign (if p then BoolSet.assign BoolSet.empty false else BoolSet.empty) true
      else (if p then BoolSet.assign BoolSet.empty false else BoolSet.empty)) true = q ∧
    BoolSet.contains (if q then BoolSet.assign (if p then BoolSet.assign BoolSet.empty false else BoolSet.empty) true
      else (if p then BoolSet.assign BoolSet.empty false else BoolSet.empty)) false = p := by
  revert p q; decide

/-! ## C09 -/

private theorem compareEq_exact {A B : Arg T} (hA : ProperA A) (hB : ProperA B) : ExactCmp eq A B (compareEq A B) := by
  have ha := properA_le hA
  have hb := properA_le hB
  intro r
  simp only [ptA_iff, compareEq]
  cases r with
  | true =>
    rw [(bits2 _ _).1]
    exact ⟨fun h => ⟨cmax A.lo B.lo, cmax A.lo B.lo, by grind⟩, by grind⟩
  | false =>
    rw [(bits2 _ _).2]
    refine ⟨fun h => ?_, by grind⟩
    by_cases h1 : eq A.lo B.hi = false
    · exact ⟨A.lo, B.hi, by grind⟩
    · exact ⟨A.hi, B.lo, by grind⟩
private theorem compareNeq_exact {A B : Arg T} (hA : ProperA A) (hB : ProperA B) : ExactCmp ne A B (compareNeq A B) := by
  have ha := properA_le hA
  have hb := properA_le hB
  intro r
  simp only [ptA_iff, compareNeq]
  cases r with
  | true =>
    rw [(bits2' _ _).1]
    refine ⟨fun h => ?_, by grind⟩
    by_cases h1 : eq A.lo B.hi = false
    · exact ⟨A.lo, B.hi, by grind⟩
    · exact ⟨A.hi, B.lo, by grind⟩
  | false =>
    rw [(bits2' _ _).2]
    exact ⟨fun h => ⟨cmax A.lo B.lo, cmax A.lo B.lo, by grind⟩, by grind⟩
private theorem compareLt_exact {A B : Arg T} (hA : ProperA A) (hB : ProperA B) : ExactCmp lt A B (compareLt A B) := by
  have ha := properA_le hA
  have hb := properA_le hB
  intro r
  simp only [ptA_iff, compareLt]
  cases r with
  | true =>
    rw [(bits2 _ _).1]
    exact ⟨fun h => ⟨A.lo, B.hi, by grind⟩, by grind⟩
  | false =>
    rw [(bits2 _ _).2]
    exact ⟨fun h => ⟨A.hi, B.lo, by grind⟩, by grind⟩
private theorem compareLeq_exact {A B : Arg T} (hA : ProperA A) (hB : ProperA B) : ExactCmp le A B (compareLeq A B) := by
  have ha := properA_le hA
  have hb := properA_le hB
  intro r
  simp only [ptA_iff, compareLeq]
  cases r with
  | true =>
    rw [(bits2 _ _).1]
    exact ⟨fun h => ⟨A.lo, B.hi, by grind⟩, by grind⟩
  | false =>
    rw [(bits2 _ _).2]
    exact ⟨fun h => ⟨A.hi, B.lo, by grind⟩, by grind⟩

private theorem exact_swap {op : T → T → Bool} {A B : Arg T} {R : BoolSet} (h : ExactCmp op B A R) :
    ExactCmp (fun a b => op b a) A B R := by
  intro r
  rw [h r]
  constructor
  · rintro ⟨b, a, hb, ha, e⟩; exact ⟨a, b, ha, hb, e⟩
  · rintro ⟨a, b, ha, hb, e⟩; exact ⟨b, a, hb, ha, e⟩

/-- C09: `A == B` is the exact set extension of `==`. -/
theorem C09_eq (dbg : Bool) (A B : Arg T) (hA : ProperA A) (hB : ProperA B) :
    ∃ R, opEq dbg A B = .ok R ∧ ExactCmp eq A B R :=
  ⟨_, by unfold opEq; rw [guard_ok dbg hA hB]; rfl, compareEq_exact hA hB⟩
/-- C09: `A != B` -/
theorem C09_ne (dbg : Bool) (A B : Arg T) (hA : ProperA A) (hB : ProperA B) :
    ∃ R, opNe dbg A B = .ok R ∧ ExactCmp ne A B R :=
  ⟨_, by unfold opNe; rw [guard_ok dbg hA hB]; rfl, compareNeq_exact hA hB⟩
/-- C09: `A < B` -/
theorem C09_lt (dbg : Bool) (A B : Arg T) (hA : ProperA A) (hB : ProperA B) :
    ∃ R, opLt dbg A B = .ok R ∧ ExactCmp lt A B R :=
  ⟨_, by unfold opLt; rw [guard_ok dbg hA hB]; rfl, compareLt_exact hA hB⟩
/-- C09: `A <= B` -/
theorem C09_le (dbg : Bool) (A B : Arg T) (hA : ProperA A) (hB : ProperA B) :
    ∃ R, opLe dbg A B = .ok R ∧ ExactCmp le A B R :=
  ⟨_, by unfold opLe; rw [guard_ok dbg hA hB]; rfl, compareLeq_exact hA hB⟩
/-- C09: `A > B` -/
theorem C09_gt (dbg : Bool) (A B : Arg T) (hA : ProperA A) (hB : ProperA B) :
    ∃ R, opGt dbg A B = .ok R ∧ ExactCmp gt A B R :=
  ⟨_, by unfold opGt; rw [guard_ok dbg hA hB]; rfl, exact_swap (compareLt_exact hB hA)⟩
/-- C09: `A >= B` -/
theorem C09_ge (dbg : Bool) (A B : Arg T) (hA : ProperA A) (hB : ProperA B) :
    ∃ R, opGe dbg A B = .ok R ∧ ExactCmp ge A B R :=
  ⟨_, by unfold opGe; rw [guard_ok dbg hA hB]; rfl, exact_swap (compareLeq_exact hB hA)⟩

/-- hypotheses are met by `[1,3] < [2,5]`, whose answer is `{false,true}` -/
example : ProperA (.ivl ⟨i32 1, i32 3⟩) ∧ ProperA (.ivl ⟨i32 2, i32 5⟩) ∧
    opLt true (.ivl ⟨i32 1, i32 3⟩) (.ivl ⟨i32 2, i32 5⟩) = .ok BoolSet.both ∧
    opLt true (.ivl ⟨i32 1, i32 3⟩) (.scalar (i32 4)) = .ok (BoolSet.single true) := by
  refine ⟨?_, ?_, ?_, ?_⟩ <;> decide

/-! ## C10 -/

private theorem ext_bool {R S : BoolSet} (h : ∀ r, BoolSet.contains R r = BoolSet.contains S r) : R = S := by
  have : ∀ R S : BoolSet, (∀ r, BoolSet.contains R r = BoolSet.contains S r) → R = S := by decide
  exact this R S h

/-- C10: the comparisons determine each other like the scalar comparisons do. -/
theorem C10_consistency (dbg : Bool) (A B : Arg T) (hA : ProperA A) (hB : ProperA B) :
    ∃ eqR neR ltR leR gtR geR,
      opEq dbg A B = .ok eqR ∧ opNe dbg A B = .ok neR ∧ opLt dbg A B = .ok ltR ∧ opLe dbg A B = .ok leR ∧
      opGt dbg A B = .ok gtR ∧ opGe dbg A B = .ok geR ∧
      neR = BoolSet.notCore eqR ∧ ltR = BoolSet.notCore geR ∧ leR = BoolSet.notCore gtR ∧
      opGt dbg A B = opLt dbg B A ∧ opGe dbg A B = opLe dbg B A ∧
      eqR = BoolSet.notCore (BoolSet.or ltR gtR) := by
  refine ⟨compareEq A B, compareNeq A B, compareLt A B, compareLeq A B, compareLt B A, compareLeq B A, ?_, ?_, ?_, ?_, ?_, ?_, ?_, ?_, ?_, ?_, ?_, ?_⟩
  · unfold opEq; rw [guard_ok dbg hA hB]; rfl
  · unfold opNe; rw [guard_ok dbg hA hB]; rfl
  · unfold opLt; rw [guard_ok dbg hA hB]; rfl
  · unfold opLe; rw [guard_ok dbg hA hB]; rfl
  · unfold opGt; rw [guard_ok dbg hA hB]; rfl
  · unfold opGe; rw [guard_ok dbg hA hB]; rfl
  · simp only [compareEq, compareNeq]
    generalize (ge B.hi A.lo && le B.lo A.hi) = p
    generalize (ne A.lo B.hi || ne A.hi B.lo) = q
    revert p q; decide
  · simp only [compareLt, compareLeq]
    rw [show gt B.hi A.lo = lt A.lo B.hi from rfl, show ge A.hi B.lo = le B.lo A.hi from rfl]
    generalize lt A.lo B.hi = p
    generalize le B.lo A.hi = q
    revert p q; decide
  · simp only [compareLt, compareLeq]
    rw [show gt A.hi B.lo = lt B.lo A.hi from rfl, show ge B.hi A.lo = le A.lo B.hi from rfl]
    generalize lt B.lo A.hi = p
    generalize le A.lo B.hi = q
    revert p q; decide
  · unfold opGt opLt; rw [Bool.and_comm]
  · unfold opGe opLe; rw [Bool.and_comm]
  · have ha := properA_le hA
    have hb := properA_le hB
    simp only [compareEq, compareLt]
    have k1 : (ge B.hi A.lo && le B.lo A.hi) = (ge A.hi B.lo && ge B.hi A.lo) := by grind
    have k2 : (ne A.lo B.hi || ne A.hi B.lo) = (lt A.lo B.hi || lt B.lo A.hi) := by grind
    have k4 : ge A.hi B.lo = true ∨ lt A.lo B.hi = true := by grind
    have k5 : ge B.hi A.lo = true ∨ lt B.lo A.hi = true := by grind
    rw [k1, k2]
    generalize lt A.lo B.hi = p3 at *
    generalize lt B.lo A.hi = p4 at *
    generalize ge A.hi B.lo = p5 at *
    generalize ge B.hi A.lo = p6 at *
    clear k1 k2 ha hb hA hB
    revert p3 p4 p5 p6
    decide

/-! ## C11 -/

/-- C11: a comparison of assigned NaN-free operands is never vacuous (in any build mode). -/
theorem C11_never_vacuous (dbg : Bool) (A B : Arg T) (hA : ProperA A) (hB : ProperA B) :
    ∀ f ∈ [opEq (T := T) dbg, opNe dbg, opLt dbg, opLe dbg, opGt dbg, opGe dbg],
      ∃ R, f A B = .ok R ∧ BoolSet.vacuous R = false := by
  have pts : ∀ {op : T → T → Bool} {R : BoolSet}, ExactCmp op A B R → BoolSet.vacuous R = false := by
    intro op R h
    have ha := properA_le hA
    have hb := properA_le hB
    have := (h (op A.lo B.lo)).mpr ⟨A.lo, B.lo, ptA_iff.mpr (by grind), ptA_iff.mpr (by grind), rfl⟩
    have key : ∀ (R : BoolSet) (b : Bool), BoolSet.contains R b = true → BoolSet.vacuous R = false := by decide
    exact key _ _ this
  intro f hf
  simp only [List.mem_cons, List.not_mem_nil, or_false] at hf
  rcases hf with rfl | rfl | rfl | rfl | rfl | rfl
  · obtain ⟨R, h1, h2⟩ := C09_eq dbg A B hA hB; exact ⟨R, h1, pts h2⟩
  · obtain ⟨R, h1, h2⟩ := C09_ne dbg A B hA hB; exact ⟨R, h1, pts h2⟩
  · obtain ⟨R, h1, h2⟩ := C09_lt dbg A B hA hB; exact ⟨R, h1, pts h2⟩
  · obtain ⟨R, h1, h2⟩ := C09_le dbg A B hA hB; exact ⟨R, h1, pts h2⟩
  · obtain ⟨R, h1, h2⟩ := C09_gt dbg A B hA hB; exact ⟨R, h1, pts h2⟩
  · obtain ⟨R, h1, h2⟩ := C09_ge dbg A B hA hB; exact ⟨R, h1, pts h2⟩

omit [CppOrder T] in
/-- C11: in debug mode a comparison with an unassigned operand (on either side) is a contract violation. -/
theorem C11_unassigned_debug (A B : Arg T) (h : A.assigned = false ∨ B.assigned = false) :
    ∀ f ∈ [opEq (T := T) true, opNe true, opLt true, opLe true, opGt true, opGe true], f A B = .error .contract := by
  have : (A.assigned && B.assigned) = false := by
    rcases h with h | h <;> simp [h]
  intro f hf
  simp only [List.mem_cons, List.not_mem_nil, or_false] at hf
  rcases hf with rfl | rfl | rfl | rfl | rfl | rfl <;>
    simp [opEq, opNe, opLt, opLe, opGt, opGe, this]

/-- the operand whose two bounds are NaN -/
def NanA : Arg T → Prop
  | .scalar v => le v v = false
  | .ivl X => le X.lo X.lo = false ∧ le X.hi X.hi = false

/-- C11: ordering comparisons with a NaN operand (on either side; the other operand assigned) yield the empty set. -/
theorem C11_nan_vacuous (dbg : Bool) (A B : Arg T) (h : (NanA A ∧ B.assigned = true) ∨ (NanA B ∧ A.assigned = true)) :
    ∀ f ∈ [opLt (T := T) dbg, opLe dbg, opGt dbg, opGe dbg], f A B = .ok BoolSet.empty := by
  have hn : ∀ {X : Arg T}, NanA X → le X.lo X.lo = false ∧ le X.hi X.hi = false ∧ X.assigned = true := by
    intro X hX
    cases X with
    | scalar v => exact ⟨hX, hX, rfl⟩
    | ivl X => refine ⟨hX.1, hX.2, ?_⟩; have := hX.1; simp only [Arg.assigned, Ivl.assigned]; grind
  have hass : A.assigned = true ∧ B.assigned = true := by
    rcases h with ⟨h1, h2⟩ | ⟨h1, h2⟩
    · exact ⟨(hn h1).2.2, h2⟩
    · exact ⟨h2, (hn h1).2.2⟩
  have hcmp : le A.lo B.hi = false ∧ le B.lo A.hi = false ∧ lt A.lo B.hi = false ∧ lt B.lo A.hi = false ∧
      le B.hi A.lo = false ∧ le A.hi B.lo = false ∧ lt A.hi B.lo = false ∧ lt B.hi A.lo = false := by
    rcases h with ⟨h1, _⟩ | ⟨h1, _⟩
    · obtain ⟨n1, n2, _⟩ := hn h1; refine ⟨?_, ?_, ?_, ?_, ?_, ?_, ?_, ?_⟩ <;> grind
    · obtain ⟨n1, n2, _⟩ := hn h1; refine ⟨?_, ?_, ?_, ?_, ?_, ?_, ?_, ?_⟩ <;> grind
  obtain ⟨c1, c2, c3, c4, c5, c6, c7, c8⟩ := hcmp
  intro f hf
  simp only [List.mem_cons, List.not_mem_nil, or_false] at hf
  rcases hf with rfl | rfl | rfl | rfl <;>
    simp [opLt, opLe, opGt, opGe, compareLt, compareLeq, hass, ge, gt, c1, c2, c3, c4, pure, Except.pure]

end Intervals.Props
