import Verif.Lemmas.CSet
import Verif.Model.Scalar
/-!
# C63: selecting and overwriting sets — `if_else`, `assign`, `assign_partial`, `reset`
-/
set_option linter.unusedSectionVars false
namespace Intervals.Props
open Intervals Intervals.Spec
variable {T : Type _} [DecidableEq T] {vals : List T}

/-- The values that a condition lets through: those of `t` if the condition may be true, those of `f` if it may be false. -/
def Selected (cond : BoolSet) (t f : T → Prop) (v : T) : Prop :=
  (BoolSet.contains cond true = true ∧ t v) ∨ (BoolSet.contains cond false = true ∧ f v)

theorem assignSet_ok_of {dbg : Bool} (s : CSet vals) {r : CSet vals} (h : dbg = true → ∃ v, SMem v r) :
    CSet.assignSet dbg s r = .ok (s ||| r) := by
  simp only [CSet.assignSet]
  rw [show expectsDebug dbg (CSet.assigned r) = .ok () from
    expectsDebug_eq_ok.mpr (fun hd => by obtain ⟨v, hv⟩ := h hd; exact assigned_of_SMem hv)]
  rfl

/-- C63: `if_else(cond, t, f)` returns exactly the values of the branches that are possible, provided that (in debug mode) no possible branch is empty. -/
theorem C63_if_else (dbg : Bool) (cond : BoolSet) (t f : CSet vals)
    (ht : dbg = true → BoolSet.contains cond true = true → ∃ v, SMem v t)
    (hf : dbg = true → BoolSet.contains cond false = true → ∃ v, SMem v f) :
    ∃ R, CSet.ifElse dbg cond t f = .ok R ∧ ∀ v, SMem v R ↔ Selected cond (SMem · t) (SMem · f) v := by
  unfold CSet.ifElse Selected BoolSet.possibly BoolSet.possiblyNot
  cases c1 : BoolSet.contains cond true <;> cases c2 : BoolSet.contains cond false
  · exact ⟨CSet.empty vals, rfl, fun v => by simp [SMem_empty]⟩
  · refine ⟨CSet.empty vals ||| f, ?_, fun v => by rw [SMem_or]; simp [SMem_empty]⟩
    simp [assignSet_ok_of (CSet.empty vals) (fun h => hf h c2), pure, Except.pure]
  · refine ⟨CSet.empty vals ||| t, ?_, fun v => by rw [SMem_or]; simp [SMem_empty]⟩
    simp [assignSet_ok_of (CSet.empty vals) (fun h => ht h c1), pure, Except.pure]
  · refine ⟨CSet.empty vals ||| t ||| f, ?_, fun v => by rw [SMem_or, SMem_or]; simp [SMem_empty]⟩
    simp only [if_true, assignSet_ok_of (CSet.empty vals) (fun h => ht h c1), ok_bind, assignSet_ok_of _ (fun h => hf h c2)]
    rfl

/-- C63: an empty set in a possible branch is a contract violation in debug mode. -/
theorem C63_if_else_empty (hn : vals.Nodup) (cond : BoolSet) (t f : CSet vals)
    (h : (BoolSet.contains cond true = true ∧ ∀ v, ¬ SMem v t) ∨ (BoolSet.contains cond false = true ∧ ∀ v, ¬ SMem v f)) :
    CSet.ifElse true cond t f = .error .contract := by
  have key : ∀ (s r : CSet vals), (∀ v, ¬ SMem v r) → CSet.assignSet true s r = .error .contract := by
    intro s r hr
    have : CSet.assigned r = false := by
      cases e : CSet.assigned r
      · rfl
      · obtain ⟨v, hv⟩ := (assigned_iff hn).mp e
        exact absurd hv (hr v)
    simp [CSet.assignSet, this]
  unfold CSet.ifElse BoolSet.possibly BoolSet.possiblyNot
  rcases h with ⟨h1, h2⟩ | ⟨h1, h2⟩
  · simp [h1, key _ _ h2]
  · cases c1 : BoolSet.contains cond true
    · simp [h1, key _ _ h2]
    · by_cases ht : ∃ v, SMem v t
      · simp only [if_true, assignSet_ok_of (dbg := true) (CSet.empty vals) (fun _ => ht), ok_bind, h1, key _ _ h2]
        rfl
      · rw [not_exists] at ht
        simp [key _ _ ht]

/-- C63: the overloads with a plain value in one branch select that value, where (in debug mode) the set must be non-empty only if its branch is
possible; a set that is empty in a possible branch is a contract violation in debug mode; a value that is not reflected is a contract violation
whatever the condition and the set are. -/
theorem C63_mixed (hn : vals.Nodup) (dbg : Bool) (cond : BoolSet) (w : T) (s : CSet vals) :
    (w ∈ vals → ((dbg = true → BoolSet.contains cond false = true → ∃ v, SMem v s) →
          ∃ R, CSet.ifElseVS dbg cond w s = .ok R ∧ ∀ v, SMem v R ↔ Selected cond (· = w) (SMem · s) v) ∧
        ((dbg = true → BoolSet.contains cond true = true → ∃ v, SMem v s) →
          ∃ R, CSet.ifElseSV dbg cond s w = .ok R ∧ ∀ v, SMem v R ↔ Selected cond (SMem · s) (· = w) v) ∧
        ((∀ v, ¬ SMem v s) → (BoolSet.contains cond false = true → CSet.ifElseVS true cond w s = .error .contract) ∧
          (BoolSet.contains cond true = true → CSet.ifElseSV true cond s w = .error .contract))) ∧
    (w ∉ vals → CSet.ifElseVS dbg cond w s = .error .contract ∧ CSet.ifElseSV dbg cond s w = .error .contract) := by
  constructor
  · intro hw
    obtain ⟨r, hr, hm⟩ := assignVal_ok (CSet.empty vals) hw
    have hm' : ∀ v, SMem v r ↔ v = w := fun v => by rw [hm]; simp [SMem_empty]
    have hne : ∃ v, SMem v r := ⟨w, (hm' w).mpr rfl⟩
    refine ⟨fun hs => ?_, fun hs => ?_, fun he => ⟨fun hc => ?_, fun hc => ?_⟩⟩
    · obtain ⟨R, h1, h2⟩ := C63_if_else dbg cond r s (fun _ _ => hne) hs
      exact ⟨R, by simp [CSet.ifElseVS, CSet.ofVal, hr, h1], fun v => by rw [h2]; simp only [Selected, hm']⟩
    · obtain ⟨R, h1, h2⟩ := C63_if_else dbg cond s r hs (fun _ _ => hne)
      exact ⟨R, by simp [CSet.ifElseSV, CSet.ofVal, hr, h1], fun v => by rw [h2]; simp only [Selected, hm']⟩
    · simp [CSet.ifElseVS, CSet.ofVal, hr, C63_if_else_empty hn cond r s (.inr ⟨hc, he⟩)]
    · simp [CSet.ifElseSV, CSet.ofVal, hr, C63_if_else_empty hn cond s r (.inl ⟨hc, he⟩)]
  · intro hw
    simp [CSet.ifElseVS, CSet.ifElseSV, CSet.ofVal, assignVal_not_mem _ hw]

/-- C63: on a plain condition the set version returns the singleton of what the scalar version returns. -/
theorem C63_scalar (hn : vals.Nodup) (dbg b : Bool) (x y : T) (hx : x ∈ vals) (hy : y ∈ vals) :
    ∃ sx sy R, CSet.ofVal vals x = .ok sx ∧ CSet.ofVal vals y = .ok sy ∧ CSet.ifElse dbg (BoolSet.single b) sx sy = .ok R ∧
      CSet.ofVal vals (Scalar.ifElse b x y) = .ok R := by
  obtain ⟨sx, h1, m1⟩ := assignVal_ok (CSet.empty vals) hx
  obtain ⟨sy, h2, m2⟩ := assignVal_ok (CSet.empty vals) hy
  obtain ⟨R, h3, m3⟩ := C63_if_else dbg (BoolSet.single b) sx sy (fun _ _ => ⟨x, (m1 x).mpr (.inr rfl)⟩) (fun _ _ => ⟨y, (m2 y).mpr (.inr rfl)⟩)
  refine ⟨sx, sy, R, h1, h2, h3, ?_⟩
  cases b
  · simp only [Scalar.ifElse, Bool.false_eq_true, if_false, CSet.ofVal]
    rw [h2]; congr 1
    refine ext_SMem hn (fun v => ?_)
    rw [m3]; simp [Selected, show BoolSet.contains (BoolSet.single false) true = false by decide,
      show BoolSet.contains (BoolSet.single false) false = true by decide]
  · simp only [Scalar.ifElse, if_true, CSet.ofVal]
    rw [h1]; congr 1
    refine ext_SMem hn (fun v => ?_)
    rw [m3]; simp [Selected, show BoolSet.contains (BoolSet.single true) true = true by decide,
      show BoolSet.contains (BoolSet.single true) false = false by decide]

/-- C63: free `assign` and `reset` leave exactly the values of the right-hand side, whatever the left-hand side was; free `assign_partial` adds them. -/
theorem C63_overwrite (dbg : Bool) (s r : CSet vals) (hr : dbg = true → ∃ v, SMem v r) :
    (∀ v, SMem v (CSet.assignFree s r) ↔ SMem v r) ∧ (∀ v, SMem v (CSet.resetFree s r) ↔ SMem v r) ∧
    ∃ R, CSet.assignPartial dbg s r = .ok R ∧ ∀ v, SMem v R ↔ SMem v s ∨ SMem v r := by
  refine ⟨fun v => Iff.rfl, fun v => Iff.rfl, s ||| r, ?_, fun v => SMem_or⟩
  exact assignSet_ok_of s hr

/-! Non-vacuity: the sets `{0, 1}` and `{2}` over the values 0, 1, 2. -/
example : CSet.ifElse (vals := [0, 1, 2]) true BoolSet.both 0b011#3 0b100#3 = .ok 0b111#3 := by decide
example : CSet.ifElse (vals := [0, 1, 2]) true (BoolSet.single false) 0b011#3 0b100#3 = .ok 0b100#3 := by decide
example : CSet.ifElse (vals := [0, 1, 2]) true BoolSet.both 0b011#3 0b000#3 = .error .contract := by decide
example : CSet.ifElse (vals := [0, 1, 2]) true (BoolSet.single true) 0b011#3 0b000#3 = .ok 0b011#3 := by decide
example : CSet.ifElseVS (vals := [0, 1, 2]) true BoolSet.both 2 0b001#3 = .ok 0b101#3 := by decide
example : SMem (vals := [0, 1, 2]) 1 0b011#3 := by decide
end Intervals.Props
