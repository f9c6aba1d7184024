import Verif.Lemmas.Corner
/-! Accumulating values and intervals: the result is the hull of everything assigned. -/
set_option linter.unusedSectionVars false
namespace Intervals
open CppVal Spec

variable {T : Type _} [CppVal T] [CppOrder T] [CppLimits T] [CppLawfulLimits T]

/-- `R` has accumulated exactly the values `P`: it contains them, and each bound is one of them or still the initial one. -/
structure Acc (P : T → Prop) (R : Ivl T) : Prop where
  nlo : NotNan R.lo
  nhi : NotNan R.hi
  mem : ∀ v, P v → v ∈ᵢ R
  lo : R.lo = CppLimits.top ∨ P R.lo
  hi : R.hi = CppLimits.bot ∨ P R.hi

theorem notNan_top : NotNan (CppLimits.top : T) := CppOrder.le_right _ _ (CppOrder.lt_iff _ _ |>.mp CppLawfulLimits.bot_lt_top |>.2.1)
theorem notNan_bot : NotNan (CppLimits.bot : T) := (CppOrder.lt_iff _ _ |>.mp CppLawfulLimits.bot_lt_top |>.1)

theorem Acc.empty : Acc (fun _ : T => False) Ivl.unassigned :=
  ⟨notNan_top, notNan_bot, fun _ h => h.elim, Or.inl rfl, Or.inl rfl⟩

theorem Acc.core {P : T → Prop} {R : Ivl T} (h : Acc P R) {l u : T} (hlu : le l u = true) :
    Acc (fun v => P v ∨ (le l v = true ∧ le v u = true)) (Ivl.assignCore R l u) := by
  have nl : NotNan l := CppOrder.le_left _ _ hlu
  have nu : NotNan u := CppOrder.le_right _ _ hlu
  have h1 := cmin_le h.nlo nl; have h2 := le_cmax h.nhi nu
  refine ⟨cmin_notNan h.nlo nl, cmax_notNan h.nhi nu, ?_, ?_, ?_⟩
  · rintro v (hv | ⟨a, b⟩)
    · have := h.mem v hv
      exact ⟨CppOrder.le_trans _ _ _ h1.1 this.1, CppOrder.le_trans _ _ _ this.2 h2.1⟩
    · exact ⟨CppOrder.le_trans _ _ _ h1.2 a, CppOrder.le_trans _ _ _ b h2.2⟩
  · simp only [Ivl.assignCore]
    rcases cmin_or R.lo l with e | e <;> rw [e]
    · rcases h.lo with h' | h'
      · exact Or.inl h'
      · exact Or.inr (Or.inl h')
    · exact Or.inr (Or.inr ⟨nl, hlu⟩)
  · simp only [Ivl.assignCore]
    rcases cmax_or R.hi u with e | e <;> rw [e]
    · rcases h.hi with h' | h'
      · exact Or.inl h'
      · exact Or.inr (Or.inl h')
    · exact Or.inr (Or.inr ⟨hlu, nu⟩)

theorem Acc.congr {P Q : T → Prop} {R : Ivl T} (h : Acc P R) (e : ∀ v, P v ↔ Q v) : Acc Q R := by
  have : P = Q := funext fun v => propext (e v)
  exact this ▸ h

theorem Acc.assign {P : T → Prop} {R : Ivl T} (h : Acc P R) {X : Ivl T} (hX : Proper X) :
    ∃ R', Ivl.assign R X = .ok R' ∧ Acc (fun v => P v ∨ v ∈ᵢ X) R' := by
  have : X.assigned = true := assigned_of_proper (X := .ivl X) hX
  refine ⟨Ivl.assignCore R X.lo X.hi, ?_, h.core hX⟩
  unfold Ivl.assign; rw [this]; rfl

theorem Acc.assignVal {P : T → Prop} {R : Ivl T} (h : Acc P R) {x : T} (hx : NotNan x) :
    Acc (fun v => P v ∨ (le x v = true ∧ le v x = true)) (Ivl.assignVal R x) := h.core hx

/-- a conditional accumulation -/
theorem Acc.ite {P Q : T → Prop} {R : Ivl T} (h : Acc P R) (c : Prop) [Decidable c] {m : Outcome (Ivl T)}
    (hm : c → ∃ R', m = .ok R' ∧ Acc (fun v => P v ∨ Q v) R') :
    ∃ R', (if c then m else pure R) = .ok R' ∧ Acc (fun v => P v ∨ (c ∧ Q v)) R' := by
  by_cases hc : c
  · obtain ⟨R', e, h'⟩ := hm hc
    exact ⟨R', by rw [if_pos hc, e], h'.congr (by simp [hc])⟩
  · exact ⟨R, by rw [if_neg hc]; rfl, h.congr (by simp [hc])⟩

theorem Acc.proper {P : T → Prop} {R : Ivl T} (h : Acc P R) {v : T} (hv : P v) : Proper R :=
  CppOrder.le_trans _ _ _ (h.mem v hv).1 (h.mem v hv).2
end Intervals
