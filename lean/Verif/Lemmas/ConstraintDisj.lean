import Verif.Lemmas.Constraint
/-! Disjunctions with sides that do not mention the interval or cannot be true. -/
set_option linter.unusedSectionVars false
namespace Intervals
open Intervals.Spec CppVal
variable {T : Type _} [CppVal T] [CppOrder T] [CppStep T]

/-- A condition that does not mention the interval does not narrow it. -/
theorem unmentioned_keep {dbg d : Bool} {id : Nat} {x : Ivl T} (c : Cond T) : ¬ Mentions d id (seen c) →
    ∀ f o R f', detailConstrain dbg d id x c f o = .ok (R, f') → ∀ v, v ∈ᵢ x → v ∈ᵢ R := by
  induction c using tree_induction with
  | hp s => intro _ f o R f' h v hv; simp only [detailConstrain] at h; cases h; exact hv
  | hl c hl => intro hm f o R f' h v hv; rw [seen_leaf hl] at hm; rw [leaf_eq hl, if_neg hm] at h; cases h; exact hv
  | hc s l r ihl ihr =>
    intro hm f o R f' h v hv
    rw [seen_conj] at hm
    simp only [Mentions, not_or] at hm
    simp only [detail_conj, bind_eq_ok] at h
    obtain ⟨⟨xl, f1⟩, h1, ⟨xr, f2⟩, h2, h3⟩ := h
    have k1 := ihl hm.1 _ _ _ _ h1 v hv
    have k2 := ihr hm.2 _ _ _ _ h2 v hv
    split at h3
    · simp only [bind_eq_ok, make_eq_ok, pure, Except.pure] at h3
      obtain ⟨_, _, _, ⟨_, rfl⟩, h3⟩ := h3
      cases h3
      unfold Pt at *; simp only; grind
    · cases h3; exact hv
  | hd s l r ihl ihr =>
    intro hm f o R f' h v hv
    simp only [seen, Mentions, not_or] at hm
    simp only [detailConstrain, bind_eq_ok] at h
    obtain ⟨⟨xl, f1⟩, h1, ⟨xr, f2⟩, h2, _, _, h3⟩ := h
    have k1 := detail_unmentioned l hm.1 _ _ _ _ h1 rfl
    have k2 := detail_unmentioned r hm.2 _ _ _ _ h2 rfl
    subst k1; subst k2
    simp at h3
    cases h3; exact hv

theorem even_flat {d : Bool} {id : Nat} (c : Cond T) : DisjEven d id (seen c.flat) := by cases c <;> exact trivial

/-- below a disjunction, nothing fails if every conjunction that looks possible is -/
theorem conjSat_ok {dbg d : Bool} {id : Nat} {x : Ivl T} (hs : d = true → LawfulStep T) (hx : Proper x)
    (c : Cond T) : ConjSat.Inner id x (seen c) → WF c → StrictHom d (seen c) →
    SelfOperands d id (fun o => o.arg = .ivl x) (seen c) → ∀ f, ∃ R f', detailConstrain dbg d id x c f true = .ok (R, f') := by
  induction c using tree_induction with
  | hp s => intro _ _ _ _ f; exact ⟨x, f, rfl⟩
  | hl c hl =>
    intro _ hw hh hself f
    rw [seen_leaf hl] at hh hself
    rw [leaf_eq hl]
    split
    · rename_i hm
      split
      · rename_i ht
        obtain ⟨R, hR⟩ := narrow_ok (dbg := dbg) hs hw hh hm ht hself hx
        exact ⟨R, true, by rw [hR]; rfl⟩
      · exact ⟨x, true, by simp⟩
    · exact ⟨x, f, rfl⟩
  | hc s l r ihl ihr =>
    intro hn hw hh hself f
    rw [seen_conj] at hn hh hself
    obtain ⟨xl, f1, h1⟩ := ihl hn.2.1 hw.1.flat hh.1 hself.1 f
    obtain ⟨xr, f2, h2⟩ := ihr hn.2.2 hw.2.1.flat hh.2 hself.2 f1
    simp only [detail_conj, h1, h2, ok_bind]
    split
    · rename_i ht
      obtain ⟨ρ, g, p, q, hp, hq, e⟩ := hn.1 ht
      simp only [Bool.and_eq_true] at e
      obtain ⟨rfl, rfl⟩ := e
      have k1 := detail_sound hs g l.flat hw.1.flat hh.1 (even_flat l) _ _ _ _ h1 hp
      have k2 := detail_sound hs g r.flat hw.2.1.flat hh.2 (even_flat r) _ _ _ _ h2 hq
      unfold Pt at k1 k2
      rw [show (ge xl.hi xr.lo && le xl.lo xr.hi) = true by grind, make_of_le (by grind)]
      exact ⟨⟨cmax xl.lo xr.lo, cmin xl.hi xr.hi⟩, f2, by simp [pure, Except.pure]⟩
    · exact ⟨_, _, rfl⟩
  | hd s l r ihl ihr =>
    intro hn hw hh hself f
    obtain ⟨xl, f1, h1⟩ := ihl hn.1 hw.1 hh.1 hself.1 false
    obtain ⟨xr, f2, h2⟩ := ihr hn.2 hw.2.1 hh.2 hself.2 false
    have k1 := detail_proper hx l hw.1 (Spec.StrictHom.steps hs hh.1) _ _ _ _ h1
    have k2 := detail_proper hx r hw.2.1 (Spec.StrictHom.steps hs hh.2) _ _ _ _ h2
    simp only [detailConstrain, h1, h2, ok_bind, Bool.or_true, expects_true]
    split
    · refine ⟨_, _, by rw [make_of_le (by unfold Proper at *; grind)]; rfl⟩
    · split
      · exact ⟨_, _, rfl⟩
      · split <;> exact ⟨_, _, rfl⟩

/-- A condition that some point satisfies constrains successfully. -/
theorem sat_ok {dbg d : Bool} {id : Nat} {x : Ivl T} (hs : d = true → LawfulStep T) {ρ : Nat → T} (hx : ρ id ∈ᵢ x)
    (c : Cond T) : ConjSat id x (seen c) → WF c → StrictHom d (seen c) → SelfOperands d id (fun o => o.arg = .ivl x) (seen c) →
    Ev ρ (seen c) true → ∀ f o, ∃ R f', detailConstrain dbg d id x c f o = .ok (R, f') := by
  have hxp : Proper x := by unfold Pt Proper at *; grind
  induction c using tree_induction with
  | hp s => intro _ _ _ _ _ f o; exact ⟨x, f, rfl⟩
  | hl c hl =>
    intro _ hw hh hself he f o
    rw [seen_leaf hl] at hh hself he
    rw [leaf_eq hl]
    split
    · rename_i hm
      have ht := ev_truth c hw _ he
      obtain ⟨R, hR⟩ := narrow_ok (dbg := dbg) hs hw hh hm ht hself hxp
      exact ⟨R, true, by rw [ht, hR]; rfl⟩
    · exact ⟨x, f, rfl⟩
  | hc s l r ihl ihr =>
    intro hf hw hh hself he f o
    have ht := ev_truth _ hw.seen _ he
    rw [seen_truth] at ht
    rw [seen_conj] at hf hh hself he
    change BoolSet.contains s true = true at ht
    obtain ⟨p, q, hp, hq, e⟩ := he
    simp only [Bool.and_eq_true] at e
    obtain ⟨rfl, rfl⟩ := e
    obtain ⟨xl, f1, h1⟩ := ihl hf.1 hw.1.flat hh.1 hself.1 hp f o
    obtain ⟨xr, f2, h2⟩ := ihr hf.2 hw.2.1.flat hh.2 hself.2 hq f1 o
    have k1 := detail_sound hs hx l.flat hw.1.flat hh.1 (even_flat l) _ _ _ _ h1 hp
    have k2 := detail_sound hs hx r.flat hw.2.1.flat hh.2 (even_flat r) _ _ _ _ h2 hq
    unfold Pt at k1 k2
    refine ⟨⟨cmax xl.lo xr.lo, cmin xl.hi xr.hi⟩, f2, ?_⟩
    simp only [detail_conj, h1, h2, ok_bind, ht, if_true]
    rw [show (ge xl.hi xr.lo && le xl.lo xr.hi) = true by grind, make_of_le (by grind)]
    simp [pure, Except.pure]
  | hd s l r ihl ihr =>
    intro hf hw hh hself he f o
    have ht := ev_truth _ hw.seen _ he
    rw [seen_truth] at ht
    change BoolSet.contains s true = true at ht
    obtain ⟨xl, f1, h1⟩ := conjSat_ok (dbg := dbg) hs hxp l hf.1 hw.1 hh.1 hself.1 false
    obtain ⟨xr, f2, h2⟩ := conjSat_ok (dbg := dbg) hs hxp r hf.2 hw.2.1 hh.2 hself.2 false
    have k1 := detail_proper hxp l hw.1 (Spec.StrictHom.steps hs hh.1) _ _ _ _ h1
    have k2 := detail_proper hxp r hw.2.1 (Spec.StrictHom.steps hs hh.2) _ _ _ _ h2
    simp only [detailConstrain, h1, h2, ok_bind, ht, Bool.true_or, expects_true]
    split
    · refine ⟨_, _, by rw [make_of_le (by unfold Proper at *; grind)]; rfl⟩
    · split
      · exact ⟨_, _, rfl⟩
      · split <;> exact ⟨_, _, rfl⟩

/-- What succeeds as a required condition also succeeds as an optional one, with the same result. -/
theorem detail_optional {dbg d : Bool} {id : Nat} {x : Ivl T} (c : Cond T) : ∀ f p, detailConstrain dbg d id x c f false = .ok p →
    detailConstrain dbg d id x c f true = .ok p := by
  induction c using tree_induction with
  | hp s => intro f p h; exact h
  | hl c hl =>
    intro f p h
    rw [leaf_eq hl] at h ⊢
    split at h
    · rename_i hm
      rw [if_pos hm]
      split at h
      · rename_i ht; rw [if_pos ht]; exact h
      · simp at h
    · rename_i hm; rw [if_neg hm]; exact h
  | hc s l r ihl ihr =>
    intro f p h
    simp only [detail_conj, bind_eq_ok] at h
    obtain ⟨⟨xl, f1⟩, h1, ⟨xr, f2⟩, h2, h3⟩ := h
    simp only [detail_conj, ihl _ _ h1, ihr _ _ h2, ok_bind]
    exact h3
  | hd s l r ihl ihr =>
    intro f p h
    simp only [detailConstrain, bind_eq_ok] at h
    obtain ⟨⟨xl, f1⟩, h1, ⟨xr, f2⟩, h2, u, h4, h3⟩ := h
    simp only [detailConstrain, h1, h2, ok_bind, Bool.or_true, expects_true]
    exact h3

end Intervals
