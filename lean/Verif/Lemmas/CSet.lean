import Mathlib.Tactic.Common
import Verif.Spec.Set
/-! Lemmas on bit sets used by the property theorems of `Verif/Props/Set.lean`. -/
set_option linter.unusedSectionVars false
namespace Intervals
variable {T : Type _} [DecidableEq T] {vals : List T}
open Spec

theorem findValueIndex_ok {v : T} {i : Nat} (h : findValueIndex vals v = .ok i) :
    ∃ hi : i < vals.length, vals[i] = v ∧ ∀ j (hj : j < i), vals[j] ≠ v := by
  unfold findValueIndex at h
  split at h
  · rename_i k hk
    cases h
    rw [List.findIdx?_eq_some_iff_getElem] at hk
    obtain ⟨h1, h2, h3⟩ := hk
    refine ⟨h1, by simpa using h2, fun j hj => by simpa using h3 j hj⟩
  · cases h

theorem findValueIndex_mem {v : T} (h : v ∈ vals) : ∃ i, findValueIndex vals v = .ok i := by
  unfold findValueIndex
  split
  · exact ⟨_, rfl⟩
  · rename_i hk
    rw [List.findIdx?_eq_none_iff] at hk
    have := hk v h
    simp at this

theorem findValueIndex_not_mem {v : T} (h : v ∉ vals) : findValueIndex vals v = .error .contract := by
  unfold findValueIndex
  split
  · rename_i hk
    rw [List.findIdx?_eq_some_iff_getElem] at hk
    obtain ⟨h1, h2, _⟩ := hk
    have h3 := of_decide_eq_true h2
    exact absurd (h3 ▸ List.getElem_mem h1) h
  · rfl

theorem findValueIndex_getElem (hn : vals.Nodup) {i : Nat} (hi : i < vals.length) :
    findValueIndex vals vals[i] = .ok i := by
  obtain ⟨j, hj⟩ := findValueIndex_mem (List.getElem_mem hi)
  obtain ⟨h1, h2, _⟩ := findValueIndex_ok hj
  rw [hj, (List.getElem_inj hn).mp h2]

theorem bitSet_get {n : Nat} (s : BitVec n) {i : Nat} (j : Nat) (hi : i < n) :
    (bitSet s i).getLsbD j = (s.getLsbD j || decide (j = i)) := by
  unfold bitSet
  simp only [BitVec.getLsbD_or, BitVec.getLsbD_shiftLeft, BitVec.getLsbD_one]
  by_cases hj : j = i
  · subst hj; simp [hi]; omega
  · by_cases h2 : j < i
    · simp [hj, h2]
    · have : ¬ (j - i = 0) := by omega
      simp [hj, this]

theorem SMem_iff {v : T} {s : CSet vals} : SMem v s ↔ ∃ i, findValueIndex vals v = .ok i ∧ s.getLsbD i = true := by
  unfold SMem CSet.containsVal
  rw [bind_eq_ok]
  constructor
  · rintro ⟨i, h1, h2⟩; exact ⟨i, h1, Except.ok.inj h2⟩
  · rintro ⟨i, h1, h2⟩; exact ⟨i, h1, by rw [h2]; rfl⟩

theorem SMem.mem {v : T} {s : CSet vals} (h : SMem v s) : v ∈ vals := by
  obtain ⟨i, h1, _⟩ := SMem_iff.mp h
  obtain ⟨h1, h2, _⟩ := findValueIndex_ok h1
  rw [← h2]; exact List.getElem_mem h1

theorem SMem_getElem (hn : vals.Nodup) {s : CSet vals} {i : Nat} (hi : i < vals.length) :
    SMem vals[i] s ↔ s.getLsbD i = true := by
  rw [SMem_iff]
  constructor
  · rintro ⟨j, h1, h2⟩
    rw [findValueIndex_getElem hn hi] at h1
    cases h1; exact h2
  · intro h; exact ⟨i, findValueIndex_getElem hn hi, h⟩

theorem containsVal_ok {v : T} (s : CSet vals) (h : v ∈ vals) :
    CSet.containsVal s v = .ok (decide (SMem v s)) := by
  obtain ⟨i, hi⟩ := findValueIndex_mem h
  by_cases hs : SMem v s
  · rw [hs]; simp [hs]
  · unfold SMem at hs
    unfold CSet.containsVal at hs ⊢
    rw [hi] at hs ⊢
    simp only [ok_bind] at hs ⊢
    cases hb : s.getLsbD i
    · simp [SMem, CSet.containsVal, hi, hb]; rfl
    · rw [hb] at hs; exact absurd rfl hs

theorem SMem_empty {v : T} : ¬ SMem v (CSet.empty vals) := by
  rw [SMem_iff]; rintro ⟨i, _, h⟩; simp [CSet.empty] at h

theorem SMem_or {v : T} {s r : CSet vals} : SMem v (s ||| r : CSet vals) ↔ SMem v s ∨ SMem v r := by
  simp only [SMem_iff]
  constructor
  · rintro ⟨i, h1, h2⟩
    simp only [BitVec.getLsbD_or, Bool.or_eq_true] at h2
    exact h2.imp (fun h => ⟨i, h1, h⟩) (fun h => ⟨i, h1, h⟩)
  · rintro (⟨i, h1, h2⟩ | ⟨i, h1, h2⟩) <;> exact ⟨i, h1, by simp [h2]⟩

theorem assignVal_ok {v : T} (s : CSet vals) (h : v ∈ vals) :
    ∃ s', CSet.assignVal s v = .ok s' ∧ ∀ w, SMem w s' ↔ SMem w s ∨ w = v := by
  obtain ⟨i, hi⟩ := findValueIndex_mem h
  obtain ⟨h1, h2, h3⟩ := findValueIndex_ok hi
  refine ⟨bitSet s i, by simp [CSet.assignVal, hi, pure, Except.pure], fun w => ?_⟩
  simp only [SMem_iff]
  constructor
  · rintro ⟨j, hj, hb⟩
    rw [bitSet_get s j h1, Bool.or_eq_true] at hb
    rcases hb with hb | hb
    · exact Or.inl ⟨j, hj, hb⟩
    · obtain ⟨_, e, _⟩ := findValueIndex_ok hj
      have : j = i := by simpa using hb
      subst this; exact Or.inr (by rw [← e, h2])
  · rintro (⟨j, hj, hb⟩ | rfl)
    · exact ⟨j, hj, by rw [bitSet_get s j h1, hb]; rfl⟩
    · exact ⟨i, hi, by rw [bitSet_get s i h1]; simp⟩

theorem assignVal_not_mem {v : T} (s : CSet vals) (h : v ∉ vals) : CSet.assignVal s v = .error .contract := by
  simp [CSet.assignVal, findValueIndex_not_mem h]

theorem assigned_iff (hn : vals.Nodup) {s : CSet vals} : CSet.assigned s = true ↔ ∃ v, SMem v s := by
  constructor
  · intro h
    by_contra hc
    apply (by simpa [CSet.assigned] using h : ¬ s = 0#_)
    apply BitVec.eq_of_getLsbD_eq
    intro i hi
    rw [BitVec.getLsbD_zero]
    by_contra hb
    exact hc ⟨_, (SMem_getElem hn hi).mpr (by simpa using hb)⟩
  · rintro ⟨v, hv⟩
    obtain ⟨i, _, hb⟩ := SMem_iff.mp hv
    by_contra h
    have : s = 0#_ := by simpa [CSet.assigned] using h
    rw [this] at hb; simp at hb

/-- Without distinctness of the value list, membership still implies `assigned()`. -/
theorem assigned_of_SMem {s : CSet vals} {v : T} (hv : SMem v s) : CSet.assigned s = true := by
  obtain ⟨i, _, hb⟩ := SMem_iff.mp hv
  by_contra h
  have : s = 0#_ := by simpa [CSet.assigned] using h
  rw [this] at hb; simp at hb

theorem ext_SMem (hn : vals.Nodup) {s r : CSet vals} (h : ∀ v, SMem v s ↔ SMem v r) : s = r := by
  apply BitVec.eq_of_getLsbD_eq
  intro i hi
  have := h vals[i]
  rw [SMem_getElem hn hi, SMem_getElem hn hi] at this
  exact Bool.eq_iff_iff.mpr this

/-! ### counting -/

theorem bitCount_eq {n : Nat} (s : BitVec n) : bitCount s = ((List.range n).filter (fun i => s.getLsbD i)).length := by
  rw [bitCount, List.countP_eq_length_filter]

theorem mem_bits {n : Nat} {s : BitVec n} {i : Nat} :
    i ∈ (List.range n).filter (fun i => s.getLsbD i) ↔ s.getLsbD i = true := by
  simp only [List.mem_filter, List.mem_range, and_iff_right_iff_imp]
  intro h; exact BitVec.lt_of_getLsbD h

theorem bitCount_gt_one {n : Nat} {s : BitVec n} :
    bitCount s > 1 ↔ ∃ i j, i ≠ j ∧ s.getLsbD i = true ∧ s.getLsbD j = true := by
  rw [bitCount_eq]
  have hnd : ((List.range n).filter (fun i => s.getLsbD i)).Nodup := List.nodup_range.filter _
  constructor
  · intro h
    match hl : (List.range n).filter (fun i => s.getLsbD i), h with
    | a :: b :: l, _ =>
      rw [hl] at hnd
      refine ⟨a, b, ?_, mem_bits.mp (by rw [hl]; simp), mem_bits.mp (by rw [hl]; simp)⟩
      rintro rfl; simp at hnd
  · rintro ⟨i, j, hij, hi, hj⟩
    have h1 := mem_bits.mpr hi
    have h2 := mem_bits.mpr hj
    match hl : (List.range n).filter (fun i => s.getLsbD i) with
    | [] => rw [hl] at h1; simp at h1
    | [a] =>
      rw [hl] at h1 h2
      simp only [List.mem_singleton] at h1 h2
      exact absurd (h1.trans h2.symm) hij
    | a :: b :: l => simp

theorem bitCount_pos {n : Nat} {s : BitVec n} {i : Nat} (h : s.getLsbD i = true) : 0 < bitCount s := by
  rw [bitCount_eq]; exact List.length_pos_of_mem (mem_bits.mpr h)

/-- `compare_eq` on non-empty operands decides "some differing pair" and "some equal pair" of indices. -/
theorem compareEq_spec {l r : CSet vals} {a b : Nat} (ha : l.getLsbD a = true) (hb : r.getLsbD b = true) :
    ((CSet.compareEq l r).1 = true ↔ ∃ i j, i ≠ j ∧ l.getLsbD i = true ∧ r.getLsbD j = true) ∧
    ((CSet.compareEq l r).2 = true ↔ ∃ i, l.getLsbD i = true ∧ r.getLsbD i = true) := by
  have hmatch : (CSet.compareEq l r).2 = true ↔ ∃ i, l.getLsbD i = true ∧ r.getLsbD i = true := by
    simp only [CSet.compareEq, bne_iff_ne, ne_eq]
    constructor
    · intro h
      by_contra hc
      apply h
      apply BitVec.eq_of_getLsbD_eq
      intro i _
      rw [BitVec.getLsbD_and, BitVec.getLsbD_zero]
      by_contra hx
      simp only [Bool.not_eq_false, Bool.and_eq_true] at hx
      exact hc ⟨i, hx⟩
    · rintro ⟨i, h1, h2⟩ h0
      have : (l &&& r).getLsbD i = false := by rw [h0]; simp
      simp [h1, h2] at this
  refine ⟨?_, hmatch⟩
  have e : (CSet.compareEq l r).1 = (decide (bitCount l > 1) || decide (bitCount r > 1) ||
      (bitCount l == 1 && bitCount r == 1 && !(CSet.compareEq l r).2)) := rfl
  rw [e]
  simp only [Bool.or_eq_true, decide_eq_true_eq, Bool.and_eq_true, beq_iff_eq, Bool.not_eq_true']
  constructor
  · rintro ((h | h) | ⟨⟨_, _⟩, h3⟩)
    · obtain ⟨i, j, hij, hi, hj⟩ := bitCount_gt_one.mp h
      by_cases hib : i = b
      · exact ⟨j, b, by rintro rfl; exact hij hib, hj, hb⟩
      · exact ⟨i, b, hib, hi, hb⟩
    · obtain ⟨i, j, hij, hi, hj⟩ := bitCount_gt_one.mp h
      by_cases hib : a = i
      · exact ⟨a, j, by rw [hib]; exact hij, ha, hj⟩
      · exact ⟨a, i, hib, ha, hi⟩
    · refine ⟨a, b, ?_, ha, hb⟩
      rintro rfl
      rw [hmatch.mpr ⟨a, ha, hb⟩] at h3; cases h3
  · rintro ⟨i, j, hij, hi, hj⟩
    by_cases hl : bitCount l > 1
    · exact Or.inl (Or.inl hl)
    by_cases hr : bitCount r > 1
    · exact Or.inl (Or.inr hr)
    right
    have h1 := bitCount_pos ha
    have h2 := bitCount_pos hb
    refine ⟨⟨by omega, by omega⟩, ?_⟩
    by_contra hm
    obtain ⟨k, hk1, hk2⟩ := hmatch.mp (by simpa using hm)
    apply hij
    have e1 : i = k := by
      by_contra hne; exact hl (bitCount_gt_one.mpr ⟨i, k, hne, hi, hk1⟩)
    have e2 : j = k := by
      by_contra hne; exact hr (bitCount_gt_one.mpr ⟨j, k, hne, hj, hk2⟩)
    rw [e1, e2]

/-! ### value() -/

theorem valueLoop_ok {n : Nat} {v : T} : ∀ (vs : List T) (s : BitVec n), (∀ i, vs.length ≤ i → s.getLsbD i = false) →
    (CSet.valueLoop vs s = .ok v ↔ ∃ i, vs[i]? = some v ∧ ∀ j, s.getLsbD j = true ↔ j = i)
  | [], s, h => by
    simp [CSet.valueLoop]
  | w :: vs, s, h => by
    unfold CSet.valueLoop
    simp only
    by_cases hb : s.getLsbD 0 = true
    · rw [if_pos hb]
      by_cases hz : s >>> 1 = 0#n
      · have hall : ∀ j, s.getLsbD j = true ↔ j = 0 := by
          intro j
          constructor
          · intro hj
            by_contra hne
            have : (s >>> 1).getLsbD (j-1) = false := by rw [hz]; simp
            rw [BitVec.getLsbD_ushiftRight] at this
            rw [show 1 + (j-1) = j by omega] at this
            rw [this] at hj; cases hj
          · rintro rfl; exact hb
        simp only [hz, BEq.rfl, if_true]
        constructor
        · intro e; cases e; exact ⟨0, by simp, hall⟩
        · rintro ⟨i, h1, h2⟩
          have : i = 0 := ((h2 0).mp hb).symm
          subst this
          simp at h1; rw [h1]
      · have : (s >>> 1 == 0#n) = false := by simpa using hz
        rw [this]
        simp only [Bool.false_eq_true, if_false]
        constructor
        · intro e; cases e
        · rintro ⟨i, h1, h2⟩
          exfalso
          apply hz
          apply BitVec.eq_of_getLsbD_eq
          intro j _
          rw [BitVec.getLsbD_ushiftRight, BitVec.getLsbD_zero]
          by_contra hx
          have e1 := (h2 (1+j)).mp (by simpa using hx)
          have e2 := (h2 0).mp hb
          omega
    · rw [if_neg hb]
      rw [valueLoop_ok vs (s >>> 1) (by
        intro i hi
        rw [BitVec.getLsbD_ushiftRight]; exact h _ (by simp; omega))]
      constructor
      · rintro ⟨i, h1, h2⟩
        refine ⟨i+1, by simpa using h1, fun j => ?_⟩
        cases j with
        | zero => simp [hb]
        | succ j =>
          have := h2 j
          rw [BitVec.getLsbD_ushiftRight, show 1 + j = j + 1 by omega] at this
          rw [this]; omega
      · rintro ⟨i, h1, h2⟩
        cases i with
        | zero => exact absurd ((h2 0).mpr rfl) hb
        | succ i =>
          refine ⟨i, by simpa using h1, fun j => ?_⟩
          rw [BitVec.getLsbD_ushiftRight, show 1 + j = j + 1 by omega, h2 (j+1)]; omega

theorem valueLoop_err {n : Nat} {e : Err} : ∀ (vs : List T) (s : BitVec n), CSet.valueLoop vs s = .error e → e = .contract
  | [], s, h => by cases h; rfl
  | w :: vs, s, h => by
    unfold CSet.valueLoop at h
    simp only at h
    split at h
    · split at h
      · cases h
      · cases h; rfl
    · exact valueLoop_err vs _ h

end Intervals
