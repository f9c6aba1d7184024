import Verif.Lemmas.CSet
import Mathlib.Tactic.Tauto
/-!
# C05–C08: `set<T>`

`vals` is the list of reflected values of an arbitrary type `T`; `vals.Nodup` says that a reflection lists no value twice.
-/
set_option linter.unusedSectionVars false
namespace Intervals.Props
open Intervals Intervals.Spec

variable {T : Type _} [DecidableEq T] {vals : List T}

/-! ## C05 -/

/-- the effect of one legal call on membership -/
theorem C05_step (dbg : Bool) (s : CSet vals) (op : SetOp vals) (hl : op.legal dbg) :
    ∃ s', op.run dbg s = .ok s' ∧ ∀ v, SMem v s' ↔ op.adds v ∨ (SMem v s ∧ ¬ op.clears) := by
  cases op with
  | reset => exact ⟨CSet.empty vals, rfl, fun v => by simp [SetOp.adds, SetOp.clears, SMem_empty]⟩
  | resetTo r => exact ⟨r, rfl, fun v => by simp [SetOp.adds, SetOp.clears]⟩
  | assignSet r =>
    refine ⟨s ||| r, ?_, fun v => by rw [SMem_or]; simp [SetOp.adds, SetOp.clears, or_comm]⟩
    simp only [SetOp.run, CSet.assignSet]
    rw [show expectsDebug dbg (CSet.assigned r) = .ok () from
      expectsDebug_eq_ok.mpr (fun hd => by obtain ⟨v, hv⟩ := hl hd; exact assigned_of_SMem hv)]
    rfl
  | assignVal w =>
    obtain ⟨s', h1, h2⟩ := assignVal_ok s (v := w) hl
    exact ⟨s', h1, fun v => by rw [h2]; simp [SetOp.adds, SetOp.clears, or_comm]⟩

/-- C05: after every history of legal calls the set contains exactly the values that were put in since the last clearing call. -/
theorem C05_history (dbg : Bool) (s : CSet vals) (ops : List (SetOp vals)) (hl : ∀ op ∈ ops, op.legal dbg) :
    ∃ s', runSetOps dbg ops s = .ok s' ∧ ∀ v, SMem v s' ↔ InHistory s ops v := by
  induction ops generalizing s with
  | nil => exact ⟨s, rfl, fun v => by simp [InHistory]⟩
  | cons op ops ih =>
    obtain ⟨s1, h1, h2⟩ := C05_step dbg s op (hl op (by simp))
    obtain ⟨s2, h3, h4⟩ := ih s1 (fun o ho => hl o (by simp [ho]))
    refine ⟨s2, by simp [runSetOps, h1, h3], fun v => ?_⟩
    rw [h4]
    unfold InHistory
    constructor
    · rintro (⟨pre, o, post, e, ha, hp⟩ | ⟨hm, hc⟩)
      · exact Or.inl ⟨op :: pre, o, post, by simp [e], ha, hp⟩
      · rcases (h2 v).mp hm with h | ⟨h, hn⟩
        · exact Or.inl ⟨[], op, ops, rfl, h, hc⟩
        · refine Or.inr ⟨h, fun o ho => ?_⟩
          rcases List.mem_cons.mp ho with rfl | ho
          · exact hn
          · exact hc o ho
    · rintro (⟨pre, o, post, e, ha, hp⟩ | ⟨hm, hc⟩)
      · cases pre with
        | nil =>
          simp only [List.nil_append, List.cons.injEq] at e
          obtain ⟨rfl, rfl⟩ := e
          exact Or.inr ⟨(h2 v).mpr (Or.inl ha), hp⟩
        | cons p pre =>
          simp only [List.cons_append, List.cons.injEq] at e
          obtain ⟨rfl, rfl⟩ := e
          exact Or.inl ⟨pre, o, post, rfl, ha, hp⟩
      · exact Or.inr ⟨(h2 v).mpr (Or.inr ⟨hm, hc op (by simp)⟩), fun o ho => hc o (by simp [ho])⟩

/-- C05: a history with an illegal call (unreflected value, or an empty set assigned in debug mode) is a contract violation. -/
theorem C05_illegal (hn : vals.Nodup) (dbg : Bool) (s : CSet vals) (ops : List (SetOp vals)) (hl : ¬ ∀ op ∈ ops, op.legal dbg) :
    runSetOps dbg ops s = .error .contract := by
  induction ops generalizing s with
  | nil => simp at hl
  | cons op ops ih =>
    by_cases h : op.legal dbg
    · obtain ⟨s1, h1, _⟩ := C05_step dbg s op h
      simp only [runSetOps, h1, ok_bind]
      apply ih
      intro hc
      apply hl
      intro o ho
      rcases List.mem_cons.mp ho with rfl | ho
      · exact h
      · exact hc o ho
    · have : op.run dbg s = .error .contract := by
        cases op with
        | reset => exact absurd trivial h
        | resetTo r => exact absurd trivial h
        | assignVal v => exact assignVal_not_mem s h
        | assignSet r =>
          simp only [SetOp.legal, Classical.not_imp] at h
          obtain ⟨hd, hm⟩ := h
          have : CSet.assigned r = false := by
            by_contra hc
            exact hm ((assigned_iff hn).mp (by simpa using hc))
          simp [SetOp.run, CSet.assignSet, this, hd]
      simp [runSetOps, this]

/-- C05: construction from an initializer list gives exactly the listed values; a value that is not reflected is a contract violation. -/
theorem C05_init_list (vs : List T) : ((∀ v ∈ vs, v ∈ vals) → ∃ s, CSet.ofList vals vs = .ok s ∧ ∀ v, SMem v s ↔ v ∈ vs) ∧
    ((∃ v ∈ vs, v ∉ vals) → CSet.ofList vals vs = .error .contract) := by
  have key : ∀ (vs : List T) (s0 : CSet vals),
      ((∀ v ∈ vs, v ∈ vals) → ∃ s, vs.foldlM (fun s v => CSet.assignVal s v) s0 = .ok s ∧ ∀ v, SMem v s ↔ v ∈ vs ∨ SMem v s0) ∧
      ((∃ v ∈ vs, v ∉ vals) → vs.foldlM (fun s v => CSet.assignVal s v) s0 = .error .contract) := by
    intro vs
    induction vs with
    | nil => intro s0; exact ⟨fun _ => ⟨s0, rfl, fun v => by simp⟩, fun ⟨v, h, _⟩ => by cases h⟩
    | cons w vs ih =>
      intro s0
      constructor
      · intro h
        obtain ⟨s1, h1, h2⟩ := assignVal_ok s0 (v := w) (h w (by simp))
        obtain ⟨s, h3, h4⟩ := (ih s1).1 (fun v hv => h v (by simp [hv]))
        refine ⟨s, by simp [List.foldlM, h1, h3], fun v => ?_⟩
        rw [h4, h2, List.mem_cons]
        tauto
      · rintro ⟨v, hv, hn⟩
        by_cases hw : w ∈ vals
        · obtain ⟨s1, h1, h2⟩ := assignVal_ok s0 (v := w) hw
          have hv' : v ∈ vs := by
            rcases List.mem_cons.mp hv with rfl | h
            · exact absurd hw hn
            · exact h
          simp only [List.foldlM, h1, ok_bind]
          exact (ih s1).2 ⟨v, hv', hn⟩
        · simp only [List.foldlM, assignVal_not_mem s0 hw]; rfl
  obtain ⟨k1, k2⟩ := key vs (CSet.empty vals)
  refine ⟨fun h => ?_, k2⟩
  obtain ⟨s, h1, h2⟩ := k1 h
  exact ⟨s, h1, fun v => by rw [h2]; simp [SMem_empty]⟩
example : CSet.ofList [1, 2, 3] [3, 1, 3] = .ok (5#3) ∧ CSet.ofList [1, 2, 3] [1, 4] = .error .contract := by decide

/-- C05: the order of assignments does not matter. -/
theorem C05_order (hn : vals.Nodup) (dbg : Bool) (s : CSet vals) (ops ops' : List (SetOp vals)) (hp : ops.Perm ops')
    (hc : ∀ op ∈ ops, ¬ op.clears) (hl : ∀ op ∈ ops, op.legal dbg) :
    runSetOps dbg ops s = runSetOps dbg ops' s := by
  obtain ⟨s1, e1, h1⟩ := C05_history dbg s ops hl
  obtain ⟨s2, e2, h2⟩ := C05_history dbg s ops' (fun o ho => hl o (hp.mem_iff.mpr ho))
  rw [e1, e2]
  congr 1
  apply ext_SMem hn
  intro v
  rw [h1, h2]
  have key : ∀ (l : List (SetOp vals)), (∀ op ∈ l, ¬ op.clears) → (InHistory s l v ↔ (∃ op ∈ l, op.adds v) ∨ SMem v s) := by
    intro l hl'
    unfold InHistory
    constructor
    · rintro (⟨pre, o, post, rfl, ha, _⟩ | ⟨hm, _⟩)
      · exact Or.inl ⟨o, by simp, ha⟩
      · exact Or.inr hm
    · rintro (⟨o, ho, ha⟩ | hm)
      · obtain ⟨pre, post, rfl⟩ := List.append_of_mem ho
        exact Or.inl ⟨pre, o, post, rfl, ha, fun x hx => hl' x (by simp [hx])⟩
      · exact Or.inr ⟨hm, hl'⟩
  rw [key ops hc, key ops' (fun o ho => hc o (hp.mem_iff.mpr ho))]
  constructor
  · rintro (⟨o, ho, ha⟩ | h)
    · exact Or.inl ⟨o, hp.mem_iff.mp ho, ha⟩
    · exact Or.inr h
  · rintro (⟨o, ho, ha⟩ | h)
    · exact Or.inl ⟨o, hp.mem_iff.mpr ho, ha⟩
    · exact Or.inr h

/-- C05: two sets with the same members are the same set (there is no hidden state). -/
theorem C05_extensional (hn : vals.Nodup) (s r : CSet vals) (h : ∀ v, SMem v s ↔ SMem v r) : s = r := ext_SMem hn h

/-- a history with all kinds of calls -/
example : ∃ s', runSetOps (vals := Sign.vals) true [.assignVal .pos, .reset, .assignVal .neg, .assignSet (2#3)] (CSet.empty Sign.vals) = .ok s' ∧
    SMem Sign.neg s' ∧ SMem Sign.zero s' ∧ ¬ SMem Sign.pos s' := ⟨CSet.fromBits Sign.vals 3, by decide, by decide, by decide, by decide⟩

/-! ## C06 -/

private theorem SMem_ex (hn : vals.Nodup) {s : CSet vals} {P : T → Prop} :
    (∃ v, SMem v s ∧ P v) ↔ ∃ i, ∃ h : i < vals.length, s.getLsbD i = true ∧ P vals[i] := by
  constructor
  · rintro ⟨v, hv, hp⟩
    obtain ⟨i, hi, hb⟩ := SMem_iff.mp hv
    obtain ⟨h1, h2, _⟩ := findValueIndex_ok hi
    exact ⟨i, h1, hb, by rw [h2]; exact hp⟩
  · rintro ⟨i, h, hb, hp⟩
    exact ⟨vals[i], (SMem_getElem hn h).mpr hb, hp⟩

private theorem compareEq_mem (hn : vals.Nodup) {A B : CSet vals} (hA : ∃ a, SMem a A) (hB : ∃ b, SMem b B) :
    ((CSet.compareEq A B).1 = true ↔ ∃ a b, SMem a A ∧ SMem b B ∧ a ≠ b) ∧
    ((CSet.compareEq A B).2 = true ↔ ∃ a b, SMem a A ∧ SMem b B ∧ a = b) := by
  obtain ⟨a0, ha0⟩ := hA
  obtain ⟨b0, hb0⟩ := hB
  obtain ⟨i0, _, hi0⟩ := SMem_iff.mp ha0
  obtain ⟨j0, _, hj0⟩ := SMem_iff.mp hb0
  obtain ⟨h1, h2⟩ := compareEq_spec hi0 hj0
  constructor
  · rw [h1]
    constructor
    · rintro ⟨i, j, hij, hi, hj⟩
      have li := BitVec.lt_of_getLsbD hi
      have lj := BitVec.lt_of_getLsbD hj
      refine ⟨vals[i], vals[j], (SMem_getElem hn li).mpr hi, (SMem_getElem hn lj).mpr hj, ?_⟩
      intro e; exact hij ((List.getElem_inj hn).mp e)
    · rintro ⟨a, b, ha, hb, hab⟩
      obtain ⟨i, hi, hib⟩ := SMem_iff.mp ha
      obtain ⟨j, hj, hjb⟩ := SMem_iff.mp hb
      refine ⟨i, j, ?_, hib, hjb⟩
      rintro rfl
      obtain ⟨_, e1, _⟩ := findValueIndex_ok hi
      obtain ⟨_, e2, _⟩ := findValueIndex_ok hj
      exact hab (e1.symm.trans e2)
  · rw [h2]
    constructor
    · rintro ⟨i, hi, hj⟩
      have li := BitVec.lt_of_getLsbD hi
      exact ⟨vals[i], vals[i], (SMem_getElem hn li).mpr hi, (SMem_getElem hn li).mpr hj, rfl⟩
    · rintro ⟨a, b, ha, hb, rfl⟩
      obtain ⟨i, hi, hib⟩ := SMem_iff.mp ha
      obtain ⟨j, hj, hjb⟩ := SMem_iff.mp hb
      rw [hi] at hj; cases hj
      exact ⟨i, hib, hjb⟩

/-- C06: `==` on non-empty sets reports exactly which comparison results are possible. -/
theorem C06_eq (hn : vals.Nodup) (dbg : Bool) (A B : CSet vals) (hA : ∃ a, SMem a A) (hB : ∃ b, SMem b B) :
    ∃ R, CSet.opEq dbg A B = .ok R ∧ ∀ r, BoolSet.contains R r = true ↔ ∃ a b, SMem a A ∧ SMem b B ∧ decide (a = b) = r := by
  obtain ⟨h1, h2⟩ := compareEq_mem hn hA hB
  have has := (assigned_iff hn).mpr hA
  have hbs := (assigned_iff hn).mpr hB
  unfold CSet.opEq
  rw [has, hbs, show expectsDebug dbg (true && true) = .ok () by simp]
  generalize CSet.compareEq A B = p at h1 h2
  obtain ⟨m, h⟩ := p
  refine ⟨_, rfl, fun r => ?_⟩
  cases r with
  | false =>
    simp only [decide_eq_false_iff_not]
    refine Iff.trans ?_ h1
    clear h1 h2; revert m h; decide
  | true =>
    simp only [decide_eq_true_eq]
    refine Iff.trans ?_ h2
    clear h1 h2; revert m h; decide

/-- C06: `!=` is exactly the complementary question. -/
theorem C06_ne (hn : vals.Nodup) (dbg : Bool) (A B : CSet vals) (hA : ∃ a, SMem a A) (hB : ∃ b, SMem b B) :
    ∃ R, CSet.opNe dbg A B = .ok R ∧ (∀ r, BoolSet.contains R r = true ↔ ∃ a b, SMem a A ∧ SMem b B ∧ decide (a ≠ b) = r) ∧
      CSet.opEq dbg A B = .ok (BoolSet.notCore R) := by
  obtain ⟨h1, h2⟩ := compareEq_mem hn hA hB
  have has := (assigned_iff hn).mpr hA
  have hbs := (assigned_iff hn).mpr hB
  unfold CSet.opNe CSet.opEq
  rw [has, hbs, show expectsDebug dbg (true && true) = .ok () by simp]
  generalize CSet.compareEq A B = p at h1 h2
  obtain ⟨m, h⟩ := p
  refine ⟨_, rfl, fun r => ?_, ?_⟩
  · cases r with
    | true =>
      simp only [decide_eq_true_eq]
      refine Iff.trans ?_ h1
      clear h1 h2; revert m h; decide
    | false =>
      simp only [decide_eq_false_iff_not, ne_eq, Decidable.not_not]
      refine Iff.trans ?_ h2
      clear h1 h2; revert m h; decide
  · simp only [ok_bind]
    clear h1 h2
    revert m h; decide

/-- C06: comparing with an empty set is a contract violation in debug mode. -/
theorem C06_eq_empty (hn : vals.Nodup) (A B : CSet vals) (h : ¬ ((∃ a, SMem a A) ∧ ∃ b, SMem b B)) :
    CSet.opEq true A B = .error .contract ∧ CSet.opNe true A B = .error .contract := by
  have : (CSet.assigned A && CSet.assigned B) = false := by
    by_contra hc
    simp only [Bool.not_eq_false, Bool.and_eq_true] at hc
    exact h ⟨(assigned_iff hn).mp hc.1, (assigned_iff hn).mp hc.2⟩
  simp [CSet.opEq, CSet.opNe, this]

/-- C06: `A.contains(B)` iff `B` is a subset. -/
theorem C06_contains (hn : vals.Nodup) (A B : CSet vals) : CSet.containsSet A B = true ↔ ∀ v, SMem v B → SMem v A := by
  unfold CSet.containsSet
  rw [beq_iff_eq]
  constructor
  · intro h v hv
    obtain ⟨i, hi, hb⟩ := SMem_iff.mp hv
    refine SMem_iff.mpr ⟨i, hi, ?_⟩
    rw [← h, BitVec.getLsbD_and, Bool.and_eq_true] at hb
    exact hb.1
  · intro h
    apply BitVec.eq_of_getLsbD_eq
    intro i hi
    rw [BitVec.getLsbD_and]
    have := h vals[i]
    rw [SMem_getElem hn hi, SMem_getElem hn hi] at this
    cases hA : A.getLsbD i <;> cases hB : B.getLsbD i <;> simp_all

/-- C06: `A.matches(B)` iff the members are the same; `A.matches(v)` iff `v` is the only member. -/
theorem C06_matches (hn : vals.Nodup) (A B : CSet vals) : CSet.matchesSet A B = true ↔ ∀ v, SMem v A ↔ SMem v B := by
  unfold CSet.matchesSet
  rw [beq_iff_eq]
  exact ⟨fun h v => by rw [h], fun h => ext_SMem hn h⟩
theorem C06_matches_value (hn : vals.Nodup) (A : CSet vals) (v : T) (hv : v ∈ vals) :
    ∃ b, CSet.matchesVal A v = .ok b ∧ (b = true ↔ ∀ w, SMem w A ↔ w = v) := by
  obtain ⟨s', h1, h2⟩ := assignVal_ok (CSet.empty vals) hv
  refine ⟨CSet.matchesSet A s', by simp [CSet.matchesVal, CSet.ofVal, h1, pure, Except.pure], ?_⟩
  rw [C06_matches hn]
  simp [h2, SMem_empty]

/-- C06: `value()` returns `v` iff `v` is the one and only member; in every other case it fails fast. -/
theorem C06_value (hn : vals.Nodup) (dbg : Bool) (A : CSet vals) (v : T) :
    (CSet.value dbg A = .ok v ↔ ∀ w, SMem w A ↔ w = v) := by
  unfold CSet.value
  have hz : ∀ i, vals.length ≤ i → A.getLsbD i = false := fun i hi => BitVec.getLsbD_of_ge A i hi
  have key : (∃ i, vals[i]? = some v ∧ ∀ j, A.getLsbD j = true ↔ j = i) ↔ ∀ w, SMem w A ↔ w = v := by
    constructor
    · rintro ⟨i, h1, h2⟩ w
      obtain ⟨hi, e⟩ := List.getElem?_eq_some_iff.mp h1
      constructor
      · intro hw
        obtain ⟨j, hj, hb⟩ := SMem_iff.mp hw
        obtain ⟨_, e2, _⟩ := findValueIndex_ok hj
        have := (h2 j).mp hb
        subst this; rw [← e2, e]
      · rintro rfl
        rw [← e, SMem_getElem hn hi]; exact (h2 i).mpr rfl
    · intro h
      obtain ⟨i, hi, hb⟩ := SMem_iff.mp ((h v).mpr rfl)
      obtain ⟨l, e, _⟩ := findValueIndex_ok hi
      refine ⟨i, by rw [List.getElem?_eq_getElem l, e], fun j => ⟨fun hj => ?_, fun hj => hj ▸ hb⟩⟩
      have lj := BitVec.lt_of_getLsbD hj
      have := (h vals[j]).mp ((SMem_getElem hn lj).mpr hj)
      exact (List.getElem_inj hn).mp (this.trans e.symm)
  constructor
  · intro h
    obtain ⟨_, _, h2⟩ := bind_eq_ok.mp h
    exact key.mp ((valueLoop_ok vals A hz).mp h2)
  · intro h
    have ha : CSet.assigned A = true := assigned_of_SMem ((h v).mpr rfl)
    rw [ha]; simp only [expectsDebug_true, ok_bind]
    exact (valueLoop_ok vals A hz).mpr (key.mpr h)
theorem C06_value_fails (hn : vals.Nodup) (dbg : Bool) (A : CSet vals) (h : ¬ ∃ v, ∀ w, SMem w A ↔ w = v) :
    CSet.value dbg A = .error .contract := by
  cases hv : CSet.value dbg A with
  | ok v => exact absurd ⟨v, (C06_value hn dbg A v).mp hv⟩ h
  | error e =>
    congr 1
    unfold CSet.value at hv
    by_cases hb : dbg = true ∧ CSet.assigned A = false
    · rw [hb.1, hb.2] at hv; cases hv; rfl
    · have : expectsDebug dbg (CSet.assigned A) = .ok () := expectsDebug_eq_ok.mpr (fun hd => by
        by_contra hc; exact hb ⟨hd, by simpa using hc⟩)
      rw [this] at hv
      exact valueLoop_err _ _ hv

example : CSet.opEq (vals := Sign.vals) true (5#3) (1#3) = .ok BoolSet.both ∧ CSet.value (vals := Sign.vals) true (4#3) = .ok Sign.pos ∧
    CSet.value (vals := Sign.vals) true (5#3) = .error .contract := by decide

/-! ## C07 -/

/-- C07: `from_bits` inverts `to_bits`, for any number of values. -/
theorem C07_roundtrip (s : CSet vals) (b : BitVec 64) (h : CSet.toBits s = some b) : CSet.fromBits vals b = s := by
  unfold CSet.toBits at h
  split at h
  · next hs =>
    cases h
    unfold CSet.fromBits
    apply BitVec.eq_of_toNat_eq
    rw [BitVec.toNat_setWidth, BitVec.toNat_setWidth, Nat.mod_eq_of_lt hs, Nat.mod_eq_of_lt s.isLt]
  · cases h
/-- C07: `to_bits` throws exactly if the set has a value whose index does not fit into 64 bits, … -/
theorem C07_to_bits_throws (s : CSet vals) : CSet.toBits s = none ↔ ∃ i : Nat, 64 ≤ i ∧ CSet.containsIndex s i = .ok true := by
  have hc : ∀ i : Nat, CSet.containsIndex s i = .ok true ↔ s.getLsbD i = true := fun i => by
    by_cases h : i < vals.length
    · simp [CSet.containsIndex, h, pure, Except.pure]
    · simp [CSet.containsIndex, h, BitVec.getLsbD_of_ge s i (by omega), expects]
  simp only [hc]
  unfold CSet.toBits
  constructor
  · intro h
    split at h
    · cases h
    · next hs =>
      obtain ⟨i, h1, h2⟩ := Nat.exists_ge_and_testBit_of_ge_two_pow (Nat.le_of_not_lt hs)
      exact ⟨i, h1, h2⟩
  · rintro ⟨i, h1, h2⟩
    rw [if_neg]
    intro hs
    have h2 : s.toNat.testBit i = true := h2
    rw [Nat.testBit_lt_two_pow (Nat.lt_of_lt_of_le hs (Nat.pow_le_pow_right (by decide) h1))] at h2
    cases h2
/-- … so never with at most 64 values. -/
theorem C07_to_bits (hlen : vals.length ≤ 64) (s : CSet vals) : ∃ b, CSet.toBits s = some b := by
  cases h : CSet.toBits s with
  | some b => exact ⟨b, rfl⟩
  | none =>
    obtain ⟨i, h1, h2⟩ := (C07_to_bits_throws s).1 h
    simp [CSet.containsIndex, show ¬ i < vals.length by omega, expects] at h2
/-- C07: `to_bits` inverts `from_bits` up to the bits beyond the number of values. -/
theorem C07_to_from (b : BitVec 64) : ∃ w, CSet.toBits (CSet.fromBits vals b) = some w ∧ w.toNat = b.toNat % 2 ^ vals.length := by
  have h : b.toNat % 2 ^ vals.length < 2 ^ 64 := Nat.lt_of_le_of_lt (Nat.mod_le _ _) b.isLt
  unfold CSet.fromBits CSet.toBits
  rw [BitVec.toNat_setWidth, if_pos h]
  exact ⟨_, rfl, by rw [BitVec.toNat_setWidth, BitVec.toNat_setWidth, Nat.mod_eq_of_lt h]⟩
/-- C07: an index query reads the corresponding bit, and fails fast outside the range. -/
theorem C07_index (b : BitVec 64) (i : Int) :
    CSet.containsIndex (CSet.fromBits vals b) i =
      if 0 ≤ i ∧ i < vals.length then .ok (b.toNat.testBit i.toNat) else .error .contract := by
  unfold CSet.containsIndex CSet.fromBits
  by_cases h : 0 ≤ i ∧ i < vals.length
  · rw [if_pos h]
    simp only [h.1, h.2, decide_true, Bool.and_true, expects_true, ok_bind, BitVec.getLsbD_setWidth]
    rw [show decide (i.toNat < vals.length) = true by simp; omega]
    rfl
  · rw [if_neg h]
    rw [show (decide (0 ≤ i) && decide (i < vals.length)) = false by
      by_contra hc; simp only [Bool.not_eq_false, Bool.and_eq_true, decide_eq_true_eq] at hc; exact h hc]
    rfl
/-- C07: an index query and a value query agree. -/
theorem C07_index_value (hn : vals.Nodup) (s : CSet vals) (i : Nat) (hi : i < vals.length) :
    CSet.containsIndex s i = CSet.containsVal s vals[i] := by
  unfold CSet.containsIndex CSet.containsVal
  rw [findValueIndex_getElem hn hi]
  simp [hi]

example : Sign.vals.length ≤ 64 ∧ Sign.vals.Nodup ∧ CSet.toBits (CSet.fromBits Sign.vals 13#64) = some 5#64 := by decide
/-! A set over 70 values: with the value of index 66 it has no representation in 64 bits, with that of index 3 it has. -/
example : CSet.toBits (vals := List.range 70) (bitSet (0#_) 66) = none ∧ CSet.toBits (vals := List.range 70) (bitSet (0#_) 3) = some 8#64 := by decide +kernel

/-! ## C08 -/

/-- sign products and negation are integer arithmetic on {−1,0,1} -/
theorem C08_sign_arith : ∀ a b : Sign, (Sign.mul a b).toInt = a.toInt * b.toInt ∧ (Sign.minus a).toInt = -a.toInt ∧ Sign.plus a = a := by
  intro a b; cases a <;> cases b <;> decide

/-- C08: unary minus is exact. -/
theorem C08_neg : ∀ A : SignSet, ∃ R, SignSet.minus A = .ok R ∧ (∀ r, SMem r R ↔ ∃ a, SMem a A ∧ Sign.minus a = r) := by
  decide +kernel

/-- C08: unary plus changes nothing. -/
theorem C08_plus : ∀ (A : SignSet) (r : Sign), SMem r (SignSet.plus A) ↔ ∃ a, SMem a A ∧ Sign.plus a = r := by decide +kernel

/-- C08, products, full statement (false). -/
def C08_mul_full : Prop := ∀ A B : SignSet, ∃ R, SignSet.mul A B = .ok R ∧ IsSignExt2 Sign.mul A B R

/-- C08 is violated for products: `{0} * {}` is `{0}` instead of empty. -/
theorem C08_mul_violated : ¬ C08_mul_full := by unfold C08_mul_full; decide +kernel
theorem C08_zero_times_empty : SignSet.mul (2#3) (CSet.empty Sign.vals) = .ok (2#3) ∧ SMem Sign.zero (CSet.fromBits Sign.vals 2) ∧
    ∀ a, ¬ SMem a (CSet.empty Sign.vals) :=
  ⟨by decide, by decide, by decide⟩

/-- C08, products, partial: exact whenever neither operand is empty, or when no operand contains zero
(missing: an empty operand together with a set containing zero). -/
theorem C08_mul_partial : ∀ A B : SignSet,
    (((∃ a, SMem a A) ∧ (∃ b, SMem b B)) ∨ ¬ (SMem Sign.zero A ∨ SMem Sign.zero B)) →
    ∃ R, SignSet.mul A B = .ok R ∧ IsSignExt2 Sign.mul A B R := by decide +kernel
theorem C08_mul_sign_partial : ∀ (A : SignSet) (b : Sign), ((∃ a, SMem a A) ∨ b ≠ .zero) →
    (∃ R, SignSet.mulSV A b = .ok R ∧ ∀ r, SMem r R ↔ ∃ a, SMem a A ∧ Sign.mul a b = r) ∧
    (∃ R, SignSet.mulVS b A = .ok R ∧ ∀ r, SMem r R ↔ ∃ a, SMem a A ∧ Sign.mul b a = r) := by decide +kernel
example : SignSet.mul (5#3) (6#3) = .ok (7#3) := by decide

/-- C08: `sgn` of a scalar is the sign of its comparison with zero, for every type with a total order. -/
theorem C08_sgn {T : Type _} [CppVal T] [CppOrder T] (dbg : Bool) (z x : T)
    (hz : CppVal.le z z = true) (hx : CppVal.le x x = true) :
    ∃ s, sgnScalar dbg z x = .ok s ∧ (s = .pos ↔ CppVal.lt z x = true) ∧ (s = .neg ↔ CppVal.lt x z = true) ∧
      (s = .zero ↔ CppVal.eq x z = true) := by
  have h1 := CppOrder.lt_iff z x
  have h2 := CppOrder.lt_iff x z
  have h3 := CppOrder.eq_iff x z
  have h4 := CppOrder.le_total x z hx hz
  unfold sgnScalar
  cases ha : CppVal.lt z x <;> cases hb : CppVal.lt x z <;> cases hc : CppVal.eq x z <;>
    cases hd : CppVal.le x z <;> cases he : CppVal.le z x <;> simp_all [pure, Except.pure] <;> decide
/-- C08: `sgn` of a NaN violates a contract in debug mode. -/
theorem C08_sgn_nan {T : Type _} [CppVal T] [CppOrder T] (z x : T) (hx : CppVal.le x x = false) :
    sgnScalar true z x = .error .contract := by
  have h1 := CppOrder.lt_iff z x
  have h2 := CppOrder.lt_iff x z
  have h3 := CppOrder.eq_iff x z
  have h4 := CppOrder.le_left x z
  unfold sgnScalar
  cases ha : CppVal.lt z x <;> cases hb : CppVal.lt x z <;> cases hc : CppVal.eq x z <;>
    cases hd : CppVal.le x z <;> cases he : CppVal.le z x <;> simp_all

end Intervals.Props
