import Verif.Spec.Regular
/-!
# C57: `as_regular` gives value semantics
-/
namespace Intervals.Props
open Intervals.Regular
variable {V : Type _}

/-- C57: copy assignment, including self-assignment (`a = b`): the target gets the value of the source, the source and all other objects keep
theirs, nothing is left behind. -/
theorem C57_copy (t : Ty V) (m : Mem V) (a b : Nat) (ha : (call m a).isSome) (v : V) (hb : call m b = some v)
    (hc : t.copyThrows v = false) (hm : t.moveThrows v = false) (ht : m .tmp = none) :
    ∃ m', copyAssign t m a b = .ret m' ∧ call m' a = some v ∧ (∀ k, k ≠ a → call m' k = call m k) ∧ call m' b = some v ∧ m' .tmp = none := by
  unfold call at *
  obtain ⟨u, hu⟩ := Option.isSome_iff_exists.mp ha
  refine ⟨fun k => if k = .obj a then some v else m k, ?_, by simp, fun k hk => by simp [hk], ?_, by simp [ht]⟩
  · have e1 : (m.set .tmp (some v)) (.obj a) = some u := by simp [Mem.set, hu]
    have e2 : ((m.set .tmp (some v)).set (.obj a) none) .tmp = some v := by simp [Mem.set]
    simp only [copyAssign, hb, hc, constructInplace, e1, e2, hm, Bool.false_eq_true, if_false]
    congr 1
    funext k
    by_cases h1 : k = .tmp
    · subst h1; simp [Mem.set, ht]
    · by_cases h2 : k = .obj a <;> simp [Mem.set, h1, h2]
  · by_cases h : b = a <;> simp [h, hb]

/-- C57: if copying throws, nothing has changed. -/
theorem C57_copy_throws (t : Ty V) (m : Mem V) (a b : Nat) (v : V) (hb : call m b = some v) (hc : t.copyThrows v = true) :
    copyAssign t m a b = .threw m := by
  unfold call at hb; simp [copyAssign, hb, hc]

/-- C57: an assignment never throws after it has begun to change anything: if it ends with an exception, the memory is as before. -/
theorem C57_strong (t : Ty V) (m m' : Mem V) (s : Stmt) (h : s.run t m = .threw m') : m' = m := by
  cases s with
  | copy a b =>
    simp only [Stmt.run, copyAssign] at h
    split at h
    · cases h
    · split at h
      · cases h; rfl
      · simp only [constructInplace] at h
        repeat' split at h
        all_goals simp_all
  | move a b =>
    simp only [Stmt.run, moveAssign, constructInplace] at h
    repeat' split at h
    all_goals simp_all

/-- C57 for move assignment between two distinct objects.  Full statement: also for `a = b`; that is undefined behaviour
(`C57_self_move_violated`). -/
theorem C57_move_partial (t : Ty V) (m : Mem V) (a b : Nat) (hab : a ≠ b) (ha : (call m a).isSome) (v : V) (hb : call m b = some v)
    (hm : t.moveThrows v = false) :
    ∃ m', moveAssign t m a b = .ret m' ∧ call m' a = some v ∧ call m' b = some (t.moved v) ∧ ∀ k, k ≠ a → k ≠ b → call m' k = call m k := by
  unfold call at *
  obtain ⟨u, hu⟩ := Option.isSome_iff_exists.mp ha
  have hba : ¬ b = a := fun h => hab h.symm
  refine ⟨((m.set (.obj a) none).set (.obj b) (some (t.moved v))).set (.obj a) (some v), ?_, by simp [Mem.set], by simp [Mem.set, hba],
    fun k h1 h2 => by simp [Mem.set, h1, h2]⟩
  have : (m.set (.obj a) none) (.obj b) = some v := by simp [Mem.set, hba, hb]
  simp only [moveAssign, constructInplace, hu, this, hm]
  simp

/-- Moving an object onto itself is undefined behaviour, for every type and every memory: the value is destroyed before it is read. -/
theorem C57_self_move_violated (t : Ty V) (m : Mem V) (a : Nat) : moveAssign t m a a = .ub := by
  unfold moveAssign constructInplace
  cases m (.obj a) <;> simp [Mem.set]

/-- one statement, on objects that hold the values of the variables: it has its meaning, unless it throws, terminates or moves an object onto
itself -/
theorem step_all (t : Ty V) (n : Nat) (s : Stmt) (env : Nat → V) (m : Mem V) (h : Holds n env m) (hw : s.within n) :
    (s.Throws t env → s.run t m = .threw m) ∧ (¬ s.Throws t env → s.selfMove → s.run t m = .ub) ∧
    (¬ s.Throws t env → ¬ s.selfMove → s.Terminates t env → s.run t m = .terminated) ∧
    (¬ s.Throws t env → ¬ s.selfMove → ¬ s.Terminates t env → ∃ m', s.run t m = .ret m' ∧ Holds n (s.meaning t.moved env) m') := by
  cases s with
  | copy a b =>
    have hb : call m b = some (env b) := by simp [call, h.1, hw.2]
    have ha : m (.obj a) = some (env a) := by simp [h.1, hw.1]
    refine ⟨fun ht => C57_copy_throws t m a b _ hb ht, fun _ hs => hs.elim, fun ht _ hm => ?_, fun ht _ hm => ?_⟩
    · simp only [Stmt.Throws, Bool.not_eq_true] at ht
      simp only [Stmt.Terminates] at hm
      simp only [call] at hb
      simp [Stmt.run, copyAssign, constructInplace, hb, ht, Mem.set, ha, hm]
    · simp only [Stmt.Throws, Bool.not_eq_true] at ht
      simp only [Stmt.Terminates, Bool.not_eq_true] at hm
      obtain ⟨m1, e, h1, h2, h3, h4⟩ := C57_copy t m a b (by simp [call, ha]) (env b) hb ht hm h.2
      refine ⟨m1, e, fun k => ?_, h4⟩
      by_cases hk : k = a
      · subst hk; simp only [call] at h1; simp [h1, hw.1, Stmt.meaning]
      · have := h2 k hk; simp only [call] at this; rw [this, h.1]; simp [Stmt.meaning, hk]
  | move a b =>
    have e0 : m (.obj b) = some (env b) := by simp [h.1, hw.2]
    have e1 : m (.obj a) = some (env a) := by simp [h.1, hw.1]
    refine ⟨fun ht => ht.elim, fun _ hs => ?_, fun _ hs hm => ?_, fun _ hab hm => ?_⟩
    · simp only [Stmt.selfMove] at hs; subst hs; exact C57_self_move_violated t m a
    · simp only [Stmt.selfMove] at hs
      simp only [Stmt.Terminates] at hm
      have : (m.set (.obj a) none) (.obj b) = some (env b) := by simp [Mem.set, Ne.symm hs, e0]
      simp [Stmt.run, moveAssign, constructInplace, e1, this, hm]
    · have hab : a ≠ b := hab
      simp only [Stmt.Terminates, Bool.not_eq_true] at hm
      refine ⟨((m.set (.obj a) none).set (.obj b) (some (t.moved (env b)))).set (.obj a) (some (env b)), ?_, fun k => ?_, by simp [Mem.set, h.2]⟩
      · have : (m.set (.obj a) none) (.obj b) = some (env b) := by simp [Mem.set, Ne.symm hab, e0]
        simp only [Stmt.run, moveAssign, constructInplace, e1, this, hm]
        simp
      · by_cases h1 : k = a
        · subst h1; simp [Mem.set, Stmt.meaning, hw.1]
        · by_cases h2 : k = b
          · subst h2; simp [Mem.set, Stmt.meaning, hw.2, h1]
          · simp [Mem.set, Stmt.meaning, h1, h2, h.1]

/-- C57 for histories, in full detail: any sequence of copy and move assignments, of any type, runs like the same sequence on plain variables
up to the first statement that throws (the memory then holds the values so far), terminates (a move that throws), or moves an object onto
itself (undefined behaviour). -/
theorem C57_history_all (t : Ty V) (n : Nat) (ss : List Stmt) :
    ∀ (env : Nat → V) (m : Mem V), Holds n env m → (∀ s ∈ ss, s.within n) →
      match history t env ss with
      | .done env' => ∃ m', runAll t ss m = .ret m' ∧ Holds n env' m'
      | .threw env' => ∃ m', runAll t ss m = .threw m' ∧ Holds n env' m'
      | .terminated => runAll t ss m = .terminated
      | .selfMoved => runAll t ss m = .ub := by
  induction ss with
  | nil => intro env m h _; exact ⟨m, rfl, h⟩
  | cons s ss ih =>
    intro env m h hs
    obtain ⟨k1, k2, k3, k4⟩ := step_all t n s env m h (hs s (by simp))
    unfold history
    by_cases c1 : s.Throws t env
    · rw [if_pos c1]; exact ⟨m, by simp only [runAll, k1 c1], h⟩
    rw [if_neg c1]
    by_cases c2 : s.selfMove
    · rw [if_pos c2]; simp only [runAll, k2 c1 c2]
    rw [if_neg c2]
    by_cases c3 : s.Terminates t env
    · rw [if_pos c3]; simp only [runAll, k3 c1 c2 c3]
    rw [if_neg c3]
    obtain ⟨m1, e1, h1⟩ := k4 c1 c2 c3
    have := ih _ m1 h1 (fun s' hs' => hs s' (by simp [hs']))
    revert this
    simp only [runAll, e1]
    exact id

/-- C57 for histories: any sequence of copy and move assignments without self-moves, of a type that does not throw, has the effect it has on plain
variables, whatever the aliasing. -/
theorem C57_history_partial (t : Ty V) (hc : ∀ v, t.copyThrows v = false) (hm : ∀ v, t.moveThrows v = false) (n : Nat) (ss : List Stmt) :
    ∀ (env : Nat → V) (m : Mem V), Holds n env m → (∀ s ∈ ss, s.within n ∧ ¬ s.selfMove) →
      ∃ m', runAll t ss m = .ret m' ∧ Holds n (ss.foldl (fun e s => s.meaning t.moved e) env) m' := by
  intro env m h hs
  have := C57_history_all t n ss env m h (fun s hs' => (hs s hs').1)
  suffices e : history t env ss = .done (ss.foldl (fun e s => s.meaning t.moved e) env) by rw [e] at this; exact this
  clear this h
  induction ss generalizing env with
  | nil => rfl
  | cons s ss ih =>
    have c1 : ¬ s.Throws t env := by cases s <;> simp [Stmt.Throws, hc]
    have c3 : ¬ s.Terminates t env := by cases s <;> simp [Stmt.Terminates, hm]
    unfold history
    rw [if_neg c1, if_neg (hs s (by simp)).2, if_neg c3]
    exact ih _ (fun s' h' => hs s' (by simp [h']))

/-- C57: with a type that does not throw, a history is undefined behaviour exactly if it contains a self-move, so the missing part of
`C57_history_partial` is false throughout. -/
theorem C57_history_iff (t : Ty V) (hc : ∀ v, t.copyThrows v = false) (hm : ∀ v, t.moveThrows v = false) (n : Nat) (ss : List Stmt)
    (env : Nat → V) (m : Mem V) (h : Holds n env m) (hs : ∀ s ∈ ss, s.within n) :
    runAll t ss m = .ub ↔ ∃ s ∈ ss, s.selfMove := by
  constructor
  · intro e
    refine Classical.byContradiction fun c => ?_
    obtain ⟨m', e', -⟩ := C57_history_partial t hc hm n ss env m h (fun s h' => ⟨hs s h', fun h2 => c ⟨s, h', h2⟩⟩)
    rw [e] at e'; cases e'
  · rintro ⟨s0, h0, hself⟩
    have := C57_history_all t n ss env m h hs
    suffices e : history t env ss = .selfMoved by rw [e] at this; exact this
    clear this h hs
    induction ss generalizing env with
    | nil => simp at h0
    | cons s ss ih =>
      have c1 : ¬ s.Throws t env := by cases s <;> simp [Stmt.Throws, hc]
      have c3 : ¬ s.Terminates t env := by cases s <;> simp [Stmt.Terminates, hm]
      unfold history
      rw [if_neg c1]
      by_cases c2 : s.selfMove
      · rw [if_pos c2]
      · rw [if_neg c2, if_neg c3]
        rcases List.mem_cons.mp h0 with rfl | h0
        · exact absurd hself c2
        · exact ih _ h0

/-- three objects, a self-assignment and a cycle -/
example : Holds 3 (fun k => k + 10) (fun l => match l with | .obj k => if k < 3 then some (k + 10) else none | .tmp => none) := ⟨fun _ => rfl, rfl⟩
example : ([Stmt.copy 0 0, .copy 0 1, .move 1 2, .copy 2 0].foldl (fun e s => s.meaning (fun _ => 0) e) (fun k => k + 10)) 2 = 11 := rfl
example : ∀ s ∈ [Stmt.copy 0 0, .copy 0 1, .move 1 2, .copy 2 0], s.within 3 ∧ ¬ s.selfMove := by
  simp [Stmt.within, Stmt.selfMove]
-- a history with a self-move is undefined behaviour; with a type whose copies of 12 throw, the history stops there with the values so far
example : ∃ s ∈ [Stmt.copy 0 1, .move 1 1], s.selfMove := ⟨.move 1 1, by simp, rfl⟩
example : ∃ env, history (V := Nat) ⟨fun v => v == 12, fun _ => false, fun _ => 0⟩ (fun k => k + 10) [.copy 0 1, .copy 1 2, .move 1 1] = .threw env ∧
    env 0 = 11 ∧ env 1 = 11 := ⟨_, rfl, rfl, rfl⟩
end Intervals.Props
