import Verif.Model.Algorithm
import Verif.Spec.Set
import Verif.Lemmas.CSet
import Mathlib.Data.List.Basic
/-! Lemmas on the enumerating iterators. -/
set_option linter.unusedSectionVars false
namespace Intervals
open CppVal

section interval
variable {l h : Int}
/-- the values `p, p+1, …, p+k` (as far as representable) -/
def ivlVals (l h : Int) : Nat → Int → List (BInt l h)
  | 0, p => if hp : l ≤ p ∧ p ≤ h then [⟨p, hp.1, hp.2⟩] else []
  | k + 1, p => if hp : l ≤ p ∧ p ≤ h then ⟨p, hp.1, hp.2⟩ :: ivlVals l h k (p + 1) else []

theorem ivlVals_val (k : Nat) : ∀ p : Int, l ≤ p → p + k ≤ h → (ivlVals l h k p).map (·.val) = (List.range (k + 1)).map (fun (i : Nat) => p + i) := by
  induction k with
  | zero => intro p h1 h2; rw [ivlVals, dif_pos ⟨h1, by omega⟩]; simp
  | succ k ih =>
    intro p h1 h2
    rw [ivlVals, dif_pos ⟨h1, by omega⟩, List.map_cons, ih (p + 1) (by omega) (by omega), List.range_succ_eq_map (n := k + 1), List.map_cons,
      List.map_map]
    congr 1
    · simp
    · refine List.map_congr_left (fun i _ => ?_)
      simp; omega

theorem mem_ivlVals {k : Nat} {p : Int} {v : BInt l h} (hp : l ≤ p) (hk : p + k ≤ h) : v ∈ ivlVals l h k p ↔ p ≤ v.val ∧ v.val ≤ p + k := by
  have e := ivlVals_val (l := l) (h := h) k p hp hk
  constructor
  · intro hv
    have : v.val ∈ (ivlVals l h k p).map (·.val) := List.mem_map_of_mem hv
    rw [e] at this
    simp at this
    obtain ⟨i, hi, hi'⟩ := this
    omega
  · intro ⟨h1, h2⟩
    have : v.val ∈ (ivlVals l h k p).map (·.val) := by
      rw [e]; simp
      exact ⟨(v.val - p).toNat, by omega, by omega⟩
    simp at this
    obtain ⟨w, hw, hw'⟩ := this
    rwa [← BInt.ext hw']

theorem forEach_done {It V σ : Type _} [EnumIt It V] (body : V → σ → Outcome σ) (it : It) (s : σ) (hd : EnumIt.done it = true) :
    forEach body it s = .ok s := by
  unfold forEach; rw [if_pos hd]
theorem forEach_step {It V σ : Type _} [EnumIt It V] (body : V → σ → Outcome σ) (it it' : It) (s : σ) (v : V) (hd : EnumIt.done it = false)
    (hv : EnumIt.deref it = .ok v) (hi : EnumIt.inc it = .ok it') :
    forEach body it s = (body v s >>= fun s' => forEach body it' s') := by
  rw [forEach, if_neg (by simp [hd]), hv]
  dsimp only
  cases body v s with
  | error e => rfl
  | ok s' =>
    dsimp only [ok_bind]
    split
    · next e he => rw [hi] at he; cases he
    · next w hw => rw [hi] at hw; cases hw; rfl

/-- a range-for loop over an interval runs the body on `lower, …, upper` in order -/
theorem forEach_interval {σ : Type _} (body : BInt l h → σ → Outcome σ) (k : Nat) : ∀ (p u : BInt l h) (s : σ), u.val = p.val + k →
    forEach body (⟨p, u, false⟩ : IvlIt l h) s = (ivlVals l h k p.val).foldlM (fun s v => body v s) s := by
  induction k with
  | zero =>
    intro p u s hu
    have hpu : p.val = u.val := by omega
    rw [forEach_step body _ ⟨p, u, true⟩ s p rfl rfl (by simp [EnumIt.inc, IvlIt.inc, eq, hpu, pure, Except.pure])]
    rw [ivlVals, dif_pos ⟨p.ge, p.le⟩]
    simp only [List.foldlM_cons, List.foldlM_nil]
    congr 1
    funext s'
    exact forEach_done _ _ _ rfl
  | succ k ih =>
    intro p u s hu
    have hpu : p.val ≠ u.val := by omega
    have hr : l ≤ p.val + 1 ∧ p.val + 1 ≤ h := by have := p.ge; have := u.le; omega
    rw [forEach_step body _ ⟨⟨p.val + 1, hr.1, hr.2⟩, u, false⟩ s p rfl rfl
      (by simp [EnumIt.inc, IvlIt.inc, eq, hpu, BInt.ofInt, hr, pure, Except.pure])]
    rw [ivlVals, dif_pos ⟨p.ge, p.le⟩]
    simp only [List.foldlM_cons]
    congr 1
    funext s'
    exact ih _ _ _ (by simp only; omega)
end interval

theorem foldlM_collect {V : Type _} (vs : List V) : ∀ acc : List V, vs.foldlM (fun s v => (.ok (s ++ [v]) : Outcome (List V))) acc = .ok (acc ++ vs) := by
  induction vs with
  | nil => intro acc; simp [pure, Except.pure]
  | cons v vs ih => intro acc; simp only [List.foldlM_cons, ok_bind]; rw [ih]; simp

section set
variable {V : Type _} [DecidableEq V] {vals : List V}
/-- the members from position `i` on -/
def membersFrom (s : CSet vals) (i : Nat) : List V :=
  if h : i < vals.length then (if s.getLsbD i then [vals[i]] else []) ++ membersFrom s (i + 1) else []
termination_by vals.length - i

theorem advance_hit {s : CSet vals} {i : Nat} (h : i < vals.length) (hb : s.getLsbD i = true) :
    SetIt.advance s ((i : Int) - 1) = .ok ⟨s, i, false⟩ := by
  unfold SetIt.advance
  rw [if_neg (by omega), if_neg (by omega)]
  have : CSet.containsIndex s ((i : Int) - 1 + 1) = .ok true := by
    simp [CSet.containsIndex, h, hb, pure, Except.pure]
  rw [this]
  simp
theorem advance_miss {s : CSet vals} {i : Nat} (h : i < vals.length) (hb : s.getLsbD i = false) :
    SetIt.advance s ((i : Int) - 1) = SetIt.advance s ((i + 1 : Nat) - 1) := by
  rw [SetIt.advance]
  rw [if_neg (by omega), if_neg (by omega)]
  have : CSet.containsIndex s ((i : Int) - 1 + 1) = .ok false := by
    rw [show ((i : Int) - 1 + 1) = i by omega]
    simp only [CSet.containsIndex, Int.toNat_natCast, hb]
    simp [h, pure, Except.pure]
  rw [this]
  simp
theorem advance_end {s : CSet vals} : SetIt.advance s ((vals.length : Int) - 1) = .ok ⟨s, vals.length, true⟩ := by
  unfold SetIt.advance
  rw [if_pos (by omega)]
  simp

/-- a range-for loop over a set runs the body on its members in index order -/
theorem forEach_set {σ : Type _} (body : V → σ → Outcome σ) (s : CSet vals) : ∀ (k i : Nat), i + k = vals.length → ∀ (st : σ),
    (SetIt.advance s ((i : Int) - 1) >>= fun it => forEach body it st) = (membersFrom s i).foldlM (fun st v => body v st) st := by
  intro k
  induction k with
  | zero =>
    intro i hi st
    have : i = vals.length := by omega
    subst this
    rw [advance_end, membersFrom, dif_neg (by omega), ok_bind, forEach_done _ _ _ rfl]
    rfl
  | succ k ih =>
    intro i hi st
    have hlt : i < vals.length := by omega
    rw [membersFrom, dif_pos hlt]
    cases hb : s.getLsbD i with
    | false =>
      rw [advance_miss hlt hb]
      simpa using ih (i + 1) (by omega) st
    | true =>
      rw [advance_hit hlt hb, ok_bind]
      have hd : EnumIt.deref (⟨s, i, false⟩ : SetIt vals) = .ok vals[i] := by
        simp [EnumIt.deref, SetIt.deref, rangeAt, hlt]
      have hinc : EnumIt.inc (⟨s, i, false⟩ : SetIt vals) = SetIt.advance s (((i + 1 : Nat) : Int) - 1) := by
        simp [EnumIt.inc, SetIt.inc]
      have hok : ∃ it, SetIt.advance s (((i + 1 : Nat) : Int) - 1) = .ok it := by
        clear ih hd hinc
        have : ∀ m j : Nat, j + m = vals.length → ∃ it, SetIt.advance s ((j : Int) - 1) = .ok it := by
          intro m
          induction m with
          | zero => intro j hj; have : j = vals.length := by omega
                    subst this; exact ⟨_, advance_end⟩
          | succ m ihm =>
            intro j hj
            cases hb : s.getLsbD j with
            | true => exact ⟨_, advance_hit (by omega) hb⟩
            | false => rw [advance_miss (by omega) hb]; exact ihm (j + 1) (by omega)
        exact this k (i + 1) (by omega)
      obtain ⟨it, hit⟩ := hok
      rw [forEach_step body _ it st vals[i] rfl hd (by rw [hinc, hit])]
      simp only [if_true, List.singleton_append, List.foldlM_cons]
      congr 1
      funext st'
      have := ih (i + 1) (by omega) st'
      rw [hit, ok_bind] at this
      exact this

theorem membersFrom_sublist (s : CSet vals) : ∀ (k i : Nat), i + k = vals.length → (membersFrom s i).Sublist (vals.drop i) := by
  intro k
  induction k with
  | zero => intro i hi; rw [membersFrom, dif_neg (by omega)]; simp
  | succ k ih =>
    intro i hi
    rw [membersFrom, dif_pos (by omega), List.drop_eq_getElem_cons (by omega)]
    have := ih (i + 1) (by omega)
    split
    · exact this.cons_cons _
    · exact this.cons _
theorem mem_membersFrom (s : CSet vals) (v : V) : ∀ (k i : Nat), i + k = vals.length →
    (v ∈ membersFrom s i ↔ ∃ j, i ≤ j ∧ ∃ h : j < vals.length, s.getLsbD j = true ∧ vals[j] = v) := by
  intro k
  induction k with
  | zero => intro i hi; rw [membersFrom, dif_neg (by omega)]; simp; omega
  | succ k ih =>
    intro i hi
    have hlt : i < vals.length := by omega
    rw [membersFrom, dif_pos hlt, List.mem_append, ih (i + 1) (by omega)]
    constructor
    · rintro (h | ⟨j, hj, hl, h⟩)
      · split at h
        · next hb => simp at h; exact ⟨i, Nat.le_refl _, hlt, hb, h.symm⟩
        · simp at h
      · exact ⟨j, by omega, hl, h⟩
    · rintro ⟨j, hj, hl, hb, hv⟩
      rcases Nat.lt_or_ge i j with h | h
      · exact .inr ⟨j, h, hl, hb, hv⟩
      · have : j = i := by omega
        subst this
        left; rw [if_pos hb]; simp [hv]
end set
end Intervals
