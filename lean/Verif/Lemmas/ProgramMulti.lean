import Verif.Spec.ProgramMulti
import Verif.Lemmas.Program
import Verif.Lemmas.CSet
/-! # Lemmas about interval-aware programs over several value types -/
set_option linter.unusedSectionVars false
namespace Intervals
open Spec CppVal Props
variable {σ : Type} [DecidableEq σ] {Ty : σ → Type} [∀ s, CppVal (Ty s)] [∀ s, CppOrder (Ty s)]

/-- an interval state -/
abbrev IEnv (Ty : σ → Type) := Env fun s => Ivl (Ty s)

section upd
variable {A : σ → Type}
theorem mupd_self (S : Env A) (x : σ × Nat) (v : A x.1) : mupd S x v x = v := by simp [mupd]
theorem mupd_ne (S : Env A) {x y : σ × Nat} (v : A x.1) (h : y ≠ x) : mupd S x v y = S y := by
  unfold mupd; rw [dif_neg (fun e => h e.symm)]
theorem mframe_get (dflt : (s : σ) → A s) (S : Env A) (args : List (σ × Nat)) {x : σ × Nat} (hx : x ∈ params args) :
    ∃ y ∈ args, ∃ h : y.1 = x.1, mframe dflt S args x = h ▸ S y := by
  unfold params at hx
  obtain ⟨i, hi, rfl⟩ := List.mem_mapIdx.1 hx
  refine ⟨args[i], List.getElem_mem hi, rfl, ?_⟩
  simp [mframe, hi]
end upd

/-! ## condition objects -/

/-- operands proper, truth sets as computed by the operators -/
def HWF : HCond Ty → Prop
  | .plain b => b ≠ BoolSet.empty
  | .cmp _ c => WF c ∧ c.isLeaf = true
  | .conj s l r => HWF l ∧ HWF r ∧ s = BoolSet.and l.truth r.truth
  | .disj s l r => HWF l ∧ HWF r ∧ s = BoolSet.or l.truth r.truth

/-- possible truth values by the comparison tree -/
def HEv (ρ : Env Ty) : HCond Ty → Bool → Prop
  | .plain s, b => BoolSet.contains s b = true
  | .cmp s c, b => Ev (ρ.on s) c b
  | .conj _ l r, b => ∃ p q, HEv ρ l p ∧ HEv ρ r q ∧ (p && q) = b
  | .disj _ l r, b => ∃ p q, HEv ρ l p ∧ HEv ρ r q ∧ (p || q) = b

theorem HWF.truth_ne : ∀ {c : HCond Ty}, HWF c → c.truth ≠ BoolSet.empty
  | .plain _, h => h
  | .cmp _ _, h => h.1.truth_ne
  | .conj _ _ _, h => by obtain ⟨h1, h2, rfl⟩ := h; exact and_ne_empty h1.truth_ne h2.truth_ne
  | .disj _ _ _, h => by obtain ⟨h1, h2, rfl⟩ := h; exact or_ne_empty h1.truth_ne h2.truth_ne

theorem view_truth (s : σ) : ∀ c : HCond Ty, (c.view s).truth = c.truth
  | .plain _ => rfl
  | .cmp t c => by
    unfold HCond.view HCond.truth
    by_cases h : t = s
    · subst h; simp
    · simp [h, Cond.truth]
  | .conj _ _ _ => rfl
  | .disj _ _ _ => rfl

theorem view_cmp (s : σ) (c : Cond (Ty s)) : (HCond.cmp s c).view s = c := by simp [HCond.view]
theorem view_cmp_ne {s t : σ} (h : t ≠ s) (c : Cond (Ty t)) : (HCond.cmp t c).view s = .plain c.truth := by simp [HCond.view, h]

theorem HWF.view (s : σ) : ∀ {c : HCond Ty}, HWF c → WF (c.view s)
  | .plain _, h => h
  | .cmp t c, h => by
    by_cases ht : t = s
    · subst ht; rw [view_cmp]; exact h.1
    · rw [view_cmp_ne ht]; exact h.1.truth_ne
  | .conj _ l r, h => ⟨h.1.view s, h.2.1.view s, by rw [view_truth, view_truth]; exact h.2.2⟩
  | .disj _ l r, h => ⟨h.1.view s, h.2.1.view s, by rw [view_truth, view_truth]; exact h.2.2⟩

theorem hev_view (s : σ) {ρ : Env Ty} : ∀ {c : HCond Ty} {b : Bool}, HWF c → HEv ρ c b → Ev (ρ.on s) (c.view s) b
  | .plain _, b, h, he => he
  | .cmp t c, b, h, he => by
    by_cases ht : t = s
    · subst ht; rw [view_cmp]; exact he
    · rw [view_cmp_ne ht]; exact ev_truth c h.1 b he
  | .conj _ l r, b, h, he => by
    obtain ⟨p, q, h1, h2, h3⟩ := he
    exact ⟨p, q, hev_view s h.1 h1, hev_view s h.2.1 h2, h3⟩
  | .disj _ l r, b, h, he => by
    obtain ⟨p, q, h1, h2, h3⟩ := he
    exact ⟨p, q, hev_view s h.1 h1, hev_view s h.2.1 h2, h3⟩

theorem hev_truth {ρ : Env Ty} : ∀ {c : HCond Ty} {b : Bool}, HWF c → HEv ρ c b → BoolSet.contains c.truth b = true
  | .plain _, b, h, he => he
  | .cmp s c, b, h, he => ev_truth c h.1 b he
  | .conj _ l r, b, h, he => by
    obtain ⟨h1, h2, rfl⟩ := h
    obtain ⟨p, q, e1, e2, rfl⟩ := he
    have := hev_truth h1 e1
    have := hev_truth h2 e2
    have n1 := h1.truth_ne
    have n2 := h2.truth_ne
    show BoolSet.contains (BoolSet.and _ _) _ = true
    cases p <;> cases q <;> simp_all [contains_and_true, contains_and_false]
  | .disj _ l r, b, h, he => by
    obtain ⟨h1, h2, rfl⟩ := h
    obtain ⟨p, q, e1, e2, rfl⟩ := he
    have := hev_truth h1 e1
    have := hev_truth h2 e2
    have n1 := h1.truth_ne
    have n2 := h2.truth_ne
    show BoolSet.contains (BoolSet.or _ _) _ = true
    cases p <;> cases q <;> simp_all [contains_or_true, contains_or_false]

theorem mkNot_leaf {T : Type} [CppVal T] {dbg : Bool} {c c' : Cond T} (h : c.isLeaf = true) (hn : Cond.mkNot dbg c = .ok c') : c'.isLeaf = true := by
  cases c <;> first | (simp [Cond.isLeaf] at h; done) | (simp only [Cond.mkNot, bind_eq_ok, pure, Except.pure, Except.ok.injEq] at hn; obtain ⟨_, _, rfl⟩ := hn; rfl)

theorem notCore_ne_empty {b : BoolSet} (hb : b ≠ BoolSet.empty) : BoolSet.notCore b ≠ BoolSet.empty := by revert hb; revert b; decide
theorem contains_notCore {b : BoolSet} (hb : b ≠ BoolSet.empty) {v : Bool} (h : BoolSet.contains b v = true) : BoolSet.contains (BoolSet.notCore b) (!v) = true := by
  revert hb h; revert b v; decide

theorem mkNot_hwf (dbg : Bool) : ∀ {c : HCond Ty}, HWF c → ∃ c', HCond.mkNot dbg c = .ok c' ∧ HWF c' ∧ c'.truth = BoolSet.notCore c.truth ∧
    ∀ ρ b, HEv ρ c b → HEv ρ c' (!b)
  | .plain b, h => ⟨.plain (BoolSet.notCore b), by simp only [HCond.mkNot, notM_ok h, ok_bind, pure, Except.pure], notCore_ne_empty h, rfl,
      fun _ _ hv => contains_notCore h hv⟩
  | .cmp s c, h => by
    obtain ⟨c', h1, h2, h3, h4⟩ := mkNot_wf dbg h.1
    exact ⟨.cmp s c', by simp only [HCond.mkNot, h1, ok_bind, pure, Except.pure], ⟨h2, mkNot_leaf h.2 h1⟩, h3, fun ρ b hb => h4 _ (!b) (by rw [Bool.not_not]; exact hb)⟩
  | .conj _ l r, h => by
    have hw := h
    obtain ⟨h1, h2, rfl⟩ := h
    have hne := and_ne_empty h1.truth_ne h2.truth_ne
    by_cases hc : (l.isCond && r.isCond) = true
    · obtain ⟨l', a1, a2, a3, a4⟩ := mkNot_hwf dbg h1
      obtain ⟨r', b1, b2, b3, b4⟩ := mkNot_hwf dbg h2
      refine ⟨.disj (BoolSet.notCore (BoolSet.and l.truth r.truth)) l' r', by simp only [HCond.mkNot, notM_ok hne, hc, if_true, a1, b1, ok_bind, pure, Except.pure], ⟨a2, b2, ?_⟩, rfl, ?_⟩
      · rw [a3, b3]; exact bset_not_and _ _ h1.truth_ne h2.truth_ne
      · rintro ρ _ ⟨p, q, e1, e2, rfl⟩
        exact ⟨!p, !q, a4 ρ p e1, b4 ρ q e2, by simp⟩
    · exact ⟨.plain (BoolSet.notCore (BoolSet.and l.truth r.truth)), by simp only [HCond.mkNot, notM_ok hne, hc, if_false, Bool.false_eq_true, ok_bind, pure, Except.pure],
        notCore_ne_empty hne, rfl, fun ρ b hb => contains_notCore hne (hev_truth hw hb)⟩
  | .disj _ l r, h => by
    have hw := h
    obtain ⟨h1, h2, rfl⟩ := h
    have hne := or_ne_empty h1.truth_ne h2.truth_ne
    by_cases hc : (l.isCond && r.isCond) = true
    · obtain ⟨l', a1, a2, a3, a4⟩ := mkNot_hwf dbg h1
      obtain ⟨r', b1, b2, b3, b4⟩ := mkNot_hwf dbg h2
      refine ⟨.conj (BoolSet.notCore (BoolSet.or l.truth r.truth)) l' r', by simp only [HCond.mkNot, notM_ok hne, hc, if_true, a1, b1, ok_bind, pure, Except.pure], ⟨a2, b2, ?_⟩, rfl, ?_⟩
      · rw [a3, b3]; exact bset_not_or _ _ h1.truth_ne h2.truth_ne
      · rintro ρ _ ⟨p, q, e1, e2, rfl⟩
        exact ⟨!p, !q, a4 ρ p e1, b4 ρ q e2, by simp⟩
    · exact ⟨.plain (BoolSet.notCore (BoolSet.or l.truth r.truth)), by simp only [HCond.mkNot, notM_ok hne, hc, if_false, Bool.false_eq_true, ok_bind, pure, Except.pure],
        notCore_ne_empty hne, rfl, fun ρ b hb => contains_notCore hne (hev_truth hw hb)⟩

/-- `&` of condition objects -/
theorem mkAnd_hwf {l r : HCond Ty} (hl : HWF l) (hr : HWF r) : HWF (HCond.mkAnd l r) ∧ ∀ ρ p q, HEv ρ l p → HEv ρ r q → HEv ρ (HCond.mkAnd l r) (p && q) := by
  unfold HCond.mkAnd
  by_cases hc : (l.isCond || r.isCond) = true
  · simp only [hc, if_true]; exact ⟨⟨hl, hr, rfl⟩, fun ρ p q h1 h2 => ⟨p, q, h1, h2, rfl⟩⟩
  · simp only [hc, if_false, Bool.false_eq_true]
    exact ⟨and_ne_empty hl.truth_ne hr.truth_ne, fun ρ p q h1 h2 =>
      hev_truth (c := .conj (BoolSet.and l.truth r.truth) l r) ⟨hl, hr, rfl⟩ ⟨p, q, h1, h2, rfl⟩⟩
/-- `|` of condition objects -/
theorem mkOr_hwf {l r : HCond Ty} (hl : HWF l) (hr : HWF r) : HWF (HCond.mkOr l r) ∧ ∀ ρ p q, HEv ρ l p → HEv ρ r q → HEv ρ (HCond.mkOr l r) (p || q) := by
  unfold HCond.mkOr
  by_cases hc : (l.isCond || r.isCond) = true
  · simp only [hc, if_true]; exact ⟨⟨hl, hr, rfl⟩, fun ρ p q h1 h2 => ⟨p, q, h1, h2, rfl⟩⟩
  · simp only [hc, if_false, Bool.false_eq_true]
    exact ⟨or_ne_empty hl.truth_ne hr.truth_ne, fun ρ p q h1 h2 =>
      hev_truth (c := .disj (BoolSet.or l.truth r.truth) l r) ⟨hl, hr, rfl⟩ ⟨p, q, h1, h2, rfl⟩⟩

/-! ## shape of built conditions -/

/-- the condition object has this type, and its comparisons these operands -/
def HSh (disc : σ → Bool) (S : IEnv Ty) : Skel Ty → HCond Ty → Prop
  | .plain, c => ∃ b, c = .plain b
  | .cmp s l r, c => ∃ c' op pol, c = .cmp s c' ∧ Sh (disc s) (S.on s) (.cmp op l r) pol c'
  | .conj k m, c => ∃ b l r, c = .conj b l r ∧ HSh disc S k l ∧ HSh disc S m r
  | .disj k m, c => ∃ b l r, c = .disj b l r ∧ HSh disc S k l ∧ HSh disc S m r

theorem hsh_isCond {disc : σ → Bool} {S : IEnv Ty} {k : Skel Ty} {c : HCond Ty} (h : HSh disc S k c) : c.isCond = k.isCond := by
  cases k with
  | plain => obtain ⟨b, rfl⟩ := h; rfl
  | cmp s l r => obtain ⟨c', _, _, rfl, _⟩ := h; rfl
  | conj k m => obtain ⟨b, l, r, rfl, _, _⟩ := h; rfl
  | disj k m => obtain ⟨b, l, r, rfl, _, _⟩ := h; rfl

theorem hsh_mkNot {dbg : Bool} {disc : σ → Bool} {S : IEnv Ty} : ∀ {k : Skel Ty} {c c'}, HSh disc S k c → HCond.mkNot dbg c = .ok c' → HSh disc S k.neg c' := by
  intro k
  induction k with
  | plain =>
    rintro c c' ⟨b, rfl⟩ hn
    simp only [HCond.mkNot, bind_eq_ok, pure, Except.pure, Except.ok.injEq] at hn
    obtain ⟨b', _, rfl⟩ := hn
    exact ⟨b', rfl⟩
  | cmp s l r =>
    rintro c c' ⟨d, op, pol, rfl, h⟩ hn
    simp only [HCond.mkNot, bind_eq_ok, pure, Except.pure, Except.ok.injEq] at hn
    obtain ⟨d', h1, rfl⟩ := hn
    exact ⟨d', op, !pol, rfl, sh_mkNot h h1⟩
  | conj k m ihk ihm | disj k m ihk ihm =>
    rintro c c' ⟨b, l, r, rfl, hl, hr⟩ hn
    simp only [HCond.mkNot, hsh_isCond hl, hsh_isCond hr, bind_eq_ok] at hn
    obtain ⟨b', _, hn⟩ := hn
    unfold Skel.neg
    by_cases hc : (k.isCond && m.isCond) = true
    · simp only [hc, if_true, bind_eq_ok, pure, Except.pure, Except.ok.injEq] at hn ⊢
      obtain ⟨l', h1, r', h2, rfl⟩ := hn
      exact ⟨b', l', r', rfl, ihk hl h1, ihm hr h2⟩
    · simp only [hc, if_false, Bool.false_eq_true, pure, Except.pure, Except.ok.injEq] at hn ⊢
      exact ⟨b', hn.symm⟩

theorem hsh_isDisj (t : σ) {disc : σ → Bool} {S : IEnv Ty} {k : Skel Ty} {c : HCond Ty} (h : HSh disc S k c) : (c.view t).isDisj = k.isDisj := by
  cases k with
  | plain => obtain ⟨b, rfl⟩ := h; rfl
  | cmp s l r =>
    obtain ⟨c', op, pol, rfl, h⟩ := h
    by_cases ht : s = t
    · subst ht; rw [view_cmp, sh_isDisj h]; rfl
    · rw [view_cmp_ne ht]; rfl
  | conj k m => obtain ⟨b, l, r, rfl, _, _⟩ := h; rfl
  | disj k m => obtain ⟨b, l, r, rfl, _, _⟩ := h; rfl

theorem hsh_seen {disc : σ → Bool} {S : IEnv Ty} {y : σ × Nat} : ∀ {k : Skel Ty} {c}, HSh disc S k c →
    (Mentions (disc y.1) y.2 (Spec.seen (c.view y.1)) ↔ k.seenUses y = true) := by
  have key : ∀ c : Cond (Ty y.1), Mentions (disc y.1) y.2 (if c.isDisj then .plain c.truth else Spec.seen c) ↔
      c.isDisj = false ∧ Mentions (disc y.1) y.2 (Spec.seen c) := by
    intro c
    cases h : c.isDisj <;> simp [Mentions]
  intro k
  induction k with
  | plain => rintro c ⟨b, rfl⟩; simp [HCond.view, Spec.seen, Mentions, Skel.seenUses]
  | cmp s l r =>
    rintro c ⟨c', op, pol, rfl, h⟩
    obtain ⟨t, n⟩ := y
    by_cases ht : s = t
    · subst ht; rw [view_cmp, sh_seen h]; simp [PCond.seenUses, Skel.seenUses]
    · rw [view_cmp_ne ht]; simp [Spec.seen, Mentions, Skel.seenUses, ht]
  | conj k m ihk ihm =>
    rintro c ⟨b, l, r, rfl, hl, hr⟩
    have h1 := hsh_isDisj y.1 hl
    have h2 := hsh_isDisj y.1 hr
    simp only [HCond.view, Spec.seen, Mentions, key, Skel.seenUses, ihk hl, ihm hr]; simp [h1, h2]
  | disj k m ihk ihm =>
    rintro c ⟨b, l, r, rfl, hl, hr⟩
    simp [HCond.view, Spec.seen, Mentions, Skel.seenUses, ihk hl, ihm hr]

theorem hsh_disj {disc : σ → Bool} {S : IEnv Ty} {y : σ × Nat} : ∀ {k : Skel Ty} {c}, HSh disc S k c → k.disjUses y = true →
    DisjBoth (disc y.1) y.2 (Spec.seen (c.view y.1)) := by
  intro k
  induction k with
  | plain => rintro c ⟨b, rfl⟩ _; trivial
  | cmp s l r =>
    rintro c ⟨c', op, pol, rfl, h⟩ _
    obtain ⟨t, n⟩ := y
    by_cases ht : s = t
    · subst ht; rw [view_cmp]; exact sh_disj h rfl
    · rw [view_cmp_ne ht]; trivial
  | conj k m ihk ihm => rintro c ⟨b, l, r, rfl, hl, hr⟩ h; trivial
  | disj k m ihk ihm =>
    rintro c ⟨b, l, r, rfl, hl, hr⟩ h
    simp only [Skel.disjUses, Bool.and_eq_true] at h
    exact ⟨⟨(hsh_seen hl).2 h.1.1, (hsh_seen hr).2 h.1.2⟩, ihk hl h.2.1, ihm hr h.2.2⟩

theorem hsh_strict (t : σ) {disc : σ → Bool} {S : IEnv Ty} : ∀ {k : Skel Ty} {c}, HSh disc S k c → StrictHom (disc t) (c.view t) := by
  intro k
  induction k with
  | plain => rintro c ⟨b, rfl⟩; trivial
  | cmp s l r =>
    rintro c ⟨c', op, pol, rfl, h⟩
    by_cases ht : s = t
    · subst ht; rw [view_cmp]; exact sh_strict h
    · rw [view_cmp_ne ht]; trivial
  | conj k m ihk ihm => rintro c ⟨b, l, r, rfl, hl, hr⟩; exact ⟨ihk hl, ihm hr⟩
  | disj k m ihk ihm => rintro c ⟨b, l, r, rfl, hl, hr⟩; exact ⟨ihk hl, ihm hr⟩

theorem hsh_self {disc : σ → Bool} {S : IEnv Ty} {y : σ × Nat} : ∀ {k : Skel Ty} {c}, HSh disc S k c →
    SelfOperands (disc y.1) y.2 (fun o => o.arg = .ivl (S y)) (c.view y.1) := by
  intro k
  induction k with
  | plain => rintro c ⟨b, rfl⟩; trivial
  | cmp s l r =>
    rintro c ⟨c', op, pol, rfl, h⟩
    obtain ⟨t, n⟩ := y
    by_cases ht : s = t
    · subst ht; rw [view_cmp]; exact sh_self h
    · rw [view_cmp_ne ht]; trivial
  | conj k m ihk ihm => rintro c ⟨b, l, r, rfl, hl, hr⟩; exact ⟨ihk hl, ihm hr⟩
  | disj k m ihk ihm => rintro c ⟨b, l, r, rfl, hl, hr⟩; exact ⟨ihk hl, ihm hr⟩

/-! ## domains -/

variable {κ : Type} [DecidableEq κ] {En : κ → Type} [∀ k, DecidableEq (En k)] {vals : (k : κ) → List (En k)}

theorem dmem_proper {t : VSort σ κ} {v : Sc Ty En t} {X : Dm Ty vals t} (h : v ∈ₘ X) : DProper X := by
  cases t with
  | ivl s => exact CppOrder.le_trans _ _ _ h.1 h.2
  | set k => exact assigned_of_SMem h

section
variable [∀ s, CppLimits (Ty s)] [∀ s, CppLawfulLimits (Ty s)] [∀ s, CppStep (Ty s)]

theorem exists_dmem [∀ k, Fact (vals k).Nodup] {t : VSort σ κ} {X : Dm Ty vals t} (h : DProper X) : ∃ v : Sc Ty En t, v ∈ₘ X := by
  cases t with
  | ivl s => exact ⟨_, lo_pt h⟩
  | set k => exact (assigned_iff Fact.out).1 h

/-- a larger interval or set -/
theorem dproper_mono [∀ k, Fact (vals k).Nodup] {t : VSort σ κ} {X Y : Dm Ty vals t} (h : ∀ v, v ∈ₘ X → v ∈ₘ Y) (hX : DProper X) : DProper Y := by
  obtain ⟨v, hv⟩ := exists_dmem hX
  exact dmem_proper (h v hv)

theorem dunassigned_empty {t : VSort σ κ} (v : Sc Ty En t) : ¬ v ∈ₘ Dm.unassigned (Ty := Ty) (vals := vals) t := by
  cases t with
  | ivl s => exact unassigned_empty v
  | set k => exact SMem_empty

theorem dassignPartial_grow {dbg : Bool} {t : VSort σ κ} {X Y : Dm Ty vals t} (hX : DProper X ∨ X = Dm.unassigned t) (hY : DProper Y) :
    ∃ R, Dm.assignPartial dbg X Y = .ok R ∧ DProper R ∧ (∀ v, v ∈ₘ X → v ∈ₘ R) ∧ ∀ v, v ∈ₘ Y → v ∈ₘ R := by
  cases t with
  | ivl s => exact assignPartial_grow hX hY
  | set k =>
    refine ⟨X ||| Y, ?_, ?_, fun v hv => SMem_or.2 (.inl hv), fun v hv => SMem_or.2 (.inr hv)⟩
    · have : expectsDebug dbg (CSet.assigned Y) = .ok () := expectsDebug_eq_ok.mpr (fun _ => hY)
      simp only [Dm.assignPartial, CSet.assignPartial, CSet.assignSet, this, ok_bind, pure, Except.pure]
    · have h1 : ¬ Y = 0#_ := by simpa [DProper, Dm.proper, CSet.assigned] using hY
      have h2 : ¬ (X ||| Y) = 0#_ := fun h => h1 (BitVec.or_eq_zero_iff.1 h).2
      simpa [DProper, Dm.proper, CSet.assigned] using h2

/-- `assign` to a set overwrites it -/
theorem dassignFree_ok {t : VSort σ κ} {X Y R : Dm Ty vals t} (hX : DProper X ∨ X = Dm.unassigned t) (h : Dm.assignFree X Y = .ok R) :
    (t.isSet = false → X = Dm.unassigned t) ∧ R = Y := by
  cases t with
  | ivl s => obtain ⟨h1, h2⟩ := assignFree_ok hX h; exact ⟨fun _ => h1, h2⟩
  | set k => cases h; exact ⟨fun h => (nomatch h), rfl⟩

theorem dresetFree {t : VSort σ κ} (X Y : Dm Ty vals t) : Dm.resetFree X Y = Y := by cases t <;> rfl
end

/-! ## instantiation -/

theorem hsh_build {dbg : Bool} {disc : σ → Bool} {S : Env (Dm Ty vals)} : ∀ {e : MCond Ty vals} {c}, e.build dbg disc S = .ok c → HSh disc S.ivls e.skel c := by
  intro e
  induction e with
  | pred f args =>
    intro c h
    simp only [MCond.build, bind_eq_ok, pure, Except.pure, Except.ok.injEq] at h
    obtain ⟨b, _, rfl⟩ := h
    exact ⟨b, rfl⟩
  | cmp s op l r =>
    intro c h
    simp only [MCond.build, bind_eq_ok, pure, Except.pure, Except.ok.injEq] at h
    obtain ⟨c', h1, rfl⟩ := h
    exact ⟨c', op, true, rfl, sh_build (e := .cmp op l r) (by simpa [PCond.inst, CExpr.build] using h1)⟩
  | and e f ihe ihf =>
    intro c h
    simp only [MCond.build, bind_eq_ok, pure, Except.pure, Except.ok.injEq] at h
    obtain ⟨l, h1, r, h2, rfl⟩ := h
    have hl := ihe h1
    have hr := ihf h2
    unfold MCond.skel Skel.and HCond.mkAnd
    rw [hsh_isCond hl, hsh_isCond hr]
    by_cases hc : (e.skel.isCond || f.skel.isCond) = true
    · simp only [hc, if_true]; exact ⟨_, l, r, rfl, hl, hr⟩
    · simp only [hc, if_false, Bool.false_eq_true]; exact ⟨_, rfl⟩
  | or e f ihe ihf =>
    intro c h
    simp only [MCond.build, bind_eq_ok, pure, Except.pure, Except.ok.injEq] at h
    obtain ⟨l, h1, r, h2, rfl⟩ := h
    have hl := ihe h1
    have hr := ihf h2
    unfold MCond.skel Skel.or HCond.mkOr
    rw [hsh_isCond hl, hsh_isCond hr]
    by_cases hc : (e.skel.isCond || f.skel.isCond) = true
    · simp only [hc, if_true]; exact ⟨_, l, r, rfl, hl, hr⟩
    · simp only [hc, if_false, Bool.false_eq_true]; exact ⟨_, rfl⟩
  | not e ih =>
    intro c h
    simp only [MCond.build, bind_eq_ok] at h
    obtain ⟨c', h1, h2⟩ := h
    exact hsh_mkNot (ih h1) h2

theorem mterm_inst_congr {s : σ} {d : Bool} {S S' : Env (Dm Ty vals)} (l : PTerm (Ty s)) (h : ∀ n, l.uses n = true → S (.ivl s, n) = S' (.ivl s, n)) :
    l.inst d (S.ivls.on s) = l.inst d (S'.ivls.on s) := by
  cases l with
  | var x => simp [PTerm.inst, Env.on, Env.ivls, h x (by simp [PTerm.uses])]
  | lit v => rfl

theorem mbuild_congr {dbg : Bool} {disc : σ → Bool} {S S' : Env (Dm Ty vals)} : ∀ {e : MCond Ty vals}, (∀ x, e.uses x = true → S x = S' x) → e.build dbg disc S = e.build dbg disc S' := by
  intro e
  induction e with
  | pred f args =>
    intro h
    have : (fun i => S (f.sig i, args i)) = fun i => S' (f.sig i, args i) := by
      funext i; exact h _ (by simp only [MCond.uses, decide_eq_true_eq]; exact ⟨i, rfl⟩)
    simp only [MCond.build, this]
  | cmp s op l r =>
    intro h
    simp only [MCond.build, mterm_inst_congr l (fun n hn => h (.ivl s, n) (by simp [MCond.uses, hn])), mterm_inst_congr r (fun n hn => h (.ivl s, n) (by simp [MCond.uses, hn]))]
  | and e f ihe ihf => intro h; simp only [MCond.build, ihe (fun x hx => h x (by simp [MCond.uses, hx])), ihf (fun x hx => h x (by simp [MCond.uses, hx]))]
  | or e f ihe ihf => intro h; simp only [MCond.build, ihe (fun x hx => h x (by simp [MCond.uses, hx])), ihf (fun x hx => h x (by simp [MCond.uses, hx]))]
  | not e ih => intro h; simp only [MCond.build, ih h]

theorem meval_congr {s s' : Env (Sc Ty En)} : ∀ {e : MCond Ty vals}, (∀ x, e.uses x = true → s x = s' x) → e.eval s = e.eval s' := by
  intro e
  induction e with
  | pred f args =>
    intro h
    have : (fun i => s (f.sig i, args i)) = fun i => s' (f.sig i, args i) := by
      funext i; exact h _ (by simp only [MCond.uses, decide_eq_true_eq]; exact ⟨i, rfl⟩)
    simp only [MCond.eval, this]
  | cmp t op l r =>
    intro h
    have ht : ∀ l : PTerm (Ty t), (∀ n, l.uses n = true → s (.ivl t, n) = s' (.ivl t, n)) → l.eval (s.pts.on t) = l.eval (s'.pts.on t) := by
      intro l hl; cases l with
      | var x => exact hl x (by simp [PTerm.uses])
      | lit v => rfl
    simp only [MCond.eval, ht l (fun n hn => h (.ivl t, n) (by simp [MCond.uses, hn])), ht r (fun n hn => h (.ivl t, n) (by simp [MCond.uses, hn]))]
  | and e f ihe ihf => intro h; simp only [MCond.eval, ihe (fun x hx => h x (by simp [MCond.uses, hx])), ihf (fun x hx => h x (by simp [MCond.uses, hx]))]
  | or e f ihe ihf => intro h; simp only [MCond.eval, ihe (fun x hx => h x (by simp [MCond.uses, hx])), ihf (fun x hx => h x (by simp [MCond.uses, hx]))]
  | not e ih => intro h; simp only [MCond.eval, ih h]

theorem mterm_uses {D : List (MVar σ κ)} {s : σ} {l : PTerm (Ty s)} (hl : MCond.ok.term D l) {n : Nat} (hn : l.uses n = true) : (.ivl s, n) ∈ D := by
  cases l with
  | var y => simp [PTerm.uses] at hn; subst hn; exact hl
  | lit v => simp [PTerm.uses] at hn

theorem mok_uses {D : List (MVar σ κ)} : ∀ {e : MCond Ty vals}, e.ok D → ∀ x, e.uses x = true → x ∈ D := by
  intro e
  induction e with
  | pred f args =>
    intro h x hx
    simp only [MCond.uses, decide_eq_true_eq] at hx
    obtain ⟨i, rfl⟩ := hx
    exact h.2 i
  | cmp s op l r =>
    rintro h ⟨t, n⟩ hx
    simp only [MCond.uses, Bool.and_eq_true, decide_eq_true_eq, Bool.or_eq_true] at hx
    obtain ⟨rfl, hx⟩ := hx
    exact hx.elim (mterm_uses h.1) (mterm_uses h.2)
  | and e f ihe ihf =>
    intro h x hx
    simp only [MCond.uses, Bool.or_eq_true] at hx
    exact hx.elim (ihe h.1 x) (ihf h.2 x)
  | or e f ihe ihf =>
    intro h x hx
    simp only [MCond.uses, Bool.or_eq_true] at hx
    exact hx.elim (ihe h.1 x) (ihf h.2 x)
  | not e ih => intro h; exact ih h

theorem mok_mono {D D' : List (MVar σ κ)} (hD : ∀ x ∈ D, x ∈ D') : ∀ {e : MCond Ty vals}, e.ok D → e.ok D' := by
  have ht : ∀ {s : σ} (l : PTerm (Ty s)), MCond.ok.term D l → MCond.ok.term D' l := by
    intro s l hl; cases l with
    | var y => exact hD _ hl
    | lit v => exact hl
  intro e
  induction e with
  | pred f args => exact fun h => ⟨h.1, fun i => hD _ (h.2 i)⟩
  | cmp s op l r => exact fun h => ⟨ht l h.1, ht r h.2⟩
  | and e f ihe ihf => exact fun h => ⟨ihe h.1, ihf h.2⟩
  | or e f ihe ihf => exact fun h => ⟨ihe h.1, ihf h.2⟩
  | not e ih => exact fun h => ih h

theorem mterm_proper {D : List (MVar σ κ)} {S : Env (Dm Ty vals)} (hS : ∀ x ∈ D, DProper (S x)) {s : σ} {d : Bool} (l : PTerm (Ty s)) (h : MCond.ok.term D l) :
    ProperA (l.inst d (S.ivls.on s)).arg := by
  cases l with
  | var y => exact hS _ h
  | lit v => exact h

/-- the operators succeed; the condition object can take the value that the condition takes at points of the variables -/
theorem build_hwf {dbg : Bool} {disc : σ → Bool} {D : List (MVar σ κ)} {S : Env (Dm Ty vals)} (hS : ∀ x ∈ D, DProper (S x)) : ∀ {e : MCond Ty vals}, e.ok D →
    ∃ c, e.build dbg disc S = .ok c ∧ HWF c ∧ ∀ s : Env (Sc Ty En), (∀ x, e.uses x = true → s x ∈ₘ S x) → HEv s.pts c (e.eval s) := by
  intro e
  induction e with
  | pred f args =>
    intro h
    obtain ⟨b, h1, h2⟩ := h.1.total dbg (fun i => S (f.sig i, args i)) (fun i => hS _ (h.2 i))
    exact ⟨.plain b, by simp only [MCond.build, h1, ok_bind, pure, Except.pure], h2, fun s hs => h.1.encl dbg _ _ b
      (fun i => hs _ (by simp only [MCond.uses, decide_eq_true_eq]; exact ⟨i, rfl⟩)) h1⟩
  | cmp t op l r =>
    intro h
    have hp : (CExpr.cmp op (l.inst (disc t) (S.ivls.on t)) (r.inst (disc t) (S.ivls.on t))).Proper := ⟨mterm_proper hS l h.1, mterm_proper hS r h.2⟩
    obtain ⟨c, h1, h2, h3⟩ := build_wf (dbg := dbg) _ hp
    simp only [CExpr.build] at h1
    refine ⟨.cmp t c, by simp only [MCond.build, h1, ok_bind, pure, Except.pure], ⟨h2, ?_⟩, fun s hs => h3 _ _ ?_⟩
    · obtain ⟨_, h⟩ := sh_build (dbg := dbg) (d := disc t) (S := S.ivls.on t) (e := .cmp op l r) (c := c) (by simpa only [PCond.inst, CExpr.build] using h1)
      rcases h with rfl | rfl | rfl | rfl | rfl | rfl <;> rfl
    · exact evE_eval (e := .cmp op l r) (d := disc t) (S := S.ivls.on t) (s := s.pts.on t) (fun n hn => hs (.ivl t, n) (by simpa [MCond.uses, PCond.uses] using hn))
  | and e f ihe ihf =>
    intro h
    obtain ⟨c, a1, a2, a3⟩ := ihe h.1
    obtain ⟨c', b1, b2, b3⟩ := ihf h.2
    exact ⟨HCond.mkAnd c c', by simp only [MCond.build, a1, b1, ok_bind, pure, Except.pure], (mkAnd_hwf a2 b2).1, fun s hs => (mkAnd_hwf a2 b2).2 s.pts _ _
      (a3 s (fun x hx => hs x (by simp [MCond.uses, hx]))) (b3 s (fun x hx => hs x (by simp [MCond.uses, hx])))⟩
  | or e f ihe ihf =>
    intro h
    obtain ⟨c, a1, a2, a3⟩ := ihe h.1
    obtain ⟨c', b1, b2, b3⟩ := ihf h.2
    exact ⟨HCond.mkOr c c', by simp only [MCond.build, a1, b1, ok_bind, pure, Except.pure], (mkOr_hwf a2 b2).1, fun s hs => (mkOr_hwf a2 b2).2 s.pts _ _
      (a3 s (fun x hx => hs x (by simp [MCond.uses, hx]))) (b3 s (fun x hx => hs x (by simp [MCond.uses, hx])))⟩
  | not e ih =>
    intro h
    obtain ⟨c, a1, a2, a3⟩ := ih h
    obtain ⟨c', b1, b2, _, b3⟩ := mkNot_hwf dbg a2
    exact ⟨c', by simp only [MCond.build, a1, b1, ok_bind], b2, fun s hs => b3 s.pts _ (a3 s hs)⟩

/-! ## invariants of a run -/

/-- the condition at hand: `e` or `!e` -/
def msgn (ep : MCond Ty vals × Bool) : MCond Ty vals := if ep.2 then ep.1 else .not ep.1

theorem msgn_uses (ep : MCond Ty vals × Bool) (x : MVar σ κ) : (msgn ep).uses x = ep.1.uses x := by unfold msgn; split <;> rfl
theorem msgn_ok {D : List (MVar σ κ)} {ep : MCond Ty vals × Bool} (h : ep.1.ok D) : (msgn ep).ok D := by unfold msgn; split <;> exact h
theorem msgn_sh {dbg : Bool} {disc : σ → Bool} {S : Env (Dm Ty vals)} {ep : MCond Ty vals × Bool} {c : HCond Ty} (h : (msgn ep).build dbg disc S = .ok c) :
    HSh disc S.ivls (ep.1.skelP ep.2) c := by
  obtain ⟨e, pol⟩ := ep
  cases pol
  · exact hsh_build (e := .not e) (by simpa [msgn] using h)
  · exact hsh_build (by simpa [msgn] using h)
theorem msgn_eval {s : Env (Sc Ty En)} {ep : MCond Ty vals × Bool} (h : ep.1.eval s = ep.2) : (msgn ep).eval s = true := by
  obtain ⟨e, pol⟩ := ep
  cases pol <;> simp_all [msgn, MCond.eval]

variable [∀ s, CppLimits (Ty s)] [∀ s, CppLawfulLimits (Ty s)] [∀ s, CppStep (Ty s)] [∀ k, Fact (vals k).Nodup]

structure MInv (dbg : Bool) (disc : σ → Bool) (Γ : MCtx Ty vals) (S : Env (Dm Ty vals)) (K : List (HCond Ty)) : Prop where
  sub : ∀ x ∈ Γ.asgd, x ∈ Γ.scope
  clean : ∀ x ∈ Γ.scope, DProper (S x) ∨ S x = (Dm.unassigned _)
  prop : ∀ x ∈ Γ.asgd, DProper (S x)
  used : ∀ c ∈ Γ.conds, c.1.ok Γ.asgd
  stack : List.Forall₂ (fun ep c => (msgn ep).build dbg disc S = .ok c ∧ BoolSet.contains c.truth true = true) Γ.conds K
  osub : ∀ x ∈ Γ.outer, x ∈ Γ.scope
  cout : ∀ c ∈ Γ.conds, ∀ x, c.1.uses x = true → x ∈ Γ.outer

/-- what a run leaves alone -/
structure MGrow (Γ : MCtx Ty vals) (S S' : Env (Dm Ty vals)) : Prop where
  grow : ∀ x ∈ Γ.outer, ∀ v, v ∈ₘ S x → v ∈ₘ S' x
  keep : ∀ x, (∃ c ∈ Γ.conds, c.1.uses x = true) → S' x = S x

theorem MGrow.refl (Γ : MCtx Ty vals) (S : Env (Dm Ty vals)) : MGrow Γ S S := ⟨fun _ _ _ h => h, fun _ _ => rfl⟩
theorem MGrow.trans {Γ : MCtx Ty vals} {S S' S'' : Env (Dm Ty vals)} (h : MGrow Γ S S') (h' : MGrow Γ S' S'') : MGrow Γ S S'' :=
  ⟨fun x hx v hv => h'.grow x hx v (h.grow x hx v hv), fun x hx => (h'.keep x hx).trans (h.keep x hx)⟩
theorem MGrow.inner {dbg : Bool} {disc : σ → Bool} {Γ : MCtx Ty vals} {S S' S₀ : Env (Dm Ty vals)} {K : List (HCond Ty)} (h : MInv dbg disc Γ S₀ K)
    (hG : MGrow { Γ with outer := Γ.scope } S S') : MGrow Γ S S' := ⟨fun x hx => hG.grow x (h.osub x hx), hG.keep⟩

theorem mstack_congr {dbg : Bool} {disc : σ → Bool} {S S' : Env (Dm Ty vals)} : ∀ {E : List (MCond Ty vals × Bool)} {K : List (HCond Ty)},
    (∀ x, (∃ c ∈ E, c.1.uses x = true) → S' x = S x) →
    List.Forall₂ (fun ep c => (msgn ep).build dbg disc S = .ok c ∧ BoolSet.contains c.truth true = true) E K →
    List.Forall₂ (fun ep c => (msgn ep).build dbg disc S' = .ok c ∧ BoolSet.contains c.truth true = true) E K := by
  intro E K h hs
  induction hs with
  | nil => exact .nil
  | cons h1 _ ih =>
    refine .cons ?_ (ih (fun x ⟨c, hc, hx⟩ => h x ⟨c, List.mem_cons_of_mem _ hc, hx⟩))
    rw [mbuild_congr (S := S') (S' := S) (fun x hx => h x ⟨_, List.mem_cons_self, by rwa [msgn_uses] at hx⟩)]; exact h1

theorem mused_scope {dbg : Bool} {disc : σ → Bool} {Γ : MCtx Ty vals} {S : Env (Dm Ty vals)} {K : List (HCond Ty)} (h : MInv dbg disc Γ S K) {x : MVar σ κ}
    (hx : ∃ c ∈ Γ.conds, c.1.uses x = true) : x ∈ Γ.scope := by
  obtain ⟨c, hc, hu⟩ := hx
  exact h.sub x (mok_uses (h.used c hc) x hu)

theorem mkeep_fresh {τ : Type} [DecidableEq τ] {A : τ → Type} {scope : List (τ × Nat)} {x : τ × Nat} (hx : x ∉ scope) (S : Env A) (v : A x.1) : ∀ y ∈ scope, mupd S x v y = S y := by
  intro y hy; apply mupd_ne; rintro rfl; exact hx hy

/-- a fresh, proper variable -/
theorem minv_bind {dbg : Bool} {disc : σ → Bool} {Γ : MCtx Ty vals} {S : Env (Dm Ty vals)} {K : List (HCond Ty)} (h : MInv dbg disc Γ S K) {x : MVar σ κ} (hx : x ∉ Γ.scope)
    {R : Dm Ty vals x.1} (hR : DProper R) : MInv dbg disc (Γ.bind x) (mupd S x R) K ∧ MGrow Γ S (mupd S x R) := by
  have hk := mkeep_fresh hx S R
  have hkeep : ∀ y, (∃ c ∈ Γ.conds, c.1.uses y = true) → mupd S x R y = S y := fun y hy => hk y (mused_scope h hy)
  refine ⟨⟨?_, ?_, ?_, ?_, ?_, fun y hy => List.mem_cons_of_mem _ (h.osub y hy), h.cout⟩, ⟨fun y hy v hv => by rw [hk y (h.osub y hy)]; exact hv, hkeep⟩⟩
  · intro y hy
    rcases List.mem_cons.1 hy with rfl | hy
    · exact List.mem_cons_self
    · exact List.mem_cons_of_mem _ (h.sub y hy)
  · intro y hy
    rcases List.mem_cons.1 hy with rfl | hy
    · left; rw [mupd_self]; exact hR
    · rw [hk y hy]; exact h.clean y hy
  · intro y hy
    rcases List.mem_cons.1 hy with rfl | hy
    · rw [mupd_self]; exact hR
    · rw [hk y (h.sub y hy)]; exact h.prop y hy
  · intro c hc; exact mok_mono (fun y hy => List.mem_cons_of_mem _ hy) (h.used c hc)
  · exact mstack_congr hkeep h.stack

theorem minv_decl {dbg : Bool} {disc : σ → Bool} {Γ : MCtx Ty vals} {S : Env (Dm Ty vals)} {K : List (HCond Ty)} (h : MInv dbg disc Γ S K) {x : MVar σ κ} (hx : x ∉ Γ.scope) :
    MInv dbg disc { Γ with scope := x :: Γ.scope } (mupd S x (Dm.unassigned _)) K ∧ MGrow Γ S (mupd S x (Dm.unassigned _)) := by
  have hk := mkeep_fresh hx S (Dm.unassigned _)
  have hkeep : ∀ y, (∃ c ∈ Γ.conds, c.1.uses y = true) → mupd S x (Dm.unassigned _) y = S y := fun y hy => hk y (mused_scope h hy)
  refine ⟨⟨fun y hy => List.mem_cons_of_mem _ (h.sub y hy), ?_, ?_, h.used, mstack_congr hkeep h.stack,
    fun y hy => List.mem_cons_of_mem _ (h.osub y hy), h.cout⟩, ⟨fun y hy v hv => by rw [hk y (h.osub y hy)]; exact hv, hkeep⟩⟩
  · intro y hy
    rcases List.mem_cons.1 hy with rfl | hy
    · right; rw [mupd_self]
    · rw [hk y hy]; exact h.clean y hy
  · intro y hy
    rw [hk y (h.sub y hy)]; exact h.prop y hy

theorem minv_assign {dbg : Bool} {disc : σ → Bool} {Γ : MCtx Ty vals} {S : Env (Dm Ty vals)} {K : List (HCond Ty)} (h : MInv dbg disc Γ S K) {x : MVar σ κ} (hx : x ∈ Γ.scope)
    (hc : ∀ c ∈ Γ.conds, c.1.uses x = false) {R : Dm Ty vals x.1} (hR : DProper R) (hg : x ∈ Γ.outer → ∀ v, v ∈ₘ S x → v ∈ₘ R) :
    MInv dbg disc { Γ with asgd := x :: Γ.asgd } (mupd S x R) K ∧ MGrow Γ S (mupd S x R) := by
  have hkeep : ∀ y, (∃ c ∈ Γ.conds, c.1.uses y = true) → mupd S x R y = S y := by
    rintro y ⟨c, h1, h2⟩
    apply mupd_ne; rintro rfl; rw [hc c h1] at h2; cases h2
  refine ⟨⟨?_, ?_, ?_, ?_, mstack_congr hkeep h.stack, h.osub, h.cout⟩, ⟨?_, hkeep⟩⟩
  · intro y hy
    rcases List.mem_cons.1 hy with rfl | hy
    · exact hx
    · exact h.sub y hy
  · intro y hy
    by_cases hyx : y = x
    · subst hyx; left; rw [mupd_self]; exact hR
    · rw [mupd_ne _ _ hyx]; exact h.clean y hy
  · intro y hy
    by_cases hyx : y = x
    · subst hyx; rw [mupd_self]; exact hR
    · rw [mupd_ne _ _ hyx]; exact h.prop y ((List.mem_cons.1 hy).resolve_left hyx)
  · intro c hc'; exact mok_mono (fun y hy => List.mem_cons_of_mem _ hy) (h.used c hc')
  · intro y hy v hv
    by_cases hyx : y = x
    · subst hyx; rw [mupd_self]; exact hg hy v hv
    · rw [mupd_ne _ _ hyx]; exact hv

/-- entering a branch -/
theorem minv_push {dbg : Bool} {disc : σ → Bool} {Γ : MCtx Ty vals} {S : Env (Dm Ty vals)} {K : List (HCond Ty)} (h : MInv dbg disc Γ S K) {ep : MCond Ty vals × Bool} (he : ep.1.ok Γ.asgd)
    {c : HCond Ty} (hb : (msgn ep).build dbg disc S = .ok c) (ht : BoolSet.contains c.truth true = true) :
    MInv dbg disc { Γ with conds := ep :: Γ.conds, outer := Γ.scope } S (c :: K) :=
  ⟨h.sub, h.clean, h.prop, fun c' hc' => by rcases List.mem_cons.1 hc' with rfl | hc'; exacts [he, h.used c' hc'], .cons ⟨hb, ht⟩ h.stack, fun _ h => h,
    fun c' hc' x hx => by rcases List.mem_cons.1 hc' with rfl | hc'; exacts [h.sub x (mok_uses he x hx), h.osub x (h.cout c' hc' x hx)]⟩

/-- entering a loop body -/
theorem minv_loop {dbg : Bool} {disc : σ → Bool} {Γ : MCtx Ty vals} {S : Env (Dm Ty vals)} {K : List (HCond Ty)} (h : MInv dbg disc Γ S K) :
    MInv dbg disc { Γ with outer := Γ.scope } S K :=
  ⟨h.sub, h.clean, h.prop, h.used, h.stack, fun _ h => h, fun c hc x hx => h.osub x (h.cout c hc x hx)⟩

/-- leaving a branch or a loop body -/
theorem minv_pop {dbg : Bool} {disc : σ → Bool} {Γ Γ' : MCtx Ty vals} {S S' : Env (Dm Ty vals)} {K K' : List (HCond Ty)} {E : List (MCond Ty vals × Bool)} (h : MInv dbg disc Γ S K)
    (hG : MGrow { Γ with conds := E ++ Γ.conds, outer := Γ.scope } S S') (h' : MInv dbg disc Γ' S' K') (hsc : ∀ x ∈ Γ.scope, x ∈ Γ'.scope) :
    MInv dbg disc Γ S' K ∧ MGrow { Γ with outer := Γ.scope } S S' := by
  have hkeep : ∀ y, (∃ c ∈ Γ.conds, c.1.uses y = true) → S' y = S y := fun y ⟨c, h1, h2⟩ => hG.keep y ⟨c, List.mem_append_right _ h1, h2⟩
  refine ⟨⟨h.sub, fun x hx => h'.clean x (hsc x hx), fun x hx => ?_, h.used, mstack_congr hkeep h.stack, h.osub, h.cout⟩, hG.grow, hkeep⟩
  exact dproper_mono (hG.grow x (h.sub x hx)) (h.prop x hx)

/-- more assigned variables -/
theorem minv_more {dbg : Bool} {disc : σ → Bool} {Γ : MCtx Ty vals} {S : Env (Dm Ty vals)} {K : List (HCond Ty)} (h : MInv dbg disc Γ S K) {E : List (MVar σ κ)}
    (hE : ∀ x ∈ E, x ∈ Γ.scope ∧ DProper (S x)) : MInv dbg disc { Γ with asgd := Γ.asgd ++ E } S K :=
  ⟨fun x hx => (List.mem_append.1 hx).elim (h.sub x) (fun hx => (hE x hx).1), h.clean,
    fun x hx => (List.mem_append.1 hx).elim (h.prop x) (fun hx => (hE x hx).2),
    fun c hc => mok_mono (fun _ hx => List.mem_append_left _ hx) (h.used c hc), h.stack, h.osub, h.cout⟩

/-- leaving a block -/
theorem minv_block {dbg : Bool} {disc : σ → Bool} {Γ Γ' : MCtx Ty vals} {S S' : Env (Dm Ty vals)} {K : List (HCond Ty)} (h : MInv dbg disc Γ S K)
    (hG : MGrow Γ S S') (h' : MInv dbg disc Γ' S' K) (hsc : ∀ x ∈ Γ.scope, x ∈ Γ'.scope) (ha : ∀ x ∈ Γ.asgd, x ∈ Γ'.asgd) :
    MInv dbg disc { Γ with asgd := Γ.asgd ++ Γ.scope.filter (· ∈ Γ'.asgd) } S' K := by
  refine minv_more (Γ := Γ) ⟨h.sub, fun x hx => h'.clean x (hsc x hx), fun x hx => h'.prop x (ha x hx), h.used, mstack_congr hG.keep h.stack, h.osub, h.cout⟩ ?_
  intro x hx
  simp only [List.mem_filter, decide_eq_true_eq] at hx
  exact ⟨hx.1, h'.prop x hx.2⟩

/-- the parameters of a function -/
theorem minv_start {dbg : Bool} {disc : σ → Bool} {ins : List (MVar σ κ)} {S : Env (Dm Ty vals)} (h : ∀ x ∈ ins, DProper (S x)) : MInv dbg disc (MCtx.start ins) S [] :=
  ⟨fun _ h => h, fun x hx => .inl (h x hx), h, fun _ h => (nomatch h), .nil, fun _ h => (nomatch h), fun _ h => (nomatch h)⟩

theorem mstack_get {dbg : Bool} {disc : σ → Bool} {Γ : MCtx Ty vals} {S : Env (Dm Ty vals)} {K : List (HCond Ty)} (h : MInv dbg disc Γ S K) {k : Nat} {ep : MCond Ty vals × Bool}
    (hk : Γ.conds[k]? = some ep) : ∃ c, K[k]? = some c ∧ (msgn ep).build dbg disc S = .ok c ∧ BoolSet.contains c.truth true = true := by
  have hf2 := List.forall₂_iff_get.1 h.stack
  obtain ⟨k1, e1⟩ := List.getElem?_eq_some_iff.1 hk
  have k2 : k < K.length := hf2.1 ▸ k1
  have h3 := hf2.2 k k1 k2
  simp only [List.get_eq_getElem, e1] at h3
  exact ⟨K[k], List.getElem?_eq_getElem k2, h3⟩

/-- `constrain` of a checked variable -/
theorem mconstrain_checked {dbg : Bool} {disc : σ → Bool} {Γ : MCtx Ty vals} {S : Env (Dm Ty vals)} {K : List (HCond Ty)} (hs : ∀ s, disc s = true → LawfulStep (Ty s))
    (h : MInv dbg disc Γ S K) {k : Nat} {y : σ × Nat} {e : MCond Ty vals} {pol : Bool} {c : HCond Ty} {R : Ivl (Ty y.1)} (hk : Γ.conds[k]? = some (e, pol))
    (hK : K[k]? = some c) (hy : (.ivl y.1, y.2) ∈ Γ.asgd) (hR : constrainH dbg (disc y.1) y.1 y.2 (S (.ivl y.1, y.2)) c = .ok R) : Proper R ∧
    ∀ s : Env (Sc Ty En), e.disjUses y pol = true → (∀ x ∈ Γ.asgd, s x ∈ₘ S x) → (e.eval s = pol) → s (.ivl y.1, y.2) ∈ᵢ R := by
  have hm : (e, pol) ∈ Γ.conds := List.mem_of_getElem? hk
  have hok := h.used _ hm
  obtain ⟨c', hK', hb, ht⟩ := mstack_get h hk
  rw [hK] at hK'; cases hK'
  obtain ⟨c', h1, hw, hev⟩ := build_hwf (dbg := dbg) (disc := disc) h.prop (msgn_ok (ep := (e, pol)) hok)
  rw [hb] at h1; cases h1
  have hsh := msgn_sh hb
  have hself : SelfOperands (disc y.1) y.2 (fun o => le (S.ivls y).lo o.arg.lo = true ∧ le o.arg.hi (S.ivls y).hi = true) (c.view y.1) := by
    have hY : Proper (S.ivls y) := h.prop _ hy
    exact selfOperands_mono (fun o ho => by rw [ho]; exact ⟨cle_left hY, cle_right hY⟩) _ (hsh_self (y := y) hsh)
  simp only [constrainH, constrain, bind_eq_ok] at hR
  obtain ⟨⟨R', f⟩, h4, u, h5, h6⟩ := hR
  simp only [pure, Except.pure, Except.ok.injEq] at h6
  subst h6
  have hst := hsh_strict y.1 hsh
  obtain ⟨g1, _⟩ := detail_sub (hs y.1) (x := S.ivls y) (h.prop _ hy) _ (hw.view y.1) hst.seen hself.seen.eqOperands _ _ _ _ h4
  refine ⟨g1, fun s hd hx he => ?_⟩
  refine detail_sound (hs y.1) (ρ := s.pts.on y.1) (x := S.ivls y) (hx _ hy) _ (hw.view y.1) hst.seen (hsh_disj hsh hd).even _ _ _ _ h4 (ev_seen (hw.view y.1) (hev_view y.1 hw ?_))
  have := hev s (fun x hu => hx x (mok_uses hok x (by rwa [msgn_uses] at hu)))
  rwa [msgn_eval he] at this

/-! ## the run preserves the invariant -/

theorem mnot_build {dbg : Bool} {disc : σ → Bool} {S : Env (Dm Ty vals)} {e : MCond Ty vals} {c c' : HCond Ty} (h : e.build dbg disc S = .ok c) :
    HCond.mkNot dbg c = .ok c' ↔ (msgn (e, false)).build dbg disc S = .ok c' := by
  simp [msgn, MCond.build, h, ok_bind]

/-- one of the two branches is possible -/
theorem msome_branch {dbg : Bool} {disc : σ → Bool} {D : List (MVar σ κ)} {S : Env (Dm Ty vals)} {e : MCond Ty vals} {c nc : HCond Ty} (hS : ∀ x ∈ D, DProper (S x)) (he : e.ok D)
    (h : e.build dbg disc S = .ok c) (hn : HCond.mkNot dbg c = .ok nc) :
    BoolSet.contains c.truth true = true ∨ BoolSet.contains nc.truth true = true := by
  obtain ⟨c', e1, e2, _⟩ := build_hwf (dbg := dbg) (disc := disc) hS he
  rw [h] at e1; cases e1
  obtain ⟨c', n1, _, n3, _⟩ := mkNot_hwf dbg e2
  rw [hn] at n1; cases n1
  have h2 := e2.truth_ne
  rw [n3]
  revert h2; generalize c.truth = t; revert t; decide

theorem wf_ctx {p : MProg Ty vals} : ∀ {Γ Γ' : MCtx Ty vals}, p.Wf Γ Γ' →
    Γ'.conds = Γ.conds ∧ (∀ x ∈ Γ.scope, x ∈ Γ'.scope) ∧ (∀ x ∈ Γ.asgd, x ∈ Γ'.asgd) ∧ Γ'.outer = Γ.outer := by
  induction p with
  | skip => rintro Γ Γ' rfl; exact ⟨rfl, fun _ h => h, fun _ h => h, rfl⟩
  | seq p q ihp ihq =>
    rintro Γ Γ' ⟨Γ1, h1, h2⟩
    obtain ⟨a1, a2, a3, a4⟩ := ihp h1
    obtain ⟨b1, b2, b3, b4⟩ := ihq h2
    exact ⟨b1.trans a1, fun x hx => b2 x (a2 x hx), fun x hx => b3 x (a3 x hx), b4.trans a4⟩
  | decl x => rintro Γ Γ' ⟨_, rfl⟩; exact ⟨rfl, fun _ h => List.mem_cons_of_mem _ h, fun _ h => h, rfl⟩
  | letF x f args => rintro Γ Γ' ⟨_, _, rfl⟩; exact ⟨rfl, fun _ h => List.mem_cons_of_mem _ h, fun _ h => List.mem_cons_of_mem _ h, rfl⟩
  | constrain s x y k => rintro Γ Γ' ⟨_, _, _, _, _, _, _, rfl⟩; exact ⟨rfl, fun _ h => List.mem_cons_of_mem _ h, fun _ h => List.mem_cons_of_mem _ h, rfl⟩
  | assignPartial s x y => rintro Γ Γ' ⟨_, _, _, rfl⟩; exact ⟨rfl, fun _ h => h, fun _ h => List.mem_cons_of_mem _ h, rfl⟩
  | assign s x y => rintro Γ Γ' ⟨_, _, _, _, rfl⟩; exact ⟨rfl, fun _ h => h, fun _ h => List.mem_cons_of_mem _ h, rfl⟩
  | reset s x y => rintro Γ Γ' ⟨_, _, _, rfl⟩; exact ⟨rfl, fun _ h => h, fun _ h => List.mem_cons_of_mem _ h, rfl⟩
  | block p ih => rintro Γ Γ' ⟨_, _, rfl⟩; exact ⟨rfl, fun _ h => h, fun _ h => List.mem_append_left _ h, rfl⟩
  | call x p args r ih => rintro Γ Γ' ⟨_, _, _, _, _, rfl⟩; exact ⟨rfl, fun _ h => List.mem_cons_of_mem _ h, fun _ h => List.mem_cons_of_mem _ h, rfl⟩
  | branch e p q ihp ihq => rintro Γ Γ' ⟨_, _, _, _, _, rfl⟩; exact ⟨rfl, fun _ h => h, fun _ h => List.mem_append_left _ h, rfl⟩
  | each f args body ih => rintro Γ Γ' ⟨_, _, _, _, rfl⟩; exact ⟨rfl, fun _ h => h, fun _ h => List.mem_append_left _ h, rfl⟩

theorem runMI_branch {dbg : Bool} {disc : σ → Bool} {e : MCond Ty vals} {p q : MProg Ty vals} {S S' : Env (Dm Ty vals)} {K : List (HCond Ty)}
    (hr : runMI dbg disc (.branch e p q) S K = .ok (S', true)) : ∃ c, e.build dbg disc S = .ok c ∧ ∃ S1,
      (if BoolSet.possibly c.truth then runMI dbg disc p S (c :: K) else .ok (S, true)) = .ok (S1, true) ∧ ∃ nc, HCond.mkNot dbg c = .ok nc ∧
      (if BoolSet.possibly nc.truth then runMI dbg disc q S1 (nc :: K) else .ok (S1, true)) = .ok (S', true) := by
  simp only [runMI, bind_eq_ok] at hr
  obtain ⟨c, hc, hr⟩ := hr
  refine ⟨c, hc, ?_⟩
  by_cases h1 : BoolSet.possibly c.truth = true
  · simp only [h1, if_true, bind_eq_ok, Prod.exists] at hr ⊢
    obtain ⟨S1, b1, r1, nc, hnc, hr⟩ := hr
    by_cases h2 : BoolSet.possibly nc.truth = true
    · simp only [h2, if_true, bind_eq_ok, pure, Except.pure, Except.ok.injEq, Prod.mk.injEq, Prod.exists, Bool.and_eq_true] at hr
      obtain ⟨S2, b2, r2, rfl, rfl, rfl⟩ := hr
      exact ⟨S1, r1, nc, hnc, by simp only [h2, if_true, r2]⟩
    · simp only [h2, if_false, Bool.false_eq_true, bind_eq_ok, pure, Except.pure, Except.ok.injEq, Prod.mk.injEq, Prod.exists, Bool.and_eq_true] at hr
      obtain ⟨S2, b2, ⟨rfl, rfl⟩, rfl, rfl, _⟩ := hr
      exact ⟨S1, r1, nc, hnc, by simp only [h2, if_false, Bool.false_eq_true]⟩
  · simp only [h1, if_false, Bool.false_eq_true, bind_eq_ok, Prod.exists, pure, Except.pure, Except.ok.injEq, Prod.mk.injEq] at hr ⊢
    obtain ⟨S1, b1, ⟨rfl, rfl⟩, nc, hnc, hr⟩ := hr
    refine ⟨S, ⟨rfl, trivial⟩, nc, hnc, ?_⟩
    by_cases h2 : BoolSet.possibly nc.truth = true
    · simp only [h2, if_true, bind_eq_ok, pure, Except.pure, Except.ok.injEq, Prod.mk.injEq, Prod.exists, Bool.and_eq_true] at hr ⊢
      obtain ⟨S2, b2, r2, rfl, _, rfl⟩ := hr
      exact r2
    · simp only [h2, if_false, Bool.false_eq_true, bind_eq_ok, pure, Except.pure, Except.ok.injEq, Prod.mk.injEq, Prod.exists, Bool.and_eq_true] at hr ⊢
      obtain ⟨S2, b2, ⟨rfl, rfl⟩, rfl, _⟩ := hr
      exact ⟨rfl, trivial⟩

theorem loopM_cons {V A : Type _} {f : V → A → Outcome (A × Bool)} {v : V} {vs : List V} {a a' : A} :
    loopM f (v :: vs) a = .ok (a', true) ↔ ∃ a1, f v a = .ok (a1, true) ∧ loopM f vs a1 = .ok (a', true) := by
  simp only [loopM, bind_eq_ok]
  constructor
  · rintro ⟨⟨a1, b1⟩, h1, ⟨a2, b2⟩, h2, h3⟩
    simp only [pure, Except.pure, Except.ok.injEq, Prod.mk.injEq, Bool.and_eq_true] at h3
    obtain ⟨rfl, rfl, rfl⟩ := h3
    exact ⟨a1, h1, h2⟩
  · rintro ⟨a1, h1, h2⟩
    exact ⟨_, h1, _, h2, rfl⟩

theorem mloop_step {dbg : Bool} {disc : σ → Bool} {Γ : MCtx Ty vals} {K : List (HCond Ty)} {V : Type} {f : V → Env (Dm Ty vals) → Outcome (Env (Dm Ty vals) × Bool)} {E : List (MVar σ κ)}
    (hE : ∀ x ∈ E, x ∈ Γ.scope) : ∀ {vs : List V} {S S' : Env (Dm Ty vals)},
    (∀ v ∈ vs, ∀ S S', MInv dbg disc Γ S K → f v S = .ok (S', true) → MInv dbg disc Γ S' K ∧ MGrow { Γ with outer := Γ.scope } S S' ∧ ∀ x ∈ E, DProper (S' x)) →
    MInv dbg disc Γ S K → loopM f vs S = .ok (S', true) →
    MInv dbg disc Γ S' K ∧ MGrow { Γ with outer := Γ.scope } S S' ∧ (vs ≠ [] → ∀ x ∈ E, DProper (S' x)) := by
  intro vs
  induction vs with
  | nil =>
    intro S S' _ hi hr
    simp only [loopM, Except.ok.injEq, Prod.mk.injEq] at hr; obtain ⟨rfl, _⟩ := hr
    exact ⟨hi, MGrow.refl _ _, fun h => absurd rfl h⟩
  | cons v vs ih =>
    intro S S' hb hi hr
    obtain ⟨S1, r1, r2⟩ := loopM_cons.1 hr
    obtain ⟨i1, g1, p1⟩ := hb v List.mem_cons_self S S1 hi r1
    obtain ⟨i2, g2, p2⟩ := ih (fun w hw => hb w (List.mem_cons_of_mem _ hw)) i1 r2
    exact ⟨i2, g1.trans g2, fun _ x hx => dproper_mono (g2.grow x (hE x hx)) (p1 x hx)⟩

/-- something is visited -/
def Nonempt (f : Each Ty vals) : Prop := ∀ dbg Xs ws, (∀ i, DProper (Xs i)) → f.visit dbg Xs = .ok ws → ws ≠ []
theorem Spec.Each.Encl.nonempt {f : Each Ty vals} (h : f.Encl) : Nonempt f := by
  intro dbg Xs ws hX hr h0
  choose vs hv using fun i => exists_dmem (hX i)
  obtain ⟨v, _, hv⟩ := h dbg Xs vs ws hv hr
  rw [h0] at hv; cases hv
theorem Spec.Each.Total.nonempt {f : Each Ty vals} (h : f.Total) : Nonempt f := by
  intro dbg Xs ws hX hr
  obtain ⟨ws', h1, h2⟩ := h dbg Xs hX
  rw [hr] at h1; cases h1; exact h2

/-- The interval run keeps the invariant, only enlarges the variables in scope, and does not touch the variables of the conditions at hand. -/
theorem mrun_step {dbg : Bool} {disc : σ → Bool} (hs : ∀ s, disc s = true → LawfulStep (Ty s)) {P : MFn Ty vals → Prop} {Q : Each Ty vals → Prop} (hQ : ∀ f, Q f → Nonempt f) : ∀ {p : MProg Ty vals} {Γ Γ' : MCtx Ty vals} {S S' : Env (Dm Ty vals)}
    {K : List (HCond Ty)}, p.All P Q → p.Wf Γ Γ' → MInv dbg disc Γ S K → runMI dbg disc p S K = .ok (S', true) → MInv dbg disc Γ' S' K ∧ MGrow Γ S S' := by
  intro p
  induction p with
  | skip =>
    rintro Γ _ S S' K _ rfl hi hr
    simp only [runMI, Except.ok.injEq, Prod.mk.injEq] at hr; obtain ⟨rfl, _⟩ := hr
    exact ⟨hi, MGrow.refl _ _⟩
  | seq p q ihp ihq =>
    rintro Γ Γ' S S' K hv ⟨Γ1, h1, h2⟩ hi hr
    simp only [runMI, bind_eq_ok, pure, Except.pure, Except.ok.injEq, Prod.mk.injEq, Bool.and_eq_true, Prod.exists] at hr
    obtain ⟨S1, b1, r1, S2, b2, r2, rfl, rfl, rfl⟩ := hr
    obtain ⟨i1, g1⟩ := ihp hv.1 h1 hi r1
    obtain ⟨i2, g2⟩ := ihq hv.2 h2 i1 r2
    obtain ⟨c1, c2, c3, c4⟩ := wf_ctx h1
    refine ⟨i2, fun x hx v hv => g2.grow x (by rw [c4]; exact hx) v (g1.grow x hx v hv), fun x hx => ?_⟩
    rw [g2.keep x (by rw [c1]; exact hx), g1.keep x hx]
  | decl x =>
    rintro Γ _ S S' K _ ⟨hx, rfl⟩ hi hr
    simp only [runMI, Except.ok.injEq, Prod.mk.injEq] at hr; obtain ⟨rfl, _⟩ := hr
    exact minv_decl hi hx
  | letF x f args =>
    rintro Γ _ S S' K _ ⟨hx, ha, rfl⟩ hi hr
    simp only [runMI, bind_eq_ok, pure, Except.pure, Except.ok.injEq, Prod.mk.injEq] at hr
    obtain ⟨R, hR, rfl, hpr⟩ := hr
    exact minv_bind hi hx hpr
  | constrain s x y k =>
    rintro Γ _ S S' K _ ⟨e, pol, hk, hx1, hx2, hx3, hx4, rfl⟩ hi hr
    simp only [runMI] at hr
    split at hr
    · cases hr
    · next c hK =>
      simp only [bind_eq_ok, pure, Except.pure, Except.ok.injEq, Prod.mk.injEq] at hr
      obtain ⟨R, hR, rfl, _⟩ := hr
      exact minv_bind hi hx1 (mconstrain_checked (y := (s, y)) hs hi hk hK hx2 hR).1
  | assignPartial s x y =>
    rintro Γ _ S S' K _ ⟨hx1, hx2, hx3, rfl⟩ hi hr
    simp only [runMI, bind_eq_ok, pure, Except.pure, Except.ok.injEq, Prod.mk.injEq] at hr
    obtain ⟨R, hR, rfl, _⟩ := hr
    obtain ⟨R', e1, e2, e3, e4⟩ := dassignPartial_grow (dbg := dbg) (X := S (s, x)) (Y := S (s, y)) (hi.clean _ hx1) (hi.prop _ hx2)
    rw [hR] at e1; cases e1
    exact minv_assign hi hx1 hx3 e2 fun _ => e3
  | assign s x y =>
    rintro Γ _ S S' K _ ⟨hx1, hx2, hx3, hx4, rfl⟩ hi hr
    simp only [runMI, bind_eq_ok, pure, Except.pure, Except.ok.injEq, Prod.mk.injEq] at hr
    obtain ⟨R, hR, rfl, _⟩ := hr
    obtain ⟨e1, rfl⟩ := dassignFree_ok (hi.clean _ hx1) hR
    refine minv_assign hi hx1 hx3 (hi.prop _ hx2) fun ho v hv => ?_
    cases hs' : VSort.isSet s with
    | true => exact absurd ho (hx4 hs')
    | false => exact absurd (e1 hs' ▸ hv) (dunassigned_empty v)
  | reset s x y =>
    rintro Γ _ S S' K _ ⟨hx1, hx2, hx3, rfl⟩ hi hr
    simp only [runMI, dresetFree, Except.ok.injEq, Prod.mk.injEq] at hr
    obtain ⟨rfl, _⟩ := hr
    exact minv_assign hi hx1 (fun c hc => by
      cases hu : c.1.uses (s, x) with
      | false => rfl
      | true => exact absurd (hi.cout c hc _ hu) hx3) (R := S (s, y)) (hi.prop _ hx2) fun h => absurd h hx3
  | block p ih =>
    rintro Γ _ S S' K hv ⟨Γp, hp, rfl⟩ hi hr
    obtain ⟨i1, g1⟩ := ih hv hp hi hr
    obtain ⟨c1, c2, c3, c4⟩ := wf_ctx hp
    exact ⟨minv_block hi g1 i1 c2 c3, g1⟩
  | call x p args r ih =>
    rintro Γ _ S S' K hv ⟨Γp, hp, hx, ha, hr', rfl⟩ hi hr
    simp only [runMI, bind_eq_ok, pure, Except.pure, Except.ok.injEq, Prod.mk.injEq, Prod.exists] at hr
    obtain ⟨S1, b, r1, rfl, rfl⟩ := hr
    obtain ⟨i1, _⟩ := ih hv hp (minv_start (fun z hz => by
      unfold params at hz
      obtain ⟨i, hi', rfl⟩ := List.mem_mapIdx.1 hz
      simp only [mframe, List.getElem?_eq_getElem hi', dif_pos]
      exact hi.prop _ (ha _ (List.getElem_mem hi')))) r1
    exact minv_bind hi hx (i1.prop r hr')
  | branch e p q ihp ihq =>
    rintro Γ _ S S' K hv ⟨he, Γp, Γq, hp, hq, rfl⟩ hi hr
    obtain ⟨c, hc, S1, r1, nc, hnc, r2⟩ := runMI_branch hr
    -- first branch
    have A : MInv dbg disc Γ S1 K ∧ MGrow { Γ with outer := Γ.scope } S S1 ∧ (∀ x, e.uses x = true → S1 x = S x) ∧
        (BoolSet.contains c.truth true = true → ∀ x ∈ Γp.asgd, DProper (S1 x)) := by
      split at r1
      · next ht =>
        obtain ⟨i1, g1⟩ := ihp hv.1 hp (minv_push hi (ep := (e, true)) he (by simpa [msgn] using hc) ht) r1
        obtain ⟨i2, g2⟩ := minv_pop (E := [_]) hi g1 i1 (wf_ctx hp).2.1
        exact ⟨i2, g2, fun x hx => g1.keep x ⟨_, List.mem_cons_self, hx⟩, fun _ => i1.prop⟩
      · next ht =>
        simp only [Except.ok.injEq, Prod.mk.injEq] at r1; obtain ⟨rfl, _⟩ := r1
        exact ⟨hi, MGrow.refl _ _, fun _ _ => rfl, fun h => absurd h ht⟩
    obtain ⟨i1, g1, k1, p1⟩ := A
    have hc1 : e.build dbg disc S1 = .ok c := by rw [mbuild_congr k1]; exact hc
    have B : MInv dbg disc Γ S' K ∧ MGrow { Γ with outer := Γ.scope } S1 S' ∧ (BoolSet.contains nc.truth true = true → ∀ x ∈ Γq.asgd, DProper (S' x)) := by
      split at r2
      · next ht =>
        obtain ⟨j1, l1⟩ := ihq hv.2 hq (minv_push i1 (ep := (e, false)) he ((mnot_build hc1).1 hnc) ht) r2
        obtain ⟨j2, l2⟩ := minv_pop (E := [_]) i1 l1 j1 (wf_ctx hq).2.1
        exact ⟨j2, l2, fun _ => j1.prop⟩
      · next ht =>
        simp only [Except.ok.injEq, Prod.mk.injEq] at r2; obtain ⟨rfl, _⟩ := r2
        exact ⟨i1, MGrow.refl _ _, fun h => absurd h ht⟩
    obtain ⟨i2, g2, p2⟩ := B
    refine ⟨minv_more i2 ?_, MGrow.inner hi (g1.trans g2)⟩
    intro x hx
    simp only [List.mem_filter, decide_eq_true_eq] at hx
    obtain ⟨hx1, hx2, hx3⟩ := hx
    refine ⟨hx1, ?_⟩
    rcases msome_branch hi.prop he hc hnc with ht | ht
    · exact dproper_mono (g2.grow x hx1) (p1 ht x hx2)
    · exact p2 ht x hx3
  | each f args body ih =>
    rintro Γ _ S S' K hv ⟨hy, E, hE, hbody, rfl⟩ hi hr
    simp only [runMI, bind_eq_ok] at hr
    obtain ⟨vs, h1, h2⟩ := hr
    obtain ⟨i1, g1, p1⟩ := mloop_step (Γ := Γ) hE (fun v _ S S' hi hr => by
      obtain ⟨Γv, w1, w2⟩ := hbody v
      obtain ⟨j1, l1⟩ := ih v (hv.2 v) w1 (minv_loop hi) hr
      obtain ⟨j2, l2⟩ := minv_pop (E := []) hi l1 j1 (wf_ctx w1).2.1
      exact ⟨j2, l2, fun x hx => j1.prop x (w2 x hx)⟩) hi h2
    refine ⟨minv_more i1 fun x hx => ⟨hE x hx, p1 (hQ f hv.1 dbg _ _ (fun i => hi.prop _ (hy i)) h1) x hx⟩, MGrow.inner hi g1⟩

/-! ## simulation -/

/-- scalar state related to interval state -/
structure MRel (Γ : MCtx Ty vals) (S : Env (Dm Ty vals)) (s : Env (Sc Ty En)) (B : List Bool) : Prop where
  mem : ∀ x ∈ Γ.asgd, s x ∈ₘ S x
  conds : ∀ c ∈ Γ.conds, c.1.eval s = c.2
  stack : B = Γ.conds.map (fun _ => true)

theorem mrel_conds {Γ : MCtx Ty vals} {s s' : Env (Sc Ty En)} (h : ∀ x, (∃ c ∈ Γ.conds, c.1.uses x = true) → s' x = s x) (hc : ∀ c ∈ Γ.conds, c.1.eval s = c.2) :
    ∀ c ∈ Γ.conds, c.1.eval s' = c.2 := by
  intro c hm
  rw [meval_congr (s := s') (s' := s) (fun x hx => h x ⟨c, hm, hx⟩)]; exact hc c hm

theorem mrel_upd {Γ : MCtx Ty vals} {S : Env (Dm Ty vals)} {s : Env (Sc Ty En)} {B : List Bool} (hR : MRel Γ S s B) {x : MVar σ κ} {v : Sc Ty En x.1} {R : Dm Ty vals x.1} (hv : v ∈ₘ R) :
    ∀ z ∈ x :: Γ.asgd, mupd s x v z ∈ₘ mupd (A := Dm Ty vals) S x R z := by
  intro z hz
  by_cases hzx : z = x
  · subst hzx; rw [mupd_self, mupd_self]; exact hv
  · rw [mupd_ne _ _ hzx, mupd_ne _ _ hzx]; exact hR.mem z ((List.mem_cons.1 hz).resolve_left hzx)

/-- binding a fresh variable -/
theorem mrel_bind {dbg : Bool} {disc : σ → Bool} {Γ : MCtx Ty vals} {S : Env (Dm Ty vals)} {K : List (HCond Ty)} {s : Env (Sc Ty En)} {B : List Bool} (hi : MInv dbg disc Γ S K)
    (hR : MRel Γ S s B) {x : MVar σ κ} (hx : x ∉ Γ.scope) {v : Sc Ty En x.1} {R : Dm Ty vals x.1} (hv : v ∈ₘ R) :
    MRel (Γ.bind x) (mupd (A := Dm Ty vals) S x R) (mupd s x v) B ∧ ∀ y, (∃ c ∈ Γ.conds, c.1.uses y = true) → mupd s x v y = s y := by
  have hk2 : ∀ y, (∃ c ∈ Γ.conds, c.1.uses y = true) → mupd s x v y = s y := fun y hy => mkeep_fresh hx s v y (mused_scope hi hy)
  exact ⟨⟨mrel_upd hR hv, mrel_conds hk2 hR.conds, hR.stack⟩, hk2⟩

/-- Every scalar run is enclosed. -/
theorem mrun_encl {dbg : Bool} {disc : σ → Bool} (zero : (t : VSort σ κ) → Sc Ty En t) (hs : ∀ s, disc s = true → LawfulStep (Ty s)) : ∀ {p : MProg Ty vals} {Γ Γ' : MCtx Ty vals} {S S' : Env (Dm Ty vals)}
    {K : List (HCond Ty)} {s : Env (Sc Ty En)} {B : List Bool}, p.All MFn.Encl Each.Encl → p.Wf Γ Γ' → MInv dbg disc Γ S K → runMI dbg disc p S K = .ok (S', true) →
    MRel Γ S s B → ∃ s', runMS zero p s B = .ok s' ∧ MRel Γ' S' s' B ∧ ∀ x, (∃ c ∈ Γ.conds, c.1.uses x = true) → s' x = s x := by
  intro p
  induction p with
  | skip =>
    rintro Γ _ S S' K s B hf rfl hi hr hR
    simp only [runMI, Except.ok.injEq, Prod.mk.injEq] at hr; obtain ⟨rfl, _⟩ := hr
    exact ⟨s, rfl, hR, fun _ _ => rfl⟩
  | seq p q ihp ihq =>
    rintro Γ Γ' S S' K s B hf ⟨Γ1, h1, h2⟩ hi hr hR
    simp only [runMI, bind_eq_ok, pure, Except.pure, Except.ok.injEq, Prod.mk.injEq, Bool.and_eq_true, Prod.exists] at hr
    obtain ⟨S1, b1, r1, S2, b2, r2, rfl, rfl, rfl⟩ := hr
    obtain ⟨s1, t1, t2, t3⟩ := ihp hf.1 h1 hi r1 hR
    obtain ⟨s2, u1, u2, u3⟩ := ihq hf.2 h2 (mrun_step hs (fun _ h => h.nonempt) hf.1 h1 hi r1).1 r2 t2
    refine ⟨s2, by simp only [runMS, t1, ok_bind, u1], u2, fun x hx => ?_⟩
    rw [u3 x (by rw [(wf_ctx h1).1]; exact hx), t3 x hx]
  | decl x =>
    rintro Γ _ S S' K s B hf ⟨hx, rfl⟩ hi hr hR
    simp only [runMI, Except.ok.injEq, Prod.mk.injEq] at hr; obtain ⟨rfl, _⟩ := hr
    have hk := mkeep_fresh hx s (zero x.1)
    have hk' := mkeep_fresh (A := Dm Ty vals) hx S (Dm.unassigned _)
    have hk2 : ∀ y, (∃ c ∈ Γ.conds, c.1.uses y = true) → mupd s x (zero x.1) y = s y := fun y hy => hk y (mused_scope hi hy)
    exact ⟨_, rfl, ⟨fun y hy => by rw [hk y (hi.sub y hy), hk' y (hi.sub y hy)]; exact hR.mem y hy, mrel_conds hk2 hR.conds, hR.stack⟩, hk2⟩
  | letF x f args =>
    rintro Γ _ S S' K s B hf ⟨hx, ha, rfl⟩ hi hr hR
    simp only [runMI, bind_eq_ok, pure, Except.pure, Except.ok.injEq, Prod.mk.injEq] at hr
    obtain ⟨R, hR', rfl, hpr⟩ := hr
    obtain ⟨v, hv1, hv2⟩ := hf dbg _ (fun i => s (f.sig i, args i)) R (fun i => hR.mem _ (ha i)) hR' hpr
    obtain ⟨q1, q2⟩ := mrel_bind hi hR hx hv2
    exact ⟨_, by simp only [runMS, hv1, ok_bind, pure, Except.pure], q1, q2⟩
  | constrain t x y k =>
    rintro Γ _ S S' K s B hf ⟨e, pol, hk, hx1, hx2, hx3, hx4, rfl⟩ hi hr hR
    simp only [runMI] at hr
    split at hr
    · cases hr
    · next c hK =>
      simp only [bind_eq_ok, pure, Except.pure, Except.ok.injEq, Prod.mk.injEq] at hr
      obtain ⟨R, hR', rfl, _⟩ := hr
      obtain ⟨_, g3⟩ := mconstrain_checked (y := (t, y)) hs hi hk hK hx2 hR'
      have hv2 := g3 s hx4 hR.mem (hR.conds _ (List.mem_of_getElem? hk))
      have hB : B[k]? = some true := by rw [hR.stack, List.getElem?_map, hk]; rfl
      obtain ⟨q1, q2⟩ := mrel_bind (x := (.ivl t, x)) hi hR hx1 hv2
      exact ⟨_, by simp only [runMS, hB, Scalar.constrain, expects_true, ok_bind, pure, Except.pure], q1, q2⟩
  | assignPartial t x y =>
    rintro Γ _ S S' K s B hf ⟨hx1, hx2, hx3, rfl⟩ hi hr hR
    simp only [runMI, bind_eq_ok, pure, Except.pure, Except.ok.injEq, Prod.mk.injEq] at hr
    obtain ⟨R, hR', rfl, _⟩ := hr
    obtain ⟨R', e1, e2, e3, e4⟩ := dassignPartial_grow (dbg := dbg) (X := S (t, x)) (Y := S (t, y)) (hi.clean _ hx1) (hi.prop _ hx2)
    rw [hR'] at e1; cases e1
    have hk2 : ∀ z, (∃ c ∈ Γ.conds, c.1.uses z = true) → mupd s (t, x) (s (t, y)) z = s z := by
      rintro z ⟨c, h1, h2⟩
      apply mupd_ne; rintro rfl; rw [hx3 c h1] at h2; cases h2
    exact ⟨_, rfl, ⟨mrel_upd (x := (t, x)) hR (e4 _ (hR.mem _ hx2)), mrel_conds hk2 hR.conds, hR.stack⟩, hk2⟩
  | assign t x y =>
    rintro Γ _ S S' K s B hf ⟨hx1, hx2, hx3, hx4, rfl⟩ hi hr hR
    simp only [runMI, bind_eq_ok, pure, Except.pure, Except.ok.injEq, Prod.mk.injEq] at hr
    obtain ⟨R, hR', rfl, _⟩ := hr
    obtain ⟨_, rfl⟩ := dassignFree_ok (hi.clean _ hx1) hR'
    have hk2 : ∀ z, (∃ c ∈ Γ.conds, c.1.uses z = true) → mupd s (t, x) (s (t, y)) z = s z := by
      rintro z ⟨c, h1, h2⟩
      apply mupd_ne; rintro rfl; rw [hx3 c h1] at h2; cases h2
    exact ⟨_, rfl, ⟨mrel_upd (x := (t, x)) hR (hR.mem _ hx2), mrel_conds hk2 hR.conds, hR.stack⟩, hk2⟩
  | reset t x y =>
    rintro Γ _ S S' K s B hf ⟨hx1, hx2, hx3, rfl⟩ hi hr hR
    simp only [runMI, dresetFree, Except.ok.injEq, Prod.mk.injEq] at hr
    obtain ⟨rfl, _⟩ := hr
    have hk2 : ∀ z, (∃ c ∈ Γ.conds, c.1.uses z = true) → mupd s (t, x) (s (t, y)) z = s z := by
      rintro z ⟨c, h1, h2⟩
      apply mupd_ne; rintro rfl; exact hx3 (hi.cout c h1 _ h2)
    exact ⟨_, rfl, ⟨mrel_upd (x := (t, x)) (R := S (t, y)) hR (hR.mem _ hx2), mrel_conds hk2 hR.conds, hR.stack⟩, hk2⟩
  | block p ih =>
    rintro Γ _ S S' K s B hf ⟨Γp, hp, rfl⟩ hi hr hR
    obtain ⟨s1, t1, t2, t3⟩ := ih hf hp hi hr hR
    refine ⟨s1, t1, ⟨fun x hx => ?_, mrel_conds t3 hR.conds, hR.stack⟩, t3⟩
    rcases List.mem_append.1 hx with hx | hx
    · exact t2.mem x ((wf_ctx hp).2.2.1 x hx)
    · simp only [List.mem_filter, decide_eq_true_eq] at hx
      exact t2.mem x hx.2
  | call x p args r ih =>
    rintro Γ _ S S' K s B hf ⟨Γp, hp, hx, ha, hr', rfl⟩ hi hr hR
    simp only [runMI, bind_eq_ok, pure, Except.pure, Except.ok.injEq, Prod.mk.injEq, Prod.exists] at hr
    obtain ⟨S1, b, r1, rfl, rfl⟩ := hr
    have hfr : ∀ z ∈ params args, mframe zero s args z ∈ₘ mframe (A := Dm Ty vals) Dm.unassigned S args z := by
      intro z hz
      unfold params at hz
      obtain ⟨i, hi', rfl⟩ := List.mem_mapIdx.1 hz
      simp only [mframe, List.getElem?_eq_getElem hi', dif_pos]
      exact hR.mem _ (ha _ (List.getElem_mem hi'))
    obtain ⟨s1, t1, t2, _⟩ := ih hf hp (minv_start (fun z hz => dmem_proper (hfr z hz))) r1 (s := mframe zero s args) (B := []) ⟨hfr, fun _ h => (nomatch h), rfl⟩
    obtain ⟨q1, q2⟩ := mrel_bind (x := (r.1, x)) hi hR hx (t2.mem r hr')
    exact ⟨_, by simp only [runMS, t1, ok_bind, pure, Except.pure], q1, q2⟩
  | branch e p q ihp ihq =>
    rintro Γ _ S S' K s B hf ⟨he, Γp, Γq, hp, hq, rfl⟩ hi hr hR
    obtain ⟨c, hc, S1, r1, nc, hnc, r2⟩ := runMI_branch hr
    obtain ⟨c', e1, hw, hev⟩ := build_hwf (dbg := dbg) (disc := disc) hi.prop he
    rw [hc] at e1; cases e1
    obtain ⟨c', n1, _, n3, _⟩ := mkNot_hwf dbg hw
    rw [hnc] at n1; cases n1
    have htr := hev_truth hw (hev s (fun x hu => hR.mem x (mok_uses he x hu)))
    -- first branch
    have A : MInv dbg disc Γ S1 K ∧ MGrow { Γ with outer := Γ.scope } S S1 ∧ (∀ x, e.uses x = true → S1 x = S x) := by
      split at r1
      · next ht =>
        obtain ⟨i1, g1⟩ := mrun_step hs (fun _ h => h.nonempt) hf.1 hp (minv_push hi (ep := (e, true)) he (by simpa [msgn] using hc) ht) r1
        obtain ⟨i2, g2⟩ := minv_pop (E := [_]) hi g1 i1 (wf_ctx hp).2.1
        exact ⟨i2, g2, fun x hx => g1.keep x ⟨_, List.mem_cons_self, hx⟩⟩
      · next ht =>
        simp only [Except.ok.injEq, Prod.mk.injEq] at r1; obtain ⟨rfl, _⟩ := r1
        exact ⟨hi, MGrow.refl _ _, fun _ _ => rfl⟩
    obtain ⟨i1, g1, k1⟩ := A
    have hc1 : e.build dbg disc S1 = .ok c := by rw [mbuild_congr k1]; exact hc
    have B2 : MGrow { Γ with outer := Γ.scope } S1 S' := by
      split at r2
      · next ht =>
        obtain ⟨j1, l1⟩ := mrun_step hs (fun _ h => h.nonempt) hf.2 hq (minv_push i1 (ep := (e, false)) he ((mnot_build hc1).1 hnc) ht) r2
        exact (minv_pop (E := [_]) i1 l1 j1 (wf_ctx hq).2.1).2
      · next ht =>
        simp only [Except.ok.injEq, Prod.mk.injEq] at r2; obtain ⟨rfl, _⟩ := r2
        exact MGrow.refl _ _
    have hkc : ∀ {s' : Env (Sc Ty En)} {pol : Bool}, (∀ x, (∃ c ∈ (e, pol) :: Γ.conds, c.1.uses x = true) → s' x = s x) →
        ∀ x, (∃ c ∈ Γ.conds, c.1.uses x = true) → s' x = s x := fun h x ⟨c, h1, h2⟩ => h x ⟨c, List.mem_cons_of_mem _ h1, h2⟩
    cases hes : e.eval s with
    | true =>
      rw [hes] at htr
      rw [show BoolSet.possibly c.truth = true from htr, if_pos rfl] at r1
      obtain ⟨s1, t1, t2, t3⟩ := ihp hf.1 hp (minv_push hi (ep := (e, true)) he (by simpa [msgn] using hc) htr) r1 (s := s) (B := true :: B)
        ⟨hR.mem, fun c hc => by rcases List.mem_cons.1 hc with rfl | hc; exacts [hes, hR.conds c hc], by simp [hR.stack]⟩
      refine ⟨s1, by simp only [runMS, hes, if_true, t1, ok_bind, Bool.not_true, Bool.false_eq_true, if_false, pure, Except.pure], ⟨fun x hx => ?_, ?_, hR.stack⟩, hkc t3⟩
      · rcases List.mem_append.1 hx with hx | hx
        · exact B2.grow x (hi.sub x hx) _ (t2.mem x ((wf_ctx hp).2.2.1 x hx))
        · simp only [List.mem_filter, decide_eq_true_eq] at hx
          exact B2.grow x hx.1 _ (t2.mem x hx.2.1)
      · exact mrel_conds (hkc t3) hR.conds
    | false =>
      have ht : BoolSet.contains nc.truth true = true := by rw [n3, contains_not]; rw [hes] at htr; exact htr
      rw [show BoolSet.possibly nc.truth = true from ht, if_pos rfl] at r2
      obtain ⟨s1, t1, t2, t3⟩ := ihq hf.2 hq (minv_push i1 (ep := (e, false)) he ((mnot_build hc1).1 hnc) ht) r2 (s := s) (B := true :: B)
        ⟨fun x hx => g1.grow x (hi.sub x hx) _ (hR.mem x hx), fun c hc => by rcases List.mem_cons.1 hc with rfl | hc; exacts [hes, hR.conds c hc], by simp [hR.stack]⟩
      refine ⟨s1, by simp only [runMS, hes, Bool.false_eq_true, if_false, t1, ok_bind, Bool.not_false, if_true, pure, Except.pure], ⟨fun x hx => ?_, ?_, hR.stack⟩, hkc t3⟩
      · rcases List.mem_append.1 hx with hx | hx
        · exact t2.mem x ((wf_ctx hq).2.2.1 x hx)
        · simp only [List.mem_filter, decide_eq_true_eq] at hx
          exact t2.mem x hx.2.2
      · exact mrel_conds (hkc t3) hR.conds
  | each f args body ih =>
    rintro Γ _ S S' K s B hf ⟨hy, E, hE, hbody, rfl⟩ hi hr hR
    simp only [runMI, bind_eq_ok] at hr
    obtain ⟨vs, h1, h2⟩ := hr
    have hstep : ∀ v ∈ vs, ∀ S S', MInv dbg disc Γ S K → runMI dbg disc (body v) S K = .ok (S', true) →
        MInv dbg disc Γ S' K ∧ MGrow { Γ with outer := Γ.scope } S S' ∧ ∀ x ∈ E, DProper (S' x) := by
      intro v _ S S' hi hr
      obtain ⟨Γv, w1, w2⟩ := hbody v
      obtain ⟨j1, l1⟩ := mrun_step hs (fun _ h => h.nonempt) (hf.2 v) w1 (minv_loop hi) hr
      obtain ⟨j2, l2⟩ := minv_pop (E := []) hi l1 j1 (wf_ctx w1).2.1
      exact ⟨j2, l2, fun x hx => j1.prop x (w2 x hx)⟩
    obtain ⟨u, hu, hmem⟩ := hf.1 dbg _ (fun i => s (f.sig i, args i)) _ (fun i => hR.mem _ (hy i)) h1
    obtain ⟨Γv, w1, w2⟩ := hbody u
    obtain ⟨c1, c2, c3, c4⟩ := wf_ctx w1
    have key : ∀ {vs : List f.V} {S S' : Env (Dm Ty vals)}, (∀ v ∈ vs, ∀ S S', MInv dbg disc Γ S K → runMI dbg disc (body v) S K = .ok (S', true) →
        MInv dbg disc Γ S' K ∧ MGrow { Γ with outer := Γ.scope } S S' ∧ ∀ x ∈ E, DProper (S' x)) → u ∈ vs → MInv dbg disc Γ S K → MRel Γ S s B →
        loopM (fun v S => runMI dbg disc (body v) S K) vs S = .ok (S', true) →
        ∃ s', runMS zero (body u) s B = .ok s' ∧ (∀ x ∈ Γ.asgd ++ E, s' x ∈ₘ S' x) ∧ ∀ x, (∃ c ∈ Γ.conds, c.1.uses x = true) → s' x = s x := by
      intro vs
      induction vs with
      | nil => intro S S' _ hm; cases hm
      | cons v vs ihv =>
        intro S S' hb hm hi hR hr
        obtain ⟨S1, r1, r2⟩ := loopM_cons.1 hr
        obtain ⟨i1, g1, _⟩ := hb v List.mem_cons_self S S1 hi r1
        by_cases hve : u = v
        · subst hve
          obtain ⟨s1, t1, t2, t3⟩ := ih u (hf.2 u) w1 (minv_loop hi) r1 (s := s) (B := B) ⟨hR.mem, hR.conds, hR.stack⟩
          obtain ⟨_, g2, _⟩ := mloop_step (Γ := Γ) hE (fun w hw => hb w (List.mem_cons_of_mem _ hw)) i1 r2
          refine ⟨s1, t1, fun x hx => ?_, t3⟩
          rcases List.mem_append.1 hx with hx | hx
          · exact g2.grow x (hi.sub x hx) _ (t2.mem x (c3 x hx))
          · exact g2.grow x (hE x hx) _ (t2.mem x (w2 x hx))
        · exact ihv (fun w hw => hb w (List.mem_cons_of_mem _ hw)) ((List.mem_cons.1 hm).resolve_left hve) i1
            ⟨fun x hx => g1.grow x (hi.sub x hx) _ (hR.mem x hx), hR.conds, hR.stack⟩ r2
    obtain ⟨s', q1, q2, q3⟩ := key hstep hmem hi hR h2
    exact ⟨s', by simp only [runMS, hu, ok_bind, q1], ⟨q2, mrel_conds q3 hR.conds, hR.stack⟩, q3⟩

/-! ## programs that do not fail -/

theorem single_skel : ∀ {e : MCond Ty vals}, e.single = true → e.skel.neg = e.skel ∧ (e.skel = .plain ∨ ∃ (s : σ) (l r : PTerm (Ty s)), e.skel = .cmp s l r ∧
    ∀ op, (PCond.cmp op l r).single = true) := by
  intro e
  induction e with
  | pred f args => exact fun _ => ⟨rfl, .inl rfl⟩
  | cmp s op l r =>
    intro h
    refine ⟨rfl, .inr ⟨s, l, r, rfl, fun op => ?_⟩⟩
    cases l <;> cases r <;> simpa [MCond.single, PCond.single] using h
  | and e f ihe ihf => intro h; cases h
  | or e f ihe ihf => intro h; cases h
  | not e ih =>
    intro h
    obtain ⟨h1, h2⟩ := ih h
    have h3 : (MCond.not e).skel = e.skel := h1
    rw [h3]; exact ⟨h1, h2⟩

/-- a single comparison that is possibly true is true for some values -/
theorem msingle_sat {disc : σ → Bool} {S : Env (Dm Ty vals)} {y : σ × Nat} {e : MCond Ty vals} {pol : Bool} {c : HCond Ty} (hsg : e.single = true) (hsh : HSh disc S.ivls (e.skelP pol) c) (hw : HWF c)
    (ht : BoolSet.contains c.truth true = true) (hu : e.seenUses y pol = true) : (c.view y.1).isLeaf = true ∧ ∃ ρ, Ev ρ (c.view y.1) true ∧ ρ y.2 ∈ᵢ S.ivls y := by
  obtain ⟨h1, h2⟩ := single_skel hsg
  have h3 : e.skelP pol = e.skel := by unfold MCond.skelP; split <;> simp [h1]
  unfold MCond.seenUses at hu
  rw [h3] at hsh hu
  rcases h2 with h2 | ⟨s, l, r, h2, hs⟩
  · rw [h2] at hu; cases hu
  · rw [h2] at hsh hu
    obtain ⟨c', op, pol', rfl, hsh⟩ := hsh
    obtain ⟨t, n⟩ := y
    simp only [Skel.seenUses, Bool.and_eq_true, decide_eq_true_eq] at hu
    obtain ⟨rfl, hu⟩ := hu
    rw [view_cmp]
    obtain ⟨ρ, q1, q2⟩ := single_sat (hs op) hsh hw.1 ht
    exact ⟨single_flat (hs op) hsh, ρ, q1, q2 n hu⟩

/-- A program whose conditions are single comparisons and whose functions are total does not fail on intervals. -/
theorem mrun_total {dbg : Bool} {disc : σ → Bool} (hs : ∀ s, disc s = true → LawfulStep (Ty s)) : ∀ {p : MProg Ty vals} {Γ Γ' : MCtx Ty vals} {S : Env (Dm Ty vals)} {K : List (HCond Ty)},
    p.All MFn.Total Each.Total → p.Plain → (∀ c ∈ Γ.conds, c.1.single = true) → p.Wf Γ Γ' → MInv dbg disc Γ S K →
    ∃ S', runMI dbg disc p S K = .ok (S', true) := by
  intro p
  induction p with
  | skip => intro Γ Γ' S K _ _ _ _ _; exact ⟨S, rfl⟩
  | seq p q ihp ihq =>
    rintro Γ Γ' S K hf hna hc ⟨Γ1, h1, h2⟩ hi
    obtain ⟨S1, r1⟩ := ihp hf.1 hna.1 hc h1 hi
    obtain ⟨S2, r2⟩ := ihq hf.2 hna.2 (by rw [(wf_ctx h1).1]; exact hc) h2 (mrun_step hs (fun _ h => h.nonempt) hf.1 h1 hi r1).1
    exact ⟨S2, by simp only [runMI, r1, r2, ok_bind, pure, Except.pure, Bool.and_self]⟩
  | decl x => intro Γ Γ' S K _ _ _ _ _; exact ⟨_, rfl⟩
  | letF x f args =>
    rintro Γ Γ' S K hf hna hc ⟨hx, ha, rfl⟩ hi
    obtain ⟨R, h1, h2⟩ := hf dbg (fun i => S (f.sig i, args i)) (fun i => hi.prop _ (ha i))
    exact ⟨mupd S (f.res, x) R, by simp only [runMI, h1, h2, ok_bind, pure, Except.pure]⟩
  | constrain s x y k =>
    rintro Γ Γ' S K hf hna hc ⟨e, pol, hk, hx1, hx2, hx3, hx4, rfl⟩ hi
    have hm : (e, pol) ∈ Γ.conds := List.mem_of_getElem? hk
    obtain ⟨c, hK, hb, ht⟩ := mstack_get hi hk
    have hsh := msgn_sh hb
    obtain ⟨c', w1, w2, _⟩ := build_hwf (dbg := dbg) (disc := disc) hi.prop (msgn_ok (ep := (e, pol)) (hi.used _ hm))
    rw [hb] at w1; cases w1
    obtain ⟨hl, ρ, q1, q2⟩ := msingle_sat (y := (s, y)) (hc _ hm) hsh w2 ht hx3
    have hcs : ConjSat y (S (.ivl s, y)) (Spec.seen (c.view s)) := by
      rw [seen_leaf hl]
      generalize (HCond.view (s, y).1 c) = c' at hl ⊢
      cases c' <;> first | trivial | simp [Cond.isLeaf] at hl
    obtain ⟨R, f, hR⟩ := sat_ok (dbg := dbg) (hs s) q2 _ hcs (w2.view s) (hsh_strict s hsh).seen (hsh_self (y := (s, y)) hsh).seen (ev_seen (w2.view s) q1) false false
    have := flag_val _ _ _ _ _ hR
    simp only [(hsh_seen (y := (s, y)) hsh).2 hx3, decide_true, Bool.or_true] at this
    subst this
    refine ⟨mupd S (.ivl s, x) R, ?_⟩
    simp only [runMI, hK, constrainH, Intervals.constrain, hR, expects_true, ok_bind, pure, Except.pure]
  | assignPartial s x y =>
    rintro Γ Γ' S K hf hna hc ⟨hx1, hx2, hx3, rfl⟩ hi
    obtain ⟨R', e1, _⟩ := dassignPartial_grow (dbg := dbg) (X := S (s, x)) (Y := S (s, y)) (hi.clean _ hx1) (hi.prop _ hx2)
    exact ⟨mupd S (s, x) R', by simp only [runMI, e1, ok_bind, pure, Except.pure]⟩
  | assign s x y =>
    intro Γ Γ' S K hf hna _ _ _
    cases s with
    | ivl s => cases hna
    | set k => exact ⟨_, rfl⟩
  | reset s x y => intro Γ Γ' S K _ _ _ _ _; exact ⟨_, rfl⟩
  | block p ih =>
    rintro Γ Γ' S K hf hna hc ⟨Γp, hp, rfl⟩ hi
    exact ih hf hna hc hp hi
  | call x p args r ih =>
    rintro Γ Γ' S K hf hna hc ⟨Γp, hp, hx, ha, hr', rfl⟩ hi
    obtain ⟨S1, r1⟩ := ih hf hna (fun _ h => absurd h List.not_mem_nil) hp (minv_start (S := mframe (A := Dm Ty vals) Dm.unassigned S args) (fun z hz => by
      unfold params at hz
      obtain ⟨i, hi', rfl⟩ := List.mem_mapIdx.1 hz
      simp only [mframe, List.getElem?_eq_getElem hi', dif_pos]
      exact hi.prop _ (ha _ (List.getElem_mem hi'))))
    exact ⟨mupd S (r.1, x) (S1 r), by simp only [runMI, r1, ok_bind, pure, Except.pure]⟩
  | branch e p q ihp ihq =>
    rintro Γ Γ' S K hf hna hc ⟨he, Γp, Γq, hp, hq, rfl⟩ hi
    obtain ⟨c, hb, w2, _⟩ := build_hwf (dbg := dbg) (disc := disc) hi.prop he
    obtain ⟨nc, hnc, _⟩ := mkNot_hwf dbg w2
    have hcs : ∀ pol, ∀ c ∈ (e, pol) :: Γ.conds, c.1.single = true := by
      intro pol c hc'
      rcases List.mem_cons.1 hc' with rfl | hc'
      exacts [hna.1, hc c hc']
    have A : ∃ S1, (if BoolSet.possibly c.truth then runMI dbg disc p S (c :: K) else .ok (S, true)) = .ok (S1, true) ∧ MInv dbg disc Γ S1 K ∧
        ∀ x, e.uses x = true → S1 x = S x := by
      by_cases ht : BoolSet.possibly c.truth = true
      · simp only [ht, if_true]
        have hpu := minv_push hi (ep := (e, true)) he (by simpa [msgn] using hb) ht
        obtain ⟨S1, r1⟩ := ihp hf.1 hna.2.1 (hcs true) hp hpu
        obtain ⟨i1, g1⟩ := mrun_step hs (fun _ h => h.nonempt) hf.1 hp hpu r1
        exact ⟨S1, r1, (minv_pop (E := [_]) hi g1 i1 (wf_ctx hp).2.1).1, fun x hx => g1.keep x ⟨_, List.mem_cons_self, hx⟩⟩
      · simp only [ht, if_false, Bool.false_eq_true]
        exact ⟨S, rfl, hi, fun _ _ => rfl⟩
    obtain ⟨S1, r1, i1, k1⟩ := A
    have hb1 : e.build dbg disc S1 = .ok c := by rw [mbuild_congr k1]; exact hb
    have B : ∃ S2, (if BoolSet.possibly nc.truth then runMI dbg disc q S1 (nc :: K) else .ok (S1, true)) = .ok (S2, true) := by
      by_cases ht : BoolSet.possibly nc.truth = true
      · simp only [ht, if_true]
        exact ihq hf.2 hna.2.2 (hcs false) hq (minv_push i1 (ep := (e, false)) he ((mnot_build hb1).1 hnc) ht)
      · simp only [ht, if_false, Bool.false_eq_true]
        exact ⟨S1, rfl⟩
    obtain ⟨S2, r2⟩ := B
    refine ⟨S2, ?_⟩
    simp only [runMI, hb, ok_bind]
    by_cases h1 : BoolSet.possibly c.truth = true <;> by_cases h2 : BoolSet.possibly nc.truth = true <;>
    · simp only [h1, h2, if_true, if_false, Bool.false_eq_true, Except.ok.injEq, Prod.mk.injEq, and_true] at r1 r2 ⊢
      first
      | (subst r1; subst r2; simp only [hnc, h2, if_false, Bool.false_eq_true, ok_bind, pure, Except.pure, Bool.and_self])
      | (subst r1; simp only [hnc, h2, r2, if_true, ok_bind, pure, Except.pure, Bool.and_self])
      | (subst r2; simp only [r1, hnc, h2, if_false, Bool.false_eq_true, ok_bind, pure, Except.pure, Bool.and_self])
      | simp only [r1, hnc, h2, r2, if_true, ok_bind, pure, Except.pure, Bool.and_self]
  | each f args body ih =>
    rintro Γ Γ' S K hf hna hc ⟨hy, E, hE, hbody, rfl⟩ hi
    obtain ⟨vs, h1, _⟩ := hf.1 dbg _ (fun i => hi.prop _ (hy i))
    have key : ∀ {vs : List f.V} {S : Env (Dm Ty vals)}, MInv dbg disc Γ S K →
        ∃ S', loopM (fun v S => runMI dbg disc (body v) S K) vs S = .ok (S', true) := by
      intro vs
      induction vs with
      | nil => intro S _; exact ⟨S, rfl⟩
      | cons v vs ihv =>
        intro S hi
        obtain ⟨Γv, w1, w2⟩ := hbody v
        obtain ⟨S1, r1⟩ := ih v (Γ := { Γ with outer := Γ.scope }) (hf.2 v) (hna v) hc w1 (minv_loop hi)
        obtain ⟨j1, l1⟩ := mrun_step hs (fun _ h => h.nonempt) (hf.2 v) w1 (minv_loop hi) r1
        obtain ⟨S2, r2⟩ := ihv (minv_pop (E := []) hi l1 j1 (wf_ctx w1).2.1).1
        exact ⟨S2, loopM_cons.2 ⟨S1, r1, r2⟩⟩
    obtain ⟨S', hS⟩ := key (vs := vs) hi
    exact ⟨S', by simp only [runMI, h1, ok_bind, hS]⟩

end Intervals
