import Verif.Spec.Program
import Verif.Lemmas.Constraint
import Verif.Props.Constraint
/-! # Lemmas about interval-aware programs -/
set_option linter.unusedSectionVars false
namespace Intervals
open Spec CppVal Props
variable {T : Type} [CppVal T] [CppOrder T]

/-! ## shape of built conditions -/

/-- the condition object is what the operators build from `e` (`pol`) or `!e`, up to truth sets -/
def Sh (d : Bool) (S : Nat → Ivl T) : PCond T → Bool → Cond T → Prop
  | .cmp _ l r, _, c => ∃ s, c = .leq s (l.inst d S) (r.inst d S) ∨ c = .leq s (r.inst d S) (l.inst d S) ∨ c = .less s (l.inst d S) (r.inst d S) ∨
      c = .less s (r.inst d S) (l.inst d S) ∨ c = .equal s (l.inst d S) (r.inst d S) ∨ c = .notEqual s (l.inst d S) (r.inst d S)
  | .and e f, pol, c => ∃ s l r, c = (if pol then .conj s l r else .disj s l r) ∧ Sh d S e pol l ∧ Sh d S f pol r
  | .or e f, pol, c => ∃ s l r, c = (if pol then .disj s l r else .conj s l r) ∧ Sh d S e pol l ∧ Sh d S f pol r
  | .not e, pol, c => Sh d S e (!pol) c

theorem sh_isCond {d : Bool} {S : Nat → Ivl T} : ∀ {e : PCond T} {pol c}, Sh d S e pol c → c.isCond = true := by
  intro e
  induction e with
  | cmp op l r => rintro pol c ⟨s, h⟩; rcases h with rfl | rfl | rfl | rfl | rfl | rfl <;> rfl
  | and e f ihe ihf => rintro pol c ⟨s, l, r, rfl, _, _⟩; cases pol <;> rfl
  | or e f ihe ihf => rintro pol c ⟨s, l, r, rfl, _, _⟩; cases pol <;> rfl
  | not e ih => intro pol c h; exact ih h

theorem sh_mkNot {dbg d : Bool} {S : Nat → Ivl T} : ∀ {e : PCond T} {pol c c'}, Sh d S e pol c → Cond.mkNot dbg c = .ok c' → Sh d S e (!pol) c' := by
  intro e
  induction e with
  | cmp op l r =>
    rintro pol c c' ⟨s, h⟩ hn
    rcases h with rfl | rfl | rfl | rfl | rfl | rfl <;>
    · simp only [Cond.mkNot, bind_eq_ok, pure, Except.pure, Except.ok.injEq] at hn
      obtain ⟨s', _, rfl⟩ := hn
      exact ⟨s', by simp⟩
  | and e f ihe ihf =>
    rintro pol c c' ⟨s, l, r, rfl, hl, hr⟩ hn
    cases pol <;>
    · simp only [Cond.mkNot, bind_eq_ok, pure, Except.pure, if_true, Bool.false_eq_true, if_false, sh_isCond hl, sh_isCond hr, Bool.and_self, Except.ok.injEq] at hn
      obtain ⟨s', _, l', h1, r', h2, rfl⟩ := hn
      exact ⟨s', l', r', by simp, ihe hl h1, ihf hr h2⟩
  | or e f ihe ihf =>
    rintro pol c c' ⟨s, l, r, rfl, hl, hr⟩ hn
    cases pol <;>
    · simp only [Cond.mkNot, bind_eq_ok, pure, Except.pure, if_true, Bool.false_eq_true, if_false, sh_isCond hl, sh_isCond hr, Bool.and_self, Except.ok.injEq] at hn
      obtain ⟨s', _, l', h1, r', h2, rfl⟩ := hn
      exact ⟨s', l', r', by simp, ihe hl h1, ihf hr h2⟩
  | not e ih => intro pol c c' h hn; exact ih (pol := !pol) h hn

theorem sh_build {dbg d : Bool} {S : Nat → Ivl T} : ∀ {e : PCond T} {c}, (e.inst d S).build dbg = .ok c → Sh d S e true c := by
  intro e
  induction e with
  | cmp op l r =>
    intro c h
    cases op <;>
    · simp only [PCond.inst, CExpr.build, buildCmp, condEq, condNe, condLt, condLe, condGt, condGe, bind_eq_ok, pure, Except.pure, Except.ok.injEq] at h
      obtain ⟨s', _, rfl⟩ := h
      exact ⟨s', by simp⟩
  | and e f ihe ihf =>
    intro c h
    simp only [PCond.inst, CExpr.build, bind_eq_ok, pure, Except.pure, Except.ok.injEq] at h
    obtain ⟨l, h1, r, h2, rfl⟩ := h
    exact ⟨BoolSet.and l.truth r.truth, l, r, by simp only [Cond.mkAnd, sh_isCond (ihe h1), Bool.true_or, if_true], ihe h1, ihf h2⟩
  | or e f ihe ihf =>
    intro c h
    simp only [PCond.inst, CExpr.build, bind_eq_ok, pure, Except.pure, Except.ok.injEq] at h
    obtain ⟨l, h1, r, h2, rfl⟩ := h
    exact ⟨BoolSet.or l.truth r.truth, l, r, by simp only [Cond.mkOr, sh_isCond (ihe h1), Bool.true_or, if_true], ihe h1, ihf h2⟩
  | not e ih =>
    intro c h
    simp only [PCond.inst, CExpr.build, bind_eq_ok] at h
    obtain ⟨c', h1, h2⟩ := h
    exact sh_mkNot (ih h1) h2

theorem term_matches {d : Bool} {S : Nat → Ivl T} {y : Nat} (l : PTerm T) : (l.inst d S).matchesId d y = l.uses y := by
  cases l <;> simp [PTerm.inst, Operand.matchesId, PTerm.uses]
theorem term_disc {d : Bool} {S : Nat → Ivl T} (l : PTerm T) : (l.inst d S).disc = d := by cases l <;> rfl
theorem term_self {d : Bool} {S : Nat → Ivl T} {y : Nat} (l : PTerm T) (h : l.uses y = true) : (l.inst d S).arg = .ivl (S y) := by
  cases l with
  | var x => simp [PTerm.uses] at h; subst h; rfl
  | lit v => simp [PTerm.uses] at h

theorem sh_mentions {d : Bool} {S : Nat → Ivl T} {y : Nat} : ∀ {e : PCond T} {pol c}, Sh d S e pol c → (Mentions d y c ↔ e.uses y = true) := by
  intro e
  induction e with
  | cmp op l r =>
    rintro pol c ⟨s, h⟩
    rcases h with rfl | rfl | rfl | rfl | rfl | rfl <;> simp [Mentions, term_matches, PCond.uses, or_comm]
  | and e f ihe ihf => rintro pol c ⟨s, l, r, rfl, hl, hr⟩; cases pol <;> simp [Mentions, PCond.uses, ihe hl, ihf hr]
  | or e f ihe ihf => rintro pol c ⟨s, l, r, rfl, hl, hr⟩; cases pol <;> simp [Mentions, PCond.uses, ihe hl, ihf hr]
  | not e ih => intro pol c h; exact ih h

theorem single_flat {d : Bool} {S : Nat → Ivl T} : ∀ {e : PCond T} {pol c}, e.single = true → Sh d S e pol c → c.isLeaf = true := by
  intro e
  induction e with
  | cmp op l r => rintro pol c _ ⟨s, h⟩; rcases h with rfl | rfl | rfl | rfl | rfl | rfl <;> rfl
  | and e f ihe ihf => intro pol c h; cases h
  | or e f ihe ihf => intro pol c h; cases h
  | not e ih => intro pol c h1 h2; exact ih (pol := !pol) h1 h2

theorem sh_isDisj {d : Bool} {S : Nat → Ivl T} : ∀ {e : PCond T} {pol c}, Sh d S e pol c → c.isDisj = e.isOr pol := by
  intro e
  induction e with
  | cmp op l r =>
    rintro pol c ⟨s, h⟩
    rcases h with rfl | rfl | rfl | rfl | rfl | rfl <;> rfl
  | and e f ihe ihf => rintro pol c ⟨s, l, r, rfl, hl, hr⟩; cases pol <;> rfl
  | or e f ihe ihf => rintro pol c ⟨s, l, r, rfl, hl, hr⟩; cases pol <;> rfl
  | not e ih => intro pol c h; exact ih (pol := !pol) h

theorem sh_seen {d : Bool} {S : Nat → Ivl T} {y : Nat} : ∀ {e : PCond T} {pol c}, Sh d S e pol c →
    (Mentions d y (Spec.seen c) ↔ e.seenUses y pol = true) := by
  have key : ∀ c : Cond T, Mentions d y (if c.isDisj then .plain c.truth else Spec.seen c) ↔ c.isDisj = false ∧ Mentions d y (Spec.seen c) := by
    intro c
    cases h : c.isDisj <;> simp [Mentions]
  intro e
  induction e with
  | cmp op l r =>
    rintro pol c ⟨s, h⟩
    rcases h with rfl | rfl | rfl | rfl | rfl | rfl <;> simp [Spec.seen, Mentions, term_matches, PCond.seenUses, or_comm]
  | and e f ihe ihf =>
    rintro pol c ⟨s, l, r, rfl, hl, hr⟩
    have h1 := sh_isDisj hl
    have h2 := sh_isDisj hr
    cases pol
    · simp [Spec.seen, Mentions, PCond.seenUses, ihe hl, ihf hr]
    · simp only [if_true, Spec.seen, Mentions, key, PCond.seenUses, ihe hl, ihf hr]; simp [h1, h2]
  | or e f ihe ihf =>
    rintro pol c ⟨s, l, r, rfl, hl, hr⟩
    have h1 := sh_isDisj hl
    have h2 := sh_isDisj hr
    cases pol
    · simp only [Bool.false_eq_true, if_false, Spec.seen, Mentions, key, PCond.seenUses, ihe hl, ihf hr]; simp [h1, h2]
    · simp [Spec.seen, Mentions, PCond.seenUses, ihe hl, ihf hr]
  | not e ih => intro pol c h; exact ih (pol := !pol) h

theorem seenUses_uses {y : Nat} : ∀ {e : PCond T} {pol}, e.seenUses y pol = true → e.uses y = true := by
  intro e
  induction e with
  | cmp op l r => exact fun h => h
  | and e f ihe ihf =>
    intro pol h
    simp only [PCond.seenUses, Bool.or_eq_true, Bool.and_eq_true] at h
    simp only [PCond.uses, Bool.or_eq_true]
    exact h.imp (fun h => ihe h.2) (fun h => ihf h.2)
  | or e f ihe ihf =>
    intro pol h
    simp only [PCond.seenUses, Bool.or_eq_true, Bool.and_eq_true] at h
    simp only [PCond.uses, Bool.or_eq_true]
    exact h.imp (fun h => ihe h.2) (fun h => ihf h.2)
  | not e ih => intro pol h; exact ih (pol := !pol) h

/-- both sides of every disjunction (not below a conjunction) mention the interval -/
def DisjBoth (d : Bool) (id : Nat) : Cond T → Prop
  | .disj _ l r => (Mentions d id l ∧ Mentions d id r) ∧ DisjBoth d id l ∧ DisjBoth d id r
  | _ => True

theorem DisjBoth.even {d : Bool} {id : Nat} : ∀ {c : Cond T}, DisjBoth d id c → DisjEven d id c
  | .disj _ _ _, h => ⟨Or.inr ⟨h.1.1, h.2.1.even⟩, Or.inr ⟨h.1.2, h.2.2.even⟩⟩
  | .plain _, _ | .leq .., _ | .less .., _ | .equal .., _ | .notEqual .., _ | .conj .., _ => trivial

theorem sh_disj {d : Bool} {S : Nat → Ivl T} {y : Nat} : ∀ {e : PCond T} {pol c}, Sh d S e pol c → e.disjUses y pol = true → DisjBoth d y (Spec.seen c) := by
  intro e
  induction e with
  | cmp op l r =>
    rintro pol c ⟨s, h⟩ _
    rcases h with rfl | rfl | rfl | rfl | rfl | rfl <;> trivial
  | and e f ihe ihf =>
    rintro pol c ⟨s, l, r, rfl, hl, hr⟩ h
    simp only [PCond.disjUses, Bool.and_eq_true, Bool.or_eq_true] at h
    cases pol
    · simp only [Bool.false_eq_true, false_or] at h
      exact ⟨⟨(sh_seen hl).2 h.1.1, (sh_seen hr).2 h.1.2⟩, ihe hl h.2.1, ihf hr h.2.2⟩
    · trivial
  | or e f ihe ihf =>
    rintro pol c ⟨s, l, r, rfl, hl, hr⟩ h
    simp only [PCond.disjUses, Bool.and_eq_true, Bool.or_eq_true] at h
    cases pol
    · trivial
    · simp only [Bool.not_true, Bool.false_eq_true, false_or] at h
      exact ⟨⟨(sh_seen hl).2 h.1.1, (sh_seen hr).2 h.1.2⟩, ihe hl h.2.1, ihf hr h.2.2⟩
  | not e ih => intro pol c h hd; exact ih h hd

theorem sh_strict {d : Bool} {S : Nat → Ivl T} : ∀ {e : PCond T} {pol c}, Sh d S e pol c → StrictHom d c := by
  intro e
  induction e with
  | cmp op l r =>
    rintro pol c ⟨s, h⟩
    rcases h with rfl | rfl | rfl | rfl | rfl | rfl <;> simp [StrictHom, term_disc]
  | and e f ihe ihf => rintro pol c ⟨s, l, r, rfl, hl, hr⟩; cases pol <;> simp [StrictHom, ihe hl, ihf hr]
  | or e f ihe ihf => rintro pol c ⟨s, l, r, rfl, hl, hr⟩; cases pol <;> simp [StrictHom, ihe hl, ihf hr]
  | not e ih => intro pol c h; exact ih h

theorem sh_self {d : Bool} {S : Nat → Ivl T} {y : Nat} : ∀ {e : PCond T} {pol c}, Sh d S e pol c → SelfOperands d y (fun o => o.arg = .ivl (S y)) c := by
  intro e
  induction e with
  | cmp op l r =>
    rintro pol c ⟨s, h⟩
    have hl := term_self (d := d) (S := S) (y := y) l
    have hr := term_self (d := d) (S := S) (y := y) r
    rcases h with rfl | rfl | rfl | rfl | rfl | rfl <;> simp only [SelfOperands, term_matches] <;> exact ⟨by assumption, by assumption⟩
  | and e f ihe ihf => rintro pol c ⟨s, l, r, rfl, hl, hr⟩; cases pol <;> simp [SelfOperands, ihe hl, ihf hr]
  | or e f ihe ihf => rintro pol c ⟨s, l, r, rfl, hl, hr⟩; cases pol <;> simp [SelfOperands, ihe hl, ihf hr]
  | not e ih => intro pol c h; exact ih h

theorem selfOperands_mono {d : Bool} {y : Nat} {P Q : Operand T → Prop} (h : ∀ o, P o → Q o) : ∀ c : Cond T, SelfOperands d y P c → SelfOperands d y Q c
  | .plain _, _ => trivial
  | .leq _ _ _, hc => ⟨fun m => h _ (hc.1 m), fun m => h _ (hc.2 m)⟩
  | .less _ _ _, hc => ⟨fun m => h _ (hc.1 m), fun m => h _ (hc.2 m)⟩
  | .equal _ _ _, hc => ⟨fun m => h _ (hc.1 m), fun m => h _ (hc.2 m)⟩
  | .notEqual _ _ _, hc => ⟨fun m => h _ (hc.1 m), fun m => h _ (hc.2 m)⟩
  | .conj _ l r, hc => ⟨selfOperands_mono h l hc.1, selfOperands_mono h r hc.2⟩
  | .disj _ l r, hc => ⟨selfOperands_mono h l hc.1, selfOperands_mono h r hc.2⟩

/-! ## instantiation -/

theorem inst_congr {d : Bool} {S S' : Nat → Ivl T} {e : PCond T} (h : ∀ x, e.uses x = true → S x = S' x) : e.inst d S = e.inst d S' := by
  have ht : ∀ l : PTerm T, (∀ x, l.uses x = true → S x = S' x) → l.inst d S = l.inst d S' := by
    intro l hl; cases l with
    | var x => simp [PTerm.inst, hl x (by simp [PTerm.uses])]
    | lit v => rfl
  induction e with
  | cmp op l r =>
    simp only [PCond.inst, ht l (fun x hx => h x (by simp [PCond.uses, hx])), ht r (fun x hx => h x (by simp [PCond.uses, hx]))]
  | and e f ihe ihf => simp only [PCond.inst, ihe (fun x hx => h x (by simp [PCond.uses, hx])), ihf (fun x hx => h x (by simp [PCond.uses, hx]))]
  | or e f ihe ihf => simp only [PCond.inst, ihe (fun x hx => h x (by simp [PCond.uses, hx])), ihf (fun x hx => h x (by simp [PCond.uses, hx]))]
  | not e ih => simp only [PCond.inst, ih h]

theorem eval_congr {s s' : Nat → T} {e : PCond T} (h : ∀ x, e.uses x = true → s x = s' x) : e.eval s = e.eval s' := by
  have ht : ∀ l : PTerm T, (∀ x, l.uses x = true → s x = s' x) → l.eval s = l.eval s' := by
    intro l hl; cases l with
    | var x => simp [PTerm.eval, hl x (by simp [PTerm.uses])]
    | lit v => rfl
  induction e with
  | cmp op l r =>
    simp only [PCond.eval, ht l (fun x hx => h x (by simp [PCond.uses, hx])), ht r (fun x hx => h x (by simp [PCond.uses, hx]))]
  | and e f ihe ihf => simp only [PCond.eval, ihe (fun x hx => h x (by simp [PCond.uses, hx])), ihf (fun x hx => h x (by simp [PCond.uses, hx]))]
  | or e f ihe ihf => simp only [PCond.eval, ihe (fun x hx => h x (by simp [PCond.uses, hx])), ihf (fun x hx => h x (by simp [PCond.uses, hx]))]
  | not e ih => simp only [PCond.eval, ih h]

theorem ok_uses {D : List Nat} : ∀ {e : PCond T}, e.ok D = true → ∀ x, e.uses x = true → x ∈ D := by
  have ht : ∀ l : PTerm T, l.ok D = true → ∀ x, l.uses x = true → x ∈ D := by
    intro l hl x hx; cases l with
    | var y => simp [PTerm.uses] at hx; subst hx; simpa [PTerm.ok] using hl
    | lit v => simp [PTerm.uses] at hx
  intro e
  induction e with
  | cmp op l r =>
    intro h x hx
    simp only [PCond.ok, PCond.uses, Bool.and_eq_true, Bool.or_eq_true] at h hx
    exact hx.elim (ht l h.1 x) (ht r h.2 x)
  | and e f ihe ihf =>
    intro h x hx
    simp only [PCond.ok, PCond.uses, Bool.and_eq_true, Bool.or_eq_true] at h hx
    exact hx.elim (ihe h.1 x) (ihf h.2 x)
  | or e f ihe ihf =>
    intro h x hx
    simp only [PCond.ok, PCond.uses, Bool.and_eq_true, Bool.or_eq_true] at h hx
    exact hx.elim (ihe h.1 x) (ihf h.2 x)
  | not e ih => intro h; exact ih h

theorem inst_proper {d : Bool} {D : List Nat} {S : Nat → Ivl T} (hS : ∀ x ∈ D, Proper (S x)) : ∀ {e : PCond T}, e.ok D = true → (e.inst d S).Proper := by
  have ht : ∀ l : PTerm T, l.ok D = true → ProperA (l.inst d S).arg := by
    intro l hl; cases l with
    | var y => exact hS y (by simpa [PTerm.ok] using hl)
    | lit v => exact hl
  intro e
  induction e with
  | cmp op l r => intro h; simp only [PCond.ok, Bool.and_eq_true] at h; exact ⟨ht l h.1, ht r h.2⟩
  | and e f ihe ihf => intro h; simp only [PCond.ok, Bool.and_eq_true] at h; exact ⟨ihe h.1, ihf h.2⟩
  | or e f ihe ihf => intro h; simp only [PCond.ok, Bool.and_eq_true] at h; exact ⟨ihe h.1, ihf h.2⟩
  | not e ih => intro h; exact ih h

/-- at points of the variables, the condition can take the value it takes for scalars -/
theorem evE_eval {d : Bool} {S : Nat → Ivl T} {s : Nat → T} : ∀ {e : PCond T}, (∀ x, e.uses x = true → s x ∈ᵢ S x) → EvE s (e.inst d S) (e.eval s) := by
  have ht : ∀ l : PTerm T, (∀ x, l.uses x = true → s x ∈ᵢ S x) → Spec.Val s (l.inst d S) (l.eval s) := by
    intro l hl; cases l with
    | var x => exact ⟨rfl, hl x (by simp [PTerm.uses])⟩
    | lit v => rfl
  intro e
  induction e with
  | cmp op l r => exact fun h => ⟨_, _, ht l (fun x hx => h x (by simp [PCond.uses, hx])), ht r (fun x hx => h x (by simp [PCond.uses, hx])), rfl⟩
  | and e f ihe ihf => exact fun h => ⟨_, _, ihe (fun x hx => h x (by simp [PCond.uses, hx])), ihf (fun x hx => h x (by simp [PCond.uses, hx])), rfl⟩
  | or e f ihe ihf => exact fun h => ⟨_, _, ihe (fun x hx => h x (by simp [PCond.uses, hx])), ihf (fun x hx => h x (by simp [PCond.uses, hx])), rfl⟩
  | not e ih =>
    intro h
    show EvE s (e.inst d S) (!(!e.eval s))
    rw [Bool.not_not]; exact ih h

/-! ## invariants of a run -/

/-- the condition at hand: `e` or `!e` -/
def sgnInst (d : Bool) (S : Nat → Ivl T) (ep : PCond T × Bool) : CExpr T := if ep.2 then ep.1.inst d S else .not (ep.1.inst d S)

theorem sgnInst_congr {d : Bool} {S S' : Nat → Ivl T} {ep : PCond T × Bool} (h : ∀ x, ep.1.uses x = true → S x = S' x) :
    sgnInst d S ep = sgnInst d S' ep := by
  unfold sgnInst; rw [inst_congr h]
theorem sgnInst_proper {d : Bool} {D : List Nat} {S : Nat → Ivl T} (hS : ∀ x ∈ D, Proper (S x)) {ep : PCond T × Bool} (h : ep.1.ok D = true) :
    (sgnInst d S ep).Proper := by
  unfold sgnInst; split
  · exact inst_proper hS h
  · exact (inst_proper hS h : (ep.1.inst d S).Proper)
theorem sgn_sh {dbg d : Bool} {S : Nat → Ivl T} {ep : PCond T × Bool} {c : Cond T} (h : (sgnInst d S ep).build dbg = .ok c) : Sh d S ep.1 ep.2 c := by
  obtain ⟨e, pol⟩ := ep
  cases pol
  · exact sh_build (e := .not e) (by simpa [sgnInst, PCond.inst] using h)
  · exact sh_build (by simpa [sgnInst] using h)

theorem ok_mono {D D' : List Nat} (hD : ∀ x ∈ D, x ∈ D') : ∀ {e : PCond T}, e.ok D = true → e.ok D' = true := by
  have ht : ∀ l : PTerm T, l.ok D = true → l.ok D' = true := by
    intro l hl; cases l with
    | var y => simp only [PTerm.ok, List.contains_iff_mem] at hl ⊢; exact hD y hl
    | lit v => exact hl
  intro e
  induction e with
  | cmp op l r => intro h; simp only [PCond.ok, Bool.and_eq_true] at h ⊢; exact ⟨ht l h.1, ht r h.2⟩
  | and e f ihe ihf => intro h; simp only [PCond.ok, Bool.and_eq_true] at h ⊢; exact ⟨ihe h.1, ihf h.2⟩
  | or e f ihe ihf => intro h; simp only [PCond.ok, Bool.and_eq_true] at h ⊢; exact ⟨ihe h.1, ihf h.2⟩
  | not e ih => intro h; exact ih h

variable [CppLimits T] [CppLawfulLimits T] [CppStep T]

structure Inv (dbg d : Bool) (Γ : Ctx T) (S : Nat → Ivl T) (K : List (Cond T)) : Prop where
  sub : ∀ x ∈ Γ.asgd, x ∈ Γ.scope
  clean : ∀ x ∈ Γ.scope, Proper (S x) ∨ S x = Ivl.unassigned
  prop : ∀ x ∈ Γ.asgd, Proper (S x)
  used : ∀ c ∈ Γ.conds, c.1.ok Γ.asgd = true
  stack : List.Forall₂ (fun ep c => (sgnInst d S ep).build dbg = .ok c ∧ BoolSet.contains c.truth true = true) Γ.conds K
  osub : ∀ x ∈ Γ.outer, x ∈ Γ.scope
  cout : ∀ c ∈ Γ.conds, ∀ x, c.1.uses x = true → x ∈ Γ.outer

/-- what a run leaves alone -/
structure Grow (Γ : Ctx T) (S S' : Nat → Ivl T) : Prop where
  grow : ∀ x ∈ Γ.outer, ∀ v, v ∈ᵢ S x → v ∈ᵢ S' x
  keep : ∀ x, (∃ c ∈ Γ.conds, c.1.uses x = true) → S' x = S x

theorem Grow.refl (Γ : Ctx T) (S : Nat → Ivl T) : Grow Γ S S := ⟨fun _ _ _ h => h, fun _ _ => rfl⟩
theorem Grow.inner {dbg d : Bool} {Γ : Ctx T} {S S' S₀ : Nat → Ivl T} {K : List (Cond T)} (h : Inv dbg d Γ S₀ K) (hG : Grow { Γ with outer := Γ.scope } S S') :
    Grow Γ S S' := ⟨fun x hx => hG.grow x (h.osub x hx), hG.keep⟩

theorem stack_congr {dbg d : Bool} {S S' : Nat → Ivl T} : ∀ {E : List (PCond T × Bool)} {K : List (Cond T)},
    (∀ x, (∃ c ∈ E, c.1.uses x = true) → S' x = S x) →
    List.Forall₂ (fun ep c => (sgnInst d S ep).build dbg = .ok c ∧ BoolSet.contains c.truth true = true) E K →
    List.Forall₂ (fun ep c => (sgnInst d S' ep).build dbg = .ok c ∧ BoolSet.contains c.truth true = true) E K := by
  intro E K h hs
  induction hs with
  | nil => exact .nil
  | cons h1 _ ih =>
    refine .cons ?_ (ih (fun x ⟨c, hc, hx⟩ => h x ⟨c, List.mem_cons_of_mem _ hc, hx⟩))
    rw [sgnInst_congr (S := S') (S' := S) (fun x hx => h x ⟨_, List.mem_cons_self, hx⟩)]; exact h1

theorem used_scope {dbg d : Bool} {Γ : Ctx T} {S : Nat → Ivl T} {K : List (Cond T)} (h : Inv dbg d Γ S K) {x : Nat}
    (hx : ∃ c ∈ Γ.conds, c.1.uses x = true) : x ∈ Γ.scope := by
  obtain ⟨c, hc, hu⟩ := hx
  exact h.sub x (ok_uses (h.used c hc) x hu)

theorem proper_of_pt {v : T} {X : Ivl T} (h : v ∈ᵢ X) : Proper X := cle_trans h.1 h.2
theorem lo_pt {X : Ivl T} (h : Proper X) : X.lo ∈ᵢ X := ⟨cle_left h, h⟩

/-- a fresh, proper variable -/
theorem inv_bind {dbg d : Bool} {Γ : Ctx T} {S : Nat → Ivl T} {K : List (Cond T)} (h : Inv dbg d Γ S K) {x : Nat} (hx : x ∉ Γ.scope) {R : Ivl T}
    (hR : Proper R) : Inv dbg d (Γ.bind x) (upd S x R) K ∧ Grow Γ S (upd S x R) := by
  have hk : ∀ y, y ∈ Γ.scope → upd S x R y = S y := by
    intro y hy; unfold upd; rw [if_neg]; rintro rfl; exact hx hy
  have hkeep : ∀ y, (∃ c ∈ Γ.conds, c.1.uses y = true) → upd S x R y = S y := fun y hy => hk y (used_scope h hy)
  refine ⟨⟨?_, ?_, ?_, ?_, ?_, fun y hy => List.mem_cons_of_mem _ (h.osub y hy), h.cout⟩, ⟨fun y hy v hv => by rw [hk y (h.osub y hy)]; exact hv, hkeep⟩⟩
  · intro y hy
    rcases List.mem_cons.1 hy with rfl | hy
    · exact List.mem_cons_self
    · exact List.mem_cons_of_mem _ (h.sub y hy)
  · intro y hy
    rcases List.mem_cons.1 hy with rfl | hy
    · left; simpa [upd] using hR
    · rw [hk y hy]; exact h.clean y hy
  · intro y hy
    rcases List.mem_cons.1 hy with rfl | hy
    · simpa [upd] using hR
    · rw [hk y (h.sub y hy)]; exact h.prop y hy
  · intro c hc; exact ok_mono (fun y hy => List.mem_cons_of_mem _ hy) (h.used c hc)
  · exact stack_congr hkeep h.stack

theorem inv_decl {dbg d : Bool} {Γ : Ctx T} {S : Nat → Ivl T} {K : List (Cond T)} (h : Inv dbg d Γ S K) {x : Nat} (hx : x ∉ Γ.scope) :
    Inv dbg d { Γ with scope := x :: Γ.scope } (upd S x Ivl.unassigned) K ∧ Grow Γ S (upd S x Ivl.unassigned) := by
  have hk : ∀ y, y ∈ Γ.scope → upd S x Ivl.unassigned y = S y := by
    intro y hy; unfold upd; rw [if_neg]; rintro rfl; exact hx hy
  have hkeep : ∀ y, (∃ c ∈ Γ.conds, c.1.uses y = true) → upd S x Ivl.unassigned y = S y := fun y hy => hk y (used_scope h hy)
  refine ⟨⟨fun y hy => List.mem_cons_of_mem _ (h.sub y hy), ?_, ?_, h.used, stack_congr hkeep h.stack,
    fun y hy => List.mem_cons_of_mem _ (h.osub y hy), h.cout⟩, ⟨fun y hy v hv => by rw [hk y (h.osub y hy)]; exact hv, hkeep⟩⟩
  · intro y hy
    rcases List.mem_cons.1 hy with rfl | hy
    · right; simp [upd]
    · rw [hk y hy]; exact h.clean y hy
  · intro y hy
    rw [hk y (h.sub y hy)]; exact h.prop y hy

theorem assignPartial_grow {X Y : Ivl T} (hX : Proper X ∨ X = Ivl.unassigned) (hY : Proper Y) :
    ∃ R, Ivl.assignPartial X Y = .ok R ∧ Proper R ∧ (∀ v, v ∈ᵢ X → v ∈ᵢ R) ∧ ∀ v, v ∈ᵢ Y → v ∈ᵢ R := by
  unfold Proper at hX hY
  have h3 : Y.assigned = true := by unfold Ivl.assigned; grind
  refine ⟨⟨cmin X.lo Y.lo, cmax X.hi Y.hi⟩, by simp only [Ivl.assignPartial, Ivl.assign, h3, expects_true, ok_bind, pure, Except.pure, Ivl.assignCore], ?_⟩
  unfold Proper Pt
  rcases hX with hX | rfl
  · refine ⟨?_, ?_, ?_⟩ <;> grind
  · have h1 := CppLawfulLimits.le_top Y.lo (cle_left hY)
    have h2 := CppLawfulLimits.bot_le Y.hi (cle_right hY)
    have h4 := CppLawfulLimits.bot_lt_top (T := T)
    simp only [Ivl.unassigned]
    refine ⟨?_, ?_, ?_⟩ <;> grind

theorem inv_assign {dbg d : Bool} {Γ : Ctx T} {S : Nat → Ivl T} {K : List (Cond T)} (h : Inv dbg d Γ S K) {x : Nat} (hx : x ∈ Γ.scope)
    (hc : ∀ c ∈ Γ.conds, c.1.uses x = false) {R : Ivl T} (hR : Proper R) (hg : x ∈ Γ.outer → ∀ v, v ∈ᵢ S x → v ∈ᵢ R) :
    Inv dbg d { Γ with asgd := x :: Γ.asgd } (upd S x R) K ∧ Grow Γ S (upd S x R) := by
  have hkeep : ∀ y, (∃ c ∈ Γ.conds, c.1.uses y = true) → upd S x R y = S y := by
    rintro y ⟨c, h1, h2⟩
    unfold upd; rw [if_neg]; rintro rfl; rw [hc c h1] at h2; cases h2
  have hp : ∀ y, Proper (S y) → Proper (upd S x R y) := by
    intro y hy; unfold upd; split
    · exact hR
    · exact hy
  refine ⟨⟨?_, ?_, ?_, ?_, stack_congr hkeep h.stack, h.osub, h.cout⟩, ⟨?_, hkeep⟩⟩
  · intro y hy
    rcases List.mem_cons.1 hy with rfl | hy
    · exact hx
    · exact h.sub y hy
  · intro y hy
    by_cases hyx : y = x
    · subst hyx; left; simpa [upd] using hR
    · simp only [upd, if_neg hyx]; exact h.clean y hy
  · intro y hy
    rcases List.mem_cons.1 hy with rfl | hy
    · simpa [upd] using hR
    · exact hp y (h.prop y hy)
  · intro c hc'; exact ok_mono (fun y hy => List.mem_cons_of_mem _ hy) (h.used c hc')
  · intro y hy v hv
    by_cases hyx : y = x
    · subst hyx; simpa [upd] using hg hy v hv
    · simpa only [upd, if_neg hyx] using hv

/-- entering a branch -/
theorem inv_push {dbg d : Bool} {Γ : Ctx T} {S : Nat → Ivl T} {K : List (Cond T)} (h : Inv dbg d Γ S K) {ep : PCond T × Bool} (he : ep.1.ok Γ.asgd = true)
    {c : Cond T} (hb : (sgnInst d S ep).build dbg = .ok c) (ht : BoolSet.contains c.truth true = true) :
    Inv dbg d { Γ with conds := ep :: Γ.conds, outer := Γ.scope } S (c :: K) :=
  ⟨h.sub, h.clean, h.prop, fun c' hc' => by rcases List.mem_cons.1 hc' with rfl | hc'; exacts [he, h.used c' hc'], .cons ⟨hb, ht⟩ h.stack, fun _ h => h,
    fun c' hc' x hx => by rcases List.mem_cons.1 hc' with rfl | hc'; exacts [h.sub x (ok_uses he x hx), h.osub x (h.cout c' hc' x hx)]⟩

/-- leaving a branch -/
theorem inv_pop {dbg d : Bool} {Γ Γ' : Ctx T} {S S' : Nat → Ivl T} {K K' : List (Cond T)} {ep : PCond T × Bool} (h : Inv dbg d Γ S K)
    (hG : Grow { Γ with conds := ep :: Γ.conds, outer := Γ.scope } S S') (h' : Inv dbg d Γ' S' K') (hsc : ∀ x ∈ Γ.scope, x ∈ Γ'.scope) :
    Inv dbg d Γ S' K ∧ Grow { Γ with outer := Γ.scope } S S' := by
  have hkeep : ∀ y, (∃ c ∈ Γ.conds, c.1.uses y = true) → S' y = S y := fun y ⟨c, h1, h2⟩ => hG.keep y ⟨c, List.mem_cons_of_mem _ h1, h2⟩
  refine ⟨⟨h.sub, fun x hx => h'.clean x (hsc x hx), fun x hx => ?_, h.used, stack_congr hkeep h.stack, h.osub, h.cout⟩, hG.grow, hkeep⟩
  exact proper_of_pt (hG.grow x (h.sub x hx) _ (lo_pt (h.prop x hx)))

/-- more assigned variables -/
theorem inv_more {dbg d : Bool} {Γ : Ctx T} {S : Nat → Ivl T} {K : List (Cond T)} (h : Inv dbg d Γ S K) {E : List Nat}
    (hE : ∀ x ∈ E, x ∈ Γ.scope ∧ Proper (S x)) : Inv dbg d { Γ with asgd := Γ.asgd ++ E } S K :=
  ⟨fun x hx => (List.mem_append.1 hx).elim (h.sub x) (fun hx => (hE x hx).1), h.clean,
    fun x hx => (List.mem_append.1 hx).elim (h.prop x) (fun hx => (hE x hx).2),
    fun c hc => ok_mono (fun x hx => List.mem_append_left _ hx) (h.used c hc), h.stack, h.osub, h.cout⟩

/-- leaving a block -/
theorem inv_block {dbg d : Bool} {Γ Γ' : Ctx T} {S S' : Nat → Ivl T} {K : List (Cond T)} (h : Inv dbg d Γ S K)
    (hG : Grow Γ S S') (h' : Inv dbg d Γ' S' K) (hsc : ∀ x ∈ Γ.scope, x ∈ Γ'.scope) (ha : ∀ x ∈ Γ.asgd, x ∈ Γ'.asgd) :
    Inv dbg d { Γ with asgd := Γ.asgd ++ Γ.scope.filter Γ'.asgd.contains } S' K := by
  refine inv_more (Γ := Γ) ⟨h.sub, fun x hx => h'.clean x (hsc x hx), fun x hx => h'.prop x (ha x hx), h.used, stack_congr hG.keep h.stack, h.osub, h.cout⟩ ?_
  intro x hx
  simp only [List.mem_filter, List.contains_iff_mem] at hx
  exact ⟨hx.1, h'.prop x hx.2⟩

/-- the parameters of a function -/
theorem inv_start {dbg d : Bool} {ins : List Nat} {S : Nat → Ivl T} (h : ∀ x ∈ ins, Proper (S x)) : Inv dbg d (Ctx.start ins) S [] :=
  ⟨fun _ h => h, fun x hx => .inl (h x hx), h, fun _ h => (nomatch h), .nil, fun _ h => (nomatch h), fun _ h => (nomatch h)⟩

theorem frame_get {args : List Nat} {i : Nat} (hi : i ∈ List.range args.length) :
    ∃ y ∈ args, ∀ {B : Type} (dflt : B) (s : Nat → B), frame dflt (args.map s) i = s y := by
  rw [List.mem_range] at hi
  exact ⟨args[i], List.getElem_mem hi, fun dflt s => by simp [frame, hi]⟩

/-- `constrain` of a checked variable -/
theorem constrain_checked {dbg d : Bool} {Γ : Ctx T} {S : Nat → Ivl T} {K : List (Cond T)} (hs : d = true → LawfulStep T) (h : Inv dbg d Γ S K) {k y : Nat}
    {e : PCond T} {pol : Bool} {c : Cond T} {R : Ivl T} (hk : Γ.conds[k]? = some (e, pol)) (hK : K[k]? = some c) (hy : y ∈ Γ.asgd)
    (hR : constrain dbg d y (S y) c = .ok R) : Proper R ∧ (∀ v, v ∈ᵢ R → v ∈ᵢ S y) ∧
    ∀ s : Nat → T, e.disjUses y pol = true → (∀ x ∈ Γ.asgd, s x ∈ᵢ S x) → (e.eval s = pol) → s y ∈ᵢ R := by
  have hm : (e, pol) ∈ Γ.conds := List.mem_of_getElem? hk
  have hok := h.used _ hm
  obtain ⟨hb, ht⟩ : (sgnInst d S (e, pol)).build dbg = .ok c ∧ BoolSet.contains c.truth true = true := by
    have := List.forall₂_iff_get.1 h.stack
    obtain ⟨k1, e1⟩ := List.getElem?_eq_some_iff.1 hk
    obtain ⟨k2, e2⟩ := List.getElem?_eq_some_iff.1 hK
    have h3 := this.2 k k1 k2
    simp only [List.get_eq_getElem, e1, e2] at h3
    exact h3
  have hp := sgnInst_proper (d := d) (ep := (e, pol)) h.prop hok
  have hsh := sgn_sh hb
  have hself : SelfOperands d y (fun o => le (S y).lo o.arg.lo = true ∧ le o.arg.hi (S y).hi = true) c := by
    have hY := h.prop y hy
    have := sh_self (y := y) hsh
    exact selfOperands_mono (fun o ho => by rw [ho]; exact ⟨cle_left hY, cle_right hY⟩) c this
  obtain ⟨g1, g2⟩ := C19_narrows_partial dbg d y (S y) R _ c hs (h.prop y hy) hp hb (sh_strict hsh).seen hself.seen.eqOperands hR
  refine ⟨g1, g2, fun s hd hx he => ?_⟩
  refine C18_sound_partial dbg d y (S y) R _ c s hs hp hb (sh_strict hsh).seen (hx y hy) ?_ (sh_disj hsh hd).even hR
  have := evE_eval (d := d) (S := S) (s := s) (e := e) (fun x hu => hx x (ok_uses hok x hu))
  cases pol
  · simp only [sgnInst, Bool.false_eq_true, if_false]
    show EvE s (e.inst d S) (!true)
    rw [he] at this; exact this
  · simp only [sgnInst, if_true]; rw [he] at this; exact this

/-! ## the run preserves the invariant -/

theorem not_build {dbg d : Bool} {S : Nat → Ivl T} {e : PCond T} {c c' : Cond T} (h : (e.inst d S).build dbg = .ok c) :
    Cond.mkNot dbg c = .ok c' ↔ (sgnInst d S (e, false)).build dbg = .ok c' := by
  simp [sgnInst, CExpr.build, h, ok_bind]

/-- one of the two branches is possible -/
theorem some_branch {dbg d : Bool} {D : List Nat} {S : Nat → Ivl T} {e : PCond T} {c nc : Cond T} (hS : ∀ x ∈ D, Proper (S x)) (he : e.ok D = true)
    (h : (e.inst d S).build dbg = .ok c) (hn : Cond.mkNot dbg c = .ok nc) :
    BoolSet.contains c.truth true = true ∨ BoolSet.contains nc.truth true = true := by
  have hp := inst_proper (d := d) hS he
  have h1 := C22_not_truth_set dbg _ c nc hp h (by simp [CExpr.build, h, hn, ok_bind]) true
  obtain ⟨c', e1, e2, _⟩ := build_wf (dbg := dbg) _ hp
  rw [h] at e1; cases e1
  have h2 := e2.truth_ne
  rw [h1]
  revert h2; generalize c.truth = t; revert t; decide

theorem check_ctx {p : Prog T} : ∀ {Γ Γ' : Ctx T}, p.check Γ = some Γ' →
    Γ'.conds = Γ.conds ∧ (∀ x ∈ Γ.scope, x ∈ Γ'.scope) ∧ (∀ x ∈ Γ.asgd, x ∈ Γ'.asgd) ∧ Γ'.outer = Γ.outer := by
  induction p with
  | skip => intro Γ Γ' h; simp only [Prog.check, Option.some.injEq] at h; subst h; exact ⟨rfl, fun _ h => h, fun _ h => h, rfl⟩
  | seq p q ihp ihq =>
    intro Γ Γ' h
    simp only [Prog.check, Option.bind_eq_some_iff] at h
    obtain ⟨Γ1, h1, h2⟩ := h
    obtain ⟨a1, a2, a3, a4⟩ := ihp h1
    obtain ⟨b1, b2, b3, b4⟩ := ihq h2
    exact ⟨b1.trans a1, fun x hx => b2 x (a2 x hx), fun x hx => b3 x (a3 x hx), b4.trans a4⟩
  | decl x =>
    intro Γ Γ' h
    simp only [Prog.check] at h
    split at h
    · cases h
    · cases h; exact ⟨rfl, fun _ h => List.mem_cons_of_mem _ h, fun _ h => h, rfl⟩
  | letF x f args =>
    intro Γ Γ' h
    simp only [Prog.check] at h
    split at h
    · cases h; exact ⟨rfl, fun _ h => List.mem_cons_of_mem _ h, fun _ h => List.mem_cons_of_mem _ h, rfl⟩
    · cases h
  | constrain x y k =>
    intro Γ Γ' h
    simp only [Prog.check] at h
    split at h
    · cases h
    · split at h
      · cases h; exact ⟨rfl, fun _ h => List.mem_cons_of_mem _ h, fun _ h => List.mem_cons_of_mem _ h, rfl⟩
      · cases h
  | assignPartial x y =>
    intro Γ Γ' h
    simp only [Prog.check] at h
    split at h
    · cases h; exact ⟨rfl, fun _ h => h, fun _ h => List.mem_cons_of_mem _ h, rfl⟩
    · cases h
  | assign x y =>
    intro Γ Γ' h
    simp only [Prog.check] at h
    split at h
    · cases h; exact ⟨rfl, fun _ h => h, fun _ h => List.mem_cons_of_mem _ h, rfl⟩
    · cases h
  | reset x y =>
    intro Γ Γ' h
    simp only [Prog.check] at h
    split at h
    · cases h; exact ⟨rfl, fun _ h => h, fun _ h => List.mem_cons_of_mem _ h, rfl⟩
    · cases h
  | block p ih =>
    intro Γ Γ' h
    simp only [Prog.check, Option.bind_eq_some_iff, Option.some.injEq] at h
    obtain ⟨_, _, rfl⟩ := h
    exact ⟨rfl, fun _ h => h, fun _ h => List.mem_append_left _ h, rfl⟩
  | call x p args r ih =>
    intro Γ Γ' h
    simp only [Prog.check, Option.bind_eq_some_iff] at h
    obtain ⟨_, _, h⟩ := h
    split at h
    · cases h; exact ⟨rfl, fun _ h => List.mem_cons_of_mem _ h, fun _ h => List.mem_cons_of_mem _ h, rfl⟩
    · cases h
  | branch e p q ihp ihq =>
    intro Γ Γ' h
    simp only [Prog.check] at h
    split at h
    · simp only [Option.bind_eq_some_iff, Option.some.injEq] at h
      obtain ⟨_, _, _, _, rfl⟩ := h
      exact ⟨rfl, fun _ h => h, fun _ h => List.mem_append_left _ h, rfl⟩
    · cases h

theorem assignFree_ok {X Y R : Ivl T} (hX : Proper X ∨ X = Ivl.unassigned) (h : Ivl.assignFree X Y = .ok R) : X = Ivl.unassigned ∧ R = Y := by
  simp only [Ivl.assignFree, bind_eq_ok, pure, Except.pure, Except.ok.injEq, Ivl.resetIvl] at h
  obtain ⟨_, h1, rfl⟩ := h
  have h2 : (!X.assigned) = true := by
    cases hh : (!X.assigned) with
    | true => rfl
    | false => rw [hh] at h1; cases h1
  refine ⟨hX.resolve_left fun hp => ?_, rfl⟩
  unfold Proper at hp
  unfold Ivl.assigned at h2
  grind

theorem unassigned_empty (v : T) : ¬ v ∈ᵢ (Ivl.unassigned : Ivl T) := by
  intro h
  have := proper_of_pt h
  unfold Proper Ivl.unassigned at this
  have h4 := CppLawfulLimits.bot_lt_top (T := T)
  grind

theorem runI_branch {dbg d : Bool} {e : PCond T} {p q : Prog T} {S S' : Nat → Ivl T} {K : List (Cond T)}
    (hr : runI dbg d (.branch e p q) S K = .ok (S', true)) : ∃ c, (e.inst d S).build dbg = .ok c ∧ ∃ S1,
      (if BoolSet.possibly c.truth then runI dbg d p S (c :: K) else .ok (S, true)) = .ok (S1, true) ∧ ∃ nc, Cond.mkNot dbg c = .ok nc ∧
      (if BoolSet.possibly nc.truth then runI dbg d q S1 (nc :: K) else .ok (S1, true)) = .ok (S', true) := by
  simp only [runI, bind_eq_ok] at hr
  obtain ⟨c, hc, hr⟩ := hr
  refine ⟨c, hc, ?_⟩
  by_cases h1 : BoolSet.possibly c.truth = true
  · simp only [h1, if_true, bind_eq_ok, Prod.exists] at hr ⊢
    obtain ⟨S1, b1, r1, nc, hnc, hr⟩ := hr
    by_cases h2 : BoolSet.possibly nc.truth = true
    · simp only [h2, if_true, bind_eq_ok, pure, Except.pure, Except.ok.injEq, Prod.mk.injEq, Prod.exists, Bool.and_eq_true] at hr
      obtain ⟨S2, b2, r2, rfl, rfl, rfl⟩ := hr
      exact ⟨S1, r1, nc, hnc, by simp only [h2, if_true, r2]⟩
    · simp only [h2, if_false, Bool.false_eq_true, bind_eq_ok, pure, Except.pure, Except.ok.injEq, Prod.mk.injEq, Prod.exists, Bool.and_eq_true] at hr
      obtain ⟨S2, b2, ⟨rfl, rfl⟩, rfl, rfl, _⟩ := hr
      exact ⟨S1, r1, nc, hnc, by simp only [h2, if_false, Bool.false_eq_true]⟩
  · simp only [h1, if_false, Bool.false_eq_true, bind_eq_ok, Prod.exists, pure, Except.pure, Except.ok.injEq, Prod.mk.injEq] at hr ⊢
    obtain ⟨S1, b1, ⟨rfl, rfl⟩, nc, hnc, hr⟩ := hr
    refine ⟨S, ⟨rfl, trivial⟩, nc, hnc, ?_⟩
    by_cases h2 : BoolSet.possibly nc.truth = true
    · simp only [h2, if_true, bind_eq_ok, pure, Except.pure, Except.ok.injEq, Prod.mk.injEq, Prod.exists, Bool.and_eq_true] at hr ⊢
      obtain ⟨S2, b2, r2, rfl, _, rfl⟩ := hr
      exact r2
    · simp only [h2, if_false, Bool.false_eq_true, bind_eq_ok, pure, Except.pure, Except.ok.injEq, Prod.mk.injEq, Prod.exists, Bool.and_eq_true] at hr ⊢
      obtain ⟨S2, b2, ⟨rfl, rfl⟩, rfl, _⟩ := hr
      exact ⟨rfl, trivial⟩

/-- The interval run keeps the invariant, only enlarges the variables in scope, and does not touch the variables of the conditions at hand. -/
theorem run_step {dbg d : Bool} (hs : d = true → LawfulStep T) : ∀ {p : Prog T} {Γ Γ' : Ctx T} {S S' : Nat → Ivl T} {K : List (Cond T)},
    p.check Γ = some Γ' → Inv dbg d Γ S K → runI dbg d p S K = .ok (S', true) → Inv dbg d Γ' S' K ∧ Grow Γ S S' := by
  intro p
  induction p with
  | skip =>
    intro Γ Γ' S S' K h hi hr
    simp only [Prog.check, Option.some.injEq] at h; subst h
    simp only [runI, Except.ok.injEq, Prod.mk.injEq] at hr; obtain ⟨rfl, _⟩ := hr
    exact ⟨hi, Grow.refl _ _⟩
  | seq p q ihp ihq =>
    intro Γ Γ' S S' K h hi hr
    simp only [Prog.check, Option.bind_eq_some_iff] at h
    obtain ⟨Γ1, h1, h2⟩ := h
    simp only [runI, bind_eq_ok, pure, Except.pure, Except.ok.injEq, Prod.mk.injEq, Bool.and_eq_true, Prod.exists] at hr
    obtain ⟨S1, b1, r1, S2, b2, r2, rfl, rfl, rfl⟩ := hr
    obtain ⟨i1, g1⟩ := ihp h1 hi r1
    obtain ⟨i2, g2⟩ := ihq h2 i1 r2
    obtain ⟨c1, c2, c3, c4⟩ := check_ctx h1
    refine ⟨i2, fun x hx v hv => g2.grow x (by rw [c4]; exact hx) v (g1.grow x hx v hv), fun x hx => ?_⟩
    rw [g2.keep x (by rw [c1]; exact hx), g1.keep x hx]
  | decl x =>
    intro Γ Γ' S S' K h hi hr
    simp only [Prog.check] at h
    split at h
    · cases h
    · next hx =>
      cases h
      simp only [runI, Except.ok.injEq, Prod.mk.injEq] at hr; obtain ⟨rfl, _⟩ := hr
      exact inv_decl hi (by simpa using hx)
  | letF x f args =>
    intro Γ Γ' S S' K h hi hr
    simp only [Prog.check] at h
    split at h
    · next hx =>
      cases h
      simp only [runI, bind_eq_ok, pure, Except.pure, Except.ok.injEq, Prod.mk.injEq] at hr
      obtain ⟨R, hR, rfl, hpr⟩ := hr
      simp only [Bool.and_eq_true] at hx
      exact inv_bind hi (by simpa using hx.1.1) hpr
    · cases h
  | constrain x y k =>
    intro Γ Γ' S S' K h hi hr
    simp only [Prog.check] at h
    split at h
    · cases h
    · next e pol hk =>
      split at h
      · next hx =>
        cases h
        simp only [Bool.and_eq_true, List.contains_iff_mem] at hx
        obtain ⟨⟨⟨hx1, hx2⟩, hx3⟩, hx4⟩ := hx
        simp only [runI] at hr
        split at hr
        · cases hr
        · next c hK =>
          simp only [bind_eq_ok, pure, Except.pure, Except.ok.injEq, Prod.mk.injEq] at hr
          obtain ⟨R, hR, rfl, _⟩ := hr
          obtain ⟨g1, _⟩ := constrain_checked hs hi hk hK hx2 hR
          exact inv_bind hi (by simpa using hx1) g1
      · cases h
  | assignPartial x y =>
    intro Γ Γ' S S' K h hi hr
    simp only [Prog.check] at h
    split at h
    · next hx =>
      cases h
      simp only [Bool.and_eq_true, List.contains_iff_mem, List.all_eq_true, Bool.not_eq_true'] at hx
      obtain ⟨⟨hx1, hx2⟩, hx3⟩ := hx
      simp only [runI, bind_eq_ok, pure, Except.pure, Except.ok.injEq, Prod.mk.injEq] at hr
      obtain ⟨R, hR, rfl, _⟩ := hr
      obtain ⟨R', e1, e2, e3, e4⟩ := assignPartial_grow (hi.clean x hx1) (hi.prop y hx2)
      rw [hR] at e1; cases e1
      exact inv_assign hi hx1 hx3 e2 fun _ => e3
    · cases h
  | assign x y =>
    intro Γ Γ' S S' K h hi hr
    simp only [Prog.check] at h
    split at h
    · next hx =>
      cases h
      simp only [Bool.and_eq_true, List.contains_iff_mem, List.all_eq_true, Bool.not_eq_true'] at hx
      obtain ⟨⟨hx1, hx2⟩, hx3⟩ := hx
      simp only [runI, bind_eq_ok, pure, Except.pure, Except.ok.injEq, Prod.mk.injEq] at hr
      obtain ⟨R, hR, rfl, _⟩ := hr
      obtain ⟨e1, rfl⟩ := assignFree_ok (hi.clean x hx1) hR
      exact inv_assign hi hx1 hx3 (hi.prop y hx2) fun _ v hv => absurd (e1 ▸ hv) (unassigned_empty v)
    · cases h
  | reset x y =>
    intro Γ Γ' S S' K h hi hr
    simp only [Prog.check] at h
    split at h
    · next hx =>
      cases h
      simp only [Bool.and_eq_true, List.contains_iff_mem, Bool.not_eq_true', ← Bool.not_eq_true] at hx
      obtain ⟨⟨hx1, hx2⟩, hx3⟩ := hx
      simp only [runI, Except.ok.injEq, Prod.mk.injEq] at hr
      obtain ⟨rfl, _⟩ := hr
      exact inv_assign hi hx1 (fun c hc => by
        cases hu : c.1.uses x with
        | false => rfl
        | true => exact absurd (hi.cout c hc x hu) hx3) (hi.prop y hx2) fun h => absurd h hx3
    · cases h
  | block p ih =>
    intro Γ Γ' S S' K h hi hr
    simp only [Prog.check, Option.bind_eq_some_iff, Option.some.injEq] at h
    obtain ⟨Γp, hp, rfl⟩ := h
    obtain ⟨i1, g1⟩ := ih hp hi hr
    obtain ⟨c1, c2, c3, c4⟩ := check_ctx hp
    exact ⟨inv_block hi g1 i1 c2 c3, g1⟩
  | call x p args r ih =>
    intro Γ Γ' S S' K h hi hr
    simp only [Prog.check, Option.bind_eq_some_iff] at h
    obtain ⟨Γp, hp, h⟩ := h
    split at h
    · next hx =>
      cases h
      simp only [Bool.and_eq_true, List.all_eq_true, List.contains_iff_mem, Bool.not_eq_true', ← Bool.not_eq_true] at hx
      obtain ⟨⟨hx, ha⟩, hr'⟩ := hx
      simp only [runI, bind_eq_ok, pure, Except.pure, Except.ok.injEq, Prod.mk.injEq, Prod.exists] at hr
      obtain ⟨S1, b, r1, rfl, rfl⟩ := hr
      obtain ⟨i1, _⟩ := ih hp (inv_start (fun i hi' => by
        obtain ⟨y, hy, e⟩ := frame_get hi'
        rw [e]; exact hi.prop y (ha y hy))) r1
      exact inv_bind hi hx (i1.prop r hr')
    · cases h
  | branch e p q ihp ihq =>
    intro Γ Γ' S S' K h hi hr
    simp only [Prog.check] at h
    split at h
    · next he =>
      simp only [Option.bind_eq_some_iff, Option.some.injEq] at h
      obtain ⟨Γp, hp, Γq, hq, rfl⟩ := h
      obtain ⟨c, hc, S1, r1, nc, hnc, r2⟩ := runI_branch hr
      -- first branch
      have A : Inv dbg d Γ S1 K ∧ Grow { Γ with outer := Γ.scope } S S1 ∧ (∀ x, e.uses x = true → S1 x = S x) ∧
          (BoolSet.contains c.truth true = true → ∀ x ∈ Γp.asgd, Proper (S1 x)) := by
        split at r1
        · next ht =>
          obtain ⟨i1, g1⟩ := ihp hp (inv_push hi (ep := (e, true)) he (by simpa [sgnInst] using hc) ht) r1
          obtain ⟨i2, g2⟩ := inv_pop hi g1 i1 (check_ctx hp).2.1
          exact ⟨i2, g2, fun x hx => g1.keep x ⟨_, List.mem_cons_self, hx⟩, fun _ => i1.prop⟩
        · next ht =>
          simp only [Except.ok.injEq, Prod.mk.injEq] at r1; obtain ⟨rfl, _⟩ := r1
          exact ⟨hi, Grow.refl _ _, fun _ _ => rfl, fun h => absurd h ht⟩
      obtain ⟨i1, g1, k1, p1⟩ := A
      have hc1 : (e.inst d S1).build dbg = .ok c := by rw [inst_congr k1]; exact hc
      have B : Inv dbg d Γ S' K ∧ Grow { Γ with outer := Γ.scope } S1 S' ∧ (BoolSet.contains nc.truth true = true → ∀ x ∈ Γq.asgd, Proper (S' x)) := by
        split at r2
        · next ht =>
          obtain ⟨j1, l1⟩ := ihq hq (inv_push i1 (ep := (e, false)) he ((not_build hc1).1 hnc) ht) r2
          obtain ⟨j2, l2⟩ := inv_pop i1 l1 j1 (check_ctx hq).2.1
          exact ⟨j2, l2, fun _ => j1.prop⟩
        · next ht =>
          simp only [Except.ok.injEq, Prod.mk.injEq] at r2; obtain ⟨rfl, _⟩ := r2
          exact ⟨i1, Grow.refl _ _, fun h => absurd h ht⟩
      obtain ⟨i2, g2, p2⟩ := B
      refine ⟨inv_more i2 ?_, Grow.inner hi ⟨fun x hx v hv => g2.grow x hx v (g1.grow x hx v hv), fun x hx => (g2.keep x hx).trans (g1.keep x hx)⟩⟩
      intro x hx
      simp only [List.mem_filter, Bool.and_eq_true, List.contains_iff_mem] at hx
      obtain ⟨hx1, hx2, hx3⟩ := hx
      refine ⟨hx1, ?_⟩
      rcases some_branch hi.prop he hc hnc with ht | ht
      · exact proper_of_pt (g2.grow x hx1 _ (lo_pt (p1 ht x hx2)))
      · exact p2 ht x hx3
    · cases h

/-! ## simulation -/

/-- scalar state related to interval state -/
structure Rel (Γ : Ctx T) (S : Nat → Ivl T) (s : Nat → T) (B : List Bool) : Prop where
  mem : ∀ x ∈ Γ.asgd, s x ∈ᵢ S x
  conds : ∀ c ∈ Γ.conds, c.1.eval s = c.2
  stack : B = Γ.conds.map (fun _ => true)

theorem rel_conds {Γ : Ctx T} {s s' : Nat → T} (h : ∀ x, (∃ c ∈ Γ.conds, c.1.uses x = true) → s' x = s x) (hc : ∀ c ∈ Γ.conds, c.1.eval s = c.2) :
    ∀ c ∈ Γ.conds, c.1.eval s' = c.2 := by
  intro c hm
  rw [eval_congr (s := s') (s' := s) (fun x hx => h x ⟨c, hm, hx⟩)]; exact hc c hm

theorem rel_upd {Γ : Ctx T} {S : Nat → Ivl T} {s : Nat → T} {B : List Bool} (hR : Rel Γ S s B) {x y : Nat} (hy : y ∈ Γ.asgd) :
    ∀ z ∈ x :: Γ.asgd, upd s x (s y) z ∈ᵢ upd S x (S y) z := by
  intro z hz
  by_cases hzx : z = x
  · subst hzx; simpa [upd] using hR.mem y hy
  · simp only [upd, if_neg hzx]
    rcases List.mem_cons.1 hz with rfl | hz
    · exact absurd rfl hzx
    · exact hR.mem z hz

/-- Every scalar run is enclosed. -/
theorem run_encl {dbg d : Bool} (zero : T) (hs : d = true → LawfulStep T) : ∀ {p : Prog T} {Γ Γ' : Ctx T} {S S' : Nat → Ivl T} {K : List (Cond T)} {s : Nat → T}
    {B : List Bool}, p.AllFn Fn.Encl → p.check Γ = some Γ' → Inv dbg d Γ S K → runI dbg d p S K = .ok (S', true) → Rel Γ S s B →
    ∃ s', runS zero p s B = .ok s' ∧ Rel Γ' S' s' B ∧ ∀ x, (∃ c ∈ Γ.conds, c.1.uses x = true) → s' x = s x := by
  intro p
  induction p with
  | skip =>
    intro Γ Γ' S S' K s B hf h hi hr hR
    simp only [Prog.check, Option.some.injEq] at h; subst h
    simp only [runI, Except.ok.injEq, Prod.mk.injEq] at hr; obtain ⟨rfl, _⟩ := hr
    exact ⟨s, rfl, hR, fun _ _ => rfl⟩
  | seq p q ihp ihq =>
    intro Γ Γ' S S' K s B hf h hi hr hR
    simp only [Prog.check, Option.bind_eq_some_iff] at h
    obtain ⟨Γ1, h1, h2⟩ := h
    simp only [runI, bind_eq_ok, pure, Except.pure, Except.ok.injEq, Prod.mk.injEq, Bool.and_eq_true, Prod.exists] at hr
    obtain ⟨S1, b1, r1, S2, b2, r2, rfl, rfl, rfl⟩ := hr
    obtain ⟨s1, t1, t2, t3⟩ := ihp hf.1 h1 hi r1 hR
    obtain ⟨s2, u1, u2, u3⟩ := ihq hf.2 h2 (run_step hs h1 hi r1).1 r2 t2
    refine ⟨s2, by simp only [runS, t1, ok_bind, u1], u2, fun x hx => ?_⟩
    rw [u3 x (by rw [(check_ctx h1).1]; exact hx), t3 x hx]
  | decl x =>
    intro Γ Γ' S S' K s B hf h hi hr hR
    simp only [Prog.check] at h
    split at h
    · cases h
    · next hx =>
      cases h
      simp only [List.contains_iff_mem] at hx
      simp only [runI, Except.ok.injEq, Prod.mk.injEq] at hr; obtain ⟨rfl, _⟩ := hr
      have hk : ∀ y ∈ Γ.scope, upd s x zero y = s y := by intro y hy; unfold upd; rw [if_neg]; rintro rfl; exact hx hy
      have hk' : ∀ y ∈ Γ.scope, upd S x Ivl.unassigned y = S y := by intro y hy; unfold upd; rw [if_neg]; rintro rfl; exact hx hy
      have hk2 : ∀ y, (∃ c ∈ Γ.conds, c.1.uses y = true) → upd s x zero y = s y := fun y hy => hk y (used_scope hi hy)
      exact ⟨_, rfl, ⟨fun y hy => by rw [hk y (hi.sub y hy), hk' y (hi.sub y hy)]; exact hR.mem y hy, rel_conds hk2 hR.conds, hR.stack⟩, hk2⟩
  | letF x f args =>
    intro Γ Γ' S S' K s B hf h hi hr hR
    simp only [Prog.check] at h
    split at h
    · next hx =>
      cases h
      simp only [runI, bind_eq_ok, pure, Except.pure, Except.ok.injEq, Prod.mk.injEq] at hr
      obtain ⟨R, hR', rfl, hpr⟩ := hr
      simp only [Bool.and_eq_true, List.all_eq_true, List.contains_iff_mem, Bool.not_eq_true', ← Bool.not_eq_true] at hx
      obtain ⟨⟨hx, ha⟩, hl⟩ := hx
      obtain ⟨v, hv1, hv2⟩ := hf dbg (args.map S) (args.map s) R (by simpa using hl) (by
        rw [List.forall₂_map_left_iff, List.forall₂_map_right_iff, List.forall₂_same]
        exact fun y hy => hR.mem y (ha y hy)) hR' hpr
      have hk : ∀ y ∈ Γ.scope, upd s x v y = s y := by intro y hy; unfold upd; rw [if_neg]; rintro rfl; exact hx hy
      have hk' : ∀ y ∈ Γ.scope, upd S x R y = S y := by intro y hy; unfold upd; rw [if_neg]; rintro rfl; exact hx hy
      have hk2 : ∀ y, (∃ c ∈ Γ.conds, c.1.uses y = true) → upd s x v y = s y := fun y hy => hk y (used_scope hi hy)
      refine ⟨upd s x v, by simp only [runS, hv1, ok_bind, pure, Except.pure], ⟨fun y hy => ?_, rel_conds hk2 hR.conds, hR.stack⟩, hk2⟩
      rcases List.mem_cons.1 hy with rfl | hy
      · simpa [upd] using hv2
      · rw [hk y (hi.sub y hy), hk' y (hi.sub y hy)]; exact hR.mem y hy
    · cases h
  | constrain x y k =>
    intro Γ Γ' S S' K s B hf h hi hr hR
    simp only [Prog.check] at h
    split at h
    · cases h
    · next e pol hk =>
      split at h
      · next hx =>
        cases h
        simp only [Bool.and_eq_true, List.contains_iff_mem, Bool.not_eq_true', ← Bool.not_eq_true] at hx
        obtain ⟨⟨⟨hx, hx2⟩, hx3⟩, hx4⟩ := hx
        simp only [runI] at hr
        split at hr
        · cases hr
        · next c hK =>
          simp only [bind_eq_ok, pure, Except.pure, Except.ok.injEq, Prod.mk.injEq] at hr
          obtain ⟨R, hR', rfl, _⟩ := hr
          obtain ⟨_, _, g3⟩ := constrain_checked hs hi hk hK hx2 hR'
          have hv2 := g3 s (by simpa using hx4) hR.mem (hR.conds _ (List.mem_of_getElem? hk))
          have hB : B[k]? = some true := by rw [hR.stack, List.getElem?_map, hk]; rfl
          have hk0 : ∀ z ∈ Γ.scope, upd s x (s y) z = s z := by intro z hz; unfold upd; rw [if_neg]; rintro rfl; exact hx hz
          have hk' : ∀ z ∈ Γ.scope, upd S x R z = S z := by intro z hz; unfold upd; rw [if_neg]; rintro rfl; exact hx hz
          have hk2 : ∀ z, (∃ c ∈ Γ.conds, c.1.uses z = true) → upd s x (s y) z = s z := fun z hz => hk0 z (used_scope hi hz)
          refine ⟨upd s x (s y), by simp only [runS, hB, Scalar.constrain, expects_true, ok_bind, pure, Except.pure], ⟨fun z hz => ?_, rel_conds hk2 hR.conds, hR.stack⟩, hk2⟩
          rcases List.mem_cons.1 hz with rfl | hz
          · simpa [upd] using hv2
          · rw [hk0 z (hi.sub z hz), hk' z (hi.sub z hz)]; exact hR.mem z hz
      · cases h
  | assignPartial x y =>
    intro Γ Γ' S S' K s B hf h hi hr hR
    simp only [Prog.check] at h
    split at h
    · next hx =>
      cases h
      simp only [Bool.and_eq_true, List.contains_iff_mem, List.all_eq_true, Bool.not_eq_true'] at hx
      obtain ⟨⟨hx1, hx2⟩, hx3⟩ := hx
      simp only [runI, bind_eq_ok, pure, Except.pure, Except.ok.injEq, Prod.mk.injEq] at hr
      obtain ⟨R, hR', rfl, _⟩ := hr
      obtain ⟨R', e1, e2, e3, e4⟩ := assignPartial_grow (hi.clean x hx1) (hi.prop y hx2)
      rw [hR'] at e1; cases e1
      have hk2 : ∀ z, (∃ c ∈ Γ.conds, c.1.uses z = true) → upd s x (s y) z = s z := by
        rintro z ⟨c, h1, h2⟩
        unfold upd; rw [if_neg]; rintro rfl; rw [hx3 c h1] at h2; cases h2
      refine ⟨upd s x (s y), rfl, ⟨fun z hz => ?_, rel_conds hk2 hR.conds, hR.stack⟩, hk2⟩
      by_cases hzx : z = x
      · subst hzx; simpa [upd] using e4 _ (hR.mem y hx2)
      · simp only [upd, if_neg hzx]
        rcases List.mem_cons.1 hz with rfl | hz
        · exact absurd rfl hzx
        · exact hR.mem z hz
    · cases h
  | assign x y =>
    intro Γ Γ' S S' K s B hf h hi hr hR
    simp only [Prog.check] at h
    split at h
    · next hx =>
      cases h
      simp only [Bool.and_eq_true, List.contains_iff_mem, List.all_eq_true, Bool.not_eq_true'] at hx
      obtain ⟨⟨hx1, hx2⟩, hx3⟩ := hx
      simp only [runI, bind_eq_ok, pure, Except.pure, Except.ok.injEq, Prod.mk.injEq] at hr
      obtain ⟨R, hR', rfl, _⟩ := hr
      obtain ⟨_, rfl⟩ := assignFree_ok (hi.clean x hx1) hR'
      have hk2 : ∀ z, (∃ c ∈ Γ.conds, c.1.uses z = true) → upd s x (s y) z = s z := by
        rintro z ⟨c, h1, h2⟩
        unfold upd; rw [if_neg]; rintro rfl; rw [hx3 c h1] at h2; cases h2
      exact ⟨upd s x (s y), rfl, ⟨rel_upd hR hx2, rel_conds hk2 hR.conds, hR.stack⟩, hk2⟩
    · cases h
  | reset x y =>
    intro Γ Γ' S S' K s B hf h hi hr hR
    simp only [Prog.check] at h
    split at h
    · next hx =>
      cases h
      simp only [Bool.and_eq_true, List.contains_iff_mem, Bool.not_eq_true', ← Bool.not_eq_true] at hx
      obtain ⟨⟨hx1, hx2⟩, hx3⟩ := hx
      simp only [runI, Except.ok.injEq, Prod.mk.injEq] at hr
      obtain ⟨rfl, _⟩ := hr
      have hk2 : ∀ z, (∃ c ∈ Γ.conds, c.1.uses z = true) → upd s x (s y) z = s z := by
        rintro z ⟨c, h1, h2⟩
        unfold upd; rw [if_neg]; rintro rfl; exact hx3 (hi.cout c h1 _ h2)
      exact ⟨upd s x (s y), rfl, ⟨rel_upd hR hx2, rel_conds hk2 hR.conds, hR.stack⟩, hk2⟩
    · cases h
  | block p ih =>
    intro Γ Γ' S S' K s B hf h hi hr hR
    simp only [Prog.check, Option.bind_eq_some_iff, Option.some.injEq] at h
    obtain ⟨Γp, hp, rfl⟩ := h
    obtain ⟨s1, t1, t2, t3⟩ := ih hf hp hi hr hR
    refine ⟨s1, t1, ⟨fun x hx => ?_, rel_conds t3 hR.conds, hR.stack⟩, t3⟩
    rcases List.mem_append.1 hx with hx | hx
    · exact t2.mem x ((check_ctx hp).2.2.1 x hx)
    · simp only [List.mem_filter, List.contains_iff_mem] at hx
      exact t2.mem x hx.2
  | call x p args r ih =>
    intro Γ Γ' S S' K s B hf h hi hr hR
    simp only [Prog.check, Option.bind_eq_some_iff] at h
    obtain ⟨Γp, hp, h⟩ := h
    split at h
    · next hx =>
      cases h
      simp only [Bool.and_eq_true, List.all_eq_true, List.contains_iff_mem, Bool.not_eq_true', ← Bool.not_eq_true] at hx
      obtain ⟨⟨hx, ha⟩, hr'⟩ := hx
      simp only [runI, bind_eq_ok, pure, Except.pure, Except.ok.injEq, Prod.mk.injEq, Prod.exists] at hr
      obtain ⟨S1, b, r1, rfl, rfl⟩ := hr
      obtain ⟨s1, t1, t2, _⟩ := ih hf hp (inv_start (fun i hi' => by
        obtain ⟨y, hy, e⟩ := frame_get hi'
        rw [e]; exact hi.prop y (ha y hy))) r1 (s := frame zero (args.map s)) (B := []) ⟨fun i hi' => by
          obtain ⟨y, hy, e⟩ := frame_get hi'
          rw [e, e]; exact hR.mem y (ha y hy), fun _ h => (nomatch h), rfl⟩
      have hk : ∀ y ∈ Γ.scope, upd s x (s1 r) y = s y := by intro y hy; unfold upd; rw [if_neg]; rintro rfl; exact hx hy
      have hk' : ∀ y ∈ Γ.scope, upd S x (S1 r) y = S y := by intro y hy; unfold upd; rw [if_neg]; rintro rfl; exact hx hy
      have hk2 : ∀ y, (∃ c ∈ Γ.conds, c.1.uses y = true) → upd s x (s1 r) y = s y := fun y hy => hk y (used_scope hi hy)
      refine ⟨upd s x (s1 r), by simp only [runS, t1, ok_bind, pure, Except.pure], ⟨fun y hy => ?_, rel_conds hk2 hR.conds, hR.stack⟩, hk2⟩
      rcases List.mem_cons.1 hy with rfl | hy
      · simpa [upd] using t2.mem r hr'
      · rw [hk y (hi.sub y hy), hk' y (hi.sub y hy)]; exact hR.mem y hy
    · cases h
  | branch e p q ihp ihq =>
    intro Γ Γ' S S' K s B hf h hi hr hR
    simp only [Prog.check] at h
    split at h
    · next he =>
      simp only [Option.bind_eq_some_iff, Option.some.injEq] at h
      obtain ⟨Γp, hp, Γq, hq, rfl⟩ := h
      obtain ⟨c, hc, S1, r1, nc, hnc, r2⟩ := runI_branch hr
      have hev := evE_eval (d := d) (S := S) (s := s) (e := e) (fun x hu => hR.mem x (ok_uses he x hu))
      have htr := C22_truth_set dbg _ c s _ (inst_proper hi.prop he) hc hev
      have htr' := C22_not_truth_set dbg _ c nc (inst_proper hi.prop he) hc (by simp [CExpr.build, hc, hnc, ok_bind]) true
      -- first branch
      have A : Inv dbg d Γ S1 K ∧ Grow { Γ with outer := Γ.scope } S S1 ∧ (∀ x, e.uses x = true → S1 x = S x) := by
        split at r1
        · next ht =>
          obtain ⟨i1, g1⟩ := run_step hs hp (inv_push hi (ep := (e, true)) he (by simpa [sgnInst] using hc) ht) r1
          obtain ⟨i2, g2⟩ := inv_pop hi g1 i1 (check_ctx hp).2.1
          exact ⟨i2, g2, fun x hx => g1.keep x ⟨_, List.mem_cons_self, hx⟩⟩
        · next ht =>
          simp only [Except.ok.injEq, Prod.mk.injEq] at r1; obtain ⟨rfl, _⟩ := r1
          exact ⟨hi, Grow.refl _ _, fun _ _ => rfl⟩
      obtain ⟨i1, g1, k1⟩ := A
      have hc1 : (e.inst d S1).build dbg = .ok c := by rw [inst_congr k1]; exact hc
      have B2 : Grow { Γ with outer := Γ.scope } S1 S' := by
        split at r2
        · next ht =>
          obtain ⟨j1, l1⟩ := run_step hs hq (inv_push i1 (ep := (e, false)) he ((not_build hc1).1 hnc) ht) r2
          exact (inv_pop i1 l1 j1 (check_ctx hq).2.1).2
        · next ht =>
          simp only [Except.ok.injEq, Prod.mk.injEq] at r2; obtain ⟨rfl, _⟩ := r2
          exact Grow.refl _ _
      have hkc : ∀ {s' : Nat → T} {pol : Bool}, (∀ x, (∃ c ∈ (e, pol) :: Γ.conds, c.1.uses x = true) → s' x = s x) →
          ∀ x, (∃ c ∈ Γ.conds, c.1.uses x = true) → s' x = s x := fun h x ⟨c, h1, h2⟩ => h x ⟨c, List.mem_cons_of_mem _ h1, h2⟩
      cases hes : e.eval s with
      | true =>
        rw [hes] at htr
        rw [show BoolSet.possibly c.truth = true from htr, if_pos rfl] at r1
        obtain ⟨s1, t1, t2, t3⟩ := ihp hf.1 hp (inv_push hi (ep := (e, true)) he (by simpa [sgnInst] using hc) htr) r1 (s := s) (B := true :: B)
          ⟨hR.mem, fun c hc => by rcases List.mem_cons.1 hc with rfl | hc; exacts [hes, hR.conds c hc], by simp [hR.stack]⟩
        refine ⟨s1, by simp only [runS, hes, if_true, t1, ok_bind, Bool.not_true, Bool.false_eq_true, if_false, pure, Except.pure], ⟨fun x hx => ?_, ?_, hR.stack⟩, hkc t3⟩
        · rcases List.mem_append.1 hx with hx | hx
          · exact B2.grow x (hi.sub x hx) _ (t2.mem x ((check_ctx hp).2.2.1 x hx))
          · simp only [List.mem_filter, Bool.and_eq_true, List.contains_iff_mem] at hx
            exact B2.grow x hx.1 _ (t2.mem x hx.2.1)
        · exact rel_conds (hkc t3) hR.conds
      | false =>
        have ht : BoolSet.contains nc.truth true = true := by rw [htr']; rw [hes] at htr; exact htr
        rw [show BoolSet.possibly nc.truth = true from ht, if_pos rfl] at r2
        obtain ⟨s1, t1, t2, t3⟩ := ihq hf.2 hq (inv_push i1 (ep := (e, false)) he ((not_build hc1).1 hnc) ht) r2 (s := s) (B := true :: B)
          ⟨fun x hx => g1.grow x (hi.sub x hx) _ (hR.mem x hx), fun c hc => by rcases List.mem_cons.1 hc with rfl | hc; exacts [hes, hR.conds c hc], by simp [hR.stack]⟩
        refine ⟨s1, by simp only [runS, hes, Bool.false_eq_true, if_false, t1, ok_bind, Bool.not_false, if_true, pure, Except.pure], ⟨fun x hx => ?_, ?_, hR.stack⟩, hkc t3⟩
        · rcases List.mem_append.1 hx with hx | hx
          · exact t2.mem x ((check_ctx hq).2.2.1 x hx)
          · simp only [List.mem_filter, Bool.and_eq_true, List.contains_iff_mem] at hx
            exact t2.mem x hx.2.2
        · exact rel_conds (hkc t3) hR.conds
    · cases h

/-! ## the run does not fail -/

/-- `u` is a value of the term -/
def TVal (S : Nat → Ivl T) : PTerm T → T → Prop
  | .var x, u => u ∈ᵢ S x
  | .lit w, u => u = w

def PTerm.distinct : PTerm T → PTerm T → Prop
  | .var x, .var y => x ≠ y
  | _, _ => True

theorem two_vals {d : Bool} {S : Nat → Ivl T} {l r : PTerm T} (hd : PTerm.distinct l r) {u v : T} (hu : TVal S l u) (hv : TVal S r v) :
    ∃ ρ : Nat → T, Spec.Val ρ (l.inst d S) u ∧ Spec.Val ρ (r.inst d S) v ∧ ∀ y, (l.uses y = true ∨ r.uses y = true) → ρ y ∈ᵢ S y := by
  refine ⟨fun z => if l.uses z then u else v, ?_, ?_, ?_⟩
  · cases l with
    | var x => exact ⟨by simp [PTerm.uses], hu⟩
    | lit w => exact hu
  · cases r with
    | var x =>
      refine ⟨?_, hv⟩
      cases l with
      | var x' => have : x ≠ x' := fun h => hd h.symm
                  simp [PTerm.uses, this]
      | lit w => simp [PTerm.uses]
    | lit w => exact hv
  · intro y hy
    by_cases hl : l.uses y = true
    · cases l with
      | var x => simp [PTerm.uses] at hl; subst hl; simp only [PTerm.uses, beq_self_eq_true, if_true]; exact hu
      | lit w => simp [PTerm.uses] at hl
    · have hr := hy.resolve_left hl
      simp only [hl, Bool.false_eq_true, if_false]
      cases r with
      | var x => simp [PTerm.uses] at hr; subst hr; exact hv
      | lit w => simp [PTerm.uses] at hr

theorem tval_lo {d : Bool} {S : Nat → Ivl T} {l : PTerm T} (h : ProperA (l.inst d S).arg) : TVal S l (l.inst d S).arg.lo := by
  cases l with
  | var x => exact ⟨cle_left h, h⟩
  | lit w => rfl
theorem tval_hi {d : Bool} {S : Nat → Ivl T} {l : PTerm T} (h : ProperA (l.inst d S).arg) : TVal S l (l.inst d S).arg.hi := by
  cases l with
  | var x => exact ⟨h, cle_right h⟩
  | lit w => rfl

theorem tval_eq {d : Bool} {S : Nat → Ivl T} {l r : PTerm T} (hl : ProperA (l.inst d S).arg) (hr : ProperA (r.inst d S).arg)
    (h : BoolSet.contains (compareEq (l.inst d S).arg (r.inst d S).arg) true = true) : ∃ u v, TVal S l u ∧ TVal S r v ∧ eq u v = true := by
  simp only [contains_eq, if_true, Bool.and_eq_true] at h
  cases l with
  | lit w =>
    cases r with
    | lit w' => exact ⟨w, w', rfl, rfl, by simp only [PTerm.inst, Operand.arg, Arg.lo, Arg.hi] at h; grind⟩
    | var y =>
      refine ⟨w, w, rfl, ?_, ?_⟩
      · simp only [PTerm.inst, Operand.arg, Arg.lo, Arg.hi] at h
        show w ∈ᵢ S y
        unfold Pt; grind
      · have hl : le w w = true := hl
        grind
  | var x =>
    cases r with
    | lit w =>
      refine ⟨w, w, ?_, rfl, ?_⟩
      · simp only [PTerm.inst, Operand.arg, Arg.lo, Arg.hi] at h
        show w ∈ᵢ S x
        unfold Pt; grind
      · have hr : le w w = true := hr
        grind
    | var y =>
      have hl : le (S x).lo (S x).hi = true := hl
      have hr : le (S y).lo (S y).hi = true := hr
      simp only [PTerm.inst, Operand.arg, Arg.lo, Arg.hi] at h
      refine ⟨cmax (S x).lo (S y).lo, cmax (S x).lo (S y).lo, ?_, ?_, ?_⟩
      · show _ ∈ᵢ S x
        unfold Pt; grind
      · show _ ∈ᵢ S y
        unfold Pt; grind
      · grind

theorem distinct_symm {l r : PTerm T} (h : PTerm.distinct l r) : PTerm.distinct r l := by
  cases l <;> cases r <;> simp_all [PTerm.distinct, eq_comm]

/-- a single comparison that is possibly true is true for some values -/
theorem single_sat {d : Bool} {S : Nat → Ivl T} : ∀ {e : PCond T} {pol c}, e.single = true → Sh d S e pol c → WF c →
    BoolSet.contains c.truth true = true → ∃ ρ, Ev ρ c true ∧ ∀ y, e.uses y = true → ρ y ∈ᵢ S y := by
  intro e
  induction e with
  | cmp op l r =>
    intro pol c hsg hsh hw ht
    have hd : PTerm.distinct l r := by
      cases l <;> cases r <;> simp_all [PTerm.distinct, PCond.single]
    simp only [PCond.uses, Bool.or_eq_true]
    obtain ⟨s, h⟩ := hsh
    rcases h with rfl | rfl | rfl | rfl | rfl | rfl
    · obtain ⟨h1, h2, rfl⟩ := hw
      simp only [Cond.truth, contains_leq, if_true] at ht
      obtain ⟨ρ, g1, g2, g3⟩ := two_vals (d := d) hd (tval_lo h1) (tval_hi h2)
      exact ⟨ρ, ⟨_, _, g1, g2, ht⟩, g3⟩
    · obtain ⟨h1, h2, rfl⟩ := hw
      simp only [Cond.truth, contains_leq, if_true] at ht
      obtain ⟨ρ, g1, g2, g3⟩ := two_vals (d := d) (distinct_symm hd) (tval_lo h1) (tval_hi h2)
      exact ⟨ρ, ⟨_, _, g1, g2, ht⟩, fun y hy => g3 y hy.symm⟩
    · obtain ⟨h1, h2, rfl⟩ := hw
      simp only [Cond.truth, contains_lt, if_true] at ht
      obtain ⟨ρ, g1, g2, g3⟩ := two_vals (d := d) hd (tval_lo h1) (tval_hi h2)
      exact ⟨ρ, ⟨_, _, g1, g2, ht⟩, g3⟩
    · obtain ⟨h1, h2, rfl⟩ := hw
      simp only [Cond.truth, contains_lt, if_true] at ht
      obtain ⟨ρ, g1, g2, g3⟩ := two_vals (d := d) (distinct_symm hd) (tval_lo h1) (tval_hi h2)
      exact ⟨ρ, ⟨_, _, g1, g2, ht⟩, fun y hy => g3 y hy.symm⟩
    · obtain ⟨h1, h2, rfl⟩ := hw
      obtain ⟨u, v, hu, hv, huv⟩ := tval_eq h1 h2 ht
      obtain ⟨ρ, g1, g2, g3⟩ := two_vals (d := d) hd hu hv
      exact ⟨ρ, ⟨_, _, g1, g2, huv⟩, g3⟩
    · obtain ⟨h1, h2, rfl⟩ := hw
      simp only [Cond.truth, contains_neq, if_true] at ht
      have : ne (l.inst d S).arg.lo (r.inst d S).arg.hi = true ∨ ne (l.inst d S).arg.hi (r.inst d S).arg.lo = true := by
        have := properA_le h1; have := properA_le h2; unfold CppVal.ne; grind
      rcases this with h | h
      · obtain ⟨ρ, g1, g2, g3⟩ := two_vals (d := d) hd (tval_lo h1) (tval_hi h2)
        exact ⟨ρ, ⟨_, _, g1, g2, h⟩, g3⟩
      · obtain ⟨ρ, g1, g2, g3⟩ := two_vals (d := d) hd (tval_hi h1) (tval_lo h2)
        exact ⟨ρ, ⟨_, _, g1, g2, h⟩, g3⟩
  | and e f ihe ihf => intro pol c h; cases h
  | or e f ihe ihf => intro pol c h; cases h
  | not e ih => intro pol c h1 h2 h3 h4; exact ih (pol := !pol) h1 h2 h3 h4

/-- A program whose conditions are single comparisons and whose functions are total does not fail on intervals. -/
theorem run_total {dbg d : Bool} (hs : d = true → LawfulStep T) : ∀ {p : Prog T} {Γ Γ' : Ctx T} {S : Nat → Ivl T} {K : List (Cond T)},
    p.AllFn Fn.Total → p.Single → p.NoAssign → (∀ c ∈ Γ.conds, c.1.single = true) → p.check Γ = some Γ' → Inv dbg d Γ S K → ∃ S', runI dbg d p S K = .ok (S', true) := by
  intro p
  induction p with
  | skip => intro Γ Γ' S K _ _ _ _ _ _; exact ⟨S, rfl⟩
  | seq p q ihp ihq =>
    intro Γ Γ' S K hf hsg hna hc h hi
    simp only [Prog.check, Option.bind_eq_some_iff] at h
    obtain ⟨Γ1, h1, h2⟩ := h
    obtain ⟨S1, r1⟩ := ihp hf.1 hsg.1 hna.1 hc h1 hi
    obtain ⟨S2, r2⟩ := ihq hf.2 hsg.2 hna.2 (by rw [(check_ctx h1).1]; exact hc) h2 (run_step hs h1 hi r1).1
    exact ⟨S2, by simp only [runI, r1, r2, ok_bind, pure, Except.pure, Bool.and_self]⟩
  | decl x => intro Γ Γ' S K _ _ _ _ _ _; exact ⟨_, rfl⟩
  | letF x f args =>
    intro Γ Γ' S K hf hsg hna hc h hi
    simp only [Prog.check] at h
    split at h
    · next hx =>
      simp only [Bool.and_eq_true, List.all_eq_true, List.contains_iff_mem] at hx
      obtain ⟨R, h1, h2⟩ := hf dbg (args.map S) (by simpa using hx.2) (fun X hX => by
        obtain ⟨y, hy, rfl⟩ := List.mem_map.1 hX
        exact hi.prop y (hx.1.2 y hy))
      unfold Proper at h2
      exact ⟨upd S x R, by simp only [runI, h1, h2, ok_bind, pure, Except.pure]⟩
    · cases h
  | constrain x y k =>
    intro Γ Γ' S K hf hsg hna hc h hi
    simp only [Prog.check] at h
    split at h
    · cases h
    · next e pol hk =>
      split at h
      · next hx =>
        simp only [Bool.and_eq_true, List.contains_iff_mem] at hx
        obtain ⟨⟨⟨hx1, hx2⟩, hx3⟩, hx4⟩ := hx
        have hm : (e, pol) ∈ Γ.conds := List.mem_of_getElem? hk
        have hf2 := List.forall₂_iff_get.1 hi.stack
        obtain ⟨k1, e1⟩ := List.getElem?_eq_some_iff.1 hk
        have k2 : k < K.length := hf2.1 ▸ k1
        have h3 := hf2.2 k k1 k2
        simp only [List.get_eq_getElem, e1] at h3
        obtain ⟨hb, ht⟩ := h3
        have hp := sgnInst_proper (d := d) (ep := (e, pol)) hi.prop (hi.used _ hm)
        have hsh := sgn_sh hb
        obtain ⟨c', w1, w2, _⟩ := build_wf (dbg := dbg) _ hp
        rw [hb] at w1; cases w1
        obtain ⟨ρ, q1, q2⟩ := single_sat (hc _ hm) hsh w2 ht
        have hl := single_flat (hc _ hm) hsh
        have hcs : ConjSat y (S y) (Spec.seen K[k]) := by
          rw [seen_leaf hl]
          generalize K[k] = c' at hl
          cases c' <;> first | trivial | simp [Cond.isLeaf] at hl
        obtain ⟨R, f, hR⟩ := sat_ok (dbg := dbg) hs (q2 y (seenUses_uses hx3)) _ hcs w2 (sh_strict hsh).seen (sh_self hsh).seen (ev_seen w2 q1) false false
        have := flag_val _ _ _ _ _ hR
        simp only [(sh_seen hsh).2 hx3, decide_true, Bool.or_true] at this
        subst this
        refine ⟨upd S x R, ?_⟩
        simp only [runI, List.getElem?_eq_getElem k2, Intervals.constrain, hR, expects_true, ok_bind, pure, Except.pure]
      · cases h
  | assignPartial x y =>
    intro Γ Γ' S K hf hsg hna hc h hi
    simp only [Prog.check] at h
    split at h
    · next hx =>
      simp only [Bool.and_eq_true, List.contains_iff_mem] at hx
      obtain ⟨R', e1, _⟩ := assignPartial_grow (hi.clean x hx.1.1) (hi.prop y hx.1.2)
      exact ⟨upd S x R', by simp only [runI, e1, ok_bind, pure, Except.pure]⟩
    · cases h
  | assign x y => intro Γ Γ' S K hf hsg hna hc h hi; exact hna.elim
  | reset x y => intro Γ Γ' S K hf hsg hna hc h hi; exact ⟨_, rfl⟩
  | block p ih =>
    intro Γ Γ' S K hf hsg hna hc h hi
    simp only [Prog.check, Option.bind_eq_some_iff, Option.some.injEq] at h
    obtain ⟨Γp, hp, rfl⟩ := h
    exact ih hf hsg hna hc hp hi
  | call x p args r ih =>
    intro Γ Γ' S K hf hsg hna hc h hi
    simp only [Prog.check, Option.bind_eq_some_iff] at h
    obtain ⟨Γp, hp, h⟩ := h
    split at h
    · next hx =>
      simp only [Bool.and_eq_true, List.all_eq_true, List.contains_iff_mem] at hx
      obtain ⟨S1, r1⟩ := ih hf hsg hna (fun _ h => absurd h List.not_mem_nil) hp (inv_start (S := frame Ivl.unassigned (args.map S)) (fun i hi' => by
        obtain ⟨y, hy, e⟩ := frame_get hi'
        rw [e]; exact hi.prop y (hx.1.2 y hy)))
      exact ⟨upd S x (S1 r), by simp only [runI, r1, ok_bind, pure, Except.pure]⟩
    · cases h
  | branch e p q ihp ihq =>
    intro Γ Γ' S K hf hsg hna hc h hi
    simp only [Prog.check] at h
    split at h
    · next he =>
      simp only [Option.bind_eq_some_iff, Option.some.injEq] at h
      obtain ⟨Γp, hp, Γq, hq, rfl⟩ := h
      obtain ⟨c, hb, w2, _⟩ := build_wf (dbg := dbg) _ (inst_proper (d := d) hi.prop he)
      obtain ⟨nc, hnc, _⟩ := mkNot_wf dbg w2
      have hcs : ∀ pol, ∀ c ∈ (e, pol) :: Γ.conds, c.1.single = true := by
        intro pol c hc'
        rcases List.mem_cons.1 hc' with rfl | hc'
        exacts [hsg.1, hc c hc']
      have A : ∃ S1, (if BoolSet.possibly c.truth then runI dbg d p S (c :: K) else .ok (S, true)) = .ok (S1, true) ∧ Inv dbg d Γ S1 K ∧
          ∀ x, e.uses x = true → S1 x = S x := by
        by_cases ht : BoolSet.possibly c.truth = true
        · simp only [ht, if_true]
          have hpu := inv_push hi (ep := (e, true)) he (by simpa [sgnInst] using hb) ht
          obtain ⟨S1, r1⟩ := ihp hf.1 hsg.2.1 hna.1 (hcs true) hp hpu
          obtain ⟨i1, g1⟩ := run_step hs hp hpu r1
          exact ⟨S1, r1, (inv_pop hi g1 i1 (check_ctx hp).2.1).1, fun x hx => g1.keep x ⟨_, List.mem_cons_self, hx⟩⟩
        · simp only [ht, if_false, Bool.false_eq_true]
          exact ⟨S, rfl, hi, fun _ _ => rfl⟩
      obtain ⟨S1, r1, i1, k1⟩ := A
      have hb1 : (e.inst d S1).build dbg = .ok c := by rw [inst_congr k1]; exact hb
      have B : ∃ S2, (if BoolSet.possibly nc.truth then runI dbg d q S1 (nc :: K) else .ok (S1, true)) = .ok (S2, true) := by
        by_cases ht : BoolSet.possibly nc.truth = true
        · simp only [ht, if_true]
          exact ihq hf.2 hsg.2.2 hna.2 (hcs false) hq (inv_push i1 (ep := (e, false)) he ((not_build hb1).1 hnc) ht)
        · simp only [ht, if_false, Bool.false_eq_true]
          exact ⟨S1, rfl⟩
      obtain ⟨S2, r2⟩ := B
      refine ⟨S2, ?_⟩
      simp only [runI, hb, ok_bind]
      by_cases h1 : BoolSet.possibly c.truth = true <;> by_cases h2 : BoolSet.possibly nc.truth = true <;>
      · simp only [h1, h2, if_true, if_false, Bool.false_eq_true, Except.ok.injEq, Prod.mk.injEq, and_true] at r1 r2 ⊢
        first
        | (subst r1; subst r2; simp only [hnc, h2, if_false, Bool.false_eq_true, ok_bind, pure, Except.pure, Bool.and_self])
        | (subst r1; simp only [hnc, h2, r2, if_true, ok_bind, pure, Except.pure, Bool.and_self])
        | (subst r2; simp only [r1, hnc, h2, if_false, Bool.false_eq_true, ok_bind, pure, Except.pure, Bool.and_self])
        | simp only [r1, hnc, h2, r2, if_true, ok_bind, pure, Except.pure, Bool.and_self]
    · cases h

end Intervals
