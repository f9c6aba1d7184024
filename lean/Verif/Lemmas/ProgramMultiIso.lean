import Verif.Lemmas.ProgramMulti
import Verif.Lemmas.ProgramIso
/-! # Lemmas about interval-aware programs over several value types run on nested inputs -/
set_option linter.unusedSectionVars false
namespace Intervals
open Spec CppVal Props
variable {σ : Type} [DecidableEq σ] {Ty : σ → Type} [∀ s, CppVal (Ty s)] [∀ s, CppOrder (Ty s)] [∀ s, CppStep (Ty s)]

/-! ## conditions over nested operands -/

/-- the same condition over the wider operands `S'` -/
inductive HW (disc : σ → Bool) (S S' : IEnv Ty) : HCond Ty → HCond Ty → Prop
  | plain {b b' : BoolSet} (h : ∀ v, BoolSet.contains b v = true → BoolSet.contains b' v = true) : HW disc S S' (.plain b) (.plain b')
  | cmp {s : σ} {c c' : Cond (Ty s)} (h : ∀ y, CW (disc s) y (S (s, y)) (S' (s, y)) c c') : HW disc S S' (.cmp s c) (.cmp s c')
  | conj {b b' : BoolSet} {l r l' r' : HCond Ty} (hl : HW disc S S' l l') (hr : HW disc S S' r r') : HW disc S S' (.conj b l r) (.conj b' l' r')
  | disj {b b' : BoolSet} {l r l' r' : HCond Ty} (hl : HW disc S S' l l') (hr : HW disc S S' r r') : HW disc S S' (.disj b l r) (.disj b' l' r')

theorem HW.isCond {disc : σ → Bool} {S S' : IEnv Ty} {c c' : HCond Ty} (h : HW disc S S' c c') : c'.isCond = c.isCond := by cases h <;> rfl

theorem bset_and_mono : ∀ {a b a' b' : BoolSet}, a ≠ BoolSet.empty → b ≠ BoolSet.empty → (∀ v, BoolSet.contains a v = true → BoolSet.contains a' v = true) →
    (∀ v, BoolSet.contains b v = true → BoolSet.contains b' v = true) → ∀ v, BoolSet.contains (BoolSet.and a b) v = true → BoolSet.contains (BoolSet.and a' b') v = true := by decide
theorem bset_or_mono : ∀ {a b a' b' : BoolSet}, a ≠ BoolSet.empty → b ≠ BoolSet.empty → (∀ v, BoolSet.contains a v = true → BoolSet.contains a' v = true) →
    (∀ v, BoolSet.contains b v = true → BoolSet.contains b' v = true) → ∀ v, BoolSet.contains (BoolSet.or a b) v = true → BoolSet.contains (BoolSet.or a' b') v = true := by decide
theorem bset_not_mono : ∀ {a a' : BoolSet}, a ≠ BoolSet.empty → (∀ v, BoolSet.contains a v = true → BoolSet.contains a' v = true) →
    ∀ v, BoolSet.contains (BoolSet.notCore a) v = true → BoolSet.contains (BoolSet.notCore a') v = true := by decide

theorem HW.truth {disc : σ → Bool} {S S' : IEnv Ty} {c c' : HCond Ty} (h : HW disc S S' c c') (hw : HWF c) (hw' : HWF c') : ∀ b,
    BoolSet.contains c.truth b = true → BoolSet.contains c'.truth b = true := by
  induction h with
  | plain h => exact h
  | @cmp t c c' h => exact fun b hb => (h 0).truth hw.1 hw'.1 b hb
  | conj _ _ ihl ihr =>
    obtain ⟨w1, w2, rfl⟩ := hw
    obtain ⟨w1', w2', rfl⟩ := hw'
    exact bset_and_mono w1.truth_ne w2.truth_ne (ihl w1 w1') (ihr w2 w2')
  | disj _ _ ihl ihr =>
    obtain ⟨w1, w2, rfl⟩ := hw
    obtain ⟨w1', w2', rfl⟩ := hw'
    exact bset_or_mono w1.truth_ne w2.truth_ne (ihl w1 w1') (ihr w2 w2')

theorem not_core {dbg : Bool} {b n : BoolSet} (hb : b ≠ BoolSet.empty) (h : BoolSet.not dbg b = .ok n) : n = BoolSet.notCore b := by
  rw [notM_ok hb] at h; cases h; rfl

theorem HW.mkNot {dbg : Bool} {disc : σ → Bool} {S S' : IEnv Ty} {c c' : HCond Ty} (h : HW disc S S' c c') (hw : HWF c) (hw' : HWF c') : ∀ {n n' : HCond Ty},
    HCond.mkNot dbg c = .ok n → HCond.mkNot dbg c' = .ok n' → HW disc S S' n n' := by
  induction h with
  | plain h =>
    intro n n' hn hn'
    simp only [HCond.mkNot, bind_eq_ok, pure, Except.pure, Except.ok.injEq] at hn hn'
    obtain ⟨d, h1, rfl⟩ := hn
    obtain ⟨d', h1', rfl⟩ := hn'
    rw [not_core hw h1, not_core hw' h1']
    exact .plain (bset_not_mono hw h)
  | cmp h =>
    intro n n' hn hn'
    simp only [HCond.mkNot, bind_eq_ok, pure, Except.pure, Except.ok.injEq] at hn hn'
    obtain ⟨d, h1, rfl⟩ := hn
    obtain ⟨d', h1', rfl⟩ := hn'
    exact .cmp fun y => (h y).mkNot h1 h1'
  | @conj b b' l r l' r' hl hr ihl ihr | @disj b b' l r l' r' hl hr ihl ihr =>
    intro n n' hn hn'
    simp only [HCond.mkNot, hl.isCond, hr.isCond, bind_eq_ok] at hn hn'
    obtain ⟨d, k0, hn⟩ := hn
    obtain ⟨d', m0, hn'⟩ := hn'
    by_cases hc : (l.isCond && r.isCond) = true
    · simp only [hc, if_true, bind_eq_ok, pure, Except.pure, Except.ok.injEq] at hn hn'
      obtain ⟨l1, k1, r1, k2, rfl⟩ := hn
      obtain ⟨l2, m1, r2, m2, rfl⟩ := hn'
      constructor
      exacts [ihl hw.1 hw'.1 k1 m1, ihr hw.2.1 hw'.2.1 k2 m2]
    · simp only [hc, if_false, Bool.false_eq_true, pure, Except.pure, Except.ok.injEq] at hn hn'
      obtain ⟨w1, w2, rfl⟩ := hw
      obtain ⟨w1', w2', rfl⟩ := hw'
      subst hn hn'
      first
        | rw [not_core (and_ne_empty w1.truth_ne w2.truth_ne) k0, not_core (and_ne_empty w1'.truth_ne w2'.truth_ne) m0]
          exact .plain (bset_not_mono (and_ne_empty w1.truth_ne w2.truth_ne) (bset_and_mono w1.truth_ne w2.truth_ne (hl.truth w1 w1') (hr.truth w2 w2')))
        | rw [not_core (or_ne_empty w1.truth_ne w2.truth_ne) k0, not_core (or_ne_empty w1'.truth_ne w2'.truth_ne) m0]
          exact .plain (bset_not_mono (or_ne_empty w1.truth_ne w2.truth_ne) (bset_or_mono w1.truth_ne w2.truth_ne (hl.truth w1 w1') (hr.truth w2 w2')))

/-- what `constrain` sees -/
theorem HW.view {disc : σ → Bool} {S S' : IEnv Ty} {c c' : HCond Ty} (h : HW disc S S' c c') (hw : HWF c) (hw' : HWF c') (s : σ) (y : Nat) :
    CV (disc s) y (S (s, y)) (S' (s, y)) (c.view s) (c'.view s) := by
  induction h with
  | plain h => exact h
  | @cmp t c c' h =>
    by_cases e : t = s
    · subst e; rw [view_cmp, view_cmp]; exact (h y).toCV
    · rw [view_cmp_ne e, view_cmp_ne e]
      exact fun b hb => (h 0).truth hw.1 hw'.1 b hb
  | conj _ _ ihl ihr => exact ⟨ihl hw.1 hw'.1, ihr hw.2.1 hw'.2.1⟩
  | disj _ _ ihl ihr => exact ⟨ihl hw.1 hw'.1, ihr hw.2.1 hw'.2.1⟩

variable {κ : Type} [DecidableEq κ] {En : κ → Type} [∀ k, DecidableEq (En k)] {vals : (k : κ) → List (En k)}

/-- the interval or set lies within the other -/
abbrev DSub {t : VSort σ κ} (X Y : Dm Ty vals t) : Prop := ∀ v, v ∈ₘ X → v ∈ₘ Y

theorem sub_le {T : Type} [CppVal T] [CppOrder T] {X Y : Ivl T} (hp : Proper X) (h : SubI X Y) : le Y.lo X.lo = true ∧ le X.hi Y.hi = true :=
  ⟨(h _ ⟨cle_left hp, hp⟩).1, (h _ ⟨hp, cle_right hp⟩).2⟩

/-- nested states -/
def MWithin (D : List (MVar σ κ)) (S S' : Env (Dm Ty vals)) : Prop := ∀ x ∈ D, DSub (S x) (S' x)

theorem mterm_opW {d : Bool} {D : List (MVar σ κ)} {S S' : Env (Dm Ty vals)} (hS : ∀ x ∈ D, DProper (S x)) (hw : MWithin D S S') {s : σ} (y : Nat) {t : PTerm (Ty s)}
    (h : MCond.ok.term D t) : OpW d y (S (.ivl s, y)) (S' (.ivl s, y)) (t.inst d (S.ivls.on s)) (t.inst d (S'.ivls.on s)) := by
  refine ⟨by rw [term_matches, term_matches], term_disc t, term_disc t, ?_, ?_,
    fun hm => ⟨term_self t (by rwa [term_matches] at hm), term_self t (by rwa [term_matches] at hm)⟩⟩ <;> cases t
  · exact (sub_le (hS _ h) (hw _ h)).1
  · exact h
  · exact (sub_le (hS _ h) (hw _ h)).2
  · exact h

theorem build_HW {dbg : Bool} {disc : σ → Bool} {D : List (MVar σ κ)} {S S' : Env (Dm Ty vals)} (hS : ∀ x ∈ D, DProper (S x)) (hS' : ∀ x ∈ D, DProper (S' x)) (hw : MWithin D S S') : ∀ {e : MCond Ty vals} {c c' : HCond Ty}, e.ok D →
    e.build dbg disc S = .ok c → e.build dbg disc S' = .ok c' → HW disc S.ivls S'.ivls c c' := by
  intro e
  have hwf : ∀ {S : Env (Dm Ty vals)} {e : MCond Ty vals} {c : HCond Ty}, (∀ x ∈ D, DProper (S x)) → e.ok D → e.build dbg disc S = .ok c → HWF c := by
    intro S e c hS he h
    obtain ⟨c1, g1, g2, _⟩ := build_hwf (dbg := dbg) (disc := disc) hS he
    rw [h] at g1; cases g1; exact g2
  induction e with
  | pred f args =>
    intro c c' he h h'
    simp only [MCond.build, bind_eq_ok, pure, Except.pure, Except.ok.injEq] at h h'
    obtain ⟨b, h1, rfl⟩ := h
    obtain ⟨b', h1', rfl⟩ := h'
    exact .plain (he.1.iso dbg _ _ b b' (fun i => hS _ (he.2 i)) (fun i => hw _ (he.2 i)) h1 h1')
  | cmp s op l r =>
    intro c c' he h h'
    simp only [MCond.build, bind_eq_ok, pure, Except.pure, Except.ok.injEq] at h h'
    obtain ⟨d, h1, rfl⟩ := h
    obtain ⟨d', h1', rfl⟩ := h'
    refine .cmp fun y => ?_
    have ol := mterm_opW (d := disc s) hS hw y he.1
    have or := mterm_opW (d := disc s) hS hw y he.2
    cases op <;>
    · simp only [buildCmp, condEq, condNe, condLt, condLe, condGt, condGe, bind_eq_ok, pure, Except.pure, Except.ok.injEq] at h1 h1'
      obtain ⟨s, _, rfl⟩ := h1
      obtain ⟨s', _, rfl⟩ := h1'
      first | exact ⟨ol, or⟩ | exact ⟨or, ol⟩
  | and e f ihe ihf =>
    intro c c' he h h'
    simp only [MCond.build, bind_eq_ok, pure, Except.pure, Except.ok.injEq] at h h'
    obtain ⟨l, h1, r, h2, rfl⟩ := h
    obtain ⟨l', h1', r', h2', rfl⟩ := h'
    have hl := ihe he.1 h1 h1'
    have hr := ihf he.2 h2 h2'
    unfold HCond.mkAnd
    rw [hl.isCond, hr.isCond]
    by_cases hc : (l.isCond || r.isCond) = true
    · simp only [hc, if_true]; exact .conj hl hr
    · simp only [hc, if_false, Bool.false_eq_true]
      have w1 := hwf hS he.1 h1
      have w2 := hwf hS he.2 h2
      exact .plain (bset_and_mono w1.truth_ne w2.truth_ne (hl.truth w1 (hwf hS' he.1 h1')) (hr.truth w2 (hwf hS' he.2 h2')))
  | or e f ihe ihf =>
    intro c c' he h h'
    simp only [MCond.build, bind_eq_ok, pure, Except.pure, Except.ok.injEq] at h h'
    obtain ⟨l, h1, r, h2, rfl⟩ := h
    obtain ⟨l', h1', r', h2', rfl⟩ := h'
    have hl := ihe he.1 h1 h1'
    have hr := ihf he.2 h2 h2'
    unfold HCond.mkOr
    rw [hl.isCond, hr.isCond]
    by_cases hc : (l.isCond || r.isCond) = true
    · simp only [hc, if_true]; exact .disj hl hr
    · simp only [hc, if_false, Bool.false_eq_true]
      have w1 := hwf hS he.1 h1
      have w2 := hwf hS he.2 h2
      exact .plain (bset_or_mono w1.truth_ne w2.truth_ne (hl.truth w1 (hwf hS' he.1 h1')) (hr.truth w2 (hwf hS' he.2 h2')))
  | not e ih =>
    intro c c' he h h'
    simp only [MCond.build, bind_eq_ok] at h h'
    obtain ⟨c1, h1, h2⟩ := h
    obtain ⟨c1', h1', h2'⟩ := h'
    exact (ih he h1 h1').mkNot (hwf (e := e) hS he h1) (hwf (e := e) hS' he h1') h2 h2'

theorem msgn_wf {dbg : Bool} {disc : σ → Bool} {D : List (MVar σ κ)} {S : Env (Dm Ty vals)} {ep : MCond Ty vals × Bool} {c : HCond Ty} (he : ep.1.ok D) (hS : ∀ x ∈ D, DProper (S x))
    (hb : (msgn ep).build dbg disc S = .ok c) : HWF c := by
  obtain ⟨c1, g1, g2, _⟩ := build_hwf (dbg := dbg) (disc := disc) hS (msgn_ok he)
  rw [hb] at g1; cases g1; exact g2

/-- a condition that is possible for the narrower operands is possible for the wider ones -/
theorem mpossible_mono {dbg : Bool} {disc : σ → Bool} {D : List (MVar σ κ)} {S S' : Env (Dm Ty vals)} {ep : MCond Ty vals × Bool} {c c' : HCond Ty} (he : ep.1.ok D)
    (hS : ∀ x ∈ D, DProper (S x)) (hS' : ∀ x ∈ D, DProper (S' x)) (hw : MWithin D S S') (hb : (msgn ep).build dbg disc S = .ok c)
    (hb' : (msgn ep).build dbg disc S' = .ok c') (ht : BoolSet.contains c.truth true = true) : BoolSet.contains c'.truth true = true :=
  (build_HW hS hS' hw (msgn_ok he) hb hb').truth (msgn_wf he hS hb) (msgn_wf he hS' hb') true ht

/-- constraining with the same condition is isotone -/
theorem mconstrain_iso {dbg : Bool} {disc : σ → Bool} {D : List (MVar σ κ)} {S S' : Env (Dm Ty vals)} {e : MCond Ty vals} {pol : Bool} {c c' : HCond Ty} {y : σ × Nat} {R R' : Ivl (Ty y.1)}
    (hd : ∀ s, disc s = true → LawfulStep (Ty s)) (he : e.ok D) (hy : (.ivl y.1, y.2) ∈ D) (hu : e.disjUses y pol = true)
    (hS : ∀ x ∈ D, DProper (S x)) (hS' : ∀ x ∈ D, DProper (S' x)) (hw : MWithin D S S') (hb : (msgn (e, pol)).build dbg disc S = .ok c)
    (hb' : (msgn (e, pol)).build dbg disc S' = .ok c') (ht : BoolSet.contains c.truth true = true) (hR : constrainH dbg (disc y.1) y.1 y.2 (S (.ivl y.1, y.2)) c = .ok R)
    (hR' : constrainH dbg (disc y.1) y.1 y.2 (S' (.ivl y.1, y.2)) c' = .ok R') : SubI R R' := by
  have w := msgn_wf (ep := (e, pol)) he hS hb
  have w' := msgn_wf (ep := (e, pol)) he hS' hb'
  simp only [constrainH, constrain, bind_eq_ok, pure, Except.pure, Except.ok.injEq, Prod.exists] at hR hR'
  obtain ⟨_, _, h1, _, _, rfl⟩ := hR
  obtain ⟨_, _, h1', _, _, rfl⟩ := hR'
  have := detail_mono (hd y.1) (x := S.ivls y) (x' := S'.ivls y) (hS _ hy) (hS' _ hy) (sub_le (hS _ hy) (hw _ hy)) _ _ ((build_HW hS hS' hw (msgn_ok (ep := (e, pol)) he) hb hb').view w w' y.1 y.2) (w.view y.1) (w'.view y.1)
    (hsh_strict y.1 (msgn_sh hb')).seen (hsh_disj (msgn_sh hb) hu) (hsh_disj (msgn_sh hb') hu) (by rw [view_truth]; exact ht) h1 h1'
  intro v hv
  exact ⟨cle_trans this.1 hv.1, cle_trans hv.2 this.2⟩

variable [∀ s, CppLimits (Ty s)] [∀ s, CppLawfulLimits (Ty s)] [∀ k, Fact (vals k).Nodup]

theorem dassignPartial_iso {dbg : Bool} {t : VSort σ κ} {X Y X' Y' R R' : Dm Ty vals t} (hX : DProper X ∨ X = Dm.unassigned t) (hY : DProper Y) (hX' : DProper X' ∨ X' = Dm.unassigned t)
    (hY' : DProper Y') (h1 : DSub X X') (h2 : DSub Y Y') (hR : Dm.assignPartial dbg X Y = .ok R) (hR' : Dm.assignPartial dbg X' Y' = .ok R') : DSub R R' := by
  cases t with
  | ivl s => exact assignPartial_iso hX hY hX' hY' h1 h2 hR hR'
  | set k =>
    simp only [Dm.assignPartial, CSet.assignPartial, CSet.assignSet, bind_eq_ok, pure, Except.pure, Except.ok.injEq] at hR hR'
    obtain ⟨_, _, rfl⟩ := hR
    obtain ⟨_, _, rfl⟩ := hR'
    exact fun v hv => SMem_or.2 ((SMem_or.1 hv).imp (h1 v) (h2 v))

/-- every variable in scope within its counterpart -/
def MSub (Γ : MCtx Ty vals) (S S' : Env (Dm Ty vals)) : Prop := ∀ x ∈ Γ.scope, DSub (S x) (S' x)

theorem MSub.upd {Γ : MCtx Ty vals} {S S' : Env (Dm Ty vals)} (h : MSub Γ S S') {x : MVar σ κ} {R R' : Dm Ty vals x.1} (hR : DSub R R') {sc E : List (MVar σ κ)} {cs o}
    (hsc : ∀ y ∈ sc, y = x ∨ y ∈ Γ.scope) : MSub ⟨sc, E, cs, o⟩ (mupd (A := Dm Ty vals) S x R) (mupd (A := Dm Ty vals) S' x R') := by
  intro y hy
  by_cases e : y = x
  · subst e; rw [mupd_self, mupd_self]; exact hR
  · rw [mupd_ne _ _ e, mupd_ne _ _ e]; exact h y ((hsc y hy).resolve_left e)

theorem Spec.Each.Iso.nonempt {f : Each Ty vals} (h : f.Iso) : Nonempt f :=
  fun dbg Xs ws hX hr => (h dbg Xs Xs ws ws hX (fun _ _ h => h) hr hr).1
theorem Spec.Each.IsoDef.iso {f : Each Ty vals} (h : f.IsoDef) : f.Iso := by
  intro dbg Xs Ys vs ws hX hs hv hw
  obtain ⟨vs', h1, h2⟩ := h dbg Xs Ys ws hX hs hw
  rw [hv] at h1; cases h1; exact h2
theorem Spec.MFn.IsoDef.iso {f : MFn Ty vals} (h : f.IsoDef) : f.Iso := by
  intro dbg Xs Ys R Q hX hs hR hQ _ pQ
  obtain ⟨R1, e1, _, e3⟩ := h dbg Xs Ys Q hX hs hQ pQ
  rw [hR] at e1; cases e1; exact e3
theorem mall_mono {P P' : MFn Ty vals → Prop} {Q Q' : Each Ty vals → Prop} (hP : ∀ f, P f → P' f) (hQ : ∀ f, Q f → Q' f) : ∀ {p : MProg Ty vals}, p.All P Q → p.All P' Q' := by
  intro p
  induction p with
  | seq p q ihp ihq => exact fun hp => ⟨ihp hp.1, ihq hp.2⟩
  | letF x f args => exact fun hp => hP f hp
  | branch e p q ihp ihq => exact fun hp => ⟨ihp hp.1, ihq hp.2⟩
  | block p ih => exact ih
  | call x p args r ih => exact ih
  | each f args body ih => exact fun hp => ⟨hQ f hp.1, fun v => ih v (hp.2 v)⟩
  | _ => exact fun _ => trivial

theorem mframe_sub {D : List (MVar σ κ)} {S Q : Env (Dm Ty vals)} {args : List (MVar σ κ)} (ha : ∀ a ∈ args, a ∈ D) (h : ∀ a ∈ D, DSub (S a) (Q a)) :
    ∀ x ∈ params args, DSub (mframe (A := Dm Ty vals) Dm.unassigned S args x) (mframe (A := Dm Ty vals) Dm.unassigned Q args x) := by
  intro x hx
  unfold params at hx
  obtain ⟨i, hi, rfl⟩ := List.mem_mapIdx.1 hx
  simp only [mframe, List.getElem?_eq_getElem hi, dif_pos]
  exact h _ (ha _ (List.getElem_mem hi))
theorem mframe_proper {D : List (MVar σ κ)} {S : Env (Dm Ty vals)} {args : List (MVar σ κ)} (ha : ∀ a ∈ args, a ∈ D) (h : ∀ a ∈ D, DProper (S a)) :
    ∀ x ∈ params args, DProper (mframe (A := Dm Ty vals) Dm.unassigned S args x) := by
  intro x hx
  unfold params at hx
  obtain ⟨i, hi, rfl⟩ := List.mem_mapIdx.1 hx
  simp only [mframe, List.getElem?_eq_getElem hi, dif_pos]
  exact h _ (ha _ (List.getElem_mem hi))

/-- what one branch does to one state -/
theorem mbranch_step {dbg : Bool} {disc : σ → Bool} (hs : ∀ s, disc s = true → LawfulStep (Ty s)) {P : MFn Ty vals → Prop} {Γ Γr : MCtx Ty vals} {e : MCond Ty vals} (he : e.ok Γ.asgd)
    {A B : Env (Dm Ty vals)} {M : List (HCond Ty)} {b : HCond Ty} {pol : Bool} {r : MProg Ty vals} (hf : r.All P Each.Iso) (hA : MInv dbg disc Γ A M)
    (hb : (msgn (e, pol)).build dbg disc A = .ok b) (hck : r.Wf { Γ with conds := (e, pol) :: Γ.conds, outer := Γ.scope } Γr)
    (hrun : (if BoolSet.possibly b.truth then runMI dbg disc r A (b :: M) else .ok (A, true)) = .ok (B, true)) :
    MInv dbg disc Γ B M ∧ MGrow { Γ with outer := Γ.scope } A B ∧ (∀ x, e.uses x = true → B x = A x) := by
  split at hrun
  · next ht =>
    obtain ⟨i1, g1⟩ := mrun_step hs (fun _ h => h.nonempt) hf hck (minv_push hA (ep := (e, pol)) he hb ht) hrun
    obtain ⟨i2, g2⟩ := minv_pop (E := [_]) hA g1 i1 (wf_ctx hck).2.1
    exact ⟨i2, g2, fun x hx => g1.keep x ⟨_, List.mem_cons_self, hx⟩⟩
  · simp only [Except.ok.injEq, Prod.mk.injEq] at hrun; obtain ⟨rfl, _⟩ := hrun
    exact ⟨hA, MGrow.refl _ _, fun _ _ => rfl⟩

/-- Two runs of a program on nested inputs end in nested states. -/
theorem mrun_iso {dbg : Bool} {disc : σ → Bool} (hs : ∀ s, disc s = true → LawfulStep (Ty s)) : ∀ {p : MProg Ty vals} {Γ Γ' : MCtx Ty vals} {S S' Q Q' : Env (Dm Ty vals)}
    {K L : List (HCond Ty)}, p.All MFn.Iso Each.Iso → p.Wf Γ Γ' → MInv dbg disc Γ S K → MInv dbg disc Γ Q L → MSub Γ S Q →
    runMI dbg disc p S K = .ok (S', true) → runMI dbg disc p Q L = .ok (Q', true) → MSub Γ' S' Q' := by
  intro p
  induction p with
  | skip =>
    rintro Γ _ S S' Q Q' K L hf rfl hi hj hw hr hq
    simp only [runMI, Except.ok.injEq, Prod.mk.injEq] at hr hq; obtain ⟨rfl, _⟩ := hr; obtain ⟨rfl, _⟩ := hq
    exact hw
  | seq p q ihp ihq =>
    rintro Γ Γ' S S' Q Q' K L hf ⟨Γ1, h1, h2⟩ hi hj hw hr hq
    simp only [runMI, bind_eq_ok, pure, Except.pure, Except.ok.injEq, Prod.mk.injEq, Bool.and_eq_true, Prod.exists] at hr hq
    obtain ⟨S1, b1, r1, S2, b2, r2, rfl, rfl, rfl⟩ := hr
    obtain ⟨Q1, b1, q1, Q2, b2, q2, rfl, rfl, rfl⟩ := hq
    have w1 := ihp hf.1 h1 hi hj hw r1 q1
    exact ihq hf.2 h2 (mrun_step hs (fun _ h => h.nonempt) hf.1 h1 hi r1).1 (mrun_step hs (fun _ h => h.nonempt) hf.1 h1 hj q1).1 w1 r2 q2
  | decl x =>
    rintro Γ _ S S' Q Q' K L hf ⟨hx, rfl⟩ hi hj hw hr hq
    simp only [runMI, Except.ok.injEq, Prod.mk.injEq] at hr hq; obtain ⟨rfl, _⟩ := hr; obtain ⟨rfl, _⟩ := hq
    exact hw.upd (fun v hv => hv) (fun y hy => List.mem_cons.1 hy)
  | letF x f args =>
    rintro Γ _ S S' Q Q' K L hf ⟨hx, ha, rfl⟩ hi hj hw hr hq
    simp only [runMI, bind_eq_ok, pure, Except.pure, Except.ok.injEq, Prod.mk.injEq] at hr hq
    obtain ⟨R, hR, rfl, hpr⟩ := hr
    obtain ⟨R', hR', rfl, hpr'⟩ := hq
    exact hw.upd (x := (f.res, x)) (hf dbg _ _ R R' (fun i => hi.prop _ (ha i)) (fun i => hw _ (hi.sub _ (ha i))) hR hR' hpr hpr') (fun y hy => List.mem_cons.1 hy)
  | constrain s x y k =>
    rintro Γ _ S S' Q Q' K L hf ⟨e, pol, hk, hx1, hx2, hx3, hx4, rfl⟩ hi hj hw hr hq
    obtain ⟨c, hK, hb, ht⟩ := mstack_get hi hk
    obtain ⟨c', hL, hb', ht'⟩ := mstack_get hj hk
    simp only [runMI, hK, hL, bind_eq_ok, pure, Except.pure, Except.ok.injEq, Prod.mk.injEq] at hr hq
    obtain ⟨R, hR, rfl, _⟩ := hr
    obtain ⟨R', hR', rfl, _⟩ := hq
    exact hw.upd (x := (.ivl s, x)) (mconstrain_iso (y := (s, y)) hs (hi.used _ (List.mem_of_getElem? hk)) hx2 hx4 hi.prop hj.prop
      (fun x hx => hw x (hi.sub x hx)) hb hb' ht hR hR') (fun y hy => List.mem_cons.1 hy)
  | assignPartial s x y =>
    rintro Γ _ S S' Q Q' K L hf ⟨hx1, hx2, hx3, rfl⟩ hi hj hw hr hq
    simp only [runMI, bind_eq_ok, pure, Except.pure, Except.ok.injEq, Prod.mk.injEq] at hr hq
    obtain ⟨R, hR, rfl, _⟩ := hr
    obtain ⟨R', hR', rfl, _⟩ := hq
    exact hw.upd (x := (s, x)) (dassignPartial_iso (dbg := dbg) (X := S (s, x)) (Y := S (s, y)) (X' := Q (s, x)) (Y' := Q (s, y)) (hi.clean _ hx1) (hi.prop _ hx2) (hj.clean _ hx1) (hj.prop _ hx2) (hw _ hx1) (hw _ (hi.sub _ hx2)) hR hR')
      (fun y hy => Or.inr hy)
  | assign s x y =>
    rintro Γ _ S S' Q Q' K L hf ⟨hx1, hx2, hx3, hx4, rfl⟩ hi hj hw hr hq
    simp only [runMI, bind_eq_ok, pure, Except.pure, Except.ok.injEq, Prod.mk.injEq] at hr hq
    obtain ⟨R, hR, rfl, _⟩ := hr
    obtain ⟨R', hR', rfl, _⟩ := hq
    obtain ⟨_, rfl⟩ := dassignFree_ok (hi.clean _ hx1) hR
    obtain ⟨_, rfl⟩ := dassignFree_ok (hj.clean _ hx1) hR'
    exact hw.upd (x := (s, x)) (R := S (s, y)) (R' := Q (s, y)) (hw (s, y) (hi.sub _ hx2)) (fun y hy => Or.inr hy)
  | reset s x y =>
    rintro Γ _ S S' Q Q' K L hf ⟨hx1, hx2, hx3, rfl⟩ hi hj hw hr hq
    simp only [runMI, dresetFree, Except.ok.injEq, Prod.mk.injEq] at hr hq
    obtain ⟨rfl, _⟩ := hr
    obtain ⟨rfl, _⟩ := hq
    exact hw.upd (x := (s, x)) (R := S (s, y)) (R' := Q (s, y)) (hw (s, y) (hi.sub _ hx2)) (fun y hy => Or.inr hy)
  | block p ih =>
    rintro Γ _ S S' Q Q' K L hf ⟨Γp, hp, rfl⟩ hi hj hw hr hq
    exact fun x hx => ih hf hp hi hj hw hr hq x ((wf_ctx hp).2.1 x hx)
  | call x p args r ih =>
    rintro Γ _ S S' Q Q' K L hf ⟨Γp, hp, hx, ha, hr', rfl⟩ hi hj hw hr hq
    simp only [runMI, bind_eq_ok, pure, Except.pure, Except.ok.injEq, Prod.mk.injEq, Prod.exists] at hr hq
    obtain ⟨S1, b, r1, rfl, rfl⟩ := hr
    obtain ⟨Q1, b, q1, rfl, rfl⟩ := hq
    have iS := minv_start (dbg := dbg) (disc := disc) (mframe_proper ha hi.prop)
    have iQ := minv_start (dbg := dbg) (disc := disc) (mframe_proper ha hj.prop)
    have w := ih hf hp iS iQ (mframe_sub ha fun a h => hw a (hi.sub a h)) r1 q1
    exact hw.upd (x := (r.1, x)) (w r ((mrun_step (p := p) (P := MFn.Iso) (Q := Each.Iso) hs (fun _ h => h.nonempt) hf hp iS r1).1.sub r hr')) (fun y hy => List.mem_cons.1 hy)
  | branch e p q ihp ihq =>
    rintro Γ _ S S' Q Q' K L hf ⟨he, Γp, Γq, hp, hq', rfl⟩ hi hj hw hr hq
    obtain ⟨c, hcS, S1, r1, nc, hncS, r2⟩ := runMI_branch hr
    obtain ⟨c', hcQ, Q1, q1, nc', hncQ, q2⟩ := runMI_branch hq
    have bstep : ∀ {A B A' B' : Env (Dm Ty vals)} {b b' : HCond Ty} {pol : Bool} {r : MProg Ty vals} {Γr : MCtx Ty vals},
        (∀ {Γ Γ' : MCtx Ty vals} {S S' Q Q' : Env (Dm Ty vals)} {K L : List (HCond Ty)}, r.All MFn.Iso Each.Iso →
          r.Wf Γ Γ' → MInv dbg disc Γ S K → MInv dbg disc Γ Q L → MSub Γ S Q →
          runMI dbg disc r S K = .ok (S', true) → runMI dbg disc r Q L = .ok (Q', true) → MSub Γ' S' Q') → r.All MFn.Iso Each.Iso →
        MInv dbg disc Γ A K → MInv dbg disc Γ A' L → MSub Γ A A' →
        (msgn (e, pol)).build dbg disc A = .ok b → (msgn (e, pol)).build dbg disc A' = .ok b' →
        r.Wf { Γ with conds := (e, pol) :: Γ.conds, outer := Γ.scope } Γr →
        (if BoolSet.possibly b.truth then runMI dbg disc r A (b :: K) else .ok (A, true)) = .ok (B, true) →
        (if BoolSet.possibly b'.truth then runMI dbg disc r A' (b' :: L) else .ok (A', true)) = .ok (B', true) → MSub Γ B B' := by
      intro A B A' B' b b' pol r Γr ih hfr hA hA' hww hb hb' hck h1 h2
      have hg := mbranch_step hs he hfr hA' hb' hck h2
      split at h1
      · next ht =>
        have ht' := mpossible_mono (ep := (e, pol)) he hA.prop hA'.prop (fun x hx => hww x (hA.sub x hx)) hb hb' ht
        rw [if_pos (show BoolSet.possibly b'.truth = true from ht')] at h2
        have := ih hfr hck (minv_push hA (ep := (e, pol)) he hb ht) (minv_push hA' (ep := (e, pol)) he hb' ht') hww h1 h2
        exact fun x hx => this x ((wf_ctx hck).2.1 x hx)
      · simp only [Except.ok.injEq, Prod.mk.injEq] at h1; obtain ⟨rfl, _⟩ := h1
        exact fun x hx v hv => hg.2.1.grow x hx v (hww x hx v hv)
    have hcS' : (msgn (e, true)).build dbg disc S = .ok c := hcS
    have hcQ' : (msgn (e, true)).build dbg disc Q = .ok c' := hcQ
    obtain ⟨i1, g1, k1⟩ := mbranch_step hs he hf.1 hi hcS' hp r1
    obtain ⟨j1, l1, m1⟩ := mbranch_step hs he hf.1 hj hcQ' hp q1
    have w1 := bstep ihp hf.1 hi hj hw hcS' hcQ' hp r1 q1
    have hcS1 : e.build dbg disc S1 = .ok c := by rw [mbuild_congr k1]; exact hcS
    have hcQ1 : e.build dbg disc Q1 = .ok c' := by rw [mbuild_congr m1]; exact hcQ
    exact bstep ihq hf.2 i1 j1 w1 ((mnot_build hcS1).1 hncS) ((mnot_build hcQ1).1 hncQ) hq' r2 q2
  | each f args body ih =>
    rintro Γ _ S S' Q Q' K L hf ⟨hy, E, hE, hbody, rfl⟩ hi hj hw hr hq
    simp only [runMI, bind_eq_ok] at hr hq
    obtain ⟨vs, hv, hr⟩ := hr
    obtain ⟨ws, hv', hq⟩ := hq
    have hsub := (hf.1 dbg _ _ vs ws (fun i => hi.prop _ (hy i)) (fun i => hw _ (hi.sub _ (hy i))) hv hv').2
    clear hv hv'
    -- one iteration
    have step : ∀ {v A B M}, MInv dbg disc Γ A M → runMI dbg disc (body v) A M = .ok (B, true) → MInv dbg disc Γ B M ∧ MGrow { Γ with outer := Γ.scope } A B := by
      intro v A B M hA h1
      obtain ⟨Γv, w1, w2⟩ := hbody v
      obtain ⟨j1, l1⟩ := mrun_step hs (fun _ h => h.nonempt) (hf.2 v) w1 (minv_loop hA) h1
      exact minv_pop (E := []) hA l1 j1 (wf_ctx w1).2.1
    have key : MSub Γ S' Q' := by
      induction hsub generalizing S Q with
      | slnil =>
        simp only [loopM, Except.ok.injEq, Prod.mk.injEq] at hr hq; obtain ⟨rfl, _⟩ := hr; obtain ⟨rfl, _⟩ := hq
        exact hw
      | cons w _ ihs =>
        obtain ⟨Q1, q1, q2⟩ := loopM_cons.1 hq
        obtain ⟨j1, g1⟩ := step hj q1
        exact ihs hi j1 (fun x hx v hv => g1.grow x hx v (hw x hx v hv)) hr q2
      | cons_cons w _ ihs =>
        obtain ⟨Q1, q1, q2⟩ := loopM_cons.1 hq
        obtain ⟨S1, r1, r2⟩ := loopM_cons.1 hr
        obtain ⟨Γv, w1, w2⟩ := hbody w
        have := ih w (hf.2 w) w1 (minv_loop hi) (minv_loop hj) hw r1 q1
        exact ihs (step hi r1).1 (step hj q1).1 (fun x hx => this x ((wf_ctx w1).2.1 x hx)) r2 q2
    exact key

/-- A program whose conditions are single comparisons does not fail on the narrower inputs if it does not fail on the wider ones. -/
theorem mrun_defined {dbg : Bool} {disc : σ → Bool} (hs : ∀ s, disc s = true → LawfulStep (Ty s)) : ∀ {p : MProg Ty vals} {Γ Γ' : MCtx Ty vals} {S Q Q' : Env (Dm Ty vals)}
    {K L : List (HCond Ty)}, p.All MFn.IsoDef Each.IsoDef → p.Single → (∀ c ∈ Γ.conds, c.1.single = true) → p.Wf Γ Γ' → MInv dbg disc Γ S K → MInv dbg disc Γ Q L → MSub Γ S Q →
    runMI dbg disc p Q L = .ok (Q', true) → ∃ S', runMI dbg disc p S K = .ok (S', true) := by
  intro p
  induction p with
  | skip => intro Γ Γ' S Q Q' K L _ _ _ _ _ _ _ _; exact ⟨S, rfl⟩
  | seq p q ihp ihq =>
    rintro Γ Γ' S Q Q' K L hf hsg hc ⟨Γ1, h1, h2⟩ hi hj hw hq
    simp only [runMI, bind_eq_ok, pure, Except.pure, Except.ok.injEq, Prod.mk.injEq, Bool.and_eq_true, Prod.exists] at hq
    obtain ⟨Q1, b1, q1, Q2, b2, q2, rfl, rfl, rfl⟩ := hq
    obtain ⟨S1, r1⟩ := ihp hf.1 hsg.1 hc h1 hi hj hw q1
    have hf1 := mall_mono (fun _ => Spec.MFn.IsoDef.iso) (fun _ => Spec.Each.IsoDef.iso) hf.1
    have w1 := mrun_iso hs hf1 h1 hi hj hw r1 q1
    obtain ⟨S2, r2⟩ := ihq hf.2 hsg.2 (by rw [(wf_ctx h1).1]; exact hc) h2 (mrun_step hs (fun _ h => h.nonempt) hf1 h1 hi r1).1
      (mrun_step hs (fun _ h => h.nonempt) hf1 h1 hj q1).1 w1 q2
    exact ⟨S2, by simp only [runMI, r1, r2, ok_bind, pure, Except.pure, Bool.and_self]⟩
  | decl x => intro Γ Γ' S Q Q' K L _ _ _ _ _ _ _ _; exact ⟨_, rfl⟩
  | letF x f args =>
    rintro Γ Γ' S Q Q' K L hf hsg hc ⟨hx, ha, rfl⟩ hi hj hw hq
    simp only [runMI, bind_eq_ok, pure, Except.pure, Except.ok.injEq, Prod.mk.injEq] at hq
    obtain ⟨R', hR', rfl, hpr'⟩ := hq
    obtain ⟨R, h1, h2, _⟩ := hf dbg (fun i => S (f.sig i, args i)) _ R' (fun i => hi.prop _ (ha i)) (fun i => hw _ (hi.sub _ (ha i))) hR' hpr'
    exact ⟨mupd S (f.res, x) R, by simp only [runMI, h1, h2, ok_bind, pure, Except.pure]⟩
  | constrain s x y k => intro Γ Γ' S Q Q' K L hf hsg hc h hi hj hw hq; exact mrun_total (p := .constrain s x y k) hs trivial trivial hc h hi
  | assignPartial s x y => intro Γ Γ' S Q Q' K L hf hsg hc h hi hj hw hq; exact mrun_total (p := .assignPartial s x y) hs trivial trivial hc h hi
  | assign s x y =>
    rintro Γ Γ' S Q Q' K L hf hsg hc ⟨hx1, hx2, hx3, hx4, rfl⟩ hi hj hw hq
    cases s with
    | set k => exact ⟨_, rfl⟩
    | ivl s =>
      simp only [runMI, bind_eq_ok, pure, Except.pure, Except.ok.injEq, Prod.mk.injEq] at hq
      obtain ⟨R', hR', rfl, _⟩ := hq
      obtain ⟨e, rfl⟩ := assignFree_ok (hj.clean _ hx1) hR'
      have e' : S (.ivl s, x) = Ivl.unassigned := (hi.clean _ hx1).resolve_left fun hp => unassigned_empty _ (e ▸ hw _ hx1 _ (lo_pt hp))
      have ha : Ivl.assigned (Ivl.unassigned : Ivl (Ty s)) = false := by
        simp only [Dm.assignFree, e] at hR'
        cases hh : Ivl.assigned (Ivl.unassigned : Ivl (Ty s)) with
        | false => rfl
        | true => simp only [Ivl.assignFree, hh] at hR'; cases hR'
      exact ⟨mupd S (.ivl s, x) (S (.ivl s, y)), by simp only [runMI, Dm.assignFree, Ivl.assignFree, e', ha, Bool.not_false, expects_true, ok_bind, pure, Except.pure, Ivl.resetIvl]⟩
  | reset s x y => intro Γ Γ' S Q Q' K L hf hsg hc h hi hj hw hq; exact ⟨_, rfl⟩
  | block p ih =>
    rintro Γ Γ' S Q Q' K L hf hsg hc ⟨Γp, hp, rfl⟩ hi hj hw hq
    exact ih hf hsg hc hp hi hj hw hq
  | call x p args r ih =>
    rintro Γ Γ' S Q Q' K L hf hsg hc ⟨Γp, hp, hx, ha, hr', rfl⟩ hi hj hw hq
    simp only [runMI, bind_eq_ok, pure, Except.pure, Except.ok.injEq, Prod.mk.injEq, Prod.exists] at hq
    obtain ⟨Q1, b, q1, rfl, rfl⟩ := hq
    obtain ⟨S1, r1⟩ := ih hf hsg (fun _ h => absurd h List.not_mem_nil) hp (minv_start (mframe_proper ha hi.prop)) (minv_start (mframe_proper ha hj.prop))
      (mframe_sub ha fun a h => hw a (hi.sub a h)) q1
    exact ⟨mupd S (r.1, x) (S1 r), by simp only [runMI, r1, ok_bind, pure, Except.pure]⟩
  | branch e p q ihp ihq =>
    rintro Γ Γ' S Q Q' K L hf hsg hc ⟨he, Γp, Γq, hp, hq', rfl⟩ hi hj hw hq
    obtain ⟨c', hcQ, Q1, q1, nc', hncQ, q2⟩ := runMI_branch hq
    obtain ⟨c, hb, w2, _⟩ := build_hwf (dbg := dbg) (disc := disc) hi.prop he
    obtain ⟨nc, hnc, _⟩ := mkNot_hwf dbg w2
    have hcs : ∀ pol, ∀ c ∈ (e, pol) :: Γ.conds, c.1.single = true := by
      intro pol c hc'
      rcases List.mem_cons.1 hc' with rfl | hc'
      exacts [hsg.1, hc c hc']
    -- one branch
    have step : ∀ {A A' B' : Env (Dm Ty vals)} {b b' : HCond Ty} {pol : Bool} {r : MProg Ty vals} {Γr : MCtx Ty vals},
        (∀ {Γ Γ' : MCtx Ty vals} {S Q Q' : Env (Dm Ty vals)} {K L : List (HCond Ty)}, r.All MFn.IsoDef Each.IsoDef → r.Single → (∀ c ∈ Γ.conds, c.1.single = true) →
          r.Wf Γ Γ' → MInv dbg disc Γ S K → MInv dbg disc Γ Q L → MSub Γ S Q → runMI dbg disc r Q L = .ok (Q', true) →
          ∃ S', runMI dbg disc r S K = .ok (S', true)) → r.All MFn.IsoDef Each.IsoDef → r.Single →
        MInv dbg disc Γ A K → MInv dbg disc Γ A' L → MSub Γ A A' →
        (msgn (e, pol)).build dbg disc A = .ok b → (msgn (e, pol)).build dbg disc A' = .ok b' →
        r.Wf { Γ with conds := (e, pol) :: Γ.conds, outer := Γ.scope } Γr →
        (if BoolSet.possibly b'.truth then runMI dbg disc r A' (b' :: L) else .ok (A', true)) = .ok (B', true) →
        ∃ B, (if BoolSet.possibly b.truth then runMI dbg disc r A (b :: K) else .ok (A, true)) = .ok (B, true) ∧ MInv dbg disc Γ B K ∧ MInv dbg disc Γ B' L ∧
          (∀ x, e.uses x = true → B x = A x) ∧ (∀ x, e.uses x = true → B' x = A' x) ∧ MSub Γ B B' := by
      intro A A' B' b b' pol r Γr ih hfr hsr hA hA' hww hb hb' hck h2
      have hfi := mall_mono (fun _ => Spec.MFn.IsoDef.iso) (fun _ => Spec.Each.IsoDef.iso) hfr
      have hg := mbranch_step hs he hfi hA' hb' hck h2
      by_cases ht : BoolSet.possibly b.truth = true
      · have ht' := mpossible_mono (ep := (e, pol)) he hA.prop hA'.prop (fun x hx => hww x (hA.sub x hx)) hb hb' ht
        rw [if_pos (show BoolSet.possibly b'.truth = true from ht')] at h2
        have i0 := minv_push hA (ep := (e, pol)) he hb ht
        have j0 := minv_push hA' (ep := (e, pol)) he hb' ht'
        obtain ⟨B, hB⟩ := ih hfr hsr (hcs pol) hck i0 j0 hww h2
        obtain ⟨i1, g1⟩ := mrun_step hs (fun _ h => h.nonempt) hfi hck i0 hB
        have w := mrun_iso hs hfi hck i0 j0 hww hB h2
        exact ⟨B, by rw [if_pos ht]; exact hB, (minv_pop (E := [_]) hA g1 i1 (wf_ctx hck).2.1).1, hg.1, fun x hx => g1.keep x ⟨_, List.mem_cons_self, hx⟩, hg.2.2,
          fun x hx => w x ((wf_ctx hck).2.1 x hx)⟩
      · exact ⟨A, by rw [if_neg ht], hA, hg.1, fun _ _ => rfl, hg.2.2, fun x hx v hv => hg.2.1.grow x hx v (hww x hx v hv)⟩
    have hb' : (msgn (e, true)).build dbg disc S = .ok c := hb
    have hcQ' : (msgn (e, true)).build dbg disc Q = .ok c' := hcQ
    obtain ⟨S1, r1, i1, j1, k1, m1, w1⟩ := step ihp hf.1 hsg.2.1 hi hj hw hb' hcQ' hp q1
    have hb1 : e.build dbg disc S1 = .ok c := by rw [mbuild_congr k1]; exact hb
    have hcQ1 : e.build dbg disc Q1 = .ok c' := by rw [mbuild_congr m1]; exact hcQ
    obtain ⟨S2, r2, _⟩ := step ihq hf.2 hsg.2.2 i1 j1 w1 ((mnot_build hb1).1 hnc) ((mnot_build hcQ1).1 hncQ) hq' q2
    refine ⟨S2, ?_⟩
    simp only [runMI, hb, ok_bind]
    by_cases h1 : BoolSet.possibly c.truth = true <;> by_cases h2 : BoolSet.possibly nc.truth = true <;>
    · simp only [h1, h2, if_true, if_false, Bool.false_eq_true, Except.ok.injEq, Prod.mk.injEq, and_true] at r1 r2 ⊢
      first
      | (subst r1; subst r2; simp only [hnc, h2, if_false, Bool.false_eq_true, ok_bind, pure, Except.pure, Bool.and_self])
      | (subst r1; simp only [hnc, h2, r2, if_true, ok_bind, pure, Except.pure, Bool.and_self])
      | (subst r2; simp only [r1, hnc, h2, if_false, Bool.false_eq_true, ok_bind, pure, Except.pure, Bool.and_self])
      | simp only [r1, hnc, h2, r2, if_true, ok_bind, pure, Except.pure, Bool.and_self]
  | each f args body ih =>
    rintro Γ Γ' S Q Q' K L hf hsg hc ⟨hy, E, hE, hbody, rfl⟩ hi hj hw hq
    simp only [runMI, bind_eq_ok] at hq
    obtain ⟨ws, hv', hq⟩ := hq
    obtain ⟨vs, hv, hne, hsub⟩ := hf.1 dbg (fun i => S (f.sig i, args i)) _ ws (fun i => hi.prop _ (hy i)) (fun i => hw _ (hi.sub _ (hy i))) hv'
    have hfi := fun v => mall_mono (fun _ => Spec.MFn.IsoDef.iso) (fun _ => Spec.Each.IsoDef.iso) (hf.2 v)
    have step : ∀ {v A B M}, MInv dbg disc Γ A M → runMI dbg disc (body v) A M = .ok (B, true) → MInv dbg disc Γ B M ∧ MGrow { Γ with outer := Γ.scope } A B := by
      intro v A B M hA h1
      obtain ⟨Γv, w1, w2⟩ := hbody v
      obtain ⟨j1, l1⟩ := mrun_step hs (fun _ h => h.nonempt) (hfi v) w1 (minv_loop hA) h1
      exact minv_pop (E := []) hA l1 j1 (wf_ctx w1).2.1
    have key : ∃ S', loopM (fun v S => runMI dbg disc (body v) S K) vs S = .ok (S', true) := by
      clear hv hv' hne
      induction hsub generalizing S Q with
      | slnil => exact ⟨S, rfl⟩
      | cons w _ ihs =>
        obtain ⟨Q1, q1, q2⟩ := loopM_cons.1 hq
        obtain ⟨j1, g1⟩ := step hj q1
        exact ihs hi j1 (fun x hx v hv => g1.grow x hx v (hw x hx v hv)) q2
      | cons_cons w _ ihs =>
        obtain ⟨Q1, q1, q2⟩ := loopM_cons.1 hq
        obtain ⟨Γv, w1, w2⟩ := hbody w
        obtain ⟨S1, r1⟩ := ih w (Γ := { Γ with outer := Γ.scope }) (hf.2 w) (hsg w) hc w1 (minv_loop hi) (minv_loop hj) hw q1
        have := mrun_iso hs (hfi w) w1 (minv_loop hi) (minv_loop hj) hw r1 q1
        obtain ⟨S2, r2⟩ := ihs (step hi r1).1 (step hj q1).1 (fun x hx => this x ((wf_ctx w1).2.1 x hx)) q2
        exact ⟨S2, loopM_cons.2 ⟨S1, r1, r2⟩⟩
    obtain ⟨S', h1⟩ := key
    exact ⟨S', by simp only [runMI, hv, ok_bind, h1]⟩

end Intervals
