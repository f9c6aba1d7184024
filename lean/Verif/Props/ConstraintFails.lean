import Verif.Props.Constraint
import Mathlib.Tactic.ByContra
/-!
# C18, C19, C21–C24: where `constrain` fails

The counterexamples of `Props/Constraint.lean` are instances of general facts, proved here for all operands: which part of the condition the
code ignores, and which values it loses.
-/
set_option linter.unusedSectionVars false
namespace Intervals.Props
open Intervals Intervals.Spec CppVal

section
variable {T : Type} [CppVal T]

/-- the valuation `ρ` with another value for the interval object `id` -/
def revalue (ρ : Nat → T) (id : Nat) (u : T) : Nat → T := fun n => if n = id then u else ρ n

private theorem val_free {id : Nat} {ρ : Nat → T} {u v : T} : ∀ {o : Operand T}, CExpr.AtId.at_ id (fun _ => False) o → Val ρ o v →
    Val (revalue ρ id u) o v
  | .scalar .., _, h => h
  | .anon .., _, h => h
  | .ident _ i X, hf, h => ⟨by rw [h.1, revalue, if_neg hf], h.2⟩

/-- an expression without `id` does not depend on the value of `id` -/
private theorem evE_free {id : Nat} {ρ : Nat → T} {u : T} (e : CExpr T) : ∀ {b : Bool}, e.Free id → EvE ρ e b → EvE (revalue ρ id u) e b := by
  induction e with
  | plain s => exact fun _ h => h
  | cmp op l r => rintro b hf ⟨v, w, h1, h2, h3⟩; exact ⟨v, w, val_free hf.1 h1, val_free hf.2 h2, h3⟩
  | and e f ihe ihf => rintro b hf ⟨p, q, h1, h2, h3⟩; exact ⟨p, q, ihe hf.1 h1, ihf hf.2 h2, h3⟩
  | or e f ihe ihf => rintro b hf ⟨p, q, h1, h2, h3⟩; exact ⟨p, q, ihe hf.1 h1, ihf hf.2 h2, h3⟩
  | not e ih => intro b hf h; exact ih (b := !b) hf h

private theorem val_some {id : Nat} {ρ : Nat → T} {x : Ivl T} {u v : T} (hu : u ∈ᵢ x) : ∀ {o : Operand T}, CExpr.AtId.at_ id (fun X => X = x) o →
    Val ρ o v → ∃ w, Val (revalue ρ id u) o w
  | .scalar .., _, h => ⟨v, h⟩
  | .anon .., _, h => ⟨v, h⟩
  | .ident _ i X, hf, h => by
    by_cases e : i = id
    · exact ⟨u, by simp [revalue, e], by rw [hf e]; exact hu⟩
    · exact ⟨v, by rw [h.1, revalue, if_neg e], h.2⟩

/-- an expression formed from the current bounds of `id` has a truth value for every value of `id` -/
private theorem evE_some {id : Nat} {ρ : Nat → T} {x : Ivl T} {u : T} (hu : u ∈ᵢ x) : ∀ {e : CExpr T} {b : Bool}, e.Current id x → EvE ρ e b →
    ∃ b', EvE (revalue ρ id u) e b'
  | .plain _, b, _, h => ⟨b, h⟩
  | .cmp op _ _, _, hf, ⟨v, w, h1, h2, h3⟩ => by
    obtain ⟨v', h1⟩ := val_some hu hf.1 h1
    obtain ⟨w', h2⟩ := val_some hu hf.2 h2
    exact ⟨op.eval v' w', v', w', h1, h2, rfl⟩
  | .and .., _, hf, ⟨p, q, h1, h2, h3⟩ => by
    obtain ⟨p, h1⟩ := evE_some hu hf.1 h1
    obtain ⟨q, h2⟩ := evE_some hu hf.2 h2
    exact ⟨_, p, q, h1, h2, rfl⟩
  | .or .., _, hf, ⟨p, q, h1, h2, h3⟩ => by
    obtain ⟨p, h1⟩ := evE_some hu hf.1 h1
    obtain ⟨q, h2⟩ := evE_some hu hf.2 h2
    exact ⟨_, p, q, h1, h2, rfl⟩
  | .not e, _, hf, h => by
    obtain ⟨b, h⟩ := evE_some (e := e) hu hf h
    exact ⟨!b, by simpa only [EvE, Bool.not_not] using h⟩

private theorem not_mentions {d dbg : Bool} {id : Nat} : ∀ {c c' : Cond T}, Cond.mkNot dbg c = .ok c' → ¬ Mentions d id c → ¬ Mentions d id c' := by
  intro c
  induction c with
  | plain s => intro c' h _; simp only [Cond.mkNot, bind_eq_ok, pure, Except.pure] at h; obtain ⟨_, _, h⟩ := h; cases h; simp [Mentions]
  | leq s l r => intro c' h hm; simp only [Cond.mkNot, bind_eq_ok, pure, Except.pure] at h; obtain ⟨_, _, h⟩ := h; cases h; exact fun h => hm h.symm
  | less s l r => intro c' h hm; simp only [Cond.mkNot, bind_eq_ok, pure, Except.pure] at h; obtain ⟨_, _, h⟩ := h; cases h; exact fun h => hm h.symm
  | equal s l r => intro c' h hm; simp only [Cond.mkNot, bind_eq_ok, pure, Except.pure] at h; obtain ⟨_, _, h⟩ := h; cases h; exact hm
  | notEqual s l r => intro c' h hm; simp only [Cond.mkNot, bind_eq_ok, pure, Except.pure] at h; obtain ⟨_, _, h⟩ := h; cases h; exact hm
  | conj s l r ihl ihr | disj s l r ihl ihr =>
    intro c' h hm
    simp only [Mentions, not_or] at hm
    simp only [Cond.mkNot, bind_eq_ok] at h
    obtain ⟨_, _, h⟩ := h
    split at h
    · simp only [bind_eq_ok, pure, Except.pure] at h
      obtain ⟨a, h1, b, h2, h3⟩ := h
      cases h3
      exact not_or.mpr ⟨ihl h1 hm.1, ihr h2 hm.2⟩
    · cases h; simp [Mentions]

private theorem free_op {d : Bool} {id : Nat} : ∀ {o : Operand T}, CExpr.AtId.at_ id (fun _ => False) o → o.matchesId d id = false
  | .scalar .., _ => rfl
  | .anon .., _ => rfl
  | .ident _ i _, h => by simp only [Operand.matchesId, Bool.and_eq_false_iff, beq_eq_false_iff_ne]; exact Or.inr (fun e => h e.symm)

/-- a condition built from an expression without `id` does not mention it -/
theorem free_mentions {d dbg : Bool} {id : Nat} : ∀ {e : CExpr T} {c : Cond T}, e.Free id → e.build dbg = .ok c → ¬ Mentions d id c
  | .plain _, c, _, h => by cases h; simp [Mentions]
  | .cmp op l r, c, hf, h => by
    have h1 := free_op (d := d) hf.1
    have h2 := free_op (d := d) hf.2
    cases op <;> simp only [CExpr.build, buildCmp, condEq, condNe, condLt, condLe, condGt, condGe, bind_eq_ok, pure, Except.pure] at h <;>
      (obtain ⟨_, _, h⟩ := h; cases h; simp [Mentions, h1, h2])
  | .and e f, c, hf, h => by
    simp only [CExpr.build, bind_eq_ok, pure, Except.pure] at h
    obtain ⟨a, h1, b, h2, h3⟩ := h
    cases h3
    unfold Cond.mkAnd
    dsimp only
    split
    · exact not_or.mpr ⟨free_mentions hf.1 h1, free_mentions hf.2 h2⟩
    · exact fun h => h
  | .or e f, c, hf, h => by
    simp only [CExpr.build, bind_eq_ok, pure, Except.pure] at h
    obtain ⟨a, h1, b, h2, h3⟩ := h
    cases h3
    unfold Cond.mkOr
    dsimp only
    split
    · exact not_or.mpr ⟨free_mentions hf.1 h1, free_mentions hf.2 h2⟩
    · exact fun h => h
  | .not e, c, hf, h => by
    simp only [CExpr.build, bind_eq_ok] at h
    obtain ⟨a, h1, h2⟩ := h
    exact not_mentions h2 (free_mentions (e := e) hf h1)
end

section
variable {T : Type} [CppVal T] [CppOrder T] [CppStep T]

omit [CppOrder T] [CppStep T] in
/-- what `constrain` looks at is part of the condition -/
theorem mentions_of_seen {d : Bool} {id : Nat} (c : Cond T) : Mentions d id (seen c) → Mentions d id c := by
  induction c using tree_induction with
  | hp s => exact fun h => h
  | hl c hl => rw [seen_leaf hl]; exact fun h => h
  | hc s l r ihl ihr =>
    have hf : ∀ c : Cond T, Mentions d id c.flat → Mentions d id c := by
      intro c h
      cases c with
      | disj s l r => exact absurd h (fun h => h)
      | _ => exact h
    rw [seen_conj]
    exact fun h => h.imp (fun h => hf l (ihl h)) (fun h => hf r (ihr h))
  | hd s l r ihl ihr => exact fun h => h.imp ihl ihr

/-- A condition that does not mention `x` leaves it as it is. -/
theorem unmentioned_eq {dbg d : Bool} {id : Nat} {x : Ivl T} (hx : Proper x) (c : Cond T) : ¬ Mentions d id (seen c) →
    ∀ f o, (c.isDisj = true → o = true) → detailConstrain dbg d id x c f o = .ok (x, f && !c.isDisj) := by
  induction c using tree_induction with
  | hp s => intro _ f o _; simp [detailConstrain, Cond.isDisj]
  | hl c hl =>
    intro hm f o _
    have hd : c.isDisj = false := by cases c <;> first | rfl | simp [Cond.isLeaf] at hl
    rw [seen_leaf hl] at hm
    rw [leaf_eq hl, if_neg hm, hd]; simp
  | hc s l r ihl ihr =>
    intro hm f o _
    rw [seen_conj] at hm
    simp only [Mentions, not_or] at hm
    unfold Proper at hx
    simp only [detail_conj, ihl hm.1 f o (by simp [flat_isDisj]), ok_bind, ihr hm.2 _ o (by simp [flat_isDisj]), flat_isDisj, Bool.not_false,
      Bool.and_true, show (Cond.conj s l r).isDisj = false from rfl]
    split
    · rw [show (ge x.hi x.lo && le x.lo x.hi) = true by grind, show cmax x.lo x.lo = x.lo by simp [cmax], show cmin x.hi x.hi = x.hi by simp [cmin],
        make_of_le hx]
      simp [pure, Except.pure]
    · rfl
  | hd s l r ihl ihr =>
    intro hm f o ho
    simp only [seen, Mentions, not_or] at hm
    simp [detailConstrain, ihl hm.1 false true (fun _ => rfl), ihr hm.2 false true (fun _ => rfl), ho rfl, pure, Except.pure,
      show (Cond.disj s l r).isDisj = true from rfl]

private theorem mentioned_isCond {d : Bool} {id : Nat} {c : Cond T} (h : Mentions d id c) : c.isCond = true := by
  cases c <;> first | rfl | exact absurd h (fun h => h)

theorem constrain_ok_seen {dbg d : Bool} {id : Nat} {x R : Ivl T} {c : Cond T} (h : constrain dbg d id x c = .ok R) :
    detailConstrain dbg d id x c false false = .ok (R, true) ∧ Mentions d id (seen c) := by
  have hm : Mentions d id (seen c) := by
    by_contra hm
    rw [C21_unmentioned dbg d id x c hm] at h; cases h
  simp only [constrain, bind_eq_ok] at h
  obtain ⟨⟨R', f⟩, h4, u, h5, h6⟩ := h
  simp only [pure, Except.pure, Except.ok.injEq] at h6
  subst h6
  cases f
  · cases h5
  · exact ⟨h4, hm⟩

private theorem constrain_of {dbg d : Bool} {id : Nat} {x R : Ivl T} {c : Cond T} (h : detailConstrain dbg d id x c false false = .ok (R, true)) :
    constrain dbg d id x c = .ok R := by simp [constrain, h, pure, Except.pure]

private theorem selfOperands_eq {d : Bool} {id : Nat} {P Q : Operand T → Prop} (h : ∀ o, P o → Q o) : ∀ {c : Cond T}, SelfOperands d id P c →
    EqOperands d id Q c
  | .plain _, _ | .leq .., _ | .less .., _ => trivial
  | .equal .., g | .notEqual .., g => ⟨fun e => h _ (g.1 e), fun e => h _ (g.2 e)⟩
  | .conj .., g | .disj .., g => ⟨selfOperands_eq h g.1, selfOperands_eq h g.2⟩

/-! ## C18 -/

/-- `constrain(x, e | f)` ignores `f` if `f` does not mention `x`: it returns what `constrain(x, e)` returns
(detail/interval.hpp:647–676). -/
theorem C18_ignored (dbg d : Bool) (id : Nat) (x R : Ivl T) (e f : CExpr T) (ce c : Cond T) (hx : Proper x) (hf : f.Free id)
    (hce : e.build dbg = .ok ce) (hc : (CExpr.or e f).build dbg = .ok c) (ht : BoolSet.contains ce.truth true = true)
    (hcf : BoolSet.contains c.truth true = true) (hR : constrain dbg d id x ce = .ok R) : constrain dbg d id x c = .ok R := by
  obtain ⟨h1, hm⟩ := constrain_ok_seen hR
  simp only [CExpr.build, bind_eq_ok, pure, Except.pure] at hc
  obtain ⟨a, ha, cf, hb, h3⟩ := hc
  rw [hce] at ha; cases ha
  cases h3
  have hmf : ¬ Mentions d id (seen cf) := fun h => free_mentions (d := d) hf hb (mentions_of_seen _ h)
  have h2 := unmentioned_eq (dbg := dbg) hx cf hmf false true (fun _ => rfl)
  have hi := mentioned_isCond (mentions_of_seen _ hm)
  unfold Cond.mkOr at hcf ⊢
  simp only [hi, Bool.true_or, if_true, Cond.truth] at hcf ⊢
  apply constrain_of
  simp [detailConstrain, detail_optional _ _ _ h1, h2, hcf, BoolSet.possibly, ht, pure, Except.pure]

/-- C18 fails for every such disjunction: whenever `constrain(x, e)` removes a value `u` of `x`, and `f` is satisfiable, then `constrain(x, e | f)`
removes `u` too, although the condition is satisfied with that value. -/
theorem C18_fails (dbg d : Bool) (id : Nat) (x R : Ivl T) (e f : CExpr T) (ce c : Cond T) (ρ : Nat → T) (b : Bool) (u : T) (hf : f.Free id)
    (hcur : e.Current id x) (hpe : e.Proper) (hpf : f.Proper) (hce : e.build dbg = .ok ce) (hc : (CExpr.or e f).build dbg = .ok c)
    (ht : BoolSet.contains ce.truth true = true) (hR : constrain dbg d id x ce = .ok R) (hev : EvE ρ e b) (hsat : EvE ρ f true)
    (hu : u ∈ᵢ x) (hlost : ¬ u ∈ᵢ R) :
    constrain dbg d id x c = .ok R ∧ EvE (revalue ρ id u) (.or e f) true ∧ revalue ρ id u id ∈ᵢ x ∧ ¬ revalue ρ id u id ∈ᵢ R := by
  have hx : Proper x := by unfold Pt Proper at *; grind
  obtain ⟨b', hb'⟩ := evE_some hu hcur hev
  have hE : EvE (revalue ρ id u) (.or e f) true := ⟨b', true, hb', evE_free f hf hsat, by simp⟩
  have hid : revalue ρ id u id = u := by simp [revalue]
  refine ⟨C18_ignored dbg d id x R e f ce c hx hf hce hc ht (C22_truth_set dbg (.or e f) c _ true ⟨hpe, hpf⟩ hc hE) hR, hE, ?_, ?_⟩
  · rw [hid]; exact hu
  · rw [hid]; exact hlost

/-! ## C19 -/

/-- `constrain(x, c)` with a condition `c` formed as `x == y` while `x` had the bounds `x₀` returns the intersection of `x₀` and `y`, whatever the
bounds of `x` are now (detail/interval.hpp:541–572). -/
theorem C19_stale (dbg d : Bool) (id : Nat) (x x₀ : Ivl T) (y : Operand T) (w : T) (hx : Proper x₀) (hy : ProperA y.arg)
    (hw : w ∈ᵢ x₀ ∧ w ∈ₐ y.arg) : ∃ c R, (CExpr.cmp .eq (.ident d id x₀) y).build dbg = .ok c ∧ constrain dbg d id x c = .ok R ∧
      (∀ v, v ∈ᵢ R ↔ v ∈ᵢ x₀ ∧ v ∈ₐ y.arg) := by
  have a1 : (Operand.ident d id x₀).arg.assigned = true := properA_assigned (A := .ivl x₀) hx
  have a2 := properA_assigned hy
  have p2 := properA_le hy
  obtain ⟨w1, w2⟩ := hw
  rw [ptA_iff] at w2
  unfold Pt Proper at *
  have hm : Mentions d id (.equal (compareEq (.ivl x₀) y.arg) (.ident d id x₀) y) := Or.inl (self_match d id x₀)
  have ht : BoolSet.contains (compareEq (.ivl x₀) y.arg) true = true := by
    simp only [contains_eq, if_true, ivl_lo, ivl_hi]; grind
  refine ⟨.equal (compareEq (.ivl x₀) y.arg) (.ident d id x₀) y, ⟨cmax x₀.lo y.arg.lo, cmin x₀.hi y.arg.hi⟩,
    by simp [CExpr.build, buildCmp, condEq, opEq, a1, a2, pure, Except.pure]; rfl, ?_, fun v => ?_⟩
  · rw [leaf_constrain _ rfl hm ht]
    simp only [narrow, self_lo, self_hi]
    rw [show (ge y.arg.hi x₀.lo && le y.arg.lo x₀.hi) = true by grind, make_of_le (by grind)]
    simp
  · rw [ptA_iff]; simp only; grind

/-- C19 fails for every condition `x == y` used after `x` has lost a value that the condition allows. -/
theorem C19_fails (dbg d : Bool) (id : Nat) (x x₀ : Ivl T) (y : Operand T) (w : T) (hx : Proper x₀) (hy : ProperA y.arg)
    (hw : w ∈ᵢ x₀ ∧ w ∈ₐ y.arg) (hlost : ¬ w ∈ᵢ x) : ∃ c R, (CExpr.cmp .eq (.ident d id x₀) y).build dbg = .ok c ∧
      constrain dbg d id x c = .ok R ∧ w ∈ᵢ R ∧ ¬ w ∈ᵢ x := by
  obtain ⟨c, R, h1, h2, h3⟩ := C19_stale dbg d id x x₀ y w hx hy hw
  exact ⟨c, R, h1, h2, (h3 w).mpr hw, hlost⟩

/-! ## C21 -/

omit [CppOrder T] [CppStep T] in
/-- `f | g` is a disjunction unless both are `bool` or `set<bool>`. -/
theorem build_or_isDisj {dbg : Bool} {f g : CExpr T} {c : Cond T} (hb : (CExpr.or f g).build dbg = .ok c)
    (hcond : ∀ cf cg, f.build dbg = .ok cf → g.build dbg = .ok cg → cf.isCond = true ∨ cg.isCond = true) : c.isDisj = true := by
  simp only [CExpr.build, bind_eq_ok, pure, Except.pure] at hb
  obtain ⟨cf, h1, cg, h2, h3⟩ := hb
  cases h3
  have hi : (cf.isCond || cg.isCond) = true := by rcases hcond cf cg h1 h2 with h | h <;> simp [h]
  simp [Cond.mkOr, hi, Cond.isDisj]

/-- `constrain(x, (f | g) & e)` and `constrain(x, e & (f | g))` always violate a contract if `e` does not mention `x`, whatever `f` and `g` say about
`x`: the disjunction is not looked at (detail/interval.hpp:628–646). -/
theorem C21_hidden_fails (dbg d : Bool) (id : Nat) (x : Ivl T) (e f g : CExpr T) (c : Cond T) (he : e.Free id)
    (hcond : ∀ cf cg, f.build dbg = .ok cf → g.build dbg = .ok cg → cf.isCond = true ∨ cg.isCond = true)
    (hb : (CExpr.and (.or f g) e).build dbg = .ok c ∨ (CExpr.and e (.or f g)).build dbg = .ok c) : constrain dbg d id x c = .error .contract := by
  apply C21_unmentioned
  have key : ∀ ca cb : Cond T, ca.isDisj = true → e.build dbg = .ok cb → ¬ Mentions d id (seen ca.flat) ∧ ¬ Mentions d id (seen cb.flat) ∧ ca.isCond = true := by
    intro ca cb h1 h2
    have h3 := free_mentions (d := d) he h2
    refine ⟨?_, fun h => h3 ?_, ?_⟩
    · cases ca <;> simp [Cond.isDisj] at h1
      simp [Cond.flat, seen, Mentions]
    · have := mentions_of_seen _ h
      cases cb with
      | disj s l r => exact absurd this (fun h => h)
      | _ => exact this
    · cases ca <;> simp [Cond.isDisj] at h1
      rfl
  rcases hb with hb | hb <;> unfold CExpr.build at hb <;> simp only [bind_eq_ok, pure, Except.pure] at hb <;> obtain ⟨ca, h1, cb, h2, h3⟩ := hb <;>
    cases h3 <;> unfold Cond.mkAnd <;> dsimp only
  · obtain ⟨k1, k2, k3⟩ := key _ _ (build_or_isDisj h1 hcond) h2
    simp only [k3, Bool.true_or, if_true, seen_conj]
    exact not_or.mpr ⟨k1, k2⟩
  · obtain ⟨k1, k2, k3⟩ := key _ _ (build_or_isDisj h2 hcond) h1
    simp only [k3, Bool.or_true, if_true, seen_conj]
    exact not_or.mpr ⟨k2, k1⟩

/-- The bounds that `constrain` computes do not depend on the flag. -/
private theorem flag_indep {dbg d : Bool} {id : Nat} {x : Ivl T} (c : Cond T) (f g o : Bool) (R : Ivl T) (f' : Bool)
    (h : detailConstrain dbg d id x c f o = .ok (R, f')) : ∃ g', detailConstrain dbg d id x c g o = .ok (R, g') := by
  rw [detail_flag_eq, bind_eq_ok] at h
  obtain ⟨p, h1, h2⟩ := h
  rw [detail_flag_eq, h1]
  cases h2
  exact ⟨_, rfl⟩

/-- If two conditions other than disjunctions leave disjoint parts of `x`, then `constrain(x, (e₁ & e₂) | f)` violates a contract, whatever `f` is
(detail/interval.hpp:628–646 inside 647–676). -/
theorem C21_conj_fails (dbg d : Bool) (id : Nat) (x R₁ R₂ : Ivl T) (e₁ e₂ f : CExpr T) (c₁ c₂ c : Cond T) (hp₁ : e₁.Proper) (hp₂ : e₂.Proper)
    (hd₁ : c₁.isDisj = false) (hd₂ : c₂.isDisj = false)
    (hc₁ : e₁.build dbg = .ok c₁) (hc₂ : e₂.build dbg = .ok c₂) (hc : (CExpr.or (.and e₁ e₂) f).build dbg = .ok c)
    (ht₁ : BoolSet.contains c₁.truth true = true) (ht₂ : BoolSet.contains c₂.truth true = true)
    (hR₁ : constrain dbg d id x c₁ = .ok R₁) (hR₂ : constrain dbg d id x c₂ = .ok R₂)
    (hprop : Proper R₁ ∧ Proper R₂) (hdis : lt R₁.hi R₂.lo = true ∨ lt R₂.hi R₁.lo = true) : constrain dbg d id x c = .error .contract := by
  obtain ⟨h1, hm⟩ := constrain_ok_seen hR₁
  obtain ⟨h2, _⟩ := constrain_ok_seen hR₂
  obtain ⟨_, g1, w1, _⟩ := build_wf (dbg := dbg) e₁ hp₁
  rw [hc₁] at g1; cases g1
  obtain ⟨_, g1, w2, _⟩ := build_wf (dbg := dbg) e₂ hp₂
  rw [hc₂] at g1; cases g1
  obtain ⟨g', h2⟩ := flag_indep _ _ true _ _ _ h2
  simp only [CExpr.build, hc₁, hc₂, ok_bind, bind_eq_ok, pure, Except.pure, Except.ok.injEq] at hc
  obtain ⟨cf, h3, h4⟩ := hc
  have hi := mentioned_isCond (mentions_of_seen _ hm)
  have ha : Cond.mkAnd c₁ c₂ = .conj (BoolSet.and c₁.truth c₂.truth) c₁ c₂ := by simp [Cond.mkAnd, hi]
  rw [ha] at h4
  simp only [Cond.mkOr, Cond.isCond, Bool.true_or, if_true] at h4
  subst h4
  have ht : BoolSet.contains (BoolSet.and c₁.truth c₂.truth) true = true := by
    rw [contains_and_true _ _ w1.truth_ne w2.truth_ne, ht₁, ht₂]; rfl
  obtain ⟨p1, p2⟩ := hprop
  unfold Proper at p1 p2
  have e1 : (ge R₁.hi R₂.lo && le R₁.lo R₂.hi) = false := by grind
  have e2 : Ivl.make (cmax R₁.lo R₂.lo) (cmin R₁.hi R₂.hi) = .error .contract := by
    rcases make_contract (cmax R₁.lo R₂.lo) (cmin R₁.hi R₂.hi) with ⟨R, h⟩ | h
    · rw [make_eq_ok] at h; grind
    · exact h
  simp only [constrain, detailConstrain, hd₁, hd₂, Bool.false_eq_true, if_false, detail_optional _ _ _ h1, detail_optional _ _ _ h2, ok_bind, ht, if_true,
    e1, e2]
  cases dbg
  · simp only [expectsDebug_release, ok_bind, error_bind]
  · rfl

/-! ## C22 -/

private theorem not_and_plain {dbg : Bool} {a b c : Cond T} (hp : (a.isCond && b.isCond) = false) (h : Cond.mkNot dbg (Cond.mkAnd a b) = .ok c) :
    ∃ t, c = .plain t := by
  unfold Cond.mkAnd at h
  dsimp only at h
  split at h
  · simp only [Cond.mkNot, hp, Bool.false_eq_true, if_false, bind_eq_ok, pure, Except.pure, Except.ok.injEq] at h
    obtain ⟨t, _, rfl⟩ := h; exact ⟨t, rfl⟩
  · simp only [Cond.mkNot, bind_eq_ok, pure, Except.pure, Except.ok.injEq] at h
    obtain ⟨t, _, rfl⟩ := h; exact ⟨t, rfl⟩
private theorem not_or_plain {dbg : Bool} {a b c : Cond T} (hp : (a.isCond && b.isCond) = false) (h : Cond.mkNot dbg (Cond.mkOr a b) = .ok c) :
    ∃ t, c = .plain t := by
  unfold Cond.mkOr at h
  dsimp only at h
  split at h
  · simp only [Cond.mkNot, hp, Bool.false_eq_true, if_false, bind_eq_ok, pure, Except.pure, Except.ok.injEq] at h
    obtain ⟨t, _, rfl⟩ := h; exact ⟨t, rfl⟩
  · simp only [Cond.mkNot, bind_eq_ok, pure, Except.pure, Except.ok.injEq] at h
    obtain ⟨t, _, rfl⟩ := h; exact ⟨t, rfl⟩

/-- `!(e & s)` and `!(e | s)` with a `bool` or `set<bool>` `s` never carry a constraint, whatever `e` is: constraining any interval with them
violates a contract (detail/interval.hpp:397–432). -/
theorem C22_fails (dbg d : Bool) (id : Nat) (x : Ivl T) (e : CExpr T) (s : BoolSet) (c : Cond T)
    (h : (CExpr.not (.and e (.plain s))).build dbg = .ok c ∨ (CExpr.not (.and (.plain s) e)).build dbg = .ok c ∨
      (CExpr.not (.or e (.plain s))).build dbg = .ok c ∨ (CExpr.not (.or (.plain s) e)).build dbg = .ok c) :
    (∃ t, c = .plain t) ∧ constrain dbg d id x c = .error .contract := by
  have key : ∃ t, c = .plain t := by
    simp only [CExpr.build, ok_bind, bind_eq_ok, pure, Except.pure, Except.ok.injEq] at h
    rcases h with ⟨_, ⟨ce, _, rfl⟩, h⟩ | ⟨_, ⟨ce, _, rfl⟩, h⟩ | ⟨_, ⟨ce, _, rfl⟩, h⟩ | ⟨_, ⟨ce, _, rfl⟩, h⟩
    · exact not_and_plain (by simp [Cond.isCond]) h
    · exact not_and_plain (by simp [Cond.isCond]) h
    · exact not_or_plain (by simp [Cond.isCond]) h
    · exact not_or_plain (by simp [Cond.isCond]) h
  obtain ⟨t, rfl⟩ := key
  exact ⟨⟨t, rfl⟩, C21_unmentioned dbg d id x _ (fun h => h)⟩
end

/-! ## C24 -/

section
variable {K : Type} [Field K] [LinearOrder K] [IsStrictOrderedRing K]

/-- What `constrain(x, x < k)` and `constrain(x, k > x)` do for an interval of floating-point type and an integral scalar `k`
(detail/interval.hpp:257–269, 491–540): the upper bound becomes `k - 1`. -/
theorem C24_lt (dbg left : Bool) (id : Nat) (x : Ivl (Fl K)) (k : K) (hx : Proper x) (hk : lt x.lo (.num k) = true) :
    ∃ c, (single (if left then .lt else .gt) left false id x (.scalar true (.num k))).build dbg = .ok c ∧
      constrain dbg false id x c = if le x.lo (.num (k - 1)) then .ok ⟨x.lo, cmin x.hi (.num (k - 1))⟩ else .error .contract := by
  have a1 : x.assigned = true := properA_assigned (A := .ivl x) hx
  refine ⟨.less (compareLt (.ivl x) (.scalar (.num k))) (.ident false id x) (.scalar true (.num k)), ?_, ?_⟩
  · cases left <;> simp [single, CExpr.build, buildCmp, condLt, condGt, opLt, opGt, Operand.arg, Arg.assigned, a1, pure, Except.pure]
  · have hm : Mentions false id (.less (compareLt (.ivl x) (.scalar (.num k))) (.ident false id x) (.scalar true (.num k))) := Or.inl (self_match false id x)
    have ht : BoolSet.contains (compareLt (.ivl x) (.scalar (.num k))) true = true := by rw [contains_lt]; exact hk
    rw [leaf_constrain _ rfl hm ht]
    simp only [narrow, self_match, if_true, Operand.arg, Operand.disc, Arg.hi, hk, expectsDebug_true, ok_bind, predStep, CppStep.pred]
    unfold Proper at hx
    split
    · rw [make_of_le (by grind)]
    · rcases make_contract x.lo (cmin x.hi (.num (k - 1))) with ⟨R, h⟩ | h
      · rw [make_eq_ok] at h
        exfalso
        have n1 : le (Fl.num (k - 1)) (Fl.num (k - 1)) = true := by simp
        grind
      · exact h

/-- What `constrain(x, k < x)` and `constrain(x, x > k)` do: the lower bound becomes `k + 1`. -/
theorem C24_gt (dbg left : Bool) (id : Nat) (x : Ivl (Fl K)) (k : K) (hx : Proper x) (hk : lt (.num k) x.hi = true) :
    ∃ c, (single (if left then .gt else .lt) left false id x (.scalar true (.num k))).build dbg = .ok c ∧
      constrain dbg false id x c = if le (.num (k + 1)) x.hi then .ok ⟨cmax (.num (k + 1)) x.lo, x.hi⟩ else .error .contract := by
  have a1 : x.assigned = true := properA_assigned (A := .ivl x) hx
  refine ⟨.less (compareLt (.scalar (.num k)) (.ivl x)) (.scalar true (.num k)) (.ident false id x), ?_, ?_⟩
  · cases left <;> simp [single, CExpr.build, buildCmp, condLt, condGt, opLt, opGt, Operand.arg, Arg.assigned, a1, pure, Except.pure]
  · have hm : Mentions false id (.less (compareLt (.scalar (.num k)) (.ivl x)) (.scalar true (.num k)) (.ident false id x)) := Or.inr (self_match false id x)
    have ht : BoolSet.contains (compareLt (.scalar (.num k)) (.ivl x)) true = true := by rw [contains_lt]; exact hk
    rw [leaf_constrain _ rfl hm ht]
    simp only [narrow, Operand.matchesId, Bool.false_eq_true, if_false, Operand.arg, Operand.disc, Arg.lo, hk, expectsDebug_true, ok_bind, succStep, CppStep.succ, if_true]
    unfold Proper at hx
    split
    · rw [make_of_le (by grind)]
    · rcases make_contract (cmax (.num (k + 1)) x.lo) x.hi with ⟨R, h⟩ | h
      · rw [make_eq_ok] at h
        exfalso
        have n1 : le (Fl.num (k + 1)) (Fl.num (k + 1)) = true := by simp
        grind
      · exact h

private theorem step_lt (k : K) : lt (Fl.num (k - 1)) (Fl.num k) = true ∧ lt (Fl.num k) (Fl.num (k + 1)) = true := by
  constructor <;> (rw [CppOrder.lt_iff]; simp)

/-- C24 for `x < k` and `k > x` holds if and only if `x` has no value strictly between `k - 1` and `k`. -/
theorem C24_lt_iff (dbg left : Bool) (id : Nat) (x : Ivl (Fl K)) (k : K) (hx : Proper x) :
    (∀ u, Satisfies (if left then .lt else .gt) left x (.scalar (.num k)) u →
      ∃ c R, (single (if left then .lt else .gt) left false id x (.scalar true (.num k))).build dbg = .ok c ∧ constrain dbg false id x c = .ok R ∧ u ∈ᵢ R) ↔
    ¬ ∃ u, u ∈ᵢ x ∧ lt (.num (k - 1)) u = true ∧ lt u (.num k) = true := by
  have hst := (step_lt k).1
  have hsat : ∀ u, Satisfies (if left then .lt else .gt) left x (.scalar (.num k)) u ↔ u ∈ᵢ x ∧ lt u (.num k) = true := by
    intro u
    have nk : le (Fl.num k) (Fl.num k) = true := by simp
    unfold Satisfies PtA
    cases left <;> simp only [if_true, if_false, Bool.false_eq_true, CmpOp.eval, CppVal.gt] <;>
      refine ⟨fun ⟨h1, y, ⟨h2, h3⟩, h4⟩ => ⟨h1, by grind⟩, fun h => ⟨h.1, .num k, ⟨nk, nk⟩, h.2⟩⟩
  simp only [hsat]
  constructor
  · rintro h ⟨u, h1, h2, h3⟩
    obtain ⟨c, R, g1, g2, g3⟩ := h u ⟨h1, h3⟩
    unfold Pt at *
    obtain ⟨c', g4, g5⟩ := C24_lt dbg left id x k hx (by grind)
    rw [g1] at g4; cases g4
    rw [g2] at g5
    split at g5
    · cases g5; simp only at g3; grind
    · cases g5
  · rintro h u ⟨h1, h2⟩
    have h3 : le u (.num (k - 1)) = true := by
      have : ¬ lt (.num (k - 1)) u = true := fun g => h ⟨u, h1, g, h2⟩
      unfold Pt at h1; grind
    unfold Pt at *
    obtain ⟨c', g4, g5⟩ := C24_lt dbg left id x k hx (by grind)
    rw [if_pos (by grind)] at g5
    exact ⟨_, _, g4, g5, by simp only; grind⟩

/-- C24 for `k < x` and `x > k` holds if and only if `x` has no value strictly between `k` and `k + 1`. -/
theorem C24_gt_iff (dbg left : Bool) (id : Nat) (x : Ivl (Fl K)) (k : K) (hx : Proper x) :
    (∀ u, Satisfies (if left then .gt else .lt) left x (.scalar (.num k)) u →
      ∃ c R, (single (if left then .gt else .lt) left false id x (.scalar true (.num k))).build dbg = .ok c ∧ constrain dbg false id x c = .ok R ∧ u ∈ᵢ R) ↔
    ¬ ∃ u, u ∈ᵢ x ∧ lt (.num k) u = true ∧ lt u (.num (k + 1)) = true := by
  have hst := (step_lt k).2
  have hsat : ∀ u, Satisfies (if left then .gt else .lt) left x (.scalar (.num k)) u ↔ u ∈ᵢ x ∧ lt (.num k) u = true := by
    intro u
    have nk : le (Fl.num k) (Fl.num k) = true := by simp
    unfold Satisfies PtA
    cases left <;> simp only [if_true, if_false, Bool.false_eq_true, CmpOp.eval, CppVal.gt] <;>
      refine ⟨fun ⟨h1, y, ⟨h2, h3⟩, h4⟩ => ⟨h1, by grind⟩, fun h => ⟨h.1, .num k, ⟨nk, nk⟩, h.2⟩⟩
  simp only [hsat]
  constructor
  · rintro h ⟨u, h1, h2, h3⟩
    obtain ⟨c, R, g1, g2, g3⟩ := h u ⟨h1, h2⟩
    unfold Pt at *
    obtain ⟨c', g4, g5⟩ := C24_gt dbg left id x k hx (by grind)
    rw [g1] at g4; cases g4
    rw [g2] at g5
    split at g5
    · cases g5; simp only at g3; grind
    · cases g5
  · rintro h u ⟨h1, h2⟩
    have h3 : le (.num (k + 1)) u = true := by
      have : ¬ lt u (.num (k + 1)) = true := fun g => h ⟨u, h1, h2, g⟩
      unfold Pt at h1; grind
    unfold Pt at *
    obtain ⟨c', g4, g5⟩ := C24_gt dbg left id x k hx (by grind)
    rw [if_pos (by grind)] at g5
    exact ⟨_, _, g4, g5, by simp only; grind⟩
end

/-! ## Non-vacuity: `x, y = [0,10]` (int), and the float interval `[-0.5,1]` -/

private def x10 : Ivl (SInt 31) := ⟨i32 0, i32 10⟩
private def X : Operand (SInt 31) := .ident true 0 x10
private def Y : Operand (SInt 31) := .ident true 1 x10
private def K (v : Int) (h : -(2:Int)^31 ≤ v ∧ v ≤ 2^31 - 1 := by decide) : Operand (SInt 31) := .scalar true (i32 v h)

/-- C18_fails: `(x >= 5) | (y >= 5)` loses `x = 3`. -/
example : (CExpr.cmp .ge Y (K 5)).Free 0 ∧ (CExpr.cmp .ge X (K 5)).Current 0 x10 ∧ (CExpr.cmp .ge X (K 5)).Proper ∧ (CExpr.cmp .ge Y (K 5)).Proper ∧
    (∃ ce, (CExpr.cmp .ge X (K 5)).build true = .ok ce ∧ BoolSet.contains ce.truth true = true ∧ constrain true true 0 x10 ce = .ok ⟨i32 5, i32 10⟩) ∧
    (∃ c, (CExpr.or (.cmp .ge X (K 5)) (.cmp .ge Y (K 5))).build true = .ok c) ∧
    EvE (fun _ => i32 7) (.cmp .ge X (K 5)) true ∧ EvE (fun _ => i32 7) (.cmp .ge Y (K 5)) true ∧ i32 3 ∈ᵢ x10 ∧ ¬ i32 3 ∈ᵢ (⟨i32 5, i32 10⟩ : Ivl (SInt 31)) :=
  ⟨⟨by simp [Y, CExpr.AtId.at_], trivial⟩, ⟨fun _ => rfl, trivial⟩, ⟨by decide, by decide⟩, ⟨by decide, by decide⟩, ⟨_, rfl, by decide, by decide⟩, ⟨_, rfl⟩,
    ⟨i32 7, i32 5, ⟨rfl, by decide⟩, rfl, by decide⟩, ⟨i32 7, i32 5, ⟨rfl, by decide⟩, rfl, by decide⟩, by decide, by decide⟩
/-- C19_fails: `x == 7` formed with `x = [0,10]`, used with `x = [0,3]`. -/
example : i32 7 ∈ᵢ x10 ∧ i32 7 ∈ₐ (K 7).arg ∧ ¬ i32 7 ∈ᵢ (⟨i32 0, i32 3⟩ : Ivl (SInt 31)) := ⟨by decide, ⟨by decide, by decide⟩, by decide⟩
/-- C21_hidden_fails: `((x >= 5) | (x <= 3)) & (y >= 5)`. -/
example : (CExpr.cmp .ge Y (K 5)).Free 0 ∧ (∃ c, (CExpr.and (.or (.cmp .ge X (K 5)) (.cmp .le X (K 3))) (.cmp .ge Y (K 5))).build true = .ok c ∧
      Mentions true 0 c ∧ BoolSet.contains c.truth true = true) ∧ ∃ cf, (CExpr.cmp .ge X (K 5)).build true = .ok cf ∧ cf.isCond = true :=
  ⟨⟨by simp [Y, CExpr.AtId.at_], trivial⟩,
    ⟨_, rfl, by simp [Cond.mkOr, Cond.mkAnd, Cond.isCond, Mentions, X, Operand.matchesId], by decide⟩, ⟨_, rfl, rfl⟩⟩
/-- C21_conj_fails: `((x >= 5) & (x <= 3)) | …`. -/
example : ∃ c₁ c₂, (CExpr.cmp .ge X (K 5)).build true = .ok c₁ ∧ (CExpr.cmp .le X (K 3)).build true = .ok c₂ ∧
    c₁.isDisj = false ∧ c₂.isDisj = false ∧
    constrain true true 0 x10 c₁ = .ok ⟨i32 5, i32 10⟩ ∧ constrain true true 0 x10 c₂ = .ok ⟨i32 0, i32 3⟩ ∧ lt (i32 3) (i32 5) = true :=
  ⟨_, _, rfl, rfl, rfl, rfl, by decide, by decide, by decide⟩
/-- C22_fails: `!((x >= 5) & true)`. -/
example : ∃ c, (CExpr.not (.and (.cmp .ge X (K 5)) (.plain (BoolSet.single true)))).build true = .ok c := ⟨_, rfl⟩
/-- C24_lt, C24_lt_iff: `x < 0` with `x = [-0.5,1]`. -/
example : Proper (⟨.num (-1/2), .num 1⟩ : Ivl (Fl ℚ)) ∧ lt (.num (-1/2)) (.num 0 : Fl ℚ) = true ∧ le (.num (-1/2)) (.num (0 - 1) : Fl ℚ) = false ∧
    (.num (-1/4) : Fl ℚ) ∈ᵢ (⟨.num (-1/2), .num 1⟩ : Ivl (Fl ℚ)) := by refine ⟨?_, ?_, ?_, ?_, ?_⟩ <;> decide +kernel

end Intervals.Props
