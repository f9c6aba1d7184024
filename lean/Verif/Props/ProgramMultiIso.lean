import Verif.Lemmas.ProgramMultiIso
import Verif.Props.ProgramMulti
import Verif.Props.ProgramIso
import Mathlib.Data.List.Sort
/-!
# C96: interval-aware programs over several value types, with loops, are inclusion isotone
-/
set_option linter.unusedSectionVars false
namespace Intervals.Props
open Intervals Intervals.Spec CppVal

section generic
variable {σ κ : Type} [DecidableEq σ] [DecidableEq κ] {Ty : σ → Type} {En : κ → Type} [∀ k, DecidableEq (En k)] {vals : (k : κ) → List (En k)} [∀ s, CppVal (Ty s)] [∀ s, CppOrder (Ty s)] [∀ s, CppLimits (Ty s)] [∀ s, CppLawfulLimits (Ty s)] [∀ s, CppStep (Ty s)]

/-- C96: a well-formed program over several value types, run on two families of intervals one of which lies within the other, ends with every variable within its
counterpart — if both runs return and the functions called and enumerated are inclusion isotone.  (The run on the wider intervals may take more branches and more
turns of its loops.) -/
theorem C96_isotone (hn : ∀ k, (vals k).Nodup) (dbg : Bool) (disc : σ → Bool) (hs : ∀ s, disc s = true → LawfulStep (Ty s)) (p : MProg Ty vals) (ins : List (MVar σ κ)) (Γ : MCtx Ty vals)
    (S Q S' Q' : Env (Dm Ty vals)) (hf : p.All MFn.Iso Each.Iso) (hc : p.Wf (MCtx.start ins) Γ) (hS : ∀ x ∈ ins, DProper (S x))
    (hw : ∀ x ∈ ins, ∀ v, v ∈ₘ S x → v ∈ₘ Q x) (hr : runMI dbg disc p S [] = .ok (S', true)) (hq : runMI dbg disc p Q [] = .ok (Q', true)) :
    ∀ x ∈ Γ.scope, ∀ v, v ∈ₘ S' x → v ∈ₘ Q' x :=
  have := fun k => Fact.mk (hn k)
  mrun_iso hs hf hc (minv_start hS) (minv_start fun x hx => dproper_mono (hw x hx) (hS x hx)) hw hr hq

/-- C96: if the branch conditions are single predicates or comparisons, and the functions are defined for narrower arguments if they are for wider ones, then a program that
returns for the wider inputs returns for the narrower ones. -/
theorem C96_defined (hn : ∀ k, (vals k).Nodup) (dbg : Bool) (disc : σ → Bool) (hs : ∀ s, disc s = true → LawfulStep (Ty s)) (p : MProg Ty vals) (ins : List (MVar σ κ)) (Γ : MCtx Ty vals)
    (S Q Q' : Env (Dm Ty vals)) (hf : p.All MFn.IsoDef Each.IsoDef) (hsg : p.Single) (hc : p.Wf (MCtx.start ins) Γ) (hS : ∀ x ∈ ins, DProper (S x))
    (hw : ∀ x ∈ ins, ∀ v, v ∈ₘ S x → v ∈ₘ Q x) (hq : runMI dbg disc p Q [] = .ok (Q', true)) :
    ∃ S', runMI dbg disc p S [] = .ok (S', true) ∧ (∀ x ∈ Γ.asgd, DProper (S' x)) ∧ ∀ x ∈ Γ.scope, ∀ v, v ∈ₘ S' x → v ∈ₘ Q' x := by
  have := fun k => Fact.mk (hn k)
  have hQ : ∀ x ∈ ins, DProper (Q x) := fun x hx => dproper_mono (hw x hx) (hS x hx)
  obtain ⟨S', h⟩ := mrun_defined (dbg := dbg) hs hf hsg (fun _ h => absurd h List.not_mem_nil) hc (minv_start hS) (minv_start hQ) hw hq
  have hf' := mall_mono (fun _ h => h.iso) (fun _ h => h.iso) hf
  exact ⟨S', h, (mrun_step hs (fun _ h => h.nonempt) hf' hc (minv_start hS) h).1.prop, C96_isotone hn dbg disc hs p ins Γ S Q S' Q' hf' hc hS hw h hq⟩

/-! ## functions -/

/-- C96: the functions that C82 admits may be used. -/
theorem C96_functions (s : σ) (f : Fn (Ty s)) : (f.Iso → (MFn.ofFn (vals := vals) s f f.arity).Iso) ∧ (f.IsoDef → (MFn.ofFn (vals := vals) s f f.arity).IsoDef) := by
  have sub : ∀ {Xs Ys : Fin f.arity → Ivl (Ty s)}, (∀ i v, v ∈ᵢ Xs i → v ∈ᵢ Ys i) →
      List.Forall₂ (fun X Y : Ivl (Ty s) => ∀ v, v ∈ᵢ X → v ∈ᵢ Y) (List.ofFn Xs) (List.ofFn Ys) := by
    intro Xs Ys h
    refine List.forall₂_iff_get.2 ⟨by rw [List.length_ofFn, List.length_ofFn], fun i h1 h2 => ?_⟩
    simp only [List.get_eq_getElem, List.getElem_ofFn]
    exact h ⟨i, by simpa using h1⟩
  have prop : ∀ {Xs : Fin f.arity → Ivl (Ty s)}, (∀ i, Proper (Xs i)) → ∀ X ∈ List.ofFn Xs, Proper X := by
    intro Xs h X hX
    obtain ⟨i, rfl⟩ := (List.mem_ofFn' _ _).1 hX
    exact h i
  constructor
  · intro h dbg (Xs : Fin f.arity → Ivl (Ty s)) (Ys : Fin f.arity → Ivl (Ty s)) R Q hX hw hR hQ pR pQ
    exact h dbg (List.ofFn Xs) (List.ofFn Ys) R Q (List.length_ofFn ..) (sub hw) (prop hX) hR hQ pR pQ
  · intro h dbg (Xs : Fin f.arity → Ivl (Ty s)) (Ys : Fin f.arity → Ivl (Ty s)) Q hX hw hQ pQ
    exact h dbg (List.ofFn Xs) (List.ofFn Ys) Q (List.length_ofFn ..) (sub hw) (prop hX) hQ pQ

/-! ## loops -/

private theorem sub_of_common {V : Type} [DecidableEq V] : ∀ {vals vs ws : List V}, vals.Nodup → vs.Sublist vals → ws.Sublist vals → (∀ v ∈ vs, v ∈ ws) → vs.Sublist ws := by
  intro vals vs ws hn hv hw h
  have key : ∀ {vals us : List V}, vals.Nodup → us.Sublist vals → us = vals.filter (fun v => decide (v ∈ us)) := by
    intro vals us hn hu
    induction hu with
    | slnil => rfl
    | @cons l₁ l₂ a hs ih =>
      obtain ⟨h1, h2⟩ := List.nodup_cons.1 hn
      rw [List.filter_cons_of_neg (by simp only [decide_eq_true_eq]; exact fun h => h1 (hs.subset h))]
      exact ih h2
    | @cons_cons l₁ l₂ a hs ih =>
      obtain ⟨h1, h2⟩ := List.nodup_cons.1 hn
      rw [List.filter_cons_of_pos (by simp)]
      congr 1
      refine (ih h2).trans (List.filter_congr fun x hx => ?_)
      have : x ≠ a := by rintro rfl; exact h1 hx
      simp [this]
  rw [key hn hv, key hn hw]
  exact List.monotone_filter_right vals (fun v hv => by simp only [decide_eq_true_eq] at hv ⊢; exact h v hv)

/-- C96: loops over the members of a set-valued function may be used if the set for narrower arguments has a member and is contained in the set for wider ones. -/
theorem C96_set {V : Type} [DecidableEq V] {L : List V} (hn : L.Nodup) (n : Nat) (sig : Fin n → VSort σ κ)
    (ivl : Bool → ((i : Fin n) → Dm Ty vals (sig i)) → Outcome (CSet L)) (pt : ((i : Fin n) → Sc Ty En (sig i)) → Outcome V) :
    ((∀ dbg Xs Ys R Q, (∀ i, DProper (Xs i)) → (∀ i v, v ∈ₘ Xs i → v ∈ₘ Ys i) → ivl dbg Xs = .ok R → ivl dbg Ys = .ok Q →
        (∃ v, SMem v R) ∧ ∀ v, SMem v R → SMem v Q) → (Each.ofSet n sig ivl pt).Iso) ∧
    ((∀ dbg Xs Ys Q, (∀ i, DProper (Xs i)) → (∀ i v, v ∈ₘ Xs i → v ∈ₘ Ys i) → ivl dbg Ys = .ok Q →
        ∃ R, ivl dbg Xs = .ok R ∧ (∃ v, SMem v R) ∧ ∀ v, SMem v R → SMem v Q) → (Each.ofSet n sig ivl pt).IsoDef) := by
  have key : ∀ {R Q : CSet L} {ws : List V}, (∃ v, SMem v R) → (∀ v, SMem v R → SMem v Q) → (enumerateSet Q >>= fun it => visits it) = .ok ws →
      ∃ vs, (enumerateSet R >>= fun it => visits it) = .ok vs ∧ vs ≠ [] ∧ vs.Sublist ws := by
    rintro R Q ws ⟨v, hv⟩ hsub hw
    obtain ⟨i1, vs, a1, a2, a3, a4⟩ := C53_set hn R ⟨v, hv⟩
    obtain ⟨i2, ws', b1, b2, b3, b4⟩ := C53_set hn Q ⟨v, hsub v hv⟩
    rw [b1, ok_bind, b2] at hw; cases hw
    refine ⟨vs, by rw [a1, ok_bind, a2], ?_, sub_of_common hn a3 b3 fun u hu => (b4 u).2 (hsub u ((a4 u).1 hu))⟩
    rintro rfl
    exact absurd ((a4 v).2 hv) List.not_mem_nil
  constructor
  · intro h dbg Xs Ys vs ws hX hw hv hq
    obtain ⟨R, r1, r2⟩ := bind_eq_ok.1 (show (ivl dbg Xs >>= fun R => enumerateSet R >>= fun it => visits it) = .ok vs from hv)
    obtain ⟨Q, q1, q2⟩ := bind_eq_ok.1 (show (ivl dbg Ys >>= fun R => enumerateSet R >>= fun it => visits it) = .ok ws from hq)
    obtain ⟨h1, h2⟩ := h dbg Xs Ys R Q hX hw r1 q1
    obtain ⟨vs', e1, e2⟩ := key h1 h2 q2
    rw [r2] at e1; cases e1; exact e2
  · intro h dbg Xs Ys ws hX hw hq
    obtain ⟨Q, q1, q2⟩ := bind_eq_ok.1 (show (ivl dbg Ys >>= fun R => enumerateSet R >>= fun it => visits it) = .ok ws from hq)
    obtain ⟨R, h0, h1, h2⟩ := h dbg Xs Ys Q hX hw q1
    obtain ⟨vs, e1, e2⟩ := key h1 h2 q2
    exact ⟨vs, show (ivl dbg Xs >>= fun R => enumerateSet R >>= fun it => visits it) = .ok vs by rw [h0, ok_bind, e1], e2⟩

/-- C96: loops over the points of an interval may be used if they are visited in ascending order. -/
theorem C96_visit (s : σ) (en : Ivl (Ty s) → Outcome (List (Ty s))) (h : VisitsAll en)
    (ho : ∀ X vs, Proper X → en X = .ok vs → vs.Pairwise (fun a b => lt a b = true)) : (Each.ofVisit (vals := vals) s en).IsoDef := by
  intro dbg (Xs : Fin 1 → Ivl (Ty s)) (Ys : Fin 1 → Ivl (Ty s)) ws (hX : ∀ i, Proper (Xs i)) (hw : ∀ i v, v ∈ᵢ Xs i → v ∈ᵢ Ys i) (hq : en (Ys 0) = .ok ws)
  have hY : Proper (Ys 0) := proper_of_pt (hw 0 _ (lo_pt (hX 0)))
  obtain ⟨vs, e1, e2⟩ := h (Xs 0) (hX 0)
  obtain ⟨ws', f1, f2⟩ := h (Ys 0) hY
  rw [hq] at f1; cases f1
  have irr : ∀ a : Ty s, lt a a ≠ true := fun a h => by
    obtain ⟨_, h1, h2⟩ := (CppOrder.lt_iff _ _).1 h
    exact absurd h1 (by simp [h2])
  have hnd : vs.Nodup := List.Pairwise.imp (fun {a b} (h : lt a b = true) (e : a = b) => irr a (by subst e; exact h)) (ho _ _ (hX 0) e1)
  have asym : ∀ a b : Ty s, lt a b = true → lt b a = true → False := fun a b h1 h2 => by
    obtain ⟨n1, n2, h1⟩ := (CppOrder.lt_iff _ _).1 h1
    obtain ⟨_, _, h2⟩ := (CppOrder.lt_iff _ _).1 h2
    rcases CppOrder.le_total a b n1 n2 with h | h <;> simp_all
  refine ⟨vs, e1, ?_, ?_⟩
  · rintro rfl
    exact absurd ((e2 _).2 (lo_pt (hX 0))) List.not_mem_nil
  · have : Std.Antisymm (fun a b : Ty s => a = b ∨ lt a b = true) := ⟨fun a b h1 h2 => by
      rcases h1 with h1 | h1
      · exact h1
      · rcases h2 with h2 | h2
        · exact h2.symm
        · exact (asym a b h1 h2).elim⟩
    refine List.sublist_of_subperm_of_pairwise (List.subperm_of_subset hnd fun v hv => (f2 v).2 (hw 0 v ((e2 v).1 hv)))
      (r := fun a b : Ty s => a = b ∨ lt a b = true) ((ho _ _ (hX 0) e1).imp Or.inr) ((ho _ _ hY hq).imp Or.inr)

/-- C96: `for (auto v : enumerate(sgn(x)))` may be used, for every value type with a zero that is not a NaN. -/
theorem C96_sgn (s : σ) [CppNum (Ty s)] (hz : NotNan (CppNum.zero : Ty s)) : (sgnEach (Ty := Ty) (vals := vals) s).IsoDef := by
  refine (C96_set (L := Sign.vals) (by decide) 1 _ _ _).2 ?_
  intro dbg (Xs : Fin 1 → Ivl (Ty s)) (Ys : Fin 1 → Ivl (Ty s)) Q (hX : ∀ i, Proper (Xs i)) (hw : ∀ i v, v ∈ᵢ Xs i → v ∈ᵢ Ys i) (hq : sgnI dbg (Ys 0) = .ok Q)
  have hw := hw 0
  have hX := hX 0
  change ∃ R, sgnI dbg (Xs 0) = .ok R ∧ _
  generalize Xs 0 = X at *
  generalize Ys 0 = Y at *
  have hl := hw _ (lo_pt hX)
  have hh := hw X.hi ⟨hX, cle_right hX⟩
  have hY : Proper Y := proper_of_pt hl
  obtain ⟨R, r1, r2, r3, r4⟩ := sgnI_spec dbg X (assigned_of_proper hX)
  obtain ⟨Q', q1, q2, q3, q4⟩ := sgnI_spec dbg Y (assigned_of_proper hY)
  rw [hq] at q1; cases q1
  refine ⟨R, r1, ?_, fun v hv => ?_⟩
  · rcases CppOrder.le_total X.lo CppNum.zero (cle_left hX) hz with h | h
    · by_cases h' : le CppNum.zero X.hi = true
      · exact ⟨.zero, r4.2 (by rw [Bool.and_eq_true]; exact ⟨h, h'⟩)⟩
      · refine ⟨.neg, r3.2 ((CppOrder.lt_iff _ _).2 ⟨cle_left hX, hz, ?_⟩)⟩
        rw [Bool.eq_false_iff]; intro hc; exact h' (cle_trans hc hX)
    · by_cases h' : le X.hi CppNum.zero = true
      · exact ⟨.zero, r4.2 (by rw [Bool.and_eq_true]; exact ⟨cle_trans hX h', cle_trans h hX⟩)⟩
      · exact ⟨.pos, r2.2 ((CppOrder.lt_iff _ _).2 ⟨hz, cle_right hX, by simpa using h'⟩)⟩
  · cases v with
    | pos =>
      obtain ⟨a1, a2, a3⟩ := (CppOrder.lt_iff _ _).1 (r2.1 hv)
      refine q2.2 ((CppOrder.lt_iff _ _).2 ⟨a1, cle_right hY, ?_⟩)
      rw [Bool.eq_false_iff]; intro hc; rw [cle_trans hh.2 hc] at a3; cases a3
    | neg =>
      obtain ⟨a1, a2, a3⟩ := (CppOrder.lt_iff _ _).1 (r3.1 hv)
      refine q3.2 ((CppOrder.lt_iff _ _).2 ⟨cle_left hY, a2, ?_⟩)
      rw [Bool.eq_false_iff]; intro hc; rw [cle_trans hc hl.1] at a3; cases a3
    | zero =>
      have h := r4.1 hv
      rw [Bool.and_eq_true] at h
      exact q4.2 (by rw [Bool.and_eq_true]; exact ⟨cle_trans hl.1 h.1, cle_trans h.2 hh.2⟩)
end generic

/-- C96: `for (auto j : enumerate(x))` visits the points of an interval of integers in ascending order. -/
theorem C96_ascending (l h : Int) (X : Ivl (BInt l h)) (vs : List (BInt l h)) (hX : Proper X) (hv : enumVisit X = .ok vs) :
    vs.Pairwise (fun a b => lt a b = true) := by
  have hx : X.lo.val ≤ X.hi.val := by simpa [Proper, bint_le] using hX
  obtain ⟨it, vs', h1, h2, h3⟩ := C53_interval X hx
  simp only [enumVisit, h1, ok_bind, h2] at hv; cases hv
  have : (vs.map (·.val)).Pairwise (· < ·) := by
    rw [h3, List.pairwise_map]
    exact List.Pairwise.imp (fun {a b} (h : a < b) => by omega) List.pairwise_lt_range
  rw [List.pairwise_map] at this
  exact this.imp (fun {a b} h => by simpa [lt] using h)

section srt
variable {T : Type} [CppVal T] [CppOrder T] [CppLimits T] [CppLawfulLimits T] [CppStep T]

/-- C96: loops over an interval of indices may be used. -/
theorem C96_enumerate : (Each.ofVisit (Ty := STy T) (vals := KVals) .idx enumVisit).IsoDef := C96_visit (Ty := STy T) (vals := KVals) .idx _ (C95_enumerate _ _) (C96_ascending _ _)

/-- C96: indexed access into a table without NaNs, by an interval of indices or by a scalar index, and constants may be used. -/
theorem C96_at (a : List T) (ha : (a.length : Int) < 2^63) (hn : ∀ v ∈ a, NotNan v) : (atFn a).IsoDef ∧ (∀ j, (elemFn a j).IsoDef) ∧ ∀ v : T, (constFn v).IsoDef := by
  refine ⟨?_, ?_, ?_⟩
  · intro dbg (Xs : Fin 1 → Ivl Index) (Ys : Fin 1 → Ivl Index) (Q : Ivl T) (hX : ∀ i, Proper (Xs i)) (hw : ∀ i v, v ∈ᵢ Xs i → v ∈ᵢ Ys i) (hq : atI a (Ys 0) = .ok Q) pQ
    have hw := hw 0
    have hX := hX 0
    change ∃ R : Ivl T, atI a (Xs 0) = .ok R ∧ Proper R ∧ ∀ v, v ∈ᵢ R → v ∈ᵢ Q
    generalize Xs 0 = X at *
    generalize Ys 0 = Y at *
    have h0 : X.lo.val ≤ X.hi.val := by simpa [Proper, bint_le] using hX
    have hl := hw _ (lo_pt hX)
    have hh := hw X.hi ⟨hX, cle_right hX⟩
    simp only [Pt, bint_le] at hl hh
    have h2 : 0 ≤ Y.lo.val ∧ Y.hi.val < a.length := by
      by_contra hc
      have := C54_fail_fast Ivl.unassigned (fun r v => Ivl.assignPartial r (Ivl.ofVal v)) a Y (by omega)
      rw [show atI a Y = _ from this] at hq; cases hq
    have nn : ∀ k : Int, ∀ v, a[k.toNat]? = some v → NotNan v := fun k v hv => hn v (List.mem_of_getElem? hv)
    obtain ⟨R, r1, r2, ⟨k, k1, k2, u, k3, k4⟩, ⟨m, m1, m2, w, m3, m4⟩⟩ := C54_scalars a ha X h0 (by omega) (by omega) (fun k _ _ => nn k)
    obtain ⟨Q', q1, q2, _⟩ := C54_scalars a ha Y (by omega) h2.1 h2.2 (fun k _ _ => nn k)
    rw [hq] at q1; cases q1
    have uR := r2 k k1 k2 u k3
    have uQ := q2 k (by omega) (by omega) u k3
    have wQ := q2 m (by omega) (by omega) w m3
    rw [CppOrder.eq_iff] at k4 m4
    exact ⟨R, r1, proper_of_pt uR, fun v hv => ⟨cle_trans uQ.1 (cle_trans k4.2 hv.1), cle_trans hv.2 (cle_trans m4.1 wQ.2)⟩⟩
  · intro j dbg Xs Ys Q _ _ hq pQ
    exact ⟨Q, hq, pQ, fun _ h => h⟩
  · intro v dbg Xs Ys Q _ _ hq pQ
    exact ⟨Q, hq, pQ, fun _ h => h⟩

/-- C96: `for (auto v : enumerate(at(kinds, i)))` may be used. -/
theorem C96_kinds {V : Type} [DecidableEq V] (L kinds : List V) (hn : L.Nodup) (ha : (kinds.length : Int) < 2^63) (hk : ∀ v ∈ kinds, v ∈ L) :
    (kindEach (T := T) L kinds).IsoDef := by
  refine (C96_set hn 1 _ _ _).2 ?_
  intro dbg (Xs : Fin 1 → Ivl Index) (Ys : Fin 1 → Ivl Index) Q (hX : ∀ i, Proper (Xs i)) (hw : ∀ i v, v ∈ᵢ Xs i → v ∈ᵢ Ys i) (hq : atSet dbg kinds (Ys 0) = .ok Q)
  have hw := hw 0
  have hX := hX 0
  change ∃ R, atSet dbg kinds (Xs 0) = .ok R ∧ _
  generalize Xs 0 = X at *
  generalize Ys 0 = Y at *
  have h0 : X.lo.val ≤ X.hi.val := by simpa [Proper, bint_le] using hX
  have hl := hw _ (lo_pt hX)
  have hh := hw X.hi ⟨hX, cle_right hX⟩
  simp only [Pt, bint_le] at hl hh
  have h2 : 0 ≤ Y.lo.val ∧ Y.hi.val < kinds.length := by
    by_contra hc
    have := C54_fail_fast (CSet.empty L) (fun r v => do CSet.assignSet dbg r (← CSet.ofVal L v)) kinds Y (by omega)
    rw [show atSet dbg kinds Y = _ from this] at hq; cases hq
  obtain ⟨R, r1, r2⟩ := C54_enumerators dbg kinds ha X h0 (by omega) (by omega) hk
  obtain ⟨Q', q1, q2⟩ := C54_enumerators dbg kinds ha Y (by omega) h2.1 h2.2 hk
  rw [hq] at q1; cases q1
  have hlen : X.lo.val.toNat < kinds.length := by omega
  refine ⟨R, r1, ⟨kinds[X.lo.val.toNat], (r2 _).2 ⟨X.lo.val, le_refl _, h0, List.getElem?_eq_getElem hlen⟩⟩, fun v hv => ?_⟩
  obtain ⟨k, k1, k2, k3⟩ := (r2 v).1 hv
  exact (q2 v).2 ⟨k, by omega, by omega, k3⟩
end srt

/-! Non-vacuity: the programs of C95, run on nested inputs. -/

private local instance : ∀ k, Fact (KVals k).Nodup := fun k => ⟨KVals_nodup k⟩
private abbrev jx (v : Int) (h : -(2:Int)^63 ≤ v ∧ v ≤ (2:Int)^63 - 1 := by decide) : Index := ⟨v, h.1, h.2⟩
private abbrev tab4 : List (Fl ℚ) := [.num 10, .num 20, .num 5, .num 40]
private def wide : Env (Dm (STy (Fl ℚ)) KVals) := varsI (fun n => if n = 0 then (⟨jx 0, jx 3⟩ : Ivl Index) else (⟨jx 1, jx 2⟩ : Ivl Index))
  (fun n => if n = 0 then (⟨.num 0, .num 15⟩ : Ivl (Fl ℚ)) else (⟨.num 3, .num 12⟩ : Ivl (Fl ℚ)))
private def narrow : Env (Dm (STy (Fl ℚ)) KVals) := varsI (fun n => if n = 0 then (⟨jx 0, jx 1⟩ : Ivl Index) else (⟨jx 1, jx 1⟩ : Ivl Index))
  (fun n => if n = 0 then (⟨.num 1, .num 4⟩ : Ivl (Fl ℚ)) else (⟨.num 3, .num 9⟩ : Ivl (Fl ℚ)))
private theorem stepIdx : ∀ s : Srt, (s == Srt.idx) = true → LawfulStep (STy (Fl ℚ) s) := fun s h => by
  cases s; exacts [lawfulStep_bint _ _, absurd h (by decide)]

example : (do let r ← runMI true (fun s => s == Srt.idx) (lookProg tab4) wide []; return (valOf 2 r, r.2)) = .ok (⟨.num 5, .num 20⟩, true) ∧
    (do let r ← runMI true (fun s => s == Srt.idx) (lookProg tab4) narrow []; return (valOf 2 r, r.2)) = .ok (⟨.num 10, .num 20⟩, true) := by
  refine ⟨by decide +kernel, by decide +kernel⟩

/-- all hypotheses of `C96_isotone` hold for it -/
example (S' Q' : Env (Dm (STy (Fl ℚ)) KVals)) (hr : runMI true (fun s => s == Srt.idx) (lookProg tab4) narrow [] = .ok (S', true))
    (hq : runMI true (fun s => s == Srt.idx) (lookProg tab4) wide [] = .ok (Q', true)) (v : Fl ℚ) (hv : v ∈ᵢ valOf (T := Fl ℚ) 2 (S', true)) : v ∈ᵢ valOf (T := Fl ℚ) 2 (Q', true) := by
  obtain ⟨Γ, h1, h2⟩ := C95_look_wf tab4
  have ha := C96_at tab4 (by decide) (by unfold NotNan; decide)
  have hm : (maxFn : MFn (STy (Fl ℚ)) KVals).IsoDef := (C96_functions (Ty := STy (Fl ℚ)) (vals := KVals) .val (fn2 (T := Fl ℚ) maxI (fun a b => .ok (cmax a b)))).2 C82_minmax.2
  have hf : (lookProg tab4).All MFn.Iso Each.Iso :=
    ⟨trivial, ⟨trivial, ha.1.iso, trivial, hm.iso, trivial⟩, C96_enumerate.iso, fun v => ⟨(ha.2.1 v).iso, trivial⟩⟩
  have hS : ∀ x ∈ ([(.ivl .idx, 0), (.ivl .idx, 1), (.ivl .val, 0), (.ivl .val, 1)] : List (MVar Srt Knd)), DProper (narrow x) := by
    intro x hx
    simp only [List.mem_cons, List.not_mem_nil, or_false] at hx
    rcases hx with rfl | rfl | rfl | rfl <;> exact (by decide)
  refine C96_isotone KVals_nodup true (fun s => s == Srt.idx) stepIdx (lookProg tab4) _ Γ narrow wide S' Q' hf h1 hS ?_ hr hq _
    ((mrun_step stepIdx (fun _ h => h.nonempt) hf h1 (minv_start hS) hr).1.sub _ h2) v hv
  · intro x hx v hv
    simp only [List.mem_cons, List.not_mem_nil, or_false] at hx
    rcases hx with rfl | rfl | rfl | rfl
    all_goals exact ⟨cle_trans (show _ = true by decide) hv.1, cle_trans hv.2 (show _ = true by decide)⟩

section sgnLoop
attribute [local instance] exactFmt
local instance : CppNum (STy (Fl ℚ) .val) := inferInstanceAs (CppNum (Fl ℚ))
local macro "wf" : tactic => `(tactic| first | decide | simp [MCtx.bind, MCtx.start, atFn, elemFn, constFn, maxFn, MFn.ofFn, Each.ofVisit, MCond.uses, PTerm.uses])

/-- all hypotheses of `C96_defined` hold for the loop over the signs, whatever the inputs -/
example (S Q Q' : Env (Dm (STy (Fl ℚ)) KVals)) (h0 : DProper (S (.ivl .val, 0))) (h1 : ∀ v, v ∈ₘ S (.ivl .val, 0) → v ∈ₘ Q (.ivl .val, 0))
    (hq : runMI false (fun s => s == Srt.idx) absBySign Q [] = .ok (Q', true)) :
    ∃ S', runMI false (fun s => s == Srt.idx) absBySign S [] = .ok (S', true) ∧ ∀ v, v ∈ₘ S' (.ivl .val, 1) → v ∈ₘ Q' (.ivl .val, 1) := by
  have hn : (MFn.ofFn (Ty := STy (Fl ℚ)) (vals := KVals) .val (fn1 (T := Fl ℚ) UnOp.neg.ivl (fun a => .ok (UnOp.neg.pt a))) 1).IsoDef :=
    (C96_functions (Ty := STy (Fl ℚ)) (vals := KVals) .val (fn1 (T := Fl ℚ) UnOp.neg.ivl (fun a => .ok (UnOp.neg.pt a)))).2 (C82_float_unary .neg)
  obtain ⟨S', g1, _, g2⟩ := C96_defined KVals_nodup false (fun s => s == Srt.idx) stepIdx absBySign [(.ivl .val, 0)]
    ⟨[(.ivl .val, 1), (.ivl .val, 0)], [(.ivl .val, 0)] ++ [(.ivl .val, 1)], [], []⟩ S Q Q'
    ⟨trivial, C96_sgn (Ty := STy (Fl ℚ)) (vals := KVals) .val (by decide), fun (v : Sign) => by
      cases v
      exacts [⟨hn, trivial⟩, trivial, trivial]⟩
    ⟨trivial, fun (v : Sign) => by cases v; exacts [⟨trivial, trivial⟩, trivial, trivial]⟩
    ⟨_, ⟨by decide, rfl⟩, fun _ => by simp [MCtx.start, sgnEach, Each.ofSet], [(.ivl .val, 1)], by simp, fun (v : Sign) => by
      cases v
      exacts [⟨_, ⟨_, ⟨by wf, fun _ => by wf, rfl⟩, by wf, by wf, by wf, rfl⟩, by simp⟩, ⟨_, ⟨by wf, by wf, by wf, rfl⟩, by simp⟩,
        ⟨_, ⟨by wf, by wf, by wf, rfl⟩, by simp⟩], rfl⟩
    (fun x hx => by simp only [List.mem_cons, List.not_mem_nil, or_false] at hx; subst hx; exact h0)
    (fun x hx => by simp only [List.mem_cons, List.not_mem_nil, or_false] at hx; subst hx; exact h1) hq
  exact ⟨S', g1, g2 _ (by decide)⟩

example : (do let r ← runMI true (fun s => s == Srt.idx) absBySign (varsI (T := (Fl ℚ)) (fun _ => ⟨jx 0, jx 0⟩) (fun _ => ⟨.num (-1), .num 3⟩)) []
              return (valOf 1 r, r.2)) = .ok (⟨.num (-3), .num 3⟩, true) ∧
    (do let r ← runMI true (fun s => s == Srt.idx) absBySign (varsI (T := (Fl ℚ)) (fun _ => ⟨jx 0, jx 0⟩) (fun _ => ⟨.num 1, .num 2⟩)) []
        return (valOf 1 r, r.2)) = .ok (⟨.num 1, .num 2⟩, true) := by
  refine ⟨by decide +kernel, by decide +kernel⟩
end sgnLoop

example : (kindEach (T := Fl ℚ) Sign.vals [.pos, .neg, .pos, .zero]).IsoDef := C96_kinds _ _ (by decide) (by decide) (by decide)

end Intervals.Props
