import Verif.Props.ProgramMultiIso
import Verif.Props.FltClass
/-!
# C95, C96: predicates in the conditions of interval-aware programs
-/
set_option linter.unusedSectionVars false
namespace Intervals.Props
open Intervals Intervals.Spec CppVal

section generic
variable {σ κ : Type} [DecidableEq σ] [DecidableEq κ] {Ty : σ → Type} {En : κ → Type} [∀ k, DecidableEq (En k)] {vals : (k : κ) → List (En k)} [∀ s, CppVal (Ty s)] [∀ s, CppOrder (Ty s)] [∀ s, CppLimits (Ty s)] [∀ s, CppLawfulLimits (Ty s)] [∀ s, CppStep (Ty s)]

/-- C95, C96: a predicate that returns exactly the values of its scalar overload may be used in conditions. -/
theorem C95_predicate (hn : ∀ k, (vals k).Nodup) (f : MPred Ty vals) (h : ∀ dbg Xs, (∀ i, DProper (Xs i)) → ∃ b, f.ivl dbg Xs = .ok b ∧ ∀ r, BoolSet.contains b r = true ↔
    ∃ vs, (∀ i, vs i ∈ₘ Xs i) ∧ f.pt vs = r) : f.Lawful := by
  have := fun k => Fact.mk (hn k)
  refine ⟨fun dbg Xs hX => ?_, fun dbg Xs vs b hv hb => ?_, fun dbg Xs Ys b c hX hs hb hc v hv => ?_⟩
  · obtain ⟨b, h1, h2⟩ := h dbg Xs hX
    choose vs hvs using fun i => exists_dmem (hX i)
    refine ⟨b, h1, ?_⟩
    rintro rfl
    exact absurd ((h2 _).2 ⟨vs, hvs, rfl⟩) (by generalize f.pt _ = r; revert r; decide)
  · obtain ⟨b', h1, h2⟩ := h dbg Xs (fun i => dmem_proper (hv i))
    rw [hb] at h1; cases h1
    exact (h2 _).2 ⟨vs, hv, rfl⟩
  · obtain ⟨b', h1, h2⟩ := h dbg Xs hX
    rw [hb] at h1; cases h1
    obtain ⟨c', h3, h4⟩ := h dbg Ys (fun i => dproper_mono (hs i) (hX i))
    rw [hc] at h3; cases h3
    obtain ⟨vs, q1, q2⟩ := (h2 v).1 hv
    exact (h4 v).2 ⟨vs, fun i => hs i _ (q1 i), q2⟩

/-- a predicate of one argument -/
def MPred.of1 (t : VSort σ κ) (ivl : Bool → Dm Ty vals t → Outcome BoolSet) (pt : Sc Ty En t → Bool) : MPred Ty vals where
  arity := 1
  sig _ := t
  ivl dbg Xs := ivl dbg (Xs 0)
  pt vs := pt (vs 0)

theorem MPred.of1_lawful (hn : ∀ k, (vals k).Nodup) (t : VSort σ κ) (ivl : Bool → Dm Ty vals t → Outcome BoolSet) (pt : Sc Ty En t → Bool)
    (h : ∀ dbg X, DProper X → ∃ b, ivl dbg X = .ok b ∧ ∀ r, BoolSet.contains b r = true ↔ ∃ a, a ∈ₘ X ∧ pt a = r) : (MPred.of1 t ivl pt).Lawful := by
  refine C95_predicate hn _ fun dbg (Xs : Fin 1 → Dm Ty vals t) (hX : ∀ i, DProper (Xs i)) => ?_
  obtain ⟨b, h1, h2⟩ := h dbg (Xs 0) (hX 0)
  refine ⟨b, h1, fun r => (h2 r).trans ⟨?_, ?_⟩⟩
  · rintro ⟨a, ha, hr⟩
    exact ⟨fun _ => a, fun (i : Fin 1) => by obtain rfl : i = 0 := by omega
                                             exact ha, hr⟩
  · rintro ⟨(vs : Fin 1 → Sc Ty En t), hv, hr⟩
    exact ⟨vs 0, hv (0 : Fin 1), hr⟩

/-- a truth value -/
def boolPred (b : Bool) : MPred Ty vals where
  arity := 0
  sig i := i.elim0
  ivl _ _ := .ok (BoolSet.single b)
  pt _ := b

/-- C95, C96: a `bool` may be used in conditions. -/
theorem C95_bool (hn : ∀ k, (vals k).Nodup) (b : Bool) : (boolPred (Ty := Ty) (vals := vals) b).Lawful := by
  have h : ∀ b r, BoolSet.contains (BoolSet.single b) r = true ↔ b = r := by decide
  exact C95_predicate hn _ fun _ _ _ => ⟨BoolSet.single b, rfl, fun r => (h b r).trans ⟨fun h => ⟨fun i => i.elim0, fun i => i.elim0, h⟩, fun ⟨_, _, h⟩ => h⟩⟩

/-- `sgn(x) == v` -/
def sgnPred (s : σ) [CppNum (Ty s)] (v : Sign) : MPred Ty vals :=
  MPred.of1 (.ivl s) (fun dbg X => do CSet.opEq dbg (← sgnI dbg X) (← CSet.ofVal Sign.vals v)) (fun a => decide (sgnScalar false CppNum.zero a = .ok v))

/-- `sgn(x)` returns exactly the signs of the points -/
theorem sgn_exact (s : σ) [CppNum (Ty s)] (hz : NotNan (CppNum.zero : Ty s)) (dbg : Bool) (X : Ivl (Ty s)) (hX : Proper X) :
    ∃ R, sgnI dbg X = .ok R ∧ ∀ w, SMem w R ↔ ∃ a, a ∈ᵢ X ∧ sgnScalar false CppNum.zero a = .ok w := by
  obtain ⟨R, h1, h2, h3, h4⟩ := sgnI_spec dbg X (assigned_of_proper hX)
  have hlo : X.lo ∈ᵢ X := ⟨cle_left hX, hX⟩
  have hhi : X.hi ∈ᵢ X := ⟨hX, cle_right hX⟩
  have sc : ∀ x, x ∈ᵢ X → ∃ s, sgnScalar false (CppNum.zero : Ty _) x = .ok s ∧ (s = .pos ↔ lt CppNum.zero x = true) ∧ (s = .neg ↔ lt x CppNum.zero = true) ∧
      (s = .zero ↔ CppVal.eq x CppNum.zero = true) := fun x hx => C08_sgn false CppNum.zero x hz (cle_left hx.2)
  refine ⟨R, h1, ?_⟩
  intro w
  constructor
  · intro hw
    cases w with
    | pos =>
      obtain ⟨s, q1, q2, _⟩ := sc _ hhi
      exact ⟨_, hhi, by rw [q1, q2.2 (h2.1 hw)]⟩
    | neg =>
      obtain ⟨s, q1, _, q2, _⟩ := sc _ hlo
      exact ⟨_, hlo, by rw [q1, q2.2 (h3.1 hw)]⟩
    | zero =>
      have h := h4.1 hw
      rw [Bool.and_eq_true] at h
      have h0 : (CppNum.zero : Ty s) ∈ᵢ X := ⟨h.1, h.2⟩
      obtain ⟨s, q1, _, _, q2⟩ := sc _ h0
      exact ⟨_, h0, by rw [q1, q2.2 ((CppOrder.eq_iff _ _).2 ⟨hz, hz⟩)]⟩
  · rintro ⟨a, ha, hw⟩
    obtain ⟨s, q1, q2, q3, q4⟩ := sc _ ha
    rw [hw] at q1; cases q1
    cases w with
    | pos =>
      obtain ⟨a1, a2, a3⟩ := (CppOrder.lt_iff _ _).1 (q2.1 rfl)
      refine h2.2 ((CppOrder.lt_iff _ _).2 ⟨a1, cle_right ha.2, ?_⟩)
      rw [Bool.eq_false_iff]; intro hc; rw [cle_trans ha.2 hc] at a3; cases a3
    | neg =>
      obtain ⟨a1, a2, a3⟩ := (CppOrder.lt_iff _ _).1 (q3.1 rfl)
      refine h3.2 ((CppOrder.lt_iff _ _).2 ⟨cle_left ha.1, a2, ?_⟩)
      rw [Bool.eq_false_iff]; intro hc; rw [cle_trans hc ha.1] at a3; cases a3
    | zero =>
      obtain ⟨a1, a2⟩ := (CppOrder.eq_iff _ _).1 (q4.1 rfl)
      exact h4.2 (by rw [Bool.and_eq_true]; exact ⟨cle_trans ha.1 a1, cle_trans a2 ha.2⟩)

/-- C95, C96: `sgn(x) == v` may be used in conditions, for every value type with a zero that is not a NaN. -/
theorem C95_sgn_eq (hn : ∀ k, (vals k).Nodup) (s : σ) [CppNum (Ty s)] (hz : NotNan (CppNum.zero : Ty s)) (v : Sign) : (sgnPred (Ty := Ty) (vals := vals) s v).Lawful := by
  refine MPred.of1_lawful hn (.ivl s) _ _ fun dbg (X : Ivl (Ty s)) (hX : Proper X) => ?_
  have hval : ∃ V, CSet.ofVal Sign.vals v = .ok V ∧ ∀ w, SMem w V ↔ w = v := by
    cases v <;> exact ⟨_, rfl, by intro w; cases w <;> decide⟩
  obtain ⟨V, e, hV⟩ := hval
  obtain ⟨R, h1, exact⟩ := sgn_exact s hz dbg X hX
  have hlo : X.lo ∈ᵢ X := ⟨cle_left hX, hX⟩
  have sc : ∀ x, x ∈ᵢ X → ∃ s, sgnScalar false (CppNum.zero : Ty _) x = .ok s ∧ (s = .pos ↔ lt CppNum.zero x = true) ∧ (s = .neg ↔ lt x CppNum.zero = true) ∧
      (s = .zero ↔ CppVal.eq x CppNum.zero = true) := fun x hx => C08_sgn false CppNum.zero x hz (cle_left hx.2)
  obtain ⟨w, hw, _⟩ := sc _ hlo
  obtain ⟨B, g1, g2⟩ := C06_eq (by decide) dbg R V ⟨w, (exact w).2 ⟨_, hlo, hw⟩⟩ ⟨v, (hV v).2 rfl⟩
  refine ⟨B, by simp only [h1, e, ok_bind, g1], fun r => (g2 r).trans ⟨?_, ?_⟩⟩
  · rintro ⟨a, b, ha, hb, hr⟩
    obtain ⟨x, hx, hxa⟩ := (exact a).1 ha
    obtain rfl := (hV b).1 hb
    exact ⟨x, hx, by rw [hxa, ← hr]; simp⟩
  · rintro ⟨x, hx, hr⟩
    obtain ⟨a, q1, _⟩ := sc x hx
    exact ⟨a, v, (exact a).2 ⟨x, hx, q1⟩, (hV v).2 rfl, by rw [← hr, q1]; simp⟩

/-- C95: `!` of a conjunction or disjunction that has a set of truth values as one of its operands is only a set of truth values: `constrain` with it does not return. -/
theorem C95_not_mixed (dbg : Bool) (disc : σ → Bool) (S : Env (Dm Ty vals)) (e f : MCond Ty vals) (c : HCond Ty) (y : σ × Nat) (x R : Ivl (Ty y.1))
    (he : (∃ g args, e = .pred g args) ∨ ∃ g args, f = .pred g args)
    (hb : (MCond.not (.and e f)).build dbg disc S = .ok c ∨ (MCond.not (.or e f)).build dbg disc S = .ok c) : constrainH dbg (disc y.1) y.1 y.2 x c ≠ .ok R := by
  have h : ∀ k m : Skel Ty, k.isCond = false ∨ m.isCond = false → (k.and m).neg = .plain ∧ (k.or m).neg = .plain := by
    intro k m h
    unfold Skel.and Skel.or
    constructor <;> split <;> first | rfl | (rcases h with h | h <;> simp [Skel.neg, h])
  have hk : e.skel.isCond = false ∨ f.skel.isCond = false := by
    rcases he with ⟨g, args, rfl⟩ | ⟨g, args, rfl⟩
    exacts [.inl rfl, .inr rfl]
  obtain ⟨h1, h2⟩ := h _ _ hk
  rcases hb with hb | hb
  · exact C95_unmentioned dbg disc S _ c y x R hb (by unfold MCond.seenUses MCond.skelP; simp only [if_true, MCond.skel, h1]; rfl)
  · exact C95_unmentioned dbg disc S _ c y x R hb (by unfold MCond.seenUses MCond.skelP; simp only [if_true, MCond.skel, h2]; rfl)

end generic

section float
variable {K : Type} [Field K] [LinearOrder K] [IsStrictOrderedRing K] [Fmt K] {σ κ : Type} [DecidableEq σ] [DecidableEq κ] {Ty : σ → Type} {En : κ → Type} [∀ k, DecidableEq (En k)] {vals : (k : κ) → List (En k)} [∀ s, CppVal (Ty s)] [∀ s, CppOrder (Ty s)]
  [∀ s, CppLimits (Ty s)] [∀ s, CppLawfulLimits (Ty s)] [∀ s, CppStep (Ty s)]

/-- C95, C96: `isinf(x)`, `isfinite(x)` and `isnan(x)` may be used in conditions. -/
theorem C95_classify : (MPred.of1 (Ty := STy (Fl K)) (vals := KVals) (.ivl .val) isInfI Fl.isInf).Lawful ∧ (MPred.of1 (Ty := STy (Fl K)) (vals := KVals) (.ivl .val) isFiniteI Fl.isFinite).Lawful ∧
    (MPred.of1 (Ty := STy (Fl K)) (vals := KVals) (.ivl .val) isNanI Fl.isNan).Lawful := by
  refine ⟨MPred.of1_lawful KVals_nodup _ _ _ C35_isinf, MPred.of1_lawful KVals_nodup _ _ _ C35_isfinite_partial, MPred.of1_lawful KVals_nodup _ _ _ fun dbg (X : Ivl (Fl K)) (hX : Proper X) => ?_⟩
  obtain ⟨R, h1, h2, h3⟩ := C35_isnan dbg X (assigned_of_proper hX)
  have hn := h3.2 ⟨Fl.ne_nan_of_le_left hX, Fl.ne_nan_of_le_right hX⟩
  have hf : ∀ a : Fl K, a ∈ᵢ X → Fl.isNan a = false := by
    intro a ha
    have := Fl.ne_nan_of_le_left ha.2
    cases a <;> simp_all [Fl.isNan]
  refine ⟨R, h1, fun r => ⟨fun h => ?_, ?_⟩⟩
  · refine ⟨X.lo, ⟨cle_left hX, hX⟩, ?_⟩
    rw [hf _ ⟨cle_left hX, hX⟩]
    cases r
    · rfl
    · exact absurd h hn
  · rintro ⟨a, ha, rfl⟩
    change BMem (Fl.isNan a) R
    rw [hf a ha]; exact h2
end float

/-! Non-vacuity. -/
section examples
attribute [local instance] exactFmt
local instance : CppNum (STy (Fl ℚ) .val) := inferInstanceAs (CppNum (Fl ℚ))

private abbrev zx : Index := ⟨0, by decide, by decide⟩
/-- `isfinite(x)` -/
def finitePred : MPred (STy (Fl ℚ)) KVals := MPred.of1 (.ivl .val) (isFiniteI (K := ℚ)) Fl.isFinite
/-- `isfinite(x) & (x <= y)` -/
def finiteLe : MCond (STy (Fl ℚ)) KVals := .and (.pred finitePred fun _ => 0) (.cmp .val .le (.var 0) (.var 1))

/-- `auto r = T{ }; auto c = isfinite(x) & (x <= y);
if (possibly(c)) { auto xc = constrain(x, c); assign_partial(r, xc); }
if (possibly(!c)) { assign_partial(r, y); }` -/
def clampFinite : MProg (STy (Fl ℚ)) KVals := .seq (.decl (.ivl .val, 2)) <| .branch finiteLe (.seq (.constrain .val 3 0 0) (.assignPartial (.ivl .val) 2 3)) (.assignPartial (.ivl .val) 2 1)
/-- the same, but with `auto xc = constrain(x, !c)` in the second branch -/
def clampLost : MProg (STy (Fl ℚ)) KVals := .seq (.decl (.ivl .val, 2)) <| .branch finiteLe (.assignPartial (.ivl .val) 2 0) (.seq (.constrain .val 3 0 0) (.assignPartial (.ivl .val) 2 3))

private def inI : Env (Dm (STy (Fl ℚ)) KVals) := varsI (fun _ => ⟨zx, zx⟩) (fun n => if n = 0 then ⟨.num 0, .pinf⟩ else ⟨.num 3, .num 12⟩)
private def inS : Env (Sc (STy (Fl ℚ)) KEn) := varsS (fun _ => zx) (fun n => if n = 0 then .pinf else .num 4)

/-- `[0,+inf]` and `[3,12]`: the result is `[0,12]`; `+inf` and `4`: the result is `4`.  The variant runs into a contract violation. -/
example : (do let r ← runMI true (fun s => s == Srt.idx) clampFinite inI []; return (valOf 2 r, r.2)) = .ok (⟨.num 0, .num 12⟩, true) ∧
    (do let r ← runMS (zeros zx (.num 0 : Fl ℚ)) clampFinite inS []; return valOfS 2 r) = .ok (.num 4) ∧
    (do let r ← runMI true (fun s => s == Srt.idx) clampLost inI []; return (valOf 2 r, r.2)) = .error .contract := by
  refine ⟨by decide +kernel, by decide +kernel, by decide +kernel⟩

/-- the rules reject the variant -/
example (Γ : MCtx (STy (Fl ℚ)) KVals) : ¬ clampLost.Wf (MCtx.start [(.ivl .val, 0), (.ivl .val, 1)]) Γ := by
  rintro ⟨Γ1, ⟨-, rfl⟩, -, Γp, Γq, -, ⟨Γ2, ⟨e, pol, h1, -, -, h2, -⟩, -⟩, -⟩
  cases h1
  exact absurd h2 (by decide)

private theorem clamp_wf : clampFinite.Wf (MCtx.start [(.ivl .val, 0), (.ivl .val, 1)]) ⟨[(.ivl .val, 2), (.ivl .val, 0), (.ivl .val, 1)], [(.ivl .val, 0), (.ivl .val, 1), (.ivl .val, 2), (.ivl .val, 0), (.ivl .val, 1)], [], []⟩ := by
  refine ⟨_, ⟨by decide, rfl⟩, ⟨⟨C95_classify.2.1, fun _ => by simp [finitePred, MPred.of1, MCtx.start]⟩, by simp [MCond.ok.term, MCtx.start], by simp [MCond.ok.term, MCtx.start]⟩,
    _, _, ⟨_, ⟨finiteLe, true, rfl, by decide, by decide, by decide, by decide, rfl⟩, by decide, by decide, by decide, rfl⟩, ⟨by decide, by decide, by decide, rfl⟩, rfl⟩

/-- all hypotheses of `C95_encloses` hold for the first program, whatever the inputs -/
example (S S' : Env (Dm (STy (Fl ℚ)) KVals)) (s : Env (Sc (STy (Fl ℚ)) KEn)) (h0 : s (.ivl .val, 0) ∈ₘ S (.ivl .val, 0)) (h1 : s (.ivl .val, 1) ∈ₘ S (.ivl .val, 1))
    (hr : runMI false (fun s => s == Srt.idx) clampFinite S [] = .ok (S', true)) :
    ∃ s', runMS (zeros zx (.num 0 : Fl ℚ)) clampFinite s [] = .ok s' ∧ s' (.ivl .val, 2) ∈ₘ S' (.ivl .val, 2) := by
  obtain ⟨s', g1, g2⟩ := C95_encloses KVals_nodup false (fun s => s == Srt.idx) (zeros zx (.num 0 : Fl ℚ))
    (fun s h => by cases s; exacts [lawfulStep_bint _ _, absurd h (by decide)]) clampFinite [(.ivl .val, 0), (.ivl .val, 1)] _ S S' s
    ⟨trivial, ⟨trivial, trivial⟩, trivial⟩ clamp_wf
    (fun x hx => by simp only [List.mem_cons, List.not_mem_nil, or_false] at hx; rcases hx with rfl | rfl <;> assumption) hr
  exact ⟨s', g1, g2 _ (by decide)⟩

example : (sgnPred (Ty := STy (Fl ℚ)) (vals := KVals) .val .neg).Lawful ∧ (boolPred (Ty := STy (Fl ℚ)) (vals := KVals) true).Lawful := ⟨C95_sgn_eq KVals_nodup Srt.val (by decide) .neg, C95_bool KVals_nodup true⟩
example : (sgnPred (Ty := STy (Fl ℚ)) (vals := KVals) .val .neg).ivl true (fun _ => (⟨.num (-1), .num 3⟩ : Ivl (Fl ℚ))) = .ok BoolSet.both ∧
    (sgnPred (Ty := STy (Fl ℚ)) (vals := KVals) .val .neg).ivl true (fun _ => (⟨.num 1, .num 3⟩ : Ivl (Fl ℚ))) = .ok (BoolSet.single false) := by
  refine ⟨by decide +kernel, by decide +kernel⟩
end examples

end Intervals.Props
