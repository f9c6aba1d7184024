import Verif.Props.ProgramIso
import Verif.Props.FnExpr
import Verif.Props.IsotoneElem
/-!
# C62, C82: elementary functions in interval-aware programs
-/
set_option linter.unusedSectionVars false
namespace Intervals.Props
open Intervals CppVal Spec

variable {K : Type} [Field K] [LinearOrder K] [IsStrictOrderedRing K] [Fmt K] [FloorRing K] [Libm K]

/-- Assumption about `<cmath>` (C17 F.10): the functions are NaN outside of their domains. -/
def LibmOutside (K : Type) [Field K] [LinearOrder K] [Libm K] : Prop := ∀ (op : MonoFn) (a : Fl K), ¬ op.Dom a → op.pt a = .nan

theorem dom_mem (op : MonoFn) {X : Ivl (Fl K)} (h : op.Dom X.lo ∧ op.Dom X.hi) {a : Fl K} (ha : a ∈ᵢ X) : op.Dom a := by
  cases op with
  | sqrt => exact nonneg_of_mem h.1 ha
  | log => exact nonneg_of_mem h.1 ha
  | asin => exact unit1_of_mem h.1 h.2 ha
  | acos => exact unit1_of_mem h.1 h.2 ha
  | _ => trivial

/-- a call with a valid result: the operand lies in the domain; for `asin` and `acos` this is so only with debug checks (`C37_release`) -/
theorem dom_of_result (hN : LibmOutside K) (dbg : Bool) (op : MonoFn) (hd : op ∈ [MonoFn.asin, .acos] → dbg = true) {X R : Ivl (Fl K)} (hX : Proper X)
    (h : op.ivl dbg X = .ok R) (hR : Proper R) : op.Dom X.lo ∧ op.Dom X.hi := by
  have up : ∀ {a : Fl K}, le a X.lo = true → le a X.hi = true := fun h => CppOrder.le_trans _ _ _ h hX
  have chk : ∀ {b : Bool}, expectsDebug dbg b = .error .contract ∨ expectsDebug dbg b = .ok () := fun {b} => by cases dbg <;> cases b <;> simp [expectsDebug]
  have dn : ∀ {a : Fl K}, le X.hi a = true → le X.lo a = true := fun h => CppOrder.le_trans _ _ _ hX h
  have out : (le (.num (-1)) X.lo = true → le X.hi (.num 1) = true → False) → lt X.lo (.num (-1)) = true ∨ lt (.num 1) X.hi = true := fun h => by
    have nl := CppOrder.le_left _ _ hX; have nh := CppOrder.le_right _ _ hX
    by_cases h1 : le (.num (-1)) X.lo = true
    · right; rw [CppOrder.lt_iff]; exact ⟨by simp, nh, by simpa using h h1⟩
    · left; rw [CppOrder.lt_iff]; exact ⟨nl, by simp, by simpa using h1⟩
  have nn : ∀ {b : Fl K}, ¬ Proper (⟨.nan, b⟩ : Ivl (Fl K)) := fun {b} h => absurd (CppOrder.le_left _ _ h) (by simp)
  cases op with
  | sqrt =>
    by_contra hc
    have h0 : ¬ MonoFn.sqrt.Dom X.lo := fun h => hc ⟨h, up h⟩
    have h1 : Libm.sqrt X.lo = .nan := hN .sqrt _ h0
    have : ∀ b : Fl K, Ivl.fromUnorderedBounds .nan b = .ok ⟨.nan, .nan⟩ := fun b => by
      unfold Ivl.fromUnorderedBounds cmin cmax Ivl.make; simp [CppVal.gt, lt_nan_l, lt_nan_r, expects]
    simp only [MonoFn.ivl, sqrtI, sqrtS, proper_assigned hX, expectsDebug_true, ok_bind] at h
    rcases chk (b := ge X.lo (.num 0)) with e | e
    · rw [e] at h; cases h
    · rcases chk (b := ge X.hi (.num 0)) with e' | e'
      · rw [e, e'] at h; cases h
      · simp only [e, e', ok_bind, pure_bind, h1, this] at h
        cases h; exact nn hR
  | log =>
    by_contra hc
    have h0 : ¬ MonoFn.log.Dom X.lo := fun h => hc ⟨h, up h⟩
    have h1 : Libm.log X.lo = .nan := hN .log _ h0
    have : ∀ b : Fl K, Ivl.make .nan b = .ok ⟨.nan, b⟩ := fun b => by
      unfold Ivl.make; simp [CppVal.gt, lt_nan_l, lt_nan_r, expects]
    simp only [MonoFn.ivl, logI, logS, proper_assigned hX, expectsDebug_true, ok_bind] at h
    rcases chk (b := ge X.lo (.num 0)) with e | e
    · rw [e] at h; cases h
    · rcases chk (b := ge X.hi (.num 0)) with e' | e'
      · rw [e, e'] at h; cases h
      · simp only [e, e', ok_bind, pure_bind, h1, this] at h
        cases h; exact nn hR
  | asin =>
    have := hd (by simp); subst this
    by_contra hc
    rw [show MonoFn.asin.ivl true X = asinI true X from rfl, ((C37_domain X hX).2 (out fun h1 h2 => hc ⟨⟨h1, dn h2⟩, up h1, h2⟩)).1] at h
    cases h
  | acos =>
    have := hd (by simp); subst this
    by_contra hc
    rw [show MonoFn.acos.ivl true X = acosI true X from rfl, ((C37_domain X hX).2 (out fun h1 h2 => hc ⟨⟨h1, dn h2⟩, up h1, h2⟩)).2] at h
    cases h
  | _ => exact ⟨trivial, trivial⟩

/-- C62: `sqrt`, `cbrt`, `log`, `exp`, `atan` may be called in interval-aware programs, in every format and with every `<cmath>` whose functions are monotone on their
domains and NaN outside: the scalar function, with its check, then returns a value within the interval. -/
theorem C62_elem (hL : LibmMono K) (hN : LibmOutside K) (op : MonoFn) (hop : op ≠ .asin ∧ op ≠ .acos) :
    (fn1 (T := Fl K) (fun dbg => op.ivl dbg) (op.scalar true)).Encl := by
  apply fn1_encl
  intro dbg X R a ha hr hR
  have hX : Proper X := proper_of_pt ha
  have hd := dom_of_result hN dbg op (by intro h; simp at h; rcases h with h | h; exacts [absurd h hop.1, absurd h hop.2]) hX hr hR
  obtain ⟨R', e, i, -⟩ := monoFn_exact hL dbg op X hX hd
  rw [hr] at e; cases e
  exact ⟨_, monoFn_scalar true op a (dom_mem op hd ha), i a ha⟩

/-- C62: so may all elementary functions with a monotone implementation, `asin` and `acos` among them, in debug builds.  (Without the checks: `C62_asin_release`.) -/
theorem C62_elem_debug (hL : LibmMono K) (hN : LibmOutside K) (op : MonoFn) : (fn1 (T := Fl K) (fun _ => op.ivl true) (op.scalar true)).Encl := by
  apply fn1_encl
  intro dbg X R a ha hr hR
  have hX : Proper X := proper_of_pt ha
  have hd := dom_of_result hN true op (fun _ => rfl) hX hr hR
  obtain ⟨R', e, i, -⟩ := monoFn_exact hL true op X hX hd
  rw [hr] at e; cases e
  exact ⟨_, monoFn_scalar true op a (dom_mem op hd ha), i a ha⟩

theorem elem_isoDef (hL : LibmMono K) (hN : LibmOutside K) (dbg : Bool) (op : MonoFn) (hd : op ∈ [MonoFn.asin, .acos] → dbg = true) {X Y Q : Ivl (Fl K)}
    (pX : Proper X) (pY : Proper Y) (hs : SubI X Y) (hQ : op.ivl dbg Y = .ok Q) (pQ : Proper Q) : ∃ R, op.ivl dbg X = .ok R ∧ Proper R ∧ SubI R Q := by
  have hd' := dom_of_result hN dbg op hd pY hQ pQ
  have l := hs _ (lo_mem (X := .ivl X) pX); have u := hs _ (hi_mem (X := .ivl X) pX)
  have e1 := monoFn_exact hL dbg op X pX ⟨dom_mem op hd' l, dom_mem op hd' u⟩
  obtain ⟨R, R', g, g', h⟩ := isotone1 hs (exactV_of e1) (exactV_of (monoFn_exact hL dbg op Y pY hd'))
  rw [hQ] at g'; cases g'
  obtain ⟨R1, k, i, -⟩ := e1
  rw [g] at k; cases k
  exact ⟨R, g, proper_of_pt (i _ (lo_mem (X := .ivl X) pX)), h⟩

/-- C82: the same functions are inclusion isotone, and defined on narrower operands if they are on wider ones. -/
theorem C82_elem (hL : LibmMono K) (hN : LibmOutside K) (op : MonoFn) (hop : op ≠ .asin ∧ op ≠ .acos) :
    (fn1 (T := Fl K) (fun dbg => op.ivl dbg) (op.scalar true)).IsoDef := by
  apply fn1_isoDef
  intro dbg X Y Q pX pY hs hQ pQ
  exact elem_isoDef hL hN dbg op (by intro h; simp at h; rcases h with h | h; exacts [absurd h hop.1, absurd h hop.2]) pX pY hs hQ pQ
/-- C82: all elementary functions with a monotone implementation in debug builds -/
theorem C82_elem_debug (hL : LibmMono K) (hN : LibmOutside K) (op : MonoFn) : (fn1 (T := Fl K) (fun _ => op.ivl true) (op.scalar true)).IsoDef := by
  apply fn1_isoDef
  intro dbg X Y Q pX pY hs hQ pQ
  exact elem_isoDef hL hN true op (fun _ => rfl) pX pY hs hQ pQ

/-- the assumptions hold for the correctly rounded functions in every format -/
theorem libmOutside_real [Fmt ℝ] : LibmOutside ℝ := by
  intro op a h
  cases op with
  | sqrt => exact ((real_outside a).1 h).1
  | log => exact ((real_outside a).1 h).2
  | asin => exact ((real_outside a).2 h).1
  | acos => exact ((real_outside a).2 h).2
  | _ => exact absurd trivial h

/-- C62, why `asin` and `acos` need the debug checks: without them `asin([0, 2])` is the proper interval `[0, 0]`, which does not contain `asin(1)`. -/
theorem C62_asin_release : letI := exactFmt ℝ
    ¬ (fn1 (T := Fl ℝ) (fun dbg => MonoFn.asin.ivl dbg) (MonoFn.asin.scalar true)).Encl := by
  letI := exactFmt ℝ
  intro h
  have e : asinI false (⟨.num 0, .num 2⟩ : Ivl (Fl ℝ)) = .ok ⟨.num 0, .num 0⟩ := by
    have := (C37_release (K := ℝ) ⟨.num 0, .num 2⟩ (by simp [Proper]) (fun a h => (real_outside a).1 h) (fun a h => (real_outside a).2 h)).2.2.2.1 (by simp [Unit1])
    rw [this]; simp [Libm.asin]; rfl
  obtain ⟨v, h1, h2⟩ := h false [⟨.num 0, .num 2⟩] [.num 1] ⟨.num 0, .num 0⟩ rfl (.cons ⟨by simp, by simp⟩ .nil) e (by simp [Proper])
  have h1' : MonoFn.asin.scalar true (.num (1:ℝ)) = .ok v := h1
  rw [monoFn_scalar true .asin (.num (1:ℝ)) ⟨by simp, by simp⟩] at h1'
  have hv : v = .num (Real.pi / 2) := by
    rw [← Except.ok.inj h1']; simp [MonoFn.pt, Libm.asin]; rfl
  rw [hv] at h2
  have := h2.2
  simp at this
  linarith [Real.pi_pos]

/-! `sqrt(x)` and `sqrt(y)` in an interval-aware program over the reals: the hypotheses of `C62_encloses` and `C82_defined` are met. -/
example [Fmt ℝ] :
    let p : Prog (Fl ℝ) := .seq (.letF 2 (fn1 (fun dbg => MonoFn.sqrt.ivl dbg) (MonoFn.sqrt.scalar true)) [0])
      (.letF 3 (fn1 (fun dbg => MonoFn.sqrt.ivl dbg) (MonoFn.sqrt.scalar true)) [1])
    p.AllFn Fn.Encl ∧ p.AllFn Fn.IsoDef :=
  ⟨⟨C62_elem libmMono_real libmOutside_real .sqrt (by simp), C62_elem libmMono_real libmOutside_real .sqrt (by simp)⟩,
    ⟨C82_elem libmMono_real libmOutside_real .sqrt (by simp), C82_elem libmMono_real libmOutside_real .sqrt (by simp)⟩⟩
end Intervals.Props
