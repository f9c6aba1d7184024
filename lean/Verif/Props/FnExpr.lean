import Verif.Spec.FnExpr
import Verif.Props.Expr
import Verif.Props.NanElem
/-!
# C74 in floating-point arithmetic: expressions with monotone functions
-/
set_option linter.unusedSectionVars false
set_option linter.unusedSimpArgs false
namespace Intervals.Props
open Intervals CppVal Spec CppNum

variable {K : Type} [Field K] [LinearOrder K] [IsStrictOrderedRing K] [Fmt K] [FloorRing K] [Libm K]

theorem monoFn_scalar (dbg : Bool) (op : MonoFn) (x : Fl K) (h : op.Dom x) : op.scalar dbg x = .ok (op.pt x) := by
  cases op
  · simp only [MonoFn.scalar, sqrtS, CppVal.ge, show le (.num 0) x = true from h, expectsDebug_true, ok_bind]; rfl
  · rfl
  · simp only [MonoFn.scalar, logS, CppVal.ge, show le (.num 0) x = true from h, expectsDebug_true, ok_bind]; rfl
  · rfl
  · simp only [MonoFn.scalar, asinS, CppVal.ge, show le (.num (-1)) x = true from h.1, show le x (.num 1) = true from h.2, Bool.and_self, expectsDebug_true, ok_bind]; rfl
  · simp only [MonoFn.scalar, acosS, CppVal.ge, show le (.num (-1)) x = true from h.1, show le x (.num 1) = true from h.2, Bool.and_self, expectsDebug_true, ok_bind]; rfl
  · rfl

theorem monoFn_exact (hL : LibmMono K) (dbg : Bool) (op : MonoFn) (X : Ivl (Fl K)) (hX : Proper X) (hd : op.Dom X.lo ∧ op.Dom X.hi) :
    FloatExact1 op.pt X (op.ivl dbg X) := by
  obtain ⟨m, a, -⟩ := hL
  cases op with
  | sqrt => exact C37_sqrt (fun a b ha hb h => m .sqrt (by simp) a b ha hb h) dbg X hX hd.1
  | cbrt => exact C37_cbrt (fun a b _ _ h => m .cbrt (by simp) a b trivial trivial h) dbg X hX
  | log => exact C37_log (fun a b ha hb h => m .log (by simp) a b ha hb h) dbg X hX hd.1
  | exp => exact C37_exp (fun a b _ _ h => m .exp (by simp) a b trivial trivial h) dbg X hX
  | atan => exact C37_atan (fun a b _ _ h => m .atan (by simp) a b trivial trivial h) dbg X hX
  | asin => exact C37_asin (fun a b ha hb h => m .asin (by simp) a b ha hb h) dbg X hX hd.1.1 hd.2.2
  | acos => exact C37_acos (fun x y hx hy h => a x y hx hy h) dbg X hX hd.1.1 hd.2.2

theorem monoFn_nan (hL : LibmMono K) (dbg : Bool) (op : MonoFn) (hd : op.Dom (nanIvl : Ivl (Fl K)).lo) : op.ivl dbg (nanIvl : Ivl (Fl K)) = .ok nanIvl := by
  have e3 : (nanIvl : Ivl (Fl K)).lo = .nan := rfl
  have e4 : (nanIvl : Ivl (Fl K)).hi = .nan := rfl
  rw [e3] at hd
  cases op with
  | sqrt => exact absurd hd (by simp [MonoFn.Dom])
  | log => exact absurd hd (by simp [MonoFn.Dom])
  | asin => exact absurd hd (by simp [MonoFn.Dom])
  | acos => exact absurd hd (by simp [MonoFn.Dom])
  | cbrt => simp [MonoFn.ivl, cbrtI, nan_assigned, e3, e4, show Libm.cbrt (.nan : Fl K) = .nan from hL.2.2 .cbrt, fub_nan]
  | exp => simp [MonoFn.ivl, expI, nan_assigned, e3, e4, show Libm.exp (.nan : Fl K) = .nan from hL.2.2 .exp, make_nan]
  | atan => simp [MonoFn.ivl, atanI, nan_assigned, e3, e4, show Libm.atan (.nan : Fl K) = .nan from hL.2.2 .atan, fub_nan]

theorem fexpr_encl (hL : LibmMono K) (dbg : Bool) (X : Nat → Ivl (Fl K)) (ρ : Nat → Fl K) (hρ : ∀ i, ρ i ∈ᵢ X i) (e : FExpr K) (hs : e.Safe dbg X ρ) :
    ∃ A, e.ivl dbg X = .ok A ∧ Encl (e.point ρ) A := by
  induction e with
  | const c => exact ⟨_, rfl, encl_scalar c⟩
  | var i => exact ⟨_, rfl, encl_ivl (.inr (hρ i))⟩
  | un op e ih =>
    obtain ⟨A, eA, hA⟩ := ih hs
    cases A with
    | scalar v =>
      refine ⟨.scalar (op.pt v), by simp only [FExpr.ivl, eA, ok_bind]; rfl, ?_⟩
      rw [FExpr.point, hA.1 v rfl]; exact encl_scalar _
    | ivl x =>
      rcases hA.2 with hn | ha
      · rcases nan_cases hn with h | h
        · cases h
        · cases h
          exact ⟨.ivl nanIvl, by simp only [FExpr.ivl, eA, ok_bind, un_nan]; rfl, encl_nan⟩
      · obtain ⟨R, eR, h⟩ := un_encl dbg op (show _ ∈ᵢ x from ha)
        exact ⟨.ivl R, by simp only [FExpr.ivl, eA, ok_bind, eR]; rfl, encl_ivl (.inr h)⟩
  | fn op e ih =>
    obtain ⟨A, eA, hA⟩ := ih hs.1
    have hd := hs.2 A eA
    cases A with
    | scalar v =>
      refine ⟨.scalar (op.pt v), by simp only [FExpr.ivl, eA, ok_bind, monoFn_scalar dbg op v hd.1]; rfl, ?_⟩
      rw [FExpr.point, hA.1 v rfl]; exact encl_scalar _
    | ivl x =>
      rcases hA.2 with hn | ha
      · rcases nan_cases hn with h | h
        · cases h
        · cases h
          exact ⟨.ivl nanIvl, by simp only [FExpr.ivl, eA, ok_bind, monoFn_nan hL dbg op hd.1]; rfl, encl_nan⟩
      · obtain ⟨R, eR, h, -, -⟩ := monoFn_exact hL dbg op x (properA_of_mem (A := .ivl x) ha) hd
        exact ⟨.ivl R, by simp only [FExpr.ivl, eA, ok_bind, eR]; rfl, encl_ivl (.inr (h _ ha))⟩
  | bin op e₁ e₂ ih₁ ih₂ =>
    obtain ⟨s1, s2, s3⟩ := hs
    obtain ⟨A, eA, hA⟩ := ih₁ s1
    obtain ⟨B, eB, hB⟩ := ih₂ s2
    by_cases ns : (∃ v, A = .scalar v) ∧ ∃ w, B = .scalar w
    · obtain ⟨⟨v, rfl⟩, ⟨w, rfl⟩⟩ := ns
      refine ⟨.scalar (op.pt v w), by simp only [FExpr.ivl, eA, eB, ok_bind]; rfl, ?_⟩
      rw [FExpr.point, hA.1 v rfl, hB.1 w rfl]; exact encl_scalar _
    · obtain ⟨R, eR, h⟩ := bin_encl dbg op hA hB ns (s3 A B eA eB).1 (s3 A B eA eB).2
      refine ⟨.ivl R, ?_, h⟩
      simp only [FExpr.ivl, eA, eB, ok_bind]
      cases A with
      | scalar v =>
        cases B with
        | scalar w => exact absurd ⟨⟨_, rfl⟩, ⟨_, rfl⟩⟩ ns
        | ivl y => simp only [eR, ok_bind]; rfl
      | ivl x => simp only [eR, ok_bind]; rfl

/-- C74 in every floating-point format, with any `<cmath>` that is monotone on its domains: the interval result encloses the result of the same
computation with numbers.  Full statement: without `Safe`, and with the periodic functions; false there (see C46_fundamental_partial; C38 and C39
hold in exact arithmetic only). -/
theorem C74_float_partial (hL : LibmMono K) (dbg : Bool) (X : Nat → Ivl (Fl K)) (ρ : Nat → Fl K) (hρ : ∀ i, ρ i ∈ᵢ X i) (e : FExpr K)
    (hs : e.Safe dbg X ρ) : ∃ A, e.ivl dbg X = .ok A ∧ (IsNanA A ∨ e.point ρ ∈ₐ A) := by
  obtain ⟨A, eA, hA⟩ := fexpr_encl hL dbg X ρ hρ e hs
  exact ⟨A, eA, hA.2⟩

/-- the assumption on `<cmath>` holds for the correctly rounded functions in every format -/
theorem libmMono_real [Fmt ℝ] : LibmMono ℝ := by
  refine ⟨?_, fun a b ha hb h => acos_anti a b ha hb h, ?_⟩
  · intro op hop a b ha hb h
    cases op with
    | sqrt => exact sqrt_mono a b ha hb h
    | cbrt => exact cbrt_mono a b trivial trivial h
    | log => exact log_mono a b ha hb h
    | exp => exact exp_mono a b trivial trivial h
    | asin => exact asin_mono a b ha hb h
    | acos => exact absurd rfl hop
    | atan => exact atan_mono a b trivial trivial h
  · intro op; cases op <;> simp [MonoFn.pt, Libm.sqrt, Libm.cbrt, Libm.log, Libm.exp, Libm.asin, Libm.acos, Libm.atan]

/-! A non-trivial instance: `sqrt(x)*exp(y) - 1` with `x ∈ [1,4]`, `y ∈ [1,4]`, in every format. -/
example [Fmt ℝ] : (.bin .sub (.bin .mul (.fn .sqrt (.var 0)) (.fn .exp (.var 1))) (.const (.num 1)) : FExpr ℝ).Safe true
    (fun _ => ⟨.num 1, .num 4⟩) (fun _ => .num 2) := by
  refine ⟨⟨⟨trivial, fun A h => ?_⟩, ⟨trivial, fun A h => ⟨trivial, trivial⟩⟩, fun A B _ _ => by simp⟩, trivial, fun A B _ _ => by simp⟩
  cases h
  exact ⟨show le (Fl.num 0) (.num 1) = true by simp, show le (Fl.num 0) (.num 4) = true by simp⟩
end Intervals.Props
