import Verif.Model.RealLibm
import Verif.Lemmas.Elem
/-!
# C37: monotone elementary functions

For every implementation of `<cmath>` that is monotone on the domain, and (`…_real`) for the correctly rounded one in any format.
-/
set_option linter.unusedSectionVars false
namespace Intervals.Props
open Intervals CppVal Spec

section generic
variable {K : Type} [Field K] [LinearOrder K] [IsStrictOrderedRing K] [Fmt K] [Libm K]

/-- `f` is monotone on the numbers in `D` (and therefore never NaN there) -/
def MonoOnFl (f : Fl K → Fl K) (D : Fl K → Prop) : Prop := ∀ a b, D a → D b → le a b = true → le (f a) (f b) = true
/-- `f` is antitone on the numbers in `D` -/
def AntiOnFl (f : Fl K → Fl K) (D : Fl K → Prop) : Prop := ∀ a b, D a → D b → le a b = true → le (f b) (f a) = true

theorem hull_unordered {f : Fl K → Fl K} {X : Ivl (Fl K)} {u v : Fl K} (hu : u = f X.lo ∧ v = f X.hi ∨ u = f X.hi ∧ v = f X.lo)
    (hX : Proper X) (betw : ∀ a, a ∈ᵢ X → Betw (f X.lo) (f X.hi) (f a)) : FloatExact1 f X (Ivl.fromUnorderedBounds u v) := by
  have hlo : X.lo ∈ᵢ X := lo_mem (X := .ivl X) hX
  have hhi : X.hi ∈ᵢ X := hi_mem (X := .ivl X) hX
  have nlo : NotNan (f X.lo) := by have := betw _ hlo; unfold Betw at this; unfold NotNan; grind
  have nhi : NotNan (f X.hi) := by have := betw _ hhi; unfold Betw at this; unfold NotNan; grind
  have key : ∃ R, Ivl.fromUnorderedBounds u v = .ok R ∧ HullOf [f X.lo, f X.hi] R := by
    rcases hu with ⟨rfl, rfl⟩ | ⟨rfl, rfl⟩
    · exact hull2_ok nlo nhi
    · obtain ⟨R, e, h⟩ := hull2_ok nhi nlo
      exact ⟨R, e, h.congr (by simp [or_comm])⟩
  obtain ⟨R, e, h1, h2, h3⟩ := key
  simp only [List.mem_cons, List.not_mem_nil, or_false, forall_eq_or_imp, forall_eq] at h1 h2 h3
  refine ⟨R, e, fun a ha => ?_, ?_, ?_⟩
  · have hb := betw a ha
    unfold Betw at hb; unfold Pt
    grind
  · rcases h1 with h | h <;> rw [h]
    exacts [⟨_, hlo, rfl⟩, ⟨_, hhi, rfl⟩]
  · rcases h2 with h | h <;> rw [h]
    exacts [⟨_, hlo, rfl⟩, ⟨_, hhi, rfl⟩]

theorem betw_mono {f : Fl K → Fl K} {X : Ivl (Fl K)} (hX : Proper X) (mono : MonoOnFl f (· ∈ᵢ X)) (a : Fl K) (ha : a ∈ᵢ X) :
    Betw (f X.lo) (f X.hi) (f a) :=
  ⟨Or.inl (mono _ _ (lo_mem (X := .ivl X) hX) ha ha.1), Or.inr (mono _ _ ha (hi_mem (X := .ivl X) hX) ha.2)⟩
theorem betw_anti {f : Fl K → Fl K} {X : Ivl (Fl K)} (hX : Proper X) (anti : AntiOnFl f (· ∈ᵢ X)) (a : Fl K) (ha : a ∈ᵢ X) :
    Betw (f X.lo) (f X.hi) (f a) :=
  ⟨Or.inr (anti _ _ ha (hi_mem (X := .ivl X) hX) ha.2), Or.inl (anti _ _ (lo_mem (X := .ivl X) hX) ha ha.1)⟩

theorem proper_assigned {X : Ivl (Fl K)} (hX : Proper X) : X.assigned = true := assigned_of_proper (X := .ivl X) hX

/-- non-negative values -/
def Nonneg (a : Fl K) : Prop := le (.num 0) a = true
/-- values between -1 and 1 -/
def Unit1 (a : Fl K) : Prop := le (.num (-1)) a = true ∧ le a (.num 1) = true

theorem nonneg_of_mem {X : Ivl (Fl K)} (h0 : Nonneg X.lo) {a : Fl K} (ha : a ∈ᵢ X) : Nonneg a := CppOrder.le_trans _ _ _ h0 ha.1
theorem unit1_of_mem {X : Ivl (Fl K)} (h0 : Unit1 X.lo) (h1 : Unit1 X.hi) {a : Fl K} (ha : a ∈ᵢ X) : Unit1 a :=
  ⟨CppOrder.le_trans _ _ _ h0.1 ha.1, CppOrder.le_trans _ _ _ ha.2 h1.2⟩

/-- C37 `sqrt`, for a library function that is monotone on the non-negative numbers -/
theorem C37_sqrt (mono : MonoOnFl (Libm.sqrt : Fl K → Fl K) Nonneg) (dbg : Bool) (X : Ivl (Fl K)) (hX : Proper X) (h0 : Nonneg X.lo) :
    FloatExact1 Libm.sqrt X (sqrtI dbg X) := by
  have hh : Nonneg X.hi := CppOrder.le_trans _ _ _ h0 hX
  unfold sqrtI sqrtS
  simp only [proper_assigned hX, CppVal.ge, show le (.num 0) X.lo = true from h0, show le (.num 0) X.hi = true from hh, expectsDebug_true, ok_bind, pure_bind]
  exact hull_unordered (.inl ⟨rfl, rfl⟩) hX (betw_mono hX fun a b ha hb => mono a b (nonneg_of_mem h0 ha) (nonneg_of_mem h0 hb))

/-- C37 `cbrt` -/
theorem C37_cbrt (mono : MonoOnFl (Libm.cbrt : Fl K → Fl K) (fun _ => True)) (dbg : Bool) (X : Ivl (Fl K)) (hX : Proper X) :
    FloatExact1 Libm.cbrt X (cbrtI dbg X) := by
  unfold cbrtI
  simp only [proper_assigned hX, expectsDebug_true, ok_bind]
  exact hull_unordered (.inl ⟨rfl, rfl⟩) hX (betw_mono hX fun a b _ _ => mono a b trivial trivial)

/-- C37 `log` -/
theorem C37_log (mono : MonoOnFl (Libm.log : Fl K → Fl K) Nonneg) (dbg : Bool) (X : Ivl (Fl K)) (hX : Proper X) (h0 : Nonneg X.lo) :
    FloatExact1 Libm.log X (logI dbg X) := by
  have hh : Nonneg X.hi := CppOrder.le_trans _ _ _ h0 hX
  unfold logI logS
  simp only [CppVal.ge, show le (.num 0) X.lo = true from h0, show le (.num 0) X.hi = true from hh, expectsDebug_true, ok_bind, pure_bind]
  exact mono_make dbg hX fun a b ha hb => mono a b (nonneg_of_mem h0 ha) (nonneg_of_mem h0 hb)

/-- C37 `exp` -/
theorem C37_exp (mono : MonoOnFl (Libm.exp : Fl K → Fl K) (fun _ => True)) (dbg : Bool) (X : Ivl (Fl K)) (hX : Proper X) :
    FloatExact1 Libm.exp X (expI dbg X) :=
  mono_make dbg hX fun a b _ _ => mono a b trivial trivial

/-- C37 `atan` -/
theorem C37_atan (mono : MonoOnFl (Libm.atan : Fl K → Fl K) (fun _ => True)) (dbg : Bool) (X : Ivl (Fl K)) (hX : Proper X) :
    FloatExact1 Libm.atan X (atanI dbg X) := by
  unfold atanI
  simp only [proper_assigned hX, expectsDebug_true, ok_bind]
  exact hull_unordered (.inl ⟨rfl, rfl⟩) hX (betw_mono hX fun a b _ _ => mono a b trivial trivial)

/-- C37 `asin` -/
theorem C37_asin (mono : MonoOnFl (Libm.asin : Fl K → Fl K) Unit1) (dbg : Bool) (X : Ivl (Fl K)) (hX : Proper X)
    (h0 : le (.num (-1)) X.lo = true) (h1 : le X.hi (.num 1) = true) : FloatExact1 Libm.asin X (asinI dbg X) := by
  have hl : Unit1 X.lo := ⟨h0, CppOrder.le_trans _ _ _ hX h1⟩
  have hh : Unit1 X.hi := ⟨CppOrder.le_trans _ _ _ h0 hX, h1⟩
  unfold asinI asinS
  simp only [proper_assigned hX, CppVal.ge, hl.1, hl.2, hh.1, hh.2, Bool.and_self, expectsDebug_true, ok_bind, pure_bind]
  exact hull_unordered (.inl ⟨rfl, rfl⟩) hX (betw_mono hX fun a b ha hb => mono a b (unit1_of_mem hl hh ha) (unit1_of_mem hl hh hb))

/-- C37 `acos` -/
theorem C37_acos (anti : AntiOnFl (Libm.acos : Fl K → Fl K) Unit1) (dbg : Bool) (X : Ivl (Fl K)) (hX : Proper X)
    (h0 : le (.num (-1)) X.lo = true) (h1 : le X.hi (.num 1) = true) : FloatExact1 Libm.acos X (acosI dbg X) := by
  have hl : Unit1 X.lo := ⟨h0, CppOrder.le_trans _ _ _ hX h1⟩
  have hh : Unit1 X.hi := ⟨CppOrder.le_trans _ _ _ h0 hX, h1⟩
  unfold acosI acosS
  simp only [proper_assigned hX, CppVal.ge, hl.1, hl.2, hh.1, hh.2, Bool.and_self, expectsDebug_true, ok_bind, pure_bind]
  exact hull_unordered (.inr ⟨rfl, rfl⟩) hX (betw_anti hX fun a b ha hb => anti a b (unit1_of_mem hl hh ha) (unit1_of_mem hl hh hb))

/-- C37: outside the domain the debug checks fail -/
theorem C37_domain (X : Ivl (Fl K)) (hX : Proper X) :
    (lt X.lo (.num 0) = true → sqrtI true X = .error .contract ∧ logI true X = .error .contract) ∧
    (lt X.lo (.num (-1)) = true ∨ lt (.num 1) X.hi = true → asinI true X = .error .contract ∧ acosI true X = .error .contract) := by
  have nl := CppOrder.le_left _ _ hX; have nh := CppOrder.le_right _ _ hX
  constructor
  · intro h
    have : le (.num 0) X.lo = false := ((CppOrder.lt_iff _ _).mp h).2.2
    unfold sqrtI logI sqrtS logS
    simp [proper_assigned hX, CppVal.ge, this]
  · intro h
    unfold asinI acosI asinS acosS
    rcases h with h | h
    · have : le (.num (-1)) X.lo = false := ((CppOrder.lt_iff _ _).mp h).2.2
      simp only [proper_assigned hX, CppVal.ge, this, expectsDebug_true, ok_bind, Bool.false_and, expectsDebug_debug_false, error_bind, true_and]
      by_cases hb : (le (.num (-1)) X.hi && le X.hi (.num 1)) = true <;> simp [hb]
    · have : le X.hi (.num 1) = false := ((CppOrder.lt_iff _ _).mp h).2.2
      simp only [proper_assigned hX, CppVal.ge, this, expectsDebug_true, ok_bind, Bool.and_false, expectsDebug_debug_false, error_bind, and_true]
      by_cases hb : (le (.num (-1)) X.lo && le X.lo (.num 1)) = true <;> simp [hb]

/-- C37: outside the domain without debug checks, for a library whose functions are NaN there.  A NaN of the first operand of `from_unordered_bounds` takes over both bounds,
a NaN of the second is dropped: `asin` and `acos` then return the value at the other bound as if it were the only one. -/
theorem C37_release (X : Ivl (Fl K)) (hX : Proper X) (hs : ∀ a : Fl K, ¬ Nonneg a → Libm.sqrt a = .nan ∧ Libm.log a = .nan)
    (ha : ∀ a : Fl K, ¬ Unit1 a → Libm.asin a = .nan ∧ Libm.acos a = .nan) :
    (¬ Nonneg X.lo → sqrtI false X = .ok ⟨.nan, .nan⟩ ∧ logI false X = .ok ⟨.nan, Libm.log X.hi⟩) ∧
    (¬ Unit1 X.lo → asinI false X = .ok ⟨.nan, .nan⟩) ∧ (¬ Unit1 X.hi → acosI false X = .ok ⟨.nan, .nan⟩) ∧
    (¬ Unit1 X.hi → asinI false X = .ok ⟨Libm.asin X.lo, Libm.asin X.lo⟩) ∧ (¬ Unit1 X.lo → acosI false X = .ok ⟨Libm.acos X.hi, Libm.acos X.hi⟩) := by
  have e : ∀ b, expectsDebug false b = .ok () := fun b => rfl
  have nl : ∀ a : Fl K, lt .nan a = false := fun a => by rw [Bool.eq_false_iff, Ne, CppOrder.lt_iff]; simp
  have nr : ∀ a : Fl K, lt a .nan = false := fun a => by rw [Bool.eq_false_iff, Ne, CppOrder.lt_iff]; simp
  have m : ∀ a b : Fl K, lt b a = false → Ivl.make a b = .ok ⟨a, b⟩ := fun a b h => by unfold Ivl.make; simp [CppVal.gt, h, expects]
  have s : ∀ a : Fl K, lt a a = false := fun a => by rw [Bool.eq_false_iff, Ne, CppOrder.lt_iff]; grind
  have f1 : ∀ b : Fl K, Ivl.fromUnorderedBounds .nan b = .ok ⟨.nan, .nan⟩ := fun b => by
    unfold Ivl.fromUnorderedBounds cmin cmax; simp only [nl, nr, Bool.false_eq_true, if_false]; exact m _ _ (nl _)
  have f2 : ∀ a : Fl K, Ivl.fromUnorderedBounds a .nan = .ok ⟨a, a⟩ := fun a => by
    unfold Ivl.fromUnorderedBounds cmin cmax; simp only [nl, nr, Bool.false_eq_true, if_false]; exact m _ _ (s _)
  refine ⟨fun h => ⟨?_, ?_⟩, fun h => ?_, fun h => ?_, fun h => ?_, fun h => ?_⟩
  · unfold sqrtI sqrtS; simp only [e, ok_bind, pure_bind, (hs _ h).1, f1]
  · unfold logI logS; simp only [e, ok_bind, pure_bind, (hs _ h).2]; exact m _ _ (nr _)
  · unfold asinI asinS; simp only [e, ok_bind, pure_bind, (ha _ h).1, f1]
  · unfold acosI acosS; simp only [e, ok_bind, pure_bind, (ha _ h).2, f1]
  · unfold asinI asinS; simp only [e, ok_bind, pure_bind, (ha _ h).1, f2]
  · unfold acosI acosS; simp only [e, ok_bind, pure_bind, (ha _ h).2, f2]
end generic

/-! ## The correctly rounded library -/
section real
variable [Fmt ℝ]

theorem realCbrt_cube (k : ℝ) : realCbrt k ^ 3 = k := by
  have h : ∀ r : ℝ, 0 ≤ r → (r ^ ((1:ℝ)/3)) ^ 3 = r := fun r hr => by
    rw [← Real.rpow_natCast, ← Real.rpow_mul hr]; norm_num
  unfold realCbrt
  split
  · have := h (-k) (by linarith)
    linear_combination -this
  · exact h k (by linarith)
theorem realCbrt_mono {k k' : ℝ} (h : k ≤ k') : realCbrt k ≤ realCbrt k' := by
  by_contra hc
  push Not at hc
  have := (Odd.strictMono_pow (R := ℝ) (n := 3) (by decide)) hc
  simp only [realCbrt_cube] at this
  linarith

theorem sqrt_mono : MonoOnFl (Libm.sqrt : Fl ℝ → Fl ℝ) Nonneg := by
  intro a b ha hb h
  cases a <;> cases b <;> simp [Nonneg, Libm.sqrt] at *
  · rw [if_neg (not_lt.mpr hb)]; exact Fl.nzero_le_rnd (Real.sqrt_nonneg _)
  · rw [if_neg (not_lt.mpr ha)]; simp
  · rw [if_neg (not_lt.mpr ha)]; exact Fl.rnd_le_nzero (by rw [Real.sqrt_eq_zero_of_nonpos h])
  · rw [if_neg (not_lt.mpr ha), if_neg (not_lt.mpr hb)]; exact Fmt.rnd_mono _ _ (Real.sqrt_le_sqrt h)
theorem cbrt_mono : MonoOnFl (Libm.cbrt : Fl ℝ → Fl ℝ) (fun _ => True) := by
  have z : realCbrt 0 = 0 := by simp [realCbrt]
  intro a b _ _ h
  cases a <;> cases b <;> simp [Libm.cbrt] at *
  · exact Fl.nzero_le_rnd (z ▸ realCbrt_mono h)
  · exact Fl.rnd_le_nzero (z ▸ realCbrt_mono h)
  · exact Fmt.rnd_mono _ _ (realCbrt_mono h)
theorem log_mono : MonoOnFl (Libm.log : Fl ℝ → Fl ℝ) Nonneg := by
  intro a b ha hb h
  cases a <;> cases b <;> simp [Nonneg, Libm.log] at *
  · rw [if_neg (not_lt.mpr hb)]; split <;> simp
  · rw [if_neg (not_lt.mpr ha)]; split <;> simp
  · rw [if_neg (not_lt.mpr ha), if_pos (le_antisymm h ha)]; simp
  · rw [if_neg (not_lt.mpr ha), if_neg (not_lt.mpr hb)]
    split_ifs with h1 h2 h2
    · simp
    · simp
    · exact absurd (le_antisymm (h2 ▸ h) ha) h1
    · exact Fmt.rnd_mono _ _ (Real.log_le_log (lt_of_le_of_ne ha (Ne.symm h1)) h)
theorem exp_mono : MonoOnFl (Libm.exp : Fl ℝ → Fl ℝ) (fun _ => True) := by
  intro a b _ _ h
  cases a <;> cases b <;> simp [Libm.exp] at *
  · exact Fl.zero_le_rnd (by norm_num)
  · exact Fl.zero_le_rnd (Real.exp_nonneg _)
  · exact Fl.le_refl_of_ne (Fmt.rnd_ne_nan _)
  · exact Fmt.rnd_mono _ _ (by rw [← Real.exp_zero]; exact Real.exp_le_exp.mpr h)
  · exact Fmt.rnd_mono _ _ (by rw [← Real.exp_zero]; exact Real.exp_le_exp.mpr h)
  · exact Fmt.rnd_mono _ _ (Real.exp_le_exp.mpr h)
theorem atan_mono : MonoOnFl (Libm.atan : Fl ℝ → Fl ℝ) (fun _ => True) := by
  have hp := Real.pi_pos
  intro a b _ _ h
  cases a <;> cases b <;> simp [Libm.atan] at *
  · exact Fl.le_refl_of_ne (Fmt.rnd_ne_nan _)
  · exact Fmt.rnd_mono _ _ (by linarith)
  · exact Fl.rnd_le_nzero (by linarith)
  · exact Fmt.rnd_mono _ _ (Real.neg_pi_div_two_lt_arctan _).le
  · exact Fl.le_refl_of_ne (Fmt.rnd_ne_nan _)
  · exact Fl.nzero_le_rnd (by linarith)
  · exact Fl.nzero_le_rnd (Real.arctan_nonneg.mpr h)
  · exact Fmt.rnd_mono _ _ (Real.arctan_lt_pi_div_two _).le
  · exact Fl.rnd_le_nzero (Real.arctan_zero ▸ Real.arctan_mono h)
  · exact Fmt.rnd_mono _ _ (Real.arctan_mono h)
theorem asin_mono : MonoOnFl (Libm.asin : Fl ℝ → Fl ℝ) Unit1 := by
  intro a b ha hb h
  cases a <;> cases b <;> simp [Unit1, Libm.asin] at *
  · rw [if_pos hb]; exact Fl.nzero_le_rnd (Real.arcsin_nonneg.mpr h)
  · rw [if_pos ha]; exact Fl.rnd_le_nzero (Real.arcsin_nonpos.mpr h)
  · rw [if_pos ha, if_pos hb]; exact Fmt.rnd_mono _ _ (Real.monotone_arcsin h)
theorem acos_anti : AntiOnFl (Libm.acos : Fl ℝ → Fl ℝ) Unit1 := by
  intro a b ha hb h
  cases a <;> cases b <;> simp [Unit1, Libm.acos] at *
  · exact Fl.le_refl_of_ne (Fmt.rnd_ne_nan _)
  · rw [if_pos hb]; exact Fmt.rnd_mono _ _ (Real.arccos_zero ▸ Real.antitone_arccos h)
  · rw [if_pos ha]; exact Fmt.rnd_mono _ _ (Real.arccos_zero ▸ Real.antitone_arccos h)
  · rw [if_pos ha, if_pos hb]; exact Fmt.rnd_mono _ _ (Real.antitone_arccos h)

/-- the result contains the rounded function value of every number in `X` -/
def InclReal (f : ℝ → ℝ) (X : Ivl (Fl ℝ)) (res : Outcome (Ivl (Fl ℝ))) : Prop :=
  ∃ R, res = .ok R ∧ ∀ k : ℝ, .num k ∈ᵢ X → Fmt.rnd (f k) ∈ᵢ R

theorem incl_of_exact {f : Fl ℝ → Fl ℝ} {g : ℝ → ℝ} {X : Ivl (Fl ℝ)} {res} (h : FloatExact1 f X res)
    (hg : ∀ k, .num k ∈ᵢ X → f (.num k) = Fmt.rnd (g k)) : InclReal g X res := by
  obtain ⟨R, e, hi, -⟩ := h
  exact ⟨R, e, fun k hk => hg k hk ▸ hi _ hk⟩

/-- C37 for the exact real functions, rounded to any format (`exactFmt ℝ`: not rounded) -/
theorem C37_real (dbg : Bool) (X : Ivl (Fl ℝ)) (hX : Proper X) :
    (Nonneg X.lo → InclReal Real.sqrt X (sqrtI dbg X)) ∧
    InclReal realCbrt X (cbrtI dbg X) ∧
    (lt (.num 0) X.lo = true → InclReal Real.log X (logI dbg X)) ∧
    InclReal Real.exp X (expI dbg X) ∧
    InclReal Real.arctan X (atanI dbg X) ∧
    (le (.num (-1)) X.lo = true → le X.hi (.num 1) = true →
      InclReal Real.arcsin X (asinI dbg X) ∧ InclReal Real.arccos X (acosI dbg X)) := by
  have dom : Nonneg X.lo → ∀ k : ℝ, .num k ∈ᵢ X → 0 ≤ k := fun h0 k hk => by
    have := CppOrder.le_trans _ _ _ h0 hk.1; simpa using this
  refine ⟨fun h0 => ?_, ?_, fun h0 => ?_, ?_, ?_, fun h0 h1 => ⟨?_, ?_⟩⟩
  · exact incl_of_exact (C37_sqrt sqrt_mono dbg X hX h0) fun k hk => by simp [Libm.sqrt, not_lt.mpr (dom h0 k hk)]
  · exact incl_of_exact (C37_cbrt cbrt_mono dbg X hX) fun k hk => rfl
  · have hn : Nonneg X.lo := by unfold Nonneg; grind
    refine incl_of_exact (C37_log log_mono dbg X hX hn) fun k hk => ?_
    have h1 : 0 ≤ k := dom hn k hk
    have h2 : k ≠ 0 := by
      rintro rfl
      have := hk.1
      rw [CppOrder.lt_iff] at h0; simp [h0.2.2] at this
    simp [Libm.log, not_lt.mpr h1, h2]
  · exact incl_of_exact (C37_exp exp_mono dbg X hX) fun k hk => rfl
  · exact incl_of_exact (C37_atan atan_mono dbg X hX) fun k hk => rfl
  · refine incl_of_exact (C37_asin asin_mono dbg X hX h0 h1) fun k hk => ?_
    have a := CppOrder.le_trans _ _ _ h0 hk.1; have b := CppOrder.le_trans _ _ _ hk.2 h1
    simp at a b
    simp [Libm.asin, a, b]
  · refine incl_of_exact (C37_acos acos_anti dbg X hX h0 h1) fun k hk => ?_
    have a := CppOrder.le_trans _ _ _ h0 hk.1; have b := CppOrder.le_trans _ _ _ hk.2 h1
    simp at a b
    simp [Libm.acos, a, b]

-- the hypotheses are met by, e.g., [1/4, 4] and [-1/2, 1]
example : ∃ R, @sqrtI ℝ _ _ (@realLibm (exactFmt ℝ)) true ⟨.num (1/4), .num 4⟩ = .ok R ∧ .num (Real.sqrt 2) ∈ᵢ R := by
  let := exactFmt ℝ
  obtain ⟨R, e, h⟩ := (C37_real true ⟨.num (1/4), .num 4⟩ (by simp [Proper]; norm_num)).1 (by simp [Nonneg])
  exact ⟨R, e, h 2 ⟨by simp; norm_num, by simp; norm_num⟩⟩
example : ∃ R, @asinI ℝ _ _ (@realLibm (exactFmt ℝ)) true ⟨.num (-1/2), .num 1⟩ = .ok R ∧ .num (Real.arcsin (1/3)) ∈ᵢ R := by
  let := exactFmt ℝ
  obtain ⟨R, e, h⟩ := ((C37_real true ⟨.num (-1/2), .num 1⟩ (by simp [Proper]; norm_num)).2.2.2.2.2 (by simp; norm_num) (by simp)).1
  exact ⟨R, e, h (1/3) ⟨by simp; norm_num, by simp; norm_num⟩⟩

/-- the correctly rounded functions are NaN outside their domains -/
theorem real_outside (a : Fl ℝ) : (¬ Nonneg a → Libm.sqrt a = .nan ∧ Libm.log a = .nan) ∧ (¬ Unit1 a → Libm.asin a = .nan ∧ Libm.acos a = .nan) := by
  unfold Nonneg Unit1
  cases a with
  | num k =>
    simp only [Fl.le_num_num, not_le, not_and_or, decide_eq_true_eq]
    refine ⟨fun h => by simp [Libm.sqrt, Libm.log, h], fun h => ?_⟩
    have : ¬ (-1 ≤ k ∧ k ≤ 1) := by rw [not_and_or]; simpa using h
    simp [Libm.asin, Libm.acos, this]
  | _ => simp [Libm.sqrt, Libm.log, Libm.asin, Libm.acos]

-- outside of the domain: `asin([0, 2])` is `[0, 0]` without debug checks
example : @asinI ℝ _ _ (@realLibm (exactFmt ℝ)) false ⟨.num 0, .num 2⟩ = .ok ⟨.num 0, .num 0⟩ := by
  let := exactFmt ℝ
  have := (C37_release ⟨.num 0, .num 2⟩ (by simp [Proper]) (fun a h => (real_outside a).1 h) (fun a h => (real_outside a).2 h)).2.2.2.1
    (by simp [Unit1])
  rw [this]
  simp [Libm.asin]
  rfl
end real
end Intervals.Props
