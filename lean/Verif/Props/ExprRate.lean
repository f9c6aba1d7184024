import Verif.Props.ExprRange
import Mathlib.Analysis.Calculus.MeanValue
import Mathlib.Analysis.Calculus.ContDiff.RCLike
import Mathlib.Analysis.SpecialFunctions.Complex.LogDeriv
import Mathlib.Analysis.SpecialFunctions.Pow.Deriv
import Mathlib.Analysis.SpecialFunctions.Sqrt
import Mathlib.Analysis.SpecialFunctions.Trigonometric.InverseDeriv
import Mathlib.Analysis.SpecialFunctions.Trigonometric.ArctanDeriv
/-!
# C83: the rate of convergence
-/
set_option linter.unusedSectionVars false
set_option linter.unusedSimpArgs false
namespace Intervals.Props
open Intervals CppVal Spec Fl Set

attribute [local instance] exactFmt

/-- Lipschitz continuity on a set -/
def Lip {E : Type} [SeminormedAddCommGroup E] (f : E → ℝ) (s : Set E) : Prop := ∃ L, 0 ≤ L ∧ ∀ x ∈ s, ∀ y ∈ s, |f x - f y| ≤ L * ‖x - y‖

theorem lip_of_contDiffAt {E : Type} [NormedAddCommGroup E] [NormedSpace ℝ E] {f : E → ℝ} {s : Set E} (hs : IsCompact s) (hc : Convex ℝ s)
    (hf : ∀ x ∈ s, ContDiffAt ℝ 1 f x) : Lip f s := by
  have hd : ContinuousOn (fderiv ℝ f) s := fun x hx => ((hf x hx).fderiv_right (m := 0) (by norm_num)).continuousAt.continuousWithinAt
  obtain ⟨C, hC⟩ := hs.exists_bound_of_continuousOn hd
  refine ⟨max C 0, le_max_right _ _, fun x hx y hy => ?_⟩
  have := hc.norm_image_sub_le_of_norm_fderiv_le (𝕜 := ℝ) (fun z hz => (hf z hz).differentiableAt (by norm_num)) (fun z hz => (hC z hz).trans (le_max_left C 0)) hy hx
  simpa using this

theorem Lip.congr {E : Type} [SeminormedAddCommGroup E] {f g : E → ℝ} {s : Set E} (h : Lip f s) (hfg : ∀ x ∈ s, f x = g x) : Lip g s := by
  obtain ⟨L, h0, h⟩ := h
  exact ⟨L, h0, fun x hx y hy => by rw [← hfg x hx, ← hfg y hy]; exact h x hx y hy⟩
theorem Lip.max {E : Type} [SeminormedAddCommGroup E] {f g : E → ℝ} {s : Set E} (h : Lip f s) (h' : Lip g s) : Lip (fun x => Max.max (f x) (g x)) s := by
  obtain ⟨L, h0, h⟩ := h; obtain ⟨M, m0, h'⟩ := h'
  refine ⟨Max.max L M, h0.trans (le_max_left _ _), fun x hx y hy => (abs_max_sub_max_le_max _ _ _ _).trans (max_le ?_ ?_)⟩
  · exact (h x hx y hy).trans (mul_le_mul_of_nonneg_right (le_max_left _ _) (norm_nonneg _))
  · exact (h' x hx y hy).trans (mul_le_mul_of_nonneg_right (le_max_right _ _) (norm_nonneg _))
theorem Lip.min {E : Type} [SeminormedAddCommGroup E] {f g : E → ℝ} {s : Set E} (h : Lip f s) (h' : Lip g s) : Lip (fun x => Min.min (f x) (g x)) s := by
  obtain ⟨L, h0, h⟩ := h; obtain ⟨M, m0, h'⟩ := h'
  refine ⟨Max.max L M, h0.trans (le_max_left _ _), fun x hx y hy => (abs_min_sub_min_le_max _ _ _ _).trans (max_le ?_ ?_)⟩
  · exact (h x hx y hy).trans (mul_le_mul_of_nonneg_right (le_max_left _ _) (norm_nonneg _))
  · exact (h' x hx y hy).trans (mul_le_mul_of_nonneg_right (le_max_right _ _) (norm_nonneg _))

theorem un_lip (op : UnOp) (hop : ¬ op.Jumps) (l h : ℝ) : Lip op.fld (Icc l h) := by
  have key : ∀ {f : ℝ → ℝ}, ContDiff ℝ 1 f → Lip f (Icc l h) := fun hf => lip_of_contDiffAt isCompact_Icc (convex_Icc l h) fun x _ => hf.contDiffAt
  cases op with
  | plus => exact key contDiff_id
  | neg => exact key contDiff_neg
  | square => exact key (contDiff_id.mul contDiff_id)
  | cube => exact key ((contDiff_id.mul contDiff_id).mul contDiff_id)
  | abs => exact Lip.max (key contDiff_id) (key contDiff_neg)
  | floor => exact absurd (.inl rfl) hop
  | ceil => exact absurd (.inr (.inl rfl)) hop
  | round => exact absurd (.inr (.inr rfl)) hop

theorem fn_lip (op : FnOp) (hop : op ≠ .frac) {l h : ℝ} (hd : ∀ k ∈ Icc l h, (op.real k).isSome) (hsm : ∀ k ∈ Icc l h, op.SmoothAt k) :
    Lip (fnTot op) (Icc l h) := by
  have key : ∀ {f : ℝ → ℝ}, (∀ k ∈ Icc l h, op.real k = some (f k)) → (∀ k ∈ Icc l h, ContDiffAt ℝ 1 f k) → Lip (fnTot op) (Icc l h) := fun hg hf =>
    (lip_of_contDiffAt isCompact_Icc (convex_Icc l h) hf).congr fun k hk => by unfold fnTot; rw [hg k hk]; rfl
  cases op with
  | sqrt =>
    refine key (f := Real.sqrt) (fun k hk => ?_) fun k hk => Real.contDiffAt_sqrt (hsm k hk)
    have := hd k hk; simp only [FnOp.real] at this ⊢; by_cases hn : 0 ≤ k <;> simp [hn] at this ⊢
  | cbrt =>
    refine key (f := realCbrt) (fun k hk => rfl) fun k hk => ?_
    have h0 : k ≠ 0 := hsm k hk
    rcases lt_or_gt_of_ne h0 with h | h
    · refine ContDiffAt.congr_of_eventuallyEq (f := fun k => -((-k) ^ ((1:ℝ)/3))) ?_ ?_
      · exact ((Real.contDiffAt_rpow_const_of_ne (p := (1:ℝ)/3) (neg_ne_zero.mpr h0)).comp k contDiffAt_id.neg).neg
      · filter_upwards [eventually_lt_nhds h] with y hy
        simp [realCbrt, hy]
    · refine ContDiffAt.congr_of_eventuallyEq (f := fun k => k ^ ((1:ℝ)/3)) ?_ ?_
      · exact Real.contDiffAt_rpow_const_of_ne h0
      · filter_upwards [eventually_gt_nhds h] with y hy
        simp [realCbrt, hy.not_gt]
  | log =>
    have d : ∀ k ∈ Icc l h, 0 < k := fun k hk => by
      have := hd k hk; simp only [FnOp.real] at this; by_contra hn; simp [hn] at this
    exact key (f := Real.log) (fun k hk => by simp [FnOp.real, d k hk]) fun k hk => Real.contDiffAt_log.mpr (d k hk).ne'
  | exp => exact key (f := Real.exp) (fun k hk => rfl) fun k hk => Real.contDiff_exp.contDiffAt
  | atan => exact key (f := Real.arctan) (fun k hk => rfl) fun k hk => Real.contDiff_arctan.contDiffAt
  | cos => exact key (f := Real.cos) (fun k hk => rfl) fun k hk => Real.contDiff_cos.contDiffAt
  | sin => exact key (f := Real.sin) (fun k hk => rfl) fun k hk => Real.contDiff_sin.contDiffAt
  | asin =>
    refine key (f := Real.arcsin) (fun k hk => ?_) fun k hk => Real.contDiffAt_arcsin (hsm k hk).1 (hsm k hk).2
    have := hd k hk; simp only [FnOp.real] at this ⊢; by_cases hn : -1 ≤ k ∧ k ≤ 1 <;> simp [hn] at this ⊢
  | acos =>
    refine key (f := Real.arccos) (fun k hk => ?_) fun k hk => Real.contDiffAt_arccos (hsm k hk).1 (hsm k hk).2
    have := hd k hk; simp only [FnOp.real] at this ⊢; by_cases hn : -1 ≤ k ∧ k ≤ 1 <;> simp [hn] at this ⊢
  | tan =>
    have d : ∀ k ∈ Icc l h, Real.cos k ≠ 0 := fun k hk => by
      have := hd k hk; simp only [FnOp.real] at this; by_contra hn; simp [hn] at this
    exact key (f := Real.tan) (fun k hk => by simp [FnOp.real, d k hk]) fun k hk => Real.contDiffAt_tan.mpr (d k hk)
  | frac => exact absurd rfl hop

theorem op2_lip (op : Op2) {l h l' h' : ℝ} (hlh : l ≤ h) (hlh' : l' ≤ h')
    (hd : ∀ k ∈ Icc l h, ∀ m ∈ Icc l' h', (op.real k m).isSome ∧ (op = .pow → 0 < k)) :
    Lip (fun p : ℝ × ℝ => op2Tot op p.1 p.2) (Icc l h ×ˢ Icc l' h') := by
  have hl : l ∈ Icc l h := ⟨le_rfl, hlh⟩
  have hl' : l' ∈ Icc l' h' := ⟨le_rfl, hlh'⟩
  have cp : IsCompact (Icc l h ×ˢ Icc l' h') := isCompact_Icc.prod isCompact_Icc
  have cv : Convex ℝ (Icc l h ×ˢ Icc l' h') := (convex_Icc _ _).prod (convex_Icc _ _)
  have cong : ∀ {g : ℝ → ℝ → ℝ}, (∀ k ∈ Icc l h, ∀ m ∈ Icc l' h', op.real k m = some (g k m)) →
      Lip (fun p : ℝ × ℝ => g p.1 p.2) (Icc l h ×ˢ Icc l' h') → Lip (fun p : ℝ × ℝ => op2Tot op p.1 p.2) (Icc l h ×ˢ Icc l' h') := fun {g} hg hL =>
    hL.congr fun p hp => by unfold op2Tot; rw [hg _ hp.1 _ hp.2]; rfl
  have l1 : Lip (fun p : ℝ × ℝ => p.1) (Icc l h ×ˢ Icc l' h') := lip_of_contDiffAt cp cv fun _ _ => contDiffAt_fst
  have l2 : Lip (fun p : ℝ × ℝ => p.2) (Icc l h ×ˢ Icc l' h') := lip_of_contDiffAt cp cv fun _ _ => contDiffAt_snd
  cases op with
  | arith op =>
    cases op with
    | add => exact cong (g := fun x y => x + y) (fun _ _ _ _ => rfl) (lip_of_contDiffAt cp cv fun _ _ => contDiffAt_fst.add contDiffAt_snd)
    | sub => exact cong (g := fun x y => x - y) (fun _ _ _ _ => rfl) (lip_of_contDiffAt cp cv fun _ _ => contDiffAt_fst.sub contDiffAt_snd)
    | mul => exact cong (g := fun x y => x * y) (fun _ _ _ _ => rfl) (lip_of_contDiffAt cp cv fun _ _ => contDiffAt_fst.mul contDiffAt_snd)
    | div =>
      have d : ∀ m ∈ Icc l' h', m ≠ 0 := fun m hm h0 => by
        have := (hd l hl m hm).1; simp [Op2.real, BinOp.fld, h0] at this
      exact cong (g := fun x y => x / y) (fun _ _ m hm => by simp [Op2.real, BinOp.fld, d m hm])
        (lip_of_contDiffAt cp cv fun p hp => contDiffAt_fst.div contDiffAt_snd (d _ hp.2))
    | min => exact cong (g := fun x y => min x y) (fun _ _ _ _ => rfl) (l1.min l2)
    | max => exact cong (g := fun x y => max x y) (fun _ _ _ _ => rfl) (l1.max l2)
  | atan2 =>
    have d : ∀ k ∈ Icc l h, ∀ m ∈ Icc l' h', k ≠ 0 ∨ 0 < m := fun k hk m hm => by
      have := (hd k hk m hm).1; simp only [Op2.real] at this; by_contra hn; simp [hn] at this
    refine cong (g := fun y x => Complex.arg ⟨x, y⟩) (fun k hk m hm => by simp only [Op2.real]; rw [if_pos (d k hk m hm)]) (lip_of_contDiffAt cp cv fun p hp => ?_)
    have hs : (⟨p.2, p.1⟩ : ℂ) ∈ Complex.slitPlane := by
      rw [Complex.mem_slitPlane_iff]; exact (d _ hp.1 _ hp.2).symm
    have hc : ContDiff ℝ 1 fun p : ℝ × ℝ => (⟨p.2, p.1⟩ : ℂ) := by
      have : (fun p : ℝ × ℝ => (⟨p.2, p.1⟩ : ℂ)) = fun p => Complex.ofRealCLM p.2 + Complex.ofRealCLM p.1 * Complex.I := by
        funext p; apply Complex.ext <;> simp
      rw [this]
      exact (Complex.ofRealCLM.contDiff.comp contDiff_snd).add ((Complex.ofRealCLM.contDiff.comp contDiff_fst).mul contDiff_const)
    have hlog : ContDiffAt ℝ 1 Complex.log (⟨p.2, p.1⟩ : ℂ) := (Complex.contDiffAt_log (n := 1) hs).restrict_scalars ℝ
    have := (Complex.imCLM.contDiff.contDiffAt).comp p (hlog.comp (f := fun p : ℝ × ℝ => (⟨p.2, p.1⟩ : ℂ)) p hc.contDiffAt)
    refine this.congr_of_eventuallyEq (Filter.Eventually.of_forall fun q => ?_)
    simp [Complex.log_im]
  | pow =>
    have d : ∀ k ∈ Icc l h, 0 < k := fun k hk => (hd k hk l' hl').2 rfl
    exact cong (g := fun x y => x ^ y) (fun k hk m hm => by simp [Op2.real, d k hk]) (lip_of_contDiffAt cp cv fun p hp => Real.contDiffAt_rpow_of_ne p (d _ hp.1).ne')

/-- what the induction carries -/
def Rate (E : (Nat → Ivl (Fl ℝ)) → Outcome (Ivl (Fl ℝ))) (vs : List Nat) (X₀ : Nat → Ivl (Fl ℝ)) (a₀ b₀ : ℝ) : Prop :=
  (∃ R₀, E X₀ = .ok R₀ ∧ IsI R₀ a₀ b₀) ∧ a₀ ≤ b₀ ∧
  ∃ L, 0 ≤ L ∧ ∀ X, FiniteBox X → (∀ i, SubI (X i) (X₀ i)) → ∀ δ, (∀ i ∈ vs, width (X i) ≤ δ) → 0 ≤ δ →
    ∃ R a b, E X = .ok R ∧ IsI R a b ∧ a ≤ b ∧ a₀ ≤ a ∧ b ≤ b₀ ∧ b - a ≤ L * δ

theorem rate_var {X₀ : Nat → Ivl (Fl ℝ)} (hX : FiniteBox X₀) (i : Nat) :
    Rate (fun X => .ok (X i)) [i] X₀ (X₀ i).lo.val (X₀ i).hi.val := by
  have h0 := isI_of_finite (hX i).1 (hX i).2.1
  refine ⟨⟨_, rfl, h0⟩, h0.proper.mp (hX i).2.2, 1, zero_le_one, fun X fX sX δ wX _ => ?_⟩
  have h1 := isI_of_finite (fX i).1 (fX i).2.1
  have hle := h1.proper.mp (fX i).2.2
  have m1 := h0.mem_num.mp (sX i _ (h1.mem_num.mpr ⟨le_rfl, hle⟩))
  have m2 := h0.mem_num.mp (sX i _ (h1.mem_num.mpr ⟨hle, le_rfl⟩))
  exact ⟨_, _, _, rfl, h1, hle, m1.1, m2.2, by rw [one_mul]; exact wX i (by simp)⟩

theorem rate1 {E : (Nat → Ivl (Fl ℝ)) → Outcome (Ivl (Fl ℝ))} {vs : List Nat} {X₀ : Nat → Ivl (Fl ℝ)} {a₀ b₀ : ℝ}
    (hE : Rate E vs X₀ a₀ b₀) {F : Ivl (Fl ℝ) → Outcome (Ivl (Fl ℝ))} {t : ℝ → ℝ}
    (hc : Lip t (Icc a₀ b₀)) (hv : ∀ X l h, IsI X l h → l ≤ h → Icc l h ⊆ Icc a₀ b₀ → Val1 t l h (F X)) :
    ∃ a b, Rate (fun X => E X >>= F) vs X₀ a b := by
  obtain ⟨⟨R₀, e₀, i₀⟩, h₀, L, hL, conv⟩ := hE
  obtain ⟨S₀, a₁, b₁, eS₀, iS₀, m₁, ⟨ka, hka, ha₁⟩, ⟨kb, hkb, hb₁⟩⟩ := hv R₀ a₀ b₀ i₀ h₀ subset_rfl
  obtain ⟨M, hM, hc⟩ := hc
  refine ⟨a₁, b₁, ⟨S₀, by simp only [e₀, ok_bind, eS₀], iS₀⟩, (m₁ ka hka).1.trans (m₁ ka hka).2, M * L, mul_nonneg hM hL, fun X fX sX δ wX hδ => ?_⟩
  obtain ⟨R, a, b, e, i, hab, h1, h2, hw⟩ := conv X fX sX δ wX hδ
  have sub : Icc a b ⊆ Icc a₀ b₀ := Icc_subset_Icc h1 h2
  obtain ⟨S, c, d, eS, iS, m, ⟨kc, hkc, hc'⟩, ⟨kd, hkd, hd'⟩⟩ := hv R a b i hab sub
  refine ⟨S, c, d, by simp only [e, ok_bind, eS], iS, (m kc hkc).1.trans (m kc hkc).2, hc' ▸ (m₁ kc (sub hkc)).1, hd' ▸ (m₁ kd (sub hkd)).2, ?_⟩
  have h3 := hc kd (sub hkd) kc (sub hkc)
  rw [hc', hd'] at h3
  have h4 : ‖kd - kc‖ ≤ L * δ := by
    rw [Real.norm_eq_abs, abs_le]; constructor <;> linarith [hkc.1, hkc.2, hkd.1, hkd.2]
  calc d - c ≤ M * ‖kd - kc‖ := (le_abs_self _).trans h3
    _ ≤ M * (L * δ) := mul_le_mul_of_nonneg_left h4 hM
    _ = M * L * δ := by ring

theorem rate2 {E₁ E₂ : (Nat → Ivl (Fl ℝ)) → Outcome (Ivl (Fl ℝ))} {vs₁ vs₂ : List Nat} {X₀ : Nat → Ivl (Fl ℝ)} {a₁ b₁ a₂ b₂ : ℝ}
    (hE₁ : Rate E₁ vs₁ X₀ a₁ b₁) (hE₂ : Rate E₂ vs₂ X₀ a₂ b₂) {F : Ivl (Fl ℝ) → Ivl (Fl ℝ) → Outcome (Ivl (Fl ℝ))} {t : ℝ → ℝ → ℝ}
    (hc : Lip (fun p : ℝ × ℝ => t p.1 p.2) (Icc a₁ b₁ ×ˢ Icc a₂ b₂))
    (hv : ∀ X Y l h l' h', IsI X l h → IsI Y l' h' → l ≤ h → l' ≤ h' → Icc l h ⊆ Icc a₁ b₁ → Icc l' h' ⊆ Icc a₂ b₂ → Val2 t (Icc l h ×ˢ Icc l' h') (F X Y)) :
    ∃ a b, Rate (fun X => do F (← E₁ X) (← E₂ X)) (vs₁ ++ vs₂) X₀ a b := by
  obtain ⟨⟨R₁, e₁, i₁⟩, h₁, L₁, hL₁, conv₁⟩ := hE₁
  obtain ⟨⟨R₂, e₂, i₂⟩, h₂, L₂, hL₂, conv₂⟩ := hE₂
  obtain ⟨S₀, a, b, eS₀, iS₀, m₀, ⟨ka, hka, ha⟩, ⟨kb, hkb, hb⟩⟩ := hv R₁ R₂ _ _ _ _ i₁ i₂ h₁ h₂ subset_rfl subset_rfl
  obtain ⟨M, hM, hc⟩ := hc
  refine ⟨a, b, ⟨S₀, by simp only [e₁, e₂, ok_bind, eS₀], iS₀⟩, (m₀ ka hka).1.trans (m₀ ka hka).2, M * max L₁ L₂, mul_nonneg hM (hL₁.trans (le_max_left _ _)), fun X fX sX δ wX hδ => ?_⟩
  obtain ⟨R, l, h, e, i, hlh, g1, g2, hw⟩ := conv₁ X fX sX δ (fun i hi => wX i (List.mem_append_left _ hi)) hδ
  obtain ⟨R', l', h', e', i', hlh', g1', g2', hw'⟩ := conv₂ X fX sX δ (fun i hi => wX i (List.mem_append_right _ hi)) hδ
  have sub : Icc l h ⊆ Icc a₁ b₁ := Icc_subset_Icc g1 g2
  have sub' : Icc l' h' ⊆ Icc a₂ b₂ := Icc_subset_Icc g1' g2'
  have subp := prod_mono sub sub'
  obtain ⟨S, c, d, eS, iS, m, ⟨p, hp, hc'⟩, ⟨q, hq, hd'⟩⟩ := hv R R' l h l' h' i i' hlh hlh' sub sub'
  refine ⟨S, c, d, by simp only [e, e', ok_bind, eS], iS, (m p hp).1.trans (m p hp).2, hc' ▸ (m₀ p (subp hp)).1, hd' ▸ (m₀ q (subp hq)).2, ?_⟩
  have h3 := hc q (subp hq) p (subp hp)
  dsimp only at h3
  rw [hc', hd'] at h3
  have k1 : L₁ * δ ≤ max L₁ L₂ * δ := mul_le_mul_of_nonneg_right (le_max_left _ _) hδ
  have k2 : L₂ * δ ≤ max L₁ L₂ * δ := mul_le_mul_of_nonneg_right (le_max_right _ _) hδ
  have h4 : ‖q - p‖ ≤ max L₁ L₂ * δ := by
    rw [Prod.norm_def, max_le_iff, Real.norm_eq_abs, Real.norm_eq_abs, abs_le, abs_le]
    obtain ⟨p1, p2⟩ := hp; obtain ⟨q1, q2⟩ := hq
    simp only [Prod.fst_sub, Prod.snd_sub]
    refine ⟨⟨?_, ?_⟩, ?_, ?_⟩ <;> linarith [p1.1, p1.2, p2.1, p2.2, q1.1, q1.2, q2.1, q2.2]
  calc d - c ≤ M * ‖q - p‖ := (le_abs_self _).trans h3
    _ ≤ M * (max L₁ L₂ * δ) := mul_le_mul_of_nonneg_left h4 hM
    _ = M * max L₁ L₂ * δ := by ring

theorem rate_expr (dbg : Bool) (X₀ : Nat → Ivl (Fl ℝ)) (hX : FiniteBox X₀) (e : RExpr) (he : e.Regular dbg X₀) (hsm : e.Smooth dbg X₀) :
    ∃ a b, Rate (e.ivl dbg) e.vars X₀ a b := by
  induction e with
  | var i => exact ⟨_, _, rate_var hX i⟩
  | un op e ih =>
    obtain ⟨a, b, h⟩ := ih he.1 hsm
    exact rate1 h (un_lip op he.2 a b) fun X l u hX hlu _ => (un_range dbg op he.2 hX hlu).2
  | fn op e ih =>
    obtain ⟨a, b, h⟩ := ih he.1 hsm.1
    obtain ⟨R, eR, iR⟩ := h.1
    have d : ∀ k ∈ Icc a b, (op.real k).isSome := fun k hk => he.2.2 R eR k (iR.mem_num.mpr hk)
    exact rate1 h (fn_lip op he.2.1 d fun k hk => hsm.2 R eR k (iR.mem_num.mpr hk))
      fun X l u hX hlu hs => (fn_range dbg op he.2.1 hX hlu fun k hk => d k (hs hk)).2
  | bin op e₁ e₂ ih₁ ih₂ =>
    obtain ⟨a, b, h⟩ := ih₁ he.1 hsm.1
    obtain ⟨a', b', h'⟩ := ih₂ he.2.1 hsm.2
    obtain ⟨R, eR, iR⟩ := h.1
    obtain ⟨R', eR', iR'⟩ := h'.1
    have d : ∀ k ∈ Icc a b, ∀ m ∈ Icc a' b', (op.real k m).isSome ∧ (op = .pow → 0 < k) := fun k hk m hm =>
      he.2.2 R R' eR eR' k m (iR.mem_num.mpr hk) (iR'.mem_num.mpr hm)
    exact rate2 h h' (F := fun X Y => op.ivl dbg (.ivl X) (.ivl Y)) (op2_lip op h.2.1 h'.2.1 d)
      fun X Y l u l' u' hX hY hlu hlu' hs hs' => (op2_range dbg op (A := .ivl X) (B := .ivl Y) hX hY hlu hlu' fun k hk m hm => d k (hs hk) m (hs' hm)).2
  | binL op c e ih =>
    obtain ⟨a, b, h⟩ := ih he.1 hsm
    obtain ⟨R, eR, iR⟩ := h.1
    have d : ∀ k ∈ Icc c c, ∀ m ∈ Icc a b, (op.real k m).isSome ∧ (op = .pow → 0 < k) := fun k hk m hm => by
      rw [Icc_self, mem_singleton_iff] at hk; subst hk
      exact he.2 R eR m (iR.mem_num.mpr hm)
    have hc : c ∈ Icc c c := ⟨le_rfl, le_rfl⟩
    have isc : IsA (.scalar (.num c)) c c := ⟨Is.num c, Is.num c⟩
    refine rate1 h (F := fun X => op.ivl dbg (.scalar (.num c)) (.ivl X)) (t := op2Tot op c) ?_ fun X l u hX hlu hs => ?_
    · obtain ⟨L, hL, hl⟩ := op2_lip op le_rfl h.2.1 d
      exact ⟨L, hL, fun x hx y hy => by simpa [Prod.norm_def] using hl (c, x) ⟨hc, hx⟩ (c, y) ⟨hc, hy⟩⟩
    · obtain ⟨S, p, q, eS, iS, m, ⟨x, hx, h1⟩, ⟨y, hy, h2⟩⟩ := (op2_range dbg op isc (B := .ivl X) hX le_rfl hlu fun k hk m hm => d k hk m (hs hm)).2
      have hx1 : x.1 = c := le_antisymm hx.1.2 hx.1.1
      have hy1 : y.1 = c := le_antisymm hy.1.2 hy.1.1
      exact ⟨S, p, q, eS, iS, fun k hk => m (c, k) ⟨hc, hk⟩, ⟨x.2, hx.2, hx1 ▸ h1⟩, ⟨y.2, hy.2, hy1 ▸ h2⟩⟩
  | binR op e c ih =>
    obtain ⟨a, b, h⟩ := ih he.1 hsm
    obtain ⟨R, eR, iR⟩ := h.1
    have d : ∀ k ∈ Icc a b, ∀ m ∈ Icc c c, (op.real k m).isSome ∧ (op = .pow → 0 < k) := fun k hk m hm => by
      rw [Icc_self, mem_singleton_iff] at hm; subst hm
      exact he.2 R eR k (iR.mem_num.mpr hk)
    have hc : c ∈ Icc c c := ⟨le_rfl, le_rfl⟩
    have isc : IsA (.scalar (.num c)) c c := ⟨Is.num c, Is.num c⟩
    refine rate1 h (F := fun X => op.ivl dbg (.ivl X) (.scalar (.num c))) (t := fun x => op2Tot op x c) ?_ fun X l u hX hlu hs => ?_
    · obtain ⟨L, hL, hl⟩ := op2_lip op h.2.1 le_rfl d
      exact ⟨L, hL, fun x hx y hy => by simpa [Prod.norm_def] using hl (x, c) ⟨hx, hc⟩ (y, c) ⟨hy, hc⟩⟩
    · obtain ⟨S, p, q, eS, iS, m, ⟨x, hx, h1⟩, ⟨y, hy, h2⟩⟩ := (op2_range dbg op (A := .ivl X) hX isc hlu le_rfl fun k hk m hm => d k (hs hk) m hm).2
      have hx1 : x.2 = c := le_antisymm hx.2.2 hx.2.1
      have hy1 : y.2 = c := le_antisymm hy.2.2 hy.2.1
      exact ⟨S, p, q, eS, iS, fun k hk => m (k, c) ⟨hk, hc⟩, ⟨x.1, hx.1, hx1 ▸ h1⟩, ⟨y.1, hy.1, hy1 ▸ h2⟩⟩

/-- C83, the rate: if moreover the functions are applied where they are continuously differentiable, the width of the result is at most proportional to the widths of the operands. -/
theorem C83_rate (dbg : Bool) (X₀ : Nat → Ivl (Fl ℝ)) (hX : FiniteBox X₀) (e : RExpr) (he : e.Regular dbg X₀) (hsm : e.Smooth dbg X₀) :
    ∃ L, 0 ≤ L ∧ ∀ X, FiniteBox X → (∀ i, SubI (X i) (X₀ i)) → ∀ δ ≥ 0, (∀ i ∈ e.vars, width (X i) ≤ δ) →
      ∃ R, e.ivl dbg X = .ok R ∧ FiniteI R ∧ width R ≤ L * δ := by
  obtain ⟨a, b, -, -, L, hL, h⟩ := rate_expr dbg X₀ hX e he hsm
  refine ⟨L, hL, fun X fX sX δ hδ wX => ?_⟩
  obtain ⟨R, c, d, e, i, hcd, -, -, hw⟩ := h X fX sX δ wX hδ
  refine ⟨R, e, ⟨i.1.1, i.2.1, i.proper.mpr hcd⟩, ?_⟩
  unfold width; rw [i.1.2, i.2.2]; exact hw

/-! ## Examples and limits -/
theorem finite_num {a b : ℝ} (h : a ≤ b) : FiniteI (⟨.num a, .num b⟩ : Ivl (Fl ℝ)) := ⟨rfl, rfl, by simpa [Proper] using h⟩

/-- `x * log(x)` on `[1,4]` meets the hypotheses of C83 -/
example : let e : RExpr := .bin (.arith .mul) (.var 0) (.fn .log (.var 0))
    FiniteBox (fun _ => ⟨.num 1, .num 4⟩) ∧ e.Regular true (fun _ => ⟨.num 1, .num 4⟩) ∧ e.Smooth true (fun _ => ⟨.num 1, .num 4⟩) := by
  refine ⟨fun _ => finite_num (by norm_num), ⟨trivial, ⟨trivial, by simp, fun R h x hx => ?_⟩, fun R S _ _ x y _ _ => ⟨rfl, by simp⟩⟩, trivial, trivial, fun _ _ _ _ => trivial⟩
  cases h
  have : (1:ℝ) ≤ x := by simpa using hx.1
  simp [FnOp.real, show (0:ℝ) < x by linarith]

/-- `sqrt(x) * cos(y) - 2 / z` on `[1,4]³` meets the hypotheses of C84 -/
example : let e : RExpr := .bin (.arith .sub) (.bin (.arith .mul) (.fn .sqrt (.var 0)) (.fn .cos (.var 1))) (.binL (.arith .div) 2 (.var 2))
    FiniteBox (fun _ => ⟨.num 1, .num 4⟩) ∧ e.Regular true (fun _ => ⟨.num 1, .num 4⟩) ∧ e.SingleUse := by
  refine ⟨fun _ => finite_num (by norm_num), ⟨⟨⟨trivial, by simp, fun R h x hx => ?_⟩, ⟨trivial, by simp, fun _ _ _ _ => rfl⟩, fun _ _ _ _ _ _ _ _ => ⟨rfl, by simp⟩⟩,
    ⟨trivial, fun R h x hx => ⟨?_, by simp⟩⟩, fun _ _ _ _ _ _ _ _ => ⟨rfl, by simp⟩⟩, by simp [RExpr.SingleUse, RExpr.vars]⟩
  · cases h
    have : (1:ℝ) ≤ x := by simpa using hx.1
    simp [FnOp.real, show (0:ℝ) ≤ x by linarith]
  · cases h
    have : (1:ℝ) ≤ x := by simpa using hx.1
    simp [Op2.real, BinOp.fld, show x ≠ 0 by linarith]

/-- C84 does not hold for repeated variables: the result of `x - x` on `[a,b]` is `[a-b, b-a]`, though the only value is zero. -/
theorem C84_repeated (dbg : Bool) (a b : ℝ) (h : a < b) :
    ∃ R, (RExpr.bin (.arith .sub) (.var 0) (.var 0)).ivl dbg (fun _ => ⟨.num a, .num b⟩) = .ok R ∧ .num (b - a) ∈ᵢ R ∧
      ∀ κ, (RExpr.bin (.arith .sub) (.var 0) (.var 0)).val κ = some 0 := by
  have f := finite_num h.le
  obtain ⟨-, R, a', b', e, i, m, -, -⟩ := op2_range dbg (.arith .sub) (A := .ivl ⟨.num a, .num b⟩) (B := .ivl ⟨.num a, .num b⟩) ⟨Is.num a, Is.num b⟩ ⟨Is.num a, Is.num b⟩ h.le h.le
    fun _ _ _ _ => ⟨rfl, by simp⟩
  refine ⟨R, e, i.mem_num.mpr ?_, fun κ => ?_⟩
  · exact m (b, a) ⟨⟨h.le, le_rfl⟩, ⟨le_rfl, h.le⟩⟩
  · simp [RExpr.val, Op2.real, BinOp.fld]

/-- C83 and C84 do not hold for functions that jump: however narrow the interval `[1-δ, 1]`, its `floor` is `[0, 1]`; one half is in it, but is not a value. -/
theorem C83_jump (dbg : Bool) (δ : ℝ) (h0 : 0 < δ) (h1 : δ ≤ 1) :
    ∃ R, (RExpr.un .floor (.var 0)).ivl dbg (fun _ => ⟨.num (1 - δ), .num 1⟩) = .ok R ∧ width R = 1 ∧ .num (1/2) ∈ᵢ R ∧
      ∀ κ, (RExpr.un .floor (.var 0)).val κ ≠ some (1/2) := by
  have f := finite_num (show 1 - δ ≤ 1 by linarith)
  obtain ⟨R, e, h, ⟨x, hx, hl⟩, ⟨y, hy, hh⟩⟩ := (C36_floor dbg _ f.2.2).1
  have i : IsI (⟨.num (1-δ), .num 1⟩ : Ivl (Fl ℝ)) (1-δ) 1 := ⟨Is.num _, Is.num _⟩
  obtain ⟨kx, ix, x1, x2⟩ := i.mem.mp hx
  obtain ⟨ky, iy, y1, y2⟩ := i.mem.mp hy
  have jx := is_unF .floor ix; have jy := is_unF .floor iy
  simp only [UnOp.pt, UnOp.fld] at jx jy
  rw [hl] at jx; rw [hh] at jy
  have m1 := h (.num 1) (i.mem_num.mpr ⟨by linarith, le_rfl⟩)
  have m0 := h (.num (1-δ)) (i.mem_num.mpr ⟨le_rfl, by linarith⟩)
  have k1 := (is_unF .floor (Is.num (1:ℝ)))
  have k0 := (is_unF .floor (Is.num (1-δ)))
  simp only [UnOp.pt, UnOp.fld] at k1 k0
  have f0 : ⌊1 - δ⌋ = 0 := by rw [Int.floor_eq_iff]; constructor <;> push_cast <;> linarith
  rw [f0] at k0
  have lo0 : (⌊kx⌋ : ℝ) = 0 := by
    refine le_antisymm ?_ ?_
    · simpa using (jx.le_iff k0).mp m0.1
    · exact_mod_cast Int.floor_nonneg.mpr (by linarith)
  have hi1 : (⌊ky⌋ : ℝ) = 1 := by
    refine le_antisymm ((Int.floor_le ky).trans y2) ?_
    simpa using (k1.le_iff jy).mp m1.2
  rw [lo0] at jx; rw [hi1] at jy
  refine ⟨R, e, ?_, ?_, fun κ => ?_⟩
  · unfold width; rw [jx.2, jy.2]; norm_num
  · exact (IsI.mem_num ⟨jx, jy⟩).mpr ⟨by norm_num, by norm_num⟩
  · intro h
    simp only [RExpr.val, Option.bind_eq_bind, Option.bind_some, UnOp.fld] at h
    have h : ((⌊κ 0⌋ : ℤ) : ℝ) = 1/2 := Option.some.inj h
    have : (((2 * ⌊κ 0⌋ : ℤ)) : ℝ) = ((1 : ℤ) : ℝ) := by push_cast; linarith
    have := Int.cast_injective this
    omega

/-- The rate in C83 needs differentiability: `sqrt([0, δ])` has width `sqrt(δ)`, which no multiple of `δ` bounds. -/
theorem C83_rate_sqrt (dbg : Bool) : ¬ ∃ L, 0 ≤ L ∧ ∀ δ : ℝ, 0 < δ → δ ≤ 1 →
    ∃ R, (RExpr.fn .sqrt (.var 0)).ivl dbg (fun _ => ⟨.num 0, .num δ⟩) = .ok R ∧ width R ≤ L * δ := by
  rintro ⟨L, hL, h⟩
  have key : ∀ δ : ℝ, 0 < δ → δ ≤ 1 → Real.sqrt δ ≤ L * δ := fun δ h0 h1 => by
    obtain ⟨R, e, hw⟩ := h δ h0 h1
    obtain ⟨-, S, a, b, e', i, m, -, -⟩ := fn_range dbg .sqrt (by simp) (X := ⟨.num 0, .num δ⟩) ⟨Is.num 0, Is.num δ⟩ h0.le fun k hk => by simp [FnOp.real, hk.1]
    have : R = S := by
      have : (Except.ok R : Outcome _) = .ok S := e.symm.trans e'
      cases this; rfl
    subst this
    have m0 := m 0 ⟨le_rfl, h0.le⟩; have m1 := m δ ⟨h0.le, le_rfl⟩
    simp only [fnTot, FnOp.real, h0.le, le_refl, if_true, Option.getD_some, Real.sqrt_zero] at m0 m1
    unfold width at hw; rw [i.1.2, i.2.2] at hw
    linarith [m0.1, m1.2]
  have hd : 0 < 1 / (L + 1)^2 := by positivity
  have hd1 : 1 / (L + 1)^2 ≤ 1 := by rw [div_le_one (by positivity)]; nlinarith
  have := key _ hd hd1
  rw [Real.sqrt_div zero_le_one, Real.sqrt_one, Real.sqrt_sq (by linarith)] at this
  have h2 : 1 / (L + 1) = (L + 1) * (1 / (L + 1)^2) := by field_simp
  rw [h2] at this
  nlinarith
end Intervals.Props
