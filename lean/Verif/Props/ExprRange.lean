import Verif.Spec.ExprRange
import Verif.Props.RealExpr
import Verif.Props.Isotone
import Mathlib.Analysis.SpecialFunctions.Complex.Arg
import Mathlib.Analysis.SpecialFunctions.Trigonometric.Inverse
import Mathlib.Analysis.SpecialFunctions.Pow.Continuity
import Mathlib.Topology.Order.IntermediateValue
import Mathlib.Topology.UniformSpace.HeineCantor
/-!
# C83: interval evaluation converges to the value of the expression; C84: without repeated variables it is the exact range
-/
set_option linter.unusedSectionVars false
set_option linter.unusedSimpArgs false
namespace Intervals.Props
open Intervals CppVal Spec Fl Set

attribute [local instance] exactFmt

/-- `res` is the exact range of `g` over `[l, h]` -/
def Val1 (g : ℝ → ℝ) (l h : ℝ) (res : Outcome (Ivl (Fl ℝ))) : Prop :=
  ∃ R a b, res = .ok R ∧ IsI R a b ∧ (∀ k ∈ Icc l h, g k ∈ Icc a b) ∧ (∃ k ∈ Icc l h, g k = a) ∧ ∃ k ∈ Icc l h, g k = b
/-- `res` is the exact range of `g` over `S` -/
def Val2 (g : ℝ → ℝ → ℝ) (S : Set (ℝ × ℝ)) (res : Outcome (Ivl (Fl ℝ))) : Prop :=
  ∃ R a b, res = .ok R ∧ IsI R a b ∧ (∀ p ∈ S, g p.1 p.2 ∈ Icc a b) ∧ (∃ p ∈ S, g p.1 p.2 = a) ∧ ∃ p ∈ S, g p.1 p.2 = b

theorem is_of_eq {a b : Fl ℝ} {k : ℝ} (h : Is a k) (he : eq a b = true) : Is b k := by
  rw [CppOrder.eq_iff] at he
  obtain ⟨h1, h2⟩ := he
  obtain ⟨h3, h4⟩ := h
  cases a <;> simp [isFinite, val] at h3 h4 <;> subst h4 <;> cases b <;> simp at h1 h2
  · exact Is.nzero
  · rw [le_antisymm h2 h1]; exact Is.num _
  · rw [le_antisymm h1 h2]; exact Is.nzero
  · rw [le_antisymm h1 h2]; exact Is.num _
theorem eq_symm' {a b : Fl ℝ} (h : eq a b = true) : eq b a = true := by rw [CppOrder.eq_iff] at h ⊢; exact ⟨h.2, h.1⟩

theorem val1_of_exact {f : Fl ℝ → Fl ℝ} {g : ℝ → ℝ} {X : Ivl (Fl ℝ)} {l h : ℝ} {res} (hI : IsI X l h) (hE : FloatExactV1 f X res)
    (hfg : ∀ a k, Is a k → k ∈ Icc l h → Is (f a) (g k)) : Val1 g l h res := by
  obtain ⟨R, e, i, ⟨a, ha, hl⟩, ⟨b, hb, hh⟩⟩ := hE
  obtain ⟨x, hx, x1, x2⟩ := hI.mem.mp ha
  obtain ⟨y, hy, y1, y2⟩ := hI.mem.mp hb
  have i1 := is_of_eq (hfg a x hx ⟨x1, x2⟩) hl
  have i2 := is_of_eq (hfg b y hy ⟨y1, y2⟩) hh
  refine ⟨R, _, _, e, ⟨i1, i2⟩, fun k hk => ?_, ⟨x, ⟨x1, x2⟩, rfl⟩, ⟨y, ⟨y1, y2⟩, rfl⟩⟩
  have := i (.num k) (hI.mem_num.mpr hk)
  have ik := hfg _ k (Is.num k) hk
  exact ⟨(i1.le_iff ik).mp this.1, (ik.le_iff i2).mp this.2⟩

theorem val1_of_range {g : ℝ → ℝ} {X : Ivl (Fl ℝ)} {l h : ℝ} {res} (hI : IsI X l h) (hE : RealRange g X res) : Val1 g l h res := by
  obtain ⟨R, e, i, ⟨x, hx, hl⟩, ⟨y, hy, hh⟩⟩ := hE
  have i1 := is_of_eq (Is.num _) (eq_symm' hl)
  have i2 := is_of_eq (Is.num _) (eq_symm' hh)
  refine ⟨R, _, _, e, ⟨i1, i2⟩, fun k hk => ?_, ⟨x, hI.mem_num.mp hx, rfl⟩, ⟨y, hI.mem_num.mp hy, rfl⟩⟩
  have := i k (hI.mem_num.mpr hk)
  exact ⟨(i1.le_iff (Is.num _)).mp this.1, ((Is.num _).le_iff i2).mp this.2⟩

/-- the operand has the finite bounds `k`, `l` -/
def IsA (A : Arg (Fl ℝ)) (k l : ℝ) : Prop := Is A.lo k ∧ Is A.hi l

theorem IsA.mem {A : Arg (Fl ℝ)} {k l : ℝ} (h : IsA A k l) {a : Fl ℝ} : a ∈ₐ A ↔ ∃ x, Is a x ∧ x ∈ Icc k l := by
  rw [mem_bounds]
  exact IsI.mem (X := ⟨A.lo, A.hi⟩) h
theorem IsA.mem_num {A : Arg (Fl ℝ)} {k l x : ℝ} (h : IsA A k l) : .num x ∈ₐ A ↔ x ∈ Icc k l := by
  rw [mem_bounds]
  exact IsI.mem_num (X := ⟨A.lo, A.hi⟩) h
theorem IsA.proper {A : Arg (Fl ℝ)} {k l : ℝ} (h : IsA A k l) (hkl : k ≤ l) : ProperA A :=
  properA_of_mem (h.mem_num.mpr ⟨le_rfl, hkl⟩)

theorem val2_of_exact {f : Fl ℝ → Fl ℝ → Fl ℝ} {g : ℝ → ℝ → ℝ} {A B : Arg (Fl ℝ)} {l h l' h' : ℝ} {res} (hA : IsA A l h) (hB : IsA B l' h')
    (hE : FloatExact2 f A B res) (hfg : ∀ a b k m, Is a k → Is b m → k ∈ Icc l h → m ∈ Icc l' h' → Is (f a b) (g k m)) :
    Val2 g (Icc l h ×ˢ Icc l' h') res := by
  rcases hE with ⟨⟨a, b, ha, hb, hn⟩, -⟩ | ⟨-, R, e, i, ⟨a, b, ha, hb, hl⟩, ⟨a', b', ha', hb', hh⟩⟩
  · obtain ⟨x, hx, hx'⟩ := hA.mem.mp ha
    obtain ⟨y, hy, hy'⟩ := hB.mem.mp hb
    exact absurd hn (hfg _ _ _ _ hx hy hx' hy').ne_nan
  obtain ⟨x, hx, hx'⟩ := hA.mem.mp ha
  obtain ⟨y, hy, hy'⟩ := hB.mem.mp hb
  obtain ⟨u, hu, hu'⟩ := hA.mem.mp ha'
  obtain ⟨w, hw, hw'⟩ := hB.mem.mp hb'
  have i1 := hl ▸ hfg _ _ _ _ hx hy hx' hy'
  have i2 := hh ▸ hfg _ _ _ _ hu hw hu' hw'
  refine ⟨R, _, _, e, ⟨i1, i2⟩, fun p hp => ?_, ⟨(x, y), ⟨hx', hy'⟩, rfl⟩, ⟨(u, w), ⟨hu', hw'⟩, rfl⟩⟩
  have := i (.num p.1) (.num p.2) (hA.mem_num.mpr hp.1) (hB.mem_num.mpr hp.2)
  have ik := hfg _ _ _ _ (Is.num p.1) (Is.num p.2) hp.1 hp.2
  exact ⟨(i1.le_iff ik).mp this.1, (ik.le_iff i2).mp this.2⟩

theorem un_range (dbg : Bool) (op : UnOp) (hop : ¬ op.Jumps) {X : Ivl (Fl ℝ)} {l h : ℝ} (hX : IsI X l h) (hlh : l ≤ h) :
    ContinuousOn op.fld (Icc l h) ∧ Val1 op.fld l h (op.ivl dbg X) := by
  have pX := hX.proper.mpr hlh
  have key : ∀ {res}, FloatExactV1 op.pt X res → Val1 op.fld l h res := fun hE =>
    val1_of_exact hX hE fun a k ha _ => is_unF op ha
  cases op with
  | plus => exact ⟨continuousOn_id, X, l, h, C30_plus dbg X pX, hX, fun k hk => hk, ⟨l, ⟨le_rfl, hlh⟩, rfl⟩, ⟨h, ⟨hlh, le_rfl⟩, rfl⟩⟩
  | neg => exact ⟨continuousOn_neg, key (exactV_of (C30_neg dbg X pX))⟩
  | square => exact ⟨(continuous_id.mul continuous_id).continuousOn, key (exactV_of (C33_square dbg X pX).1)⟩
  | cube => exact ⟨((continuous_id.mul continuous_id).mul continuous_id).continuousOn, key (exactV_of (C33_cube dbg X pX))⟩
  | abs => exact ⟨(continuous_id.max continuous_neg).continuousOn, key (C33_abs dbg X pX).1⟩
  | floor => exact absurd (.inl rfl) hop
  | ceil => exact absurd (.inr (.inl rfl)) hop
  | round => exact absurd (.inr (.inr rfl)) hop

/-- the real function, made total -/
noncomputable def fnTot (op : FnOp) (x : ℝ) : ℝ := (op.real x).getD 0
noncomputable def op2Tot (op : Op2) (x y : ℝ) : ℝ := (op.real x y).getD 0
theorem fnTot_some {op : FnOp} {x : ℝ} (h : (op.real x).isSome) : op.real x = some (fnTot op x) := by
  unfold fnTot; obtain ⟨v, hv⟩ := Option.isSome_iff_exists.mp h; rw [hv]; rfl
theorem op2Tot_some {op : Op2} {x y : ℝ} (h : (op.real x y).isSome) : op.real x y = some (op2Tot op x y) := by
  unfold op2Tot; obtain ⟨v, hv⟩ := Option.isSome_iff_exists.mp h; rw [hv]; rfl

theorem val1_congr {f g : ℝ → ℝ} {l h : ℝ} {res} (hfg : ∀ k ∈ Icc l h, f k = g k) (hv : Val1 f l h res) : Val1 g l h res := by
  obtain ⟨R, a, b, e, i, h1, ⟨x, hx, h2⟩, ⟨y, hy, h3⟩⟩ := hv
  exact ⟨R, a, b, e, i, fun k hk => hfg k hk ▸ h1 k hk, ⟨x, hx, hfg x hx ▸ h2⟩, ⟨y, hy, hfg y hy ▸ h3⟩⟩

theorem continuous_realCbrt : Continuous realCbrt := by
  have : realCbrt = fun k => if k ≤ 0 then -((-k) ^ ((1:ℝ)/3)) else k ^ ((1:ℝ)/3) := by
    funext k
    unfold realCbrt
    rcases lt_trichotomy k 0 with h | h | h
    · rw [if_pos h, if_pos h.le]
    · rw [h]; simp
    · rw [if_neg h.not_gt, if_neg (not_le.mpr h)]
  rw [this]
  refine Continuous.if_le ?_ ?_ continuous_id continuous_const ?_
  · exact ((continuous_neg.rpow_const fun _ => .inr (by norm_num))).neg
  · exact continuous_id.rpow_const fun _ => .inr (by norm_num)
  · intro x h; simp [show x = 0 from h]

theorem fn_range (dbg : Bool) (op : FnOp) (hop : op ≠ .frac) {X : Ivl (Fl ℝ)} {l h : ℝ} (hX : IsI X l h) (hlh : l ≤ h)
    (hd : ∀ k ∈ Icc l h, (op.real k).isSome) : ContinuousOn (fnTot op) (Icc l h) ∧ Val1 (fnTot op) l h (op.ivl dbg X) := by
  have pX := hX.proper.mpr hlh
  have fX : FiniteI X := ⟨hX.1.1, hX.2.1, pX⟩
  have hl : l ∈ Icc l h := ⟨le_rfl, hlh⟩
  have hh : h ∈ Icc l h := ⟨hlh, le_rfl⟩
  have both : ∀ {g : ℝ → ℝ}, (∀ k ∈ Icc l h, op.real k = some (g k)) → ContinuousOn g (Icc l h) → Val1 g l h (op.ivl dbg X) →
      ContinuousOn (fnTot op) (Icc l h) ∧ Val1 (fnTot op) l h (op.ivl dbg X) := fun {g} hg hc hv =>
    have hg' : ∀ k ∈ Icc l h, g k = fnTot op k := fun k hk => by unfold fnTot; rw [hg k hk]; rfl
    ⟨hc.congr fun k hk => (hg' k hk).symm, val1_congr hg' hv⟩
  have key : ∀ {f : Fl ℝ → Fl ℝ} {g : ℝ → ℝ} {res}, FloatExact1 f X res → (∀ k ∈ Icc l h, f (.num k) = .num (g k)) →
      (0 ∈ Icc l h → Is (f .nzero) (g 0)) → Val1 g l h res := fun {f g res} hE h1 h0 =>
    val1_of_exact hX (exactV_of hE) fun a k ha hk => by
      obtain ⟨ha1, ha2⟩ := ha
      cases a <;> simp [isFinite, val] at ha1 ha2
      · subst ha2; exact h0 hk
      · subst ha2; rw [h1 _ hk]; exact Is.num _
  cases op with
  | sqrt =>
    have d : ∀ k ∈ Icc l h, 0 ≤ k := fun k hk => by
      have := hd k hk; simp only [FnOp.real] at this; by_contra hn; simp [hn] at this
    refine both (g := Real.sqrt) (fun k hk => by simp [FnOp.real, d k hk]) Real.continuous_sqrt.continuousOn ?_
    refine key (C37_sqrt sqrt_mono dbg X pX ((Is.le_iff (Is.num 0) hX.1).mpr (d l hl))) (fun k hk => ?_) fun _ => ?_
    · simp [Libm.sqrt, not_lt.mpr (d k hk), Fmt.rnd]
    · simpa [Libm.sqrt] using Is.nzero (K := ℝ)
  | cbrt =>
    refine both (g := realCbrt) (fun k hk => rfl) continuous_realCbrt.continuousOn ?_
    refine key (C37_cbrt cbrt_mono dbg X pX) (fun k hk => ?_) fun _ => ?_
    · simp [Libm.cbrt, Fmt.rnd]
    · simpa [Libm.cbrt, realCbrt] using Is.nzero (K := ℝ)
  | log =>
    have d : ∀ k ∈ Icc l h, 0 < k := fun k hk => by
      have := hd k hk; simp only [FnOp.real] at this; by_contra hn; simp [hn] at this
    refine both (g := Real.log) (fun k hk => by simp [FnOp.real, d k hk]) (Real.continuousOn_log.mono fun k hk => (d k hk).ne') ?_
    refine key (C37_log log_mono dbg X pX ((Is.le_iff (Is.num 0) hX.1).mpr (d l hl).le)) (fun k hk => ?_) fun h0 => absurd (d 0 h0) (lt_irrefl _)
    simp [Libm.log, (d k hk).not_gt, (d k hk).ne', Fmt.rnd]
  | exp =>
    refine both (g := Real.exp) (fun k hk => rfl) Real.continuous_exp.continuousOn ?_
    refine key (C37_exp exp_mono dbg X pX) (fun k hk => ?_) fun _ => ?_
    · simp [Libm.exp, Fmt.rnd]
    · simpa [Libm.exp, Fmt.rnd] using Is.num (1:ℝ)
  | atan =>
    refine both (g := Real.arctan) (fun k hk => rfl) Real.continuous_arctan.continuousOn ?_
    refine key (C37_atan atan_mono dbg X pX) (fun k hk => ?_) fun _ => ?_
    · simp [Libm.atan, Fmt.rnd]
    · simpa [Libm.atan] using Is.nzero (K := ℝ)
  | asin =>
    have d : ∀ k ∈ Icc l h, -1 ≤ k ∧ k ≤ 1 := fun k hk => by
      have := hd k hk; simp only [FnOp.real] at this; by_contra hn; simp [hn] at this
    refine both (g := Real.arcsin) (fun k hk => by simp [FnOp.real, d k hk]) Real.continuous_arcsin.continuousOn ?_
    refine key (C37_asin asin_mono dbg X pX ((Is.le_iff (Is.num _) hX.1).mpr (d l hl).1) ((Is.le_iff hX.2 (Is.num _)).mpr (d h hh).2)) (fun k hk => ?_) fun _ => ?_
    · simp [Libm.asin, not_lt.mpr (d k hk).1, not_lt.mpr (d k hk).2, Fmt.rnd]
    · simpa [Libm.asin] using Is.nzero (K := ℝ)
  | acos =>
    have d : ∀ k ∈ Icc l h, -1 ≤ k ∧ k ≤ 1 := fun k hk => by
      have := hd k hk; simp only [FnOp.real] at this; by_contra hn; simp [hn] at this
    refine both (g := Real.arccos) (fun k hk => by simp [FnOp.real, d k hk]) Real.continuous_arccos.continuousOn ?_
    refine key (C37_acos acos_anti dbg X pX ((Is.le_iff (Is.num _) hX.1).mpr (d l hl).1) ((Is.le_iff hX.2 (Is.num _)).mpr (d h hh).2)) (fun k hk => ?_) fun _ => ?_
    · simp [Libm.acos, not_lt.mpr (d k hk).1, not_lt.mpr (d k hk).2, Fmt.rnd]
    · simpa [Libm.acos, Fmt.rnd] using Is.num (Real.arccos 0)
  | cos => exact both (g := Real.cos) (fun k hk => rfl) Real.continuous_cos.continuousOn (val1_of_range hX (C38_cos dbg X fX))
  | sin => exact both (g := Real.sin) (fun k hk => rfl) Real.continuous_sin.continuousOn (val1_of_range hX (C38_sin dbg X fX))
  | tan =>
    have d : ∀ k ∈ Icc l h, Real.cos k ≠ 0 := fun k hk => by
      have := hd k hk; simp only [FnOp.real] at this; by_contra hn; simp [hn] at this
    exact both (g := Real.tan) (fun k hk => by simp [FnOp.real, d k hk]) (Real.continuousOn_tan.mono fun k hk => d k hk)
      (val1_of_range hX ((C39_tan_partial dbg X fX).1 fun x hx => d x (hX.mem_num.mp hx)))
  | frac => exact absurd rfl hop

theorem val2_congr {f g : ℝ → ℝ → ℝ} {S : Set (ℝ × ℝ)} {res} (hfg : ∀ p ∈ S, f p.1 p.2 = g p.1 p.2) (hv : Val2 f S res) : Val2 g S res := by
  obtain ⟨R, a, b, e, i, h1, ⟨x, hx, h2⟩, ⟨y, hy, h3⟩⟩ := hv
  exact ⟨R, a, b, e, i, fun k hk => hfg k hk ▸ h1 k hk, ⟨x, hx, hfg x hx ▸ h2⟩, ⟨y, hy, hfg y hy ▸ h3⟩⟩

theorem op2_range (dbg : Bool) (op : Op2) {A B : Arg (Fl ℝ)} {l h l' h' : ℝ} (hA : IsA A l h) (hB : IsA B l' h') (hlh : l ≤ h) (hlh' : l' ≤ h')
    (hd : ∀ k ∈ Icc l h, ∀ m ∈ Icc l' h', (op.real k m).isSome ∧ (op = .pow → 0 < k)) :
    ContinuousOn (fun p : ℝ × ℝ => op2Tot op p.1 p.2) (Icc l h ×ˢ Icc l' h') ∧
      Val2 (op2Tot op) (Icc l h ×ˢ Icc l' h') (op.ivl dbg A B) := by
  have pA := hA.proper hlh; have pB := hB.proper hlh'
  have hl : l ∈ Icc l h := ⟨le_rfl, hlh⟩
  have hl' : l' ∈ Icc l' h' := ⟨le_rfl, hlh'⟩
  have both : ∀ {g : ℝ → ℝ → ℝ}, (∀ k ∈ Icc l h, ∀ m ∈ Icc l' h', op.real k m = some (g k m)) →
      ContinuousOn (fun p : ℝ × ℝ => g p.1 p.2) (Icc l h ×ˢ Icc l' h') → Val2 g (Icc l h ×ˢ Icc l' h') (op.ivl dbg A B) →
      ContinuousOn (fun p : ℝ × ℝ => op2Tot op p.1 p.2) (Icc l h ×ˢ Icc l' h') ∧ Val2 (op2Tot op) (Icc l h ×ˢ Icc l' h') (op.ivl dbg A B) :=
    fun {g} hg hc hv =>
    have hg' : ∀ p ∈ Icc l h ×ˢ Icc l' h', g p.1 p.2 = op2Tot op p.1 p.2 := fun p hp => by unfold op2Tot; rw [hg _ hp.1 _ hp.2]; rfl
    ⟨hc.congr fun k hk => (hg' k hk).symm, val2_congr hg' hv⟩
  have c1 : ContinuousOn (fun p : ℝ × ℝ => p.1) (Icc l h ×ˢ Icc l' h') := continuousOn_fst
  have c2 : ContinuousOn (fun p : ℝ × ℝ => p.2) (Icc l h ×ˢ Icc l' h') := continuousOn_snd
  cases op with
  | arith op =>
    cases op with
    | add => exact both (g := fun x y => x + y) (fun _ _ _ _ => rfl) (c1.add c2) (val2_of_exact hA hB (C30_add dbg A B pA pB) fun _ _ _ _ ha hb _ _ => ha.add hb)
    | sub => exact both (g := fun x y => x - y) (fun _ _ _ _ => rfl) (c1.sub c2) (val2_of_exact hA hB (C30_sub dbg A B pA pB) fun _ _ _ _ ha hb _ _ => ha.sub hb)
    | mul => exact both (g := fun x y => x * y) (fun _ _ _ _ => rfl) (c1.mul c2) (val2_of_exact hA hB (C31_mul dbg A B pA pB) fun _ _ _ _ ha hb _ _ => ha.mul hb)
    | div =>
      have d : ∀ m ∈ Icc l' h', m ≠ 0 := fun m hm h0 => by
        have := (hd l hl m hm).1; simp [Op2.real, BinOp.fld, h0] at this
      exact both (g := fun x y => x / y) (fun _ _ m hm => by simp [Op2.real, BinOp.fld, d m hm]) (c1.div c2 fun p hp => d _ hp.2)
        (val2_of_exact hA hB (C32_exact dbg A B pA pB fun h0 => d 0 (hB.mem_num.mp h0) rfl) fun _ _ _ m ha hb _ hm => ha.div hb (d m hm))
    | min =>
      refine both (g := fun x y => min x y) (fun _ _ _ _ => rfl) (continuous_fst.min continuous_snd).continuousOn ?_
      obtain ⟨R, e, pR, hR⟩ := C16_min dbg A B pA pB
      refine val2_of_exact hA hB (f := cmin) (.inr ⟨fun a b ha hb => ?_, R, e, fun a b ha hb => (hR _).mpr ⟨a, b, ha, hb, rfl⟩, ?_, ?_⟩) fun _ _ _ _ ha hb _ _ => ha.cmin hb
      · obtain ⟨x, hx, -⟩ := hA.mem.mp ha; obtain ⟨y, hy, -⟩ := hB.mem.mp hb
        exact (hx.cmin hy).ne_nan
      · obtain ⟨a, b, ha, hb, hv⟩ := (hR R.lo).mp (lo_mem (X := .ivl R) pR); exact ⟨a, b, ha, hb, hv.symm⟩
      · obtain ⟨a, b, ha, hb, hv⟩ := (hR R.hi).mp (hi_mem (X := .ivl R) pR); exact ⟨a, b, ha, hb, hv.symm⟩
    | max =>
      refine both (g := fun x y => max x y) (fun _ _ _ _ => rfl) (continuous_fst.max continuous_snd).continuousOn ?_
      obtain ⟨R, e, pR, hR⟩ := C16_max dbg A B pA pB
      refine val2_of_exact hA hB (f := cmax) (.inr ⟨fun a b ha hb => ?_, R, e, fun a b ha hb => (hR _).mpr ⟨a, b, ha, hb, rfl⟩, ?_, ?_⟩) fun _ _ _ _ ha hb _ _ => ha.cmax hb
      · obtain ⟨x, hx, -⟩ := hA.mem.mp ha; obtain ⟨y, hy, -⟩ := hB.mem.mp hb
        exact (hx.cmax hy).ne_nan
      · obtain ⟨a, b, ha, hb, hv⟩ := (hR R.lo).mp (lo_mem (X := .ivl R) pR); exact ⟨a, b, ha, hb, hv.symm⟩
      · obtain ⟨a, b, ha, hb, hv⟩ := (hR R.hi).mp (hi_mem (X := .ivl R) pR); exact ⟨a, b, ha, hb, hv.symm⟩
  | atan2 =>
    have d : ∀ k ∈ Icc l h, ∀ m ∈ Icc l' h', k ≠ 0 ∨ 0 < m := fun k hk m hm => by
      have := (hd k hk m hm).1; simp only [Op2.real] at this; by_contra hn; simp [hn] at this
    have isx : ∀ a b k m, Is a k → Is b m → k ∈ Icc l h → m ∈ Icc l' h' → Is (Libm.atan2 a b) (Complex.arg ⟨m, k⟩) := fun a b k m ha hb hk hm => by
      have hoff : OffCut a b := ⟨ha.ne_nan, hb.ne_nan, (d k hk m hm).imp (fun h => by
        unfold CppVal.ne; rw [ha.eq_eq (Is.num 0)]; simpa using h) fun h => ((Is.num 0).lt_iff hb).mpr h⟩
      rw [is_iff_ext, ext_atan2 hoff]
      obtain ⟨f1, v1⟩ := ha; obtain ⟨f2, v2⟩ := hb
      cases a <;> simp [isFinite, val] at f1 v1 <;> subst v1 <;> cases b <;> simp [isFinite, val] at f2 v2 <;> subst v2 <;> rfl
    refine both (g := fun y x => Complex.arg ⟨x, y⟩) (fun k hk m hm => by simp only [Op2.real]; rw [if_pos (d k hk m hm)]) ?_ ?_
    · intro p hp
      have hs : (⟨p.2, p.1⟩ : ℂ) ∈ Complex.slitPlane := by
        rw [Complex.mem_slitPlane_iff]; exact (d _ hp.1 _ hp.2).symm
      have hc : Continuous fun p : ℝ × ℝ => (⟨p.2, p.1⟩ : ℂ) := by
        have : (fun p : ℝ × ℝ => (⟨p.2, p.1⟩ : ℂ)) = fun p => (p.2 : ℂ) + (p.1 : ℂ) * Complex.I := by
          funext p; apply Complex.ext <;> simp
        rw [this]; fun_prop
      exact ((Complex.continuousAt_arg hs).comp (f := fun p : ℝ × ℝ => (⟨p.2, p.1⟩ : ℂ)) hc.continuousAt).continuousWithinAt
    · obtain ⟨R, e, i, a1, a2⟩ := (C40_atan2 dbg A B pA pB).2 (by
        rintro ⟨y, x, hy, hx, h1, h2⟩
        obtain ⟨k, ik, hk⟩ := hA.mem.mp hy
        obtain ⟨m, im, hm⟩ := hB.mem.mp hx
        rcases d k hk m hm with h0 | h0
        · exact h0 ((ik.eq_iff (Is.num 0)).mp h1)
        · exact absurd ((im.le_iff (Is.num 0)).mp h2) (not_le.mpr h0))
      refine val2_of_exact hA hB (f := Libm.atan2) (.inr ⟨fun a b ha hb => ?_, R, e, i, a1, a2⟩) isx
      obtain ⟨x, hx, hx'⟩ := hA.mem.mp ha; obtain ⟨y, hy, hy'⟩ := hB.mem.mp hb
      exact (isx _ _ _ _ hx hy hx' hy').ne_nan
  | pow =>
    have d : ∀ k ∈ Icc l h, 0 < k := fun k hk => (hd k hk l' hl').2 rfl
    refine both (g := fun x y => x ^ y) (fun k hk m hm => by simp [Op2.real, d k hk]) (c1.rpow c2 fun p hp => .inl (d _ hp.1).ne') ?_
    obtain ⟨R, e, i, ⟨x, y, hx, hy, h1⟩, ⟨u, w, hu, hw, h2⟩⟩ := C41_nonneg dbg A B ⟨hA.1.1, hA.2.1, pA⟩ ⟨hB.1.1, hB.2.1, pB⟩ fun x hx => (d x (hA.mem_num.mp hx)).le
    have sp : ∀ {x y : ℝ}, .num x ∈ₐ A → powSpec x y = .num (x ^ y) := fun {x y} hx => by simp [powSpec, (d x (hA.mem_num.mp hx)).ne']
    rw [sp hx] at h1; rw [sp hu] at h2
    have i1 := is_of_eq (Is.num _) (eq_symm' h1)
    have i2 := is_of_eq (Is.num _) (eq_symm' h2)
    refine ⟨R, _, _, e, ⟨i1, i2⟩, fun p hp => ?_, ⟨(x, y), ⟨hA.mem_num.mp hx, hB.mem_num.mp hy⟩, rfl⟩, ⟨(u, w), ⟨hA.mem_num.mp hu, hB.mem_num.mp hw⟩, rfl⟩⟩
    have := i p.1 p.2 (hA.mem_num.mpr hp.1) (hB.mem_num.mpr hp.2)
    rw [sp (hA.mem_num.mpr hp.1)] at this
    exact ⟨(i1.le_iff (Is.num _)).mp this.1, ((Is.num _).le_iff i2).mp this.2⟩

/-! ## Convergence -/

/-- what the induction carries: the evaluation `E` on the box `X₀` gives `[a₀, b₀]`, and on small boxes in `X₀` it gives small intervals around the values `V` -/
def Conv (E : (Nat → Ivl (Fl ℝ)) → Outcome (Ivl (Fl ℝ))) (V : (Nat → ℝ) → Option ℝ) (vs : List Nat) (X₀ : Nat → Ivl (Fl ℝ)) (a₀ b₀ : ℝ) : Prop :=
  (∃ R₀, E X₀ = .ok R₀ ∧ IsI R₀ a₀ b₀) ∧ a₀ ≤ b₀ ∧
  ∀ ε > 0, ∃ δ > 0, ∀ X, FiniteBox X → (∀ i, SubI (X i) (X₀ i)) → (∀ i ∈ vs, width (X i) ≤ δ) →
    ∃ R a b, E X = .ok R ∧ IsI R a b ∧ a ≤ b ∧ a₀ ≤ a ∧ b ≤ b₀ ∧ b - a ≤ ε ∧ ∀ κ, InBox κ X → ∃ v ∈ Icc a b, V κ = some v

theorem conv_var {X₀ : Nat → Ivl (Fl ℝ)} (hX : FiniteBox X₀) (i : Nat) :
    Conv (fun X => .ok (X i)) (fun κ => some (κ i)) [i] X₀ (X₀ i).lo.val (X₀ i).hi.val := by
  have h0 := isI_of_finite (hX i).1 (hX i).2.1
  refine ⟨⟨_, rfl, h0⟩, h0.proper.mp (hX i).2.2, fun ε hε => ⟨ε, hε, fun X fX sX wX => ?_⟩⟩
  have h1 := isI_of_finite (fX i).1 (fX i).2.1
  have hle := h1.proper.mp (fX i).2.2
  have m1 := h0.mem_num.mp (sX i _ (h1.mem_num.mpr ⟨le_rfl, hle⟩))
  have m2 := h0.mem_num.mp (sX i _ (h1.mem_num.mpr ⟨hle, le_rfl⟩))
  exact ⟨_, _, _, rfl, h1, hle, m1.1, m2.2, wX i (by simp), fun κ hκ => ⟨κ i, h1.mem_num.mp (hκ i), rfl⟩⟩

theorem Val1.ok {g : ℝ → ℝ} {l h : ℝ} {res} (hv : Val1 g l h res) : ∃ R a b, res = .ok R ∧ IsI R a b ∧ a ≤ b := by
  obtain ⟨R, a, b, e, i, h1, ⟨k, hk, h2⟩, -⟩ := hv
  exact ⟨R, a, b, e, i, (h1 k hk).1.trans (h1 k hk).2⟩

theorem conv1 {E : (Nat → Ivl (Fl ℝ)) → Outcome (Ivl (Fl ℝ))} {V : (Nat → ℝ) → Option ℝ} {vs : List Nat} {X₀ : Nat → Ivl (Fl ℝ)} {a₀ b₀ : ℝ}
    (hE : Conv E V vs X₀ a₀ b₀) {F : Ivl (Fl ℝ) → Outcome (Ivl (Fl ℝ))} {g : ℝ → Option ℝ} {t : ℝ → ℝ} (hg : ∀ k ∈ Icc a₀ b₀, g k = some (t k))
    (hc : ContinuousOn t (Icc a₀ b₀)) (hv : ∀ X l h, IsI X l h → l ≤ h → Icc l h ⊆ Icc a₀ b₀ → Val1 t l h (F X)) :
    ∃ a b, Conv (fun X => E X >>= F) (fun κ => V κ >>= g) vs X₀ a b := by
  obtain ⟨⟨R₀, e₀, i₀⟩, h₀, conv⟩ := hE
  obtain ⟨S₀, a₁, b₁, eS₀, iS₀, m₁, ⟨ka, hka, ha₁⟩, ⟨kb, hkb, hb₁⟩⟩ := hv R₀ a₀ b₀ i₀ h₀ subset_rfl
  refine ⟨a₁, b₁, ⟨S₀, by simp only [e₀, ok_bind, eS₀], iS₀⟩, ?_, fun ε hε => ?_⟩
  · exact (m₁ ka hka).1.trans (m₁ ka hka).2
  have uc := isCompact_Icc.uniformContinuousOn_of_continuous hc
  rw [Metric.uniformContinuousOn_iff] at uc
  obtain ⟨η, hη, huc⟩ := uc ε hε
  obtain ⟨δ, hδ, hδ'⟩ := conv (η/2) (by linarith)
  refine ⟨δ, hδ, fun X fX sX wX => ?_⟩
  obtain ⟨R, a, b, e, i, hab, h1, h2, hw, hκ⟩ := hδ' X fX sX wX
  have sub : Icc a b ⊆ Icc a₀ b₀ := Icc_subset_Icc h1 h2
  obtain ⟨S, c, d, eS, iS, m, ⟨kc, hkc, hc'⟩, ⟨kd, hkd, hd'⟩⟩ := hv R a b i hab sub
  refine ⟨S, c, d, by simp only [e, ok_bind, eS], iS, (m kc hkc).1.trans (m kc hkc).2, hc' ▸ (m₁ kc (sub hkc)).1, hd' ▸ (m₁ kd (sub hkd)).2, ?_, fun κ hk => ?_⟩
  · have := huc kd (sub hkd) kc (sub hkc) (by
      rw [Real.dist_eq, abs_lt]; constructor <;> linarith [hkc.1, hkc.2, hkd.1, hkd.2])
    rw [hc', hd', Real.dist_eq] at this
    exact (le_abs_self _).trans this.le
  · obtain ⟨v, hv, e⟩ := hκ κ hk
    exact ⟨t v, m v hv, by simp only [e, Option.bind_eq_bind, Option.bind_some, hg v (sub hv)]⟩

theorem conv2 {E₁ E₂ : (Nat → Ivl (Fl ℝ)) → Outcome (Ivl (Fl ℝ))} {V₁ V₂ : (Nat → ℝ) → Option ℝ} {vs₁ vs₂ : List Nat} {X₀ : Nat → Ivl (Fl ℝ)} {a₁ b₁ a₂ b₂ : ℝ}
    (hE₁ : Conv E₁ V₁ vs₁ X₀ a₁ b₁) (hE₂ : Conv E₂ V₂ vs₂ X₀ a₂ b₂) {F : Ivl (Fl ℝ) → Ivl (Fl ℝ) → Outcome (Ivl (Fl ℝ))} {g : ℝ → ℝ → Option ℝ} {t : ℝ → ℝ → ℝ}
    (hg : ∀ k ∈ Icc a₁ b₁, ∀ m ∈ Icc a₂ b₂, g k m = some (t k m)) (hc : ContinuousOn (fun p : ℝ × ℝ => t p.1 p.2) (Icc a₁ b₁ ×ˢ Icc a₂ b₂))
    (hv : ∀ X Y l h l' h', IsI X l h → IsI Y l' h' → l ≤ h → l' ≤ h' → Icc l h ⊆ Icc a₁ b₁ → Icc l' h' ⊆ Icc a₂ b₂ → Val2 t (Icc l h ×ˢ Icc l' h') (F X Y)) :
    ∃ a b, Conv (fun X => do F (← E₁ X) (← E₂ X)) (fun κ => do g (← V₁ κ) (← V₂ κ)) (vs₁ ++ vs₂) X₀ a b := by
  obtain ⟨⟨R₁, e₁, i₁⟩, h₁, conv₁⟩ := hE₁
  obtain ⟨⟨R₂, e₂, i₂⟩, h₂, conv₂⟩ := hE₂
  obtain ⟨S₀, a, b, eS₀, iS₀, m₀, ⟨ka, hka, ha⟩, ⟨kb, hkb, hb⟩⟩ := hv R₁ R₂ _ _ _ _ i₁ i₂ h₁ h₂ subset_rfl subset_rfl
  refine ⟨a, b, ⟨S₀, by simp only [e₁, e₂, ok_bind, eS₀], iS₀⟩, (m₀ ka hka).1.trans (m₀ ka hka).2, fun ε hε => ?_⟩
  have uc := (isCompact_Icc.prod isCompact_Icc).uniformContinuousOn_of_continuous hc
  rw [Metric.uniformContinuousOn_iff] at uc
  obtain ⟨η, hη, huc⟩ := uc ε hε
  obtain ⟨δ₁, hδ₁, hδ₁'⟩ := conv₁ (η/2) (by linarith)
  obtain ⟨δ₂, hδ₂, hδ₂'⟩ := conv₂ (η/2) (by linarith)
  refine ⟨min δ₁ δ₂, lt_min hδ₁ hδ₂, fun X fX sX wX => ?_⟩
  obtain ⟨R, l, h, e, i, hlh, g1, g2, hw, hκ⟩ := hδ₁' X fX sX fun i hi => (wX i (List.mem_append_left _ hi)).trans (min_le_left _ _)
  obtain ⟨R', l', h', e', i', hlh', g1', g2', hw', hκ'⟩ := hδ₂' X fX sX fun i hi => (wX i (List.mem_append_right _ hi)).trans (min_le_right _ _)
  have sub : Icc l h ⊆ Icc a₁ b₁ := Icc_subset_Icc g1 g2
  have sub' : Icc l' h' ⊆ Icc a₂ b₂ := Icc_subset_Icc g1' g2'
  have subp := prod_mono sub sub'
  obtain ⟨S, c, d, eS, iS, m, ⟨p, hp, hc'⟩, ⟨q, hq, hd'⟩⟩ := hv R R' l h l' h' i i' hlh hlh' sub sub'
  refine ⟨S, c, d, by simp only [e, e', ok_bind, eS], iS, (m p hp).1.trans (m p hp).2, hc' ▸ (m₀ p (subp hp)).1, hd' ▸ (m₀ q (subp hq)).2, ?_, fun κ hk => ?_⟩
  · have := huc q (subp hq) p (subp hp) (by
      rw [Prod.dist_eq, max_lt_iff, Real.dist_eq, Real.dist_eq, abs_lt, abs_lt]
      obtain ⟨p1, p2⟩ := hp; obtain ⟨q1, q2⟩ := hq
      refine ⟨⟨?_, ?_⟩, ?_, ?_⟩ <;> linarith [p1.1, p1.2, p2.1, p2.2, q1.1, q1.2, q2.1, q2.2])
    rw [hc', hd', Real.dist_eq] at this
    exact (le_abs_self _).trans this.le
  · obtain ⟨v, hv, ev⟩ := hκ κ hk
    obtain ⟨w, hw, ew⟩ := hκ' κ hk
    exact ⟨t v w, m (v, w) ⟨hv, hw⟩, by simp only [ev, ew, Option.bind_eq_bind, Option.bind_some, hg v (sub hv) w (sub' hw)]⟩

theorem conv_expr (dbg : Bool) (X₀ : Nat → Ivl (Fl ℝ)) (hX : FiniteBox X₀) (e : RExpr) (he : e.Regular dbg X₀) :
    ∃ a b, Conv (e.ivl dbg) e.val e.vars X₀ a b := by
  induction e with
  | var i => exact ⟨_, _, conv_var hX i⟩
  | un op e ih =>
    obtain ⟨a, b, h⟩ := ih he.1
    exact conv1 h (g := fun k => some (op.fld k)) (fun k hk => rfl) (un_range dbg op he.2 h.1.choose_spec.2 h.2.1).1
      fun X l u hX hlu _ => (un_range dbg op he.2 hX hlu).2
  | fn op e ih =>
    obtain ⟨a, b, h⟩ := ih he.1
    obtain ⟨R, eR, iR⟩ := h.1
    have d : ∀ k ∈ Icc a b, (op.real k).isSome := fun k hk => he.2.2 R eR k (iR.mem_num.mpr hk)
    exact conv1 h (fun k hk => fnTot_some (d k hk)) (fn_range dbg op he.2.1 iR h.2.1 d).1
      fun X l u hX hlu hs => (fn_range dbg op he.2.1 hX hlu fun k hk => d k (hs hk)).2
  | bin op e₁ e₂ ih₁ ih₂ =>
    obtain ⟨a, b, h⟩ := ih₁ he.1
    obtain ⟨a', b', h'⟩ := ih₂ he.2.1
    obtain ⟨R, eR, iR⟩ := h.1
    obtain ⟨R', eR', iR'⟩ := h'.1
    have d : ∀ k ∈ Icc a b, ∀ m ∈ Icc a' b', (op.real k m).isSome ∧ (op = .pow → 0 < k) := fun k hk m hm =>
      he.2.2 R R' eR eR' k m (iR.mem_num.mpr hk) (iR'.mem_num.mpr hm)
    exact conv2 h h' (F := fun X Y => op.ivl dbg (.ivl X) (.ivl Y)) (fun k hk m hm => op2Tot_some (d k hk m hm).1)
      (op2_range dbg op (A := .ivl R) (B := .ivl R') iR iR' h.2.1 h'.2.1 d).1
      fun X Y l u l' u' hX hY hlu hlu' hs hs' => (op2_range dbg op (A := .ivl X) (B := .ivl Y) hX hY hlu hlu' fun k hk m hm => d k (hs hk) m (hs' hm)).2
  | binL op c e ih =>
    obtain ⟨a, b, h⟩ := ih he.1
    obtain ⟨R, eR, iR⟩ := h.1
    have d : ∀ k ∈ Icc c c, ∀ m ∈ Icc a b, (op.real k m).isSome ∧ (op = .pow → 0 < k) := fun k hk m hm => by
      rw [Icc_self, mem_singleton_iff] at hk; subst hk
      exact he.2 R eR m (iR.mem_num.mpr hm)
    have hc : c ∈ Icc c c := ⟨le_rfl, le_rfl⟩
    have isc : IsA (.scalar (.num c)) c c := ⟨Is.num c, Is.num c⟩
    exact conv1 h (F := fun X => op.ivl dbg (.scalar (.num c)) (.ivl X)) (g := op.real c) (fun k hk => op2Tot_some (d c hc k hk).1)
      ((op2_range dbg op isc (B := .ivl R) iR le_rfl h.2.1 d).1.comp (f := fun k => (c, k)) (by fun_prop) fun k hk => ⟨hc, hk⟩)
      fun X l u hX hlu hs => by
        obtain ⟨S, p, q, eS, iS, m, ⟨x, hx, h1⟩, ⟨y, hy, h2⟩⟩ := (op2_range dbg op isc (B := .ivl X) hX le_rfl hlu fun k hk m hm => d k hk m (hs hm)).2
        have hx1 : x.1 = c := le_antisymm hx.1.2 hx.1.1
        have hy1 : y.1 = c := le_antisymm hy.1.2 hy.1.1
        exact ⟨S, p, q, eS, iS, fun k hk => m (c, k) ⟨hc, hk⟩, ⟨x.2, hx.2, hx1 ▸ h1⟩, ⟨y.2, hy.2, hy1 ▸ h2⟩⟩
  | binR op e c ih =>
    obtain ⟨a, b, h⟩ := ih he.1
    obtain ⟨R, eR, iR⟩ := h.1
    have d : ∀ k ∈ Icc a b, ∀ m ∈ Icc c c, (op.real k m).isSome ∧ (op = .pow → 0 < k) := fun k hk m hm => by
      rw [Icc_self, mem_singleton_iff] at hm; subst hm
      exact he.2 R eR k (iR.mem_num.mpr hk)
    have hc : c ∈ Icc c c := ⟨le_rfl, le_rfl⟩
    have isc : IsA (.scalar (.num c)) c c := ⟨Is.num c, Is.num c⟩
    exact conv1 h (F := fun X => op.ivl dbg (.ivl X) (.scalar (.num c))) (g := fun x => op.real x c) (fun k hk => op2Tot_some (d k hk c hc).1)
      ((op2_range dbg op (A := .ivl R) iR isc h.2.1 le_rfl d).1.comp (f := fun k => (k, c)) (by fun_prop) fun k hk => ⟨hk, hc⟩)
      fun X l u hX hlu hs => by
        obtain ⟨S, p, q, eS, iS, m, ⟨x, hx, h1⟩, ⟨y, hy, h2⟩⟩ := (op2_range dbg op (A := .ivl X) hX isc hlu le_rfl fun k hk m hm => d k (hs hk) m hm).2
        have hx1 : x.2 = c := le_antisymm hx.2.2 hx.2.1
        have hy1 : y.2 = c := le_antisymm hy.2.2 hy.2.1
        exact ⟨S, p, q, eS, iS, fun k hk => m (k, c) ⟨hk, hc⟩, ⟨x.1, hx.1, hx1 ▸ h1⟩, ⟨y.1, hy.1, hy1 ▸ h2⟩⟩

/-- C83, in exact arithmetic: if a regular expression is evaluated on boxes inside `X₀` whose sides (for the variables of the expression) are small enough, both bounds of the result are
arbitrarily close to every value of the expression on the box: overestimation disappears as the operands shrink. -/
theorem C83_convergence (dbg : Bool) (X₀ : Nat → Ivl (Fl ℝ)) (hX : FiniteBox X₀) (e : RExpr) (he : e.Regular dbg X₀) (ε : ℝ) (hε : 0 < ε) :
    ∃ δ > 0, ∀ X, FiniteBox X → (∀ i, SubI (X i) (X₀ i)) → (∀ i ∈ e.vars, width (X i) ≤ δ) →
      ∃ R, e.ivl dbg X = .ok R ∧ FiniteI R ∧ width R ≤ ε ∧ ∀ κ, InBox κ X → ∃ v, e.val κ = some v ∧ .num v ∈ᵢ R := by
  obtain ⟨a, b, -, -, h⟩ := conv_expr dbg X₀ hX e he
  obtain ⟨δ, hδ, h⟩ := h ε hε
  refine ⟨δ, hδ, fun X fX sX wX => ?_⟩
  obtain ⟨R, c, d, e, i, hcd, -, -, hw, hκ⟩ := h X fX sX wX
  refine ⟨R, e, ⟨i.1.1, i.2.1, i.proper.mpr hcd⟩, ?_, fun κ hk => ?_⟩
  · unfold width; rw [i.1.2, i.2.2]; exact hw
  · obtain ⟨v, hv, e⟩ := hκ κ hk
    exact ⟨v, e, i.mem_num.mpr hv⟩

/-! ## Expressions without repeated variables -/
theorem Val1.image {g : ℝ → ℝ} {l h : ℝ} {res} (hc : ContinuousOn g (Icc l h)) (hv : Val1 g l h res) :
    ∃ R a b, res = .ok R ∧ IsI R a b ∧ a ≤ b ∧ ∀ v, v ∈ Icc a b ↔ ∃ k ∈ Icc l h, g k = v := by
  obtain ⟨R, a, b, e, i, m, ⟨x, hx, h1⟩, ⟨y, hy, h2⟩⟩ := hv
  refine ⟨R, a, b, e, i, (m x hx).1.trans (m x hx).2, fun v => ⟨fun hv => ?_, fun ⟨k, hk, hv⟩ => hv ▸ m k hk⟩⟩
  exact isPreconnected_Icc.intermediate_value hx hy hc (by rw [h1, h2]; exact hv)
theorem Val2.image {g : ℝ → ℝ → ℝ} {l h l' h' : ℝ} {res} (hc : ContinuousOn (fun p : ℝ × ℝ => g p.1 p.2) (Icc l h ×ˢ Icc l' h'))
    (hv : Val2 g (Icc l h ×ˢ Icc l' h') res) :
    ∃ R a b, res = .ok R ∧ IsI R a b ∧ a ≤ b ∧ ∀ v, v ∈ Icc a b ↔ ∃ k ∈ Icc l h, ∃ m ∈ Icc l' h', g k m = v := by
  obtain ⟨R, a, b, e, i, m, ⟨x, hx, h1⟩, ⟨y, hy, h2⟩⟩ := hv
  refine ⟨R, a, b, e, i, (m x hx).1.trans (m x hx).2, fun v => ⟨fun hv => ?_, fun ⟨k, hk, n, hn, hv⟩ => hv ▸ m (k, n) ⟨hk, hn⟩⟩⟩
  obtain ⟨p, hp, hv⟩ := (isPreconnected_Icc.prod isPreconnected_Icc).intermediate_value hx hy hc (by rw [h1, h2]; exact hv)
  exact ⟨p.1, hp.1, p.2, hp.2, hv⟩

/-- the value depends on the variables of the expression only -/
theorem val_congr (e : RExpr) {κ κ' : Nat → ℝ} (h : ∀ i ∈ e.vars, κ i = κ' i) : e.val κ = e.val κ' := by
  induction e with
  | var i => simp only [RExpr.val]; rw [h i (by simp [RExpr.vars])]
  | un op e ih => simp only [RExpr.val]; rw [ih h]
  | fn op e ih => simp only [RExpr.val]; rw [ih h]
  | bin op e₁ e₂ ih₁ ih₂ =>
    simp only [RExpr.val]; rw [ih₁ fun i hi => h i (List.mem_append_left _ hi), ih₂ fun i hi => h i (List.mem_append_right _ hi)]
  | binL op c e ih => simp only [RExpr.val]; rw [ih h]
  | binR op e c ih => simp only [RExpr.val]; rw [ih h]

theorem single_expr (dbg : Bool) (X : Nat → Ivl (Fl ℝ)) (hX : FiniteBox X) (e : RExpr) (he : e.Regular dbg X) (hs : e.SingleUse) :
    ∃ R a b, e.ivl dbg X = .ok R ∧ IsI R a b ∧ a ≤ b ∧ ∀ v, v ∈ Icc a b ↔ ∃ κ, InBox κ X ∧ e.val κ = some v := by
  induction e with
  | var i =>
    have h0 := isI_of_finite (hX i).1 (hX i).2.1
    refine ⟨_, _, _, rfl, h0, h0.proper.mp (hX i).2.2, fun v => ⟨fun hv => ?_, ?_⟩⟩
    · refine ⟨fun j => if j = i then v else (X j).lo.val, fun j => ?_, by simp [RExpr.val]⟩
      dsimp only
      split
      · next h => rw [h]; exact h0.mem_num.mpr hv
      · have h1 := isI_of_finite (hX j).1 (hX j).2.1
        exact h1.mem_num.mpr ⟨le_rfl, h1.proper.mp (hX j).2.2⟩
    · rintro ⟨κ, hκ, hv⟩; cases hv; exact h0.mem_num.mp (hκ i)
  | un op e ih =>
    obtain ⟨R, a, b, eR, iR, hab, hR⟩ := ih he.1 hs
    obtain ⟨hc, hv⟩ := un_range dbg op he.2 iR hab
    obtain ⟨S, c, d, eS, iS, hcd, hS⟩ := hv.image hc
    refine ⟨S, c, d, by simp only [RExpr.ivl, eR, ok_bind, eS], iS, hcd, fun v => ?_⟩
    rw [hS]
    simp only [RExpr.val, Option.bind_eq_bind, Option.bind_eq_some_iff]
    constructor
    · rintro ⟨k, hk, rfl⟩
      obtain ⟨κ, hκ, e⟩ := (hR k).mp hk
      exact ⟨κ, hκ, k, e, rfl⟩
    · rintro ⟨κ, hκ, k, e, h⟩
      cases h
      exact ⟨k, (hR k).mpr ⟨κ, hκ, e⟩, rfl⟩
  | fn op e ih =>
    obtain ⟨R, a, b, eR, iR, hab, hR⟩ := ih he.1 hs
    have dm : ∀ k ∈ Icc a b, (op.real k).isSome := fun k hk => he.2.2 R eR k (iR.mem_num.mpr hk)
    obtain ⟨hc, hv⟩ := fn_range dbg op he.2.1 iR hab dm
    obtain ⟨S, c, d, eS, iS, hcd, hS⟩ := hv.image hc
    refine ⟨S, c, d, by simp only [RExpr.ivl, eR, ok_bind, eS], iS, hcd, fun v => ?_⟩
    rw [hS]
    simp only [RExpr.val, Option.bind_eq_bind, Option.bind_eq_some_iff]
    constructor
    · rintro ⟨k, hk, rfl⟩
      obtain ⟨κ, hκ, e⟩ := (hR k).mp hk
      exact ⟨κ, hκ, k, e, fnTot_some (dm k hk)⟩
    · rintro ⟨κ, hκ, k, e, h⟩
      have hk := (hR k).mpr ⟨κ, hκ, e⟩
      rw [fnTot_some (dm k hk)] at h; cases h
      exact ⟨k, hk, rfl⟩
  | bin op e₁ e₂ ih₁ ih₂ =>
    obtain ⟨n1, n2, n3⟩ := List.nodup_append'.mp hs
    obtain ⟨R, a, b, eR, iR, hab, hR⟩ := ih₁ he.1 n1
    obtain ⟨R', a', b', eR', iR', hab', hR'⟩ := ih₂ he.2.1 n2
    have dm : ∀ k ∈ Icc a b, ∀ m ∈ Icc a' b', (op.real k m).isSome ∧ (op = .pow → 0 < k) := fun k hk m hm =>
      he.2.2 R R' eR eR' k m (iR.mem_num.mpr hk) (iR'.mem_num.mpr hm)
    obtain ⟨hc, hv⟩ := op2_range dbg op (A := .ivl R) (B := .ivl R') iR iR' hab hab' dm
    obtain ⟨S, c, d, eS, iS, hcd, hS⟩ := hv.image hc
    refine ⟨S, c, d, by simp only [RExpr.ivl, eR, eR', ok_bind, eS], iS, hcd, fun v => ?_⟩
    rw [hS]
    simp only [RExpr.val, Option.bind_eq_bind, Option.bind_eq_some_iff]
    constructor
    · rintro ⟨k, hk, m, hm, rfl⟩
      obtain ⟨κ, hκ, e⟩ := (hR k).mp hk
      obtain ⟨κ', hκ', e'⟩ := (hR' m).mp hm
      refine ⟨fun i => if i ∈ e₁.vars then κ i else κ' i, fun i => ?_, k, ?_, m, ?_, op2Tot_some (dm k hk m hm).1⟩
      · dsimp only; split
        · exact hκ i
        · exact hκ' i
      · rw [← e]; exact val_congr e₁ fun i hi => by simp [hi]
      · rw [← e']; exact val_congr e₂ fun i hi => by rw [if_neg fun h => n3 h hi]
    · rintro ⟨κ, hκ, k, e, m, e', h⟩
      have hk := (hR k).mpr ⟨κ, hκ, e⟩
      have hm := (hR' m).mpr ⟨κ, hκ, e'⟩
      rw [op2Tot_some (dm k hk m hm).1] at h; cases h
      exact ⟨k, hk, m, hm, rfl⟩
  | binL op z e ih =>
    obtain ⟨R, a, b, eR, iR, hab, hR⟩ := ih he.1 hs
    have hz : z ∈ Icc z z := ⟨le_rfl, le_rfl⟩
    have dm : ∀ k ∈ Icc z z, ∀ m ∈ Icc a b, (op.real k m).isSome ∧ (op = .pow → 0 < k) := fun k hk m hm => by
      rw [Icc_self, mem_singleton_iff] at hk; subst hk
      exact he.2 R eR m (iR.mem_num.mpr hm)
    obtain ⟨hc, hv⟩ := op2_range dbg op (A := .scalar (.num z)) (B := .ivl R) ⟨Is.num z, Is.num z⟩ iR le_rfl hab dm
    obtain ⟨S, c, d, eS, iS, hcd, hS⟩ := hv.image hc
    refine ⟨S, c, d, by simp only [RExpr.ivl, eR, ok_bind, eS], iS, hcd, fun v => ?_⟩
    rw [hS]
    simp only [RExpr.val, Option.bind_eq_bind, Option.bind_eq_some_iff]
    constructor
    · rintro ⟨k, hk, m, hm, rfl⟩
      obtain ⟨κ, hκ, e⟩ := (hR m).mp hm
      have hkz : k = z := le_antisymm hk.2 hk.1
      subst hkz
      exact ⟨κ, hκ, m, e, op2Tot_some (dm k hk m hm).1⟩
    · rintro ⟨κ, hκ, m, e, h⟩
      have hm := (hR m).mpr ⟨κ, hκ, e⟩
      rw [op2Tot_some (dm z hz m hm).1] at h; cases h
      exact ⟨z, hz, m, hm, rfl⟩
  | binR op e z ih =>
    obtain ⟨R, a, b, eR, iR, hab, hR⟩ := ih he.1 hs
    have hz : z ∈ Icc z z := ⟨le_rfl, le_rfl⟩
    have dm : ∀ k ∈ Icc a b, ∀ m ∈ Icc z z, (op.real k m).isSome ∧ (op = .pow → 0 < k) := fun k hk m hm => by
      rw [Icc_self, mem_singleton_iff] at hm; subst hm
      exact he.2 R eR k (iR.mem_num.mpr hk)
    obtain ⟨hc, hv⟩ := op2_range dbg op (A := .ivl R) (B := .scalar (.num z)) iR ⟨Is.num z, Is.num z⟩ hab le_rfl dm
    obtain ⟨S, c, d, eS, iS, hcd, hS⟩ := hv.image hc
    refine ⟨S, c, d, by simp only [RExpr.ivl, eR, ok_bind, eS], iS, hcd, fun v => ?_⟩
    rw [hS]
    simp only [RExpr.val, Option.bind_eq_bind, Option.bind_eq_some_iff]
    constructor
    · rintro ⟨k, hk, m, hm, rfl⟩
      obtain ⟨κ, hκ, e⟩ := (hR k).mp hk
      have hkz : m = z := le_antisymm hm.2 hm.1
      subst hkz
      exact ⟨κ, hκ, k, e, op2Tot_some (dm k hk m hm).1⟩
    · rintro ⟨κ, hκ, k, e, h⟩
      have hk := (hR k).mpr ⟨κ, hκ, e⟩
      rw [op2Tot_some (dm k hk z hz).1] at h; cases h
      exact ⟨k, hk, z, hz, rfl⟩

/-- C84, in exact arithmetic: for a regular expression that uses no variable twice, the result is the set of values of the expression, exactly: every value is in it, and every
number in it is a value. -/
theorem C84_single_use (dbg : Bool) (X : Nat → Ivl (Fl ℝ)) (hX : FiniteBox X) (e : RExpr) (he : e.Regular dbg X) (hs : e.SingleUse) :
    ∃ R, e.ivl dbg X = .ok R ∧ FiniteI R ∧ ∀ v : ℝ, .num v ∈ᵢ R ↔ ∃ κ, InBox κ X ∧ e.val κ = some v := by
  obtain ⟨R, a, b, e, i, hab, h⟩ := single_expr dbg X hX e he hs
  exact ⟨R, e, ⟨i.1.1, i.2.1, i.proper.mpr hab⟩, fun v => by rw [← h]; exact i.mem_num⟩

end Intervals.Props
