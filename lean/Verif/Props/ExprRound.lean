import Verif.Props.ExprRate
import Verif.Props.TrigReal
import Verif.Lemmas.BinFmt2
import Mathlib.Topology.MetricSpace.Thickening
/-!
# C86: the bounds computed in a floating-point format differ from the exact ones by at most a multiple of the rounding error
-/
set_option linter.unusedSectionVars false
set_option linter.unusedSimpArgs false
namespace Intervals.Props
open Intervals CppVal Spec Fl Set

/-- `res` is the range of `g` over `S`, up to `e` -/
def RV {E : Type} (g : E → ℝ) (S : Set E) (e : ℝ) (res : Outcome (Ivl (Fl ℝ))) : Prop :=
  ∃ R a b, res = .ok R ∧ IsI R a b ∧ a ≤ b ∧ (∀ p ∈ S, a ≤ g p + e ∧ g p - e ≤ b) ∧ (∃ p ∈ S, g p - e ≤ a) ∧ ∃ p ∈ S, b ≤ g p + e

theorem RV.mono {E : Type} {g : E → ℝ} {S : Set E} {e e' : ℝ} {res} (h : RV g S e res) (he : e ≤ e') : RV g S e' res := by
  obtain ⟨R, a, b, h1, h2, h3, h4, ⟨p, hp, h5⟩, ⟨q, hq, h6⟩⟩ := h
  exact ⟨R, a, b, h1, h2, h3, fun p hp => ⟨by linarith [(h4 p hp).1], by linarith [(h4 p hp).2]⟩, ⟨p, hp, by linarith⟩, ⟨q, hq, by linarith⟩⟩

theorem RV.of_val1 {g : ℝ → ℝ} {l h : ℝ} {res} (hv : Val1 g l h res) : RV g (Icc l h) 0 res := by
  obtain ⟨R, a, b, e, i, m, ⟨x, hx, h1⟩, ⟨y, hy, h2⟩⟩ := hv
  exact ⟨R, a, b, e, i, (m x hx).1.trans (m x hx).2, fun p hp => by simpa using m p hp, ⟨x, hx, by simp [h1]⟩, ⟨y, hy, by simp [h2]⟩⟩
theorem RV.of_val2 {g : ℝ → ℝ → ℝ} {S : Set (ℝ × ℝ)} {res} (hv : Val2 g S res) : RV (fun p : ℝ × ℝ => g p.1 p.2) S 0 res := by
  obtain ⟨R, a, b, e, i, m, ⟨x, hx, h1⟩, ⟨y, hy, h2⟩⟩ := hv
  exact ⟨R, a, b, e, i, (m x hx).1.trans (m x hx).2, fun p hp => by simpa using m p hp, ⟨x, hx, by simp [h1]⟩, ⟨y, hy, by simp [h2]⟩⟩

/-- nearby sets have nearby ranges -/
theorem RV.near {E : Type} [SeminormedAddCommGroup E] {g : E → ℝ} {S S' D : Set E} {e t C : ℝ} {res res'} (hC : 0 ≤ C)
    (hg : ∀ x ∈ D, ∀ y ∈ D, |g x - g y| ≤ C * ‖x - y‖) (hS : S ⊆ D) (hS' : S' ⊆ D)
    (h1 : ∀ p ∈ S', ∃ q ∈ S, ‖p - q‖ ≤ t) (h2 : ∀ q ∈ S, ∃ p ∈ S', ‖q - p‖ ≤ t)
    {R a b} (hR : res = .ok R) (hI : IsI R a b) (h : RV g S 0 res) (h' : RV g S' e res') :
    ∃ R' a' b', res' = .ok R' ∧ IsI R' a' b' ∧ a' ≤ b' ∧ |a' - a| ≤ C * t + e ∧ |b' - b| ≤ C * t + e := by
  obtain ⟨R₁, a₁, b₁, e1, i1, -, m, ⟨x, hx, hx'⟩, ⟨y, hy, hy'⟩⟩ := h
  obtain ⟨R', a', b', e', i', hab, m', ⟨p, hp, hp'⟩, ⟨q, hq, hq'⟩⟩ := h'
  rw [hR] at e1; cases e1
  have ea := hI.1.unique i1.1; have eb := hI.2.unique i1.2
  subst ea eb
  have lip : ∀ x ∈ D, ∀ y ∈ D, ‖x - y‖ ≤ t → |g x - g y| ≤ C * t := fun x hx y hy h => (hg x hx y hy).trans (mul_le_mul_of_nonneg_left h hC)
  refine ⟨R', a', b', e', i', hab, ?_, ?_⟩ <;> rw [abs_le]
  · obtain ⟨s, hs, hs'⟩ := h1 p hp
    obtain ⟨r, hr, hr'⟩ := h2 x hx
    have k1 := abs_le.mp (lip p (hS' hp) s (hS hs) hs')
    have k2 := abs_le.mp (lip x (hS hx) r (hS' hr) hr')
    have := (m s hs).1; have := (m' r hr).1
    constructor <;> linarith
  · obtain ⟨s, hs, hs'⟩ := h1 q hq
    obtain ⟨r, hr, hr'⟩ := h2 y hy
    have k1 := abs_le.mp (lip q (hS' hq) s (hS hs) hs')
    have k2 := abs_le.mp (lip y (hS hy) r (hS' hr) hr')
    have := (m s hs).2; have := (m' r hr).2
    constructor <;> linarith

theorem icc_near {a b a' b' t : ℝ} (hab : a ≤ b) (h1 : |a' - a| ≤ t) (h2 : |b' - b| ≤ t) : ∀ p ∈ Icc a' b', ∃ q ∈ Icc a b, |p - q| ≤ t := by
  intro p hp
  rw [abs_le] at h1 h2
  rcases lt_or_ge p a with h | h
  · exact ⟨a, ⟨le_rfl, hab⟩, by rw [abs_le]; constructor <;> linarith [hp.1]⟩
  · rcases lt_or_ge b p with h' | h'
    · exact ⟨b, ⟨hab, le_rfl⟩, by rw [abs_le]; constructor <;> linarith [hp.2]⟩
    · exact ⟨p, ⟨h, h'⟩, by simp; linarith⟩
theorem icc_sub {a b a' b' t η : ℝ} (h1 : |a' - a| ≤ t) (h2 : |b' - b| ≤ t) (ht : t ≤ η) : Icc a' b' ⊆ Icc (a - η) (b + η) := by
  rw [abs_le] at h1 h2
  exact Icc_subset_Icc (by linarith) (by linarith)

section rounded
variable [Fmt ℝ]

theorem acc_is {u M k : ℝ} (hF : Accurate inferInstance u M) (hk : |k| ≤ M) {a : Fl ℝ} (ha : ext a = ext (Fmt.rnd k)) : ∃ r, Is a r ∧ |r - k| ≤ u := by
  obtain ⟨h1, h2⟩ := hF.2 k hk
  refine ⟨_, ?_, h2⟩
  have := is_iff_ext.mp (Is.of_finite h1)
  rw [is_iff_ext, ha]; exact this

theorem RV.of_exact1 {f : Fl ℝ → Fl ℝ} {g : ℝ → ℝ} {X : Ivl (Fl ℝ)} {l h e : ℝ} {res} (hI : IsI X l h) (hlh : l ≤ h) (hE : FloatExactV1 f X res)
    (hfg : ∀ a k, Is a k → k ∈ Icc l h → ∃ r, Is (f a) r ∧ |r - g k| ≤ e) : RV g (Icc l h) e res := by
  obtain ⟨R, e, i, ⟨a, ha, hl⟩, ⟨b, hb, hh⟩⟩ := hE
  obtain ⟨x, hx, x1, x2⟩ := hI.mem.mp ha
  obtain ⟨y, hy, y1, y2⟩ := hI.mem.mp hb
  obtain ⟨r, ir, er⟩ := hfg a x hx ⟨x1, x2⟩
  obtain ⟨s, is, es⟩ := hfg b y hy ⟨y1, y2⟩
  have i1 := is_of_eq ir hl
  have i2 := is_of_eq is hh
  have key : ∀ k ∈ Icc l h, ∃ q, |q - g k| ≤ _ ∧ r ≤ q ∧ q ≤ s := fun k hk => by
    have := i (.num k) (hI.mem_num.mpr hk)
    obtain ⟨q, iq, eq⟩ := hfg _ k (Is.num k) hk
    exact ⟨q, eq, (i1.le_iff iq).mp this.1, (iq.le_iff i2).mp this.2⟩
  obtain ⟨q, -, q1, q2⟩ := key l ⟨le_rfl, hlh⟩
  rw [abs_le] at er es
  refine ⟨R, r, s, e, ⟨i1, i2⟩, q1.trans q2, fun k hk => ?_, ⟨x, ⟨x1, x2⟩, by linarith⟩, ⟨y, ⟨y1, y2⟩, by linarith⟩⟩
  obtain ⟨q, hq, q1, q2⟩ := key k hk
  rw [abs_le] at hq
  constructor <;> linarith

theorem RV.of_exact2 {f : Fl ℝ → Fl ℝ → Fl ℝ} {g : ℝ → ℝ → ℝ} {A B : Arg (Fl ℝ)} {l h l' h' e : ℝ} {res} (hA : IsA A l h) (hB : IsA B l' h')
    (hlh : l ≤ h) (hlh' : l' ≤ h') (hE : FloatExact2 f A B res)
    (hfg : ∀ a b k m, Is a k → Is b m → k ∈ Icc l h → m ∈ Icc l' h' → ∃ r, Is (f a b) r ∧ |r - g k m| ≤ e) :
    RV (fun p : ℝ × ℝ => g p.1 p.2) (Icc l h ×ˢ Icc l' h') e res := by
  rcases hE with ⟨⟨a, b, ha, hb, hn⟩, -⟩ | ⟨-, R, e, i, ⟨a, b, ha, hb, hl⟩, ⟨a', b', ha', hb', hh⟩⟩
  · obtain ⟨x, hx, hx'⟩ := hA.mem.mp ha
    obtain ⟨y, hy, hy'⟩ := hB.mem.mp hb
    obtain ⟨r, ir, -⟩ := hfg _ _ _ _ hx hy hx' hy'
    exact absurd hn ir.ne_nan
  obtain ⟨x, hx, hx'⟩ := hA.mem.mp ha
  obtain ⟨y, hy, hy'⟩ := hB.mem.mp hb
  obtain ⟨z, hz, hz'⟩ := hA.mem.mp ha'
  obtain ⟨w, hw, hw'⟩ := hB.mem.mp hb'
  obtain ⟨r, i1, er⟩ := hfg _ _ _ _ hx hy hx' hy'
  obtain ⟨s, i2, es⟩ := hfg _ _ _ _ hz hw hz' hw'
  rw [hl] at i1; rw [hh] at i2
  have key : ∀ k ∈ Icc l h, ∀ m ∈ Icc l' h', ∃ q, |q - g k m| ≤ _ ∧ r ≤ q ∧ q ≤ s := fun k hk m hm => by
    have := i (.num k) (.num m) (hA.mem_num.mpr hk) (hB.mem_num.mpr hm)
    obtain ⟨q, iq, eq⟩ := hfg _ _ k m (Is.num k) (Is.num m) hk hm
    exact ⟨q, eq, (i1.le_iff iq).mp this.1, (iq.le_iff i2).mp this.2⟩
  obtain ⟨q, -, q1, q2⟩ := key l ⟨le_rfl, hlh⟩ l' ⟨le_rfl, hlh'⟩
  rw [abs_le] at er es
  refine ⟨R, r, s, e, ⟨i1, i2⟩, q1.trans q2, fun p hp => ?_, ⟨(x, y), ⟨hx', hy'⟩, by dsimp only; linarith⟩, ⟨(z, w), ⟨hz', hw'⟩, by dsimp only; linarith⟩⟩
  obtain ⟨q, hq, q1, q2⟩ := key p.1 hp.1 p.2 hp.2
  rw [abs_le] at hq
  constructor <;> linarith

theorem un_rnd (dbg : Bool) (op : UnOp) (hop : ¬ op.Jumps) {X : Ivl (Fl ℝ)} {l h u M B : ℝ} (hX : IsI X l h) (hlh : l ≤ h) (hu : 0 ≤ u) (hu1 : u ≤ 1)
    (hF : Accurate inferInstance u M) (hB : ∀ k ∈ Icc l h, |k| ≤ B) (hM : B * B * B + B * B + B ≤ M) : RV op.fld (Icc l h) ((1 + B) * u) (op.ivl dbg X) := by
  have pX := hX.proper.mpr hlh
  have hB0 : 0 ≤ B := (abs_nonneg l).trans (hB l ⟨le_rfl, hlh⟩)
  have hc : 0 ≤ (1 + B) * u := by positivity
  have hBB : 0 ≤ B * B := by positivity
  have hBBB : 0 ≤ B * B * B := by positivity
  have sq : ∀ k ∈ Icc l h, |k * k| ≤ B * B := fun k hk => by rw [abs_mul]; exact mul_le_mul (hB k hk) (hB k hk) (abs_nonneg _) hB0
  have mulk : ∀ {a b : Fl ℝ} {x y : ℝ}, Is a x → Is b y → |x * y| ≤ M → ∃ r, Is (Fl.mul a b) r ∧ |r - x * y| ≤ u := fun ha hb h =>
    acc_is hF h (by rw [Fl.ext_mul ha.1 hb.1, ha.2, hb.2])
  cases op with
  | plus => exact ⟨X, l, h, C30_plus dbg X pX, hX, hlh, fun p hp => ⟨by simp only [UnOp.fld]; linarith [hp.1], by simp only [UnOp.fld]; linarith [hp.2]⟩,
      ⟨l, ⟨le_rfl, hlh⟩, by simp only [UnOp.fld]; linarith⟩, ⟨h, ⟨hlh, le_rfl⟩, by simp only [UnOp.fld]; linarith⟩⟩
  | neg => exact .of_exact1 hX hlh (exactV_of (C30_neg dbg X pX)) fun a k ha hk => ⟨-k, ha.neg, by simpa [UnOp.fld] using hc⟩
  | abs => exact .of_exact1 hX hlh (C33_abs dbg X pX).1 fun a k ha hk => ⟨_, is_unF .abs ha, by simpa using hc⟩
  | square =>
    exact .of_exact1 hX hlh (exactV_of (C33_square dbg X pX).1) fun a k ha hk => by
      obtain ⟨r, ir, er⟩ := mulk ha ha ((sq k hk).trans (by linarith))
      exact ⟨r, ir, er.trans (by nlinarith)⟩
  | cube =>
    exact .of_exact1 hX hlh (exactV_of (C33_cube dbg X pX)) fun a k ha hk => by
      obtain ⟨r, ir, er⟩ := mulk ha ha ((sq k hk).trans (by linarith))
      have hk' := hB k hk
      have h1 : |r * k - k * k * k| ≤ u * B := by
        rw [← sub_mul, abs_mul]; exact mul_le_mul er hk' (abs_nonneg _) hu
      have h2 : |k * k * k| ≤ B * B * B := by rw [abs_mul]; exact mul_le_mul (sq k hk) hk' (abs_nonneg _) hBB
      obtain ⟨s, is, es⟩ := mulk ir ha (by
        have : |r * k| ≤ |r * k - k * k * k| + |k * k * k| := by have := abs_add_le (r * k - k * k * k) (k * k * k); rwa [sub_add_cancel] at this
        have : u * B ≤ B := by nlinarith
        linarith)
      refine ⟨s, is, ?_⟩
      have : |s - k * k * k| ≤ |s - r * k| + |r * k - k * k * k| := by have := abs_add_le (s - r * k) (r * k - k * k * k); rwa [sub_add_sub_cancel] at this
      simp only [UnOp.fld]
      linarith
  | floor => exact absurd (.inl rfl) hop
  | ceil => exact absurd (.inr (.inl rfl)) hop
  | round => exact absurd (.inr (.inr rfl)) hop

/-- the functions of one library call -/
theorem fn_rnd (dbg : Bool) (op : FnOp) (h1 : op ≠ .cos ∧ op ≠ .sin ∧ op ≠ .tan) {X : Ivl (Fl ℝ)} {l h u M : ℝ} (hX : IsI X l h) (hlh : l ≤ h) (hu : 0 ≤ u)
    (hF : Accurate inferInstance u M) (hd : ∀ k ∈ Icc l h, op.StableAt k) (hM : ∀ k ∈ Icc l h, |fnTot op k| ≤ M) :
    RV (fnTot op) (Icc l h) u (op.ivl dbg X) := by
  have pX := hX.proper.mpr hlh
  have hl : l ∈ Icc l h := ⟨le_rfl, hlh⟩
  have hh : h ∈ Icc l h := ⟨hlh, le_rfl⟩
  have key : ∀ {f : Fl ℝ → Fl ℝ} {res}, FloatExact1 f X res → (∀ k ∈ Icc l h, ext (f (.num k)) = ext (Fmt.rnd (fnTot op k))) →
      (0 ∈ Icc l h → ext (f .nzero) = ext (Fmt.rnd (fnTot op 0))) → RV (fnTot op) (Icc l h) u res := fun {f res} hE h1 h0 =>
    .of_exact1 hX hlh (exactV_of hE) fun a k ha hk => by
      obtain ⟨ha1, ha2⟩ := ha
      cases a <;> simp [isFinite, val] at ha1 ha2
      · subst ha2; exact acc_is hF (hM _ hk) (h0 hk)
      · subst ha2; exact acc_is hF (hM _ hk) (h1 _ hk)
  have z : ext (Fmt.rnd (0:ℝ)) = ext (Fl.nzero : Fl ℝ) := by rw [Fmt.rnd_zero]; rfl
  cases op with
  | sqrt =>
    have d : ∀ k ∈ Icc l h, 0 < k := hd
    refine key (C37_sqrt sqrt_mono dbg X pX ((Is.le_iff (Is.num 0) hX.1).mpr (d l hl).le)) (fun k hk => ?_) fun h0 => absurd (d 0 h0) (lt_irrefl _)
    simp [Libm.sqrt, fnTot, FnOp.real, (d k hk).not_gt, (d k hk).le]
  | cbrt => exact key (C37_cbrt cbrt_mono dbg X pX) (fun k hk => rfl) fun h0 => absurd rfl (hd 0 h0)
  | log =>
    have d : ∀ k ∈ Icc l h, 0 < k := hd
    refine key (C37_log log_mono dbg X pX ((Is.le_iff (Is.num 0) hX.1).mpr (d l hl).le)) (fun k hk => ?_) fun h0 => absurd (d 0 h0) (lt_irrefl _)
    simp [Libm.log, fnTot, FnOp.real, (d k hk).not_gt, (d k hk).ne', (d k hk)]
  | exp =>
    refine key (C37_exp exp_mono dbg X pX) (fun k hk => rfl) fun h0 => ?_
    simp [Libm.exp, fnTot, FnOp.real]
  | atan =>
    refine key (C37_atan atan_mono dbg X pX) (fun k hk => rfl) fun h0 => ?_
    simp [Libm.atan, fnTot, FnOp.real, z]
  | asin =>
    have d : ∀ k ∈ Icc l h, -1 < k ∧ k < 1 := hd
    refine key (C37_asin asin_mono dbg X pX ((Is.le_iff (Is.num _) hX.1).mpr (d l hl).1.le) ((Is.le_iff hX.2 (Is.num _)).mpr (d h hh).2.le)) (fun k hk => ?_) fun h0 => ?_
    · simp [Libm.asin, fnTot, FnOp.real, (d k hk).1.le, (d k hk).2.le]
    · simp [Libm.asin, fnTot, FnOp.real, z]
  | acos =>
    have d : ∀ k ∈ Icc l h, -1 < k ∧ k < 1 := hd
    refine key (C37_acos acos_anti dbg X pX ((Is.le_iff (Is.num _) hX.1).mpr (d l hl).1.le) ((Is.le_iff hX.2 (Is.num _)).mpr (d h hh).2.le)) (fun k hk => ?_) fun h0 => ?_
    · simp [Libm.acos, fnTot, FnOp.real, (d k hk).1.le, (d k hk).2.le]
    · simp [Libm.acos, fnTot, FnOp.real]
  | cos => exact absurd rfl h1.1
  | sin => exact absurd rfl h1.2.1
  | tan => exact absurd rfl h1.2.2
  | frac => exact (hd l hl).elim

theorem RV.of_upTo {f g : ℝ → ℝ} {l h t m N : ℝ} {R : Ivl (Fl ℝ)} {res} (e : res = .ok R) (i : IsI R m N) (hmN : m ≤ N) (hr : RangeUpTo f l h m N t)
    (hg : ∀ k ∈ Icc l h, g k = f k) : RV g (Icc l h) t res := by
  obtain ⟨h1, ⟨x, x1, x2, hx⟩, ⟨y, y1, y2, hy⟩⟩ := hr
  refine ⟨R, m, N, e, i, hmN, fun p hp => ?_, ⟨x, ⟨x1, x2⟩, by rw [hg x ⟨x1, x2⟩]; linarith⟩, ⟨y, ⟨y1, y2⟩, by rw [hg y ⟨y1, y2⟩]; linarith⟩⟩
  rw [hg p hp]
  constructor <;> linarith [(h1 p hp.1 hp.2).1, (h1 p hp.1 hp.2).2]

/-- the operations with one rounding -/
theorem op2_rnd (dbg : Bool) (op : Op2) (h1 : op ≠ .pow) {A B : Arg (Fl ℝ)} {l h l' h' u M : ℝ} (hA : IsA A l h) (hB : IsA B l' h') (hlh : l ≤ h) (hlh' : l' ≤ h')
    (hu : 0 ≤ u) (hF : Accurate inferInstance u M) (hd : ∀ k ∈ Icc l h, ∀ m ∈ Icc l' h', op.StableAt k m)
    (hM : ∀ k ∈ Icc l h, ∀ m ∈ Icc l' h', |op2Tot op k m| ≤ M) :
    RV (fun p : ℝ × ℝ => op2Tot op p.1 p.2) (Icc l h ×ˢ Icc l' h') u (op.ivl dbg A B) := by
  have pA := hA.proper hlh; have pB := hB.proper hlh'
  have hl : l ∈ Icc l h := ⟨le_rfl, hlh⟩
  have hl' : l' ∈ Icc l' h' := ⟨le_rfl, hlh'⟩
  have cl : ∀ {x r : ℝ} {a : Fl ℝ}, Is a r → r = x → ∃ r, Is a r ∧ |r - x| ≤ u := fun ha h => ⟨_, ha, by rw [h, sub_self, abs_zero]; exact hu⟩
  cases op with
  | arith op =>
    cases op with
    | add => exact .of_exact2 hA hB hlh hlh' (C30_add dbg A B pA pB) fun _ _ k m ha hb hk hm =>
        acc_is hF (hM k hk m hm) (by rw [Fl.ext_add ha.1 hb.1, ha.2, hb.2]; rfl)
    | sub => exact .of_exact2 hA hB hlh hlh' (C30_sub dbg A B pA pB) fun _ _ k m ha hb hk hm =>
        acc_is hF (hM k hk m hm) (by rw [Fl.ext_sub ha.1 hb.1, ha.2, hb.2]; rfl)
    | mul => exact .of_exact2 hA hB hlh hlh' (C31_mul dbg A B pA pB) fun _ _ k m ha hb hk hm =>
        acc_is hF (hM k hk m hm) (by rw [Fl.ext_mul ha.1 hb.1, ha.2, hb.2]; rfl)
    | div =>
      have d : ∀ m ∈ Icc l' h', m ≠ 0 := fun m hm => hd l hl m hm
      exact .of_exact2 hA hB hlh hlh' (C32_exact dbg A B pA pB fun h0 => d 0 (hB.mem_num.mp h0) rfl) fun _ _ k m ha hb hk hm =>
        acc_is hF (hM k hk m hm) (by
          rw [Fl.ext_div ha.1 hb.1 (by rw [hb.2]; exact d m hm), ha.2, hb.2]
          simp [op2Tot, Op2.real, BinOp.fld, d m hm])
    | min =>
      obtain ⟨R, e, pR, hR⟩ := C16_min dbg A B pA pB
      refine .of_exact2 hA hB hlh hlh' (f := cmin) (.inr ⟨fun a b ha hb => ?_, R, e, fun a b ha hb => (hR _).mpr ⟨a, b, ha, hb, rfl⟩, ?_, ?_⟩)
        fun _ _ _ _ ha hb _ _ => cl (ha.cmin hb) rfl
      · obtain ⟨x, hx, -⟩ := hA.mem.mp ha; obtain ⟨y, hy, -⟩ := hB.mem.mp hb
        exact (hx.cmin hy).ne_nan
      · obtain ⟨a, b, ha, hb, hv⟩ := (hR R.lo).mp (lo_mem (X := .ivl R) pR); exact ⟨a, b, ha, hb, hv.symm⟩
      · obtain ⟨a, b, ha, hb, hv⟩ := (hR R.hi).mp (hi_mem (X := .ivl R) pR); exact ⟨a, b, ha, hb, hv.symm⟩
    | max =>
      obtain ⟨R, e, pR, hR⟩ := C16_max dbg A B pA pB
      refine .of_exact2 hA hB hlh hlh' (f := cmax) (.inr ⟨fun a b ha hb => ?_, R, e, fun a b ha hb => (hR _).mpr ⟨a, b, ha, hb, rfl⟩, ?_, ?_⟩)
        fun _ _ _ _ ha hb _ _ => cl (ha.cmax hb) rfl
      · obtain ⟨x, hx, -⟩ := hA.mem.mp ha; obtain ⟨y, hy, -⟩ := hB.mem.mp hb
        exact (hx.cmax hy).ne_nan
      · obtain ⟨a, b, ha, hb, hv⟩ := (hR R.lo).mp (lo_mem (X := .ivl R) pR); exact ⟨a, b, ha, hb, hv.symm⟩
      · obtain ⟨a, b, ha, hb, hv⟩ := (hR R.hi).mp (hi_mem (X := .ivl R) pR); exact ⟨a, b, ha, hb, hv.symm⟩
  | atan2 =>
    have d : ∀ k ∈ Icc l h, ∀ m ∈ Icc l' h', k ≠ 0 ∨ 0 < m := hd
    have isx : ∀ a b k m, Is a k → Is b m → k ∈ Icc l h → m ∈ Icc l' h' → ∃ r, Is (Libm.atan2 a b) r ∧ |r - op2Tot .atan2 k m| ≤ u := fun a b k m ha hb hk hm => by
      have hoff : OffCut a b := ⟨ha.ne_nan, hb.ne_nan, (d k hk m hm).imp (fun h => by
        unfold CppVal.ne; rw [ha.eq_eq (Is.num 0)]; simpa using h) fun h => ((Is.num 0).lt_iff hb).mpr h⟩
      refine acc_is hF (hM k hk m hm) ?_
      rw [ext_atan2 hoff]
      have : op2Tot .atan2 k m = Complex.arg ⟨m, k⟩ := by simp only [op2Tot, Op2.real]; rw [if_pos (d k hk m hm)]; rfl
      rw [this]
      obtain ⟨f1, v1⟩ := ha; obtain ⟨f2, v2⟩ := hb
      cases a <;> simp [isFinite, val] at f1 v1 <;> subst v1 <;> cases b <;> simp [isFinite, val] at f2 v2 <;> subst v2 <;> rfl
    obtain ⟨R, e, i, a1, a2⟩ := (C40_atan2 dbg A B pA pB).2 (by
      rintro ⟨y, x, hy, hx, h1, h2⟩
      obtain ⟨k, ik, hk⟩ := hA.mem.mp hy
      obtain ⟨m, im, hm⟩ := hB.mem.mp hx
      rcases d k hk m hm with h0 | h0
      · exact h0 ((ik.eq_iff (Is.num 0)).mp h1)
      · exact absurd ((im.le_iff (Is.num 0)).mp h2) (not_le.mpr h0))
    refine .of_exact2 hA hB hlh hlh' (f := Libm.atan2) (.inr ⟨fun a b ha hb => ?_, R, e, i, a1, a2⟩) isx
    obtain ⟨x, hx, hx'⟩ := hA.mem.mp ha; obtain ⟨y, hy, hy'⟩ := hB.mem.mp hb
    obtain ⟨r, ir, -⟩ := isx _ _ _ _ hx hy hx' hy'
    exact ir.ne_nan
  | pow => exact absurd rfl h1

theorem pow_rnd (dbg : Bool) {A B : Arg (Fl ℝ)} {l h l' h' u M Z : ℝ} (hA : IsA A l h) (hB : IsA B l' h') (hlh : l ≤ h) (hlh' : l' ≤ h')
    (hu1 : u ≤ 1) (hF : Accurate inferInstance u M) (hd : ∀ k ∈ Icc l h, 0 < k ∧ |Real.log k| ≤ Z) (hZ : ∀ m ∈ Icc l' h', |m| ≤ Z)
    (hM : Z * Z + 2 * Z + Real.exp (Z * Z + Z + 1) ≤ M) :
    RV (fun p : ℝ × ℝ => op2Tot .pow p.1 p.2) (Icc l h ×ˢ Icc l' h') ((Real.exp (Z * Z + Z + 1) * (Z + 1) + 1) * u) (powI dbg A B) := by
  have isx : ∀ a b k m, Is a k → Is b m → k ∈ Icc l h → m ∈ Icc l' h' →
      ∃ r, Is (powPt a b) r ∧ |r - op2Tot .pow k m| ≤ (Real.exp (Z * Z + Z + 1) * (Z + 1) + 1) * u := fun a b k m ha hb hk hm => by
    have e : op2Tot .pow k m = k ^ m := by simp [op2Tot, Op2.real, (hd k hk).1]
    rw [e]
    exact OverReal.powPt_err hF hu1 ha hb (hd k hk).1 (hd k hk).2 (hZ m hm) hM
  obtain ⟨R, e, i, ⟨a, b, ha, hb, h1⟩, ⟨a', b', ha', hb', h2⟩⟩ := C41_float_nonneg (fun a b ha hb => log_mono a b ha hb) (fun a b => exp_mono a b trivial trivial) dbg A B
    (hA.proper hlh) (hB.proper hlh') (((Is.num 0).le_iff hA.1).mpr (hd l ⟨le_rfl, hlh⟩).1.le)
  obtain ⟨x, hx, hx'⟩ := hA.mem.mp ha
  obtain ⟨y, hy, hy'⟩ := hB.mem.mp hb
  obtain ⟨z, hz, hz'⟩ := hA.mem.mp ha'
  obtain ⟨w, hw, hw'⟩ := hB.mem.mp hb'
  obtain ⟨r, i1, er⟩ := isx _ _ _ _ hx hy hx' hy'
  obtain ⟨s, i2, es⟩ := isx _ _ _ _ hz hw hz' hw'
  replace i1 := is_of_eq i1 (eq_symm' h1); replace i2 := is_of_eq i2 (eq_symm' h2)
  have key : ∀ k ∈ Icc l h, ∀ m ∈ Icc l' h', ∃ q, |q - op2Tot .pow k m| ≤ _ ∧ r ≤ q ∧ q ≤ s := fun k hk m hm => by
    have := i (.num k) (.num m) (hA.mem_num.mpr hk) (hB.mem_num.mpr hm)
    obtain ⟨q, iq, eq⟩ := isx _ _ k m (Is.num k) (Is.num m) hk hm
    exact ⟨q, eq, (i1.le_iff iq).mp this.1, (iq.le_iff i2).mp this.2⟩
  obtain ⟨q, -, q1, q2⟩ := key l ⟨le_rfl, hlh⟩ l' ⟨le_rfl, hlh'⟩
  rw [abs_le] at er es
  refine ⟨R, r, s, e, ⟨i1, i2⟩, q1.trans q2, fun p hp => ?_, ⟨(x, y), ⟨hx', hy'⟩, by dsimp only; linarith⟩, ⟨(z, w), ⟨hz', hw'⟩, by dsimp only; linarith⟩⟩
  obtain ⟨q, hq, q1, q2⟩ := key p.1 hp.1 p.2 hp.2
  rw [abs_le] at hq
  constructor <;> linarith
end rounded

/-! ## Margins -/
theorem fn_open (op : FnOp) : IsOpen {x : ℝ | op.StableAt x} := by
  cases op with
  | sqrt => exact isOpen_Ioi
  | cbrt => exact isOpen_ne
  | log => exact isOpen_Ioi
  | exp => exact isOpen_univ
  | asin => exact isOpen_Ioo
  | acos => exact isOpen_Ioo
  | atan => exact isOpen_univ
  | cos => exact isOpen_univ
  | sin => exact isOpen_univ
  | tan => exact isOpen_ne.preimage Real.continuous_cos
  | frac => exact isOpen_empty
theorem op2_open (op : Op2) : IsOpen {p : ℝ × ℝ | op.StableAt p.1 p.2} := by
  cases op with
  | arith op =>
    cases op with
    | div => exact isOpen_ne.preimage continuous_snd
    | add => exact isOpen_univ
    | sub => exact isOpen_univ
    | mul => exact isOpen_univ
    | min => exact isOpen_univ
    | max => exact isOpen_univ
  | atan2 => exact (isOpen_ne.preimage continuous_fst).union (isOpen_Ioi.preimage continuous_snd)
  | pow => exact isOpen_Ioi.preimage continuous_fst

theorem icc_thick {a b η p : ℝ} (hab : a ≤ b) (hη : 0 ≤ η) (hp : p ∈ Icc (a - η) (b + η)) : ∃ q ∈ Icc a b, |p - q| ≤ η :=
  icc_near hab (by simp [abs_of_nonneg hη]) (by simp [abs_of_nonneg hη]) p hp
theorem margin1 {P : ℝ → Prop} (ho : IsOpen {x | P x}) {a b : ℝ} (hab : a ≤ b) (h : ∀ x ∈ Icc a b, P x) :
    ∃ η > 0, ∀ x ∈ Icc (a - η) (b + η), P x := by
  obtain ⟨η, hη, hs⟩ := (isCompact_Icc (a := a) (b := b)).exists_cthickening_subset_open ho h
  refine ⟨η, hη, fun x hx => hs ?_⟩
  obtain ⟨q, hq, hd⟩ := icc_thick hab hη.le hx
  exact Metric.mem_cthickening_of_dist_le x q η _ hq (by rwa [Real.dist_eq])
theorem margin2 {P : ℝ → ℝ → Prop} (ho : IsOpen {p : ℝ × ℝ | P p.1 p.2}) {a b a' b' : ℝ} (hab : a ≤ b) (hab' : a' ≤ b')
    (h : ∀ x ∈ Icc a b, ∀ y ∈ Icc a' b', P x y) : ∃ η > 0, ∀ x ∈ Icc (a - η) (b + η), ∀ y ∈ Icc (a' - η) (b' + η), P x y := by
  obtain ⟨η, hη, hs⟩ := ((isCompact_Icc (a := a) (b := b)).prod (isCompact_Icc (a := a') (b := b'))).exists_cthickening_subset_open ho fun p hp => h _ hp.1 _ hp.2
  refine ⟨η, hη, fun x hx y hy => hs (a := (x, y)) ?_⟩
  obtain ⟨q, hq, hd⟩ := icc_thick hab hη.le hx
  obtain ⟨r, hr, hd'⟩ := icc_thick hab' hη.le hy
  refine Metric.mem_cthickening_of_dist_le (x, y) (q, r) η _ ⟨hq, hr⟩ ?_
  rw [Prod.dist_eq, max_le_iff, Real.dist_eq, Real.dist_eq]; exact ⟨hd, hd'⟩
theorem fn_stable {op : FnOp} {x : ℝ} (h : op.StableAt x) : op ≠ .frac ∧ (op.real x).isSome ∧ op.SmoothAt x := by
  cases op with
  | sqrt => exact ⟨by simp, by simp [FnOp.real, le_of_lt (show 0 < x from h)], ne_of_gt (show 0 < x from h)⟩
  | cbrt => exact ⟨by simp, rfl, h⟩
  | log => exact ⟨by simp, by simp [FnOp.real, show 0 < x from h], trivial⟩
  | exp => exact ⟨by simp, rfl, trivial⟩
  | atan => exact ⟨by simp, rfl, trivial⟩
  | asin => exact ⟨by simp, by simp [FnOp.real, h.1.le, h.2.le], h.1.ne', h.2.ne⟩
  | acos => exact ⟨by simp, by simp [FnOp.real, h.1.le, h.2.le], h.1.ne', h.2.ne⟩
  | cos => exact ⟨by simp, rfl, trivial⟩
  | sin => exact ⟨by simp, rfl, trivial⟩
  | tan => exact ⟨by simp, by simp [FnOp.real, show Real.cos x ≠ 0 from h], trivial⟩
  | frac => exact h.elim
theorem op2_stable {op : Op2} {x y : ℝ} (h : op.StableAt x y) : (op.real x y).isSome ∧ (op = .pow → 0 < x) := by
  cases op with
  | arith op => cases op <;> simp [Op2.StableAt, Op2.real, BinOp.fld] at *; exact h
  | atan2 => simp [Op2.StableAt, Op2.real] at *; tauto
  | pow => exact ⟨by simp [Op2.real, show 0 < x from h], fun _ => h⟩
theorem Lip.bounded {E : Type} [SeminormedAddCommGroup E] {g : E → ℝ} {D : Set E} (hg : Lip g D) {x₀ : E} {r : ℝ} (h0 : x₀ ∈ D) (hr : ∀ x ∈ D, ‖x - x₀‖ ≤ r) :
    ∃ M, ∀ x ∈ D, |g x| ≤ M := by
  obtain ⟨L, hL, hg⟩ := hg
  refine ⟨|g x₀| + L * r, fun x hx => ?_⟩
  have h1 := (hg x hx x₀ h0).trans (mul_le_mul_of_nonneg_left (hr x hx) hL)
  have h2 := abs_add_le (g x - g x₀) (g x₀)
  rw [sub_add_cancel] at h2; linarith

/-! ## The induction -/
/-- what the induction carries: the exact result is `[a, b]`; in a format with small errors `u`, the bounds differ from it by at most `L * u` -/
def Rnd (E : Fmt ℝ → Outcome (Ivl (Fl ℝ))) (a b : ℝ) : Prop :=
  (∃ R₀, E (exactFmt ℝ) = .ok R₀ ∧ IsI R₀ a b) ∧ a ≤ b ∧
  ∃ L u₀ M, 0 ≤ L ∧ 0 < u₀ ∧ ∀ (F : Fmt ℝ) (u : ℝ), 0 ≤ u → u ≤ u₀ → Accurate F u M →
    ∃ R' a' b', E F = .ok R' ∧ IsI R' a' b' ∧ a' ≤ b' ∧ |a' - a| ≤ L * u ∧ |b' - b| ≤ L * u

theorem acc_mono {F : Fmt ℝ} {u M M' : ℝ} (h : Accurate F u M) (hM : M' ≤ M) : Accurate F u M' := ⟨h.1, fun k hk => h.2 k (hk.trans hM)⟩

theorem rnd_mul_le {L u η : ℝ} (hL : 0 ≤ L) (hu : 0 ≤ u) (h : u ≤ η / (L + 1)) : L * u ≤ η := by
  rw [le_div_iff₀ (by linarith)] at h; nlinarith

theorem rnd1 {E : Fmt ℝ → Outcome (Ivl (Fl ℝ))} {a b : ℝ} (hE : Rnd E a b) {G : Fmt ℝ → Ivl (Fl ℝ) → Outcome (Ivl (Fl ℝ))} {t : ℝ → ℝ} {η : ℝ} (hη : 0 < η)
    (hc : Lip t (Icc (a - η) (b + η))) (hx : ∀ X, IsI X a b → Val1 t a b (G (exactFmt ℝ) X))
    (hr : ∃ C M u₁, 0 ≤ C ∧ 0 < u₁ ∧ ∀ F u, 0 ≤ u → u ≤ u₁ → Accurate F u M → ∀ X l h, IsI X l h → l ≤ h → Icc l h ⊆ Icc (a - η) (b + η) → RV t (Icc l h) (C * u) (G F X)) :
    ∃ a' b', Rnd (fun F => E F >>= G F) a' b' := by
  obtain ⟨⟨R₀, e₀, i₀⟩, hab, L, u₀, M, hL, hu₀, conv⟩ := hE
  obtain ⟨C, hC, hc⟩ := hc
  obtain ⟨C₁, M₁, u₁, hC₁, hu₁, hr⟩ := hr
  have v := hx R₀ i₀
  obtain ⟨S₀, c, d, eS, iS, m, ⟨k, hk, -⟩, -⟩ := id v
  refine ⟨c, d, ⟨S₀, by simp only [e₀, ok_bind, eS], iS⟩, (m k hk).1.trans (m k hk).2, C * L + C₁, min (min u₀ u₁) (η / (L + 1)), max M M₁, by positivity,
    lt_min (lt_min hu₀ hu₁) (by positivity), fun F u h0 hu hF => ?_⟩
  rw [le_min_iff, le_min_iff] at hu
  obtain ⟨R', a', b', e', i', hab', h1, h2⟩ := conv F u h0 hu.1.1 (acc_mono hF (le_max_left _ _))
  have hLu := rnd_mul_le hL h0 hu.2
  have sub : Icc a' b' ⊆ Icc (a - η) (b + η) := icc_sub h1 h2 hLu
  have rv := hr F u h0 hu.1.2 (acc_mono hF (le_max_right _ _)) R' a' b' i' hab' sub
  obtain ⟨S', c', d', eS', iS', h3, h4, h5⟩ := RV.near (t := L * u) hC hc (Icc_subset_Icc (by linarith) (by linarith)) sub
    (fun p hp => icc_near hab h1 h2 p hp) (fun q hq => icc_near hab' (by rwa [abs_sub_comm]) (by rwa [abs_sub_comm]) q hq) eS iS (RV.of_val1 v) rv
  exact ⟨S', c', d', by simp only [e', ok_bind, eS'], iS', h3, h4.trans (by linarith), h5.trans (by linarith)⟩

theorem rnd2 {E₁ E₂ : Fmt ℝ → Outcome (Ivl (Fl ℝ))} {a₁ b₁ a₂ b₂ : ℝ} (hE₁ : Rnd E₁ a₁ b₁) (hE₂ : Rnd E₂ a₂ b₂)
    {G : Fmt ℝ → Ivl (Fl ℝ) → Ivl (Fl ℝ) → Outcome (Ivl (Fl ℝ))} {t : ℝ → ℝ → ℝ} {η : ℝ} (hη : 0 < η)
    (hc : Lip (fun p : ℝ × ℝ => t p.1 p.2) (Icc (a₁ - η) (b₁ + η) ×ˢ Icc (a₂ - η) (b₂ + η)))
    (hx : ∀ X Y, IsI X a₁ b₁ → IsI Y a₂ b₂ → Val2 t (Icc a₁ b₁ ×ˢ Icc a₂ b₂) (G (exactFmt ℝ) X Y))
    (hr : ∃ C M u₃, 0 ≤ C ∧ 0 < u₃ ∧ ∀ F u, 0 ≤ u → u ≤ u₃ → Accurate F u M → ∀ X Y l h l' h', IsI X l h → IsI Y l' h' → l ≤ h → l' ≤ h' → Icc l h ⊆ Icc (a₁ - η) (b₁ + η) →
      Icc l' h' ⊆ Icc (a₂ - η) (b₂ + η) → RV (fun p : ℝ × ℝ => t p.1 p.2) (Icc l h ×ˢ Icc l' h') (C * u) (G F X Y)) :
    ∃ a' b', Rnd (fun F => do G F (← E₁ F) (← E₂ F)) a' b' := by
  obtain ⟨⟨R₁, e₁, i₁⟩, hab₁, L₁, u₁, M₁, hL₁, hu₁, conv₁⟩ := hE₁
  obtain ⟨⟨R₂, e₂, i₂⟩, hab₂, L₂, u₂, M₂, hL₂, hu₂, conv₂⟩ := hE₂
  obtain ⟨C, hC, hc⟩ := hc
  obtain ⟨C₃, M, u₃, hC₃, hu₃, hr⟩ := hr
  have v := hx R₁ R₂ i₁ i₂
  obtain ⟨S₀, c, d, eS, iS, m, ⟨k, hk, -⟩, -⟩ := id v
  refine ⟨c, d, ⟨S₀, by simp only [e₁, e₂, ok_bind, eS], iS⟩, (m k hk).1.trans (m k hk).2, C * (L₁ + L₂) + C₃, min (min (min u₁ u₂) (η / (L₁ + L₂ + 1))) u₃, max M (max M₁ M₂), by positivity,
    lt_min (lt_min (lt_min hu₁ hu₂) (by positivity)) hu₃, fun F u h0 hu hF => ?_⟩
  rw [le_min_iff, le_min_iff, le_min_iff] at hu
  obtain ⟨hu, hu'⟩ := hu
  obtain ⟨R', a', b', e', i', hab', h1, h2⟩ := conv₁ F u h0 hu.1.1 (acc_mono hF ((le_max_left _ _).trans (le_max_right _ _)))
  obtain ⟨R'', a'', b'', e'', i'', hab'', h1', h2'⟩ := conv₂ F u h0 hu.1.2 (acc_mono hF ((le_max_right _ _).trans (le_max_right _ _)))
  have hLu := rnd_mul_le (by positivity) h0 hu.2
  have g1 : L₁ * u ≤ (L₁ + L₂) * u := mul_le_mul_of_nonneg_right (by linarith) h0
  have g2 : L₂ * u ≤ (L₁ + L₂) * u := mul_le_mul_of_nonneg_right (by linarith) h0
  replace h1 := h1.trans g1; replace h2 := h2.trans g1
  replace h1' := h1'.trans g2; replace h2' := h2'.trans g2
  have sub : Icc a' b' ⊆ Icc (a₁ - η) (b₁ + η) := icc_sub h1 h2 hLu
  have sub' : Icc a'' b'' ⊆ Icc (a₂ - η) (b₂ + η) := icc_sub h1' h2' hLu
  have rv := hr F u h0 hu' (acc_mono hF (le_max_left _ _)) R' R'' a' b' a'' b'' i' i'' hab' hab'' sub sub'
  have nr : ∀ {a b a' b' c d c' d' t : ℝ}, a ≤ b → c ≤ d → |a' - a| ≤ t → |b' - b| ≤ t → |c' - c| ≤ t → |d' - d| ≤ t →
      ∀ p ∈ Icc a' b' ×ˢ Icc c' d', ∃ q ∈ Icc a b ×ˢ Icc c d, ‖p - q‖ ≤ t := fun hab hcd k1 k2 k3 k4 p hp => by
    obtain ⟨x, hx, hx'⟩ := icc_near hab k1 k2 p.1 hp.1
    obtain ⟨y, hy, hy'⟩ := icc_near hcd k3 k4 p.2 hp.2
    exact ⟨(x, y), ⟨hx, hy⟩, by rw [Prod.norm_def, max_le_iff]; exact ⟨hx', hy'⟩⟩
  obtain ⟨S', c', d', eS', iS', h3, h4, h5⟩ := RV.near (t := (L₁ + L₂) * u) hC hc
    (prod_mono (Icc_subset_Icc (by linarith) (by linarith)) (Icc_subset_Icc (by linarith) (by linarith))) (prod_mono sub sub')
    (nr hab₁ hab₂ h1 h2 h1' h2') (nr hab' hab'' (by rwa [abs_sub_comm]) (by rwa [abs_sub_comm]) (by rwa [abs_sub_comm]) (by rwa [abs_sub_comm])) eS iS (RV.of_val2 v) rv
  exact ⟨S', c', d', by simp only [e', e'', ok_bind, eS'], iS', h3, h4.trans (by linarith), h5.trans (by linarith)⟩

theorem RV.left {t : ℝ → ℝ → ℝ} {S : Set ℝ} {c e : ℝ} {res} (h : RV (fun p : ℝ × ℝ => t p.1 p.2) (Icc c c ×ˢ S) e res) : RV (t c) S e res := by
  obtain ⟨R, a, b, h1, h2, h3, h4, ⟨p, hp, h5⟩, ⟨q, hq, h6⟩⟩ := h
  have hp1 : p.1 = c := le_antisymm hp.1.2 hp.1.1
  have hq1 : q.1 = c := le_antisymm hq.1.2 hq.1.1
  exact ⟨R, a, b, h1, h2, h3, fun x hx => h4 (c, x) ⟨⟨le_rfl, le_rfl⟩, hx⟩, ⟨p.2, hp.2, hp1 ▸ h5⟩, ⟨q.2, hq.2, hq1 ▸ h6⟩⟩
theorem RV.right {t : ℝ → ℝ → ℝ} {S : Set ℝ} {c e : ℝ} {res} (h : RV (fun p : ℝ × ℝ => t p.1 p.2) (S ×ˢ Icc c c) e res) : RV (fun x => t x c) S e res := by
  obtain ⟨R, a, b, h1, h2, h3, h4, ⟨p, hp, h5⟩, ⟨q, hq, h6⟩⟩ := h
  have hp1 : p.2 = c := le_antisymm hp.2.2 hp.2.1
  have hq1 : q.2 = c := le_antisymm hq.2.2 hq.2.1
  exact ⟨R, a, b, h1, h2, h3, fun x hx => h4 (x, c) ⟨hx, ⟨le_rfl, le_rfl⟩⟩, ⟨p.1, hp.1, hp1 ▸ h5⟩, ⟨q.1, hq.1, hq1 ▸ h6⟩⟩
theorem Val2.left {t : ℝ → ℝ → ℝ} {l h c : ℝ} {res} (hv : Val2 t (Icc c c ×ˢ Icc l h) res) : Val1 (t c) l h res := by
  obtain ⟨S, p, q, eS, iS, m, ⟨x, hx, h1⟩, ⟨y, hy, h2⟩⟩ := hv
  have hx1 : x.1 = c := le_antisymm hx.1.2 hx.1.1
  have hy1 : y.1 = c := le_antisymm hy.1.2 hy.1.1
  exact ⟨S, p, q, eS, iS, fun k hk => m (c, k) ⟨⟨le_rfl, le_rfl⟩, hk⟩, ⟨x.2, hx.2, hx1 ▸ h1⟩, ⟨y.2, hy.2, hy1 ▸ h2⟩⟩
theorem Val2.right {t : ℝ → ℝ → ℝ} {l h c : ℝ} {res} (hv : Val2 t (Icc l h ×ˢ Icc c c) res) : Val1 (fun x => t x c) l h res := by
  obtain ⟨S, p, q, eS, iS, m, ⟨x, hx, h1⟩, ⟨y, hy, h2⟩⟩ := hv
  have hx1 : x.2 = c := le_antisymm hx.2.2 hx.2.1
  have hy1 : y.2 = c := le_antisymm hy.2.2 hy.2.1
  exact ⟨S, p, q, eS, iS, fun k hk => m (k, c) ⟨hk, ⟨le_rfl, le_rfl⟩⟩, ⟨x.1, hx.1, hx1 ▸ h1⟩, ⟨y.1, hy.1, hy1 ▸ h2⟩⟩

theorem icc_dist {l h x : ℝ} (hx : x ∈ Icc l h) : ‖x - l‖ ≤ h - l := by
  rw [Real.norm_eq_abs, abs_le]; constructor <;> linarith [hx.1, hx.2]

/-- a function on the intervals near `[a, b]`, with rounding -/
theorem fn_near (dbg : Bool) (op : FnOp) {a b η : ℝ} (hab : a ≤ b) (hη : 0 < η) (d : ∀ k ∈ Icc (a - η) (b + η), op.StableAt k) :
    ∃ η' C M u₁, 0 < η' ∧ η' ≤ η ∧ 0 ≤ C ∧ 0 < u₁ ∧ ∀ F u, 0 ≤ u → u ≤ u₁ → Accurate F u M → ∀ X l h, IsI X l h → l ≤ h → Icc l h ⊆ Icc (a - η') (b + η') →
      RV (fnTot op) (Icc l h) (C * u) (@FnOp.ivl F dbg op X) := by
  have hle : a - η ≤ b + η := by linarith
  have hf : op ≠ .frac := (fn_stable (d _ ⟨le_rfl, hle⟩)).1
  have lip := fn_lip op hf (fun k hk => (fn_stable (d k hk)).2.1) fun k hk => (fn_stable (d k hk)).2.2
  obtain ⟨M, hM⟩ := lip.bounded ⟨le_rfl, hle⟩ fun x hx => icc_dist hx
  have B0 : 0 ≤ |a - η| + |b + η| := by positivity
  have bd : ∀ k ∈ Icc (a - η) (b + η), -(|a - η| + |b + η|) ≤ k ∧ k ≤ |a - η| + |b + η| := fun k hk =>
    ⟨by linarith [hk.1, neg_abs_le (a - η), abs_nonneg (b + η)], by linarith [hk.2, le_abs_self (b + η), abs_nonneg (a - η)]⟩
  generalize |a - η| + |b + η| = B at *
  by_cases one : op ≠ .cos ∧ op ≠ .sin ∧ op ≠ .tan
  · exact ⟨η, 1, M, 1, hη, le_rfl, zero_le_one, one_pos, fun F u h0 _ hF X l h hX hlh hs => by
      rw [one_mul]; exact @fn_rnd F dbg op one X l h u M hX hlh h0 hF (fun k hk => d k (hs hk)) fun k hk => hM k (hs hk)⟩
  cases op with
  | cos =>
    refine ⟨η, 16 + B, 2 * B + 24, 1/8, hη, le_rfl, by linarith, by norm_num, fun F u h0 hu hF X l h hX hlh hs => ?_⟩
    obtain ⟨p, L, -⟩ := @OverReal.cosLib_of F u _ hF (by linarith)
    have E := @OverReal.absErr_of F u _ hF
    obtain ⟨R, m, N, e, i, -, h1, -, hr⟩ := @OverReal.cos_err F _ u p u E (fun k hk => E k (by linarith)) L hu le_rfl dbg X (hX.proper.mpr hlh) l h B hX.1 hX.2
      (bd l (hs ⟨le_rfl, hlh⟩)).1 hlh (bd h (hs ⟨hlh, le_rfl⟩)).2 (by linarith)
    rw [add_mul]
    exact RV.of_upTo e i h1 hr fun k hk => rfl
  | sin =>
    refine ⟨η, 22 + B, 2 * B + 24, 1/8, hη, le_rfl, by linarith, by norm_num, fun F u h0 hu hF X l h hX hlh hs => ?_⟩
    obtain ⟨p, L, -⟩ := @OverReal.cosLib_of F u _ hF (by linarith)
    have E := @OverReal.absErr_of F u _ hF
    obtain ⟨R, m, N, e, i, -, h1, -, hr⟩ := @OverReal.sin_err F _ u p u E (fun k hk => E k (by linarith)) L hu le_rfl dbg X (hX.proper.mpr hlh) l h B hX.1 hX.2
      (bd l (hs ⟨le_rfl, hlh⟩)).1 hlh (bd h (hs ⟨hlh, le_rfl⟩)).2 (by linarith)
    rw [add_mul]
    exact RV.of_upTo e i h1 hr fun k hk => rfl
  | tan =>
    have tb : ∀ k ∈ Icc (a - η) (b + η), fnTot .tan k = Real.tan k := fun k hk => by
      simp [fnTot, FnOp.real, show Real.cos k ≠ 0 from d k hk]
    have hT : TanBound (a - η) (b + η) M := fun k k1 k2 => ⟨d k ⟨k1, k2⟩, by rw [← tb k ⟨k1, k2⟩]; exact hM k ⟨k1, k2⟩⟩
    have q0 : 0 < 16 + 2 * B := by linarith
    refine ⟨η/2, (1 + M^2) * (16 + 2 * B) + 1, max M (2 * B + 24), min (1/8) (η / 2 / (16 + 2 * B)), by linarith, by linarith, by positivity,
      lt_min (by norm_num) (by positivity), fun F u h0 hu hF X l h hX hlh hs => ?_⟩
    rw [le_min_iff, le_div_iff₀ q0] at hu
    obtain ⟨hu, hu'⟩ := hu
    obtain ⟨p, -, L⟩ := @OverReal.cosLib_of F u _ hF (le_trans (by linarith) (le_max_right _ _))
    have E := @OverReal.absErr_of F u _ hF
    have s1 := hs ⟨le_rfl, hlh⟩; have s2 := hs ⟨hlh, le_rfl⟩
    obtain ⟨R, m, N, e, i, h1, hr⟩ := @OverReal.tan_err F u p _ M E L hu dbg X (hX.proper.mpr hlh) l h B hX.1 hX.2
      (bd l ⟨by linarith [s1.1], by linarith [s1.2]⟩).1 hlh (bd h ⟨by linarith [s2.1], by linarith [s2.2]⟩).2 (le_trans (by linarith) (le_max_right _ _)) (le_max_left _ _)
      fun k k1 k2 => hT k (by linarith [s1.1]) (by linarith [s2.2])
    exact RV.of_upTo e i h1 hr fun k hk => tb k ⟨by linarith [(hs hk).1], by linarith [(hs hk).2]⟩
  | frac => exact absurd rfl hf
  | sqrt => exact absurd (by simp) one
  | cbrt => exact absurd (by simp) one
  | log => exact absurd (by simp) one
  | exp => exact absurd (by simp) one
  | asin => exact absurd (by simp) one
  | acos => exact absurd (by simp) one
  | atan => exact absurd (by simp) one

/-- an operation on the operands within a box, with rounding -/
theorem op2_near (dbg : Bool) (op : Op2) {s t s' t' : ℝ} (hst : s ≤ t) (hst' : s' ≤ t') (d : ∀ k ∈ Icc s t, ∀ m ∈ Icc s' t', op.StableAt k m) :
    ∃ C M u₁, 0 ≤ C ∧ 0 < u₁ ∧ ∀ F u, 0 ≤ u → u ≤ u₁ → Accurate F u M → ∀ A B l h l' h', IsA A l h → IsA B l' h' → l ≤ h → l' ≤ h' →
      Icc l h ⊆ Icc s t → Icc l' h' ⊆ Icc s' t' → RV (fun p : ℝ × ℝ => op2Tot op p.1 p.2) (Icc l h ×ˢ Icc l' h') (C * u) (@Op2.ivl F dbg op A B) := by
  by_cases hp : op = .pow
  · subst hp
    have d' : ∀ k ∈ Icc s t, 0 < k := fun k hk => d k hk s' ⟨le_rfl, hst'⟩
    have Z0 : 0 ≤ |Real.log s| + |Real.log t| + (|s'| + |t'|) := by positivity
    have lg : ∀ k ∈ Icc s t, |Real.log k| ≤ |Real.log s| + |Real.log t| + (|s'| + |t'|) := fun k hk => by
      have h1 := Real.log_le_log (d' s ⟨le_rfl, hst⟩) hk.1
      have h2 := Real.log_le_log (d' k hk) hk.2
      rw [abs_le]
      constructor <;> linarith [neg_abs_le (Real.log s), le_abs_self (Real.log t), abs_nonneg (Real.log s), abs_nonneg (Real.log t), abs_nonneg s', abs_nonneg t']
    have ex : ∀ m ∈ Icc s' t', |m| ≤ |Real.log s| + |Real.log t| + (|s'| + |t'|) := fun k hk => by
      rw [abs_le]
      constructor <;> linarith [hk.1, hk.2, neg_abs_le s', le_abs_self t', abs_nonneg (Real.log s), abs_nonneg (Real.log t), abs_nonneg s', abs_nonneg t']
    generalize |Real.log s| + |Real.log t| + (|s'| + |t'|) = Z at *
    exact ⟨_, _, 1, by positivity, one_pos, fun F u h0 hu hF A B l h l' h' hA hB hlh hlh' hs hs' =>
      @pow_rnd F dbg A B l h l' h' u _ Z hA hB hlh hlh' hu hF (fun k hk => ⟨d' k (hs hk), lg k (hs hk)⟩) (fun m hm => ex m (hs' hm)) le_rfl⟩
  · have lip := op2_lip op hst hst' fun k hk m hm => op2_stable (d k hk m hm)
    obtain ⟨M, hM⟩ := lip.bounded (x₀ := (s, s')) (r := max (t - s) (t' - s')) ⟨⟨le_rfl, hst⟩, ⟨le_rfl, hst'⟩⟩
      fun x hx => by rw [Prod.norm_def]; exact max_le_max (icc_dist hx.1) (icc_dist hx.2)
    exact ⟨1, M, 1, zero_le_one, one_pos, fun F u h0 hu hF A B l h l' h' hA hB hlh hlh' hs hs' => by
      rw [one_mul]
      exact @op2_rnd F dbg op hp A B l h l' h' u M hA hB hlh hlh' h0 hF (fun k hk m hm => d k (hs hk) m (hs' hm)) fun k hk m hm => hM (k, m) ⟨hs hk, hs' hm⟩⟩

theorem rnd_expr (dbg : Bool) (X : Nat → Ivl (Fl ℝ)) (hX : FiniteBox X) (e : RExpr) (he : @RExpr.Stable (exactFmt ℝ) dbg X e) :
    ∃ a b, Rnd (fun F => @RExpr.ivl F dbg X e) a b := by
  induction e with
  | var i =>
    have h0 := isI_of_finite (hX i).1 (hX i).2.1
    exact ⟨_, _, ⟨_, rfl, h0⟩, h0.proper.mp (hX i).2.2, 0, 1, 0, le_rfl, one_pos, fun F u _ _ _ => ⟨_, _, _, rfl, h0, h0.proper.mp (hX i).2.2, by simp, by simp⟩⟩
  | un op e ih =>
    obtain ⟨a, b, h⟩ := ih he.1
    refine rnd1 h (G := fun F => @UnOp.ivl ℝ _ _ F _ dbg op) one_pos (un_lip op he.2 _ _) (fun X hX => (un_range dbg op he.2 hX h.2.1).2) ?_
    have B0 : 0 ≤ |a - 1| + |b + 1| := by positivity
    refine ⟨1 + (|a - 1| + |b + 1|), _, 1, by positivity, one_pos, fun F u h0 h1 hF X l h hX hlh hs => @un_rnd F dbg op he.2 X l h u _ (|a - 1| + |b + 1|) hX hlh h0 h1 hF (fun k hk => ?_) le_rfl⟩
    have := hs hk
    rw [abs_le]; constructor <;> linarith [this.1, this.2, neg_abs_le (a - 1), le_abs_self (b + 1), abs_nonneg (a - 1), abs_nonneg (b + 1)]
  | fn op e ih =>
    obtain ⟨a, b, h⟩ := ih he.1
    obtain ⟨R, eR, iR⟩ := h.1
    obtain ⟨η, hη, d⟩ := margin1 (fn_open op) h.2.1 fun k hk => he.2 R eR k (iR.mem_num.mpr hk)
    obtain ⟨η', C, M, u₁, hη', le, hC, hu₁, hr⟩ := fn_near dbg op h.2.1 hη d
    have sub : Icc a b ⊆ Icc (a - η) (b + η) := Icc_subset_Icc (by linarith) (by linarith)
    have sub' : Icc (a - η') (b + η') ⊆ Icc (a - η) (b + η) := Icc_subset_Icc (by linarith) (by linarith)
    have hf : op ≠ .frac := (fn_stable (d _ ⟨le_rfl, by linarith [h.2.1]⟩)).1
    have lip := fn_lip op hf (fun k hk => (fn_stable (d k (sub' hk))).2.1) fun k hk => (fn_stable (d k (sub' hk))).2.2
    exact rnd1 h (G := fun F => @FnOp.ivl F dbg op) hη' lip (fun X hX => (fn_range dbg op hf hX h.2.1 fun k hk => (fn_stable (d k (sub hk))).2.1).2)
      ⟨C, M, u₁, hC, hu₁, hr⟩
  | bin op e₁ e₂ ih₁ ih₂ =>
    obtain ⟨a, b, h⟩ := ih₁ he.1
    obtain ⟨a', b', h'⟩ := ih₂ he.2.1
    obtain ⟨R, eR, iR⟩ := h.1
    obtain ⟨R', eR', iR'⟩ := h'.1
    obtain ⟨η, hη, d⟩ := margin2 (op2_open op) h.2.1 h'.2.1 fun k hk m hm => he.2.2 R R' eR eR' k m (iR.mem_num.mpr hk) (iR'.mem_num.mpr hm)
    have hle : a - η ≤ b + η := by linarith [h.2.1]
    have hle' : a' - η ≤ b' + η := by linarith [h'.2.1]
    have sub : Icc a b ⊆ Icc (a - η) (b + η) := Icc_subset_Icc (by linarith) (by linarith)
    have sub' : Icc a' b' ⊆ Icc (a' - η) (b' + η) := Icc_subset_Icc (by linarith) (by linarith)
    have lip := op2_lip op hle hle' fun k hk m hm => op2_stable (d k hk m hm)
    refine rnd2 h h' (G := fun F X Y => @Op2.ivl F dbg op (.ivl X) (.ivl Y)) hη lip
      (fun X Y hX hY => (op2_range dbg op (A := .ivl X) (B := .ivl Y) hX hY h.2.1 h'.2.1 fun k hk m hm => op2_stable (d k (sub hk) m (sub' hm))).2) ?_
    obtain ⟨C, M, u₁, hC, hu₁, hr⟩ := op2_near dbg op hle hle' d
    exact ⟨C, M, u₁, hC, hu₁, fun F u h0 hu hF X Y l h l' h' hX hY => hr F u h0 hu hF (.ivl X) (.ivl Y) l h l' h' hX hY⟩
  | binL op c e ih =>
    obtain ⟨a, b, h⟩ := ih he.1
    obtain ⟨R, eR, iR⟩ := h.1
    have isc : IsA (.scalar (.num c)) c c := ⟨Is.num c, Is.num c⟩
    obtain ⟨η, hη, d⟩ := margin2 (op2_open op) (le_refl c) h.2.1 fun k hk m hm => by
      rw [Icc_self, mem_singleton_iff] at hk; subst hk
      exact he.2 R eR m (iR.mem_num.mpr hm)
    have hle : a - η ≤ b + η := by linarith [h.2.1]
    have hc : c ∈ Icc (c - η) (c + η) := ⟨by linarith, by linarith⟩
    have sub : Icc a b ⊆ Icc (a - η) (b + η) := Icc_subset_Icc (by linarith) (by linarith)
    have d' : ∀ k ∈ Icc c c, ∀ m ∈ Icc (a - η) (b + η), op.StableAt k m := fun k hk m hm => d k ⟨by linarith [hk.1], by linarith [hk.2]⟩ m hm
    have lip : Lip (op2Tot op c) (Icc (a - η) (b + η)) := by
      obtain ⟨L, hL, hl⟩ := op2_lip op (le_refl c) hle fun k hk m hm => op2_stable (d' k hk m hm)
      exact ⟨L, hL, fun x hx y hy => by simpa [Prod.norm_def] using hl (c, x) ⟨⟨le_rfl, le_rfl⟩, hx⟩ (c, y) ⟨⟨le_rfl, le_rfl⟩, hy⟩⟩
    refine rnd1 h (G := fun F X => @Op2.ivl F dbg op (.scalar (.num c)) (.ivl X)) (t := op2Tot op c) hη lip (fun X hX =>
      (op2_range dbg op isc (B := .ivl X) hX le_rfl h.2.1 fun k hk m hm => op2_stable (d' k hk m (sub hm))).2.left) ?_
    obtain ⟨C, M, u₁, hC, hu₁, hr⟩ := op2_near dbg op (le_refl c) hle d'
    exact ⟨C, M, u₁, hC, hu₁, fun F u h0 hu hF X l h hX hlh hs => (hr F u h0 hu hF (.scalar (.num c)) (.ivl X) c c l h isc hX le_rfl hlh subset_rfl hs).left⟩
  | binR op e c ih =>
    obtain ⟨a, b, h⟩ := ih he.1
    obtain ⟨R, eR, iR⟩ := h.1
    have isc : IsA (.scalar (.num c)) c c := ⟨Is.num c, Is.num c⟩
    obtain ⟨η, hη, d⟩ := margin2 (op2_open op) h.2.1 (le_refl c) fun k hk m hm => by
      rw [Icc_self, mem_singleton_iff] at hm; subst hm
      exact he.2 R eR k (iR.mem_num.mpr hk)
    have hle : a - η ≤ b + η := by linarith [h.2.1]
    have sub : Icc a b ⊆ Icc (a - η) (b + η) := Icc_subset_Icc (by linarith) (by linarith)
    have d' : ∀ k ∈ Icc (a - η) (b + η), ∀ m ∈ Icc c c, op.StableAt k m := fun k hk m hm => d k hk m ⟨by linarith [hm.1], by linarith [hm.2]⟩
    have lip : Lip (fun x => op2Tot op x c) (Icc (a - η) (b + η)) := by
      obtain ⟨L, hL, hl⟩ := op2_lip op hle (le_refl c) fun k hk m hm => op2_stable (d' k hk m hm)
      exact ⟨L, hL, fun x hx y hy => by simpa [Prod.norm_def] using hl (x, c) ⟨hx, ⟨le_rfl, le_rfl⟩⟩ (y, c) ⟨hy, ⟨le_rfl, le_rfl⟩⟩⟩
    refine rnd1 h (G := fun F X => @Op2.ivl F dbg op (.ivl X) (.scalar (.num c))) (t := fun x => op2Tot op x c) hη lip (fun X hX =>
      (op2_range dbg op (A := .ivl X) hX isc h.2.1 le_rfl fun k hk m hm => op2_stable (d' k (sub hk) m hm)).2.right) ?_
    obtain ⟨C, M, u₁, hC, hu₁, hr⟩ := op2_near dbg op hle (le_refl c) d'
    exact ⟨C, M, u₁, hC, hu₁, fun F u h0 hu hF X l h hX hlh hs => (hr F u h0 hu hF (.ivl X) (.scalar (.num c)) l h c c hX isc hlh le_rfl hs subset_rfl).right⟩

/-- C86: the bounds computed in a floating-point format differ from those computed without rounding by at most a multiple of the rounding error. -/
theorem C86_rounding (dbg : Bool) (X : Nat → Ivl (Fl ℝ)) (hX : FiniteBox X) (e : RExpr) (he : @RExpr.Stable (exactFmt ℝ) dbg X e) :
    ∃ R, @RExpr.ivl (exactFmt ℝ) dbg X e = .ok R ∧ FiniteI R ∧
      ∃ L u₀ M, 0 ≤ L ∧ 0 < u₀ ∧ ∀ (F : Fmt ℝ) (u : ℝ), 0 ≤ u → u ≤ u₀ → Accurate F u M →
        ∃ R', @RExpr.ivl F dbg X e = .ok R' ∧ FiniteI R' ∧ |R'.lo.val - R.lo.val| ≤ L * u ∧ |R'.hi.val - R.hi.val| ≤ L * u := by
  obtain ⟨a, b, ⟨R, eR, iR⟩, hab, L, u₀, M, hL, hu₀, h⟩ := rnd_expr dbg X hX e he
  refine ⟨R, eR, ⟨iR.1.1, iR.2.1, iR.proper.mpr hab⟩, L, u₀, M, hL, hu₀, fun F u h0 hu hF => ?_⟩
  obtain ⟨R', a', b', e', i', hab', h1, h2⟩ := h F u h0 hu hF
  exact ⟨R', e', ⟨i'.1.1, i'.2.1, i'.proper.mpr hab'⟩, by rw [i'.1.2, iR.1.2]; exact h1, by rw [i'.2.2, iR.2.2]; exact h2⟩

theorem regular_of_stable (dbg : Bool) (X : Nat → Ivl (Fl ℝ)) (e : RExpr) (he : @RExpr.Stable (exactFmt ℝ) dbg X e) (hX : FiniteBox X) :
    @RExpr.Regular (exactFmt ℝ) dbg X e := by
  induction e with
  | var i => trivial
  | un op e ih => exact ⟨ih he.1, he.2⟩
  | fn op e ih =>
    refine ⟨ih he.1, ?_, fun R hR x hx => (fn_stable (he.2 R hR x hx)).2.1⟩
    obtain ⟨a, b, ⟨R, eR, iR⟩, hab, -⟩ := rnd_expr dbg X hX e he.1
    exact (fn_stable (he.2 R eR a (iR.mem_num.mpr ⟨le_rfl, hab⟩))).1
  | bin op e₁ e₂ ih₁ ih₂ => exact ⟨ih₁ he.1, ih₂ he.2.1, fun R S hR hS x y hx hy => op2_stable (he.2.2 R S hR hS x y hx hy)⟩
  | binL op c e ih => exact ⟨ih he.1, fun R hR y hy => op2_stable (he.2 R hR y hy)⟩
  | binR op e c ih => exact ⟨ih he.1, fun R hR x hx => op2_stable (he.2 R hR x hx)⟩

/-- C86, for the values of the expression: a value at points of the operands is outside the computed interval by at most a multiple of the rounding error. -/
theorem C86_enclosure (dbg : Bool) (X : Nat → Ivl (Fl ℝ)) (hX : FiniteBox X) (e : RExpr) (he : @RExpr.Stable (exactFmt ℝ) dbg X e) :
    ∃ L u₀ M, 0 ≤ L ∧ 0 < u₀ ∧ ∀ (F : Fmt ℝ) (u : ℝ), 0 ≤ u → u ≤ u₀ → Accurate F u M →
      ∃ R', @RExpr.ivl F dbg X e = .ok R' ∧ FiniteI R' ∧
        ∀ κ, InBox κ X → ∃ v, e.val κ = some v ∧ R'.lo.val - L * u ≤ v ∧ v ≤ R'.hi.val + L * u := by
  obtain ⟨R, eR, fR, L, u₀, M, hL, hu₀, h⟩ := C86_rounding dbg X hX e he
  obtain ⟨a, b, ⟨R₀, e₀, i₀⟩, hab, hc⟩ := conv_expr dbg X hX e (regular_of_stable dbg X e he hX)
  refine ⟨L, u₀, M, hL, hu₀, fun F u h0 hu hF => ?_⟩
  obtain ⟨R', e', f', h1, h2⟩ := h F u h0 hu hF
  refine ⟨R', e', f', fun κ hκ => ?_⟩
  cases eR.symm.trans e₀
  obtain ⟨δ, hδ, hc⟩ := hc 1 one_pos
  have hk : FiniteBox fun i => (⟨.num (κ i), .num (κ i)⟩ : Ivl (Fl ℝ)) := fun i => finite_num le_rfl
  obtain ⟨_, c, d, -, -, -, h3, h4, -, hv⟩ := hc (fun i => ⟨.num (κ i), .num (κ i)⟩) hk (fun i x hx => by
    have h0 := isI_of_finite (hX i).1 (hX i).2.1
    obtain ⟨k, ik, hk⟩ := (show IsI (⟨.num (κ i), .num (κ i)⟩ : Ivl (Fl ℝ)) (κ i) (κ i) from ⟨Is.num _, Is.num _⟩).mem.mp hx
    have : k = κ i := le_antisymm hk.2 hk.1
    subst this
    exact h0.mem.mpr ⟨_, ik, h0.mem_num.mp (hκ i)⟩) fun i _ => by simp [width, val]; exact hδ.le
  obtain ⟨v, hv, ev⟩ := hv κ fun i => ⟨by simp, by simp⟩
  have iR := i₀
  rw [iR.1.2] at h1; rw [iR.2.2] at h2
  rw [abs_le] at h1 h2
  exact ⟨v, ev, by linarith [hv.1], by linarith [hv.2]⟩

/-! ## Binary formats -/
theorem accurate_bin {p emin : ℤ} {Ω : ℝ} (hp : 1 ≤ p) (hΩ : 0 ≤ Ω) (n : ℤ) (n0 : 0 ≤ n) (hn : (2:ℝ)^n ≤ Ω) (he : emin ≤ n - p) (he' : emin ≤ 0) :
    Accurate (binFmt p emin Ω hp hΩ) ((2:ℝ)^(n - p) / 2) ((2:ℝ)^n) := by
  refine ⟨?_, fun k hk => ?_⟩
  · have hΩ1 : 1 ≤ Ω := (one_le_zpow₀ (by norm_num) n0).trans hn
    have r : rndU p emin (1:ℝ) = 1 := rndU_of_mul (e := 0) (n := 1) (by
      rw [ulpExp, abs_one, Int.log_one_right]; omega) (by simp)
    show rndBin p emin Ω 1 = .num 1
    unfold rndBin
    rw [r, if_neg (by linarith), if_neg (by linarith), if_neg (by norm_num)]
  obtain ⟨h1, h2, h3⟩ := rndBin_near hp n hn he hk
  exact ⟨h1, by rw [← h2] at h3; exact h3⟩

/-- C86 for IEEE 754 binary formats: given a large enough range of exponents, the bounds computed with `p` digits differ from those computed without rounding by at most
a multiple of `2^(-p)`. -/
theorem C86_binary (dbg : Bool) (X : Nat → Ivl (Fl ℝ)) (hX : FiniteBox X) (e : RExpr) (he : @RExpr.Stable (exactFmt ℝ) dbg X e) :
    ∃ R, @RExpr.ivl (exactFmt ℝ) dbg X e = .ok R ∧ FiniteI R ∧
      ∃ (L : ℝ) (p₀ n : ℤ), ∀ (p emin : ℤ) (Ω : ℝ) (hp : 1 ≤ p) (hΩ : 0 ≤ Ω), p₀ ≤ p → emin ≤ n - p → (2:ℝ)^n ≤ Ω →
        ∃ R', @RExpr.ivl (binFmt p emin Ω hp hΩ) dbg X e = .ok R' ∧ FiniteI R' ∧
          |R'.lo.val - R.lo.val| ≤ L * 2^(-p) ∧ |R'.hi.val - R.hi.val| ≤ L * 2^(-p) := by
  obtain ⟨R, eR, fR, L, u₀, M, hL, hu₀, h⟩ := C86_rounding dbg X hX e he
  obtain ⟨n, hn⟩ := pow_unbounded_of_one_lt M (one_lt_two (α := ℝ))
  obtain ⟨q, hq⟩ := pow_unbounded_of_one_lt ((2:ℝ)^n / u₀) (one_lt_two (α := ℝ))
  refine ⟨R, eR, fR, L * 2^n, max q n, n, fun p emin Ω hp hΩ hpq he hΩ' => ?_⟩
  have hpq' : (n:ℤ) ≤ p := (le_max_right _ _).trans hpq
  replace hpq : (q:ℤ) ≤ p := (le_max_left _ _).trans hpq
  have pz : ∀ z : ℤ, (0:ℝ) < 2^z := fun z => zpow_pos (by norm_num) z
  have eq : (2:ℝ)^((n:ℤ) - p) = 2^n * 2^(-p) := by rw [sub_eq_add_neg, zpow_add₀ (by norm_num), zpow_natCast]
  have small : (2:ℝ)^((n:ℤ) - p) / 2 ≤ u₀ := by
    have h1 : (2:ℝ)^n < 2^(q:ℤ) * u₀ := by rw [div_lt_iff₀ hu₀] at hq; rwa [zpow_natCast]
    have h2 : (2:ℝ)^(q:ℤ) * 2^(-p) ≤ 1 := by
      rw [← zpow_add₀ (by norm_num)]; exact zpow_le_one_of_nonpos₀ (by norm_num) (by omega)
    rw [eq]
    nlinarith [pz (-p), mul_le_mul_of_nonneg_right h1.le (pz (-p)).le]
  obtain ⟨R', e', f', h1, h2⟩ := h (binFmt p emin Ω hp hΩ) _ (half_pos (pz _)).le small
    (acc_mono (accurate_bin hp hΩ n (by omega) hΩ' he (by omega)) (by rw [zpow_natCast]; exact hn.le))
  have le : L * ((2:ℝ)^((n:ℤ) - p) / 2) ≤ L * 2^n * 2^(-p) := by
    rw [mul_assoc, ← eq]; exact mul_le_mul_of_nonneg_left (by linarith [pz ((n:ℤ) - p)]) hL
  exact ⟨R', e', f', h1.trans le, h2.trans le⟩

/-! ## Examples -/
/-- `x * log(x) + 1 / x` on `[1,4]` meets the hypotheses of C86 -/
example : let e : RExpr := .bin (.arith .add) (.bin (.arith .mul) (.var 0) (.fn .log (.var 0))) (.binL (.arith .div) 1 (.var 0))
    FiniteBox (fun _ => ⟨.num 1, .num 4⟩) ∧ @RExpr.Stable (exactFmt ℝ) true (fun _ => ⟨.num 1, .num 4⟩) e := by
  have pos : ∀ x : ℝ, .num x ∈ᵢ (⟨.num 1, .num 4⟩ : Ivl (Fl ℝ)) → 0 < x := fun x hx => by
    have : (1:ℝ) ≤ x := by simpa using hx.1
    linarith
  refine ⟨fun _ => finite_num (by norm_num), ⟨trivial, ⟨trivial, fun R h x hx => ?_⟩, fun _ _ _ _ _ _ _ _ => trivial⟩, ⟨trivial, fun R h x hx => ?_⟩, fun _ _ _ _ _ _ _ _ => trivial⟩
  · cases h; exact pos x hx
  · cases h; exact (pos x hx).ne'
/-- `pow(x, sin(x)) + tan(x)` on `[1/2,1]` meets the hypotheses of C86 -/
example : let e : RExpr := .bin (.arith .add) (.bin .pow (.var 0) (.fn .sin (.var 0))) (.fn .tan (.var 0))
    FiniteBox (fun _ => ⟨.num (1/2), .num 1⟩) ∧ @RExpr.Stable (exactFmt ℝ) true (fun _ => ⟨.num (1/2), .num 1⟩) e := by
  have bd : ∀ x : ℝ, .num x ∈ᵢ (⟨.num (1/2), .num 1⟩ : Ivl (Fl ℝ)) → 1/2 ≤ x ∧ x ≤ 1 := fun x hx => by
    simpa using (show (1/2:ℝ) ≤ x ∧ x ≤ 1 by exact ⟨by simpa using hx.1, by simpa using hx.2⟩)
  have := Real.pi_gt_three
  refine ⟨fun _ => finite_num (by norm_num), ⟨trivial, ⟨trivial, fun _ _ _ _ => trivial⟩, fun R S h _ x y hx _ => ?_⟩, ⟨trivial, fun R h x hx => ?_⟩, fun _ _ _ _ _ _ _ _ => trivial⟩
  · cases h; exact (show (0:ℝ) < x by linarith [(bd x hx).1])
  · cases h; exact (Real.cos_pos_of_mem_Ioo ⟨by linarith [(bd x hx).1], by linarith [(bd x hx).2]⟩).ne'
/-- `double` is accurate to `2^(-44)` for numbers up to 1024 -/
example : Accurate (binary64Of ℝ) ((2:ℝ)^(10 - 53 : ℤ) / 2) ((2:ℝ)^(10:ℤ)) := accurate_bin _ _ 10 (by norm_num) (two_zpow_le (by norm_num)) (by norm_num) (by norm_num)
end Intervals.Props
