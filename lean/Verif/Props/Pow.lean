import Verif.Props.Monotone
import Verif.Lemmas.Blend
import Verif.Lemmas.Accum
import Verif.Spec.Real
/-!
# C41: pow of intervals (exact real arithmetic)
-/
set_option linter.unusedSectionVars false
namespace Intervals.Props
open Intervals CppVal Spec Fl

attribute [local instance] exactFmt

/-- `R` is proper, contains the values `P`, and its bounds are among them -/
structure Img (P : Fl ℝ → Prop) (R : Arg (Fl ℝ)) : Prop where
  proper : ProperA R
  mem : ∀ v, P v → v ∈ₐ R
  lo : P R.lo
  hi : P R.hi

theorem Img.self {X : Arg (Fl ℝ)} (h : ProperA X) : Img (· ∈ₐ X) X := ⟨h, fun _ h => h, lo_mem h, hi_mem h⟩

theorem isA_of_finite' {X : Arg (Fl ℝ)} (h : FiniteA X) : IsA X X.lo.val X.hi.val := ⟨Is.of_finite h.1, Is.of_finite h.2.1⟩

/-- a monotone function applied to the bounds -/
theorem Img.map {P : Fl ℝ → Prop} {R S : Arg (Fl ℝ)} {f : Fl ℝ → Fl ℝ} (h : Img P R)
    (mono : ∀ a b, a ∈ₐ R → b ∈ₐ R → le a b = true → le (f a) (f b) = true)
    (hlo : S.lo = f R.lo) (hhi : S.hi = f R.hi) : Img (fun v => ∃ u, P u ∧ v = f u) S := by
  have l := lo_mem h.proper; have u := hi_mem h.proper
  have m := mono _ _ l u (proper_le h.proper)
  have pS : ProperA S := by
    cases S with
    | scalar s => change s = _ at hlo; change s = _ at hhi; rw [← hlo, ← hhi] at m; exact m
    | ivl s => change s.lo = _ at hlo; change s.hi = _ at hhi; rw [← hlo, ← hhi] at m; exact m
  refine ⟨pS, ?_, ⟨_, h.lo, hlo⟩, ⟨_, h.hi, hhi⟩⟩
  rintro v ⟨w, hw, rfl⟩
  have hm := h.mem w hw
  have hb := mem_bounds.mp hm
  rw [mem_bounds, hlo, hhi]
  exact ⟨mono _ _ l hm hb.1, mono _ _ hm u hb.2⟩

theorem cmax_zero_mono {a b : Fl ℝ} (h : le a b = true) : le (cmax (.num 0) a) (cmax (.num 0) b) = true := by
  have z0 : le (Fl.num (0:ℝ)) (.num 0) = true := by simp
  unfold cmax; split <;> split <;> grind

theorem max0A_img (dbg : Bool) {X : Arg (Fl ℝ)} (hX : ProperA X) :
    ∃ S, max0A dbg X = .ok S ∧ Img (fun v => ∃ x, x ∈ₐ X ∧ v = cmax (.num 0) x) S := by
  cases X with
  | scalar x => exact ⟨_, rfl, (Img.self hX).map (fun a b _ _ h => cmax_zero_mono h) rfl rfl⟩
  | ivl x =>
    have := make_ok_of_le (cmax_zero_mono (show le x.lo x.hi = true from hX))
    refine ⟨.ivl ⟨_, _⟩, ?_, (Img.self hX).map (fun a b _ _ h => cmax_zero_mono h) rfl rfl⟩
    simp only [max0A, maxI, assigned_of_proper hX]
    simp only [Arg.assigned, Bool.and_self, expectsDebug_true, ok_bind, Arg.lo, Arg.hi, this]; rfl

theorem logA_img (dbg : Bool) {P : Fl ℝ → Prop} {X : Arg (Fl ℝ)} (h : Img P X) (h0 : Nonneg X.lo) :
    ∃ S, logA dbg X = .ok S ∧ Img (fun v => ∃ u, P u ∧ v = Libm.log u) S := by
  have nn : ∀ a, a ∈ₐ X → Nonneg a := fun a ha => CppOrder.le_trans _ _ _ h0 (mem_bounds.mp ha).1
  have mono : ∀ a b, a ∈ₐ X → b ∈ₐ X → le a b = true → le (Libm.log a : Fl ℝ) (Libm.log b) = true := fun a b ha hb hab =>
    log_mono a b (nn a ha) (nn b hb) hab
  have e : ∀ a, a ∈ₐ X → logS dbg a = .ok (Libm.log a) := fun a ha => by
    unfold logS; rw [show ge a (.num 0) = true from nn a ha, expectsDebug_true]; rfl
  have l := lo_mem h.proper; have u := hi_mem h.proper
  cases X with
  | scalar x =>
    refine ⟨_, ?_, h.map mono (S := .scalar (Libm.log x)) rfl rfl⟩
    simp only [logA]; rw [e x l]; rfl
  | ivl x =>
    have := make_ok_of_le (mono _ _ l u h.proper)
    refine ⟨_, ?_, h.map mono (S := .ivl ⟨Libm.log x.lo, Libm.log x.hi⟩) rfl rfl⟩
    simp only [logA, logI, show x.assigned = true from assigned_of_proper (X := .ivl x) h.proper]
    rw [expectsDebug_true, ok_bind, show logS dbg x.lo = _ from e _ l, ok_bind, show logS dbg x.hi = _ from e _ u, ok_bind]
    rw [show Ivl.make (Libm.log x.lo) (Libm.log x.hi) = _ from this]; rfl

theorem expA_img (dbg : Bool) {P : Fl ℝ → Prop} {X : Arg (Fl ℝ)} (h : Img P X) :
    ∃ S, expA dbg X = .ok S ∧ Img (fun v => ∃ u, P u ∧ v = Libm.exp u) S := by
  have mono : ∀ a b, a ∈ₐ X → b ∈ₐ X → le a b = true → le (Libm.exp a : Fl ℝ) (Libm.exp b) = true := fun a b _ _ hab =>
    exp_mono a b trivial trivial hab
  have l := lo_mem h.proper; have u := hi_mem h.proper
  cases X with
  | scalar x => exact ⟨_, rfl, h.map mono (S := .scalar (Libm.exp x)) rfl rfl⟩
  | ivl x =>
    have := make_ok_of_le (mono _ _ l u h.proper)
    refine ⟨_, ?_, h.map mono (S := .ivl ⟨Libm.exp x.lo, Libm.exp x.hi⟩) rfl rfl⟩
    simp only [expA, expI, show x.assigned = true from assigned_of_proper (X := .ivl x) h.proper]
    rw [expectsDebug_true, ok_bind, show Ivl.make (Libm.exp x.lo) (Libm.exp x.hi) = _ from this]; rfl

/-! ## `_multiply_0` -/
theorem isNan_false {a : Fl ℝ} (h : a ≠ .nan) : isNan a = false := by cases a <;> simp_all [isNan]

theorem is_multiply0 {y l : Fl ℝ} {k m : ℝ} (hy : Is y k) (hl : Is l m) : Is (multiply0 y l) (k * m) := by
  have h := hy.mul hl
  unfold multiply0
  simpa [isNan_false h.ne_nan] using h

theorem multiply0_ninf {y : Fl ℝ} {k : ℝ} (hy : Is y k) :
    (k = 0 → multiply0 y .ninf = .num 0) ∧ (0 < k → multiply0 y .ninf = .ninf) ∧ (k < 0 → multiply0 y .ninf = .pinf) := by
  obtain ⟨h1, h2⟩ := hy
  cases y <;> simp [isFinite] at h1 <;> simp [val] at h2 <;> subst h2
  · refine ⟨fun _ => ?_, fun h => absurd h (lt_irrefl _), fun h => absurd h (lt_irrefl _)⟩
    simp [multiply0, Fl.mul, isNan, isInf, isZero, CppVal.eq, ext]
  · refine ⟨fun h => ?_, fun h => ?_, fun h => ?_⟩
    · simp [multiply0, Fl.mul, isNan, isInf, isZero, CppVal.eq, ext, h]
    · simp [multiply0, Fl.mul, isNan, isInf, isZero, h.ne', signBit, infS, h.le]
    · simp [multiply0, Fl.mul, isNan, isInf, isZero, h.ne, signBit, infS, h]

/-- `log` of a finite number: not NaN, not `+inf` -/
def LogVal (l : Fl ℝ) : Prop := l = .ninf ∨ isFinite l = true

theorem mul0_mono_l {y l l' : Fl ℝ} {k : ℝ} (hy : Is y k) (hl : LogVal l) (hl' : LogVal l') (h : le l l' = true) :
    (0 ≤ k → le (multiply0 y l) (multiply0 y l') = true) ∧ (k ≤ 0 → le (multiply0 y l') (multiply0 y l) = true) := by
  obtain ⟨z, p, n⟩ := multiply0_ninf hy
  rcases hl with rfl | hl <;> rcases hl' with rfl | hl'
  · rcases lt_trichotomy k 0 with c | c | c
    · rw [n c]; simp
    · rw [z c]; simp
    · rw [p c]; simp
  · have m := is_multiply0 hy (Is.of_finite hl')
    have nn : le (multiply0 y l') (multiply0 y l') = true := (m.le_iff m).mpr le_rfl
    have t := CppLawfulLimits.le_top _ nn; have b := CppLawfulLimits.bot_le _ nn
    rcases lt_trichotomy k 0 with c | c | c
    · rw [n c]; exact ⟨fun h => absurd h (not_le.mpr c), fun _ => t⟩
    · rw [z c]; subst c
      rw [zero_mul] at m
      exact ⟨fun _ => ((Is.num 0).le_iff m).mpr le_rfl, fun _ => (m.le_iff (Is.num 0)).mpr le_rfl⟩
    · rw [p c]; exact ⟨fun _ => b, fun h => absurd h (not_le.mpr c)⟩
  · cases l <;> simp [isFinite] at hl h
  · have a := Is.of_finite hl; have a' := Is.of_finite hl'
    have hv := (a.le_iff a').mp h
    have m := is_multiply0 hy a; have m' := is_multiply0 hy a'
    rw [m.le_iff m', m'.le_iff m]
    exact ⟨fun hk => mul_le_mul_of_nonneg_left hv hk, fun hk => mul_le_mul_of_nonpos_left hv hk⟩

theorem mul0_mono_y {y y' l : Fl ℝ} {k k' : ℝ} (hy : Is y k) (hy' : Is y' k') (h : k ≤ k') :
    (isFinite l = true → 0 ≤ l.val → le (multiply0 y l) (multiply0 y' l) = true) ∧
    (LogVal l → l = .ninf ∨ l.val ≤ 0 → le (multiply0 y' l) (multiply0 y l) = true) := by
  constructor
  · intro fl hl
    have a := Is.of_finite fl
    rw [(is_multiply0 hy a).le_iff (is_multiply0 hy' a)]
    exact mul_le_mul_of_nonneg_right h hl
  · rintro hl hs
    rcases hl with rfl | fl
    · obtain ⟨z, p, n⟩ := multiply0_ninf hy
      obtain ⟨z', p', n'⟩ := multiply0_ninf hy'
      rcases lt_trichotomy k 0 with c | c | c <;> rcases lt_trichotomy k' 0 with c' | c' | c' <;>
        first
        | (exfalso; linarith)
        | (simp [n, z, p, n', z', p', c, c'])
    · rcases hs with rfl | hs
      · simp [isFinite] at fl
      · have a := Is.of_finite fl
        rw [(is_multiply0 hy' a).le_iff (is_multiply0 hy a)]
        exact mul_le_mul_of_nonpos_right h hs

theorem betw_cases {u v w : Fl ℝ} (h : (le u w = true ∧ le w v = true) ∨ (le v w = true ∧ le w u = true)) : Betw u v w := by
  unfold Betw; rcases h with h | h <;> grind

theorem multiply0A_img {P : Fl ℝ → Prop} {Y L : Arg (Fl ℝ)} (hY : FiniteA Y) (h : Img P L) (hL : ∀ l, l ∈ₐ L → LogVal l) :
    ∃ S, multiply0A Y L = .ok S ∧ Img (fun v => ∃ y l, y ∈ₐ Y ∧ P l ∧ v = multiply0 y l) S := by
  have fin : ∀ {y}, y ∈ₐ Y → Is y y.val := fun {y} hy =>
    Is.of_finite (finite_of_between hY.1 hY.2.1 (mem_bounds.mp hy).1 (mem_bounds.mp hy).2)
  have yl := lo_mem hY.2.2; have yh := hi_mem hY.2.2; have ll := lo_mem h.proper; have lh := hi_mem h.proper
  have nn : ∀ {y l}, y ∈ₐ Y → l ∈ₐ L → NotNan (multiply0 y l) := fun {y l} hy hl => by
    have hll := hL l hl
    have := mul0_mono_l (fin hy) hll hll (by have := mem_bounds.mp hl; exact CppOrder.le_right _ _ this.1)
    rcases le_total 0 y.val with c | c
    · exact this.1 c
    · exact this.2 c
  have betwL : ∀ y l, y ∈ₐ Y → l ∈ₐ L → Betw (multiply0 y L.lo) (multiply0 y L.hi) (multiply0 y l) := by
    intro y l hy hl
    have hb := mem_bounds.mp hl
    have m1 := mul0_mono_l (fin hy) (hL _ ll) (hL _ hl) hb.1
    have m2 := mul0_mono_l (fin hy) (hL _ hl) (hL _ lh) hb.2
    apply betw_cases
    rcases le_total 0 y.val with c | c
    · exact .inl ⟨m1.1 c, m2.1 c⟩
    · exact .inr ⟨m2.2 c, m1.2 c⟩
  have betwY : ∀ y l, y ∈ₐ Y → l ∈ₐ L → Betw (multiply0 Y.lo l) (multiply0 Y.hi l) (multiply0 y l) := by
    intro y l hy hl
    have hb := mem_bounds.mp hy
    have m1 := mul0_mono_y (l := l) (fin yl) (fin hy) (((fin yl).le_iff (fin hy)).mp hb.1)
    have m2 := mul0_mono_y (l := l) (fin hy) (fin yh) (((fin hy).le_iff (fin yh)).mp hb.2)
    apply betw_cases
    rcases hL l hl with c | c
    · exact .inr ⟨m2.2 (.inl c) (.inl c), m1.2 (.inl c) (.inl c)⟩
    · rcases le_total 0 l.val with d | d
      · exact .inl ⟨m1.1 c d, m2.1 c d⟩
      · exact .inr ⟨m2.2 (.inr c) (.inr d), m1.2 (.inr c) (.inr d)⟩
  have incl : ∀ {R : Ivl (Fl ℝ)}, HullOf (corners multiply0 Y L) R → Img (fun v => ∃ y l, y ∈ₐ Y ∧ P l ∧ v = multiply0 y l) (.ivl R) := by
    intro R hR
    have hi : ∀ v, (∃ y l, y ∈ₐ Y ∧ P l ∧ v = multiply0 y l) → v ∈ᵢ R := by
      rintro v ⟨y, l, hy, hl, rfl⟩
      have hl := h.mem l hl
      exact corner_incl hR (betwY y l hy hl) (betwL _ l yl hl) (betwL _ l yh hl)
    have c1 := hR.1; have c2 := hR.2.1
    simp only [corners, List.mem_cons, List.not_mem_nil, or_false] at c1 c2
    have at1 : ∃ y l, y ∈ₐ Y ∧ P l ∧ R.lo = multiply0 y l := by
      rcases c1 with e | e | e | e
      exacts [⟨_, _, yl, h.lo, e⟩, ⟨_, _, yl, h.hi, e⟩, ⟨_, _, yh, h.lo, e⟩, ⟨_, _, yh, h.hi, e⟩]
    have at2 : ∃ y l, y ∈ₐ Y ∧ P l ∧ R.hi = multiply0 y l := by
      rcases c2 with e | e | e | e
      exacts [⟨_, _, yl, h.lo, e⟩, ⟨_, _, yl, h.hi, e⟩, ⟨_, _, yh, h.lo, e⟩, ⟨_, _, yh, h.hi, e⟩]
    exact ⟨(hi _ at1).2, hi, at1, at2⟩
  cases Y with
  | scalar y =>
    cases L with
    | scalar l =>
      refine ⟨_, rfl, ⟨nn yl ll, ?_, ⟨_, _, yl, h.lo, rfl⟩, ⟨_, _, yl, h.lo, rfl⟩⟩⟩
      rintro v ⟨y', l', hy', hl', rfl⟩
      have hl' := h.mem _ hl'
      have b1 := betwY y' l' hy' hl'
      have b2 := betwL y l' yl hl'
      simp only [Arg.lo, Arg.hi] at b1 b2
      have n := nn yl ll
      simp only [Arg.lo, NotNan] at n
      unfold Betw at b1 b2
      simp only [PtA, or_self] at b1 b2 ⊢
      exact ⟨CppOrder.le_trans _ _ _ b2.1 b1.1, CppOrder.le_trans _ _ _ b1.2 b2.2⟩
    | ivl l =>
      obtain ⟨R, e, hR⟩ := hull2_ok (nn yl ll) (nn yl lh)
      refine ⟨.ivl R, ?_, incl (hR.congr ?_)⟩
      · simp only [multiply0A]; rw [show hull2 (multiply0 y l.lo) (multiply0 y l.hi) = _ from e]; rfl
      · intro c; simp [corners, Arg.lo, Arg.hi]; tauto
  | ivl y =>
    cases L with
    | scalar l =>
      obtain ⟨R, e, hR⟩ := hull2_ok (nn yl ll) (nn yh ll)
      refine ⟨.ivl R, ?_, incl (hR.congr ?_)⟩
      · simp only [multiply0A]; rw [show hull2 (multiply0 y.lo l) (multiply0 y.hi l) = _ from e]; rfl
      · intro c; simp [corners, Arg.lo, Arg.hi]
    | ivl l =>
      obtain ⟨R, e, hR⟩ := hull4_ok (nn yl ll) (nn yl lh) (nn yh ll) (nn yh lh)
      refine ⟨.ivl R, ?_, incl hR⟩
      simp only [multiply0A]
      rw [show hull4 (multiply0 y.lo l.lo) (multiply0 y.lo l.hi) (multiply0 y.hi l.lo) (multiply0 y.hi l.hi) = _ from e]; rfl

/-! ## The power of non-negative numbers -/
/-- the power as computed on points -/
noncomputable def powC (x y : Fl ℝ) : Fl ℝ := Libm.exp (multiply0 y (Libm.log (cmax (.num 0) x)))

theorem log_logVal {a : Fl ℝ} {k : ℝ} (h : Is a k) (hk : 0 ≤ k) : LogVal (Libm.log a) := by
  obtain ⟨h1, h2⟩ := h
  cases a <;> simp [isFinite] at h1 <;> simp [val] at h2 <;> subst h2
  · exact .inl rfl
  · next k =>
    by_cases h0 : k = 0
    · exact .inl (by simp [Libm.log, h0])
    · exact .inr (by simp [Libm.log, h0, not_lt.mpr hk, isFinite, Fmt.rnd])

theorem powPos_img (dbg : Bool) {X Y : Arg (Fl ℝ)} (hX : FiniteA X) (hY : FiniteA Y) :
    ∃ S, (∀ {α : Type} (f : Arg (Fl ℝ) → Outcome α), (max0A dbg X >>= fun m => logA dbg m >>= fun l => multiply0A Y l >>= fun p => expA dbg p >>= f) = f S) ∧
      Img (fun v => ∃ x y, x ∈ₐ X ∧ y ∈ₐ Y ∧ v = powC x y) S := by
  have fin : ∀ {x}, x ∈ₐ X → Is x x.val := fun {x} hx =>
    Is.of_finite (finite_of_between hX.1 hX.2.1 (mem_bounds.mp hx).1 (mem_bounds.mp hx).2)
  obtain ⟨S0, e0, i0⟩ := max0A_img dbg hX.2.2
  have n0 : ∀ s, s ∈ₐ S0 → ∃ k, Is s k ∧ 0 ≤ k := by
    intro s hs
    obtain ⟨x, hx, ex⟩ := i0.lo
    obtain ⟨x', hx', ex'⟩ := i0.hi
    have hb := mem_bounds.mp hs
    rw [ex, ex'] at hb
    have a := (Is.num 0).cmax (fin hx); have a' := (Is.num 0).cmax (fin hx')
    have f := Is.of_finite (finite_of_between a.1 a'.1 hb.1 hb.2)
    exact ⟨_, f, (le_max_left _ _).trans ((a.le_iff f).mp hb.1)⟩
  obtain ⟨k0, hk0, hp0⟩ := n0 _ (lo_mem i0.proper)
  obtain ⟨S1, e1, i1⟩ := logA_img dbg i0 (((Is.num 0).le_iff hk0).mpr hp0)
  have n1 : ∀ l, l ∈ₐ S1 → LogVal l := by
    intro l hl
    obtain ⟨u, hu, eu⟩ := i1.hi
    obtain ⟨k, hk, hp⟩ := n0 u (i0.mem u hu)
    have hb := mem_bounds.mp hl
    rw [eu] at hb
    rcases log_logVal hk hp with c | c
    · rw [c] at hb; cases l <;> simp at hb; exact .inl rfl
    · revert c hb; generalize Libm.log u = w; intro hb c
      cases l <;> cases w <;> simp [isFinite] at c hb <;> simp [LogVal, isFinite]
  obtain ⟨S2, e2, i2⟩ := multiply0A_img hY i1 n1
  obtain ⟨S3, e3, i3⟩ := expA_img dbg i2
  refine ⟨S3, fun f => by rw [e0, ok_bind, e1, ok_bind, e2, ok_bind, e3, ok_bind], i3.proper, ?_, ?_, ?_⟩
  · rintro v ⟨x, y, hx, hy, rfl⟩
    exact i3.mem _ ⟨_, ⟨y, _, hy, ⟨_, ⟨x, hx, rfl⟩, rfl⟩, rfl⟩, rfl⟩
  · obtain ⟨_, ⟨y, _, hy, ⟨_, ⟨x, hx, rfl⟩, rfl⟩, rfl⟩, e⟩ := i3.lo
    exact ⟨x, y, hx, hy, e⟩
  · obtain ⟨_, ⟨y, _, hy, ⟨_, ⟨x, hx, rfl⟩, rfl⟩, rfl⟩, e⟩ := i3.hi
    exact ⟨x, y, hx, hy, e⟩

/-- Specification: the power of a non-negative base; `0 ^ y = +inf` for negative `y`. -/
noncomputable def powSpec (x y : ℝ) : Fl ℝ := if x = 0 ∧ y < 0 then .pinf else .num (x ^ y)

theorem powC_eq {x y : Fl ℝ} {k m : ℝ} (hx : Is x k) (hy : Is y m) : ext (powC x y) = ext (powSpec (max 0 k) m) := by
  have hc := (Is.num 0).cmax hx
  unfold powC
  set c := cmax (Fl.num 0) x
  have hk : 0 ≤ max 0 k := le_max_left _ _
  set k' := max 0 k
  by_cases h0 : k' = 0
  · have el : Libm.log c = (.ninf : Fl ℝ) := by
      obtain ⟨h1, h2⟩ := hc
      generalize c = c at *
      rw [h0] at h2
      cases c <;> simp [isFinite] at h1 <;> simp [val] at h2
      · rfl
      · simp [Libm.log, h2]
    rw [el]
    obtain ⟨z, p, n⟩ := multiply0_ninf hy
    unfold powSpec
    rcases lt_trichotomy m 0 with d | d | d
    · rw [n d, if_pos ⟨h0, d⟩]; rfl
    · rw [z d, h0, d]; simp [Libm.exp, Real.exp_zero, Fmt.rnd]
    · rw [p d, if_neg (fun h => absurd h.2 d.not_gt), h0, Real.zero_rpow d.ne']; rfl
  · have hp : 0 < k' := lt_of_le_of_ne hk (Ne.symm h0)
    have el : Is (Libm.log c : Fl ℝ) (Real.log k') := by
      obtain ⟨h1, h2⟩ := hc
      generalize c = c at *
      cases c <;> simp [isFinite] at h1 <;> simp [val] at h2
      · exact absurd h2.symm h0
      · subst h2; simp only [Libm.log, if_neg hp.not_gt, if_neg h0]; exact Is.num _
    have em := is_multiply0 hy el
    have ee : Is (Libm.exp (multiply0 y (Libm.log c)) : Fl ℝ) (Real.exp (m * Real.log k')) := by
      obtain ⟨h1, h2⟩ := em
      revert h1 h2; generalize multiply0 y (Libm.log c) = p; intro h1 h2
      cases p <;> simp [isFinite] at h1 <;> simp only [val] at h2 <;> rw [← h2]
      · rw [Real.exp_zero]; exact Is.num _
      · exact Is.num _
    rw [is_iff_ext.mp ee, powSpec, if_neg (fun h => h0 h.1), Real.rpow_def_of_pos hp, mul_comm]

theorem possibly_geA (dbg : Bool) {X : Arg (Fl ℝ)} (h : FiniteA X) :
    ∃ R, geA dbg X zeroA = .ok R ∧ BoolSet.possibly R = decide (0 ≤ X.hi.val) := by
  have hi := Is.of_finite h.2.1
  cases X with
  | scalar v =>
    refine ⟨_, rfl, ?_⟩
    rw [show CppVal.ge v (Fl.num 0) = decide (0 ≤ v.val) from (Is.num 0).le_eq hi]
    by_cases h0 : (0:ℝ) ≤ v.val <;> simp [h0, Arg.hi] <;> decide
  | ivl x =>
    refine ⟨compareLeq zeroA (.ivl x), ?_, ?_⟩
    · simp only [geA, opGe, zeroA, assigned_of_proper h.2.2]; simp [Arg.assigned]
    · have e1 : CppVal.le (zeroA : Arg (Fl ℝ)).lo (Arg.ivl x).hi = decide (0 ≤ (Arg.ivl x).hi.val) := (Is.num 0).le_eq hi
      simp only [compareLeq, e1]
      generalize CppVal.gt (zeroA : Arg (Fl ℝ)).hi (Arg.ivl x).lo = b
      by_cases h0 : 0 ≤ (Arg.ivl x).hi.val <;> cases b <;> simp [h0] <;> decide

theorem possibly_ltA (dbg : Bool) {X : Arg (Fl ℝ)} (h : FiniteA X) :
    ∃ R, ltA dbg X zeroA = .ok R ∧ BoolSet.possibly R = decide (X.lo.val < 0) := by
  have lo := Is.of_finite h.1
  cases X with
  | scalar v =>
    refine ⟨_, rfl, ?_⟩
    rw [show CppVal.lt v (Fl.num 0) = decide (v.val < 0) from lo.lt_eq (Is.num 0)]
    by_cases h0 : v.val < 0 <;> simp [h0, Arg.lo] <;> decide
  | ivl x =>
    refine ⟨compareLt (.ivl x) zeroA, ?_, ?_⟩
    · simp only [ltA, opLt, zeroA, assigned_of_proper h.2.2]; simp [Arg.assigned]
    · have e1 : CppVal.lt (Arg.ivl x).lo (zeroA : Arg (Fl ℝ)).hi = decide ((Arg.ivl x).lo.val < 0) := lo.lt_eq (Is.num 0)
      simp only [compareLt, e1]
      generalize CppVal.ge (Arg.ivl x).hi (zeroA : Arg (Fl ℝ)).lo = b
      by_cases h0 : (Arg.ivl x).lo.val < 0 <;> cases b <;> simp [h0] <;> decide

theorem assignA_ok {r : Ivl (Fl ℝ)} {S : Arg (Fl ℝ)} (h : ProperA S) : assignA r S = .ok (Ivl.assignCore r S.lo S.hi) := by
  cases S with
  | scalar v => rfl
  | ivl x => simp only [assignA, Ivl.assign, show x.assigned = true from assigned_of_proper (X := .ivl x) h]; rfl

theorem assignCore_unassigned {l u : Fl ℝ} (h : le l u = true) : Ivl.assignCore Ivl.unassigned l u = ⟨l, u⟩ := by
  have h1 : cmin (CppLimits.top : Fl ℝ) l = l := by
    unfold cmin
    split
    · rfl
    · next hc =>
      have nl := CppOrder.le_left _ _ h
      have : le (CppLimits.top : Fl ℝ) l = true := by
        have t : le (CppLimits.top : Fl ℝ) CppLimits.top = true := by simp [CppLimits.top]
        grind
      cases l <;> simp [CppLimits.top] at this; rfl
  have h2 : cmax (CppLimits.bot : Fl ℝ) u = u := by
    unfold cmax
    split
    · rfl
    · next hc =>
      have nu := CppOrder.le_right _ _ h
      have : le u (CppLimits.bot : Fl ℝ) = true := by
        have t : le (CppLimits.bot : Fl ℝ) CppLimits.bot = true := by simp [CppLimits.bot]
        grind
      cases u <;> simp [CppLimits.bot] at this; rfl
  simp only [Ivl.assignCore, Ivl.unassigned, h1, h2]

theorem finite_mem {Z : Arg (Fl ℝ)} {z : Fl ℝ} (hZ : FiniteA Z) (hz : z ∈ₐ Z) : Is z z.val ∧ .num z.val ∈ₐ Z := by
  rw [mem_bounds] at hz
  have f := Is.of_finite (finite_of_between hZ.1 hZ.2.1 hz.1 hz.2)
  refine ⟨f, mem_bounds.mpr ⟨?_, ?_⟩⟩
  · rw [le_of_ext rfl (ext_of_finite f.1).symm]; exact hz.1
  · rw [le_of_ext (ext_of_finite f.1).symm rfl]; exact hz.2

theorem eq_of_ext {a b c : Fl ℝ} (h : a = b) (hb : ext b = ext c) (hn : c ≠ .nan) : eq a c = true := by
  rw [Fl.eq_iff, h, hb]
  cases c <;> simp [ext] at hn ⊢

theorem mem_of_ext {a b : Fl ℝ} {R : Ivl (Fl ℝ)} (h : ext a = ext b) (ha : a ∈ᵢ R) : b ∈ᵢ R :=
  ⟨by rw [le_of_ext rfl h.symm]; exact ha.1, by rw [le_of_ext h.symm rfl]; exact ha.2⟩

theorem powSpec_ne_nan (x y : ℝ) : powSpec x y ≠ .nan := by unfold powSpec; split <;> simp

/-- C41 for a non-negative base: `pow(X, Y)` is the exact range of `x ^ y`. -/
theorem C41_nonneg (dbg : Bool) (X Y : Arg (Fl ℝ)) (hX : FiniteA X) (hY : FiniteA Y) (pos : ∀ x : ℝ, .num x ∈ₐ X → 0 ≤ x) :
    ∃ R, powI dbg X Y = .ok R ∧ (∀ x y : ℝ, .num x ∈ₐ X → .num y ∈ₐ Y → powSpec x y ∈ᵢ R) ∧
      (∃ x y : ℝ, .num x ∈ₐ X ∧ .num y ∈ₐ Y ∧ eq R.lo (powSpec x y) = true) ∧
      (∃ x y : ℝ, .num x ∈ₐ X ∧ .num y ∈ₐ Y ∧ eq R.hi (powSpec x y) = true) := by
  obtain ⟨S, eS, iS⟩ := powPos_img dbg hX hY
  have l0 : 0 ≤ X.lo.val := pos _ (finite_mem hX (lo_mem hX.2.2)).2
  have h0 : 0 ≤ X.hi.val := pos _ (finite_mem hX (hi_mem hX.2.2)).2
  obtain ⟨G, eG, hG⟩ := possibly_geA dbg hX
  obtain ⟨L, eL, hL⟩ := possibly_ltA dbg hX
  have spec : ∀ {x y}, x ∈ₐ X → y ∈ₐ Y → ext (powC x y) = ext (powSpec x.val y.val) := fun {x y} hx hy => by
    rw [powC_eq (finite_mem hX hx).1 (finite_mem hY hy).1, max_eq_right (pos _ (finite_mem hX hx).2)]
  refine ⟨⟨S.lo, S.hi⟩, ?_, ?_, ?_, ?_⟩
  · unfold powI
    rw [assigned_of_proper hX.2.2, assigned_of_proper hY.2.2, Bool.and_self, expectsDebug_true, ok_bind, eG, ok_bind, hG, eL]
    simp only [h0, decide_true, if_true, ok_bind, hL, not_lt.mpr l0, decide_false, Bool.false_eq_true, if_false]
    rw [eS, assignA_ok iS.proper, assignCore_unassigned (proper_le iS.proper)]; rfl
  · intro x y hx hy
    exact mem_of_ext (spec hx hy) (mem_bounds.mp (iS.mem _ ⟨_, _, hx, hy, rfl⟩))
  · obtain ⟨x, y, hx, hy, e⟩ := iS.lo
    exact ⟨_, _, (finite_mem hX hx).2, (finite_mem hY hy).2, eq_of_ext e (spec hx hy) (powSpec_ne_nan _ _)⟩
  · obtain ⟨x, y, hx, hy, e⟩ := iS.hi
    exact ⟨_, _, (finite_mem hX hx).2, (finite_mem hY hy).2, eq_of_ext e (spec hx hy) (powSpec_ne_nan _ _)⟩

/-! ## Negative bases -/
/-- Specification: the integer power of a non-positive base, as for `-0` at zero. -/
noncomputable def powNegSpec (x : ℝ) (n : ℤ) : Fl ℝ := if x = 0 ∧ n < 0 then (if n % 2 = 0 then .pinf else .ninf) else .num (x ^ n)

theorem negA_img (dbg : Bool) {X : Arg (Fl ℝ)} (hX : FiniteA X) :
    ∃ S, negA dbg X = .ok S ∧ FiniteA S ∧ ∀ x : ℝ, .num x ∈ₐ S ↔ .num (-x) ∈ₐ X := by
  have lo := Is.of_finite hX.1; have hi := Is.of_finite hX.2.1
  have hle := (lo.le_iff hi).mp (proper_le hX.2.2)
  have key : ∀ S : Arg (Fl ℝ), S.lo = Fl.neg X.hi → S.hi = Fl.neg X.lo → ProperA S → FiniteA S ∧ ∀ x : ℝ, .num x ∈ₐ S ↔ .num (-x) ∈ₐ X := by
    intro S h1 h2 h3
    refine ⟨⟨by rw [h1]; exact hi.neg.1, by rw [h2]; exact lo.neg.1, h3⟩, fun x => ?_⟩
    rw [mem_bounds, mem_bounds, h1, h2, hi.neg.le_iff (Is.num x), (Is.num x).le_iff lo.neg, lo.le_iff (Is.num _), (Is.num _).le_iff hi]
    constructor <;> rintro ⟨a, b⟩ <;> constructor <;> linarith
  cases X with
  | scalar v =>
    exact ⟨_, rfl, key (.scalar (Fl.neg v)) rfl rfl ((lo.neg.le_iff lo.neg).mpr le_rfl)⟩
  | ivl x =>
    have m : le (Fl.neg x.hi) (Fl.neg x.lo) = true := (hi.neg.le_iff lo.neg).mpr (neg_le_neg hle)
    refine ⟨.ivl ⟨Fl.neg x.hi, Fl.neg x.lo⟩, ?_, key _ rfl rfl m⟩
    simp only [negA, negI, show x.assigned = true from assigned_of_proper (X := .ivl x) hX.2.2, expectsDebug_true, ok_bind, CppNum.neg]
    rw [make_ok_of_le m]; rfl

/-- `±1 * v` -/
theorem mul_one_eq {v : Fl ℝ} (_ : v ≠ .nan) : ext (Fl.mul (.num 1) v) = ext v := by
  cases v with
  | nan => contradiction
  | num k =>
    rw [ext_mul rfl rfl]; simp [val, Fmt.rnd]
  | nzero => rw [ext_mul rfl rfl]; simp [val, Fmt.rnd, ext]
  | _ => simp [Fl.mul, isNan, isInf, isZero, signBit, infS, zero_lt_one.not_gt]
theorem mul_neg_one_eq {v : Fl ℝ} (_ : v ≠ .nan) : ext (Fl.mul (.num (-1)) v) = ext (Fl.neg v) := by
  cases v with
  | nan => contradiction
  | num k =>
    rw [ext_mul rfl rfl]; simp only [val, Fmt.rnd, Fl.neg]; split <;> simp_all [ext]
  | nzero => rw [ext_mul rfl rfl]; simp [val, Fmt.rnd, Fl.neg]
  | _ => simp [Fl.mul, isNan, isInf, isZero, signBit, infS, Fl.neg]

theorem signMulA_img (dbg : Bool) {P : Fl ℝ → Prop} {R : Arg (Fl ℝ)} (h : Img P R) {s : Fl ℝ} (hs : s = .num 1 ∨ s = .num (-1)) :
    ∃ S, signMulA dbg s R = .ok S ∧ Img (fun v => ∃ u, P u ∧ v = Fl.mul s u) S := by
  have nn : ∀ {u}, u ∈ₐ R → u ≠ .nan := by
    rintro u hu rfl; rw [mem_bounds] at hu; simp at hu
  have l := lo_mem h.proper; have r := hi_mem h.proper
  have dir : (∀ a b, a ∈ₐ R → b ∈ₐ R → le a b = true → le (Fl.mul s a) (Fl.mul s b) = true) ∨
      (∀ a b, a ∈ₐ R → b ∈ₐ R → le a b = true → le (Fl.mul s b) (Fl.mul s a) = true) := by
    rcases hs with rfl | rfl
    · exact .inl fun a b ha hb hab => by rw [le_of_ext (mul_one_eq (nn ha)) (mul_one_eq (nn hb))]; exact hab
    · exact .inr fun a b ha hb hab => by rw [le_of_ext (mul_neg_one_eq (nn hb)) (mul_neg_one_eq (nn ha))]; exact Fl.neg_anti hab
  have sn : ∀ a, a ∈ₐ R → NotNan (Fl.mul s a) := fun a ha => by
    have := notNan_iff.mpr (nn ha)
    rcases dir with d | d
    · exact d a a ha ha this
    · exact d a a ha ha this
  have betw : ∀ a, a ∈ₐ R → Betw (Fl.mul s R.lo) (Fl.mul s R.hi) (Fl.mul s a) := by
    intro a ha
    have hb := mem_bounds.mp ha
    apply betw_cases
    rcases dir with d | d
    · exact .inl ⟨d _ _ l ha hb.1, d _ _ ha r hb.2⟩
    · exact .inr ⟨d _ _ ha r hb.2, d _ _ l ha hb.1⟩
  cases R with
  | scalar v =>
    refine ⟨_, rfl, ⟨sn v l, ?_, ⟨_, h.lo, rfl⟩, ⟨_, h.lo, rfl⟩⟩⟩
    rintro w ⟨u, hu, rfl⟩
    have := betw u (h.mem u hu)
    simpa [Betw, Arg.lo, Arg.hi, PtA] using this
  | ivl x =>
    obtain ⟨Q, e, hQ⟩ := hull2_ok (sn _ l) (sn _ r)
    have hc := hQ.2.2
    have q1 := hQ.1; have q2 := hQ.2.1
    simp only [List.mem_cons, List.not_mem_nil, or_false, forall_eq_or_imp, forall_eq] at hc q1 q2
    have hi : ∀ v, (∃ u, P u ∧ v = Fl.mul s u) → v ∈ᵢ Q := by
      rintro v ⟨u, hu, rfl⟩
      have := betw u (h.mem u hu)
      obtain ⟨t1, t2⟩ := this
      refine ⟨?_, ?_⟩
      · rcases t1 with t | t
        exacts [CppOrder.le_trans _ _ _ hc.1.1 t, CppOrder.le_trans _ _ _ hc.2.1 t]
      · rcases t2 with t | t
        exacts [CppOrder.le_trans _ _ _ t hc.1.2, CppOrder.le_trans _ _ _ t hc.2.2]
    have a1 : ∃ u, P u ∧ Q.lo = Fl.mul s u := by
      rcases q1 with e | e
      exacts [⟨_, h.lo, e⟩, ⟨_, h.hi, e⟩]
    have a2 : ∃ u, P u ∧ Q.hi = Fl.mul s u := by
      rcases q2 with e | e
      exacts [⟨_, h.lo, e⟩, ⟨_, h.hi, e⟩]
    refine ⟨.ivl Q, ?_, ⟨(hi _ a1).2, hi, a1, a2⟩⟩
    have hz : isNegInf s = false ∧ isPosInf s = false ∧ eq s (.num 0) = false := by
      rcases hs with rfl | rfl
      · exact ⟨(isInf_false (Is.num 1)).1, (isInf_false (Is.num 1)).2, by rw [(Is.num (1:ℝ)).eq_eq (Is.num 0)]; simp⟩
      · exact ⟨(isInf_false (Is.num (-1))).1, (isInf_false (Is.num (-1))).2, by rw [(Is.num (-1:ℝ)).eq_eq (Is.num 0)]; simp⟩
    simp only [signMulA, mulI, assigned_of_proper (X := .ivl x) h.proper]
    have z : (CppNum.zero : Fl ℝ) = .num 0 := rfl
    simp only [Arg.assigned, Bool.and_self, expectsDebug_true, ok_bind, Arg.lo, Arg.hi, Arg.contains, z, hz.1, hz.2.1, hz.2.2, Bool.or_self, Bool.false_and,
      Bool.and_false, Bool.false_eq_true, if_false, CppNum.mul]
    rw [show hull2 (Fl.mul s x.lo) (Fl.mul s x.hi) = _ from e]; rfl

theorem neg_ext {a b : Fl ℝ} (h : ext a = ext b) : ext (Fl.neg a) = ext (Fl.neg b) := by
  cases a <;> cases b <;> simp [ext] at h <;> simp [Fl.neg, ext] <;> (try split) <;> (try split) <;> (try simp_all)
  · exact absurd h (by decide)
  · exact absurd h (by decide)

theorem powNeg_eq {x y : Fl ℝ} {j : ℝ} {n : ℤ} (hx : Is x j) (hy : Is y n) :
    ext (Fl.mul (if n % 2 = 0 then .num 1 else .num (-1)) (powC x y)) = ext (powNegSpec (-(max 0 j)) n) := by
  have e := powC_eq hx hy
  obtain ⟨k, hk⟩ : ∃ k, max 0 j = -k := ⟨-(max 0 j), (neg_neg _).symm⟩
  rw [hk] at e
  rw [hk, neg_neg]
  have hn : powC x y ≠ .nan := by
    intro hc
    rw [hc] at e
    have := powSpec_ne_nan (-k) n
    cases h : powSpec (-k) n <;> rw [h] at e <;> simp [ext] at e
    exact this h
  have c0 : (-k = 0 ∧ ((n:ℤ):ℝ) < 0) ↔ (k = 0 ∧ n < 0) := by
    rw [neg_eq_zero, Int.cast_lt_zero]
  unfold powNegSpec
  by_cases ev : n % 2 = 0
  · rw [if_pos ev, mul_one_eq hn, e, powSpec]
    by_cases h0 : k = 0 ∧ n < 0
    · rw [if_pos (c0.mpr h0), if_pos h0, if_pos ev]
    · rw [if_neg (fun h => h0 (c0.mp h)), if_neg h0, Real.rpow_intCast, (Int.even_iff.mpr ev).neg_zpow]
  · rw [if_neg ev, mul_neg_one_eq hn, neg_ext e, powSpec]
    by_cases h0 : k = 0 ∧ n < 0
    · rw [if_pos (c0.mpr h0), if_pos h0, if_neg ev]; rfl
    · rw [if_neg (fun h => h0 (c0.mp h)), if_neg h0, Real.rpow_intCast]
      have od : Odd n := Int.odd_iff.mpr (by omega)
      rw [od.neg_zpow]
      simp only [Fl.neg]; split
      · next h => rw [neg_eq_zero] at h; simp [h, ext]
      · simp

theorem powNegSpec_ne_nan (x : ℝ) (n : ℤ) : powNegSpec x n ≠ .nan := by unfold powNegSpec; split <;> (try split) <;> simp

theorem truncInt_int (n : ℤ) : truncInt (n : ℝ) = n := by
  unfold truncInt; split
  · rw [← Int.cast_neg, Int.floor_intCast, neg_neg]
  · exact Int.floor_intCast n

/-- conversion to `long long` of a finite number -/
theorem toLongLong_eq {a : Fl ℝ} {k : ℝ} (h : Is a k) :
    toLongLong a = if -2^63 ≤ truncInt k ∧ truncInt k < 2^63 then .ok (truncInt k) else .error .ub := by
  obtain ⟨h1, h2⟩ := h
  cases a <;> simp [isFinite] at h1 <;> simp only [val] at h2 <;> subst h2
  · have := truncInt_int 0
    rw [Int.cast_zero] at this
    rw [this, if_pos (by norm_num)]; rfl
  · rfl

/-- the part of `pow` for a base that may be negative, after the non-negative part -/
theorem powI_neg (dbg : Bool) {X Y : Arg (Fl ℝ)} (hX : FiniteA X) (hY : FiniteA Y) (hneg : X.lo.val < 0) :
    ∃ r : Ivl (Fl ℝ), ((0 ≤ X.hi.val → ∃ S, Img (fun v => ∃ x y, x ∈ₐ X ∧ y ∈ₐ Y ∧ v = powC x y) S ∧ r = ⟨S.lo, S.hi⟩) ∧
        (X.hi.val < 0 → r = Ivl.unassigned)) ∧
      powI dbg X Y = (do
        let yi ← toLongLong Y.lo
        if eq Y.lo Y.hi && eq (ofLongLong yi) Y.lo then
          let sign : Fl ℝ := if yi % 2 = 0 then .num 1 else .num (-1)
          assignA r (← signMulA dbg sign (← expA dbg (← multiply0A (.scalar Y.lo) (← logA dbg (← max0A dbg (← negA dbg X))))))
        else
          nanInterval) := by
  obtain ⟨S, eS, iS⟩ := powPos_img dbg hX hY
  obtain ⟨G, eG, hG⟩ := possibly_geA dbg hX
  obtain ⟨L, eL, hL⟩ := possibly_ltA dbg hX
  by_cases h0 : 0 ≤ X.hi.val
  · refine ⟨⟨S.lo, S.hi⟩, ⟨fun _ => ⟨S, iS, rfl⟩, fun h => absurd h0 (not_le.mpr h)⟩, ?_⟩
    unfold powI
    rw [assigned_of_proper hX.2.2, assigned_of_proper hY.2.2, Bool.and_self, expectsDebug_true, ok_bind, eG, ok_bind, hG, eL]
    simp only [h0, decide_true, if_true, ok_bind, hL, hneg]
    rw [eS, assignA_ok iS.proper, assignCore_unassigned (proper_le iS.proper)]; rfl
  · refine ⟨Ivl.unassigned, ⟨fun h => absurd h h0, fun _ => rfl⟩, ?_⟩
    unfold powI
    rw [assigned_of_proper hX.2.2, assigned_of_proper hY.2.2, Bool.and_self, expectsDebug_true, ok_bind, eG, ok_bind, hG, eL]
    simp only [h0, decide_true, decide_false, Bool.false_eq_true, if_false, if_true, ok_bind, hL, hneg, pure_bind]

/-- C41 for a base that may be negative and a single integer exponent `n` in the range of `long long`: `pow(X, n)` contains all powers `x ^ n`, and each
bound is one of them.  Missing from C41: exponents outside that range (`C41_violated`). -/
theorem C41_integer_partial (dbg : Bool) (X Y : Arg (Fl ℝ)) (hX : FiniteA X) (hY : FiniteA Y) (n : ℤ) (hn : -2^63 ≤ n ∧ n < 2^63)
    (single : ∀ y : ℝ, .num y ∈ₐ Y ↔ y = n) (neg : ∃ x : ℝ, .num x ∈ₐ X ∧ x < 0) :
    ∃ R, powI dbg X Y = .ok R ∧
      (∀ x : ℝ, .num x ∈ₐ X → (0 ≤ x → powSpec x n ∈ᵢ R) ∧ (x ≤ 0 → powNegSpec x n ∈ᵢ R)) ∧
      (∃ x : ℝ, .num x ∈ₐ X ∧ (0 ≤ x ∧ eq R.lo (powSpec x n) = true ∨ x ≤ 0 ∧ eq R.lo (powNegSpec x n) = true)) ∧
      (∃ x : ℝ, .num x ∈ₐ X ∧ (0 ≤ x ∧ eq R.hi (powSpec x n) = true ∨ x ≤ 0 ∧ eq R.hi (powNegSpec x n) = true)) := by
  obtain ⟨x0, hx0, hx0n⟩ := neg
  have iX := isA_of_finite' hX
  have hneg : X.lo.val < 0 := lt_of_le_of_lt (iX.mem_num.mp hx0).1 hx0n
  have vlo : Y.lo.val = n := (single _).mp (finite_mem hY (lo_mem hY.2.2)).2
  have vhi : Y.hi.val = n := (single _).mp (finite_mem hY (hi_mem hY.2.2)).2
  have ylo : Is Y.lo (n : ℝ) := ⟨hY.1, vlo⟩
  have yhi : Is Y.hi (n : ℝ) := ⟨hY.2.1, vhi⟩
  have hY' : FiniteA (.scalar Y.lo) := ⟨hY.1, hY.1, (ylo.le_iff ylo).mpr le_rfl⟩
  obtain ⟨r, ⟨r1, r2⟩, e⟩ := powI_neg dbg hX hY hneg
  obtain ⟨N, eN, hN, mN⟩ := negA_img dbg hX
  obtain ⟨S, eS, iS⟩ := powPos_img dbg hN hY'
  set sg : Fl ℝ := if n % 2 = 0 then .num 1 else .num (-1) with hsg
  obtain ⟨T, eT, iT⟩ := signMulA_img dbg iS (s := sg) (by rw [hsg]; split <;> simp)
  have eY : ∀ {y}, y ∈ₐ Y → Is y (n:ℝ) := fun {y} hy => ⟨(finite_mem hY hy).1.1, (single _).mp (finite_mem hY hy).2⟩
  have eY' : ∀ {y}, y ∈ₐ (.scalar Y.lo : Arg (Fl ℝ)) → Is y (n:ℝ) := fun {y} hy => by
    have f := (finite_mem hY' hy).1
    have h1 := (f.le_iff ylo).mp hy.2
    have h2 := (ylo.le_iff f).mp hy.1
    exact le_antisymm h1 h2 ▸ f
  have run : powI dbg X Y = .ok (Ivl.assignCore r T.lo T.hi) := by
    rw [e, toLongLong_eq ylo, truncInt_int, if_pos hn, ok_bind]
    have c : (eq Y.lo Y.hi && eq (ofLongLong n : Fl ℝ) Y.lo) = true := by
      rw [Bool.and_eq_true, ylo.eq_iff yhi]
      exact ⟨rfl, ((Is.num (n:ℝ)).eq_iff ylo).mpr rfl⟩
    rw [if_pos c, eN, ok_bind]
    simp only [← hsg]
    rw [eS, eT, ok_bind, assignA_ok iT.proper]
  -- values of the negative part
  have tin : ∀ x : ℝ, .num x ∈ₐ X → x ≤ 0 → powNegSpec x n ∈ᵢ (⟨T.lo, T.hi⟩ : Ivl (Fl ℝ)) := by
    intro x hx hx0
    have h1 : Fl.num (-x) ∈ₐ N := by rw [mN, neg_neg]; exact hx
    have h2 := iT.mem _ ⟨_, ⟨_, Y.lo, h1, lo_mem hY'.2.2, rfl⟩, rfl⟩
    refine mem_of_ext ?_ (mem_bounds.mp h2)
    rw [powNeg_eq (Is.num (-x)) ylo, max_eq_right (by linarith), neg_neg]
  have tat : ∀ w : Fl ℝ, (∃ u, (∃ x y, x ∈ₐ N ∧ y ∈ₐ (.scalar Y.lo : Arg (Fl ℝ)) ∧ u = powC x y) ∧ w = Fl.mul sg u) →
      ∃ x : ℝ, .num x ∈ₐ X ∧ x ≤ 0 ∧ eq w (powNegSpec x n) = true := by
    rintro w ⟨_, ⟨u, y, hu, hy, rfl⟩, hw⟩
    obtain ⟨fu, mu⟩ := finite_mem hN hu
    have hux := (mN _).mp mu
    refine ⟨-(max 0 u.val), ?_, by simp, eq_of_ext hw (powNeg_eq fu (eY' hy)) (powNegSpec_ne_nan _ _)⟩
    rcases le_total 0 u.val with c | c
    · rw [max_eq_right c]; exact hux
    · rw [max_eq_left c, neg_zero, iX.mem_num]
      have := (iX.mem_num.mp hux).2
      exact ⟨hneg.le, by linarith⟩
  have tp := proper_le iT.proper
  rcases lt_or_ge X.hi.val 0 with hh | hh
  · rw [r2 hh, assignCore_unassigned tp] at run
    refine ⟨_, run, fun x hx => ⟨fun h0 => ?_, fun h0 => tin x hx h0⟩, ?_, ?_⟩
    · have := (iX.mem_num.mp hx).2; exfalso; linarith
    · obtain ⟨x, a, b, c⟩ := tat _ iT.lo
      exact ⟨x, a, .inr ⟨b, c⟩⟩
    · obtain ⟨x, a, b, c⟩ := tat _ iT.hi
      exact ⟨x, a, .inr ⟨b, c⟩⟩
  · obtain ⟨Q, iQ, rfl⟩ := r1 hh
    have qp := proper_le iQ.proper
    have qin : ∀ x : ℝ, .num x ∈ₐ X → 0 ≤ x → powSpec x n ∈ᵢ (⟨Q.lo, Q.hi⟩ : Ivl (Fl ℝ)) := by
      intro x hx hx0
      have h2 := iQ.mem _ ⟨_, Y.lo, hx, lo_mem hY.2.2, rfl⟩
      refine mem_of_ext ?_ (mem_bounds.mp h2)
      rw [powC_eq (Is.num x) ylo, max_eq_right hx0]
    have qat : ∀ w : Fl ℝ, (∃ x y, x ∈ₐ X ∧ y ∈ₐ Y ∧ w = powC x y) → ∃ x : ℝ, .num x ∈ₐ X ∧ 0 ≤ x ∧ eq w (powSpec x n) = true := by
      rintro w ⟨x, y, hx, hy, hw⟩
      obtain ⟨fx, mx⟩ := finite_mem hX hx
      refine ⟨max 0 x.val, ?_, le_max_left _ _, eq_of_ext hw (powC_eq fx (eY hy)) (powSpec_ne_nan _ _)⟩
      rcases le_total 0 x.val with c | c
      · rw [max_eq_right c]; exact mx
      · rw [max_eq_left c, iX.mem_num]; exact ⟨hneg.le, hh⟩
    have m1 := cmin_le (CppOrder.le_left _ _ qp) (CppOrder.le_left _ _ tp)
    have m2 := le_cmax (CppOrder.le_right _ _ qp) (CppOrder.le_right _ _ tp)
    refine ⟨_, run, fun x hx => ⟨fun h0 => ?_, fun h0 => ?_⟩, ?_, ?_⟩
    · have := qin x hx h0
      exact ⟨CppOrder.le_trans _ _ _ m1.1 this.1, CppOrder.le_trans _ _ _ this.2 m2.1⟩
    · have := tin x hx h0
      exact ⟨CppOrder.le_trans _ _ _ m1.2 this.1, CppOrder.le_trans _ _ _ this.2 m2.2⟩
    · simp only [Ivl.assignCore]
      rcases cmin_or Q.lo T.lo with c | c <;> rw [c]
      · obtain ⟨x, a, b, c⟩ := qat _ iQ.lo
        exact ⟨x, a, .inl ⟨b, c⟩⟩
      · obtain ⟨x, a, b, c⟩ := tat _ iT.lo
        exact ⟨x, a, .inr ⟨b, c⟩⟩
    · simp only [Ivl.assignCore]
      rcases cmax_or Q.hi T.hi with c | c <;> rw [c]
      · obtain ⟨x, a, b, c⟩ := qat _ iQ.hi
        exact ⟨x, a, .inl ⟨b, c⟩⟩
      · obtain ⟨x, a, b, c⟩ := tat _ iT.hi
        exact ⟨x, a, .inr ⟨b, c⟩⟩

/-- the range check of the conversion -/
theorem truncInt_range (k : ℝ) : (-2^63 ≤ truncInt k ∧ truncInt k < 2^63) ↔ (-2^63 - 1 < k ∧ k < 2^63) := by
  unfold truncInt
  split
  · next h =>
    have h1 : -⌊-k⌋ < 2^63 := by
      have : 0 ≤ ⌊-k⌋ := Int.floor_nonneg.mpr (by linarith)
      omega
    have h2 : -2^63 ≤ -⌊-k⌋ ↔ ⌊-k⌋ < 2^63 + 1 := by omega
    rw [h2, Int.floor_lt]
    push_cast
    constructor
    · rintro ⟨a, -⟩; exact ⟨by linarith, by linarith⟩
    · rintro ⟨a, -⟩; exact ⟨by linarith, h1⟩
  · next h =>
    push Not at h
    have h1 : -2^63 ≤ ⌊k⌋ := by
      have : 0 ≤ ⌊k⌋ := Int.floor_nonneg.mpr h
      omega
    rw [Int.floor_lt]
    push_cast
    constructor
    · rintro ⟨-, a⟩; exact ⟨by linarith, by linarith⟩
    · rintro ⟨-, a⟩; exact ⟨h1, by linarith⟩

/-- C41: if the base may be negative and the exponent is not a single integer, the result is the NaN interval; the lower bound of the exponent has to be in the
range of `long long` (`C41_violated`). -/
theorem C41_nan_partial (dbg : Bool) (X Y : Arg (Fl ℝ)) (hX : FiniteA X) (hY : FiniteA Y) (hr : -2^63 - 1 < Y.lo.val ∧ Y.lo.val < 2^63)
    (not_single : ¬ ∃ n : ℤ, ∀ y : ℝ, .num y ∈ₐ Y ↔ y = n) (neg : ∃ x : ℝ, .num x ∈ₐ X ∧ x < 0) :
    powI dbg X Y = .ok ⟨.nan, .nan⟩ := by
  obtain ⟨x0, hx0, hx0n⟩ := neg
  have iX := isA_of_finite' hX
  have hneg : X.lo.val < 0 := lt_of_le_of_lt (iX.mem_num.mp hx0).1 hx0n
  obtain ⟨r, -, e⟩ := powI_neg dbg hX hY hneg
  have ylo := Is.of_finite hY.1; have yhi := Is.of_finite hY.2.1
  rw [e, toLongLong_eq ylo, if_pos ((truncInt_range _).mpr hr), ok_bind, if_neg]
  · rfl
  · rw [Bool.and_eq_true, ylo.eq_iff yhi, show eq (ofLongLong (truncInt Y.lo.val) : Fl ℝ) Y.lo = true ↔ ((truncInt Y.lo.val : ℤ) : ℝ) = Y.lo.val
      from (Is.num _).eq_iff ylo]
    rintro ⟨h1, h2⟩
    refine not_single ⟨truncInt Y.lo.val, fun y => ?_⟩
    rw [(isA_of_finite' hY).mem_num, h2, ← h1]
    exact ⟨fun ⟨a, b⟩ => le_antisymm b a, fun h => ⟨h.ge, h.le⟩⟩

/-- C41 is false for exponents outside the range of `long long`: if the base may be negative, `pow` has undefined behaviour. -/
theorem C41_violated_all (dbg : Bool) (X Y : Arg (Fl ℝ)) (hX : FiniteA X) (hY : FiniteA Y) (hr : 2^63 ≤ Y.lo.val ∨ Y.lo.val ≤ -2^63 - 1)
    (neg : ∃ x : ℝ, .num x ∈ₐ X ∧ x < 0) : powI dbg X Y = .error .ub := by
  obtain ⟨x0, hx0, hx0n⟩ := neg
  have iX := isA_of_finite' hX
  have hneg : X.lo.val < 0 := lt_of_le_of_lt (iX.mem_num.mp hx0).1 hx0n
  obtain ⟨r, -, e⟩ := powI_neg dbg hX hY hneg
  rw [e, toLongLong_eq (Is.of_finite hY.1), if_neg]
  · rfl
  · rw [truncInt_range]
    rintro ⟨h1, h2⟩
    rcases hr with h | h <;> linarith

theorem finiteA_num (a b : ℝ) (h : a ≤ b) : FiniteA (.ivl ⟨.num a, .num b⟩) := ⟨rfl, rfl, by simpa [ProperA, Proper] using h⟩

/-- C41 is false: `pow([-1,1], [10^19, 10^19])` has undefined behaviour. -/
theorem C41_violated : ∃ X Y : Arg (Fl ℝ), FiniteA X ∧ FiniteA Y ∧ (∃ n : ℤ, ∀ y : ℝ, .num y ∈ₐ Y ↔ y = n) ∧ powI true X Y = .error .ub := by
  refine ⟨.ivl ⟨.num (-1), .num 1⟩, .ivl ⟨.num (10^19), .num (10^19)⟩, finiteA_num _ _ (by norm_num), finiteA_num _ _ le_rfl, ⟨10^19, fun y => ?_⟩,
    C41_violated_all true _ _ (finiteA_num _ _ (by norm_num)) (finiteA_num _ _ le_rfl) (.inl ?_) ⟨-1, ?_, by norm_num⟩⟩
  · simp only [PtA, Pt, le_num_num, decide_eq_true_eq]
    push_cast
    exact ⟨fun ⟨a, b⟩ => by linarith, fun h => ⟨by linarith, by linarith⟩⟩
  · simp only [Arg.lo, val]; norm_num
  · simp [PtA, Pt]

/-! Non-trivial operands: base `[0,2]` and exponent `[-1,1]`; base `[-2,1]` and exponent `-3`; base `[-2,1]` and exponent `[1/2,1]`. -/
example : ∀ x : ℝ, .num x ∈ₐ (.ivl ⟨.num 0, .num 2⟩ : Arg (Fl ℝ)) → 0 ≤ x := fun x h => by simp [PtA, Pt] at h; exact h.1
example : (∀ y : ℝ, .num y ∈ₐ (.scalar (.num (-3)) : Arg (Fl ℝ)) ↔ y = ((-3:ℤ):ℝ)) ∧ ∃ x : ℝ, .num x ∈ₐ (.ivl ⟨.num (-2), .num 1⟩ : Arg (Fl ℝ)) ∧ x < 0 := by
  refine ⟨fun y => ?_, -1, by simp [PtA, Pt], by norm_num⟩
  simp only [PtA, le_num_num, decide_eq_true_eq]
  push_cast
  exact ⟨fun ⟨a, b⟩ => le_antisymm b a, fun h => ⟨h.ge, h.le⟩⟩
example : ¬ ∃ n : ℤ, ∀ y : ℝ, .num y ∈ₐ (.ivl ⟨.num (1/2), .num 1⟩ : Arg (Fl ℝ)) ↔ y = n := by
  rintro ⟨n, h⟩
  have h1 := (h (1/2)).mp (by simp [PtA, Pt]; norm_num)
  have h2 := (h 1).mp (by simp [PtA, Pt]; norm_num)
  linarith
end Intervals.Props
