import Verif.Props.TrigFlt
/-!
# C89: `fractional_weights` in floating-point arithmetic

C43 is about exact arithmetic.  Here the format is arbitrary; the claim (`C89_full`) is that `fractional_weights` succeeds whenever its
preconditions hold and contains the weights that the scalar function computes.  It is false: the rounded weights need not be monotone.
-/
set_option linter.unusedSectionVars false
namespace Intervals.Props
open Intervals CppVal Spec Fl

variable {K : Type} [Field K] [LinearOrder K] [IsStrictOrderedRing K]

/-- C89 as stated. -/
def C89_full : Prop :=
  ∀ (K : Type) [Field K] [LinearOrder K] [IsStrictOrderedRing K] [Fmt K], (Fmt.rnd (1 : K) : Fl K) = .num 1 →
    ∀ (dbg : Bool) (A B : Arg (Fl K)), FiniteA A → FiniteA B → RepA A → RepA B →
      le (.num 0) A.lo = true → le (.num 0) B.lo = true → (lt (.num 0) A.lo = true ∨ lt (.num 0) B.lo = true) →
      ∃ Wa Wb, fractionalWeightsI dbg A B = .ok (Wa, Wb) ∧
        ∀ a b, Representable a → Representable b → a ∈ₐ A → b ∈ₐ B →
          ∃ wa wb, fractionalWeightsS dbg a b = .ok (wa, wb) ∧ wa ∈ᵢ Wa ∧ wb ∈ᵢ Wb

section
variable [Fmt K]

/-- the rounded sum of two non-negative numbers of the format is `+inf` or at least each of them -/
theorem sum_cases {a b : Fl K} {k l : K} (ra : Representable a) (rb : Representable b) (ha : Is a k) (hb : Is b l) (hk : 0 ≤ k) (hl : 0 ≤ l) :
    Fl.add a b = .pinf ∨ ∃ s, Is (Fl.add a b) s ∧ k ≤ s ∧ l ≤ s := by
  have e := ext_add ha hb
  have l1 : le a (Fl.add a b) = true := by
    rw [le_ext (show ext a = ext (Fmt.rnd k : Fl K) by rw [rnd_rep ra ha]; exact is_iff_ext.mp ha) e]
    exact Fmt.rnd_mono _ _ (by linarith)
  have l2 : le b (Fl.add a b) = true := by
    rw [le_ext (show ext b = ext (Fmt.rnd l : Fl K) by rw [rnd_rep rb hb]; exact is_iff_ext.mp hb) e]
    exact Fmt.rnd_mono _ _ (by linarith)
  cases c : Fl.add a b with
  | pinf => exact .inl rfl
  | nan => rw [c] at l1; have := CppOrder.le_right _ _ l1; simp at this
  | ninf => rw [c] at l1; have := ha.1; cases a <;> simp_all [isFinite]
  | nzero => rw [c] at l1 l2; exact .inr ⟨0, Is.nzero, (ha.le_iff Is.nzero).mp l1, (hb.le_iff Is.nzero).mp l2⟩
  | num v => rw [c] at l1 l2; exact .inr ⟨v, Is.num v, (ha.le_iff (Is.num v)).mp l1, (hb.le_iff (Is.num v)).mp l2⟩

theorem div_pinf {a : Fl K} (ha : a.isFinite = true) : Is (Fl.div a .pinf) (0 : K) := by
  cases a <;> simp_all [Fl.div, isNan, isInf, isFinite, zeroS] <;> split <;> exact Is.num 0

/-- a rounded weight is a number of [0, 1] -/
theorem weight_range (one : (Fmt.rnd (1 : K) : Fl K) = .num 1) {a b : Fl K} {k l : K} (ra : Representable a) (rb : Representable b)
    (ha : Is a k) (hb : Is b l) (hk : 0 ≤ k) (hl : 0 ≤ l) (h : 0 < k ∨ 0 < l) :
    (∃ v, Is (Fl.div a (Fl.add a b)) v ∧ 0 ≤ v ∧ v ≤ 1) ∧ (∃ v, Is (Fl.div b (Fl.add a b)) v ∧ 0 ≤ v ∧ v ≤ 1) := by
  rcases sum_cases ra rb ha hb hk hl with e | ⟨s, hs, s1, s2⟩
  · rw [e]
    exact ⟨⟨0, div_pinf ha.1, le_rfl, zero_le_one⟩, ⟨0, div_pinf hb.1, le_rfl, zero_le_one⟩⟩
  · have s0 : 0 < s := h.elim (fun c => c.trans_le s1) (fun c => c.trans_le s2)
    have q : ∀ {c : Fl K} {m : K}, Is c m → 0 ≤ m → m ≤ s → ∃ v, Is (Fl.div c (Fl.add a b)) v ∧ 0 ≤ v ∧ v ≤ 1 := by
      intro c m hc h0 h1
      obtain ⟨v, hv, v0, v1⟩ := rnd_between (k := m / s) Fmt.rnd_zero one (div_nonneg h0 s0.le) ((div_le_one s0).mpr h1)
      exact ⟨v, Is.of_ext (ext_div hc hs s0.ne') hv, v0, v1⟩
    exact ⟨q ha hk s1, q hb hl s2⟩

/-- the scalar function succeeds -/
theorem fractionalWeightsS_ok (dbg : Bool) {a b : Fl K} {k l : K} (ra : Representable a) (rb : Representable b)
    (ha : Is a k) (hb : Is b l) (hk : 0 ≤ k) (hl : 0 ≤ l) (h : 0 < k ∨ 0 < l) :
    fractionalWeightsS dbg a b = .ok (Fl.div a (Fl.add a b), Fl.div b (Fl.add a b)) := by
  have g1 : ge a (.num 0) = true := ((Is.num 0).le_iff ha).mpr hk
  have g2 : ge b (.num 0) = true := ((Is.num 0).le_iff hb).mpr hl
  have g3 : gt (Fl.add a b) (.num 0) = true := by
    rcases sum_cases ra rb ha hb hk hl with e | ⟨s, hs, s1, s2⟩
    · rw [e]; rfl
    · exact ((Is.num 0).lt_iff hs).mpr (h.elim (fun c => c.trans_le s1) (fun c => c.trans_le s2))
  unfold fractionalWeightsS
  rw [g1, g2, g3]
  cases dbg <;> rfl

/-- C89: whenever the preconditions hold, the candidates for the bounds are the weights that the scalar function computes at two corners, all of
them numbers of [0, 1]; `fractional_weights` succeeds exactly if they are in order, and is a contract violation otherwise.  (Missing: that
they are always in order, see `C89_violated`.) -/
theorem C89_iff_partial (one : (Fmt.rnd (1 : K) : Fl K) = .num 1) (dbg : Bool) (A B : Arg (Fl K)) (hA : FiniteA A) (hB : FiniteA B)
    (rA : RepA A) (rB : RepA B) (h0 : le (.num 0) A.lo = true) (h1 : le (.num 0) B.lo = true)
    (h : lt (.num 0) A.lo = true ∨ lt (.num 0) B.lo = true) :
    ∃ p q : Fl K × Fl K, fractionalWeightsS dbg A.lo B.hi = .ok p ∧ fractionalWeightsS dbg A.hi B.lo = .ok q ∧
      (∀ w ∈ [p.1, p.2, q.1, q.2], le (.num 0) w = true ∧ le w (.num 1) = true) ∧
      fractionalWeightsI dbg A B = if le p.1 q.1 && le q.2 p.2 then .ok (⟨p.1, q.1⟩, ⟨q.2, p.2⟩) else .error .contract := by
  have iA := isA_of_finite hA; have iB := isA_of_finite hB
  have a0 : 0 ≤ A.lo.val := ((Is.num 0).le_iff iA.1).mp h0
  have b0 : 0 ≤ B.lo.val := ((Is.num 0).le_iff iB.1).mp h1
  have lA := iA.le hA.2.2; have lB := iB.le hB.2.2
  have hp : 0 < A.lo.val ∨ 0 < B.lo.val := h.imp ((Is.num 0).lt_iff iA.1).mp ((Is.num 0).lt_iff iB.1).mp
  have hp1 : 0 < A.lo.val ∨ 0 < B.hi.val := hp.imp id (fun c => c.trans_le lB)
  have hp2 : 0 < A.hi.val ∨ 0 < B.lo.val := hp.imp (fun c => c.trans_le lA) id
  obtain ⟨⟨u, hu, u0, u1⟩, ⟨v, hv, v0, v1⟩⟩ := weight_range one rA.1 rB.2 iA.1 iB.2 a0 (b0.trans lB) hp1
  obtain ⟨⟨x, hx, x0, x1⟩, ⟨y, hy, y0, y1⟩⟩ := weight_range one rA.2 rB.1 iA.2 iB.1 (a0.trans lA) b0 hp2
  refine ⟨_, _, fractionalWeightsS_ok dbg rA.1 rB.2 iA.1 iB.2 a0 (b0.trans lB) hp1,
    fractionalWeightsS_ok dbg rA.2 rB.1 iA.2 iB.1 (a0.trans lA) b0 hp2, ?_, ?_⟩
  · have r : ∀ {w : Fl K} {z : K}, Is w z → 0 ≤ z → z ≤ 1 → le (.num 0) w = true ∧ le w (.num 1) = true :=
      fun hw z0 z1 => ⟨((Is.num 0).le_iff hw).mpr z0, (hw.le_iff (Is.num 1)).mpr z1⟩
    intro w hw
    simp only [List.mem_cons, List.not_mem_nil, or_false] at hw
    rcases hw with rfl | rfl | rfl | rfl
    · exact r hu u0 u1
    · exact r hv v0 v1
    · exact r hx x0 x1
    · exact r hy y0 y1
  · have mk : ∀ {c d : Fl K} {m n : K}, Is c m → Is d n → Ivl.make c d = if le c d then .ok ⟨c, d⟩ else .error .contract := by
      intro c d m n hc hd
      have e : gt c d = !le c d := by
        rw [Bool.eq_iff_iff, Bool.not_eq_true', ← Bool.not_eq_true, hc.le_iff hd, not_le]; exact hd.lt_iff hc
      unfold Ivl.make
      rw [e]
      cases le c d <;> rfl
    have tail : (do
        let wa ← Ivl.make (Fl.div A.lo (Fl.add A.lo B.hi)) (Fl.div A.hi (Fl.add A.hi B.lo))
        let wb ← Ivl.make (Fl.div B.lo (Fl.add A.hi B.lo)) (Fl.div B.hi (Fl.add A.lo B.hi))
        return (wa, wb) : Outcome (Ivl (Fl K) × Ivl (Fl K))) =
        if le (Fl.div A.lo (Fl.add A.lo B.hi)) (Fl.div A.hi (Fl.add A.hi B.lo)) &&
            le (Fl.div B.lo (Fl.add A.hi B.lo)) (Fl.div B.hi (Fl.add A.lo B.hi))
        then .ok (⟨Fl.div A.lo (Fl.add A.lo B.hi), Fl.div A.hi (Fl.add A.hi B.lo)⟩,
          ⟨Fl.div B.lo (Fl.add A.hi B.lo), Fl.div B.hi (Fl.add A.lo B.hi)⟩) else .error .contract := by
      rw [mk hu hx, mk hy hv]
      cases le (Fl.div A.lo (Fl.add A.lo B.hi)) (Fl.div A.hi (Fl.add A.hi B.lo)) <;>
        cases le (Fl.div B.lo (Fl.add A.hi B.lo)) (Fl.div B.hi (Fl.add A.lo B.hi)) <;> rfl
    obtain ⟨R1, e1, -, t1⟩ := always_geA_zero true iA hA.2.2
    obtain ⟨R2, e2, -, t2⟩ := always_geA_zero true iB hB.2.2
    obtain ⟨S, R3, e3, e4, t3⟩ := addI_pos true hA hB rA rB a0 b0 hp
    unfold fractionalWeightsI
    rw [assigned_of_proper hA.2.2, assigned_of_proper hB.2.2]
    cases dbg with
    | false => exact tail
    | true =>
      simp only [Bool.and_self, expectsDebug_true, ok_bind, if_true, e1, e2, e3, e4, t1, t2, t3, a0, b0, decide_true, expects_true]
      exact tail

/-- C89: known weights `[a, a]`, `[b, b]` (or scalars) give the scalar weights. -/
theorem C89_known_partial (one : (Fmt.rnd (1 : K) : Fl K) = .num 1) (dbg : Bool) (a b : Fl K) (A B : Arg (Fl K))
    (hA : A = .scalar a ∨ A = .ivl ⟨a, a⟩) (hB : B = .scalar b ∨ B = .ivl ⟨b, b⟩) (fa : a.isFinite = true) (fb : b.isFinite = true)
    (ra : Representable a) (rb : Representable b) (h0 : le (.num 0) a = true) (h1 : le (.num 0) b = true)
    (h : lt (.num 0) a = true ∨ lt (.num 0) b = true) :
    ∃ wa wb, fractionalWeightsS dbg a b = .ok (wa, wb) ∧ fractionalWeightsI dbg A B = .ok (⟨wa, wa⟩, ⟨wb, wb⟩) := by
  have sa : le a a = true := CppOrder.le_right _ _ h0
  have sb : le b b = true := CppOrder.le_right _ _ h1
  have eA : A.lo = a ∧ A.hi = a := by rcases hA with rfl | rfl <;> exact ⟨rfl, rfl⟩
  have eB : B.lo = b ∧ B.hi = b := by rcases hB with rfl | rfl <;> exact ⟨rfl, rfl⟩
  have FA : FiniteA A := by rcases hA with rfl | rfl <;> exact ⟨fa, fa, sa⟩
  have FB : FiniteA B := by rcases hB with rfl | rfl <;> exact ⟨fb, fb, sb⟩
  obtain ⟨p, q, ep, eq, rg, e⟩ := C89_iff_partial one dbg A B FA FB ⟨eA.1 ▸ ra, eA.2 ▸ ra⟩ ⟨eB.1 ▸ rb, eB.2 ▸ rb⟩ (eA.1 ▸ h0) (eB.1 ▸ h1)
    (by rw [eA.1, eB.1]; exact h)
  rw [eA.1, eB.2] at ep; rw [eA.2, eB.1, ep] at eq
  cases eq
  refine ⟨_, _, ep, e.trans ?_⟩
  rw [CppOrder.le_right _ _ (rg p.1 (by simp)).1, CppOrder.le_right _ _ (rg p.2 (by simp)).1]; rfl

/-- C89 fails whenever just one of the two sums overflows, unless the weight that should be smaller rounds to zero: the weight that should be
the larger one is 0. -/
theorem C89_overflow (one : (Fmt.rnd (1 : K) : Fl K) = .num 1) (dbg : Bool) (A B : Arg (Fl K)) (hA : FiniteA A) (hB : FiniteA B)
    (rA : RepA A) (rB : RepA B) (h0 : le (.num 0) A.lo = true) (h1 : le (.num 0) B.lo = true)
    (h : lt (.num 0) A.lo = true ∨ lt (.num 0) B.lo = true)
    (c : (Fl.add A.hi B.lo = .pinf ∧ lt (.num 0) (Fl.div A.lo (Fl.add A.lo B.hi)) = true) ∨
      (Fl.add A.lo B.hi = .pinf ∧ lt (.num 0) (Fl.div B.lo (Fl.add A.hi B.lo)) = true)) :
    fractionalWeightsI dbg A B = .error .contract := by
  have iA := isA_of_finite hA; have iB := isA_of_finite hB
  have a0 : 0 ≤ A.lo.val := ((Is.num 0).le_iff iA.1).mp h0
  have b0 : 0 ≤ B.lo.val := ((Is.num 0).le_iff iB.1).mp h1
  have lA := iA.le hA.2.2; have lB := iB.le hB.2.2
  have hp : 0 < A.lo.val ∨ 0 < B.lo.val := h.imp ((Is.num 0).lt_iff iA.1).mp ((Is.num 0).lt_iff iB.1).mp
  obtain ⟨p, q, ep, eq, -, e⟩ := C89_iff_partial one dbg A B hA hB rA rB h0 h1 h
  rw [fractionalWeightsS_ok dbg rA.1 rB.2 iA.1 iB.2 a0 (b0.trans lB) (hp.imp id (fun c => c.trans_le lB))] at ep
  rw [fractionalWeightsS_ok dbg rA.2 rB.1 iA.2 iB.1 (a0.trans lA) b0 (hp.imp (fun c => c.trans_le lA) id)] at eq
  cases ep; cases eq
  rw [e, if_neg]
  rw [Bool.and_eq_true]
  rintro ⟨k1, k2⟩
  rcases c with ⟨c, d⟩ | ⟨c, d⟩
  · rw [c] at k1
    have z := (div_pinf hA.2.1).le_iff (Is.num 0) |>.mpr le_rfl
    generalize Fl.div A.lo (Fl.add A.lo B.hi) = w at *
    generalize Fl.div A.hi .pinf = w' at *
    clear * - k1 z d
    grind
  · rw [c] at k2
    have z := (div_pinf hB.2.1).le_iff (Is.num 0) |>.mpr le_rfl
    generalize Fl.div B.lo (Fl.add A.hi B.lo) = w at *
    generalize Fl.div B.hi .pinf = w' at *
    clear * - k2 z d
    grind

/-! ## The rounding error -/
/-- sums up to `M` of non-negative numbers of the format are computed with the relative error `u` -/
def SumErr (M u : K) : Prop := ∀ (a b : Fl K) (k l : K), Representable a → Representable b → Is a k → Is b l → 0 ≤ k → 0 ≤ l → k + l ≤ M →
  ∃ s, Is (Fmt.rnd (k + l) : Fl K) s ∧ |s - (k + l)| ≤ u * (k + l)

theorem weight_err {M u e : K} (E : SumErr M u) (hu : u ≤ 1/2) (E₁ : AbsErr (1 : K) e) {a b : Fl K} {k l : K} (ra : Representable a)
    (rb : Representable b) (ha : Is a k) (hb : Is b l) (hk : 0 ≤ k) (hl : 0 ≤ l) (h : 0 < k ∨ 0 < l) (hM : k + l ≤ M) :
    (∃ v, Is (Fl.div a (Fl.add a b)) v ∧ |v - k / (k + l)| ≤ 2 * u + e) ∧ (∃ v, Is (Fl.div b (Fl.add a b)) v ∧ |v - l / (k + l)| ≤ 2 * u + e) := by
  have pos : 0 < k + l := by rcases h with c | c <;> linarith
  obtain ⟨s, hs, es⟩ := E a b k l ra rb ha hb hk hl hM
  have hs' : Is (Fl.add a b) s := Is.of_ext (ext_add ha hb) hs
  have s12 : k ≤ s ∧ l ≤ s := by
    rcases sum_cases ra rb ha hb hk hl with e | ⟨s', hs'', s1, s2⟩
    · rw [e] at hs'; exact absurd hs'.1 (by simp [isFinite])
    · rw [hs'.2.symm.trans hs''.2]; exact ⟨s1, s2⟩
  have s0 : 0 < s := h.elim (fun c => c.trans_le s12.1) (fun c => c.trans_le s12.2)
  have u0 : 0 ≤ u := by
    by_contra c
    push Not at c
    have := mul_neg_of_neg_of_pos c pos
    linarith [abs_nonneg (s - (k + l))]
  rw [abs_le] at es
  have half : (k + l) / 2 ≤ s := by nlinarith
  have q : ∀ {c : Fl K} {m : K}, Is c m → 0 ≤ m → m ≤ s → m ≤ k + l → ∃ v, Is (Fl.div c (Fl.add a b)) v ∧ |v - m / (k + l)| ≤ 2 * u + e := by
    intro c m hc h0 h1 h2
    have d0 : 0 ≤ m / s := div_nonneg h0 s0.le
    obtain ⟨v, hv, ev⟩ := E₁ (m / s) (by rw [abs_of_nonneg d0]; exact (div_le_one s0).mpr h1)
    refine ⟨v, Is.of_ext (ext_div hc hs' s0.ne') hv, ?_⟩
    have key : |m / s - m / (k + l)| ≤ 2 * u := by
      have eqn : m / s - m / (k + l) = m / (k + l) * (((k + l) - s) / s) := by field_simp
      have w0 : 0 ≤ m / (k + l) := div_nonneg h0 pos.le
      have w1 : m / (k + l) ≤ 1 := (div_le_one pos).mpr h2
      rw [eqn, abs_mul, abs_of_nonneg w0, abs_div, abs_of_pos s0]
      have k1 : |k + l - s| / s ≤ 2 * u := by
        rw [div_le_iff₀ s0, abs_le]
        constructor <;> nlinarith
      have k0 : 0 ≤ |k + l - s| / s := div_nonneg (abs_nonneg _) s0.le
      nlinarith
    calc |v - m / (k + l)| = |(v - m / s) + (m / s - m / (k + l))| := by congr 1; ring
      _ ≤ |v - m / s| + |m / s - m / (k + l)| := abs_add_le _ _
      _ ≤ 2 * u + e := by linarith
  exact ⟨q ha hk s12.1 (by linarith), q hb hl s12.2 (by linarith)⟩

/-- C89 with a tolerance: in a format with relative error `u` of sums and absolute error `e` of quotients in [0, 1], `t = 2u + e`,
`fractional_weights` succeeds if the least and the greatest real weight differ by at least `2t`; if it succeeds, the real weights of all
points lie in the results widened by `t`, the weights computed by the scalar function in the results widened by `2t`, and the results
exceed the real ranges by at most `t`. -/
theorem C89_error_partial {M u e : K} (E : SumErr M u) (hu : u ≤ 1/2) (E₁ : AbsErr (1 : K) e) (one : (Fmt.rnd (1 : K) : Fl K) = .num 1)
    (dbg : Bool) (A B : Arg (Fl K)) (hA : FiniteA A) (hB : FiniteA B) (rA : RepA A) (rB : RepA B) (h0 : le (.num 0) A.lo = true)
    (h1 : le (.num 0) B.lo = true) (h : lt (.num 0) A.lo = true ∨ lt (.num 0) B.lo = true) (hM : A.hi.val + B.hi.val ≤ M) :
    ((∃ a b a' b' : K, .num a ∈ₐ A ∧ .num b ∈ₐ B ∧ .num a' ∈ₐ A ∧ .num b' ∈ₐ B ∧ a / (a + b) + 2 * (2 * u + e) ≤ a' / (a' + b')) →
      ∃ W, fractionalWeightsI dbg A B = .ok W) ∧
    ∀ Wa Wb, fractionalWeightsI dbg A B = .ok (Wa, Wb) → ∃ m N m' N', Is Wa.lo m ∧ Is Wa.hi N ∧ Is Wb.lo m' ∧ Is Wb.hi N' ∧
      (∀ a b : K, .num a ∈ₐ A → .num b ∈ₐ B →
        m - (2 * u + e) ≤ a / (a + b) ∧ a / (a + b) ≤ N + (2 * u + e) ∧ m' - (2 * u + e) ≤ b / (a + b) ∧ b / (a + b) ≤ N' + (2 * u + e)) ∧
      (∀ a b : Fl K, Representable a → Representable b → a ∈ₐ A → b ∈ₐ B → ∃ wa wb v v', fractionalWeightsS dbg a b = .ok (wa, wb) ∧
        Is wa v ∧ Is wb v' ∧ m - 2 * (2 * u + e) ≤ v ∧ v ≤ N + 2 * (2 * u + e) ∧ m' - 2 * (2 * u + e) ≤ v' ∧ v' ≤ N' + 2 * (2 * u + e)) ∧
      (∃ a b : K, .num a ∈ₐ A ∧ .num b ∈ₐ B ∧ a / (a + b) ≤ m + (2 * u + e) ∧ N' ≤ b / (a + b) + (2 * u + e)) ∧
      (∃ a b : K, .num a ∈ₐ A ∧ .num b ∈ₐ B ∧ N ≤ a / (a + b) + (2 * u + e) ∧ b / (a + b) ≤ m' + (2 * u + e)) := by
  have iA := isA_of_finite hA; have iB := isA_of_finite hB
  have a0 : 0 ≤ A.lo.val := ((Is.num 0).le_iff iA.1).mp h0
  have b0 : 0 ≤ B.lo.val := ((Is.num 0).le_iff iB.1).mp h1
  have lA := iA.le hA.2.2; have lB := iB.le hB.2.2
  have hp : 0 < A.lo.val ∨ 0 < B.lo.val := h.imp ((Is.num 0).lt_iff iA.1).mp ((Is.num 0).lt_iff iB.1).mp
  have hp1 : 0 < A.lo.val ∨ 0 < B.hi.val := hp.imp id (fun c => c.trans_le lB)
  have hp2 : 0 < A.hi.val ∨ 0 < B.lo.val := hp.imp (fun c => c.trans_le lA) id
  have mA : ∀ a : K, .num a ∈ₐ A ↔ A.lo.val ≤ a ∧ a ≤ A.hi.val := fun a => iA.mem_num
  have mB : ∀ b : K, .num b ∈ₐ B ↔ B.lo.val ≤ b ∧ b ≤ B.hi.val := fun b => iB.mem_num
  obtain ⟨⟨x, hx, ex⟩, ⟨x', hx', ex'⟩⟩ := weight_err E hu E₁ rA.1 rB.2 iA.1 iB.2 a0 (b0.trans lB) hp1 (by linarith)
  obtain ⟨⟨y, hy, ey⟩, ⟨y', hy', ey'⟩⟩ := weight_err E hu E₁ rA.2 rB.1 iA.2 iB.1 (a0.trans lA) b0 hp2 (by linarith)
  obtain ⟨p, q, ep, eq, -, eI⟩ := C89_iff_partial one dbg A B hA hB rA rB h0 h1 h
  rw [fractionalWeightsS_ok dbg rA.1 rB.2 iA.1 iB.2 a0 (b0.trans lB) hp1] at ep
  rw [fractionalWeightsS_ok dbg rA.2 rB.1 iA.2 iB.1 (a0.trans lA) b0 hp2] at eq
  cases ep; cases eq
  dsimp only at eI
  set t := 2 * u + e with ht
  set al := A.lo.val; set ah := A.hi.val; set bl := B.lo.val; set bh := B.hi.val
  have s1 : 0 < al + bh := by rcases hp1 with c | c <;> linarith
  have s2 : 0 < ah + bl := by rcases hp2 with c | c <;> linarith
  have compl : ∀ {a b : K}, 0 < a + b → b / (a + b) = 1 - a / (a + b) := by
    intro a b c; field_simp; ring
  rw [compl s1] at ex'; rw [compl s2] at ey'
  rw [abs_le] at ex ex' ey ey'
  have rng : ∀ a b : K, .num a ∈ₐ A → .num b ∈ₐ B → 0 < a + b ∧ al / (al + bh) ≤ a / (a + b) ∧ a / (a + b) ≤ ah / (ah + bl) := by
    intro a b ha hb
    rw [mA] at ha; rw [mB] at hb
    have s : 0 < a + b := by rcases hp with c | c <;> linarith
    exact ⟨s, weight_mono a0 ha.1 (b0.trans hb.1) hb.2 s1 s, weight_mono (a0.trans ha.1) ha.2 b0 hb.1 s s2⟩
  constructor
  · rintro ⟨a, b, a', b', ha, hb, ha', hb', sep⟩
    have r := (rng a b ha hb).2.1
    have r' := (rng a' b' ha' hb').2.2
    rw [eI, (hx.le_iff hy).mpr (by linarith), (hy'.le_iff hx').mpr (by linarith)]
    exact ⟨_, rfl⟩
  · intro Wa Wb eW
    rw [eI] at eW
    split at eW
    · cases eW
      refine ⟨x, y, y', x', hx, hy, hy', hx', ?_, ?_, ?_, ?_⟩
      · intro a b ha hb
        obtain ⟨s, r1, r2⟩ := rng a b ha hb
        rw [compl s]
        refine ⟨?_, ?_, ?_, ?_⟩ <;> linarith
      · intro a b ra rb ha hb
        have point : ∀ {Z : Arg (Fl K)} {z : Fl K} {k l : K}, IsA Z k l → z ∈ₐ Z → ∃ v, Is z v ∧ k ≤ v ∧ v ≤ l := by
          intro Z z k l h hz
          rw [mem_bounds] at hz
          have f := Is.of_finite (finite_of_between h.1.1 h.2.1 hz.1 hz.2)
          exact ⟨_, f, (h.1.le_iff f).mp hz.1, (f.le_iff h.2).mp hz.2⟩
        obtain ⟨k, hk, k1, k2⟩ := point iA ha
        obtain ⟨l, hl, l1, l2⟩ := point iB hb
        obtain ⟨s, r1, r2⟩ := rng k l ((mA k).mpr ⟨k1, k2⟩) ((mB l).mpr ⟨l1, l2⟩)
        have pkl : 0 < k ∨ 0 < l := hp.imp (fun c => c.trans_le k1) (fun c => c.trans_le l1)
        obtain ⟨⟨v, hv, ev⟩, ⟨v', hv', ev'⟩⟩ := weight_err E hu E₁ ra rb hk hl (a0.trans k1) (b0.trans l1) pkl (by linarith)
        rw [compl s] at ev'
        rw [abs_le] at ev ev'
        refine ⟨_, _, v, v', fractionalWeightsS_ok dbg ra rb hk hl (a0.trans k1) (b0.trans l1) pkl, hv, hv', ?_, ?_, ?_, ?_⟩ <;> linarith
      · refine ⟨al, bh, (mA _).mpr ⟨le_rfl, lA⟩, (mB _).mpr ⟨lB, le_rfl⟩, ?_⟩
        rw [compl s1]
        constructor <;> linarith
      · refine ⟨ah, bl, (mA _).mpr ⟨lA, le_rfl⟩, (mB _).mpr ⟨le_rfl, lB⟩, ?_⟩
        rw [compl s2]
        constructor <;> linarith
    · cases eW
end

/-- binary formats: sums of numbers of the format have the relative error `2^-p`; there is no underflow -/
theorem sumErr_bin {p emin : ℤ} {Ω : ℚ} (hp : 1 ≤ p) (hΩ : 0 ≤ Ω) (n : ℤ) (hn : (2:ℚ)^n ≤ Ω) (he : emin ≤ n - p) :
    let := binFmt p emin Ω hp hΩ
    SumErr ((2:ℚ)^n) (2^(-p)) := by
  intro _ a b k l ra rb ha hb hk hl hM
  have nn : 0 ≤ k + l := by linarith
  obtain ⟨h1, h2, -⟩ := rndBin_near hp n hn he (show |k + l| ≤ 2^n by rw [abs_of_nonneg nn]; exact hM)
  refine ⟨_, ⟨h1, h2⟩, ?_⟩
  have mult : ∀ {c : Fl ℚ} {m : ℚ}, Representable c → Is c m → ∃ z : ℤ, m = z * 2 ^ emin := by
    intro c m rc hc
    have r : rndBin p emin Ω m = .num m := rnd_rep rc hc
    have r := (rndBin_num r).1
    have ge : emin ≤ ulpExp p emin m := le_max_right _ _
    refine ⟨roundNE (m / 2 ^ ulpExp p emin m) * 2 ^ (ulpExp p emin m - emin).toNat, ?_⟩
    rw [rndU] at r
    push_cast
    rw [← zpow_natCast, Int.toNat_of_nonneg (by omega), mul_assoc, ← zpow_add₀ (by norm_num), sub_add_cancel, r]
  rcases nn.eq_or_lt with z | pos
  · rw [← z, rndU_zero, sub_zero, abs_zero, mul_zero]
  by_cases c : Int.log 2 |k + l| - (p - 1) ≤ emin
  · obtain ⟨z, hz⟩ := mult ra ha
    obtain ⟨z', hz'⟩ := mult rb hb
    have : rndU p emin (k + l) = k + l := rndU_of_mul (e := emin) (n := z + z') (max_le c le_rfl) (by push_cast; rw [hz, hz']; ring)
    rw [this, sub_self, abs_zero]
    exact mul_nonneg (zpow_pos (by norm_num) _).le nn
  · rw [abs_of_pos pos] at c
    have ue : ulpExp p emin (k + l) = Int.log 2 (k + l) - (p - 1) := by rw [ulpExp, abs_of_pos pos]; exact max_eq_left (by omega)
    have up : (0:ℚ) < 2 ^ ulpExp p emin (k + l) := zpow_pos (by norm_num) _
    obtain ⟨q1, q2⟩ := roundNE_near ((k + l) / 2 ^ ulpExp p emin (k + l))
    have ek : (k + l) / 2 ^ ulpExp p emin (k + l) * 2 ^ ulpExp p emin (k + l) = k + l := by field_simp
    have m1 := mul_le_mul_of_nonneg_right q1 up.le
    have m2 := mul_le_mul_of_nonneg_right q2 up.le
    have lg : (2:ℚ) ^ Int.log 2 (k + l) ≤ k + l := by exact_mod_cast Int.zpow_log_le_self (b := 2) (by norm_num) pos
    have ul : (2:ℚ) ^ ulpExp p emin (k + l) = 2 * (2 ^ (-p) * 2 ^ Int.log 2 (k + l)) := by
      rw [ue, ← zpow_add₀ (by norm_num), ← zpow_one_add₀ (by norm_num)]; congr 1; ring
    have := mul_le_mul_of_nonneg_left lg (zpow_pos (by norm_num : (0:ℚ) < 2) (-p)).le
    rw [abs_le]
    unfold rndU
    constructor <;> nlinarith

/-- C89 for `double`: for weights up to `2^1022`, the results are correct up to `5·2^-54`, if the function succeeds; it succeeds if the real weights
of the points spread over at least `5·2^-53`. -/
theorem C89_double_partial (dbg : Bool) (A B : Arg (Fl ℚ)) (hA : FiniteA A) (hB : FiniteA B) (rA : let := binary64Fmt; RepA A)
    (rB : let := binary64Fmt; RepA B) (h0 : le (.num 0) A.lo = true) (h1 : le (.num 0) B.lo = true)
    (h : lt (.num 0) A.lo = true ∨ lt (.num 0) B.lo = true) (mA : ∀ a : ℚ, .num a ∈ₐ A → a ≤ 2^1022) (mB : ∀ b : ℚ, .num b ∈ₐ B → b ≤ 2^1022) :
    let := binary64Fmt
    ((∃ a b a' b' : ℚ, .num a ∈ₐ A ∧ .num b ∈ₐ B ∧ .num a' ∈ₐ A ∧ .num b' ∈ₐ B ∧ a / (a + b) + 5 / 2^53 ≤ a' / (a' + b')) →
      ∃ W, fractionalWeightsI dbg A B = .ok W) ∧
    ∀ Wa Wb, fractionalWeightsI dbg A B = .ok (Wa, Wb) → ∃ m N m' N', Is Wa.lo m ∧ Is Wa.hi N ∧ Is Wb.lo m' ∧ Is Wb.hi N' ∧
      (∀ a b : ℚ, .num a ∈ₐ A → .num b ∈ₐ B →
        m - 5 / 2^54 ≤ a / (a + b) ∧ a / (a + b) ≤ N + 5 / 2^54 ∧ m' - 5 / 2^54 ≤ b / (a + b) ∧ b / (a + b) ≤ N' + 5 / 2^54) ∧
      (∀ a b : Fl ℚ, Representable a → Representable b → a ∈ₐ A → b ∈ₐ B → ∃ wa wb v v', fractionalWeightsS dbg a b = .ok (wa, wb) ∧
        Is wa v ∧ Is wb v' ∧ m - 5 / 2^53 ≤ v ∧ v ≤ N + 5 / 2^53 ∧ m' - 5 / 2^53 ≤ v' ∧ v' ≤ N' + 5 / 2^53) ∧
      (∃ a b : ℚ, .num a ∈ₐ A ∧ .num b ∈ₐ B ∧ a / (a + b) ≤ m + 5 / 2^54 ∧ N' ≤ b / (a + b) + 5 / 2^54) ∧
      (∃ a b : ℚ, .num a ∈ₐ A ∧ .num b ∈ₐ B ∧ N ≤ a / (a + b) + 5 / 2^54 ∧ b / (a + b) ≤ m' + 5 / 2^54) := by
  intro _
  have E := sumErr_bin (p := 53) (emin := -1074) (Ω := (2^53 - 1) * 2^971) (by norm_num) (by norm_num) 1023 (two_zpow_le_max (by omega)) (by omega)
  have E₁ := absErr_bin (p := 53) (emin := -1074) (Ω := (2^53 - 1) * 2^971) (by norm_num) (by norm_num) 0 (two_zpow_le_max (by omega)) (by norm_num)
  rw [zpow_zero] at E₁
  have iA := isA_of_finite hA; have iB := isA_of_finite hB
  have bA := mA A.hi.val (iA.mem_num.mpr ⟨iA.le hA.2.2, le_rfl⟩)
  have bB := mB B.hi.val (iB.mem_num.mpr ⟨iB.le hB.2.2, le_rfl⟩)
  have key := C89_error_partial E (by norm_num) E₁ (by decide +kernel) dbg A B hA hB rA rB h0 h1 h (by
    rw [show (1023:ℤ) = (1022:ℕ) + 1 by norm_num, zpow_add₀ (by norm_num), zpow_natCast, zpow_one]; linarith)
  have t1 : 2 * (2:ℚ)^(-53:ℤ) + 2^((0:ℤ) - 53) / 2 = 5 / 2^54 := by norm_num
  have t2 : 2 * ((5:ℚ) / 2^54) = 5 / 2^53 := by norm_num
  rw [t1, t2] at key
  exact key

/-- C89 is false in `double`, in two ways: rounding can make the lower weight exceed the upper one (a contract violation on valid operands), and so
can an overflow of one of the sums. -/
theorem C89_violated :
    let := binary64Fmt
    (∃ (A : Ivl (Fl ℚ)) (b : Fl ℚ), FiniteA (.ivl A) ∧ FiniteA (.scalar b) ∧ RepA (.ivl A) ∧ Representable b ∧ lt (.num 0) A.lo = true ∧ lt (.num 0) b = true ∧
      ∀ dbg, fractionalWeightsI dbg (.ivl A) (.scalar b) = .error .contract) ∧
    (∃ (A : Ivl (Fl ℚ)) (b : Fl ℚ), FiniteA (.ivl A) ∧ FiniteA (.scalar b) ∧ RepA (.ivl A) ∧ Representable b ∧ lt (.num 0) A.lo = true ∧ lt (.num 0) b = true ∧
      Fl.add A.hi b = .pinf ∧ ∀ dbg, fractionalWeightsI dbg (.ivl A) (.scalar b) = .error .contract) :=
  ⟨⟨⟨.num ((1 - 1/2^53)/2^53), .num (1/2^53)⟩, .num (1 + 1/2^52), ⟨rfl, rfl, by decide +kernel⟩, ⟨rfl, rfl, by decide +kernel⟩,
    ⟨by decide +kernel, by decide +kernel⟩, by decide +kernel, by decide +kernel, by decide +kernel, by decide +kernel⟩,
   ⟨⟨.num 1, .num (2^1023)⟩, .num (2^1023), ⟨rfl, rfl, by decide +kernel⟩, ⟨rfl, rfl, by decide +kernel⟩,
    ⟨by decide +kernel, by decide +kernel⟩, by decide +kernel, by decide +kernel, by decide +kernel, by decide +kernel, by decide +kernel⟩⟩

theorem C89_full_violated : ¬ C89_full := by
  intro h
  obtain ⟨⟨A, b, fA, fb, rA, rb, p1, p2, e⟩, -⟩ := C89_violated
  let _ := binary64Fmt
  have weak : ∀ x : Fl ℚ, lt (.num 0) x = true → le (.num 0) x = true := by intro x hx; grind
  obtain ⟨Wa, Wb, e', -⟩ := h ℚ (by decide +kernel) true (.ivl A) (.scalar b) fA fb rA ⟨rb, rb⟩ (weak _ p1) (weak _ p2) (.inl p1)
  rw [e] at e'; cases e'

/-! Non-trivial operands: `a ∈ [1, 3]`, `b ∈ [0, 2]` in `double`. -/
example : let := binary64Fmt
    FiniteA (.ivl ⟨.num 1, .num 3⟩ : Arg (Fl ℚ)) ∧ RepA (.ivl ⟨.num 1, .num 3⟩ : Arg (Fl ℚ)) ∧ FiniteA (.ivl ⟨.num 0, .num 2⟩ : Arg (Fl ℚ)) ∧
    RepA (.ivl ⟨.num 0, .num 2⟩ : Arg (Fl ℚ)) ∧ (Fmt.rnd (1 : ℚ) : Fl ℚ) = .num 1 ∧
    fractionalWeightsI true (.ivl ⟨.num 1, .num 3⟩) (.ivl ⟨.num (0:ℚ), .num 2⟩) =
      .ok (⟨.num (6004799503160661/18014398509481984), .num 1⟩, ⟨.num 0, .num (6004799503160661/9007199254740992)⟩) :=
  ⟨⟨rfl, rfl, by decide +kernel⟩, ⟨by decide +kernel, by decide +kernel⟩, ⟨rfl, rfl, by decide +kernel⟩, ⟨by decide +kernel, by decide +kernel⟩,
    by decide +kernel, by decide +kernel⟩
end Intervals.Props
