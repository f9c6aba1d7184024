import Verif.Props.Expr
import Verif.Props.IntExpr
import Verif.Props.Compare
/-!
# C47: the operations are inclusion isotone
-/
set_option linter.unusedSectionVars false
namespace Intervals.Props
open Intervals CppVal Spec CppNum

section float
variable {K : Type} [Field K] [LinearOrder K] [IsStrictOrderedRing K] [Fmt K] [FloorRing K]

/-- every point of `A` is a point of `A'` -/
def SubA {T : Type _} [CppVal T] (A A' : Arg T) : Prop := ∀ v, v ∈ₐ A → v ∈ₐ A'
/-- every point of `R` is a point of `R'` -/
def SubI {T : Type _} [CppVal T] (R R' : Ivl T) : Prop := ∀ v, v ∈ᵢ R → v ∈ᵢ R'

theorem subI_of_bounds {T : Type _} [CppVal T] [CppOrder T] {R R' : Ivl T} (h1 : R.lo ∈ᵢ R') (h2 : R.hi ∈ᵢ R') : SubI R R' :=
  fun _ hv => ⟨CppOrder.le_trans _ _ _ h1.1 hv.1, CppOrder.le_trans _ _ _ hv.2 h2.2⟩

theorem isotone2 {f : Fl K → Fl K → Fl K} {X Y X' Y' : Arg (Fl K)} {res res' : Outcome (Ivl (Fl K))} (hX : SubA X X') (hY : SubA Y Y')
    (h : FloatExact2 f X Y res) (h' : FloatExact2 f X' Y' res') (R' : Ivl (Fl K)) (e' : res' = .ok R') (hn : R' ≠ ⟨.nan, .nan⟩) :
    ∃ R, res = .ok R ∧ SubI R R' := by
  rcases h' with ⟨-, e⟩ | ⟨d, S, e, i, -, -⟩
  · rw [e'] at e; cases e; exact absurd rfl hn
  · rw [e'] at e; cases e
    rcases h with ⟨⟨a, b, ha, hb, hf⟩, -⟩ | ⟨-, R, e, -, ⟨a, b, ha, hb, hl⟩, ⟨a', b', ha', hb', hh⟩⟩
    · exact absurd hf (d a b (hX a ha) (hY b hb))
    · exact ⟨R, e, subI_of_bounds (hl ▸ i a b (hX a ha) (hY b hb)) (hh ▸ i a' b' (hX a' ha') (hY b' hb'))⟩

/-- C47 for `+`, `-`, `*` of floating-point intervals: unless the larger operation is indefinite. -/
theorem C47_float (dbg : Bool) (X Y X' Y' : Arg (Fl K)) (pX : ProperA X) (pY : ProperA Y) (pX' : ProperA X') (pY' : ProperA Y')
    (hX : SubA X X') (hY : SubA Y Y') (op : Bool → Arg (Fl K) → Arg (Fl K) → Outcome (Ivl (Fl K)))
    (hop : op ∈ [addI, subI, mulI]) (R' : Ivl (Fl K)) (e' : op dbg X' Y' = .ok R') (hn : R' ≠ ⟨.nan, .nan⟩) :
    ∃ R, op dbg X Y = .ok R ∧ SubI R R' := by
  simp only [List.mem_cons, List.not_mem_nil, or_false] at hop
  rcases hop with rfl | rfl | rfl
  · exact isotone2 hX hY (C30_add dbg X Y pX pY) (C30_add dbg X' Y' pX' pY') R' e' hn
  · exact isotone2 hX hY (C30_sub dbg X Y pX pY) (C30_sub dbg X' Y' pX' pY') R' e' hn
  · exact isotone2 hX hY (C31_mul dbg X Y pX pY) (C31_mul dbg X' Y' pX' pY') R' e' hn

theorem isotone1 {f : Fl K → Fl K} {X X' : Ivl (Fl K)} {res res' : Outcome (Ivl (Fl K))} (hX : SubI X X')
    (h : FloatExactV1 f X res) (h' : FloatExactV1 f X' res') : ∃ R R', res = .ok R ∧ res' = .ok R' ∧ SubI R R' := by
  obtain ⟨R, e, -, ⟨a, ha, hl⟩, ⟨b, hb, hh⟩⟩ := h
  obtain ⟨R', e', i, -, -⟩ := h'
  refine ⟨R, R', e, e', subI_of_bounds ?_ ?_⟩
  · have := i a (hX a ha); rw [CppOrder.eq_iff] at hl
    exact ⟨CppOrder.le_trans _ _ _ this.1 hl.1, CppOrder.le_trans _ _ _ hl.2 this.2⟩
  · have := i b (hX b hb); rw [CppOrder.eq_iff] at hh
    exact ⟨CppOrder.le_trans _ _ _ this.1 hh.1, CppOrder.le_trans _ _ _ hh.2 this.2⟩

theorem exactV_of {f : Fl K → Fl K} {X : Ivl (Fl K)} {res : Outcome (Ivl (Fl K))} (h : FloatExact1 f X res) : FloatExactV1 f X res := by
  obtain ⟨R, e, i, ⟨a, ha, hl⟩, ⟨b, hb, hh⟩⟩ := h
  have n1 := i a ha; have n2 := i b hb
  refine ⟨R, e, i, ⟨a, ha, ?_⟩, ⟨b, hb, ?_⟩⟩ <;> rw [CppOrder.eq_iff]
  · rw [hl] at n1 ⊢; exact ⟨n1.1, n1.1⟩
  · rw [hh] at n2 ⊢; exact ⟨n2.2, n2.2⟩

/-- C47 for the unary functions `+`, `-`, `square`, `cube`, `abs`, `floor`, `ceil`, `round` -/
theorem C47_float_unary (dbg : Bool) (X X' : Ivl (Fl K)) (pX : Proper X) (pX' : Proper X') (hX : SubI X X') (op : UnOp) :
    ∃ R R', op.ivl dbg X = .ok R ∧ op.ivl dbg X' = .ok R' ∧ SubI R R' := by
  cases op with
  | plus => exact ⟨X, X', C30_plus dbg X pX, C30_plus dbg X' pX', hX⟩
  | neg => exact isotone1 hX (exactV_of (C30_neg dbg X pX)) (exactV_of (C30_neg dbg X' pX'))
  | square => exact isotone1 hX (exactV_of (C33_square dbg X pX).1) (exactV_of (C33_square dbg X' pX').1)
  | cube => exact isotone1 hX (exactV_of (C33_cube dbg X pX)) (exactV_of (C33_cube dbg X' pX'))
  | abs => exact isotone1 hX (C33_abs dbg X pX).1 (C33_abs dbg X' pX').1
  | floor => exact isotone1 hX (exactV_of (C36_floor dbg X pX).1) (exactV_of (C36_floor dbg X' pX').1)
  | ceil => exact isotone1 hX (exactV_of (C36_ceil dbg X pX).1) (exactV_of (C36_ceil dbg X' pX').1)
  | round => exact isotone1 hX (exactV_of (C36_round dbg X pX).1) (exactV_of (C36_round dbg X' pX').1)

/-- C47 for division.  Full statement: for all divisors.  It is false if the larger divisor has a zero bound of the wrong sign
(`C47_div_violated`) or the smaller divisor a zero bound of the other sign (`C47_div_zero_violated`); proved if the larger divisor contains zero
strictly between its bounds, or if inclusion holds for the larger quotient (`C32_incl_partial`) and a zero bound of the smaller divisor
is a bound of the larger divisor, with its sign. -/
theorem C47_div_partial (dbg : Bool) (X Y X' Y' : Arg (Fl K)) (pX : ProperA X) (pY : ProperA Y) (pX' : ProperA X') (pY' : ProperA Y')
    (hX : SubA X X') (hY : SubA Y Y')
    (h0 : (lt Y'.lo (.num 0) = true ∧ lt (.num 0) Y'.hi = true) ∨
      ((ZeroSignOk Y' ∨ X'.lo = .ninf ∨ X'.hi = .pinf) ∧ ∀ b, b = Y.lo ∨ b = Y.hi → eq b (.num 0) = true → b = Y'.lo ∨ b = Y'.hi))
    (R' : Ivl (Fl K)) (e' : divI dbg X' Y' = .ok R') (hn : R' ≠ ⟨.nan, .nan⟩) :
    ∃ R, divI dbg X Y = .ok R ∧ SubI R R' := by
  have full : ∀ R, divI dbg X Y = .ok R → (le R'.lo .ninf = true ∧ le .pinf R'.hi = true) → SubI R R' := fun R _ h v hv =>
    ⟨CppOrder.le_trans _ _ _ h.1 (Fl.ninf_le (Fl.ne_nan_of_le_right hv.1)), CppOrder.le_trans _ _ _ (Fl.le_pinf (Fl.ne_nan_of_le_right hv.1)) h.2⟩
  rcases C32_nan dbg X' Y' pX' pY' with ⟨-, e⟩ | ⟨d, -⟩
  · rw [e'] at e; cases e; exact absurd rfl hn
  have dn : ∀ a b, a ∈ₐ X → b ∈ₐ Y → Fl.div a b ≠ .nan := fun a b ha hb => d a b (hX a ha) (hY b hb)
  rcases C32_nan dbg X Y pX pY with ⟨⟨a, b, ha, hb, hf⟩, -⟩ | ⟨-, R, e, p, -⟩
  · exact absurd hf (dn a b ha hb)
  refine ⟨R, e, ?_⟩
  by_cases hin : (lt Y'.lo (.num 0) && lt (.num 0) Y'.hi) = true
  · have hR : R' = ⟨.ninf, .pinf⟩ := by
      rw [divI_prog dbg X' Y' pX' pY', if_neg (by rw [div_nan_iff pX' pY']; push Not; exact d), if_pos hin] at e'
      cases e'; rfl
    exact full R e (by rw [hR]; simp)
  obtain ⟨hs, hz⟩ := h0.resolve_left (by simpa using hin)
  obtain ⟨R₁, hR₁, hh'⟩ := divHull_ok pX' pY' d
  have eR₁ : R₁ = R' := by
    rw [divI_prog dbg X' Y' pX' pY', if_neg (by rw [div_nan_iff pX' pY']; push Not; exact d), if_neg hin, hR₁] at e'
    cases e'; rfl
  subst eR₁
  have inc : ∀ a b, a ∈ₐ X' → b ∈ₐ Y' → ¬ eq b (.num 0) = true → Fl.div a b ∈ᵢ R₁ := by
    rcases C32_incl_partial dbg X' Y' pX' pY' hs with ⟨⟨a, b, ha, hb, h⟩, -⟩ | ⟨-, R₂, e₂, -, h⟩
    · exact absurd h (d a b ha hb)
    · rw [e'] at e₂; cases e₂; exact h
  have hx := lo_mem pX'; have hx' := hi_mem pX'
  have c := hh'.2.2
  simp only [corners, List.mem_cons, List.not_mem_nil, or_false] at c
  have zc : ∀ a b, a ∈ₐ X → b ∈ₐ Y → (b = Y'.lo ∨ b = Y'.hi) → Fl.div a b ∈ᵢ R₁ := by
    intro a b ha hb hb'
    have ba := mem_bounds.mp (hX a ha); have hbY := hY b hb
    have bt := div_betw_left ba.1 ba.2 (d _ _ (hX a ha) hbY) (d _ _ hx hbY) (d _ _ hx' hbY)
    have c1 : le R₁.lo (Fl.div X'.lo b) = true ∧ le (Fl.div X'.lo b) R₁.hi = true := by
      rcases hb' with rfl | rfl
      · exact c _ (.inl rfl)
      · exact c _ (.inr (.inl rfl))
    have c2 : le R₁.lo (Fl.div X'.hi b) = true ∧ le (Fl.div X'.hi b) R₁.hi = true := by
      rcases hb' with rfl | rfl
      · exact c _ (.inr (.inr (.inl rfl)))
      · exact c _ (.inr (.inr (.inr rfl)))
    refine ⟨?_, ?_⟩
    · rcases bt.1 with h | h
      · exact CppOrder.le_trans _ _ _ c1.1 h
      · exact CppOrder.le_trans _ _ _ c2.1 h
    · rcases bt.2 with h | h
      · exact CppOrder.le_trans _ _ _ h c1.2
      · exact CppOrder.le_trans _ _ _ h c2.2
  have corner : ∀ a b, a ∈ₐ X → b ∈ₐ Y → b = Y.lo ∨ b = Y.hi → Fl.div a b ∈ᵢ R₁ := by
    intro a b ha hb hb'
    by_cases h : eq b (.num 0) = true
    · exact zc a b ha hb (hz b hb' h)
    · exact inc a b (hX a ha) (hY b hb) h
  have hin' : ¬ (lt Y.lo (.num 0) && lt (.num 0) Y.hi) = true := by
    intro h
    apply hin
    simp only [Bool.and_eq_true] at h ⊢
    have h1 := (mem_bounds.mp (hY _ (lo_mem pY))).1; have h2 := (mem_bounds.mp (hY _ (hi_mem pY))).2
    have tr : ∀ {a b c : Fl K}, le a b = true → lt b c = true → lt a c = true := by intro a b c h h'; grind
    have tr' : ∀ {a b c : Fl K}, lt a b = true → le b c = true → lt a c = true := by intro a b c h h'; grind
    exact ⟨tr h1 h.1, tr' h.2 h2⟩
  obtain ⟨S, hS, hh⟩ := divHull_ok pX pY dn
  have eS : S = R := by
    rw [divI_prog dbg X Y pX pY, if_neg (by rw [div_nan_iff pX pY]; push Not; exact dn), if_neg hin', hS] at e
    cases e; rfl
  subst eS
  have all : ∀ v, v ∈ corners Fl.div X Y → v ∈ᵢ R₁ := by
    intro v hv
    simp only [corners, List.mem_cons, List.not_mem_nil, or_false] at hv
    rcases hv with rfl | rfl | rfl | rfl
    · exact corner _ _ (lo_mem pX) (lo_mem pY) (.inl rfl)
    · exact corner _ _ (lo_mem pX) (hi_mem pY) (.inr rfl)
    · exact corner _ _ (hi_mem pX) (lo_mem pY) (.inl rfl)
    · exact corner _ _ (hi_mem pX) (hi_mem pY) (.inr rfl)
  exact subI_of_bounds (all _ hh.1) (all _ hh.2.1)

/-- C47 for division, exactly: for operands `X'`, `Y'` with a definite quotient, the quotients of all smaller operands are contained if and only if the divisor
excludes zero or the quotient is the whole line.  (A zero of either sign is a point of every divisor that has a zero bound.) -/
theorem C47_div_iff (dbg : Bool) (X' Y' : Arg (Fl K)) (pX' : ProperA X') (pY' : ProperA Y') (R' : Ivl (Fl K)) (e' : divI dbg X' Y' = .ok R') (hn : R' ≠ ⟨.nan, .nan⟩) :
    (∀ X Y, ProperA X → ProperA Y → SubA X X' → SubA Y Y' → ∃ R, divI dbg X Y = .ok R ∧ SubI R R') ↔
      ¬ (.num 0 : Fl K) ∈ₐ Y' ∨ R' = ⟨.ninf, .pinf⟩ := by
  rcases C32_nan dbg X' Y' pX' pY' with ⟨-, e⟩ | ⟨d, -⟩
  · rw [e'] at e; cases e; exact absurd rfl hn
  constructor
  · intro h
    by_contra hc
    rw [not_or, not_not] at hc
    obtain ⟨h0, hR⟩ := hc
    have z1 : le (.num 0 : Fl K) .nzero = true := by simp [CppVal.le, Fl.ext]
    have z2 : le (.nzero : Fl K) (.num 0) = true := by simp [CppVal.le, Fl.ext]
    have h0' := mem_bounds.mp h0
    have hz : (.nzero : Fl K) ∈ₐ Y' := mem_bounds.mpr ⟨CppOrder.le_trans _ _ _ h0'.1 z1, CppOrder.le_trans _ _ _ z2 h0'.2⟩
    have hx := lo_mem pX'
    have key : ∀ b, b ∈ₐ Y' → Fl.div X'.lo b ∈ᵢ R' := by
      intro b hb
      have px : ProperA (.scalar X'.lo : Arg (Fl K)) := CppOrder.le_left _ _ (mem_bounds.mp hx).2
      have pb : ProperA (.scalar b : Arg (Fl K)) := CppOrder.le_left _ _ (mem_bounds.mp hb).2
      have sub : ∀ {c : Fl K} {Z : Arg (Fl K)}, c ∈ₐ Z → SubA (.scalar c) Z := by
        intro c Z hc v hv
        have hv := mem_bounds.mp hv
        have hc := mem_bounds.mp hc
        exact mem_bounds.mpr ⟨CppOrder.le_trans _ _ _ hc.1 hv.1, CppOrder.le_trans _ _ _ hv.2 hc.2⟩
      obtain ⟨R, r1, r2⟩ := h (.scalar X'.lo) (.scalar b) px pb (sub hx) (sub hb)
      rcases C32_nan dbg (.scalar X'.lo) (.scalar b) px pb with ⟨⟨u, v, hu, hv, hf⟩, -⟩ | ⟨d', -⟩
      · exact absurd hf (d u v (sub hx u hu) (sub hb v hv))
      obtain ⟨R₁, hR₁, hh'⟩ := divHull_ok px pb d'
      have hin : ¬ (lt (Arg.scalar b).lo (.num 0) && lt (.num 0) (Arg.scalar b).hi) = true := by
        intro h
        simp only [Arg.lo, Arg.hi] at h
        rw [Bool.and_eq_true] at h
        obtain ⟨_, _, g1⟩ := (CppOrder.lt_iff _ _).1 h.1
        obtain ⟨_, _, g2⟩ := (CppOrder.lt_iff _ _).1 h.2
        rcases CppOrder.le_total b (.num 0) pb (by simp [CppVal.le, Fl.ext]) with g | g <;> simp_all
      rw [divI_prog dbg _ _ px pb, if_neg (by rw [div_nan_iff px pb]; push Not; exact d'), if_neg hin, hR₁] at r1
      cases r1
      exact r2 _ (hh'.2.2 _ (by simp [corners, Arg.lo, Arg.hi]))
    have k1 := key _ h0
    have k2 := key _ hz
    have n1 := d _ _ hx h0
    apply hR
    obtain ⟨l, u⟩ := R'
    have fin : ∀ {l u : Fl K}, le l .ninf = true → le .pinf u = true → (⟨l, u⟩ : Ivl (Fl K)) = ⟨.ninf, .pinf⟩ := by
      intro l u h1 h2
      rw [Fl.le_ninf_iff.1 h1, Fl.pinf_le_iff.1 h2]
    have cs : (Fl.div X'.lo (.num 0) = .pinf ∧ Fl.div X'.lo .nzero = .ninf) ∨ (Fl.div X'.lo (.num 0) = .ninf ∧ Fl.div X'.lo .nzero = .pinf) := by
      revert n1
      cases X'.lo with
      | nan => simp [Fl.div, Fl.isNan]
      | ninf => intro; right; simp [Fl.div, Fl.isNan, Fl.isInf, Fl.infS, Fl.signBit]
      | pinf => intro; left; simp [Fl.div, Fl.isNan, Fl.isInf, Fl.infS, Fl.signBit]
      | nzero => simp [Fl.div, Fl.isNan, Fl.isInf, Fl.isZero]
      | num k =>
        intro n1
        have hk : k ≠ 0 := by rintro rfl; simp [Fl.div, Fl.isNan, Fl.isInf, Fl.isZero] at n1
        by_cases hs : k < 0
        · right; simp [Fl.div, Fl.isNan, Fl.isInf, Fl.isZero, Fl.infS, Fl.signBit, hk, hs]
        · left; simp [Fl.div, Fl.isNan, Fl.isInf, Fl.isZero, Fl.infS, Fl.signBit, hk, hs]
    rcases cs with ⟨c1, c2⟩ | ⟨c1, c2⟩ <;> rw [c1] at k1 <;> rw [c2] at k2
    · exact fin k2.1 k1.2
    · exact fin k1.1 k2.2
  · intro h X Y pX pY hX hY
    rcases h with h | rfl
    · refine isotone2 hX hY (C32_exact dbg X Y pX pY fun hc => h (hY _ hc)) (C32_exact dbg X' Y' pX' pY' h) R' e' hn
    · rcases C32_nan dbg X Y pX pY with ⟨⟨a, b, ha, hb, hf⟩, -⟩ | ⟨-, R, e, p, -⟩
      · exact absurd hf (d a b (hX a ha) (hY b hb))
      · exact ⟨R, e, fun v hv => ⟨Fl.ninf_le (Fl.ne_nan_of_le_right hv.1), Fl.le_pinf (Fl.ne_nan_of_le_right hv.1)⟩⟩

/-- the quotient of `[1,2] / [-3,-1]` contains all smaller quotients, so does `[1,+inf] / [-3,+0]`, which is the whole line; `[1,2] / [+0,3]` does not -/
example : let := exactFmt ℚ; (∀ X Y : Arg (Fl ℚ), ProperA X → ProperA Y → SubA X (.ivl ⟨.num 1, .num 2⟩) → SubA Y (.ivl ⟨.num (-3), .num (-1)⟩) →
      ∃ R, divI true X Y = .ok R ∧ SubI R ⟨.num (-2), .num (-1/3)⟩) ∧
    (∀ X Y : Arg (Fl ℚ), ProperA X → ProperA Y → SubA X (.ivl ⟨.num 1, .pinf⟩) → SubA Y (.ivl ⟨.num (-3), .num 0⟩) →
      ∃ R, divI true X Y = .ok R ∧ SubI R ⟨.ninf, .pinf⟩) ∧
    ¬ (∀ X Y : Arg (Fl ℚ), ProperA X → ProperA Y → SubA X (.ivl ⟨.num 1, .num 2⟩) → SubA Y (.ivl ⟨.num 0, .num 3⟩) →
      ∃ R, divI true X Y = .ok R ∧ SubI R ⟨.num (1/3), .pinf⟩) := by
  letI := exactFmt ℚ
  refine ⟨(C47_div_iff true _ _ (by decide) (by decide) _ (by decide +kernel) (by decide)).2 (.inl fun h => absurd (mem_bounds.mp h) (by decide)),
    (C47_div_iff true _ _ (by decide) (by decide) _ (by decide +kernel) (by decide)).2 (.inr rfl), fun h => ?_⟩
  rcases (C47_div_iff true _ _ (by decide) (by decide) _ (by decide +kernel) (by decide)).1 h with h | h
  · exact h (mem_bounds.mpr (by decide))
  · exact absurd h (by decide)

/-- C47 is false for division if the smaller divisor has a zero bound of the other sign: `[-0,1] ⊆ [+0,2]`, but `1/[-0,1] = [-inf,1]` is not
contained in `1/[+0,2] = [1/2,inf]`; the larger divisor has a zero bound of the right sign. -/
theorem C47_div_zero_violated : letI := exactFmt ℚ
    SubI (T := Fl ℚ) ⟨.nzero, .num 1⟩ ⟨.num 0, .num 2⟩ ∧ ZeroSignOk (K := ℚ) (.ivl ⟨.num 0, .num 2⟩) ∧
    divI (T := Fl ℚ) true (.scalar (.num 1)) (.ivl ⟨.nzero, .num 1⟩) = .ok ⟨.ninf, .num 1⟩ ∧
    divI (T := Fl ℚ) true (.scalar (.num 1)) (.ivl ⟨.num 0, .num 2⟩) = .ok ⟨.num (1/2), .pinf⟩ ∧
    ¬ SubI (T := Fl ℚ) ⟨.ninf, .num 1⟩ ⟨.num (1/2), .pinf⟩ := by
  refine ⟨subI_of_bounds (by decide +kernel) (by decide +kernel), by unfold ZeroSignOk; decide +kernel, by decide +kernel, by decide +kernel, fun h => ?_⟩
  exact absurd (h .ninf (by decide +kernel)) (by decide +kernel)

/-- C47 is false for division: `[-1,-1/2] ⊆ [-1,+0]`, but `1/[-1,-1/2] = [-2,-1]` is not contained in `1/[-1,+0] = [-1,inf]`. -/
theorem C47_div_violated : letI := exactFmt ℚ
    SubI (T := Fl ℚ) ⟨.num (-1), .num (-1/2)⟩ ⟨.num (-1), .num 0⟩ ∧
    divI (T := Fl ℚ) true (.scalar (.num 1)) (.ivl ⟨.num (-1), .num (-1/2)⟩) = .ok ⟨.num (-2), .num (-1)⟩ ∧
    divI (T := Fl ℚ) true (.scalar (.num 1)) (.ivl ⟨.num (-1), .num 0⟩) = .ok ⟨.num (-1), .pinf⟩ ∧
    ¬ SubI (T := Fl ℚ) ⟨.num (-2), .num (-1)⟩ ⟨.num (-1), .pinf⟩ := by
  refine ⟨subI_of_bounds (by decide +kernel) (by decide +kernel), by decide +kernel, by decide +kernel, fun h => ?_⟩
  exact absurd (h (.num (-2)) (by decide +kernel)) (by decide +kernel)
end float

section generic
variable {T : Type _} [CppVal T] [CppOrder T]

/-- C47 for the comparisons: a larger operand admits at least the same truth values. -/
theorem C47_compare (dbg : Bool) (X Y X' Y' : Arg T) (pX : ProperA X) (pY : ProperA Y) (pX' : ProperA X') (pY' : ProperA Y')
    (hX : SubA X X') (hY : SubA Y Y') (op : Bool → Arg T → Arg T → Outcome BoolSet) (hop : op ∈ [opEq, opNe, opLt, opLe, opGt, opGe]) :
    ∃ R R', op dbg X Y = .ok R ∧ op dbg X' Y' = .ok R' ∧ ∀ b, BoolSet.contains R b = true → BoolSet.contains R' b = true := by
  have key : ∀ {f : T → T → Bool} {g : Arg T → Arg T → Outcome BoolSet},
      (∀ A B, ProperA A → ProperA B → ∃ R, g A B = .ok R ∧ ExactCmp f A B R) →
      ∃ R R', g X Y = .ok R ∧ g X' Y' = .ok R' ∧ ∀ b, BoolSet.contains R b = true → BoolSet.contains R' b = true := fun h => by
    obtain ⟨R, e, hR⟩ := h X Y pX pY
    obtain ⟨R', e', hR'⟩ := h X' Y' pX' pY'
    refine ⟨R, R', e, e', fun b hb => ?_⟩
    obtain ⟨u, v, hu, hv, h⟩ := (hR b).mp hb
    exact (hR' b).mpr ⟨u, v, hX u hu, hY v hv, h⟩
  simp only [List.mem_cons, List.not_mem_nil, or_false] at hop
  rcases hop with rfl | rfl | rfl | rfl | rfl | rfl
  · exact key fun A B => C09_eq dbg A B
  · exact key fun A B => C09_ne dbg A B
  · exact key fun A B => C09_lt dbg A B
  · exact key fun A B => C09_le dbg A B
  · exact key fun A B => C09_gt dbg A B
  · exact key fun A B => C09_ge dbg A B

/-- C47 for `min` and `max` -/
theorem C47_min_max (dbg : Bool) (X Y X' Y' : Arg T) (pX : ProperA X) (pY : ProperA Y) (pX' : ProperA X') (pY' : ProperA Y')
    (hX : SubA X X') (hY : SubA Y Y') :
    (∃ R R', minI dbg X Y = .ok R ∧ minI dbg X' Y' = .ok R' ∧ SubI R R') ∧
    (∃ R R', maxI dbg X Y = .ok R ∧ maxI dbg X' Y' = .ok R' ∧ SubI R R') := by
  obtain ⟨R, e, -, h⟩ := C16_min dbg X Y pX pY
  obtain ⟨R', e', -, h'⟩ := C16_min dbg X' Y' pX' pY'
  obtain ⟨S, f, -, k⟩ := C16_max dbg X Y pX pY
  obtain ⟨S', f', -, k'⟩ := C16_max dbg X' Y' pX' pY'
  refine ⟨⟨R, R', e, e', fun v hv => ?_⟩, ⟨S, S', f, f', fun v hv => ?_⟩⟩
  · obtain ⟨a, b, ha, hb, rfl⟩ := (h v).mp hv
    exact (h' _).mpr ⟨a, b, hX a ha, hY b hb, rfl⟩
  · obtain ⟨a, b, ha, hb, rfl⟩ := (k v).mp hv
    exact (k' _).mpr ⟨a, b, hX a ha, hY b hb, rfl⟩

/-- C47 for `if_else`: monotone in the condition and in the branches -/
theorem C47_if_else [CppLimits T] [CppLawfulLimits T] (c c' : BoolSet) (t f t' f' : Ivl T)
    (hc : ∀ b, BoolSet.contains c b = true → BoolSet.contains c' b = true)
    (pt : BoolSet.contains c true = true → Proper t) (pf : BoolSet.contains c false = true → Proper f)
    (pt' : BoolSet.contains c' true = true → Proper t') (pf' : BoolSet.contains c' false = true → Proper f')
    (ht : SubI t t') (hf : SubI f f') :
    ∃ R R', Ivl.ifElse c t f = .ok R ∧ Ivl.ifElse c' t' f' = .ok R' ∧ SubI R R' := by
  obtain ⟨R, e, hR, hR2⟩ := C15_if_else c t f pt pf
  obtain ⟨R', e', -, hR'⟩ := C15_if_else c' t' f' pt' pf'
  refine ⟨R, R', e, e', ?_⟩
  by_cases h0 : branches c t f = []
  · have := hR h0
    intro v hv
    have h2 := CppOrder.le_trans _ _ _ hv.1 hv.2
    simp only [Ivl.assigned, CppVal.gt, Bool.not_eq_false', CppOrder.lt_iff] at this
    rw [h2] at this; simp at this
  · obtain ⟨p, hull⟩ := hR2 h0
    have bsub : ∀ B ∈ branches c t f, Proper B ∧ ∃ B' ∈ branches c' t' f', SubI B B' := by
      intro B hB
      simp only [branches, List.mem_append] at hB ⊢
      rcases hB with hB | hB
      · split at hB
        · next h => simp only [List.mem_singleton] at hB; subst hB; exact ⟨pt h, t', .inl (by simp [hc true h]), ht⟩
        · simp at hB
      · split at hB
        · next h => simp only [List.mem_singleton] at hB; subst hB; exact ⟨pf h, f', .inr (by simp [hc false h]), hf⟩
        · simp at hB
    have mem : ∀ B ∈ branches c t f, B.lo ∈ᵢ R' ∧ B.hi ∈ᵢ R' := by
      intro B hB
      obtain ⟨pB, B', hB', s⟩ := bsub B hB
      have hne : branches c' t' f' ≠ [] := List.ne_nil_of_mem hB'
      have h' := (hR' hne).2.1 B' hB'
      have hl := s B.lo ⟨CppOrder.le_left _ _ pB, pB⟩
      have hh := s B.hi ⟨pB, CppOrder.le_right _ _ pB⟩
      exact ⟨⟨CppOrder.le_trans _ _ _ h'.1 hl.1, CppOrder.le_trans _ _ _ hl.2 h'.2⟩,
        ⟨CppOrder.le_trans _ _ _ h'.1 hh.1, CppOrder.le_trans _ _ _ hh.2 h'.2⟩⟩
    obtain ⟨-, ⟨B1, m1, q1⟩, ⟨B2, m2, q2⟩⟩ := hull
    rw [CppOrder.eq_iff] at q1 q2
    have k1 := (mem B1 m1).1; have k2 := (mem B2 m2).2
    exact subI_of_bounds ⟨CppOrder.le_trans _ _ _ k1.1 q1.2, CppOrder.le_trans _ _ _ q1.1 k1.2⟩
      ⟨CppOrder.le_trans _ _ _ k2.1 q2.2, CppOrder.le_trans _ _ _ q2.1 k2.2⟩
end generic

section int
variable {n : Nat}
theorem int_isotone2 {g : Int → Int → Option Int} {X Y X' Y' : Arg (SInt n)} {res res' : Outcome (Ivl (SInt n))}
    (hX : ∀ a, InI a X → InI a X') (hY : ∀ a, InI a Y → InI a Y') (h : ExactInt2 g X Y res) (h' : ExactInt2 g X' Y' res')
    (R' : Ivl (SInt n)) (e' : res' = .ok R') : ∃ R, res = .ok R ∧ R'.lo.val ≤ R.lo.val ∧ R.hi.val ≤ R'.hi.val := by
  rcases h' with ⟨-, e⟩ | ⟨d, S, e, i, -, -⟩
  · rw [e'] at e; cases e
  · rw [e'] at e; cases e
    rcases h with ⟨⟨a, b, ha, hb, hf⟩, -⟩ | ⟨-, R, e, -, ⟨a, b, ha, hb, hl⟩, ⟨a', b', ha', hb', hh⟩⟩
    · exact absurd (d a b (hX a ha) (hY b hb)) hf
    · exact ⟨R, e, (i a b _ (hX a ha) (hY b hb) hl).1, (i a' b' _ (hX a' ha') (hY b' hb') hh).2⟩

/-- C47 for integers: if the larger operation is defined, so is the smaller one, and its result is contained. -/
theorem C47_int (dbg : Bool) (X Y X' Y' : Arg (SInt n)) (iX : Inhab X) (iY : Inhab Y) (iX' : Inhab X') (iY' : Inhab Y')
    (hX : ∀ a, InI a X → InI a X') (hY : ∀ a, InI a Y → InI a Y') (op : Bool → Arg (SInt n) → Arg (SInt n) → Outcome (Ivl (SInt n)))
    (hop : op ∈ [addI, subI, mulI, divI]) (R' : Ivl (SInt n)) (e' : op dbg X' Y' = .ok R') :
    ∃ R, op dbg X Y = .ok R ∧ R'.lo.val ≤ R.lo.val ∧ R.hi.val ≤ R'.hi.val := by
  simp only [List.mem_cons, List.not_mem_nil, or_false] at hop
  rcases hop with rfl | rfl | rfl | rfl
  · exact int_isotone2 hX hY (C25_add dbg X Y iX iY) (C25_add dbg X' Y' iX' iY') R' e'
  · exact int_isotone2 hX hY (C25_sub dbg X Y iX iY) (C25_sub dbg X' Y' iX' iY') R' e'
  · exact int_isotone2 hX hY (C26_mul dbg X Y iX iY) (C26_mul dbg X' Y' iX' iY') R' e'
  · exact int_isotone2 hX hY (C27_div dbg X Y iX iY) (C27_div dbg X' Y' iX' iY') R' e'
end int

/-! Nested operands: `[1,2] ⊆ [0,3]` as 32-bit integers, and as floating-point intervals. -/
example : ∀ a, InI a (.ivl ⟨i32 1, i32 2⟩ : Arg (SInt 31)) → InI a (.ivl ⟨i32 0, i32 3⟩ : Arg (SInt 31)) := by
  intro a h; simp [InI, i32] at h ⊢; omega
example : SubI (T := Fl ℚ) ⟨.num 1, .num 2⟩ ⟨.nzero, .pinf⟩ := subI_of_bounds (by decide +kernel) (by decide +kernel)
end Intervals.Props
