import Verif.Spec.RealExpr
import Verif.Props.Expr
import Verif.Props.Trig
import Verif.Props.Atan2
import Verif.Props.PowFlt
import Verif.Props.NanElem
/-!
# C74: interval evaluation of a real expression with elementary functions encloses its value
-/
set_option linter.unusedSectionVars false
set_option linter.unusedSimpArgs false
namespace Intervals.Props
open Intervals CppVal Spec Fl

attribute [local instance] exactFmt

/-- a number is in an interval if a floating-point value of the same value is -/
theorem num_mem {v : Fl ℝ} {k : ℝ} {R : Ivl (Fl ℝ)} (h : Is v k) (hm : v ∈ᵢ R) : .num k ∈ᵢ R := by
  rw [is_iff_ext] at h
  have h2 := hm
  unfold Pt at h2 ⊢
  rwa [le_of_ext rfl h, le_of_ext h rfl] at h2

/-- what an operation must do -/
def Good (res : Outcome (Ivl (Fl ℝ))) (v : ℝ) : Prop := ∃ R, res = .ok R ∧ (R = nanIvl ∨ .num v ∈ᵢ R)

theorem good_unit {v : ℝ} (h : -1 ≤ v ∧ v ≤ 1) {res} (e : res = .ok (⟨.num (-1), .num 1⟩ : Ivl (Fl ℝ))) : Good res v :=
  ⟨_, e, .inr ⟨by simp [h.1], by simp [h.2]⟩⟩

theorem proper_of_num {x : ℝ} {R : Ivl (Fl ℝ)} (h : .num x ∈ᵢ R) : Proper R := CppOrder.le_trans _ _ _ h.1 h.2

theorem libm_nan : LibmNan ℝ := by
  refine ⟨?_, ?_, ?_, ?_, ?_, ?_, ?_, ?_, ?_, fun x => ⟨?_, ?_⟩⟩ <;> simp [Libm.sqrt, Libm.cbrt, Libm.log, Libm.exp, Libm.cos, Libm.tan,
    Libm.asin, Libm.acos, Libm.atan, Libm.atan2, atan2R, Fl.isNan]
theorem pi_pos' : PiPos ℝ := by
  have hp := Real.pi_pos
  constructor
  · exact (is_pi.neg.lt_iff is_pi).mpr (by linarith)
  · exact ((is_pi.neg.div (Is.num 2) (by norm_num)).lt_iff (is_pi.div (Is.num 2) (by norm_num))).mpr (by linarith)

theorem eq_num_of_is {a : Fl ℝ} {k : ℝ} (h : Is a k) (h0 : k ≠ 0) : a = .num k := by
  obtain ⟨h1, h2⟩ := h
  cases a <;> simp [isFinite, val] at h1 h2
  · exact absurd h2.symm h0
  · rw [h2]

/-- the tangent of an interval with an infinite bound -/
theorem tan_inf (dbg : Bool) {X : Ivl (Fl ℝ)} (hX : Proper X) (hi : ¬(X.lo.isFinite = true ∧ X.hi.isFinite = true)) :
    tanI dbg X = .ok ⟨.ninf, .pinf⟩ ∨ tanI dbg X = .ok nanIvl := by
  have hp := Real.pi_pos
  have h2 : Is (Fl.div (Fl.neg (Libm.pi : Fl ℝ)) (.num 2)) (-Real.pi/2) := is_pi.neg.div (Is.num 2) (by norm_num)
  have h3 : Is (Fl.div (Libm.pi : Fl ℝ) (.num 2)) (Real.pi/2) := is_pi.div (Is.num 2) (by norm_num)
  unfold tanI
  rw [show X.assigned = true from Intervals.assigned_of_proper (X := .ivl X) hX, expectsDebug_true, ok_bind]
  simp only []
  by_cases hl : X.lo.isFinite = true
  · left
    have hh : X.hi = .pinf := by
      have h2 : ¬ X.hi.isFinite = true := fun h => hi ⟨hl, h⟩
      unfold Proper at hX
      cases e1 : X.lo <;> cases e2 : X.hi <;> simp [e1, e2, isFinite] at *
    obtain ⟨lo, L, ew, hL, -⟩ := Is.wraparound (Is.of_finite hl) h2 h3 (by linarith)
    have hadd : Fl.add X.hi (Fl.sub lo X.lo) = .pinf := by
      have := (hL.sub (Is.of_finite hl)).1
      rw [hh]; generalize Fl.sub lo X.lo = d at this
      cases d <;> simp [isFinite, Fl.add, isNan, isInf] at this ⊢
    have hsub : Fl.sub .pinf lo = .pinf := by
      have := hL.neg.1
      unfold Fl.sub
      generalize Fl.neg lo = d at this
      cases d <;> simp [isFinite, Fl.add, isNan, isInf] at this ⊢
    rw [ew, ok_bind, hadd, hsub, if_pos (show CppVal.ge Fl.pinf (Libm.pi : Fl ℝ) = true from le_pinf is_pi.ne_nan)]
    exact make_ok_of_le (rfl : le (Fl.ninf : Fl ℝ) .pinf = true)
  · right
    have hx : X.lo = .ninf ∨ X.lo = .pinf := by
      unfold Proper at hX
      cases e1 : X.lo <;> simp [e1, isFinite] at *
    have hw : Fl.wraparound X.lo (Fl.div (Fl.neg (Libm.pi : Fl ℝ)) (.num 2)) (Fl.div (Libm.pi : Fl ℝ) (.num 2)) = .ok .nan := by
      rw [eq_num_of_is h2 (by linarith), eq_num_of_is h3 (by linarith)]
      exact wrap_inf hx (by linarith)
    rw [hw, ok_bind]
    simp [sub_nan, add_nan, CppVal.ge, le_nan_r, libm_nan.2.2.2.2.2.1, fub_nan]

theorem fn_good (dbg : Bool) (op : FnOp) {R : Ivl (Fl ℝ)} {x v : ℝ} (hR : R = nanIvl ∨ .num x ∈ᵢ R) (hd : op.Dom R) (hv : op.real x = some v) :
    Good (op.ivl dbg R) v := by
  rcases hR with rfl | hx
  · obtain ⟨n1, n2, n3, n4, -⟩ := C73_unary_partial libm_nan pi_pos' dbg
    obtain ⟨c1, c2, c3⟩ := C73_cos_violated (K := ℝ) pi_pos' dbg
    cases op with
    | sqrt => exact absurd hd (by simp [FnOp.Dom, nanIvl])
    | log => exact absurd hd (by simp [FnOp.Dom, nanIvl])
    | asin => exact absurd hd (by simp [FnOp.Dom, nanIvl])
    | acos => exact absurd hd (by simp [FnOp.Dom, nanIvl])
    | cbrt => exact ⟨_, n1, .inl rfl⟩
    | exp => exact ⟨_, n2, .inl rfl⟩
    | atan => exact ⟨_, n3, .inl rfl⟩
    | tan => exact ⟨_, n4, .inl rfl⟩
    | cos => cases hv; exact good_unit ⟨Real.neg_one_le_cos _, Real.cos_le_one _⟩ c1
    | sin => cases hv; exact good_unit ⟨Real.neg_one_le_sin _, Real.sin_le_one _⟩ c2
    | frac => cases hv; exact ⟨_, c3, .inr ⟨by simp, by simp [(Int.fract_lt_one _).le]⟩⟩
  · have pR := proper_of_num hx
    have key : ∀ {f : ℝ → ℝ} {res}, InclReal f R res → Good res (f x) := fun h => by
      obtain ⟨S, e, h⟩ := h; exact ⟨S, e, .inr (h x hx)⟩
    have keyR : ∀ {f : ℝ → ℝ} {res}, RealRange f R res → Good res (f x) := fun h => by
      obtain ⟨S, e, h, -⟩ := h; exact ⟨S, e, .inr (h x hx)⟩
    obtain ⟨k1, k2, -, k4, k5, k6⟩ := C37_real dbg R pR
    cases op with
    | sqrt =>
      simp only [FnOp.real] at hv; split at hv <;> cases hv
      exact key (k1 hd)
    | cbrt => cases hv; exact key k2
    | log =>
      simp only [FnOp.real] at hv; split at hv <;> cases hv
      rename_i h0
      obtain ⟨S, e, h, -⟩ := C37_log log_mono dbg R pR hd
      refine ⟨S, e, .inr ?_⟩
      have := h _ hx
      simpa [Libm.log, h0.not_gt, h0.ne', Fmt.rnd] using this
    | exp => cases hv; exact key k4
    | atan => cases hv; exact key k5
    | asin =>
      simp only [FnOp.real] at hv; split at hv <;> cases hv
      exact key (k6 hd.1 hd.2).1
    | acos =>
      simp only [FnOp.real] at hv; split at hv <;> cases hv
      exact key (k6 hd.1 hd.2).2
    | cos =>
      cases hv
      by_cases hf : R.lo.isFinite = true ∧ R.hi.isFinite = true
      · exact keyR (C38_cos dbg R ⟨hf.1, hf.2, pR⟩)
      · exact good_unit ⟨Real.neg_one_le_cos _, Real.cos_le_one _⟩ (C38_infinite dbg R pR hf).1
    | sin =>
      cases hv
      by_cases hf : R.lo.isFinite = true ∧ R.hi.isFinite = true
      · exact keyR (C38_sin dbg R ⟨hf.1, hf.2, pR⟩)
      · exact good_unit ⟨Real.neg_one_le_sin _, Real.sin_le_one _⟩ (C38_infinite dbg R pR hf).2
    | tan =>
      simp only [FnOp.real] at hv; split at hv <;> cases hv
      by_cases hf : R.lo.isFinite = true ∧ R.hi.isFinite = true
      · obtain ⟨t1, t2⟩ := C39_tan_partial dbg R ⟨hf.1, hf.2, pR⟩
        rcases hd with hd | ⟨y, h1, h2⟩
        · exact keyR (t1 hd)
        · have a := ((isI_of_finite hf.1 hf.2).mem_num.mp h1).1
          have b := ((isI_of_finite hf.1 hf.2).mem_num.mp h2).2
          obtain ⟨e, h⟩ := t2 (by linarith)
          exact ⟨_, e, .inr (h x)⟩
      · rcases tan_inf dbg pR hf with e | e
        · exact ⟨_, e, .inr ⟨by simp, by simp⟩⟩
        · exact ⟨_, e, .inl rfl⟩
    | frac =>
      cases hv
      by_cases hf : R.lo.isFinite = true ∧ R.hi.isFinite = true
      · obtain ⟨S, e, -, -, h, -⟩ := C36_frac (K := ℝ) rfl dbg R pR hf.1 hf.2
        refine ⟨S, e, .inr ?_⟩
        exact num_mem ((Is.num x).sub (Is.ofIntF ⌊x⌋ false)) (h _ hx)
      · have : fracI dbg R = .ok ⟨.num 0, .num 1⟩ := by
          have hne : ne (Fl.floor R.lo) (Fl.floor R.hi) = true := by
            obtain ⟨a1, a2⟩ := hx
            have hI : ∀ k : ℝ, (Fl.ofInt ⌊k⌋ false : Fl ℝ) ≠ .ninf ∧ (Fl.ofInt ⌊k⌋ false : Fl ℝ) ≠ .pinf := fun k => by
              unfold Fl.ofInt; split <;> simp [Fl.zeroS]
            have hF : ∀ a : Fl ℝ, le .pinf a = true → a = .pinf := fun a h => by cases a <;> simp at h ⊢
            have hG : ∀ a : Fl ℝ, le a .ninf = true → a = .ninf := fun a h => by cases a <;> simp at h ⊢
            have hE : ∀ a b : Fl ℝ, (a = .ninf ∧ b ≠ .ninf) ∨ (b = .pinf ∧ a ≠ .pinf) → ne a b = true := fun a b h => by
              unfold CppVal.ne
              rw [Bool.not_eq_true', Bool.eq_false_iff, Ne, CppOrder.eq_iff]
              rintro ⟨h1, h2⟩
              rcases h with ⟨rfl, h⟩ | ⟨rfl, h⟩
              · exact h (hG _ h2)
              · exact h (hF _ h2)
            have hN : ∀ a : Fl ℝ, a ≠ .ninf → Fl.floor a ≠ .ninf := fun a h => by
              cases a <;> simp [Fl.floor] at h ⊢; exact (hI _).1
            have hP : ∀ a : Fl ℝ, a ≠ .pinf → Fl.floor a ≠ .pinf := fun a h => by
              cases a <;> simp [Fl.floor] at h ⊢; exact (hI _).2
            have n1 : R.lo ≠ .pinf := fun h => by rw [h] at a1; simp at a1
            have n2 : R.hi ≠ .ninf := fun h => by rw [h] at a2; simp at a2
            by_cases c1 : R.lo = .ninf
            · exact hE _ _ (.inl ⟨by rw [c1]; rfl, hN _ n2⟩)
            by_cases c2 : R.hi = .pinf
            · exact hE _ _ (.inr ⟨by rw [c2]; rfl, hP _ n1⟩)
            exfalso
            have m1 : R.lo ≠ .nan := fun h => by rw [h] at a1; simp at a1
            have m2 : R.hi ≠ .nan := fun h => by rw [h] at a2; simp at a2
            have fF : ∀ a : Fl ℝ, a ≠ .nan → a ≠ .ninf → a ≠ .pinf → a.isFinite = true := fun a h1 h2 h3 => by cases a <;> simp [isFinite] at h1 h2 h3 ⊢
            exact hf ⟨fF _ m1 c1 n1, fF _ m2 n2 c2⟩
          unfold fracI
          rw [show R.assigned = true from Intervals.assigned_of_proper (X := .ivl R) pR, expectsDebug_true, ok_bind]
          simp only [hne, if_true]
          exact make_ok_of_le (by simp)
        exact ⟨_, this, .inr ⟨by simp, by simp [(Int.fract_lt_one _).le]⟩⟩

theorem nonneg_lo {A : Arg (Fl ℝ)} {a : ℝ} (ha : .num a ∈ₐ A) (pos : ∀ x : ℝ, .num x ∈ₐ A → 0 ≤ x) : le (.num 0) A.lo = true := by
  obtain ⟨h1, h2⟩ := mem_bounds.mp ha
  have key : ∀ x : ℝ, le A.lo (.num x) = true → x ≤ a → 0 ≤ x := fun x hx hxa =>
    pos x (mem_bounds.mpr ⟨hx, CppOrder.le_trans _ _ _ (by simpa using hxa) h2⟩)
  revert h1 key; generalize A.lo = l; intro h1 key
  cases l with
  | nan => simp at h1
  | ninf => have := key (min a 0 - 1) (by simp) (by have := min_le_left a 0; linarith); have := min_le_right a 0; linarith
  | pinf => simp
  | nzero => simp
  | num k => simpa using key k (by simp) (by simpa using h1)

theorem finite_of_single {B : Arg (Fl ℝ)} {b : ℝ} {n : ℤ} (hb : .num b ∈ₐ B) (hn : ∀ y : ℝ, .num y ∈ₐ B ↔ y = n) : FiniteA B := by
  have hB := mem_bounds.mp hb
  have eb := (hn b).mp hb
  refine ⟨?_, ?_, properA_of_mem hb⟩
  · have key : le B.lo (.num (b - 1)) = true → False := fun h => by
      have := (hn (b - 1)).mp (mem_bounds.mpr ⟨h, CppOrder.le_trans _ _ _ (by simp) hB.2⟩); linarith
    obtain ⟨h1, -⟩ := hB
    revert h1 key; generalize B.lo = l; intro h1 key
    cases l <;> simp [isFinite] at h1 key ⊢
  · have key : le (.num (b + 1)) B.hi = true → False := fun h => by
      have := (hn (b + 1)).mp (mem_bounds.mpr ⟨CppOrder.le_trans _ _ _ hB.1 (by simp), h⟩); linarith
    obtain ⟨-, h1⟩ := hB
    revert h1 key; generalize B.hi = l; intro h1 key
    cases l <;> simp [isFinite] at h1 key ⊢

theorem op2_good (dbg : Bool) (op : Op2) {A B : Arg (Fl ℝ)} {a b v : ℝ} (hA : Encl (.num a) A) (hB : Encl (.num b) B)
    (ns : ¬ ((∃ v, A = .scalar v) ∧ ∃ w, B = .scalar w)) (cA : A ≠ .scalar .nan) (hd : op.Dom A B) (hv : op.real a b = some v) : Good (op.ivl dbg A B) v := by
  cases op with
  | arith op =>
    have is := is_binF op (Is.num a) (Is.num b) hv
    obtain ⟨R, e, h⟩ := bin_encl dbg op hA hB ns (fun h => by
      subst h
      refine ⟨hd, ?_, fun h => absurd h cA⟩
      simp only [Op2.real, BinOp.fld] at hv
      split at hv
      · cases hv
      · next h => rw [(Is.num b).eq_iff (Is.num 0)]; exact h) (fun h => by rcases h with rfl | rfl <;> exact hd)
    refine ⟨R, e, ?_⟩
    rcases h.2 with h | h
    · rcases nan_cases h with h | h
      · cases h
      · cases h; exact .inl rfl
    · exact .inr (num_mem is h)
  | atan2 =>
    simp only [Op2.real] at hv; split at hv <;> cases hv
    rename_i h0
    have hb : .num b ∈ₐ B := hB.2.resolve_left hd
    have pB := properA_of_mem hb
    rcases hA.2 with hn | ha
    · rcases nan_cases hn with h | rfl
      · exact absurd h cA
      · exact ⟨_, (C73_atan2 libm_nan dbg B pB).1, .inl rfl⟩
    · have pA := properA_of_mem ha
      obtain ⟨c1, c2⟩ := C40_atan2 dbg A B pA pB
      by_cases hc : MeetsCut A B
      · exact ⟨_, c1 hc, .inl rfl⟩
      · obtain ⟨R, e, h, -, -⟩ := c2 hc
        refine ⟨R, e, .inr (num_mem ?_ (h _ _ ha hb))⟩
        have hoff : OffCut (.num a) (.num b) := ⟨by simp, by simp, h0.imp ne_num_zero.mpr lt_num_num.mpr⟩
        rw [is_iff_ext, ext_atan2 hoff]
        rfl
  | pow =>
    obtain ⟨fA, fB, hd⟩ := hd
    have ha : .num a ∈ₐ A := hA.2.resolve_left fA
    have hb : .num b ∈ₐ B := hB.2.resolve_left fB
    have pA := properA_of_mem ha; have pB := properA_of_mem hb
    by_cases pos : ∀ x : ℝ, .num x ∈ₐ A → 0 ≤ x
    · obtain ⟨R, e, h⟩ := C41_unbounded dbg A B pA pB (nonneg_lo ha pos)
      refine ⟨R, e, .inr ?_⟩
      have := h a b ha hb
      have a0 := pos a ha
      simp only [Op2.real] at hv
      split at hv
      · next h => cases hv; simpa [powSpec, h.ne'] using this
      · next h =>
        have a0 : a = 0 := le_antisymm (not_lt.mp h) a0
        rw [if_pos a0] at hv
        split at hv
        · next h => cases hv; simpa [powSpec, a0, h.not_gt, Real.zero_rpow h.ne'] using this
        · split at hv <;> cases hv
          next h => simpa [powSpec, a0, h] using this
    · obtain ⟨n, n1, n2, hn⟩ := hd.resolve_left pos
      have hb' := (hn b).mp hb
      subst hb'
      push Not at pos
      obtain ⟨R, e, h⟩ := C41_unbounded_integer_partial dbg A B pA pos n ⟨n1, n2⟩ (finite_of_single hb hn) hn
      refine ⟨R, e, .inr ?_⟩
      obtain ⟨h1, h2⟩ := h a ha
      simp only [Op2.real] at hv
      split at hv
      · next h => cases hv; simpa [powSpec, h.ne'] using h1 h.le
      · next h =>
        split at hv
        · next a0 =>
          have := h1 a0.ge
          split at hv
          · next h => cases hv; simpa [powSpec, a0, not_lt.mpr (Int.cast_pos.mp h).le, (Int.cast_pos.mp h).ne', zero_zpow] using this
          · split at hv <;> cases hv
            next h => simpa [powSpec, a0, h] using this
        · next a0 =>
          have := h2 (not_lt.mp h)
          rw [Int.floor_intCast, if_pos rfl] at hv
          cases hv
          simpa [powNegSpec, a0] using this

theorem encl_of {R : Ivl (Fl ℝ)} {x : ℝ} (h : R = nanIvl ∨ .num x ∈ᵢ R) : Encl (.num x) (.ivl R) := by
  rcases h with rfl | h
  · exact encl_nan
  · exact encl_ivl (.inr h)

/-- C74.  Full statement: without the hypothesis `Safe`.  It is false there: see the counterexamples C32_violated (division), C34_min_violated
(`min`, `max`), C39_violated (tangent over a pole) and C41_violated (`pow`), and the functions `sqrt`, `log`, `asin`, `acos` check their domain. -/
theorem C74_real_partial (dbg : Bool) (X : Nat → Ivl (Fl ℝ)) (κ : Nat → ℝ) (hκ : ∀ i, .num (κ i) ∈ᵢ X i) (e : RExpr) (hs : e.Safe dbg X)
    (v : ℝ) (hv : e.val κ = some v) : ∃ R, e.ivl dbg X = .ok R ∧ (R = ⟨.nan, .nan⟩ ∨ .num v ∈ᵢ R) := by
  change Good _ _
  induction e generalizing v with
  | var i => cases hv; exact ⟨_, rfl, .inr (hκ i)⟩
  | un op e ih =>
    simp only [RExpr.val, Option.bind_eq_bind, Option.bind_eq_some_iff] at hv
    obtain ⟨u, hu, h⟩ := hv
    cases h
    obtain ⟨R, eR, h⟩ := ih hs u hu
    simp only [RExpr.ivl, eR, ok_bind]
    rcases h with rfl | h
    · exact ⟨_, un_nan dbg op, .inl rfl⟩
    · obtain ⟨S, eS, h⟩ := un_encl dbg op h
      exact ⟨S, eS, .inr (num_mem (is_unF op (Is.num u)) h)⟩
  | fn op e ih =>
    simp only [RExpr.val, Option.bind_eq_bind, Option.bind_eq_some_iff] at hv
    obtain ⟨u, hu, h⟩ := hv
    obtain ⟨R, eR, hR⟩ := ih hs.1 u hu
    simp only [RExpr.ivl, eR, ok_bind]
    exact fn_good dbg op hR (hs.2 R eR) h
  | bin op e₁ e₂ ih₁ ih₂ =>
    simp only [RExpr.val, Option.bind_eq_bind, Option.bind_eq_some_iff] at hv
    obtain ⟨u, hu, w, hw, h⟩ := hv
    obtain ⟨R, eR, hR⟩ := ih₁ hs.1 u hu
    obtain ⟨S, eS, hS⟩ := ih₂ hs.2.1 w hw
    simp only [RExpr.ivl, eR, eS, ok_bind]
    exact op2_good dbg op (encl_of hR) (encl_of hS) (by rintro ⟨⟨_, h⟩, -⟩; cases h) (by simp) (hs.2.2 R S eR eS) h
  | binL op c e ih =>
    simp only [RExpr.val, Option.bind_eq_bind, Option.bind_eq_some_iff] at hv
    obtain ⟨u, hu, h⟩ := hv
    obtain ⟨R, eR, hR⟩ := ih hs.1 u hu
    simp only [RExpr.ivl, eR, ok_bind]
    exact op2_good dbg op (encl_scalar _) (encl_of hR) (by rintro ⟨-, _, h⟩; cases h) (by simp) (hs.2 R eR) h
  | binR op e c ih =>
    simp only [RExpr.val, Option.bind_eq_bind, Option.bind_eq_some_iff] at hv
    obtain ⟨u, hu, h⟩ := hv
    obtain ⟨R, eR, hR⟩ := ih hs.1 u hu
    simp only [RExpr.ivl, eR, ok_bind]
    exact op2_good dbg op (encl_of hR) (encl_scalar _) (by rintro ⟨⟨_, h⟩, -⟩; cases h) (by simp) (hs.2 R eR) h

/-! A non-trivial instance: `sqrt(exp(x)) / exp(x) + cos(x)` with `x ∈ [-1,2]` is within the hypotheses, and has a value at `x = 1`. -/
example : let e : RExpr := .bin (.arith .add) (.bin (.arith .div) (.fn .sqrt (.fn .exp (.var 0))) (.fn .exp (.var 0))) (.fn .cos (.var 0))
    e.Safe true (fun _ => ⟨.num (-1), .num 2⟩) ∧ e.val (fun _ => 1) = some (Real.sqrt (Real.exp 1) / Real.exp 1 + Real.cos 1) := by
  have ee : expI true (⟨.num (-1), .num 2⟩ : Ivl (Fl ℝ)) = .ok ⟨.num (Real.exp (-1)), .num (Real.exp 2)⟩ := by
    unfold expI
    rw [show (⟨.num (-1), .num 2⟩ : Ivl (Fl ℝ)).assigned = true from Intervals.assigned_of_proper (X := .ivl _) (show le _ _ = true by simp; norm_num),
      expectsDebug_true, ok_bind]
    exact make_ok_of_le (show le (Fl.num _) (.num _) = true by simp; norm_num)
  have hE : ∀ R, (RExpr.fn .exp (.var 0)).ivl true (fun _ => (⟨.num (-1), .num 2⟩ : Ivl (Fl ℝ))) = .ok R → R = ⟨.num (Real.exp (-1)), .num (Real.exp 2)⟩ := by
    intro R h
    simp only [RExpr.ivl, ok_bind, FnOp.ivl, ee] at h
    cases h; rfl
  refine ⟨⟨⟨⟨⟨trivial, fun _ _ => trivial⟩, fun R h => ?_⟩, ⟨trivial, fun _ _ => trivial⟩, fun R S _ h => .inl ?_⟩, ⟨trivial, fun _ _ => trivial⟩, fun R S _ _ => trivial⟩, ?_⟩
  · rw [hE R h]; simp [FnOp.Dom, (Real.exp_pos _).le]
  · rw [hE S h]
    constructor <;> intro h0 <;> exfalso
    · have := ((Is.num _).eq_iff (Is.num 0)).mp h0; exact (Real.exp_pos _).ne' this
    · have := ((Is.num _).eq_iff (Is.num 0)).mp h0; exact (Real.exp_pos _).ne' this
  · simp [RExpr.val, Op2.real, FnOp.real, BinOp.fld, (Real.exp_pos _).le, (Real.exp_pos _).ne']
end Intervals.Props
