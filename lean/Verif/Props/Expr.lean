import Verif.Spec.Expr
import Verif.Lemmas.Exact
import Verif.Props.FltClass
import Verif.Props.Floor
import Verif.Props.Basic
import Mathlib.Data.Rat.Floor
/-!
# C46: interval evaluation of an expression encloses every point evaluation
-/
set_option linter.unusedSectionVars false
set_option linter.unusedSimpArgs false
namespace Intervals.Props
open Intervals CppVal Spec CppNum

variable {K : Type} [Field K] [LinearOrder K] [IsStrictOrderedRing K] [Fmt K] [FloorRing K]

/-- what the induction carries: a scalar result is the point result, and the result is NaN or contains the point result -/
def Encl (p : Fl K) (A : Arg (Fl K)) : Prop := (∀ v, A = .scalar v → p = v) ∧ (IsNanA A ∨ p ∈ₐ A)

theorem encl_scalar (p : Fl K) : Encl p (.scalar p) := by
  refine ⟨fun v h => by cases h; rfl, ?_⟩
  by_cases h : p = .nan
  · exact .inl ⟨h, h⟩
  · exact .inr ⟨Fl.le_refl_of_ne h, Fl.le_refl_of_ne h⟩
theorem encl_ivl {p : Fl K} {R : Ivl (Fl K)} (h : IsNanA (.ivl R) ∨ p ∈ᵢ R) : Encl p (.ivl R) := ⟨fun _ h => (nomatch h), h⟩
theorem encl_nan {p : Fl K} : Encl p (.ivl nanIvl) := encl_ivl (.inl ⟨rfl, rfl⟩)

theorem nan_cases {A : Arg (Fl K)} (h : IsNanA A) : A = .scalar .nan ∨ A = .ivl nanIvl := by
  cases A with
  | scalar v => left; rw [show v = .nan from h.1]
  | ivl x => right; cases x; simp only [IsNanA, Arg.lo, Arg.hi] at h; rw [h.1, h.2]; rfl
theorem properA_of_mem {p : Fl K} {A : Arg (Fl K)} (h : p ∈ₐ A) : ProperA A := by
  have := mem_bounds.mp h
  have := CppOrder.le_trans _ _ _ this.1 this.2
  cases A with
  | scalar v => exact this
  | ivl x => exact this
theorem encl_assigned {p : Fl K} {A : Arg (Fl K)} (h : Encl p A) : A.assigned = true := by
  rcases h.2 with h | h
  · rcases nan_cases h with rfl | rfl
    · rfl
    · exact nan_assigned
  · exact Intervals.assigned_of_proper (properA_of_mem h)

theorem floor_nan (dbg : Bool) : floorI dbg (nanIvl : Ivl (Fl K)) = .ok nanIvl ∧ ceilI dbg (nanIvl : Ivl (Fl K)) = .ok nanIvl ∧
    roundI dbg (nanIvl : Ivl (Fl K)) = .ok nanIvl := by
  simp only [floorI, ceilI, roundI, nan_assigned, expectsDebug_true, ok_bind]
  exact ⟨make_nan, make_nan, make_nan⟩

theorem un_nan (dbg : Bool) (op : UnOp) : op.ivl dbg (nanIvl : Ivl (Fl K)) = .ok nanIvl := by
  obtain ⟨h1, h2, h3, h4⟩ := C34_unary (K := K) dbg
  obtain ⟨h5, h6, h7⟩ := floor_nan (K := K) dbg
  cases op
  · simp only [UnOp.ivl, plusI, nan_assigned, expectsDebug_true, ok_bind]; rfl
  all_goals assumption

theorem un_encl (dbg : Bool) (op : UnOp) {a : Fl K} {X : Ivl (Fl K)} (ha : a ∈ᵢ X) : ∃ R, op.ivl dbg X = .ok R ∧ op.pt a ∈ᵢ R := by
  have hX : Proper X := properA_of_mem (A := .ivl X) ha
  have key : ∀ {f : Fl K → Fl K} {res}, FloatExact1 f X res → ∃ R, res = .ok R ∧ f a ∈ᵢ R := fun h => by
    obtain ⟨R, e, h, -, -⟩ := h
    exact ⟨R, e, h a ha⟩
  cases op with
  | plus => exact ⟨X, C30_plus dbg X hX, ha⟩
  | neg => exact key (C30_neg dbg X hX)
  | square => exact key (C33_square dbg X hX).1
  | cube => exact key (C33_cube dbg X hX)
  | abs =>
    obtain ⟨R, e, h, -, -⟩ := (C33_abs dbg X hX).1
    exact ⟨R, e, h a ha⟩
  | floor => exact key (C36_floor dbg X hX).1
  | ceil => exact key (C36_ceil dbg X hX).1
  | round => exact key (C36_round dbg X hX).1

/-- one binary operation -/
theorem bin_encl (dbg : Bool) (op : BinOp) {a b : Fl K} {A B : Arg (Fl K)} (hA : Encl a A) (hB : Encl b B)
    (ns : ¬ ((∃ v, A = .scalar v) ∧ ∃ w, B = .scalar w))
    (hd : op = .div → (ZeroSignOk B ∨ A.lo = .ninf ∨ A.hi = .pinf) ∧ ¬ eq b (.num 0) = true ∧ (A = .scalar .nan → ¬ (lt B.lo (.num 0) = true ∧ lt (.num 0) B.hi = true)))
    (hm : op = .min ∨ op = .max → ¬ IsNanA B) :
    ∃ R, op.ivl dbg A B = .ok R ∧ Encl (op.pt a b) (.ivl R) := by
  have aA := encl_assigned hA; have aB := encl_assigned hB
  -- NaN on the left or right
  rcases hA.2 with hn | ha
  · refine ⟨nanIvl, ?_, encl_nan⟩
    rcases nan_cases hn with rfl | rfl
    · obtain ⟨Y, rfl⟩ : ∃ Y, B = .ivl Y := by
        cases B with
        | scalar w => exact absurd ⟨⟨_, rfl⟩, ⟨_, rfl⟩⟩ ns
        | ivl Y => exact ⟨Y, rfl⟩
      obtain ⟨h1, -, h2, -, h3, -, -⟩ := C34_scalar dbg Y aB
      cases op
      · exact h1
      · exact h2
      · exact h3
      · exact C34_scalar_div_partial dbg Y aB ((hd rfl).2.2 rfl)
      · simp only [BinOp.ivl, minI, show Y.assigned = true from aB, Arg.assigned, Bool.and_self, expectsDebug_true, ok_bind, Arg.lo, Arg.hi, cmin, lt_nan_r, Bool.false_eq_true, if_false]
        exact make_nan
      · simp only [BinOp.ivl, maxI, show Y.assigned = true from aB, Arg.assigned, Bool.and_self, expectsDebug_true, ok_bind, Arg.lo, Arg.hi, cmax, lt_nan_l, Bool.false_eq_true, if_false]
        exact make_nan
    · cases op
      · exact (C34_add_sub dbg B aB).1
      · exact (C34_add_sub dbg B aB).2.2.1
      · exact (C34_mul dbg B aB).1
      · exact (C34_div dbg B aB).1
      · exact (C34_min_max_partial dbg B aB).1
      · exact (C34_min_max_partial dbg B aB).2
  have pA := properA_of_mem ha
  rcases hB.2 with hn | hb
  · refine ⟨nanIvl, ?_, encl_nan⟩
    rcases nan_cases hn with rfl | rfl
    · obtain ⟨Y, rfl⟩ : ∃ Y, A = .ivl Y := by
        cases A with
        | scalar w => exact absurd ⟨⟨_, rfl⟩, ⟨_, rfl⟩⟩ ns
        | ivl Y => exact ⟨Y, rfl⟩
      obtain ⟨-, h1, -, h2, -, h3, h4⟩ := C34_scalar dbg Y aA
      cases op
      · exact h1
      · exact h2
      · exact h3
      · exact h4
      · exact absurd hn (hm (.inl rfl))
      · exact absurd hn (hm (.inr rfl))
    · cases op
      · exact (C34_add_sub dbg A aA).2.1
      · exact (C34_add_sub dbg A aA).2.2.2
      · exact (C34_mul dbg A aA).2
      · exact (C34_div dbg A aA).2
      · exact absurd hn (hm (.inl rfl))
      · exact absurd hn (hm (.inr rfl))
  have pB := properA_of_mem hb
  have key : ∀ {f : Fl K → Fl K → Fl K} {res}, FloatExact2 f A B res → ∃ R, res = .ok R ∧ Encl (f a b) (.ivl R) := fun h => by
    rcases h with ⟨-, e⟩ | ⟨-, R, e, h, -, -⟩
    · exact ⟨_, e, encl_nan⟩
    · exact ⟨R, e, encl_ivl (.inr (h a b ha hb))⟩
  cases op with
  | add => exact key (C30_add dbg A B pA pB)
  | sub => exact key (C30_sub dbg A B pA pB)
  | mul => exact key (C31_mul dbg A B pA pB)
  | div =>
    obtain ⟨h1, h2, -⟩ := hd rfl
    rcases C32_incl_partial dbg A B pA pB h1 with ⟨-, e⟩ | ⟨-, R, e, -, h⟩
    · exact ⟨_, e, encl_nan⟩
    · exact ⟨R, e, encl_ivl (.inr (h a b ha hb h2))⟩
  | min =>
    obtain ⟨R, e, -, h⟩ := C16_min dbg A B pA pB
    exact ⟨R, e, encl_ivl (.inr ((h _).mpr ⟨a, b, ha, hb, rfl⟩))⟩
  | max =>
    obtain ⟨R, e, -, h⟩ := C16_max dbg A B pA pB
    exact ⟨R, e, encl_ivl (.inr ((h _).mpr ⟨a, b, ha, hb, rfl⟩))⟩

theorem expr_encl (dbg : Bool) (X : Nat → Ivl (Fl K)) (ρ : Nat → Fl K) (hρ : ∀ i, ρ i ∈ᵢ X i) (e : Expr K) (hs : e.Safe dbg X ρ) :
    ∃ A, e.ivl dbg X = .ok A ∧ Encl (e.point ρ) A := by
  induction e with
  | const c => exact ⟨_, rfl, encl_scalar c⟩
  | var i => exact ⟨_, rfl, encl_ivl (.inr (hρ i))⟩
  | un op e ih =>
    obtain ⟨A, eA, hA⟩ := ih hs
    cases A with
    | scalar v =>
      refine ⟨.scalar (op.pt v), by simp only [Expr.ivl, eA, ok_bind]; rfl, ?_⟩
      rw [Expr.point, hA.1 v rfl]; exact encl_scalar _
    | ivl x =>
      rcases hA.2 with hn | ha
      · rcases nan_cases hn with h | h
        · cases h
        · cases h
          exact ⟨.ivl nanIvl, by simp only [Expr.ivl, eA, ok_bind, un_nan]; rfl, encl_nan⟩
      · obtain ⟨R, eR, h⟩ := un_encl dbg op (show _ ∈ᵢ x from ha)
        exact ⟨.ivl R, by simp only [Expr.ivl, eA, ok_bind, eR]; rfl, encl_ivl (.inr h)⟩
  | bin op e₁ e₂ ih₁ ih₂ =>
    obtain ⟨s1, s2, s3⟩ := hs
    obtain ⟨A, eA, hA⟩ := ih₁ s1
    obtain ⟨B, eB, hB⟩ := ih₂ s2
    by_cases ns : (∃ v, A = .scalar v) ∧ ∃ w, B = .scalar w
    · obtain ⟨⟨v, rfl⟩, ⟨w, rfl⟩⟩ := ns
      refine ⟨.scalar (op.pt v w), by simp only [Expr.ivl, eA, eB, ok_bind]; rfl, ?_⟩
      rw [Expr.point, hA.1 v rfl, hB.1 w rfl]; exact encl_scalar _
    · obtain ⟨R, eR, h⟩ := bin_encl dbg op hA hB ns (s3 A B eA eB).1 (s3 A B eA eB).2
      refine ⟨.ivl R, ?_, h⟩
      simp only [Expr.ivl, eA, eB, ok_bind]
      cases A with
      | scalar v =>
        cases B with
        | scalar w => exact absurd ⟨⟨_, rfl⟩, ⟨_, rfl⟩⟩ ns
        | ivl y => simp only [eR, ok_bind]; rfl
      | ivl x => simp only [eR, ok_bind]; rfl

/-- C46.  Full statement: without the hypothesis `Safe`.  It is false there (`C46_violated`): division of a finite interval by an
interval with a zero bound of the wrong sign, NaN constants divided by intervals, and `min`/`max` with an indefinite right operand.  Elementary functions other than those in
`UnOp` are not covered (they have their own inclusion theorems C36–C41). -/
theorem C46_fundamental_partial (dbg : Bool) (X : Nat → Ivl (Fl K)) (ρ : Nat → Fl K) (hρ : ∀ i, ρ i ∈ᵢ X i) (e : Expr K) (hs : e.Safe dbg X ρ) :
    ∃ A, e.ivl dbg X = .ok A ∧ (IsNanA A ∨ e.point ρ ∈ₐ A) := by
  obtain ⟨A, eA, hA⟩ := expr_encl dbg X ρ hρ e hs
  exact ⟨A, eA, hA.2⟩

theorem safe_of_ring (dbg : Bool) (X : Nat → Ivl (Fl K)) (ρ : Nat → Fl K) (e : Expr K) (h : e.Ring) : e.Safe dbg X ρ := by
  induction e with
  | const c => trivial
  | var i => trivial
  | un op e ih => exact ih h
  | bin op e₁ e₂ ih₁ ih₂ =>
    obtain ⟨h0, h1, h2⟩ := h
    refine ⟨ih₁ h1, ih₂ h2, fun A B _ _ => ⟨fun h => ?_, fun h => ?_⟩⟩ <;> rcases h0 with rfl | rfl | rfl <;> simp at h

/-- C46 for expressions without division, minimum and maximum: no side condition. -/
theorem C46_ring (dbg : Bool) (X : Nat → Ivl (Fl K)) (ρ : Nat → Fl K) (hρ : ∀ i, ρ i ∈ᵢ X i) (e : Expr K) (h : e.Ring) :
    ∃ A, e.ivl dbg X = .ok A ∧ (IsNanA A ∨ e.point ρ ∈ₐ A) :=
  C46_fundamental_partial dbg X ρ hρ e (safe_of_ring dbg X ρ e h)

section exact
theorem Is.absF {a : Fl K} {k : K} (h : Fl.Is a k) : Fl.Is (Fl.abs a) (max k (-k)) := by
  unfold Fl.abs
  cases a <;> simp [Fl.Is, Fl.isFinite, Fl.val] at h
  · subst h; simpa [Fl.signBit, Fl.neg] using Fl.Is.num (0:K)
  · subst h
    simp only [Fl.signBit, decide_eq_true_eq]
    split
    · next c => rw [max_eq_right (by linarith)]; exact (Fl.Is.num _).neg
    · next c => push Not at c; rw [max_eq_left (by linarith)]; exact Fl.Is.num _
theorem Is.ofIntF (n : ℤ) (s : Bool) : Fl.Is (Fl.ofInt n s : Fl K) n := by
  rw [Fl.is_iff_ext]; exact Fl.ext_ofInt _ _
theorem is_unF (op : UnOp) {a : Fl K} {k : K} (h : Fl.Is a k) : letI := exactFmt K; Fl.Is (op.pt a) (op.fld k) := by
  let := exactFmt K
  cases op with
  | plus => exact h
  | neg => exact h.neg
  | square => exact h.mul h
  | cube => exact (h.mul h).mul h
  | abs => exact Is.absF h
  | floor =>
    cases a <;> simp [Fl.Is, Fl.isFinite, Fl.val] at h <;> subst h
    · simpa [UnOp.pt, UnOp.fld, Fl.floor] using Fl.Is.nzero (K := K)
    · exact Is.ofIntF _ _
  | ceil =>
    cases a <;> simp [Fl.Is, Fl.isFinite, Fl.val] at h <;> subst h
    · simpa [UnOp.pt, UnOp.fld, Fl.ceil] using Fl.Is.nzero (K := K)
    · exact Is.ofIntF _ _
  | round =>
    cases a <;> simp [Fl.Is, Fl.isFinite, Fl.val] at h <;> subst h
    · have : Fl.roundInt (0:K) = 0 := by
        rw [Fl.roundInt, if_neg (lt_irrefl _), Int.floor_eq_iff]; norm_num
      simpa [UnOp.pt, UnOp.fld, Fl.round, this] using Fl.Is.nzero (K := K)
    · exact Is.ofIntF _ _
theorem is_binF (op : BinOp) {a b : Fl K} {k l v : K} (ha : Fl.Is a k) (hb : Fl.Is b l) (h : op.fld k l = some v) :
    letI := exactFmt K; Fl.Is (op.pt a b) v := by
  let := exactFmt K
  cases op with
  | add => cases h; exact ha.add hb
  | sub => cases h; exact ha.sub hb
  | mul => cases h; exact ha.mul hb
  | div =>
    simp only [BinOp.fld] at h
    split at h
    · cases h
    · next c => cases h; exact ha.div hb c
  | min => cases h; exact ha.cmin hb
  | max => cases h; exact ha.cmax hb

/-- evaluation in exact arithmetic is evaluation in the field -/
theorem point_fld (κ : Nat → K) (e : Expr K) (v : K) (h : e.fld κ = some v) :
    letI := exactFmt K; Fl.Is (e.point fun i => .num (κ i)) v := by
  let := exactFmt K
  induction e generalizing v with
  | const c =>
    simp only [Expr.fld] at h
    split at h
    · next c => cases h; exact Fl.Is.of_finite c
    · cases h
  | var i => cases h; exact Fl.Is.num _
  | un op e ih =>
    simp only [Expr.fld, Option.bind_eq_bind, Option.bind_eq_some_iff] at h
    obtain ⟨u, hu, h⟩ := h
    cases h
    exact is_unF op (ih u hu)
  | bin op e₁ e₂ ih₁ ih₂ =>
    simp only [Expr.fld, Option.bind_eq_bind, Option.bind_eq_some_iff] at h
    obtain ⟨u, hu, w, hw, h⟩ := h
    exact is_binF op (ih₁ u hu) (ih₂ w hw) h

/-- C46 in exact arithmetic: the interval result encloses the value of the expression in the field (the reals, say). -/
theorem C46_exact_partial (dbg : Bool) (X : Nat → Ivl (Fl K)) (κ : Nat → K) (hκ : ∀ i, .num (κ i) ∈ᵢ X i) (e : Expr K) (v : K)
    (hv : e.fld κ = some v) : letI := exactFmt K;
    e.Safe dbg X (fun i => .num (κ i)) → ∃ A, e.ivl dbg X = .ok A ∧ (IsNanA A ∨ .num v ∈ₐ A) := by
  let := exactFmt K
  intro hs
  obtain ⟨A, eA, hA⟩ := C46_fundamental_partial dbg X _ hκ e hs
  refine ⟨A, eA, hA.imp_right fun h => ?_⟩
  have h1 := point_fld κ e v hv
  have h2 := mem_bounds.mp h
  refine mem_bounds.mpr ?_
  rw [Fl.is_iff_ext] at h1
  rwa [Fl.le_of_ext rfl h1, Fl.le_of_ext h1 rfl] at h2
end exact

deriving instance DecidableEq for Arg
instance (v : Fl ℚ) (A : Arg (Fl ℚ)) : Decidable (v ∈ₐ A) := by cases A <;> unfold PtA <;> infer_instance
instance (A : Arg (Fl ℚ)) : Decidable (IsNanA A) := by unfold IsNanA; infer_instance

/-- C46 is false without the side condition: `1/x` on `x ∈ [-1,+0]` does not enclose its value at `-1/2`. -/
theorem C46_violated : letI := exactFmt ℚ
    ∃ (X : Nat → Ivl (Fl ℚ)) (ρ : Nat → Fl ℚ) (e : Expr ℚ) (A : Arg (Fl ℚ)), (∀ i, ρ i ∈ᵢ X i) ∧ e.ivl true X = .ok A ∧
      ¬ (IsNanA A ∨ e.point ρ ∈ₐ A) := by
  refine ⟨fun _ => ⟨.num (-1), .num 0⟩, fun _ => .num (-1/2), .bin .div (.const (.num 1)) (.var 0), .ivl ⟨.num (-1), .pinf⟩,
    fun i => show Pt (T := Fl ℚ) (.num (-1/2)) ⟨.num (-1), .num 0⟩ by decide +kernel, ?_, ?_⟩
  · decide +kernel
  · decide +kernel

/-! A non-trivial instance: `x*x - 2/y` with `x ∈ [-1,2]`, `y ∈ [1,3]`. -/
example : letI := exactFmt ℚ
    (.bin .sub (.bin .mul (.var 0) (.var 0)) (.bin .div (.const (.num 2)) (.var 1)) : Expr ℚ).ivl true
      (fun i => if i = 0 then ⟨.num (-1), .num 2⟩ else ⟨.num 1, .num 3⟩) = .ok (.ivl ⟨.num (-4), .num (10/3)⟩) := by
  decide +kernel
example : letI := exactFmt ℚ
    (.bin .div (.const (.num 2)) (.var 1) : Expr ℚ).Safe true (fun _ => ⟨.num 1, .num 3⟩) (fun _ => .num 2) := by
  refine ⟨trivial, trivial, fun A B hA hB => ?_⟩
  cases hA; cases hB
  exact ⟨fun _ => ⟨.inl ⟨by decide +kernel, by decide +kernel⟩, by decide +kernel, by decide +kernel⟩, by simp⟩
end Intervals.Props
