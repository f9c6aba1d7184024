import Verif.Spec.PiecewiseReal
import Verif.Props.Piecewise
import Verif.Props.ExprRange
/-!
# C97 for functions of real variables defined by cases
-/
set_option linter.unusedSectionVars false
namespace Intervals.Props
open Intervals CppVal Spec Fl
attribute [local instance] exactFmt
variable {n : Nat}

private def Fin' (v : Fin n → Fl ℝ) : Prop := ∀ i, (v i).isFinite = true

private theorem is_val {a : Fl ℝ} (h : a.isFinite = true) : Is a a.val := ⟨h, rfl⟩

private theorem eval_real (op : CmpOp) {a : Fl ℝ} (h : a.isFinite = true) (c : ℝ) : op.eval a (.num c) = true ↔ op.real a.val c := by
  have h1 := is_val h
  have h2 := Is.num c
  cases op <;> simp only [CmpOp.eval, CmpOp.real, CppVal.ne, CppVal.gt, CppVal.ge, Bool.not_eq_true', ← Bool.not_eq_true, h1.eq_iff h2, h1.lt_iff h2, h1.le_iff h2, h2.lt_iff h1,
    h2.le_iff h1, ne_eq, gt_iff_lt, ge_iff_le]

private theorem closed_limit (op : CmpOp) {a : Fl ℝ} (h : a.isFinite = true) (c : ℝ) : op.Closed false a (.num c) ↔ op.limit a.val c := by
  have h1 := is_val h
  have h2 := Is.num c
  cases op <;> simp only [CmpOp.Closed, CmpOp.limit, CmpOp.eval, CppVal.ge, h1.eq_iff h2, h1.lt_iff h2, h1.le_iff h2, h2.lt_iff h1,
    h2.le_iff h1, Bool.false_eq_true, if_false]

private theorem limit_of_real {op : CmpOp} {x c : ℝ} (h : op.real x c) : op.limit x c := by
  cases op <;> simp only [CmpOp.real, CmpOp.limit] at * <;> first | exact h | exact h.le | trivial
private theorem real_neg (op : CmpOp) {x c : ℝ} (h : ¬ op.real x c) : op.neg.real x c := by
  cases op <;> simp only [CmpOp.real, CmpOp.neg] at * <;> first | exact h | (exact not_not.mp h) | (exact not_lt.mp h) | (exact not_le.mp h)
private theorem limit_self (op : CmpOp) (c : ℝ) : op.limit c c := by cases op <;> simp [CmpOp.limit]

private theorem runS_val (t : RTree n) (zero : Fl ℝ) (v : Fin n → Fl ℝ) (hv : Fin' v) :
    t.prog.runS zero v = match t.val fun i => (v i).val with | some x => .ok (.num x) | none => .error .ub := by
  induction t with
  | leaf e => rfl
  | node i op c p q ihp ihq =>
    rw [RTree.prog, runS_node, ihp, ihq]
    by_cases h : op.eval (v i) (.num c) = true
    · rw [if_pos h, RTree.val, if_pos ((eval_real op (hv i) c).mp h)]
    · rw [if_neg h, RTree.val, if_neg (fun h' => h ((eval_real op (hv i) c).mpr h'))]

private theorem pad_finite {X : Fin n → Ivl (Fl ℝ)} (h : ∀ i, FiniteI (X i)) : FiniteBox (pad ⟨.num 0, .num 0⟩ X) := by
  intro i; unfold pad; split
  · exact h _
  · exact ⟨rfl, rfl, by simp [Proper]⟩

/-- the points of a padded box -/
private theorem pad_box {X : Fin n → Ivl (Fl ℝ)} {κ : Nat → ℝ} : InBox κ (pad ⟨.num 0, .num 0⟩ X) ↔ ∃ μ : Fin n → ℝ, κ = pad 0 μ ∧ ∀ i, .num (μ i) ∈ᵢ X i := by
  constructor
  · intro h
    refine ⟨fun i => κ i.val, funext fun i => ?_, fun i => ?_⟩
    · have := h i
      unfold pad at this ⊢
      split
      · rfl
      · next hi =>
        rw [dif_neg hi] at this
        obtain ⟨h1, h2⟩ := this
        simp at h1 h2
        exact le_antisymm h2 h1
    · have := h i.val
      unfold pad at this
      rw [dif_pos i.2] at this
      exact this
  · rintro ⟨μ, rfl, h⟩ i
    unfold pad
    split
    · exact h _
    · exact ⟨by simp, by simp⟩

private theorem leaf_range {e : RExpr} {D : (Fin n → ℝ) → Prop} (he : (RTree.leaf e).Regular D) (dbg : Bool) (X : Fin n → Ivl (Fl ℝ)) (hX : ∀ i, FiniteI (X i))
    (hD : ∀ κ, (∀ i, .num (κ i) ∈ᵢ X i) → D κ) : ∃ R, e.ivl dbg (pad ⟨.num 0, .num 0⟩ X) = .ok R ∧ FiniteI R ∧
      ∀ v : ℝ, .num v ∈ᵢ R ↔ ∃ μ : Fin n → ℝ, (∀ i, .num (μ i) ∈ᵢ X i) ∧ e.val (pad 0 μ) = some v := by
  obtain ⟨R, h1, h2, h3⟩ := C84_single_use dbg _ (pad_finite hX) e (he.2 dbg X hX hD) he.1
  refine ⟨R, h1, h2, fun v => (h3 v).trans ⟨?_, ?_⟩⟩
  · rintro ⟨κ, k1, k2⟩
    obtain ⟨μ, rfl, hμ⟩ := pad_box.mp k1
    exact ⟨μ, hμ, k2⟩
  · rintro ⟨μ, m1, m2⟩
    exact ⟨_, pad_box.mpr ⟨μ, rfl, m1⟩, m2⟩

private theorem num_memP {R : Ivl (Fl ℝ)} {a : Fl ℝ} (h : a.isFinite = true) : .num a.val ∈ᵢ R ↔ a ∈ᵢ R := by
  have h1 : eq (Fl.num a.val) a = true := ((Is.num _).eq_iff (is_val h)).mpr rfl
  unfold Pt; constructor <;> rintro ⟨h2, h3⟩ <;> constructor <;> grind

/-- every piece has a value where its conditions hold -/
private theorem val_some (t : RTree n) : ∀ D : (Fin n → ℝ) → Prop, t.Regular D → ∀ κ, D κ → (t.val κ).isSome = true := by
  induction t with
  | leaf e =>
    intro D h κ hκ
    have pt : ∀ μ : Fin n → ℝ, (∀ i, Fl.num (μ i) ∈ᵢ ⟨.num (κ i), .num (κ i)⟩) → μ = κ := by
      intro μ h; funext i
      obtain ⟨h1, h2⟩ := h i
      simp at h1 h2
      exact le_antisymm h2 h1
    obtain ⟨R, _, ⟨f1, f2, f3⟩, h3⟩ := leaf_range h true (fun i => ⟨.num (κ i), .num (κ i)⟩) (fun i => ⟨rfl, rfl, by simp [Proper]⟩) (fun μ h => by rw [pt μ h]; exact hκ)
    obtain ⟨μ, m1, m2⟩ := (h3 R.lo.val).mp ((num_memP f1).mpr ⟨CppOrder.le_left _ _ f3, f3⟩)
    rw [pt μ m1] at m2
    rw [RTree.val, m2]; rfl
  | node i op c p q ihp ihq =>
    rintro D ⟨hp, hq⟩ κ hκ
    rw [RTree.val]
    split
    · next h => exact ihp _ hp κ ⟨hκ, limit_of_real h⟩
    · next h => exact ihq _ hq κ ⟨hκ, limit_of_real (real_neg op h)⟩

/-- a box whose points are finite is finite -/
private theorem box_finite {X : Fin n → Ivl (Fl ℝ)} (hX : ∀ i, Proper (X i)) (h : ∀ v, Box X v → Fin' v) (i : Fin n) : FiniteI (X i) := by
  obtain ⟨v, v1, v2⟩ := box_point hX i (a := (X i).lo) ⟨CppOrder.le_left _ _ (hX i), hX i⟩
  obtain ⟨w, w1, w2⟩ := box_point hX i (a := (X i).hi) ⟨hX i, CppOrder.le_right _ _ (hX i)⟩
  exact ⟨by rw [← v2]; exact h v v1 i, by rw [← w2]; exact h w w1 i, hX i⟩

private theorem prog_leaves (t : RTree n) : ∀ (D : (Fin n → ℝ) → Prop) (E : (Fin n → Fl ℝ) → Prop), t.Regular D → (∀ v, E v → Fin' v ∧ D fun i => (v i).val) →
    t.prog.LeavesExact false E ∧ t.prog.LeavesOnto false E := by
  induction t with
  | leaf e =>
    intro D E h hE
    have rng : ∀ dbg (X : Fin n → Ivl (Fl ℝ)), (∀ i, Proper (X i)) → (∀ v, Box X v → E v) → ∃ R, e.ivl dbg (pad ⟨.num 0, .num 0⟩ X) = .ok R ∧ FiniteI R ∧
        ∀ v : ℝ, .num v ∈ᵢ R ↔ ∃ μ : Fin n → ℝ, (∀ i, .num (μ i) ∈ᵢ X i) ∧ e.val (pad 0 μ) = some v := by
      intro dbg X hX hXE
      exact leaf_range h dbg X (box_finite hX fun v hv => (hE v (hXE v hv)).1) fun κ hκ => (hE (fun i => .num (κ i)) (hXE _ hκ)).2
    -- a real value is a value of the program at a point of the box
    have pt : ∀ {X : Fin n → Ivl (Fl ℝ)} {x : ℝ} {u : Fl ℝ}, Is u x → (∃ μ : Fin n → ℝ, (∀ i, .num (μ i) ∈ᵢ X i) ∧ e.val (pad 0 μ) = some x) →
        ∃ v u', Box X v ∧ (match e.val (pad 0 fun i => (v i).val) with | some x => Except.ok (Fl.num x) | none => .error .ub : Outcome (Fl ℝ)) = .ok u' ∧ eq u' u = true := by
      rintro X x u hu ⟨μ, m1, m2⟩
      exact ⟨fun i => .num (μ i), .num x, m1, by simp only [Fl.val]; rw [m2], ((Is.num x).eq_iff hu).mpr rfl⟩
    constructor
    · intro dbg X hX hXE
      obtain ⟨R, h1, h2, h3⟩ := rng dbg X hX hXE
      refine ⟨R, h1, fun v hv => ?_, pt (is_val h2.1) ((h3 _).mp ((num_memP h2.1).mpr ⟨CppOrder.le_left _ _ h2.2.2, h2.2.2⟩)),
        pt (is_val h2.2.1) ((h3 _).mp ((num_memP h2.2.1).mpr ⟨h2.2.2, CppOrder.le_right _ _ h2.2.2⟩))⟩
      obtain ⟨k1, k2⟩ := hE v (hXE v hv)
      obtain ⟨x, hx⟩ := Option.isSome_iff_exists.mp (val_some (.leaf e) D h _ k2)
      rw [RTree.val] at hx
      refine ⟨.num x, by simp only [hx], (h3 x).mpr ⟨_, fun i => (num_memP (k1 i)).mpr (hv i), hx⟩⟩
    · intro dbg X R hX hXE hR u hu
      obtain ⟨R', h1, h2, h3⟩ := rng dbg X hX hXE
      have hR : e.ivl dbg (pad ⟨.num 0, .num 0⟩ X) = .ok R := hR
      rw [hR] at h1; cases h1
      have hf : u.isFinite = true := finite_of_between h2.1 h2.2.1 hu.1 hu.2
      exact pt (is_val hf) ((h3 _).mp ((num_memP hf).mpr hu))
  | node i op c p q ihp ihq =>
    rintro D E ⟨hp, hq⟩ hE
    obtain ⟨p1, p2⟩ := ihp _ (fun v => E v ∧ op.Closed false (v i) (.num c)) hp fun v hv => ⟨(hE v hv.1).1, (hE v hv.1).2, (closed_limit op ((hE v hv.1).1 i) c).mp hv.2⟩
    obtain ⟨q1, q2⟩ := ihq _ (fun v => E v ∧ op.neg.Closed false (v i) (.num c)) hq fun v hv => ⟨(hE v hv.1).1, (hE v hv.1).2, (closed_limit op.neg ((hE v hv.1).1 i) c).mp hv.2⟩
    exact ⟨⟨by simp [NotNan], p1, q1⟩, p2, q2⟩

private theorem prog_seamless (zero : Fl ℝ) (t : RTree n) : ∀ (D : (Fin n → ℝ) → Prop) (E : (Fin n → Fl ℝ) → Prop), t.Regular D → t.Continuous D →
    (∀ v, E v → Fin' v ∧ D fun i => (v i).val) → t.prog.Seamless zero false E := by
  induction t with
  | leaf e => intro D E _ _ _; trivial
  | node i op c p q ihp ihq =>
    rintro D E ⟨hp, hq⟩ ⟨h0, cp, cq⟩ hE
    refine ⟨fun v hv he => ?_, ihp _ _ hp cp fun v hv => ⟨(hE v hv.1).1, (hE v hv.1).2, (closed_limit op ((hE v hv.1).1 i) c).mp hv.2⟩,
      ihq _ _ hq cq fun v hv => ⟨(hE v hv.1).1, (hE v hv.1).2, (closed_limit op.neg ((hE v hv.1).1 i) c).mp hv.2⟩⟩
    obtain ⟨k1, k2⟩ := hE v hv
    have hc : (v i).val = c := ((is_val (k1 i)).eq_iff (Is.num c)).mp he
    obtain ⟨x, hx⟩ := Option.isSome_iff_exists.mp (val_some p _ hp _ ⟨k2, by rw [hc]; exact limit_self op c⟩)
    refine ⟨.num x, .num x, by rw [runS_val p zero v k1, hx], by rw [runS_val q zero v k1, ← h0 _ k2 hc, hx], by simp [CppVal.eq, ext]⟩

/-- C97, in exact arithmetic: if the pieces of a function defined by cases use no variable twice, are regular where their conditions hold, and agree at the seams, then the
result of the program is the range of the function, exactly: every value is in it, and every number in it is a value. -/
theorem C97_expr (dbg : Bool) (t : RTree n) (X : Fin n → Ivl (Fl ℝ)) (hX : ∀ i, FiniteI (X i)) (D : (Fin n → ℝ) → Prop) (hD : ∀ κ, (∀ i, .num (κ i) ∈ᵢ X i) → D κ)
    (hr : t.Regular D) (hc : t.Continuous D) :
    ∃ R, t.prog.runI dbg false X = .ok R ∧ FiniteI R ∧ ∀ x : ℝ, .num x ∈ᵢ R ↔ ∃ κ : Fin n → ℝ, (∀ i, .num (κ i) ∈ᵢ X i) ∧ t.val κ = some x := by
  have fin : ∀ v, Box X v → Fin' v := fun v hv i => finite_of_between (hX i).1 (hX i).2.1 (hv i).1 (hv i).2
  have hE : ∀ v, Box X v → Fin' v ∧ D fun i => (v i).val := fun v hv => ⟨fin v hv, hD _ fun i => (num_memP (fin v hv i)).mpr (hv i)⟩
  obtain ⟨l1, l2⟩ := prog_leaves t D (Box X) hr hE
  have hs := prog_seamless (.num 0) t D (Box X) hr hc hE
  obtain ⟨R, h1, h2, h3⟩ := C97_onto dbg (.num 0) t.prog _ l1 l2 hs X (fun i => (hX i).2.2) (fun v h => h)
  obtain ⟨R', e1, _, ⟨v, u, a1, a2, a3⟩, ⟨w, y, b1, b2, b3⟩⟩ := C97_seams dbg false (.num 0) (fun h => nomatch h) t.prog _ l1 hs X (fun i => (hX i).2.2) (fun v h => h)
  rw [h1] at e1; cases e1
  have isn : ∀ {v u}, Box X v → t.prog.runS (.num 0) v = .ok u → ∃ x, u = .num x ∧ t.val (fun i => (v i).val) = some x := by
    intro v u hv hu
    rw [runS_val t _ v (fin v hv)] at hu
    split at hu
    · next x hx => cases hu; exact ⟨x, rfl, hx⟩
    · cases hu
  obtain ⟨x, rfl, _⟩ := isn a1 a2
  obtain ⟨z, rfl, _⟩ := isn b1 b2
  have i1 := is_of_eq (Is.num x) a3
  have i2 := is_of_eq (Is.num z) b3
  refine ⟨R, h1, ⟨i1.1, i2.1, ?_⟩, fun x => (h3 _).trans ⟨?_, ?_⟩⟩
  · obtain ⟨u, hu⟩ := h2 _ a1
    have := (h3 u).mpr ⟨_, u, a1, hu, by obtain ⟨x, rfl, _⟩ := isn a1 hu; simp [CppVal.eq, ext]⟩
    exact CppOrder.le_trans _ _ _ this.1 this.2
  · rintro ⟨v, u, v1, v2, v3⟩
    obtain ⟨y, rfl, hy⟩ := isn v1 v2
    have : y = x := ((Is.num y).eq_iff (Is.num x)).mp v3
    subst this
    exact ⟨_, fun i => (num_memP (fin v v1 i)).mpr (v1 i), hy⟩
  · rintro ⟨κ, k1, k2⟩
    refine ⟨fun i => .num (κ i), .num x, k1, ?_, by simp [CppVal.eq, ext]⟩
    rw [runS_val t _ _ (fun i => rfl)]
    simp only [Fl.val]; rw [k2]

/-- `x < 1 ? sqrt(x) : y * log(x) + 1` for `x` in `[0,4]` and `y` in `[2,3]` meets the hypotheses: the logarithm is only evaluated on `[1,4]` -/
private noncomputable def demo : RTree 2 := .node 0 .lt 1 (.leaf (.fn .sqrt (.var 0))) (.leaf (.binR (.arith .add) (.bin (.arith .mul) (.var 1) (.fn .log (.var 0))) 1))
example : (∀ i, FiniteI ((fun i => if i = 0 then ⟨.num 0, .num 4⟩ else ⟨.num 2, .num 3⟩ : Fin 2 → Ivl (Fl ℝ)) i)) ∧
    (∀ κ : Fin 2 → ℝ, (∀ i, .num (κ i) ∈ᵢ (if i = 0 then ⟨.num 0, .num 4⟩ else ⟨.num 2, .num 3⟩ : Ivl (Fl ℝ))) → 0 ≤ κ 0) ∧
    demo.Regular (fun κ => 0 ≤ κ 0) ∧ demo.Continuous (fun κ => 0 ≤ κ 0) := by
  have out : ∀ {X : Fin 2 → Ivl (Fl ℝ)} {x : ℝ}, (∀ i, FiniteI (X i)) → .num x ∈ᵢ X 0 → ∃ κ : Fin 2 → ℝ, (∀ i, .num (κ i) ∈ᵢ X i) ∧ κ 0 = x := by
    intro X x hX hx
    refine ⟨fun i => if i = 0 then x else (X i).lo.val, fun i => ?_, if_pos rfl⟩
    by_cases h : i = 0
    · subst h; simpa using hx
    · simp only [h, if_false]
      exact (num_memP (hX i).1).mpr ⟨CppOrder.le_left _ _ (hX i).2.2, (hX i).2.2⟩
  refine ⟨fun i => ?_, fun κ h => ?_, ⟨⟨by simp [RExpr.SingleUse, RExpr.vars], ?_⟩, ⟨by simp [RExpr.SingleUse, RExpr.vars], ?_⟩⟩, ⟨fun κ h0 h1 => ?_, trivial, trivial⟩⟩
  · by_cases h : i = 0
    · simp only [h, if_true]; exact ⟨rfl, rfl, by simp [Proper]⟩
    · simp only [h, if_false]; exact ⟨rfl, rfl, by simp [Proper]; norm_num⟩
  · simpa using (h 0).1
  · intro dbg X hX hD
    refine ⟨trivial, by simp, fun R hR x hx => ?_⟩
    cases hR
    obtain ⟨κ, k1, rfl⟩ := out hX (by simpa [pad] using hx)
    simp [FnOp.real, (hD κ k1).1]
  · intro dbg X hX hD
    refine ⟨⟨trivial, ⟨trivial, by simp, fun R hR x hx => ?_⟩, fun _ _ _ _ _ _ _ _ => ⟨rfl, by simp⟩⟩, fun _ _ _ _ => ⟨rfl, by simp⟩⟩
    cases hR
    obtain ⟨κ, k1, rfl⟩ := out hX (by simpa [pad] using hx)
    have : 1 ≤ κ 0 := (hD κ k1).2
    simp [FnOp.real, show 0 < κ 0 by linarith]
  · simp [RTree.val, RExpr.val, pad, h1, FnOp.real, Op2.real, BinOp.fld]
end Intervals.Props
