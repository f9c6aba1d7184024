import Verif.Lemmas.Piecewise
import Verif.Props.IntArith
import Verif.Props.FltArith
import Verif.Props.FltLaws
import Verif.Props.Constraint
/-!
# C97: branching on comparisons with constants loses nothing

A program that branches on comparisons of its parameters with constants (Spec/Piecewise.lean) and whose pieces are computed exactly returns the
exact range of the piecewise-defined function, up to the seams of a continuous value type.
-/
set_option linter.unusedSectionVars false
namespace Intervals.Props
open Intervals CppVal Spec
variable {T : Type} [CppVal T] [CppOrder T] [CppStep T] {U : Type} [CppVal U] [CppOrder U] {n : Nat}

section
variable [CppLimits U] [CppLawfulLimits U]

/-- C97: if every piece is computed exactly, the program runs without a contract violation, its result contains the value of the program at every point of the
box, and both bounds are values of a piece at a point of the box which meets the conditions of the piece, or is a limit of points that do. -/
theorem C97_range (dbg d : Bool) (zero : U) (hs : d = true → LawfulStep T) (t : PTree T U n) (D : (Fin n → T) → Prop) (ht : t.LeavesExact d D)
    (X : Fin n → Ivl T) (hX : ∀ i, Proper (X i)) (hD : ∀ v, Box X v → D v) :
    ∃ R, t.runI dbg d X = .ok R ∧ (∀ v, Box X v → ∃ u, t.runS zero v = .ok u ∧ u ∈ᵢ R) ∧ Attains X (t.Near d) R := by
  obtain ⟨R, h1, _, h2, h3⟩ := ptree_ok (dbg := dbg) zero hs t D ht X hX hD
  exact ⟨R, h1, h2, h3⟩

/-- C97: if the two sides of each condition agree where its operands are equal, both bounds are values of the program. -/
theorem C97_seams (dbg d : Bool) (zero : U) (hs : d = true → LawfulStep T) (t : PTree T U n) (D : (Fin n → T) → Prop) (ht : t.LeavesExact d D)
    (hz : t.Seamless zero d D) (X : Fin n → Ivl T) (hX : ∀ i, Proper (X i)) (hD : ∀ v, Box X v → D v) :
    ∃ R, t.runI dbg d X = .ok R ∧ (∀ v, Box X v → ∃ u, t.runS zero v = .ok u ∧ u ∈ᵢ R) ∧ Attains X (fun v u => t.runS zero v = .ok u) R := by
  obtain ⟨R, h1, h2, ⟨v, u, a1, a2, a3⟩, ⟨w, y, b1, b2, b3⟩⟩ := C97_range dbg d zero hs t D ht X hX hD
  have nan : ∀ {v : Fin n → T}, Box X v → ∀ i, NotNan (v i) := fun hv i => CppOrder.le_right _ _ (hv i).1
  obtain ⟨u', c1, c2⟩ := near_seamless zero d t D ht hz v (hD v a1) (nan a1) u a2
  obtain ⟨y', d1, d2⟩ := near_seamless zero d t D ht hz w (hD w b1) (nan b1) y b2
  exact ⟨R, h1, h2, ⟨v, u', a1, c1, by grind⟩, ⟨w, y', b1, d1, by grind⟩⟩

/-- C97: for a continuous type, if moreover the pieces take every value between their bounds, so does the program: the result has no other values than those of the
program. -/
theorem C97_onto (dbg : Bool) (zero : U) (t : PTree T U n) (D : (Fin n → T) → Prop) (ht : t.LeavesExact false D) (ho : t.LeavesOnto false D)
    (hz : t.Seamless zero false D) (X : Fin n → Ivl T) (hX : ∀ i, Proper (X i)) (hD : ∀ v, Box X v → D v) :
    ∃ R, t.runI dbg false X = .ok R ∧ (∀ v, Box X v → ∃ u, t.runS zero v = .ok u) ∧
      ∀ u, u ∈ᵢ R ↔ ∃ v u', Box X v ∧ t.runS zero v = .ok u' ∧ eq u' u = true := by
  obtain ⟨R, h1, h2, _⟩ := C97_range dbg false zero (fun h => nomatch h) t D ht X hX hD
  refine ⟨R, h1, fun v hv => (h2 v hv).imp fun _ h => h.1, fun u => ⟨fun hu => ptree_onto zero t D ht ho hz X hX hD R h1 u hu, ?_⟩⟩
  rintro ⟨v, u', v1, v2, v3⟩
  obtain ⟨u'', w1, w2⟩ := h2 v v1
  rw [v2] at w1; cases w1
  unfold Pt at *; grind

/-- a discrete type has no seams -/
theorem near_discrete (zero : U) (t : PTree T U n) (ho : t.Ordered) (D : (Fin n → T) → Prop) (ht : t.LeavesExact true D) (v : Fin n → T)
    (hv : ∀ i, NotNan (v i)) (u : U) (h : t.Near true v u) : t.runS zero v = .ok u := by
  induction t generalizing D with
  | leaf f g => exact h
  | node i op c p q ihp ihq =>
    obtain ⟨o1, o2, o3, o4⟩ := ho
    obtain ⟨hc, hp, hq⟩ := ht
    have e : ∀ op : CmpOp, op ≠ .ne → op.Closed true (v i) c → op.eval (v i) c = true := by
      intro op h1 h2; cases op <;> simp_all [CmpOp.Closed, CmpOp.eval]
    rw [runS_node]
    rcases h with ⟨h1, h2⟩ | ⟨h1, h2⟩
    · rw [e op o2 h1, if_pos rfl]; exact ihp o3 _ hp h2
    · have := e op.neg (by cases op <;> simp_all [CmpOp.neg]) h1
      rw [eval_neg op (hv i) hc] at this
      rw [if_neg (by simpa using this)]; exact ihq o4 _ hq h2

/-- C97: for a discrete value type and `<`, `<=`, `>`, `>=`, the result is the exact range: both bounds are values of the program. -/
theorem C97_discrete (dbg : Bool) (zero : U) (hs : LawfulStep T) (t : PTree T U n) (D : (Fin n → T) → Prop) (ht : t.LeavesExact true D) (ho : t.Ordered)
    (X : Fin n → Ivl T) (hX : ∀ i, Proper (X i)) (hD : ∀ v, Box X v → D v) :
    ∃ R, t.runI dbg true X = .ok R ∧ (∀ v, Box X v → ∃ u, t.runS zero v = .ok u ∧ u ∈ᵢ R) ∧ Attains X (fun v u => t.runS zero v = .ok u) R := by
  obtain ⟨R, h1, h2, h3⟩ := C97_range dbg true zero (fun _ => hs) t D ht X hX hD
  have m : ∀ v u, Box X v → t.Near true v u → t.runS zero v = .ok u := fun v u hv h =>
    near_discrete zero t ho D ht v (fun i => CppOrder.le_right _ _ (hv i).1) u h
  obtain ⟨⟨v, u, a1, a2, a3⟩, ⟨w, y, b1, b2, b3⟩⟩ := h3
  exact ⟨R, h1, h2, ⟨v, u, a1, m v u a1 a2, a3⟩, ⟨w, y, b1, m w y b1 b2, b3⟩⟩

end

/-! ### Pieces -/

/-- a constant -/
def constLeaf (k : U) : PTree T U n := .leaf (fun _ _ => .ok ⟨k, k⟩) (fun _ => .ok k)
/-- a parameter -/
def varLeaf (i : Fin n) : PTree T T n := .leaf (fun _ X => .ok (X i)) (fun v => .ok (v i))
/-- a function of one parameter -/
def fnLeaf (i : Fin n) (F : Bool → Ivl T → Outcome (Ivl U)) (f : T → Outcome U) : PTree T U n := .leaf (fun dbg X => F dbg (X i)) (fun v => f (v i))

theorem box_point {X : Fin n → Ivl T} (hX : ∀ i, Proper (X i)) (i : Fin n) {a : T} (ha : a ∈ᵢ X i) : ∃ v, Box X v ∧ v i = a := by
  refine ⟨setAt (fun j => (X j).lo) i a, fun j => ?_, by simp [setAt]⟩
  by_cases h : j = i
  · subst h; simpa [setAt] using ha
  · simp only [setAt, h, if_false]; exact ⟨CppOrder.le_left _ _ (hX j), hX j⟩

theorem constLeaf_exact (d : Bool) {k : U} (hk : NotNan k) (D : (Fin n → T) → Prop) : (constLeaf k : PTree T U n).LeavesExact d D := by
  intro dbg X hX _
  have hb : Box X fun j => (X j).lo := fun j => ⟨CppOrder.le_left _ _ (hX j), hX j⟩
  unfold NotNan at hk
  exact ⟨_, rfl, fun v _ => ⟨k, rfl, hk, hk⟩, ⟨_, k, hb, rfl, by grind⟩, ⟨_, k, hb, rfl, by grind⟩⟩

theorem fnLeaf_exact (d : Bool) (i : Fin n) {F : Bool → Ivl T → Outcome (Ivl U)} {f : T → Outcome U} (P : T → Prop) (D : (Fin n → T) → Prop)
    (hD : ∀ v, D v → P (v i))
    (h : ∀ dbg X, Proper X → (∀ a, a ∈ᵢ X → P a) → ∃ R, F dbg X = .ok R ∧ (∀ a, a ∈ᵢ X → ∃ u, f a = .ok u ∧ u ∈ᵢ R) ∧
      (∃ a u, a ∈ᵢ X ∧ f a = .ok u ∧ eq u R.lo = true) ∧ ∃ a u, a ∈ᵢ X ∧ f a = .ok u ∧ eq u R.hi = true) :
    (fnLeaf i F f).LeavesExact d D := by
  intro dbg X hX hXD
  obtain ⟨R, h1, h2, ⟨a, u, a1, a2, a3⟩, ⟨b, w, b1, b2, b3⟩⟩ := h dbg (X i) (hX i) (fun a ha => by
    obtain ⟨v, hv, rfl⟩ := box_point hX i ha; exact hD v (hXD v hv))
  obtain ⟨v, v1, rfl⟩ := box_point hX i a1
  obtain ⟨z, z1, rfl⟩ := box_point hX i b1
  exact ⟨R, h1, fun v hv => h2 _ (hv i), ⟨v, u, v1, a2, a3⟩, ⟨z, w, z1, b2, b3⟩⟩

theorem varLeaf_exact (d : Bool) (i : Fin n) (D : (Fin n → T) → Prop) : (varLeaf i : PTree T T n).LeavesExact d D := by
  refine fnLeaf_exact (F := fun _ X => .ok X) (f := .ok) d i (fun _ => True) D (fun _ _ => trivial) (fun dbg X hX _ => ⟨X, rfl, fun a ha => ⟨a, rfl, ha⟩, ?_, ?_⟩)
  all_goals unfold Proper at hX
  · exact ⟨X.lo, X.lo, ⟨CppOrder.le_left _ _ hX, hX⟩, rfl, by grind⟩
  · exact ⟨X.hi, X.hi, ⟨hX, CppOrder.le_right _ _ hX⟩, rfl, by grind⟩

/-- a function of one floating-point number that is computed exactly (as by C30_neg) -/
theorem floatLeaf_exact {K : Type} [Field K] [LinearOrder K] [IsStrictOrderedRing K] (d : Bool) (i : Fin n) {F : Bool → Ivl (Fl K) → Outcome (Ivl (Fl K))} {f : Fl K → Fl K}
    (h : ∀ dbg X, Proper X → FloatExact1 f X (F dbg X)) (D : (Fin n → Fl K) → Prop) : (fnLeaf i F fun a => .ok (f a)).LeavesExact d D := by
  refine fnLeaf_exact d i (fun _ => True) D (fun _ _ => trivial) fun dbg X hX _ => ?_
  obtain ⟨R, h1, h2, ⟨a, a1, a2⟩, ⟨b, b1, b2⟩⟩ := h dbg X hX
  have e1 := (h2 a a1).1; have e2 := (h2 b b1).2
  refine ⟨R, h1, fun a ha => ⟨_, rfl, h2 a ha⟩, ⟨a, _, a1, rfl, ?_⟩, ⟨b, _, b1, rfl, ?_⟩⟩
  · rw [a2] at e1 ⊢; grind
  · rw [b2] at e2 ⊢; grind

/-- a function of one integer that is computed exactly (as by C25_neg, C28), on arguments for which it is defined -/
theorem intLeaf_exact {m : Nat} (d : Bool) (i : Fin n) {F : Bool → Ivl (SInt m) → Outcome (Ivl (SInt m))} {g : Int → Option Int} {f : SInt m → Outcome (SInt m)}
    (h : ∀ dbg X, Proper X → ExactInt1 g X (F dbg X)) (hf : ∀ a u, g a.val = some u.val → f a = .ok u) (D : (Fin n → SInt m) → Prop)
    (hD : ∀ v, D v → Def1 m g (v i).val) : (fnLeaf i F f).LeavesExact d D := by
  refine fnLeaf_exact d i (fun a => Def1 m g a.val) D hD fun dbg X hX hXD => ?_
  have inI : ∀ a : Int, InI a (.ivl X) → ∃ b : SInt m, b ∈ᵢ X ∧ b.val = a := by
    intro a ha
    obtain ⟨h1, h2⟩ : X.lo.val ≤ a ∧ a ≤ X.hi.val := ha
    exact ⟨⟨a, by have := X.lo.ge; omega, by have := X.hi.le; omega⟩, ⟨by simpa [CppVal.le] using h1, by simpa [CppVal.le] using h2⟩, rfl⟩
  have out : ∀ b : SInt m, b ∈ᵢ X → InI b.val (.ivl X) := fun b hb => ⟨by simpa [CppVal.le] using hb.1, by simpa [CppVal.le] using hb.2⟩
  rcases h dbg X hX with ⟨⟨a, ha, hn⟩, _⟩ | ⟨_, R, r1, r2, ⟨a, a1, a2⟩, ⟨b, b1, b2⟩⟩
  · obtain ⟨b, hb, rfl⟩ := inI a ha; exact absurd (hXD b hb) hn
  · obtain ⟨a, a3, rfl⟩ := inI a a1
    obtain ⟨b, b3, rfl⟩ := inI b b1
    refine ⟨R, r1, fun c hc => ?_, ⟨a, R.lo, a3, hf _ _ a2, by simp [CppVal.eq]⟩, ⟨b, R.hi, b3, hf _ _ b2, by simp [CppVal.eq]⟩⟩
    obtain ⟨v, v1, v2, v3⟩ := hXD c hc
    obtain ⟨e1, e2⟩ := r2 _ v (out c hc) v1
    exact ⟨⟨v, by omega, by omega⟩, hf _ _ v1, by simpa [CppVal.le] using e1, by simpa [CppVal.le] using e2⟩

/-! ### Examples -/

/-- the program `x < l ? l : x > h ? h : x` -/
def clampTree (l h : T) : PTree T T 1 := .node 0 .lt l (constLeaf l) (.node 0 .gt h (constLeaf h) (varLeaf 0))

theorem clamp_exact (d : Bool) {l h : T} (hl : NotNan l) (hh : NotNan h) : (clampTree l h).LeavesExact d fun _ => True :=
  ⟨hl, constLeaf_exact d hl _, hh, constLeaf_exact d hh _, varLeaf_exact d 0 _⟩

theorem clamp_seamless [CppLimits T] [CppLawfulLimits T] (d : Bool) (zero : T) {l h : T} (hlh : le l h = true) : (clampTree l h).Seamless zero d fun _ => True := by
  refine ⟨fun v _ hv => ?_, trivial, fun v _ hv => ⟨h, v 0, rfl, rfl, by grind⟩, trivial, trivial⟩
  rw [runS_node]
  simp only [CmpOp.eval, constLeaf, varLeaf, PTree.runS]
  split
  · exact ⟨l, h, rfl, rfl, by grind⟩
  · exact ⟨l, v 0, rfl, rfl, by grind⟩

/-- C97 for a concrete program, over every value type: clamping an interval gives the exact range of the clamped values; the pieces agree at the seams. -/
theorem C97_clamp [CppLimits T] [CppLawfulLimits T] (dbg d : Bool) (zero l h : T) (hs : d = true → LawfulStep T) (hlh : le l h = true) (X : Ivl T) (hX : Proper X) :
    ∃ R, (clampTree l h).runI dbg d (fun _ => X) = .ok R ∧ (∀ a, a ∈ᵢ X → ∃ u, (clampTree l h).runS zero (fun _ => a) = .ok u ∧ u ∈ᵢ R) ∧
      (∃ a u, a ∈ᵢ X ∧ (clampTree l h).runS zero (fun _ => a) = .ok u ∧ eq u R.lo = true) ∧
      ∃ a u, a ∈ᵢ X ∧ (clampTree l h).runS zero (fun _ => a) = .ok u ∧ eq u R.hi = true := by
  have hl := CppOrder.le_left _ _ hlh
  have hh := CppOrder.le_right _ _ hlh
  have one : ∀ v : Fin 1 → T, v = fun _ => v 0 := fun v => funext fun j => by rw [Subsingleton.elim j 0]
  obtain ⟨R, h1, h2, ⟨v, u, a1, a2, a3⟩, ⟨w, y, b1, b2, b3⟩⟩ := C97_seams dbg d zero hs (clampTree l h) _ (clamp_exact d hl hh) (clamp_seamless d zero hlh) (fun _ => X) (fun _ => hX)
    (fun _ _ => trivial)
  refine ⟨R, h1, fun a ha => h2 _ fun _ => ha, ⟨v 0, u, a1 0, ?_, a3⟩, ⟨w 0, y, b1 0, ?_, b3⟩⟩
  · rw [one v] at a2; exact a2
  · rw [one w] at b2; exact b2

private abbrev k (v : Int) (h : -(2:Int)^31 ≤ v ∧ v ≤ 2^31 - 1 := by decide) : SInt 31 := ⟨v, h.1, h.2⟩
/-- the program `x < 3 ? y : square(x)` of two variables -/
private def two : PTree (SInt 31) (SInt 31) 2 := .node 0 .lt (k 3) (varLeaf 1) (fnLeaf 0 squareI squareV)
private theorem two_exact : two.LeavesExact true fun v => (v 0).val ≤ 1000 := by
  refine ⟨by decide, varLeaf_exact _ _ _, ?_⟩
  refine intLeaf_exact (g := fun a => some (a * a)) true 0 (fun dbg X hX => C28_square dbg X (by simpa [Proper, CppVal.le, Inhab] using hX)) ?_ _ ?_
  · intro a u h; exact (C28_scalar a).1 u |>.mpr (by simpa using h.symm)
  · rintro v ⟨h1, h2⟩
    simp only [CmpOp.neg, CmpOp.Closed, CmpOp.eval, CppVal.ge, CppVal.le, decide_eq_true_eq] at h2
    have : 3 ≤ (v 0).val := h2
    refine ⟨_, rfl, ?_, ?_⟩ <;> nlinarith
private abbrev dom : Fin 2 → Ivl (SInt 31)
  | 0 => ⟨k 1, k 5⟩
  | 1 => ⟨k 7, k 10⟩
/-- `x < 3 ? y : square(x)` for `x` in `[1,5]` and `y` in `[7,10]` meets the hypotheses of C97_discrete; the result is `[7,25]` -/
example : LawfulStep (SInt 31) ∧ two.LeavesExact true (fun v => (v 0).val ≤ 1000) ∧ two.Ordered ∧ (∀ i, Proper (dom i)) ∧
    (∀ v, Box dom v → (v 0).val ≤ 1000) ∧ two.runI true true dom = .ok ⟨k 7, k 25⟩ := by
  refine ⟨lawfulStep_bint _ _, two_exact, by simp [two, PTree.Ordered, varLeaf, fnLeaf], ?_, ?_, by decide +kernel⟩
  · rw [Fin.forall_fin_two]; decide
  · intro v hv
    have h := (hv 0).2
    simp only [CppVal.le, decide_eq_true_eq] at h
    exact h.trans (by decide)
/-- clamping `[-5,20]` to `[0,10]` meets the hypotheses of C97_clamp -/
example : le (k 0) (k 10) = true ∧ Proper (⟨k (-5), k 20⟩ : Ivl (SInt 31)) ∧ (clampTree (k 0) (k 10)).runI true true (fun _ => ⟨k (-5), k 20⟩) = .ok ⟨k 0, k 10⟩ := by
  decide +kernel
attribute [local instance] exactFmt in
/-- `x <= 0 ? -x : x` -/
private def absTree : PTree (Fl ℚ) (Fl ℚ) 1 := .node 0 .le (.num 0) (fnLeaf 0 negI fun a => .ok (Fl.neg a)) (varLeaf 0)
attribute [local instance] exactFmt in
/-- the absolute value of floating-point numbers as `x <= 0 ? -x : x` meets the hypotheses of C97_seams and of C97_onto for every interval; on `[-3,2]` the result is
`[-0,3]` -/
example : (absTree.LeavesExact false fun _ => True) ∧ (absTree.LeavesOnto false fun _ => True) ∧ (absTree.Seamless (.num 0) false fun _ => True) ∧
    absTree.runI true false (fun _ => ⟨.num (-3), .num 2⟩) = .ok ⟨.nzero, .num 3⟩ := by
  refine ⟨⟨by decide, floatLeaf_exact false 0 (fun dbg X hX => C30_neg dbg X hX) _, varLeaf_exact _ _ _⟩, ⟨?_, ?_⟩, ⟨?_, trivial, trivial⟩, by decide +kernel⟩
  · intro dbg X R hX _ hR u hu
    obtain ⟨R', e, h1, ⟨a, a1, a2⟩, ⟨b, b1, b2⟩⟩ := C30_neg dbg (X 0) (hX 0)
    change negI dbg (X 0) = .ok R at hR
    rw [hR] at e; cases e
    have nn : Fl.neg (Fl.neg u) = u := neg_neg' u
    obtain ⟨u1, u2⟩ := hu
    rw [← a2] at u1; rw [← b2] at u2
    have k1 := Fl.neg_anti u1; have k2 := Fl.neg_anti u2
    rw [neg_neg'] at k1 k2
    refine ⟨fun _ => Fl.neg u, u, fun i => ?_, congrArg _ nn, by grind⟩
    rw [Subsingleton.elim i 0]
    unfold Pt at *; grind
  · intro dbg X R hX _ hR u hu
    cases hR
    exact ⟨fun _ => u, u, fun i => by rw [Subsingleton.elim i 0]; exact hu, rfl, by unfold Pt at hu; grind⟩
  · intro v _ hv
    generalize hx : v 0 = x at hv
    have h0 : le (Fl.num (0:ℚ)) .nzero = true ∧ le (Fl.nzero : Fl ℚ) (.num 0) = true := by decide
    have h1 : le x (.num 0) = true → le .nzero (Fl.neg x) = true := fun h => Fl.neg_anti h
    have h2 : le (.num 0) x = true → le (Fl.neg x) .nzero = true := fun h => Fl.neg_anti h
    exact ⟨Fl.neg (v 0), v 0, rfl, rfl, by rw [hx]; grind⟩

/-! ### What does not hold -/

/-- `x == 0 ? 5 : square(x)` -/
private def eqTree : PTree (SInt 31) (SInt 31) 1 := .node 0 .eq (k 0) (constLeaf (k 5)) (fnLeaf 0 squareI squareV)
/-- C97_discrete does not hold with tests for equality: the constraint `x != c` cannot be represented when `c` is inside the interval.  For `x` in `[-1,1]` the
program `x == 0 ? 5 : square(x)` has the values 1 and 5, but the lower bound of the result is 0. -/
theorem C97_discrete_equal (dbg : Bool) : (eqTree.LeavesExact true fun v => (v 0).val.natAbs ≤ 1000) ∧
    ∃ X : Ivl (SInt 31), Proper X ∧ (∀ a, a ∈ᵢ X → a.val.natAbs ≤ 1000) ∧ ∃ R, eqTree.runI dbg true (fun _ => X) = .ok R ∧
      ∀ a u, a ∈ᵢ X → eqTree.runS (k 0) (fun _ => a) = .ok u → eq u R.lo = false := by
  refine ⟨⟨by decide, constLeaf_exact _ (by decide) _, ?_⟩, ⟨k (-1), k 1⟩, by decide, ?_, ⟨k 0, k 5⟩, by cases dbg <;> decide +kernel, ?_⟩
  · refine intLeaf_exact (g := fun a => some (a * a)) true 0 (fun dbg X hX => C28_square dbg X (by simpa [Proper, CppVal.le, Inhab] using hX)) ?_ _ ?_
    · intro a u h; exact (C28_scalar a).1 u |>.mpr (by simpa using h.symm)
    · rintro v ⟨h1, _⟩
      have h2 : -1000 ≤ (v 0).val := by omega
      have h3 : (v 0).val ≤ 1000 := by omega
      refine ⟨_, rfl, ?_, ?_⟩ <;> nlinarith
  · rintro a ⟨h1, h2⟩
    simp only [CppVal.le, decide_eq_true_eq] at h1 h2
    omega
  · intro a u _ h
    rw [eqTree, runS_node] at h
    split at h
    · cases h; decide
    · next hz =>
      have := ((C28_scalar a).1 u).mp h
      simp only [CmpOp.eval, CppVal.eq, decide_eq_true_eq] at hz
      have hz : a.val ≠ 0 := hz
      simp only [CppVal.eq, decide_eq_false_iff_not, this]
      exact mul_ne_zero hz hz

/-- `x < 0 ? x : -5` -/
private def jumpTree : PTree (Fl ℚ) (Fl ℚ) 1 := .node 0 .lt (.num 0) (varLeaf 0) (constLeaf (.num (-5)))
/-- The bounds need not be attained if the pieces differ at a seam of a continuous type: for `x` in `[-1,0]` all values of `x < 0 ? x : -5` are negative, but the upper bound of
the result is 0. -/
theorem C97_jump (dbg : Bool) : (jumpTree.LeavesExact false fun _ => True) ∧
    ∃ X : Ivl (Fl ℚ), Proper X ∧ ∃ R, jumpTree.runI dbg false (fun _ => X) = .ok R ∧ eq R.hi (.num 0) = true ∧
      ∀ a u, a ∈ᵢ X → jumpTree.runS (.num 0) (fun _ => a) = .ok u → lt u R.hi = true := by
  refine ⟨⟨by decide, varLeaf_exact _ _ _, constLeaf_exact _ (by decide) _⟩, ⟨.num (-1), .num 0⟩, by decide +kernel, ⟨.num (-5), .num 0⟩, by cases dbg <;> decide +kernel, by decide, ?_⟩
  intro a u _ h
  rw [jumpTree, runS_node] at h
  split at h
  · next hz => cases h; exact hz
  · cases h; decide +kernel
end Intervals.Props
