import Verif.Lemmas.Tight
import Verif.Lemmas.ConstraintDisj
import Verif.Model.IntVal
import Verif.Model.Flt
import Mathlib.Data.Rat.Defs
import Mathlib.Algebra.Order.Ring.Rat
import Mathlib.Tactic.Linarith
/-!
# C18–C24: conditions and `constrain`

Throughout, a condition is given by the expression `e` the program writes; `e.build dbg` runs the library's operators and yields the
condition object `c`.  `ρ` assigns one value to every named interval.  `d` says whether the constrained interval has a discrete value
type (then `++`/`--` must be lawful).  `dbg` ranges over debug and release builds.
-/
set_option linter.unusedSectionVars false
namespace Intervals.Props
open Intervals Intervals.Spec CppVal

/-- Integers and iterators step lawfully. -/
theorem lawfulStep_bint (l h : Int) : LawfulStep (BInt l h) where
  succ_of_lt a b hab := by
    simp only [lt, decide_eq_true_eq] at hab
    have h1 := a.ge; have h2 := b.le
    refine ⟨⟨a.val + 1, by omega, by omega⟩, ?_, ?_, ?_⟩
    · simp only [CppStep.succ, BInt.ofInt]
      rw [dif_pos (⟨by omega, by omega⟩ : l ≤ a.val + 1 ∧ a.val + 1 ≤ h)]
    · simp only [CppVal.le, decide_eq_true_eq]; omega
    · simp only [lt, decide_eq_true_eq]; omega
  pred_of_lt a b hab := by
    simp only [lt, decide_eq_true_eq] at hab
    have h1 := a.ge; have h2 := b.le
    refine ⟨⟨b.val - 1, by omega, by omega⟩, ?_, ?_, ?_⟩
    · simp only [CppStep.pred, BInt.ofInt]
      rw [dif_pos (⟨by omega, by omega⟩ : l ≤ b.val - 1 ∧ b.val - 1 ≤ h)]
    · simp only [CppVal.le, decide_eq_true_eq]; omega
    · simp only [lt, decide_eq_true_eq]; omega

/-! Example objects: `int` intervals `x = [0,10]` at address 0 and `y = [0,10]` at address 1. -/
private def x10 : Ivl (SInt 31) := ⟨i32 0, i32 10⟩
private def X : Operand (SInt 31) := .ident true 0 x10
private def Y : Operand (SInt 31) := .ident true 1 x10
private def K (v : Int) (h : -(2:Int)^31 ≤ v ∧ v ≤ 2^31 - 1 := by decide) : Operand (SInt 31) := .scalar true (i32 v h)
private def ρ37 : Nat → SInt 31 := fun n => if n = 0 then i32 3 else i32 7

/-! ## C18 -/

/-- C18 in full: a value of `x` that satisfies the condition together with values of the other operands survives `constrain`. -/
def C18_full (T : Type) [CppVal T] [CppStep T] : Prop :=
  ∀ (dbg d : Bool) (id : Nat) (x R : Ivl T) (e : CExpr T) (c : Cond T) (ρ : Nat → T),
    (d = true → LawfulStep T) → e.Proper → e.build dbg = .ok c → ρ id ∈ᵢ x → EvE ρ e true →
    constrain dbg d id x c = .ok R → ρ id ∈ᵢ R

/-- C18 is violated (detail/interval.hpp:647–676): for `x, y = [0,10]`, `constrain(x, (x >= 5) | (y >= 5))` is `[5,10]`, although
`x = 3`, `y = 7` satisfies the condition. -/
theorem C18_violated : ¬ C18_full (SInt 31) := by
  intro h
  have hc : ∃ c, (CExpr.or (.cmp .ge X (K 5)) (.cmp .ge Y (K 5))).build true = .ok c ∧
      constrain true true 0 x10 c = .ok ⟨i32 5, i32 10⟩ :=
    ⟨_, rfl, by decide⟩
  obtain ⟨c, h1, h2⟩ := hc
  have := h true true 0 x10 _ (CExpr.or (.cmp .ge X (K 5)) (.cmp .ge Y (K 5))) c ρ37 (fun _ => lawfulStep_bint _ _)
    (by refine ⟨⟨?_, ?_⟩, ⟨?_, ?_⟩⟩ <;> decide) h1 (by decide)
    ⟨false, true, ⟨i32 3, i32 5, ⟨rfl, by decide⟩, rfl, by decide⟩, ⟨i32 7, i32 5, ⟨rfl, by decide⟩, rfl, by decide⟩, rfl⟩ h2
  revert this; decide

section
variable {T : Type} [CppVal T] [CppOrder T] [CppStep T]

/-- C18 for every condition in which both sides of each disjunction that is not below a conjunction mention `x` or cannot be true.  (`seen c` is
what `constrain` looks at: disjunctions that are operands of a conjunction are ignored, which is sound.)  Missing from the full property:
disjunctions that have a possible side that does not mention `x` (the result then ignores that side, see `C18_violated`, `C18_fails`), and
strict comparisons of a continuous interval with a discrete operand (false too, `C24_violated`, `C24_lt_iff`; the other way round does not
compile). -/
theorem C18_sound_partial (dbg d : Bool) (id : Nat) (x R : Ivl T) (e : CExpr T) (c : Cond T) (ρ : Nat → T)
    (hs : d = true → LawfulStep T) (hp : e.Proper) (hb : e.build dbg = .ok c) (hh : StrictHom d (seen c)) (hx : ρ id ∈ᵢ x)
    (he : EvE ρ e true) (hd : DisjEven d id (seen c)) (hr : constrain dbg d id x c = .ok R) : ρ id ∈ᵢ R := by
  obtain ⟨c', h1, h2, h3⟩ := build_wf (dbg := dbg) e hp
  rw [hb] at h1; cases h1
  simp only [constrain, bind_eq_ok] at hr
  obtain ⟨⟨R', f⟩, h4, u, h5, h6⟩ := hr
  simp only [pure, Except.pure, Except.ok.injEq] at h6
  subst h6
  exact detail_sound hs hx c h2 hh hd _ _ _ _ h4 (ev_seen h2 (h3 ρ true he))

/-! ## C19 -/

/-- C19 in full: every point of the result is a point of `x`. -/
def C19_full (T : Type) [CppVal T] [CppStep T] : Prop :=
  ∀ (dbg d : Bool) (id : Nat) (x R : Ivl T) (e : CExpr T) (c : Cond T),
    (d = true → LawfulStep T) → Proper x → e.Proper → e.build dbg = .ok c → constrain dbg d id x c = .ok R →
    ∀ v, v ∈ᵢ R → v ∈ᵢ x

/-- C19 for conditions whose `==` and `!=` comparisons of `x` were formed when `x` had bounds no wider than now (in particular: when `x` has
not changed since).  `<`, `<=`, `>`, `>=` may have been formed at any time.  Missing: `==` and `!=` formed before `x` was narrowed by `reset`
(for those it is false, `C19_violated`). -/
theorem C19_narrows_partial (dbg d : Bool) (id : Nat) (x R : Ivl T) (e : CExpr T) (c : Cond T)
    (hs : d = true → LawfulStep T) (hx : Proper x) (hp : e.Proper) (hb : e.build dbg = .ok c) (hh : StrictHom d (seen c))
    (hself : EqOperands d id (fun o => le x.lo o.arg.lo = true ∧ le o.arg.hi x.hi = true) (seen c))
    (hr : constrain dbg d id x c = .ok R) : Proper R ∧ ∀ v, v ∈ᵢ R → v ∈ᵢ x := by
  obtain ⟨c', h1, h2, _⟩ := build_wf (dbg := dbg) e hp
  rw [hb] at h1; cases h1
  simp only [constrain, bind_eq_ok] at hr
  obtain ⟨⟨R', f⟩, h4, u, h5, h6⟩ := hr
  simp only [pure, Except.pure, Except.ok.injEq] at h6
  subst h6
  obtain ⟨g1, g2, g3⟩ := detail_sub hs hx c h2 hh hself _ _ _ _ h4
  refine ⟨g1, fun v hv => ?_⟩
  unfold Pt at hv ⊢
  exact ⟨cle_trans g2 hv.1, cle_trans hv.2 g3⟩
end

/-- C19 is violated for a stale condition (detail/interval.hpp:541–572): `c = (x == 7)` is formed while `x = [0,10]`; after
`x.reset([0,3])`, `constrain(x, c)` returns `[7,7]`. -/
theorem C19_violated : ¬ C19_full (SInt 31) := by
  intro h
  obtain ⟨c, h1, h2⟩ : ∃ c, (CExpr.cmp .eq X (K 7)).build true = .ok c ∧
      constrain true true 0 ⟨i32 0, i32 3⟩ c = .ok ⟨i32 7, i32 7⟩ :=
    ⟨_, rfl, by decide⟩
  have := h true true 0 ⟨i32 0, i32 3⟩ _ (CExpr.cmp .eq X (K 7)) c (fun _ => lawfulStep_bint _ _) (by decide)
    (by refine ⟨?_, ?_⟩ <;> decide) h1 h2 (i32 7) (by decide)
  revert this; decide

/-! Non-vacuity of C18/C19: `((x < 8) & (x >= y)) | !(x == 3)`, nested, satisfied by `x = 7, y = 7`, and `(x < 8) & ((x >= y) | !(x == 3))`, of
which only `x < 8` is looked at. -/
private def eNested : CExpr (SInt 31) := .or (.and (.cmp .lt X (K 8)) (.cmp .ge X Y)) (.not (.cmp .eq X (K 0)))
private def eHidden : CExpr (SInt 31) := .and (.cmp .lt X (K 8)) (.or (.cmp .ge X Y) (.not (.cmp .eq X (K 3))))
private def ρ77 : Nat → SInt 31 := fun _ => i32 7
example : ∃ c, eNested.build true = .ok c ∧ eNested.Proper ∧ StrictHom true (seen c) ∧ ρ77 0 ∈ᵢ x10 ∧ EvE ρ77 eNested true ∧
    DisjEven true 0 (seen c) ∧ SelfOperands true 0 (fun o => le x10.lo o.arg.lo = true ∧ le o.arg.hi x10.hi = true) (seen c) ∧
    constrain true true 0 x10 c = .ok ⟨i32 0, i32 10⟩ := by
  refine ⟨_, rfl, ?_, ?_, by decide, ?_, ?_, ?_, by decide⟩
  · refine ⟨⟨⟨?_, ?_⟩, ⟨?_, ?_⟩⟩, ⟨?_, ?_⟩⟩ <;> decide
  · simp [Cond.mkOr, Cond.mkAnd, Cond.isCond, seen, Cond.isDisj, StrictHom, X, K, Operand.disc]
  · exact ⟨true, true, ⟨true, true, ⟨i32 7, i32 8, ⟨rfl, by decide⟩, rfl, by decide⟩,
      ⟨i32 7, i32 7, ⟨rfl, by decide⟩, ⟨rfl, by decide⟩, by decide⟩, rfl⟩, ⟨i32 7, i32 0, ⟨rfl, by decide⟩, rfl, by decide⟩, rfl⟩
  · simp [Cond.mkOr, Cond.mkAnd, Cond.isCond, seen, Cond.isDisj, DisjEven, Mentions, X, K, Operand.matchesId]
  · simp only [Cond.mkOr, Cond.mkAnd, Cond.isCond, Bool.or_self, if_true, seen, Cond.isDisj, Bool.false_eq_true, if_false, SelfOperands]
    refine ⟨⟨⟨?_, ?_⟩, ⟨?_, ?_⟩⟩, ⟨?_, ?_⟩⟩ <;> decide
example : ∃ c, eHidden.build true = .ok c ∧ eHidden.Proper ∧ StrictHom true (seen c) ∧ ρ77 0 ∈ᵢ x10 ∧ EvE ρ77 eHidden true ∧
    DisjEven true 0 (seen c) ∧ SelfOperands true 0 (fun o => le x10.lo o.arg.lo = true ∧ le o.arg.hi x10.hi = true) (seen c) ∧
    constrain true true 0 x10 c = .ok ⟨i32 0, i32 7⟩ := by
  refine ⟨_, rfl, ?_, ?_, by decide, ?_, ?_, ?_, by decide⟩
  · refine ⟨⟨?_, ?_⟩, ⟨?_, ?_⟩, ⟨?_, ?_⟩⟩ <;> decide
  · simp [Cond.mkOr, Cond.mkAnd, Cond.isCond, seen, Cond.isDisj, StrictHom, X, K, Operand.disc]
  · exact ⟨true, true, ⟨i32 7, i32 8, ⟨rfl, by decide⟩, rfl, by decide⟩,
      ⟨true, true, ⟨i32 7, i32 7, ⟨rfl, by decide⟩, ⟨rfl, by decide⟩, by decide⟩,
        ⟨i32 7, i32 3, ⟨rfl, by decide⟩, rfl, by decide⟩, rfl⟩, rfl⟩
  · simp [Cond.mkOr, Cond.mkAnd, Cond.isCond, seen, Cond.isDisj, DisjEven]
  · simp only [Cond.mkOr, Cond.mkAnd, Cond.isCond, Bool.or_self, if_true, seen, Cond.isDisj, Bool.false_eq_true, if_false, SelfOperands]
    refine ⟨⟨?_, ?_⟩, trivial⟩ <;> decide

/-- a disjunction with an impossible side: `(x >= 5) | (y > 100)` -/
example : ∃ c, (CExpr.or (.cmp .ge X (K 5)) (.cmp .gt Y (K 100))).build true = .ok c ∧
    DisjEven true 0 (seen c) ∧ constrain true true 0 x10 c = .ok ⟨i32 5, i32 10⟩ := by
  refine ⟨_, rfl, ?_, by decide⟩
  simp only [Cond.mkOr, Cond.isCond, Bool.or_self, if_true, seen, DisjEven]
  exact ⟨Or.inr ⟨by simp [Mentions, X, K, Operand.matchesId], trivial⟩, Or.inl (by decide)⟩
/-- an old `<=`: formed while `x = [0,10]`, used after `x.reset([2,8])` -/
example : ∃ c, (CExpr.cmp .le X (K 5)).build true = .ok c ∧ EqOperands true 0 (fun o => le (i32 2) o.arg.lo = true ∧ le o.arg.hi (i32 8) = true) c ∧
    constrain true true 0 ⟨i32 2, i32 8⟩ c = .ok ⟨i32 2, i32 5⟩ := ⟨_, rfl, trivial, by decide⟩

/-! ## C20 -/

section
variable {T : Type} [CppVal T] [CppOrder T] [CppStep T]

/-- C20, attained bounds: for a single comparison of `x` with an operand `y` other than `x` (any relation if both are discrete; `<=`,
`>=`, `==` for every type), `constrain` succeeds whenever the comparison is satisfiable, and both bounds are values of `x` that satisfy
it with some value of `y`. -/
theorem C20_tight_attained (dbg d left : Bool) (id : Nat) (op : CmpOp) (x : Ivl T) (y : Operand T) (hx : Proper x)
    (hy : ProperA y.arg) (hn : y.matchesId d id = false)
    (hk : (LawfulStep T ∧ d = true ∧ y.disc = true) ∨ op = .le ∨ op = .ge ∨ op = .eq)
    (hsat : ∃ u, Satisfies op left x y.arg u) :
    ∃ c R, (single op left d id x y).build dbg = .ok c ∧ constrain dbg d id x c = .ok R ∧
      AttainedBounds (Satisfies op left x y.arg) R := by
  have a1 : (Operand.ident d id x).arg.assigned = true := properA_assigned (A := .ivl x) hx
  have a2 := properA_assigned hy
  unfold Satisfies at hsat ⊢
  cases left <;> cases op <;> simp only [Bool.false_eq_true, if_false, if_true, CmpOp.eval, reduceCtorEq, or_false, or_true, single] at hsat hk ⊢
  · obtain ⟨R, h⟩ := tight_eq_right (dbg := dbg) hx hy hn _ rfl hsat
    exact ⟨.equal (compareEq y.arg (.ivl x)) y (.ident d id x), R, by simp [CExpr.build, buildCmp, condEq, opEq, a1, a2, pure, Except.pure]; rfl, h⟩
  · obtain ⟨R, h⟩ := tight_ne_right (dbg := dbg) hx hy hn hk.1 hk.2.1 _ rfl hsat
    exact ⟨.notEqual (compareNeq y.arg (.ivl x)) y (.ident d id x), R, by simp [CExpr.build, buildCmp, condNe, opNe, a1, a2, pure, Except.pure]; rfl, h⟩
  · obtain ⟨R, h⟩ := tight_lt_right (dbg := dbg) hx hy hn hk.1 hk.2.2 _ rfl hsat
    exact ⟨.less (compareLt y.arg (.ivl x)) y (.ident d id x), R, by simp [CExpr.build, buildCmp, condLt, opLt, a1, a2, pure, Except.pure]; rfl, h⟩
  · obtain ⟨R, h⟩ := tight_leq_right (dbg := dbg) hx hy hn _ rfl hsat
    exact ⟨.leq (compareLeq y.arg (.ivl x)) y (.ident d id x), R, by simp [CExpr.build, buildCmp, condLe, opLe, a1, a2, pure, Except.pure]; rfl, h⟩
  · obtain ⟨R, h⟩ := tight_lt_left (dbg := dbg) hx hy hn hk.1 hk.2.2 _ rfl hsat
    exact ⟨.less (compareLt (.ivl x) y.arg) (.ident d id x) y, R, by simp [CExpr.build, buildCmp, condGt, opGt, a1, a2, pure, Except.pure]; rfl, h⟩
  · obtain ⟨R, h⟩ := tight_leq_left (dbg := dbg) hx hy hn _ rfl hsat
    exact ⟨.leq (compareLeq (.ivl x) y.arg) (.ident d id x) y, R, by simp [CExpr.build, buildCmp, condGe, opGe, a1, a2, pure, Except.pure]; rfl, h⟩
  · obtain ⟨R, h⟩ := tight_eq_left (dbg := dbg) hx hy hn _ rfl hsat
    exact ⟨.equal (compareEq (.ivl x) y.arg) (.ident d id x) y, R, by simp [CExpr.build, buildCmp, condEq, opEq, a1, a2, pure, Except.pure]; rfl, h⟩
  · obtain ⟨R, h⟩ := tight_ne_left (dbg := dbg) hx hy hn hk.1 hk.2.1 _ rfl hsat
    exact ⟨.notEqual (compareNeq (.ivl x) y.arg) (.ident d id x) y, R, by simp [CExpr.build, buildCmp, condNe, opNe, a1, a2, pure, Except.pure]; rfl, h⟩
  · obtain ⟨R, h⟩ := tight_lt_left (dbg := dbg) hx hy hn hk.1 hk.2.2 _ rfl hsat
    exact ⟨.less (compareLt (.ivl x) y.arg) (.ident d id x) y, R, by simp [CExpr.build, buildCmp, condLt, opLt, a1, a2, pure, Except.pure]; rfl, h⟩
  · obtain ⟨R, h⟩ := tight_leq_left (dbg := dbg) hx hy hn _ rfl hsat
    exact ⟨.leq (compareLeq (.ivl x) y.arg) (.ident d id x) y, R, by simp [CExpr.build, buildCmp, condLe, opLe, a1, a2, pure, Except.pure]; rfl, h⟩
  · obtain ⟨R, h⟩ := tight_lt_right (dbg := dbg) hx hy hn hk.1 hk.2.2 _ rfl hsat
    exact ⟨.less (compareLt y.arg (.ivl x)) y (.ident d id x), R, by simp [CExpr.build, buildCmp, condGt, opGt, a1, a2, pure, Except.pure]; rfl, h⟩
  · obtain ⟨R, h⟩ := tight_leq_right (dbg := dbg) hx hy hn _ rfl hsat
    exact ⟨.leq (compareLeq y.arg (.ivl x)) y (.ident d id x), R, by simp [CExpr.build, buildCmp, condGe, opGe, a1, a2, pure, Except.pure]; rfl, h⟩

/-- C20, limits: for the strict relations and `!=` on a dense value type, `constrain` succeeds whenever the comparison is satisfiable and
the bounds are the infimum and supremum of the satisfying values. -/
theorem C20_tight_limit (dbg left : Bool) (id : Nat) (op : CmpOp) (x : Ivl T) (y : Operand T) (hx : Proper x)
    (hy : ProperA y.arg) (hn : y.matchesId false id = false) (hyd : y.disc = false) (hden : DenseVal T)
    (hk : op = .lt ∨ op = .gt ∨ op = .ne)
    (hsat : ∃ u, Satisfies op left x y.arg u) :
    ∃ c R, (single op left false id x y).build dbg = .ok c ∧ constrain dbg false id x c = .ok R ∧
      LimitBounds (Satisfies op left x y.arg) R := by
  have a1 : (Operand.ident false id x).arg.assigned = true := properA_assigned (A := .ivl x) hx
  have a2 := properA_assigned hy
  unfold Satisfies at hsat ⊢
  cases left <;> rcases hk with rfl | rfl | rfl <;> simp only [Bool.false_eq_true, if_false, if_true, CmpOp.eval, single] at hsat ⊢
  · obtain ⟨R, h⟩ := dense_lt_right (dbg := dbg) hx hy hn hden hyd _ rfl hsat
    exact ⟨.less (compareLt y.arg (.ivl x)) y (.ident false id x), R, by simp [CExpr.build, buildCmp, condLt, opLt, a1, a2, pure, Except.pure]; rfl, h⟩
  · obtain ⟨R, h⟩ := dense_lt_left (dbg := dbg) hx hy hn hden hyd _ rfl hsat
    exact ⟨.less (compareLt (.ivl x) y.arg) (.ident false id x) y, R, by simp [CExpr.build, buildCmp, condGt, opGt, a1, a2, pure, Except.pure]; rfl, h⟩
  · obtain ⟨R, h⟩ := dense_ne_right (dbg := dbg) hx hy hn hden rfl _ rfl hsat
    exact ⟨.notEqual (compareNeq y.arg (.ivl x)) y (.ident false id x), R, by simp [CExpr.build, buildCmp, condNe, opNe, a1, a2, pure, Except.pure]; rfl, h⟩
  · obtain ⟨R, h⟩ := dense_lt_left (dbg := dbg) hx hy hn hden hyd _ rfl hsat
    exact ⟨.less (compareLt (.ivl x) y.arg) (.ident false id x) y, R, by simp [CExpr.build, buildCmp, condLt, opLt, a1, a2, pure, Except.pure]; rfl, h⟩
  · obtain ⟨R, h⟩ := dense_lt_right (dbg := dbg) hx hy hn hden hyd _ rfl hsat
    exact ⟨.less (compareLt y.arg (.ivl x)) y (.ident false id x), R, by simp [CExpr.build, buildCmp, condGt, opGt, a1, a2, pure, Except.pure]; rfl, h⟩
  · obtain ⟨R, h⟩ := dense_ne_left (dbg := dbg) hx hy hn hden rfl _ rfl hsat
    exact ⟨.notEqual (compareNeq (.ivl x) y.arg) (.ident false id x) y, R, by simp [CExpr.build, buildCmp, condNe, opNe, a1, a2, pure, Except.pure]; rfl, h⟩
end

/-- Real-number floats are dense (so `C20_tight_limit` speaks about the satisfying reals). -/
theorem dense_fl (K : Type) [Field K] [LinearOrder K] [IsStrictOrderedRing K] : DenseVal (Fl K) := by
  intro a b h
  obtain ⟨x, y, ha, hb, hxy⟩ := Fl.lt_iff.mp h
  obtain ⟨z, hz1, hz2⟩ : ∃ z : K, x < ((z : WithTop K) : WithBot (WithTop K)) ∧ ((z : WithTop K) : WithBot (WithTop K)) < y := by
    cases x with
    | bot =>
      cases y with
      | bot => exact absurd hxy (lt_irrefl _)
      | coe y =>
        cases y with
        | top => exact ⟨0, WithBot.bot_lt_coe _, WithBot.coe_lt_coe.mpr (WithTop.coe_lt_top _)⟩
        | coe k => exact ⟨k - 1, WithBot.bot_lt_coe _, WithBot.coe_lt_coe.mpr (WithTop.coe_lt_coe.mpr (by linarith))⟩
    | coe x =>
      cases y with
      | bot => exact absurd hxy (not_lt_bot)
      | coe y =>
        rw [WithBot.coe_lt_coe] at hxy
        cases x with
        | top => exact absurd hxy not_top_lt
        | coe j =>
          cases y with
          | top => exact ⟨j + 1, WithBot.coe_lt_coe.mpr (WithTop.coe_lt_coe.mpr (by linarith)), WithBot.coe_lt_coe.mpr (WithTop.coe_lt_top _)⟩
          | coe k =>
            rw [WithTop.coe_lt_coe] at hxy
            obtain ⟨z, h1, h2⟩ := exists_between hxy
            exact ⟨z, WithBot.coe_lt_coe.mpr (WithTop.coe_lt_coe.mpr h1), WithBot.coe_lt_coe.mpr (WithTop.coe_lt_coe.mpr h2)⟩
  exact ⟨.num z, Fl.lt_iff.mpr ⟨x, _, ha, rfl, hz1⟩, Fl.lt_iff.mpr ⟨_, y, rfl, hb, hz2⟩⟩

/-! Non-vacuity of C20: `x != 0` with `x = [0,10]` (int), and `x < 3` with `x = [0,10]` (float). -/
example : ∃ u, Satisfies .ne true x10 (K 0).arg u := ⟨i32 1, by decide, i32 0, ⟨by decide, by decide⟩, by decide⟩
example : (K 0).matchesId true 0 = false := rfl
example : ∃ u, Satisfies .lt true (⟨.num 0, .num 10⟩ : Ivl (Fl ℚ)) (.scalar (.num 3)) u :=
  ⟨.num 1, by constructor <;> simp, .num 3, by constructor <;> simp, by simp only [if_true, CmpOp.eval]; rw [CppOrder.lt_iff]; simp⟩

/-! ## C21 -/

section
variable {T : Type} [CppVal T] [CppOrder T] [CppStep T]

/-- C21, not mentioned: constraining by a condition that does not mention `x` (outside disjunctions that are operands of a conjunction) is always
a contract violation. -/
theorem C21_unmentioned (dbg d : Bool) (id : Nat) (x : Ivl T) (c : Cond T) (hm : ¬ Mentions d id (seen c)) :
    constrain dbg d id x c = .error .contract := by
  rcases constrain_no_ub (unmentioned_no_ub (dbg := dbg) (x := x) c hm false false) with ⟨R, h⟩ | h
  · exfalso
    simp only [constrain, bind_eq_ok] at h
    obtain ⟨⟨R', f⟩, h4, u, h5, h6⟩ := h
    have := detail_unmentioned c hm _ _ _ _ h4 rfl
    subst this
    simp at h5
  · exact h

/-- C21, impossible: if some comparison mentioning `x`, not below a disjunction, cannot be true, `constrain` is a contract violation. -/
theorem C21_impossible (dbg d : Bool) (id : Nat) (x : Ivl T) (e : CExpr T) (c : Cond T) (hs : d = true → LawfulStep T)
    (hp : e.Proper) (hb : e.build dbg = .ok c) (hh : StrictHom d (seen c)) (hi : ImpossibleMention d id c) :
    constrain dbg d id x c = .error .contract := by
  obtain ⟨c', h1, h2, h3⟩ := build_wf (dbg := dbg) e hp
  rw [hb] at h1; cases h1
  rcases constrain_no_ub (detail_no_ub (dbg := dbg) (x := x) c h2 (Spec.StrictHom.steps hs hh) false false) with ⟨R, h⟩ | h
  · exfalso
    simp only [constrain, bind_eq_ok] at h
    obtain ⟨⟨R', f⟩, h4, u, h5, h6⟩ := h
    exact detail_impossible c hi _ _ h4
  · exact h

/-- C21, never undefined behaviour: `constrain` returns or violates a contract. -/
theorem C21_no_ub (dbg d : Bool) (id : Nat) (x : Ivl T) (e : CExpr T) (c : Cond T) (hs : d = true → LawfulStep T)
    (hp : e.Proper) (hb : e.build dbg = .ok c) (hh : StrictHom d (seen c)) :
    (∃ R, constrain dbg d id x c = .ok R) ∨ constrain dbg d id x c = .error .contract := by
  obtain ⟨c', h1, h2, h3⟩ := build_wf (dbg := dbg) e hp
  rw [hb] at h1; cases h1
  exact constrain_no_ub (detail_no_ub c h2 (Spec.StrictHom.steps hs hh) false false)

/-- C21, success, in full: if the condition mentions `x` and is satisfied by some values, `constrain` succeeds (the operands being
snapshots of `x` as it is now). -/
def C21_success_full (T : Type) [CppVal T] [CppStep T] : Prop :=
  ∀ (dbg d : Bool) (id : Nat) (x : Ivl T) (e : CExpr T) (c : Cond T) (ρ : Nat → T),
    (d = true → LawfulStep T) → e.Proper → e.build dbg = .ok c → StrictHom d c → Mentions d id c →
    SelfOperands d id (fun o => o.arg = .ivl x) c → ρ id ∈ᵢ x → EvE ρ e true → ∃ R, constrain dbg d id x c = .ok R

/-- C21, success: `constrain` returns if the condition mentions `x` outside the disjunctions that are operands of a conjunction, is satisfied by
some values, and each conjunction below a disjunction can be true for some value of `x` unless its truth set says that it cannot (otherwise
false, `C21_violated`, `C21_violated_hidden`, `C21_hidden_fails`, `C21_conj_fails`). -/
theorem C21_success_partial (dbg d : Bool) (id : Nat) (x : Ivl T) (e : CExpr T) (c : Cond T) (ρ : Nat → T)
    (hs : d = true → LawfulStep T) (hp : e.Proper) (hb : e.build dbg = .ok c) (hh : StrictHom d (seen c)) (hm : Mentions d id (seen c))
    (hself : SelfOperands d id (fun o => o.arg = .ivl x) (seen c)) (hx : ρ id ∈ᵢ x) (he : EvE ρ e true)
    (hf : ConjSat id x (seen c)) : ∃ R, constrain dbg d id x c = .ok R := by
  obtain ⟨c', h1, h2, h3⟩ := build_wf (dbg := dbg) e hp
  rw [hb] at h1; cases h1
  obtain ⟨R, f, h⟩ := sat_ok (dbg := dbg) hs hx c hf h2 hh hself (ev_seen h2 (h3 ρ true he)) false false
  have := flag_val c _ _ _ _ h
  simp only [hm, decide_true, Bool.or_true] at this
  subst this
  exact ⟨R, by simp [constrain, h, pure, Except.pure]⟩
end

/-- C21 is violated (detail/interval.hpp:628–646 inside 647–676): `x = [0,10]`, `((x >= 5) & (x <= 3)) | (x >= 1)` is satisfied by
`x = 2`, but each half of the contradictory conjunction is possible on its own and intersecting them violates a contract. -/
theorem C21_violated : ¬ C21_success_full (SInt 31) := by
  intro h
  obtain ⟨c, h1, h2, h3, h4, h5⟩ : ∃ c, (CExpr.or (.and (.cmp .ge X (K 5)) (.cmp .le X (K 3))) (.cmp .ge X (K 1))).build true = .ok c ∧
      constrain true true 0 x10 c = .error .contract ∧ StrictHom true c ∧ Mentions true 0 c ∧
      SelfOperands true 0 (fun o => o.arg = .ivl x10) c := by
    refine ⟨_, rfl, by decide, ?_, ?_, ?_⟩
    · simp [Cond.mkOr, Cond.mkAnd, Cond.isCond, StrictHom]
    · simp [Cond.mkOr, Cond.mkAnd, Cond.isCond, Mentions, X, K, Operand.matchesId]
    · simp [Cond.mkOr, Cond.mkAnd, Cond.isCond, SelfOperands, X, K, Operand.matchesId, Operand.arg]
  obtain ⟨R, hR⟩ := h true true 0 x10 _ c (fun _ => i32 2) (fun _ => lawfulStep_bint _ _)
    (by refine ⟨⟨⟨?_, ?_⟩, ⟨?_, ?_⟩⟩, ⟨?_, ?_⟩⟩ <;> decide) h1 h3 h4 h5 (by decide)
    ⟨false, true, ⟨false, true, ⟨i32 2, i32 5, ⟨rfl, by decide⟩, rfl, by decide⟩, ⟨i32 2, i32 3, ⟨rfl, by decide⟩, rfl, by decide⟩, rfl⟩,
      ⟨i32 2, i32 1, ⟨rfl, by decide⟩, rfl, by decide⟩, rfl⟩
  rw [h2] at hR; cases hR

/-- C21 is violated in a second way (detail/interval.hpp:628–646 does not see 647–676): `((x >= 5) | (x <= 3)) & (y >= 5)` mentions `x` and is
satisfied by `x = y = 5`, but the disjunction is not looked at, so `x` counts as not mentioned. -/
theorem C21_violated_hidden : ¬ C21_success_full (SInt 31) := by
  intro h
  obtain ⟨c, h1, h2, h3, h4, h5⟩ : ∃ c, (CExpr.and (.or (.cmp .ge X (K 5)) (.cmp .le X (K 3))) (.cmp .ge Y (K 5))).build true = .ok c ∧
      constrain true true 0 x10 c = .error .contract ∧ StrictHom true c ∧ Mentions true 0 c ∧
      SelfOperands true 0 (fun o => o.arg = .ivl x10) c := by
    refine ⟨_, rfl, by decide, ?_, ?_, ?_⟩
    · simp [Cond.mkOr, Cond.mkAnd, Cond.isCond, StrictHom]
    · simp [Cond.mkOr, Cond.mkAnd, Cond.isCond, Mentions, X, Y, K, Operand.matchesId]
    · simp [Cond.mkOr, Cond.mkAnd, Cond.isCond, SelfOperands, X, Y, K, Operand.matchesId, Operand.arg]
  obtain ⟨R, hR⟩ := h true true 0 x10 _ c (fun _ => i32 5) (fun _ => lawfulStep_bint _ _)
    (by refine ⟨⟨⟨?_, ?_⟩, ⟨?_, ?_⟩⟩, ⟨?_, ?_⟩⟩ <;> decide) h1 h3 h4 h5 (by decide)
    ⟨true, true, ⟨true, false, ⟨i32 5, i32 5, ⟨rfl, by decide⟩, rfl, by decide⟩, ⟨i32 5, i32 3, ⟨rfl, by decide⟩, rfl, by decide⟩, rfl⟩,
      ⟨i32 5, i32 5, ⟨rfl, by decide⟩, rfl, by decide⟩, rfl⟩
  rw [h2] at hR; cases hR

/-! Non-vacuity of C21: the conditions above meet the hypotheses of `C21_success_partial`; `(x < 0) & (x < 8)` those of
`C21_impossible`; `y < 3` and `((x >= 5) | (x <= 3)) & (y >= 5)` those of `C21_unmentioned`. -/
example : ∃ c, eHidden.build true = .ok c ∧ Mentions true 0 (seen c) ∧ ConjSat 0 x10 (seen c) ∧ SelfOperands true 0 (fun o => o.arg = .ivl x10) (seen c) := by
  refine ⟨_, rfl, ?_, ?_, ?_⟩
  · simp [Cond.mkOr, Cond.mkAnd, Cond.isCond, seen, Cond.isDisj, Mentions, X, K, Operand.matchesId]
  · simp [Cond.mkOr, Cond.mkAnd, Cond.isCond, seen, Cond.isDisj, ConjSat]
  · simp [Cond.mkOr, Cond.mkAnd, Cond.isCond, seen, Cond.isDisj, SelfOperands, X, K, Operand.matchesId, Operand.arg]
/-- a conjunction below a disjunction: `((x >= 5) & (x <= 8)) | (x <= 2)` -/
example : ∃ c, (CExpr.or (.and (.cmp .ge X (K 5)) (.cmp .le X (K 8))) (.cmp .le X (K 2))).build true = .ok c ∧ Mentions true 0 (seen c) ∧ ConjSat 0 x10 (seen c) ∧
    constrain true true 0 x10 c = .ok ⟨i32 0, i32 8⟩ := by
  refine ⟨_, rfl, ?_, ?_, by decide⟩
  · simp [Cond.mkOr, Cond.mkAnd, Cond.isCond, seen, Cond.isDisj, Mentions, X, K, Operand.matchesId]
  · simp only [Cond.mkOr, Cond.mkAnd, Cond.isCond, Bool.or_self, if_true, seen, Cond.isDisj, Bool.false_eq_true, if_false, ConjSat, ConjSat.Inner, and_true]
    exact fun _ => ⟨fun _ => i32 6, by decide, true, true, ⟨i32 5, i32 6, rfl, ⟨rfl, by decide⟩, by decide⟩,
      ⟨i32 6, i32 8, ⟨rfl, by decide⟩, rfl, by decide⟩, rfl⟩
example : ∃ c, (CExpr.and (.cmp .lt X (K 0)) (.cmp .lt X (K 8))).build true = .ok c ∧ ImpossibleMention true 0 c :=
  ⟨_, rfl, Or.inl ⟨Or.inl rfl, by decide⟩⟩
example : ∃ c, (CExpr.cmp .lt Y (K 3)).build true = .ok c ∧ ¬ Mentions true 0 (seen c) := ⟨_, rfl, by simp [seen, Mentions, Y, K, Operand.matchesId]⟩
example : ∃ c, (CExpr.and (.or (.cmp .ge X (K 5)) (.cmp .le X (K 3))) (.cmp .ge Y (K 5))).build true = .ok c ∧ ¬ Mentions true 0 (seen c) :=
  ⟨_, rfl, by simp [Cond.mkOr, Cond.mkAnd, Cond.isCond, seen, Cond.isDisj, Mentions, Y, K, Operand.matchesId]⟩

/-! ## C22 -/

section
variable {T : Type} [CppVal T] [CppOrder T]

/-- C22, truth sets: the truth set of a condition contains the truth value of every point evaluation. -/
theorem C22_truth_set (dbg : Bool) (e : CExpr T) (c : Cond T) (ρ : Nat → T) (b : Bool) (hp : e.Proper) (hb : e.build dbg = .ok c)
    (he : EvE ρ e b) : BoolSet.contains c.truth b = true := by
  obtain ⟨c', h1, h2, h3⟩ := build_wf (dbg := dbg) e hp
  rw [hb] at h1; cases h1
  exact ev_truth c h2 b (h3 ρ b he)

/-- C22, the operators do not fail on proper operands, and the tree they build can evaluate to whatever the expression can. -/
theorem C22_build (dbg : Bool) (e : CExpr T) (hp : e.Proper) : ∃ c, e.build dbg = .ok c ∧ ∀ ρ b, EvE ρ e b → Ev ρ c b := by
  obtain ⟨c, h1, _, h3⟩ := build_wf (dbg := dbg) e hp
  exact ⟨c, h1, h3⟩

/-- C22, `!c` has the complementary truth set. -/
theorem C22_not_truth_set (dbg : Bool) (e : CExpr T) (c c' : Cond T) (hp : e.Proper) (hb : e.build dbg = .ok c)
    (hn : (CExpr.not e).build dbg = .ok c') (b : Bool) : BoolSet.contains c'.truth b = BoolSet.contains c.truth (!b) := by
  obtain ⟨c0, h1, h2, h3⟩ := build_wf (dbg := dbg) e hp
  rw [hb] at h1; cases h1
  simp only [CExpr.build, hb, ok_bind] at hn
  obtain ⟨c1, g1, _, g3, _⟩ := mkNot_wf dbg h2
  rw [hn] at g1; cases g1
  rw [g3, contains_not]

/-- C22, negation in full: the constraint of `!c` is the logical negation of that of `c`, and `!!c` constrains like `c`. -/
def C22_not_full (T : Type) [CppVal T] : Prop :=
  ∀ (dbg : Bool) (e : CExpr T) (c c' c'' : Cond T), e.Proper → e.build dbg = .ok c → (CExpr.not e).build dbg = .ok c' →
    (CExpr.not (.not e)).build dbg = .ok c'' → (∀ ρ b, Ev ρ c' b ↔ Ev ρ c (!b)) ∧ c'' = c

/-- C22, negation, for conditions without `bool`/`set<bool>` operands: `!c` is the exact logical negation and `!!c` is the same condition
object as `c`.  Missing: compound conditions with a plain operand (false, `C22_violated`). -/
theorem C22_not_partial (dbg : Bool) (e : CExpr T) (c c' c'' : Cond T) (hp : e.Proper) (hb : e.build dbg = .ok c)
    (hn : (CExpr.not e).build dbg = .ok c') (hnn : (CExpr.not (.not e)).build dbg = .ok c'') (hpl : NoPlain c) :
    (∀ ρ b, Ev ρ c' b ↔ Ev ρ c (!b)) ∧ c'' = c := by
  obtain ⟨c0, h1, h2, h3⟩ := build_wf (dbg := dbg) e hp
  rw [hb] at h1; cases h1
  obtain ⟨c1, g1, g2, _, _, g5⟩ := mkNot_noPlain dbg h2 hpl
  simp only [CExpr.build, hb, ok_bind] at hn hnn
  rw [hn] at g1; cases g1
  rw [hn, ok_bind, g2] at hnn; cases hnn
  exact ⟨g5, rfl⟩
end

/-- C22 is violated (detail/interval.hpp:397–432 has no overload for a compound condition with a plain operand): `!!((x >= 5) & true)` has
lost its constraint. -/
theorem C22_violated : ¬ C22_not_full (SInt 31) := by
  intro h
  have := (h true (.and (.cmp .ge X (K 5)) (.plain (BoolSet.single true))) _ _ _ ⟨⟨by decide, by decide⟩, show BoolSet.single true ≠ BoolSet.empty by decide⟩ rfl rfl rfl).2
  simp [Cond.mkAnd, Cond.isCond] at this

/-! Non-vacuity of C22. -/
example : ∃ c c' c'', eNested.build true = .ok c ∧ (CExpr.not eNested).build true = .ok c' ∧
    (CExpr.not (.not eNested)).build true = .ok c'' ∧ NoPlain c :=
  ⟨_, _, _, rfl, rfl, rfl, by simp [Cond.mkOr, Cond.mkAnd, Cond.isCond, NoPlain]⟩

/-! ## C23 -/

section
variable {T : Type} [CppVal T] [CppOrder T] [CppStep T]

private theorem same_refl {a : Outcome (Ivl T)} (h : ∀ R, a = .ok R → Proper R) : SameOutcome a a := by
  cases a with
  | error e => rfl
  | ok R => have := h R rfl; unfold Proper at this; simp only [SameOutcome]; grind

private theorem and_comm_bs (x y : BoolSet) : BoolSet.and x y = BoolSet.and y x := by revert x y; decide
private theorem or_comm_bs (x y : BoolSet) : BoolSet.or x y = BoolSet.or y x := by revert x y; decide

private theorem detail_ok_or {dbg d : Bool} {id : Nat} {x : Ivl T} {c : Cond T} (hw : WF c)
    (hh : Steps d (seen c)) (hx : Proper x) (f o : Bool) :
    (∃ R f', detailConstrain dbg d id x c f o = .ok (R, f') ∧ Proper R) ∨ detailConstrain dbg d id x c f o = .error .contract := by
  rcases detail_no_ub (dbg := dbg) (id := id) (x := x) c hw hh f o with ⟨⟨R, f'⟩, h⟩ | h
  · exact Or.inl ⟨R, f', h, detail_proper hx c hw hh _ _ _ _ h⟩
  · exact Or.inr h

/-- C23 for `|`: the order of two disjuncts never matters.  `Steps` asks that the values next to the bounds of integral operands exist; it
holds for all conditions on integers (`steps_of_lawful`) and for all conditions on floating-point intervals (`steps_of_float`), mixed ones
included. -/
theorem C23_or (dbg d : Bool) (id : Nat) (x : Ivl T) (e f : CExpr T) (c c' : Cond T)
    (hx : Proper x) (he : e.Proper) (hf : f.Proper) (hb : (CExpr.or e f).build dbg = .ok c)
    (hb' : (CExpr.or f e).build dbg = .ok c') (hh : Steps d (seen c)) :
    SameOutcome (constrain dbg d id x c) (constrain dbg d id x c') := by
  obtain ⟨a, a1, a2, _⟩ := build_wf (dbg := dbg) e he
  obtain ⟨b, b1, b2, _⟩ := build_wf (dbg := dbg) f hf
  simp only [CExpr.build, a1, b1, ok_bind, pure, Except.pure, Except.ok.injEq] at hb hb'
  unfold Cond.mkOr at hb hb'
  simp only [or_comm_bs b.truth a.truth, Bool.or_comm b.isCond a.isCond] at hb hb'
  cases hcond : a.isCond || b.isCond with
  | false =>
    simp only [hcond, Bool.false_eq_true, if_false] at hb hb'
    rw [← hb, ← hb']
    exact same_refl (fun R h => by simp [constrain, detailConstrain, expects] at h)
  | true =>
    simp only [hcond, if_true] at hb hb'
    subst hb; subst hb'
    obtain ⟨ha, hb⟩ := hh
    simp only [constrain, detailConstrain]
    rcases detail_ok_or (dbg := dbg) (id := id) a2 ha hx false true with ⟨R1, f1, h1, p1⟩ | h1 <;>
    rcases detail_ok_or (dbg := dbg) (id := id) b2 hb hx false true with ⟨R2, f2, h2, p2⟩ | h2 <;>
      simp only [h1, h2, ok_bind, error_bind]
    · cases BoolSet.contains (a.truth.or b.truth) true || false
      · exact rfl
      · simp only [expects_true, ok_bind]
        unfold Proper at *
        rw [make_of_le (a := cmin R1.lo R2.lo) (b := cmax R1.hi R2.hi) (by grind),
          make_of_le (a := cmin R2.lo R1.lo) (b := cmax R2.hi R1.hi) (by grind)]
        cases f1 <;> cases f2 <;> cases BoolSet.possibly a.truth <;> cases BoolSet.possibly b.truth <;>
          simp [pure, Except.pure, expects, SameOutcome] <;> grind
    · exact rfl
    · exact rfl
    · exact rfl

/-- C23 for `&`: the order of two conjuncts never matters (`Steps` as in `C23_or`). -/
theorem C23_and (dbg d : Bool) (id : Nat) (x : Ivl T) (e f : CExpr T) (c c' : Cond T)
    (hx : Proper x) (he : e.Proper) (hf : f.Proper) (hb : (CExpr.and e f).build dbg = .ok c)
    (hb' : (CExpr.and f e).build dbg = .ok c') (hh : Steps d (seen c)) :
    SameOutcome (constrain dbg d id x c) (constrain dbg d id x c') := by
  obtain ⟨a, a1, a2, _⟩ := build_wf (dbg := dbg) e he
  obtain ⟨b, b1, b2, _⟩ := build_wf (dbg := dbg) f hf
  simp only [CExpr.build, a1, b1, ok_bind, pure, Except.pure, Except.ok.injEq] at hb hb'
  unfold Cond.mkAnd at hb hb'
  simp only [and_comm_bs b.truth a.truth, Bool.or_comm b.isCond a.isCond] at hb hb'
  cases hcond : a.isCond || b.isCond with
  | false =>
    simp only [hcond, Bool.false_eq_true, if_false] at hb hb'
    rw [← hb, ← hb']
    exact same_refl (fun R h => by simp [constrain, detailConstrain, expects] at h)
  | true =>
    simp only [hcond, if_true] at hb hb'
    subst hb; subst hb'
    rw [seen_conj] at hh
    obtain ⟨ha, hb⟩ := hh
    have a2 := a2.flat
    have b2 := b2.flat
    simp only [constrain, detail_conj]
    rw [detail_flag_eq a.flat false, detail_flag_eq b.flat false]
    rcases detail_ok_or (dbg := dbg) (id := id) a2 ha hx false false with ⟨R1, f1, h1, p1⟩ | h1 <;>
    rcases detail_ok_or (dbg := dbg) (id := id) b2 hb hx false false with ⟨R2, f2, h2, p2⟩ | h2 <;>
      simp only [h1, h2, ok_bind, error_bind]
    · rw [detail_flag_eq b.flat, detail_flag_eq a.flat (_ || _)]
      simp only [h1, h2, ok_bind, Bool.false_and, Bool.false_or, flat_isDisj, Bool.not_false, Bool.and_true, Bool.or_comm (decide (Mentions d id (seen b.flat))) (decide (Mentions d id (seen a.flat)))]
      unfold Proper at *
      cases BoolSet.contains (a.truth.and b.truth) true
      · simp only [Bool.false_eq_true, if_false, ok_bind, pure, Except.pure]
        cases (decide (Mentions d id (seen a.flat)) || decide (Mentions d id (seen b.flat)))
        · exact rfl
        · simp only [expects_true, ok_bind, SameOutcome]; grind
      · have hsw : (ge R2.hi R1.lo && le R2.lo R1.hi) = (ge R1.hi R2.lo && le R1.lo R2.hi) := by simp only [ge]; exact Bool.and_comm _ _
        simp only [if_true, hsw]
        cases ho : (ge R1.hi R2.lo && le R1.lo R2.hi)
        · cases dbg
          · have e1 : Ivl.make (cmax R1.lo R2.lo) (cmin R1.hi R2.hi) = .error .contract := by
              rcases make_contract (cmax R1.lo R2.lo) (cmin R1.hi R2.hi) with ⟨R, h⟩ | h
              · rw [make_eq_ok] at h; grind
              · exact h
            have e2 : Ivl.make (cmax R2.lo R1.lo) (cmin R2.hi R1.hi) = .error .contract := by
              rcases make_contract (cmax R2.lo R1.lo) (cmin R2.hi R1.hi) with ⟨R, h⟩ | h
              · rw [make_eq_ok] at h; grind
              · exact h
            simp only [e1, e2, expectsDebug_release, ok_bind, error_bind]; exact rfl
          · exact rfl
        · rw [expectsDebug_true, make_of_le (a := cmax R1.lo R2.lo) (b := cmin R1.hi R2.hi) (by grind),
            make_of_le (a := cmax R2.lo R1.lo) (b := cmin R2.hi R1.hi) (by grind)]
          simp only [ok_bind, pure, Except.pure]
          cases (decide (Mentions d id (seen a.flat)) || decide (Mentions d id (seen b.flat)))
          · exact rfl
          · simp only [expects_true, ok_bind, SameOutcome]; grind
    · rw [detail_flag_eq b.flat]
      simp only [h2, error_bind]; exact rfl
    · rw [detail_flag_eq a.flat]
      simp only [h1, error_bind]; exact rfl
    · exact rfl

end

/-- The hypothesis of C23 holds for every condition on integers or positions. -/
theorem steps_of_lawful {T : Type} [CppVal T] [CppOrder T] [CppStep T] (hs : LawfulStep T) (d : Bool) (c : Cond T) : Steps d c := by
  have key : ∀ a b : T, lt a b = true → (∃ s, CppStep.succ a = some s ∧ le s s = true) ∧ ∃ p, CppStep.pred b = some p ∧ le p p = true := by
    intro a b hlt
    obtain ⟨p, h1, h2, h3⟩ := hs.pred_of_lt _ _ hlt
    obtain ⟨q, h1', h2', h3'⟩ := hs.succ_of_lt _ _ hlt
    exact ⟨⟨q, h1', by grind⟩, p, h1, by grind⟩
  induction c with
  | less s l r => exact fun h => ⟨fun _ => (key _ _ h).2, fun _ => (key _ _ h).1⟩
  | notEqual s l r => exact fun _ => ⟨key _ _, key _ _⟩
  | conj s l r ihl ihr => exact ⟨ihl, ihr⟩
  | disj s l r ihl ihr => exact ⟨ihl, ihr⟩
  | plain s => trivial
  | leq s l r => trivial
  | equal s l r => trivial

/-- the integral operands of strict comparisons are numbers, not infinities -/
def IntegralFinite : Cond (Fl ℚ) → Prop
  | .less _ l r => (l.disc = true → ∃ k, l.arg.lo = .num k) ∧ (r.disc = true → ∃ k, r.arg.hi = .num k)
  | .conj _ l r => IntegralFinite l ∧ IntegralFinite r
  | .disj _ l r => IntegralFinite l ∧ IntegralFinite r
  | _ => True

/-- The hypothesis of C23 holds for every condition on an interval of floating-point values, whatever operands of integral type it has. -/
theorem steps_of_float (c : Cond (Fl ℚ)) (h : IntegralFinite c) : Steps false c := by
  induction c with
  | less s l r =>
    intro _
    refine ⟨fun hr => ?_, fun hl => ?_⟩
    · obtain ⟨k, hk⟩ := h.2 hr
      exact ⟨.num (k - 1), by rw [hk]; rfl, by simp [CppVal.le, Fl.ext]⟩
    · obtain ⟨k, hk⟩ := h.1 hl
      exact ⟨.num (k + 1), by rw [hk]; rfl, by simp [CppVal.le, Fl.ext]⟩
  | notEqual s l r => intro h; cases h
  | conj s l r ihl ihr => exact ⟨ihl h.1, ihr h.2⟩
  | disj s l r ihl ihr => exact ⟨ihl h.1, ihr h.2⟩
  | plain s => trivial
  | leq s l r => trivial
  | equal s l r => trivial

/-! Non-vacuity of C23 for an interval of floating-point values: `(x < 3) & (x > y)` with an integral `3`. -/
example : ∃ c c', (CExpr.and (.cmp .lt (.ident false 0 (⟨.num 0, .num 5⟩ : Ivl (Fl ℚ))) (.scalar true (.num 3)))
      (.cmp .gt (.ident false 0 ⟨.num 0, .num 5⟩) (.ident false 1 ⟨.num 1, .num 2⟩))).build true = .ok c ∧
    (CExpr.and (.cmp .gt (.ident false 0 (⟨.num 0, .num 5⟩ : Ivl (Fl ℚ))) (.ident false 1 ⟨.num 1, .num 2⟩))
      (.cmp .lt (.ident false 0 ⟨.num 0, .num 5⟩) (.scalar true (.num 3)))).build true = .ok c' ∧ IntegralFinite (seen c) ∧ ¬ StrictHom false (seen c) ∧
    constrain true false 0 ⟨.num 0, .num 5⟩ c = .ok ⟨.num 1, .num 2⟩ := by
  refine ⟨_, _, rfl, rfl, ?_, ?_, ?_⟩
  · simp [Cond.mkAnd, Cond.isCond, seen, Cond.isDisj, IntegralFinite, Operand.disc, Operand.arg, Arg.lo, Arg.hi]
  · simp [Cond.mkAnd, Cond.isCond, seen, Cond.isDisj, StrictHom, Operand.disc]
  · decide +kernel

/-! Non-vacuity of C23: two halves of a nested condition. -/
example : ∃ c c', (CExpr.and (.cmp .lt X (K 8)) (.or (.cmp .ge X Y) (.cmp .ne X (K 3)))).build true = .ok c ∧
    (CExpr.and (.or (.cmp .ge X Y) (.cmp .ne X (K 3))) (.cmp .lt X (K 8))).build true = .ok c' ∧ StrictHom true (seen c) ∧
    constrain true true 0 x10 c = .ok ⟨i32 0, i32 7⟩ := by
  refine ⟨_, _, rfl, rfl, ?_, by decide⟩
  simp [Cond.mkOr, Cond.mkAnd, Cond.isCond, seen, Cond.isDisj, StrictHom, X, K, Operand.disc]

/-! ## C24 -/

/-- C24 in full: an `interval<double>` (`d = false`) constrained by a comparison with an integral scalar `k` (an exactly represented number)
keeps every satisfying value. -/
def C24_full : Prop :=
  ∀ (dbg left : Bool) (id : Nat) (op : CmpOp) (x R : Ivl (Fl ℚ)) (k : ℚ) (c : Cond (Fl ℚ)) (u : Fl ℚ), Proper x →
    (single op left false id x (.scalar true (.num k))).build dbg = .ok c → constrain dbg false id x c = .ok R →
    Satisfies op left x (.scalar (.num k)) u → u ∈ᵢ R

private def q (k : ℚ) : Fl ℚ := .num k
private def xm : Ivl (Fl ℚ) := ⟨q (-3), q 1⟩
private def xh : Ivl (Fl ℚ) := ⟨q (-1/2), q 1⟩

/-- C24 is violated (detail/interval.hpp:257–269, 504): `constrain(x, x < 0)` for `x = [-3.,1.]` and the `int` literal 0 gives `[-3,-1]`,
losing `-0.5`. -/
theorem C24_violated : ¬ C24_full := by
  intro h
  have hc : constrain true false 0 xm (.less (compareLt (.ivl xm) (.scalar (q 0))) (.ident false 0 xm) (.scalar true (q 0))) =
      .ok ⟨q (-3), q (-1)⟩ := by decide +kernel
  have := h true true 0 .lt xm _ 0 _ (q (-1/2)) (by decide +kernel)
    (by simp only [single, if_true, CExpr.build, buildCmp, condLt, opLt]; rfl) hc
    ⟨by decide +kernel, q 0, ⟨by decide +kernel, by decide +kernel⟩, by decide +kernel⟩
  revert this; decide +kernel

/-- A second symptom: `constrain(x, !(x >= 0))` for `x = [-0.5,1.]` and the `int` literal 0 violates the constructor's contract in every
build, although `x = -0.25` satisfies the condition. -/
theorem C24_violated_failure : ∃ c, (CExpr.not (.cmp .ge (.ident false 0 xh) (.scalar true (q 0)))).build true = .ok c ∧
    Ev (fun _ => q (-1/4)) c true ∧ constrain true false 0 xh c = .error .contract ∧
    constrain false false 0 xh c = .error .contract := by
  have hne : compareLeq (.scalar (q 0)) (.ivl xh) ≠ BoolSet.empty := by decide +kernel
  refine ⟨.less (BoolSet.notCore (compareLeq (.scalar (q 0)) (.ivl xh))) (.ident false 0 xh) (.scalar true (q 0)), ?_,
    ⟨q (-1/4), q 0, ⟨rfl, by decide +kernel⟩, rfl, by decide +kernel⟩, by decide +kernel, by decide +kernel⟩
  have ha : (Ivl.assigned xh) = true := by decide +kernel
  simp [CExpr.build, buildCmp, condGe, opGe, Operand.arg, Arg.assigned, ha, pure, Except.pure, Cond.mkNot, notM_ok hne]

section
variable {T : Type} [CppVal T] [CppOrder T] [CppStep T]
/-- C24 for the relations that do not step (`==`, `!=`, `<=`, `>=`), any operand type: every satisfying value is kept and the call does not
fail.  Missing: `<`, `>` (false, `C24_violated`; `C24_lt_iff` and
`C24_gt_iff` say exactly when). -/
theorem C24_nonstrict_partial (dbg left : Bool) (id : Nat) (op : CmpOp) (x : Ivl T) (k : T) (hk : NotNan k) (hx : Proper x)
    (hop : op.nonStrict = true) (u : T) (hu : Satisfies op left x (.scalar k) u) :
    ∃ c R, (single op left false id x (.scalar true k)).build dbg = .ok c ∧ constrain dbg false id x c = .ok R ∧ u ∈ᵢ R := by
  by_cases hne : op = .ne
  · subst hne
    obtain ⟨hux, v, hv, huv⟩ := hu
    have hp : (single .ne left false id x (.scalar true k)).Proper := by cases left <;> first | exact ⟨hx, hk⟩ | exact ⟨hk, hx⟩
    obtain ⟨c, h1, h2, h3⟩ := build_wf (dbg := dbg) _ hp
    have hv' : le k v = true ∧ le v k = true := hv
    have huk : ne u k = true := by
      unfold Pt at hux
      cases left <;> simp only [Bool.false_eq_true, if_false, if_true, CmpOp.eval] at huv <;> grind
    have hE : EvE (fun _ => u) (single .ne left false id x (.scalar true k)) true := by
      cases left
      · exact ⟨k, u, rfl, ⟨rfl, hux⟩, by simp only [CmpOp.eval]; grind⟩
      · exact ⟨u, k, ⟨rfl, hux⟩, rfl, huk⟩
    have hE' := h3 _ _ hE
    have ht := ev_truth c h2 _ hE'
    have hc : c = .notEqual (c.truth) (if left then .ident false id x else .scalar true k) (if left then .scalar true k else .ident false id x) := by
      cases left <;>
      · simp only [single, if_true, if_false, Bool.false_eq_true, CExpr.build, buildCmp, condNe, bind_eq_ok, pure, Except.pure, Except.ok.injEq] at h1
        obtain ⟨s, _, rfl⟩ := h1; rfl
    have hm : Mentions false id c := by
      rw [hc]; cases left <;> simp [Mentions, Operand.matchesId]
    have hl : c.isLeaf = true := by rw [hc]; rfl
    have hsn : narrow dbg false id x c = .ok x := by
      rw [hc]
      unfold Pt at hux
      unfold Proper at hx
      unfold NotNan at hk
      have e1 : (ne k x.hi || ne k x.lo) = true := by grind
      have e2 : (ne x.lo k || ne x.hi k) = true := by grind
      cases left <;>
        simp [narrow, Operand.arg, Arg.lo, Arg.hi, e1, e2, pure, Except.pure]
    exact ⟨c, x, h1, by rw [leaf_constrain c hl hm ht, hsn], hux⟩
  · obtain ⟨c, R, h1, h2, h3⟩ := C20_tight_attained dbg false left id op x (.scalar true k) hx hk rfl
      (Or.inr (by cases op <;> simp_all [CmpOp.nonStrict])) ⟨u, hu⟩
    exact ⟨c, R, h1, h2, h3.2.2 u hu⟩
end

/-! Non-vacuity of C24: `x >= 0` with `x = [-0.5,1]`. -/
example : Satisfies .ge true xh (.scalar (q 0)) (q (1/2)) :=
  ⟨by decide +kernel, q 0, ⟨by decide +kernel, by decide +kernel⟩, by decide +kernel⟩

end Intervals.Props
