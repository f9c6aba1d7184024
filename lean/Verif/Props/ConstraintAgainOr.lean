import Verif.Spec.ConstraintAgainOr
import Verif.Props.ConstraintTight
import Verif.Props.ConstraintIdempotent
/-!
# C105: constraining again by a disjunction
-/
namespace Intervals.Props
open Intervals CppVal Intervals.Spec

section
variable {ι : Type} {V : ι → Type} {T : Type} [∀ i, CppVal (V i)] [∀ i, CppNum (V i)] [CppVal T] [CppNum T] [CppStep T] [CppOrder T]
  {E : OperandTypes V T} {dbg d : Bool} {x : Ivl T}

/-- C105: for a disjunction of conjunctions of exact comparisons, each satisfied by some value of `x`, the result is the smallest interval that contains all values that satisfy one. -/
theorem C105_disj (hx : Proper x) (e : MExpr V) (hp : e.Proper E) (hn : e.NoPlain) (hg : e.All (ExactLeaf E dbg d x) true) (he : EachPossible E x e) : Tight E dbg d x e := by
  induction e with
  | or e f ihe ihf => exact C105_or_partial hx e f hp.1 hp.2 (ihe hp.1 hn.1 hg.1 he.1) (ihf hp.2 hn.2 hg.2 he.2)
  | plain s => exact C105_tight hx _ hp hn hg he.1 he.2.1 he.2.2
  | away s => exact C105_tight hx _ hp hn hg he.1 he.2.1 he.2.2
  | cmp i r k => exact C105_tight hx _ hp hn hg he.1 he.2.1 he.2.2
  | and e f => exact C105_tight hx _ hp hn hg he.1 he.2.1 he.2.2
  | not e => exact C105_tight hx _ hp hn hg he.1 he.2.1 he.2.2

theorem eachPossible_mono {R : Ivl T} (e : MExpr V) (he : EachPossible E x e) (h : ∀ u, u ∈ᵢ x → e.Sat E u true → u ∈ᵢ R) : EachPossible E R e := by
  induction e with
  | or e f ihe ihf => exact ⟨ihe he.1 fun u a b => h u a (Or.inl b), ihf he.2 fun u a b => h u a (Or.inr b)⟩
  | plain s => obtain ⟨a, b, u, c, c'⟩ := he; exact ⟨a, b, u, h u c c', c'⟩
  | away s => obtain ⟨a, b, u, c, c'⟩ := he; exact ⟨a, b, u, h u c c', c'⟩
  | cmp i r k => obtain ⟨a, b, u, c, c'⟩ := he; exact ⟨a, b, u, h u c c', c'⟩
  | and e f => obtain ⟨a, b, u, c, c'⟩ := he; exact ⟨a, b, u, h u c c', c'⟩
  | not e => obtain ⟨a, b, u, c, c'⟩ := he; exact ⟨a, b, u, h u c c', c'⟩

/-- C105: constraining the result by the same disjunction, formed anew, succeeds and changes no bound. -/
theorem C105_idempotent (hx : Proper x) (e : MExpr V) (hp : e.Proper E) (hn : e.NoPlain) (hg : ∀ y : Ivl T, Proper y → e.All (ExactLeaf E dbg d y) true) (he : EachPossible E x e) :
    ∃ R R', (do constrainT E dbg d x (← e.build E dbg x)) = .ok R ∧ (do constrainT E dbg d R (← e.build E dbg R)) = .ok R' ∧ EqualBounds R' R := by
  obtain ⟨c, R, h1, h2, h3, h4, h5⟩ := C105_disj hx e hp hn (hg x hx) he
  have hl := h3 _ h4.1 h4.2
  have hu := h3 _ h5.1 h5.2
  have hR : Proper R := hl.2
  obtain ⟨c', R', k1, k2, k3, k4, k5⟩ := C105_disj hR e hp hn (hg R hR) (eachPossible_mono e he h3)
  have wl := k3 _ hl h4.2
  have wu := k3 _ hu h5.2
  refine ⟨R, R', by simp only [h1, ok_bind, h2], by simp only [k1, ok_bind, k2], ?_, ?_⟩
  · have := k4.1.1; have := wl.1; grind
  · have := k5.1.2; have := wu.2; grind
end

private def againOr : MExpr (fun m : {m // m ≤ 31} => SInt m.1) :=
  .or (.and (.cmp ⟨7, by decide⟩ (.scalar ⟨3, by decide, by decide⟩) .xLess) (.cmp ⟨15, by decide⟩ (.scalar ⟨1, by decide, by decide⟩) .leqX))
    (.cmp ⟨15, by decide⟩ (.ivl ⟨⟨6, by decide, by decide⟩, ⟨7, by decide, by decide⟩⟩) .xEq)
/-- `x < int8(3) & x >= short(1) | x == r` for `r` from 6 to 7 at `[0, 9]`: `[1, 7]`, and again; the hypotheses hold -/
example : againOr.Proper (wideOperands 31) ∧ againOr.NoPlain ∧ (∀ y : Ivl (SInt 31), Proper y → againOr.All (ExactLeaf (wideOperands 31) true true y) true) ∧
    EachPossible (wideOperands 31) ⟨i32 0, i32 9⟩ againOr ∧
    (do constrainT (wideOperands 31) true true ⟨i32 0, i32 9⟩ (← againOr.build (wideOperands 31) true ⟨i32 0, i32 9⟩)) = .ok ⟨i32 1, i32 7⟩ ∧
    (do constrainT (wideOperands 31) true true ⟨i32 1, i32 7⟩ (← againOr.build (wideOperands 31) true ⟨i32 1, i32 7⟩)) = .ok ⟨i32 1, i32 7⟩ := by
  refine ⟨⟨⟨⟨inferInstance, by decide, C101_casts (K := ℚ).1 (by decide)⟩, ⟨inferInstance, by decide, C101_casts (K := ℚ).1 (by decide)⟩⟩, ⟨inferInstance, by decide, C101_casts (K := ℚ).1 (by decide)⟩⟩, ?_, fun y hy => ?_, ?_, by decide, by decide⟩
  · exact ⟨⟨trivial, trivial⟩, trivial⟩
  · refine ⟨⟨C105_int _ y hy _ _ (by decide) _ (by decide) (fun _ => by decide) (by decide), C105_int _ y hy _ _ (by decide) _ (by decide) (by decide) (by decide)⟩,
      C105_int _ y hy _ _ (by decide) _ (by decide) (by decide) (by decide)⟩
  · refine ⟨⟨⟨trivial, trivial⟩, rfl, i32 2, by decide, ⟨_, lo_mem (by decide), by decide⟩, ⟨_, lo_mem (by decide), by decide⟩⟩, trivial, rfl, i32 6, by decide, ⟨_, lo_mem (by decide), by decide⟩⟩
end Intervals.Props
