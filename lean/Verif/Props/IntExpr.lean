import Verif.Spec.IntExpr
import Verif.Props.IntArith
import Verif.Props.Basic
/-!
# C46 for integers: interval evaluation of an integer expression encloses every point evaluation, or is undefined
-/
namespace Intervals.Props
open Intervals CppVal Spec CppNum

variable {n : Nat}

theorem inhab_of_inI {a : Int} {A : Arg (SInt n)} (h : InI a A) : Inhab A := by
  cases A with
  | scalar s => trivial
  | ivl x => exact le_trans h.1 h.2
theorem properA_of_inI {a : Int} {A : Arg (SInt n)} (h : InI a A) : ProperA A := by
  cases A with
  | scalar s => simp [ProperA, sint_le, NotNan]
  | ivl x => simpa [ProperA, Proper, sint_le] using le_trans h.1 h.2
theorem fit_some {v : Int} (h : Rep n v) : fit n v = some v := if_pos h

theorem iun_encl (dbg : Bool) (op : IUnOp) {a : Int} {X : Ivl (SInt n)} (ha : InI a (.ivl X)) :
    op.ivl dbg X = .error .ub ∨ ∃ R, op.ivl dbg X = .ok R ∧ fit n (op.fn a) = some (op.fn a) ∧ InI (op.fn a) (.ivl R) := by
  have hX := inhab_of_inI ha
  have key : ∀ {g : Int → Int} {res}, ExactInt1 (fun a => some (g a)) X res →
      res = .error .ub ∨ ∃ R, res = .ok R ∧ fit n (g a) = some (g a) ∧ InI (g a) (.ivl R) := fun h => by
    rcases h with ⟨-, e⟩ | ⟨d, R, e, h, -, -⟩
    · exact .inl e
    · obtain ⟨v, hv, hr⟩ := d a ha
      cases hv
      exact .inr ⟨R, e, fit_some hr, h a _ ha rfl⟩
  cases op with
  | plus =>
    refine .inr ⟨X, C25_plus dbg X hX, fit_some ?_, ha⟩
    have := X.lo.rep; have := X.hi.rep; have := ha.1; have := ha.2
    show Rep n a
    unfold Rep at *; omega
  | neg => exact key (C25_neg dbg X hX)
  | square => exact key (C28_square dbg X hX)
  | abs => exact key (C28_abs dbg X hX)

theorem ibin_encl (dbg : Bool) (op : IBinOp) {a b : Int} {A B : Arg (SInt n)} (ha : InI a A) (hb : InI b B) :
    op.ivl dbg A B = .error .ub ∨
      ∃ R v, op.ivl dbg A B = .ok R ∧ op.fn a b = some v ∧ fit n v = some v ∧ InI v (.ivl R) := by
  have hA := inhab_of_inI ha; have hB := inhab_of_inI hb
  have key : ∀ {g : Int → Int → Option Int} {res}, ExactInt2 g A B res →
      res = .error .ub ∨ ∃ R v, res = .ok R ∧ g a b = some v ∧ fit n v = some v ∧ InI v (.ivl R) := fun h => by
    rcases h with ⟨-, e⟩ | ⟨d, R, e, h, -, -⟩
    · exact .inl e
    · obtain ⟨v, hv, hr⟩ := d a b ha hb
      exact .inr ⟨R, v, e, hv, fit_some hr, h a b v ha hb hv⟩
  have pt : ∀ {c : Int} {C : Arg (SInt n)}, InI c C → ∃ c' : SInt n, c'.val = c ∧ c' ∈ₐ C := fun {c C} h => by
    have h1 := InI.bounds h
    have r1 := C.lo.rep; have r2 := C.hi.rep
    have r : Rep n c := by unfold Rep at *; omega
    refine ⟨⟨c, r.1, by have := r.2; omega⟩, rfl, ?_⟩
    cases C with
    | scalar s => simp [PtA, sint_le]; have : c = s.val := h; omega
    | ivl x => simpa [PtA, Pt, sint_le, InI] using h
  obtain ⟨a', rfl, ma⟩ := pt ha
  obtain ⟨b', rfl, mb⟩ := pt hb
  cases op with
  | add => exact key (C25_add dbg A B hA hB)
  | sub => exact key (C25_sub dbg A B hA hB)
  | mul => exact key (C26_mul dbg A B hA hB)
  | div => exact key (C27_div dbg A B hA hB)
  | min =>
    obtain ⟨R, e, -, h⟩ := C16_min dbg A B (properA_of_inI ha) (properA_of_inI hb)
    have m := (h _).mpr ⟨a', b', ma, mb, rfl⟩
    have ev : (if b'.val < a'.val then b'.val else a'.val) = (cmin a' b').val := by rw [sint_cmin]; omega
    refine .inr ⟨R, (cmin a' b').val, e, congrArg some ev, fit_some (SInt.rep _), ?_⟩
    simpa [Pt, sint_le, InI] using m
  | max =>
    obtain ⟨R, e, -, h⟩ := C16_max dbg A B (properA_of_inI ha) (properA_of_inI hb)
    have m := (h _).mpr ⟨a', b', ma, mb, rfl⟩
    have ev : (if a'.val < b'.val then b'.val else a'.val) = (cmax a' b').val := by rw [sint_cmax]; omega
    refine .inr ⟨R, (cmax a' b').val, e, congrArg some ev, fit_some (SInt.rep _), ?_⟩
    simpa [Pt, sint_le, InI] using m

theorem of_cases (v : Int) : SInt.of n v = .error .ub ∨ ∃ r : SInt n, SInt.of n v = .ok r ∧ r.val = v ∧ Rep n v := by
  by_cases h : Rep n v
  · exact .inr ⟨_, SInt.of_ok h, rfl, h⟩
  · exact .inl (SInt.of_ub h)

theorem iun_scalar (op : IUnOp) (a : SInt n) : op.scalar a = .error .ub ∨ ∃ r : SInt n, op.scalar a = .ok r ∧ fit n (op.fn a.val) = some r.val := by
  have key : ∀ (v : Int), SInt.of n v = .error .ub ∨ ∃ r : SInt n, SInt.of n v = .ok r ∧ fit n v = some r.val := fun v => by
    rcases of_cases (n := n) v with h | ⟨r, h, rfl, hr⟩
    · exact .inl h
    · exact .inr ⟨r, h, fit_some hr⟩
  cases op with
  | plus => exact .inr ⟨a, rfl, fit_some a.rep⟩
  | neg => exact key _
  | square => exact key _
  | abs =>
    simp only [IUnOp.scalar, IUnOp.fn, SInt.abs]
    split
    · next h => rw [show ((a.val.natAbs : Nat) : Int) = -a.val by omega]; exact key _
    · next h => rw [show ((a.val.natAbs : Nat) : Int) = a.val by omega]; exact .inr ⟨a, rfl, fit_some a.rep⟩

theorem ibin_scalar (op : IBinOp) (a b : SInt n) :
    op.scalar a b = .error .ub ∨ ∃ r : SInt n, op.scalar a b = .ok r ∧ (op.fn a.val b.val).bind (fit n) = some r.val := by
  have key : ∀ (v : Int), SInt.of n v = .error .ub ∨ ∃ r : SInt n, SInt.of n v = .ok r ∧ fit n v = some r.val := fun v => by
    rcases of_cases (n := n) v with h | ⟨r, h, rfl, hr⟩
    · exact .inl h
    · exact .inr ⟨r, h, fit_some hr⟩
  cases op with
  | add => exact key _
  | sub => exact key _
  | mul => exact key _
  | div =>
    simp only [IBinOp.scalar, IBinOp.fn, CppNum.div, divInt]
    split
    · exact .inl rfl
    · exact key _
  | min =>
    refine .inr ⟨cmin a b, rfl, ?_⟩
    have ev : (if b.val < a.val then b.val else a.val) = (cmin a b).val := by rw [sint_cmin]; omega
    simp only [IBinOp.fn, ev, Option.bind_some]; exact fit_some (SInt.rep _)
  | max =>
    refine .inr ⟨cmax a b, rfl, ?_⟩
    have ev : (if a.val < b.val then b.val else a.val) = (cmax a b).val := by rw [sint_cmax]; omega
    simp only [IBinOp.fn, ev, Option.bind_some]; exact fit_some (SInt.rep _)

/-- C46 for integers: if the interval evaluation is defined, then every point evaluation within the inputs is defined and enclosed; no contract
is violated. -/
theorem C46_int (dbg : Bool) (X : Nat → Ivl (SInt n)) (ρ : Nat → Int) (hρ : ∀ i, InI (ρ i) (.ivl (X i))) (e : IExpr n) :
    e.ivl dbg X = .error .ub ∨ ∃ A v, e.ivl dbg X = .ok A ∧ e.point ρ = some v ∧ InI v A := by
  induction e with
  | const c => exact .inr ⟨_, _, rfl, rfl, rfl⟩
  | var i => exact .inr ⟨_, _, rfl, rfl, hρ i⟩
  | un op e ih =>
    rcases ih with h | ⟨A, v, eA, eV, h⟩
    · left; simp only [IExpr.ivl, h]; rfl
    simp only [IExpr.ivl, IExpr.point, eA, eV, ok_bind, Option.bind_eq_bind, Option.bind_some]
    cases A with
    | scalar s =>
      obtain rfl : v = s.val := h
      rcases iun_scalar op s with e' | ⟨r, e', f⟩
      · left; simp only [e']; rfl
      · right; exact ⟨.scalar r, r.val, by simp only [e']; rfl, f, rfl⟩
    | ivl x =>
      rcases iun_encl dbg op h with e' | ⟨R, e', f, m⟩
      · left; simp only [e']; rfl
      · right; exact ⟨.ivl R, _, by simp only [e']; rfl, f, m⟩
  | bin op e₁ e₂ ih₁ ih₂ =>
    rcases ih₁ with h | ⟨A, v, eA, eV, h⟩
    · left; simp only [IExpr.ivl, h]; rfl
    rcases ih₂ with h' | ⟨B, w, eB, eW, h'⟩
    · left; simp only [IExpr.ivl, eA, h', ok_bind]; rfl
    simp only [IExpr.ivl, IExpr.point, eA, eV, eB, eW, ok_bind, Option.bind_eq_bind, Option.bind_some]
    by_cases ns : (∃ v, A = .scalar v) ∧ ∃ w, B = .scalar w
    · obtain ⟨⟨s, rfl⟩, ⟨t, rfl⟩⟩ := ns
      obtain rfl : v = s.val := h
      obtain rfl : w = t.val := h'
      rcases ibin_scalar op s t with e' | ⟨r, e', f⟩
      · left; simp only [e']; rfl
      · right; exact ⟨.scalar r, r.val, by simp only [e']; rfl, f, rfl⟩
    · rcases ibin_encl dbg op h h' with e' | ⟨R, u, e', f1, f2, m⟩
      · left
        cases A <;> cases B <;> first | exact absurd ⟨⟨_, rfl⟩, ⟨_, rfl⟩⟩ ns | (simp only [e']; rfl)
      · right
        refine ⟨.ivl R, u, ?_, by rw [f1]; exact f2, m⟩
        cases A <;> cases B <;> first | exact absurd ⟨⟨_, rfl⟩, ⟨_, rfl⟩⟩ ns | (simp only [e']; rfl)

/-! `(x*x - 7) / y` with `x ∈ [-3,4]`, `y ∈ [2,5]` as 32-bit integers. -/
example : ∃ A, (.bin .div (.bin .sub (.un .square (.var 0)) (.const (i32 7))) (.var 1) : IExpr 31).ivl true
    (fun i => if i = 0 then ⟨i32 (-3), i32 4⟩ else ⟨i32 2, i32 5⟩) = .ok (.ivl A) ∧ A.lo.val = -3 ∧ A.hi.val = 4 :=
  ⟨⟨i32 (-3), i32 4⟩, by rfl, rfl, rfl⟩
end Intervals.Props
