import Verif.Model.Mixed
import Verif.Model.Narrow
import Verif.Spec.Mixed
import Verif.Props.FltArith
import Verif.Props.Compare
import Verif.Props.IntArith
import Verif.Lemmas.BinFmt2
import Mathlib.Data.Rat.Floor
/-!
# C68: operators on operands of different value types
-/
namespace Intervals.Props
open Intervals CppVal CppNum Spec
set_option linter.unusedSectionVars false
set_option linter.unusedSimpArgs false

section generic
variable {U V T : Type _} [CppVal U] [CppOrder U] [CppNum U] [CppVal V] [CppOrder V] [CppNum V] [CppVal T] [CppOrder T] [CppNum T]
variable {cu : U → T} {cv : V → T} {P : U → Prop} {Q : V → Prop}

theorem mapA_lo (c : U → T) (X : Arg U) : (mapA c X).lo = c X.lo := by cases X <;> rfl
theorem mapA_hi (c : U → T) (X : Arg U) : (mapA c X).hi = c X.hi := by cases X <;> rfl

theorem mapA_scalar (c : U → T) (s : U) : mapA c (.scalar s) = .scalar (c s) := rfl

theorem mapA_proper (g : GoodCast cu P) {X : Arg U} (hX : ProperA X) (hP : AllB P X) : ProperA (mapA cu X) := by
  have := g.mono _ _ hP.1 hP.2 (proper_le hX)
  cases X <;> exact this
theorem mapA_mem (g : GoodCast cu P) {X : Arg U} (hP : AllB P X) {a : U} (ha : a ∈ₐ X) (pa : P a) : cu a ∈ₐ mapA cu X := by
  rw [mem_bounds, mapA_lo, mapA_hi]
  have := mem_bounds.mp ha
  exact ⟨g.mono _ _ hP.1 pa this.1, g.mono _ _ pa hP.2 this.2⟩

theorem cast_eq_zero (g : GoodCast cu P) {a : U} (pa : P a) : eq (cu a) (zero : T) = eq a (zero : U) := by
  rw [Bool.eq_iff_iff, CppOrder.eq_iff, CppOrder.eq_iff, g.le_zero a pa, g.zero_le a pa]
theorem cast_lt_zero (g : GoodCast cu P) {a : U} (pa : P a) (na : le a a = true) : lt (cu a) (zero : T) = lt a (zero : U) := by
  rw [Bool.eq_iff_iff, CppOrder.lt_iff, CppOrder.lt_iff, g.zero_le a pa]
  simp [na, g.mono a a pa pa na, g.zero.2.1, g.zero.2.2]
theorem cast_zero_lt (g : GoodCast cu P) {a : U} (pa : P a) (na : le a a = true) : lt (zero : T) (cu a) = lt (zero : U) a := by
  rw [Bool.eq_iff_iff, CppOrder.lt_iff, CppOrder.lt_iff, g.le_zero a pa]
  simp [na, g.mono a a pa pa na, g.zero.2.1, g.zero.2.2]
theorem cast_contains (g : GoodCast cu P) {X : Arg U} (hP : AllB P X) : (mapA cu X).contains (zero : T) = X.contains (zero : U) := by
  cases X with
  | scalar s => exact cast_eq_zero g hP.1
  | ivl x =>
    simp only [mapA, Arg.contains, Ivl.containsVal]
    rw [show le (cu x.lo) (zero : T) = _ from g.le_zero _ hP.1, show le (zero : T) (cu x.hi) = _ from g.zero_le _ hP.2]

/-- C68: on operands of different types the operators do what they do on the operands converted to the common type. -/
theorem C68_same_type (gu : GoodCast cu P) (gv : GoodCast cv Q) (dbg : Bool) {X : Arg U} {Y : Arg V} (hX : ProperA X) (hY : ProperA Y)
    (hP : AllB P X) (hQ : AllB Q Y) :
    addM cu cv dbg X Y = addI dbg (mapA cu X) (mapA cv Y) ∧ subM cu cv dbg X Y = subI dbg (mapA cu X) (mapA cv Y) ∧
    mulM cu cv dbg X Y = mulI dbg (mapA cu X) (mapA cv Y) ∧ divM cu cv dbg X Y = divI dbg (mapA cu X) (mapA cv Y) := by
  have a1 := assigned_of_proper hX; have a2 := assigned_of_proper hY
  have a3 := assigned_of_proper (mapA_proper gu hX hP); have a4 := assigned_of_proper (mapA_proper gv hY hQ)
  refine ⟨?_, ?_, ?_, ?_⟩
  · unfold addM addI
    rw [a1, a2, a3, a4]
    simp only [mapA_lo, mapA_hi, gu.ninf _ hP.1, gu.pinf _ hP.2, gv.ninf _ hQ.1, gv.pinf _ hQ.2]
  · unfold subM subI
    rw [a1, a2, a3, a4]
    simp only [mapA_lo, mapA_hi, gu.ninf _ hP.1, gu.pinf _ hP.2, gv.ninf _ hQ.1, gv.pinf _ hQ.2]
  · unfold mulM mulI
    rw [a1, a2, a3, a4]
    simp only [mapA_lo, mapA_hi, gu.ninf _ hP.1, gu.pinf _ hP.2, gv.ninf _ hQ.1, gv.pinf _ hQ.2, cast_contains gu hP, cast_contains gv hQ]
    cases X <;> cases Y <;> rfl
  · have nx : le X.lo X.lo = true := CppOrder.le_left _ _ (proper_le hX)
    have nx' : le X.hi X.hi = true := CppOrder.le_right _ _ (proper_le hX)
    have ny : le Y.lo Y.lo = true := CppOrder.le_left _ _ (proper_le hY)
    have ny' : le Y.hi Y.hi = true := CppOrder.le_right _ _ (proper_le hY)
    unfold divM divI
    rw [a1, a2, a3, a4]
    cases X with
    | scalar s =>
      simp only [mapA_lo, mapA_hi, mapA_scalar, ne, gu.ninf s hP.1, gu.pinf s hP.1, gv.ninf _ hQ.1, gv.pinf _ hQ.2, cast_eq_zero gu (a := s) hP.1,
        gv.le_zero _ hQ.1, gv.zero_le _ hQ.2, cast_lt_zero gv hQ.1 ny, cast_zero_lt gv hQ.2 ny']
      first | done | rfl | (cases Y <;> rfl)
    | ivl x =>
      have e1 : isNegInf (cu x.lo) = isNegInf x.lo := gu.ninf _ hP.1
      have e2 : isPosInf (cu x.hi) = isPosInf x.hi := gu.pinf _ hP.2
      have e3 : le (cu x.lo) (zero : T) = le x.lo (zero : U) := gu.le_zero _ hP.1
      have e4 : le (zero : T) (cu x.hi) = le (zero : U) x.hi := gu.zero_le _ hP.2
      have e5 : lt (zero : T) (cu x.lo) = lt (zero : U) x.lo := cast_zero_lt gu hP.1 nx
      have e6 : lt (cu x.hi) (zero : T) = lt x.hi (zero : U) := cast_lt_zero gu hP.2 nx'
      cases Y with
      | scalar t =>
        have f1 : isNegInf (cv t) = isNegInf t := gv.ninf _ hQ.1
        have f2 : isPosInf (cv t) = isPosInf t := gv.pinf _ hQ.1
        simp only [mapA_lo, mapA_hi, mapA, Arg.lo, Arg.hi, e1, e2, e3, e4, f1, f2, cast_eq_zero gv (a := t) hQ.1]
        first | done | rfl
      | ivl y =>
        have f1 : isNegInf (cv y.lo) = isNegInf y.lo := gv.ninf _ hQ.1
        have f2 : isPosInf (cv y.hi) = isPosInf y.hi := gv.pinf _ hQ.2
        have f3 : le (cv y.lo) (zero : T) = le y.lo (zero : V) := gv.le_zero _ hQ.1
        have f4 : le (zero : T) (cv y.hi) = le (zero : V) y.hi := gv.zero_le _ hQ.2
        have f5 : lt (cv y.lo) (zero : T) = lt y.lo (zero : V) := cast_lt_zero gv hQ.1 ny
        have f6 : lt (zero : T) (cv y.hi) = lt (zero : V) y.hi := cast_zero_lt gv hQ.2 ny'
        simp only [mapA, e1, e2, e3, e4, e5, e6, f1, f2, f3, f4, f5, f6]

/-! ## Comparisons -/

theorem cmpM_same (gu : GoodCast cu P) (gv : GoodCast cv Q) (dbg : Bool) {X : Arg U} {Y : Arg V} (hX : ProperA X) (hY : ProperA Y)
    (hP : AllB P X) (hQ : AllB Q Y) :
    opEqM cu cv dbg X Y = opEq dbg (mapA cu X) (mapA cv Y) ∧ opNeM cu cv dbg X Y = opNe dbg (mapA cu X) (mapA cv Y) ∧
    opLtM cu cv dbg X Y = opLt dbg (mapA cu X) (mapA cv Y) ∧ opLeM cu cv dbg X Y = opLe dbg (mapA cu X) (mapA cv Y) ∧
    opGtM cu cv dbg X Y = opGt dbg (mapA cu X) (mapA cv Y) ∧ opGeM cu cv dbg X Y = opGe dbg (mapA cu X) (mapA cv Y) := by
  have a1 := assigned_of_proper hX; have a2 := assigned_of_proper hY
  have a3 := assigned_of_proper (mapA_proper gu hX hP); have a4 := assigned_of_proper (mapA_proper gv hY hQ)
  simp only [opEqM, opEq, opNeM, opNe, opLtM, opLt, opLeM, opLe, opGtM, opGt, opGeM, opGe, a1, a2, a3, a4, compareEqM, compareEq, compareNeqM,
    compareNeq, compareLtM, compareLt, compareLeqM, compareLeq, mapA_lo, mapA_hi, and_self]

/-- a sound comparison of the converted operands is one of the operands -/
theorem sound_of_exact (gu : GoodCast cu P) (gv : GoodCast cv Q) {op : T → T → Bool} {X : Arg U} {Y : Arg V} (hP : AllB P X) (hQ : AllB Q Y)
    {R : BoolSet} (h : ExactCmp op (mapA cu X) (mapA cv Y) R) : SoundCmpM (fun a b => op (cu a) (cv b)) P Q X Y R :=
  fun a b pa pb ha hb => (h _).mpr ⟨_, _, mapA_mem gu hP ha pa, mapA_mem gv hQ hb pb, rfl⟩

/-- C68: the comparison operators on operands of different types contain the result for every pair of points (compared after the usual
conversions), in every build mode. -/
theorem C68_compare_sound (gu : GoodCast cu P) (gv : GoodCast cv Q) (dbg : Bool) {X : Arg U} {Y : Arg V} (hX : ProperA X) (hY : ProperA Y)
    (hP : AllB P X) (hQ : AllB Q Y) :
    (∃ R, opEqM cu cv dbg X Y = .ok R ∧ SoundCmpM (fun a b => eq (cu a) (cv b)) P Q X Y R) ∧
    (∃ R, opNeM cu cv dbg X Y = .ok R ∧ SoundCmpM (fun a b => ne (cu a) (cv b)) P Q X Y R) ∧
    (∃ R, opLtM cu cv dbg X Y = .ok R ∧ SoundCmpM (fun a b => lt (cu a) (cv b)) P Q X Y R) ∧
    (∃ R, opLeM cu cv dbg X Y = .ok R ∧ SoundCmpM (fun a b => le (cu a) (cv b)) P Q X Y R) ∧
    (∃ R, opGtM cu cv dbg X Y = .ok R ∧ SoundCmpM (fun a b => gt (cu a) (cv b)) P Q X Y R) ∧
    (∃ R, opGeM cu cv dbg X Y = .ok R ∧ SoundCmpM (fun a b => ge (cu a) (cv b)) P Q X Y R) := by
  obtain ⟨e1, e2, e3, e4, e5, e6⟩ := cmpM_same gu gv dbg hX hY hP hQ
  have hX' := mapA_proper gu hX hP; have hY' := mapA_proper gv hY hQ
  rw [e1, e2, e3, e4, e5, e6]
  have s := fun {op : T → T → Bool} {R} (h : ExactCmp op (mapA cu X) (mapA cv Y) R) => sound_of_exact gu gv hP hQ h
  refine ⟨?_, ?_, ?_, ?_, ?_, ?_⟩
  · obtain ⟨R, h, h'⟩ := C09_eq dbg _ _ hX' hY'; exact ⟨R, h, s h'⟩
  · obtain ⟨R, h, h'⟩ := C09_ne dbg _ _ hX' hY'; exact ⟨R, h, s h'⟩
  · obtain ⟨R, h, h'⟩ := C09_lt dbg _ _ hX' hY'; exact ⟨R, h, s h'⟩
  · obtain ⟨R, h, h'⟩ := C09_le dbg _ _ hX' hY'; exact ⟨R, h, s h'⟩
  · obtain ⟨R, h, h'⟩ := C09_gt dbg _ _ hX' hY'; exact ⟨R, h, s h'⟩
  · obtain ⟨R, h, h'⟩ := C09_ge dbg _ _ hX' hY'; exact ⟨R, h, s h'⟩

theorem exactM_of (gu : GoodCast cu P) (gv : GoodCast cv Q) {op : T → T → Bool} {X : Arg U} {Y : Arg V} (hP : AllB P X) (hQ : AllB Q Y)
    {R : BoolSet} (h : ExactCmp op (mapA cu X) (mapA cv Y) R)
    (hc : ∀ a' b', a' ∈ₐ mapA cu X → b' ∈ₐ mapA cv Y → ∃ a b, P a ∧ Q b ∧ a ∈ₐ X ∧ b ∈ₐ Y ∧ op (cu a) (cv b) = op a' b') :
    ExactCmpM (fun a b => op (cu a) (cv b)) P Q X Y R := by
  intro r
  rw [h r]
  constructor
  · rintro ⟨a', b', ha, hb, e⟩
    obtain ⟨a, b, pa, pb, ha', hb', e'⟩ := hc a' b' ha hb
    exact ⟨a, b, pa, pb, ha', hb', e'.trans e⟩
  · rintro ⟨a, b, pa, pb, ha, hb, e⟩
    exact ⟨_, _, mapA_mem gu hP ha pa, mapA_mem gv hQ hb pb, e⟩

/-- C68: the ordering comparisons are exact also for operands of different types. -/
theorem C68_compare_exact (gu : GoodCast cu P) (gv : GoodCast cv Q) (dbg : Bool) {X : Arg U} {Y : Arg V} (hX : ProperA X) (hY : ProperA Y)
    (hP : AllB P X) (hQ : AllB Q Y) :
    (∃ R, opLtM cu cv dbg X Y = .ok R ∧ ExactCmpM (fun a b => lt (cu a) (cv b)) P Q X Y R) ∧
    (∃ R, opLeM cu cv dbg X Y = .ok R ∧ ExactCmpM (fun a b => le (cu a) (cv b)) P Q X Y R) ∧
    (∃ R, opGtM cu cv dbg X Y = .ok R ∧ ExactCmpM (fun a b => gt (cu a) (cv b)) P Q X Y R) ∧
    (∃ R, opGeM cu cv dbg X Y = .ok R ∧ ExactCmpM (fun a b => ge (cu a) (cv b)) P Q X Y R) := by
  obtain ⟨-, -, e3, e4, e5, e6⟩ := cmpM_same gu gv dbg hX hY hP hQ
  have hX' := mapA_proper gu hX hP; have hY' := mapA_proper gv hY hQ
  rw [e3, e4, e5, e6]
  have lx := lo_mem hX; have hx := hi_mem hX; have ly := lo_mem hY; have hy := hi_mem hY
  have key : ∀ a' b', a' ∈ₐ mapA cu X → b' ∈ₐ mapA cv Y →
      (le (cu X.lo) a' = true ∧ le a' (cu X.hi) = true) ∧ (le (cv Y.lo) b' = true ∧ le b' (cv Y.hi) = true) := by
    intro a' b' ha hb
    have h1 := mem_bounds.mp ha; have h2 := mem_bounds.mp hb
    rw [mapA_lo, mapA_hi] at h1 h2
    exact ⟨h1, h2⟩
  refine ⟨?_, ?_, ?_, ?_⟩
  · obtain ⟨R, h, h'⟩ := C09_lt dbg _ _ hX' hY'
    refine ⟨R, h, exactM_of gu gv hP hQ h' fun a' b' ha hb => ?_⟩
    have k := key a' b' ha hb
    rcases Bool.eq_false_or_eq_true (lt a' b') with c | c
    · exact ⟨X.lo, Y.hi, hP.1, hQ.2, lx, hy, by rw [c]; clear h h' ; grind⟩
    · exact ⟨X.hi, Y.lo, hP.2, hQ.1, hx, ly, by rw [c]; clear h h' ; grind⟩
  · obtain ⟨R, h, h'⟩ := C09_le dbg _ _ hX' hY'
    refine ⟨R, h, exactM_of gu gv hP hQ h' fun a' b' ha hb => ?_⟩
    have k := key a' b' ha hb
    rcases Bool.eq_false_or_eq_true (le a' b') with c | c
    · exact ⟨X.lo, Y.hi, hP.1, hQ.2, lx, hy, by rw [c]; clear h h' ; grind⟩
    · exact ⟨X.hi, Y.lo, hP.2, hQ.1, hx, ly, by rw [c]; clear h h' ; grind⟩
  · obtain ⟨R, h, h'⟩ := C09_gt dbg _ _ hX' hY'
    refine ⟨R, h, exactM_of gu gv hP hQ h' fun a' b' ha hb => ?_⟩
    have k := key a' b' ha hb
    rcases Bool.eq_false_or_eq_true (gt a' b') with c | c
    · exact ⟨X.hi, Y.lo, hP.2, hQ.1, hx, ly, by rw [c]; clear h h' ; grind⟩
    · exact ⟨X.lo, Y.hi, hP.1, hQ.2, lx, hy, by rw [c]; clear h h' ; grind⟩
  · obtain ⟨R, h, h'⟩ := C09_ge dbg _ _ hX' hY'
    refine ⟨R, h, exactM_of gu gv hP hQ h' fun a' b' ha hb => ?_⟩
    have k := key a' b' ha hb
    rcases Bool.eq_false_or_eq_true (ge a' b') with c | c
    · exact ⟨X.hi, Y.lo, hP.2, hQ.1, hx, ly, by rw [c]; clear h h' ; grind⟩
    · exact ⟨X.lo, Y.hi, hP.1, hQ.2, lx, hy, by rw [c]; clear h h' ; grind⟩
end generic

section floats
variable {U V : Type _} [CppVal U] [CppOrder U] [CppNum U] [CppVal V] [CppOrder V] [CppNum V]
variable {K : Type} [Field K] [LinearOrder K] [IsStrictOrderedRing K] [Fmt K]
variable {cu : U → Fl K} {cv : V → Fl K} {P : U → Prop} {Q : V → Prop}

/-- infinite and zero points of the converted operand are conversions of points of the operand -/
theorem rep_ninf (g : GoodCast cu P) {X : Arg U} (hX : ProperA X) (hP : AllB P X) {a : Fl K} (ha : a ∈ₐ mapA cu X) (h : a = .ninf) :
    ∃ b, P b ∧ b ∈ₐ X ∧ cu b = .ninf := by
  rw [mem_bounds, mapA_lo, h, Fl.le_ninf_iff] at ha
  exact ⟨_, hP.1, lo_mem hX, ha.1⟩
theorem rep_pinf (g : GoodCast cu P) {X : Arg U} (hX : ProperA X) (hP : AllB P X) {a : Fl K} (ha : a ∈ₐ mapA cu X) (h : a = .pinf) :
    ∃ b, P b ∧ b ∈ₐ X ∧ cu b = .pinf := by
  rw [mem_bounds, mapA_hi, h, Fl.pinf_le_iff] at ha
  exact ⟨_, hP.2, hi_mem hX, ha.2⟩
theorem rep_inf (g : GoodCast cu P) {X : Arg U} (hX : ProperA X) (hP : AllB P X) {a : Fl K} (ha : a ∈ₐ mapA cu X) (h : Fl.isInf a = true) :
    ∃ b, P b ∧ b ∈ₐ X ∧ Fl.isInf (cu b) = true := by
  rcases Fl.isInf_iff.mp h with h | h
  · obtain ⟨b, h1, h2, h3⟩ := rep_ninf g hX hP ha h; exact ⟨b, h1, h2, by rw [h3]; rfl⟩
  · obtain ⟨b, h1, h2, h3⟩ := rep_pinf g hX hP ha h; exact ⟨b, h1, h2, by rw [h3]; rfl⟩
theorem rep_zeroM (g : GoodCast cu P) {X : Arg U} (hP : AllB P X) {a : Fl K} (ha : a ∈ₐ mapA cu X) (h : Fl.isZero a = true) :
    ∃ b, P b ∧ b ∈ₐ X ∧ Fl.isZero (cu b) = true := by
  have h0 := mem_bounds.mp (zero_mem_of ha h)
  rw [mapA_lo, mapA_hi] at h0
  refine ⟨zero, g.zero.1, mem_bounds.mpr ⟨?_, ?_⟩, Fl.isZero_iff.mpr ⟨?_, ?_⟩⟩
  · rw [← g.le_zero _ hP.1]; exact h0.1
  · rw [← g.zero_le _ hP.2]; exact h0.2
  · have := g.le_zero _ g.zero.1; rw [g.zero.2.1] at this; exact this
  · have := g.zero_le _ g.zero.1; rw [g.zero.2.1] at this; exact this

theorem cast_nn (g : GoodCast cu P) {X : Arg U} (hP : AllB P X) {a : U} (pa : P a) (ha : a ∈ₐ X) : cu a ≠ .nan := ptA_ne_nan (mapA_mem g hP ha pa)

theorem add_rep (gu : GoodCast cu P) (gv : GoodCast cv Q) {X : Arg U} {Y : Arg V} (hX : ProperA X) (hY : ProperA Y)
    (hP : AllB P X) (hQ : AllB Q Y) (h : ∃ a b, a ∈ₐ mapA cu X ∧ b ∈ₐ mapA cv Y ∧ Fl.add a b = .nan) :
    ∃ a b, P a ∧ Q b ∧ a ∈ₐ X ∧ b ∈ₐ Y ∧ Fl.add (cu a) (cv b) = .nan := by
  obtain ⟨a, b, ha, hb, h⟩ := h
  rw [Fl.add_eq_nan (ptA_ne_nan ha) (ptA_ne_nan hb)] at h
  rcases h with ⟨h1, h2⟩ | ⟨h1, h2⟩
  · obtain ⟨a', p, m, e⟩ := rep_ninf gu hX hP ha h1; obtain ⟨b', p', m', e'⟩ := rep_pinf gv hY hQ hb h2
    exact ⟨a', b', p, p', m, m', by rw [e, e']; rfl⟩
  · obtain ⟨a', p, m, e⟩ := rep_pinf gu hX hP ha h1; obtain ⟨b', p', m', e'⟩ := rep_ninf gv hY hQ hb h2
    exact ⟨a', b', p, p', m, m', by rw [e, e']; rfl⟩
theorem sub_rep (gu : GoodCast cu P) (gv : GoodCast cv Q) {X : Arg U} {Y : Arg V} (hX : ProperA X) (hY : ProperA Y)
    (hP : AllB P X) (hQ : AllB Q Y) (h : ∃ a b, a ∈ₐ mapA cu X ∧ b ∈ₐ mapA cv Y ∧ Fl.sub a b = .nan) :
    ∃ a b, P a ∧ Q b ∧ a ∈ₐ X ∧ b ∈ₐ Y ∧ Fl.sub (cu a) (cv b) = .nan := by
  obtain ⟨a, b, ha, hb, h⟩ := h
  unfold Fl.sub at h
  rw [Fl.add_eq_nan (ptA_ne_nan ha) (fun h' => ptA_ne_nan hb (Fl.neg_ne_nan.mp h'))] at h
  have n1 : ∀ {c : Fl K}, Fl.neg c = .pinf → c = .ninf := by
    intro c hc; cases c <;> simp [Fl.neg] at hc ⊢; split at hc <;> simp at hc
  have n2 : ∀ {c : Fl K}, Fl.neg c = .ninf → c = .pinf := by
    intro c hc; cases c <;> simp [Fl.neg] at hc ⊢; split at hc <;> simp at hc
  rcases h with ⟨h1, h2⟩ | ⟨h1, h2⟩
  · obtain ⟨a', p, m, e⟩ := rep_ninf gu hX hP ha h1; obtain ⟨b', p', m', e'⟩ := rep_ninf gv hY hQ hb (n1 h2)
    exact ⟨a', b', p, p', m, m', by rw [e, e']; rfl⟩
  · obtain ⟨a', p, m, e⟩ := rep_pinf gu hX hP ha h1; obtain ⟨b', p', m', e'⟩ := rep_pinf gv hY hQ hb (n2 h2)
    exact ⟨a', b', p, p', m, m', by rw [e, e']; rfl⟩
theorem mul_rep (gu : GoodCast cu P) (gv : GoodCast cv Q) {X : Arg U} {Y : Arg V} (hX : ProperA X) (hY : ProperA Y)
    (hP : AllB P X) (hQ : AllB Q Y) (h : ∃ a b, a ∈ₐ mapA cu X ∧ b ∈ₐ mapA cv Y ∧ Fl.mul a b = .nan) :
    ∃ a b, P a ∧ Q b ∧ a ∈ₐ X ∧ b ∈ₐ Y ∧ Fl.mul (cu a) (cv b) = .nan := by
  obtain ⟨a, b, ha, hb, h⟩ := h
  rw [Fl.mul_eq_nan (ptA_ne_nan ha) (ptA_ne_nan hb)] at h
  rcases h with ⟨h1, h2⟩ | ⟨h1, h2⟩
  · obtain ⟨a', p, m, e⟩ := rep_inf gu hX hP ha h1; obtain ⟨b', p', m', e'⟩ := rep_zeroM gv hQ hb h2
    exact ⟨a', b', p, p', m, m', (Fl.mul_eq_nan (cast_nn gu hP p m) (cast_nn gv hQ p' m')).mpr (Or.inl ⟨e, e'⟩)⟩
  · obtain ⟨a', p, m, e⟩ := rep_zeroM gu hP ha h1; obtain ⟨b', p', m', e'⟩ := rep_inf gv hY hQ hb h2
    exact ⟨a', b', p, p', m, m', (Fl.mul_eq_nan (cast_nn gu hP p m) (cast_nn gv hQ p' m')).mpr (Or.inr ⟨e, e'⟩)⟩
theorem div_rep (gu : GoodCast cu P) (gv : GoodCast cv Q) {X : Arg U} {Y : Arg V} (hX : ProperA X) (hY : ProperA Y)
    (hP : AllB P X) (hQ : AllB Q Y) (h : ∃ a b, a ∈ₐ mapA cu X ∧ b ∈ₐ mapA cv Y ∧ Fl.div a b = .nan) :
    ∃ a b, P a ∧ Q b ∧ a ∈ₐ X ∧ b ∈ₐ Y ∧ Fl.div (cu a) (cv b) = .nan := by
  obtain ⟨a, b, ha, hb, h⟩ := h
  rw [Fl.div_eq_nan (ptA_ne_nan ha) (ptA_ne_nan hb)] at h
  rcases h with ⟨h1, h2⟩ | ⟨h1, h2⟩
  · obtain ⟨a', p, m, e⟩ := rep_inf gu hX hP ha h1; obtain ⟨b', p', m', e'⟩ := rep_inf gv hY hQ hb h2
    exact ⟨a', b', p, p', m, m', (Fl.div_eq_nan (cast_nn gu hP p m) (cast_nn gv hQ p' m')).mpr (Or.inl ⟨e, e'⟩)⟩
  · obtain ⟨a', p, m, e⟩ := rep_zeroM gu hP ha h1; obtain ⟨b', p', m', e'⟩ := rep_zeroM gv hQ hb h2
    exact ⟨a', b', p, p', m, m', (Fl.div_eq_nan (cast_nn gu hP p m) (cast_nn gv hQ p' m')).mpr (Or.inr ⟨e, e'⟩)⟩

theorem betw_attained {L x c1 c2 c3 c4 m1 m2 : Fl K} (e : x = L) (h1 : Betw m1 m2 x) (h2 : Betw c1 c2 m1) (h3 : Betw c3 c4 m2)
    (l1 : le L c1 = true) (l2 : le L c2 = true) (l3 : le L c3 = true) (l4 : le L c4 = true) :
    eq c1 L = true ∨ eq c2 L = true ∨ eq c3 L = true ∨ eq c4 L = true := by
  subst e
  unfold Betw at *
  grind
theorem betw_attained' {L x c1 c2 c3 c4 m1 m2 : Fl K} (e : x = L) (h1 : Betw m1 m2 x) (h2 : Betw c1 c2 m1) (h3 : Betw c3 c4 m2)
    (l1 : le c1 L = true) (l2 : le c2 L = true) (l3 : le c3 L = true) (l4 : le c4 L = true) :
    eq c1 L = true ∨ eq c2 L = true ∨ eq c3 L = true ∨ eq c4 L = true := by
  subst e
  unfold Betw at *
  grind

/-- an exact result on the converted operands is one on the operands -/
theorem mixed_of_exact (gu : GoodCast cu P) (gv : GoodCast cv Q) {X : Arg U} {Y : Arg V} (hX : ProperA X) (hY : ProperA Y)
    (hP : AllB P X) (hQ : AllB Q Y) {f : Fl K → Fl K → Fl K} {res : Outcome (Ivl (Fl K))} (h : FloatExact2 f (mapA cu X) (mapA cv Y) res)
    (hr : (∃ a b, a ∈ₐ mapA cu X ∧ b ∈ₐ mapA cv Y ∧ f a b = .nan) → ∃ a b, P a ∧ Q b ∧ a ∈ₐ X ∧ b ∈ₐ Y ∧ f (cu a) (cv b) = .nan)
    (hb : (∀ a b, a ∈ₐ mapA cu X → b ∈ₐ mapA cv Y → f a b ≠ .nan) → ∀ a b, a ∈ₐ mapA cu X → b ∈ₐ mapA cv Y →
      Betw (f (cu X.lo) b) (f (cu X.hi) b) (f a b) ∧ Betw (f a (cv Y.lo)) (f a (cv Y.hi)) (f a b)) :
    MixedExact2 (fun a b => f (cu a) (cv b)) P Q X Y res := by
  rcases h with ⟨h, hR⟩ | ⟨h, R, hR, hi, ⟨a, b, ha, hb', e⟩, ⟨a', b', ha', hb'', e'⟩⟩
  · exact Or.inl ⟨hr h, hR⟩
  · have hb := hb h
    have lx := lo_mem hX; have hx := hi_mem hX; have ly := lo_mem hY; have hy := hi_mem hY
    have lx' := mapA_mem gu hP lx hP.1; have hx' := mapA_mem gu hP hx hP.2
    have ly' := mapA_mem gv hQ ly hQ.1; have hy' := mapA_mem gv hQ hy hQ.2
    have c1 := hi _ _ lx' ly'; have c2 := hi _ _ lx' hy'; have c3 := hi _ _ hx' ly'; have c4 := hi _ _ hx' hy'
    refine Or.inr ⟨fun a b pa pb ha hb => h _ _ (mapA_mem gu hP ha pa) (mapA_mem gv hQ hb pb), R, hR,
      fun a b pa pb ha hb => hi _ _ (mapA_mem gu hP ha pa) (mapA_mem gv hQ hb pb), ?_, ?_⟩
    · rcases betw_attained e (hb a b ha hb').1 (hb _ b lx' hb').2 (hb _ b hx' hb').2 c1.1 c2.1 c3.1 c4.1 with h | h | h | h
      · exact ⟨_, _, hP.1, hQ.1, lx, ly, h⟩
      · exact ⟨_, _, hP.1, hQ.2, lx, hy, h⟩
      · exact ⟨_, _, hP.2, hQ.1, hx, ly, h⟩
      · exact ⟨_, _, hP.2, hQ.2, hx, hy, h⟩
    · rcases betw_attained' e' (hb a' b' ha' hb'').1 (hb _ b' lx' hb'').2 (hb _ b' hx' hb'').2 c1.2 c2.2 c3.2 c4.2 with h | h | h | h
      · exact ⟨_, _, hP.1, hQ.1, lx, ly, h⟩
      · exact ⟨_, _, hP.1, hQ.2, lx, hy, h⟩
      · exact ⟨_, _, hP.2, hQ.1, hx, ly, h⟩
      · exact ⟨_, _, hP.2, hQ.2, hx, hy, h⟩

theorem mbounds {X : Arg U} {a : Fl K} (ha : a ∈ₐ mapA cu X) : le (cu X.lo) a = true ∧ le a (cu X.hi) = true := by
  have := mem_bounds.mp ha
  rwa [mapA_lo, mapA_hi] at this

/-- C68: sum, difference and product of operands of different types, of which at least one is floating-point: the NaN interval if and only if
some point operation is indefinite; otherwise every point result (computed in the common type) is contained and the bounds are point results. -/
theorem C68_float_add_sub_mul (gu : GoodCast cu P) (gv : GoodCast cv Q) (dbg : Bool) {X : Arg U} {Y : Arg V} (hX : ProperA X) (hY : ProperA Y)
    (hP : AllB P X) (hQ : AllB Q Y) :
    MixedExact2 (fun a b => Fl.add (cu a) (cv b)) P Q X Y (addM cu cv dbg X Y) ∧
    MixedExact2 (fun a b => Fl.sub (cu a) (cv b)) P Q X Y (subM cu cv dbg X Y) ∧
    MixedExact2 (fun a b => Fl.mul (cu a) (cv b)) P Q X Y (mulM cu cv dbg X Y) := by
  obtain ⟨e1, e2, e3, -⟩ := C68_same_type gu gv dbg hX hY hP hQ
  rw [e1, e2, e3]
  have hX' := mapA_proper gu hX hP; have hY' := mapA_proper gv hY hQ
  have lx' := mapA_mem gu hP (lo_mem hX) hP.1; have hx' := mapA_mem gu hP (hi_mem hX) hP.2
  have ly' := mapA_mem gv hQ (lo_mem hY) hQ.1; have hy' := mapA_mem gv hQ (hi_mem hY) hQ.2
  refine ⟨mixed_of_exact gu gv hX hY hP hQ (C30_add dbg _ _ hX' hY') (add_rep gu gv hX hY hP hQ) fun hn a b ha hb => ?_,
    mixed_of_exact gu gv hX hY hP hQ (C30_sub dbg _ _ hX' hY') (sub_rep gu gv hX hY hP hQ) fun hn a b ha hb => ?_,
    mixed_of_exact gu gv hX hY hP hQ (C31_mul dbg _ _ hX' hY') (mul_rep gu gv hX hY hP hQ) fun hn a b ha hb => ?_⟩
  · have ba := mbounds ha; have bb := mbounds hb
    refine ⟨⟨Or.inl (Fl.add_mono_left ba.1 (hn _ _ lx' hb) (hn _ _ ha hb)), Or.inr (Fl.add_mono_left ba.2 (hn _ _ ha hb) (hn _ _ hx' hb))⟩, ?_⟩
    rw [Fl.add_comm' a b, Fl.add_comm' a (cv Y.lo), Fl.add_comm' a (cv Y.hi)]
    have n1 := hn _ _ ha hb; have n2 := hn _ _ ha ly'; have n3 := hn _ _ ha hy'
    rw [Fl.add_comm'] at n1 n2 n3
    exact ⟨Or.inl (Fl.add_mono_left bb.1 n2 n1), Or.inr (Fl.add_mono_left bb.2 n1 n3)⟩
  · have ba := mbounds ha; have bb := mbounds hb
    refine ⟨⟨Or.inl (Fl.add_mono_left ba.1 (hn _ _ lx' hb) (hn _ _ ha hb)), Or.inr (Fl.add_mono_left ba.2 (hn _ _ ha hb) (hn _ _ hx' hb))⟩, ?_⟩
    have n1 := hn _ _ ha hb; have n2 := hn _ _ ha ly'; have n3 := hn _ _ ha hy'
    unfold Fl.sub at n1 n2 n3 ⊢
    rw [Fl.add_comm' a (Fl.neg b), Fl.add_comm' a (Fl.neg (cv Y.lo)), Fl.add_comm' a (Fl.neg (cv Y.hi))]
    rw [Fl.add_comm'] at n1 n2 n3
    exact ⟨Or.inr (Fl.add_mono_left (Fl.neg_anti bb.2) n3 n1), Or.inl (Fl.add_mono_left (Fl.neg_anti bb.1) n1 n2)⟩
  · have ba := mbounds ha; have bb := mbounds hb
    refine ⟨mul_betw ba.1 ba.2 (ptA_ne_nan hb) (hn _ _ ha hb) (hn _ _ lx' hb) (hn _ _ hx' hb), ?_⟩
    rw [Fl.mul_comm' a b, Fl.mul_comm' a (cv Y.lo), Fl.mul_comm' a (cv Y.hi)]
    refine mul_betw bb.1 bb.2 (ptA_ne_nan ha) ?_ ?_ ?_ <;> rw [Fl.mul_comm']
    · exact hn _ _ ha hb
    · exact hn _ _ ha ly'
    · exact hn _ _ ha hy'

/-- C68: the quotient, for divisors that do not contain zero -/
theorem C68_float_div_exact (gu : GoodCast cu P) (gv : GoodCast cv Q) (dbg : Bool) {X : Arg U} {Y : Arg V} (hX : ProperA X) (hY : ProperA Y)
    (hP : AllB P X) (hQ : AllB Q Y) (h0 : ¬ (zero : V) ∈ₐ Y) :
    MixedExact2 (fun a b => Fl.div (cu a) (cv b)) P Q X Y (divM cu cv dbg X Y) := by
  obtain ⟨-, -, -, e4⟩ := C68_same_type gu gv dbg hX hY hP hQ
  rw [e4]
  have hX' := mapA_proper gu hX hP; have hY' := mapA_proper gv hY hQ
  have lx' := mapA_mem gu hP (lo_mem hX) hP.1; have hx' := mapA_mem gu hP (hi_mem hX) hP.2
  have ly' := mapA_mem gv hQ (lo_mem hY) hQ.1; have hy' := mapA_mem gv hQ (hi_mem hY) hQ.2
  have h0' : ¬ (Fl.num 0) ∈ₐ mapA cv Y := by
    intro h
    apply h0
    have h := mbounds h
    rw [mem_bounds, ← gv.le_zero _ hQ.1, ← gv.zero_le _ hQ.2]; exact h
  refine mixed_of_exact gu gv hX hY hP hQ (C32_exact dbg _ _ hX' hY' h0') (div_rep gu gv hX hY hP hQ) fun hn a b ha hb => ?_
  have ba := mbounds ha; have bb := mbounds hb
  refine ⟨div_betw_left ba.1 ba.2 (hn _ _ ha hb) (hn _ _ lx' hb) (hn _ _ hx' hb), ?_⟩
  have nz : ∀ c, c ∈ₐ mapA cv Y → ¬ eq c (.num 0) = true :=
    fun c hc he => h0' (zero_mem_of hc (Fl.isZero_iff.mpr ((CppOrder.eq_iff _ _).mp he)))
  have hlt : ¬(lt (mapA cv Y).lo (.num 0) && lt (.num 0) (mapA cv Y).hi) = true := by
    intro h
    apply h0'
    rw [mem_bounds]
    simp only [Bool.and_eq_true] at h
    clear hn e4
    grind
  obtain ⟨s1, s2⟩ := same_sign hY' hlt ⟨fun h => absurd h (nz _ (lo_mem hY')), fun h => absurd h (nz _ (hi_mem hY'))⟩ hb (nz _ hb)
  rw [mapA_lo] at s1; rw [mapA_hi] at s2
  exact div_betw_right (ptA_ne_nan ha) s1 s2 bb.1 bb.2 (hn _ _ ha hb) (hn _ _ ha ly') (hn _ _ ha hy')

/-- C68: the quotient in general: the NaN interval if and only if some point quotient is indefinite; otherwise, if zero bounds of the converted
divisor have the right sign or the converted dividend has an infinite bound, every quotient by a non-zero point is contained.
Missing: divisors with a zero upper bound of integral type, which converts to `+0` (`C68_div_violated`). -/
theorem C68_float_div_partial (gu : GoodCast cu P) (gv : GoodCast cv Q) (dbg : Bool) {X : Arg U} {Y : Arg V} (hX : ProperA X) (hY : ProperA Y)
    (hP : AllB P X) (hQ : AllB Q Y) :
    MixedIncl2 (fun a b => Fl.div (cu a) (cv b)) P Q
      (fun b => (ZeroSignOk (mapA cv Y) ∨ (mapA cu X).lo = .ninf ∨ (mapA cu X).hi = .pinf) ∧ ¬ eq b (zero : V) = true) X Y (divM cu cv dbg X Y) := by
  obtain ⟨-, -, -, e4⟩ := C68_same_type gu gv dbg hX hY hP hQ
  rw [e4]
  have hX' := mapA_proper gu hX hP; have hY' := mapA_proper gv hY hQ
  have nz : ∀ b, Q b → ¬ eq b (zero : V) = true → ¬ eq (cv b) (.num 0) = true := by
    intro b qb h; rw [← cast_eq_zero gv qb] at h; exact h
  rcases C32_nan dbg _ _ hX' hY' with ⟨h, hR⟩ | ⟨h, R, hR, hp, -⟩
  · exact Or.inl ⟨div_rep gu gv hX hY hP hQ h, hR⟩
  · refine Or.inr ⟨fun a b pa pb ha hb => h _ _ (mapA_mem gu hP ha pa) (mapA_mem gv hQ hb pb), R, hR, hp, ?_⟩
    rintro a b pa pb ha hb ⟨hs, hb0⟩
    rcases C32_incl_partial dbg _ _ hX' hY' hs with ⟨⟨a', b', ha', hb', e⟩, -⟩ | ⟨-, R', hR', -, hi⟩
    · exact absurd e (h _ _ ha' hb')
    · rw [hR] at hR'; cases hR'
      exact hi _ _ (mapA_mem gu hP ha pa) (mapA_mem gv hQ hb pb) (nz b pb hb0)
end floats

section casts
variable {K : Type} [Field K] [LinearOrder K] [IsStrictOrderedRing K]

/-- C68: the conversion of an integer type to a floating-point format that has `1` and `2^n` is monotone and keeps signs and finiteness. -/
theorem C68_int_to_float [F : Fmt K] {n : Nat} (hF : HasInts F n) : GoodCast (toFloatV (K := K) (n := n)) (fun _ => True) := by
  have hn : ∀ v : SInt n, -(2:K)^n ≤ (v.val : K) ∧ (v.val : K) ≤ (2:K)^n := by
    intro v
    have h1 := v.ge; have h2 := v.le
    have h2' : v.val ≤ 2^n := by omega
    constructor
    · have := (Int.cast_le (R := K)).mpr h1; push_cast at this; exact this
    · have := (Int.cast_le (R := K)).mpr h2'; push_cast at this; exact this
  have key : ∀ v : SInt n, le (Fl.num (-(2:K)^n)) (toFloatV v) = true ∧ le (toFloatV v) (Fl.num ((2:K)^n)) = true := by
    intro v
    have e1 : F.rnd (-(2:K)^n) = .num (-(2:K)^n) := F.rnd_symm _ hF.2
    constructor
    · rw [← e1]; exact F.rnd_mono _ _ (hn v).1
    · rw [← hF.2]; exact F.rnd_mono _ _ (hn v).2
  have hpos : ∀ v : SInt n, 0 < v.val → le (Fl.num (1:K)) (toFloatV v) = true := by
    intro v hv
    rw [← hF.1]; exact F.rnd_mono _ _ (by exact_mod_cast hv)
  have hneg : ∀ v : SInt n, v.val < 0 → le (toFloatV v) (Fl.num (-1:K)) = true := by
    intro v hv
    have e1 : F.rnd (-1:K) = .num (-1:K) := F.rnd_symm _ hF.1
    rw [← e1]; exact F.rnd_mono _ _ (by have : v.val ≤ -1 := by omega
                                        exact_mod_cast this)
  have hz : ∀ v : SInt n, v.val = 0 → toFloatV (K := K) v = .num 0 := by
    intro v hv; unfold toFloatV; rw [hv, Int.cast_zero]; exact F.rnd_zero
  refine ⟨fun a b _ _ h => ?_, fun a _ => ?_, fun a _ => ?_, fun a _ => ?_, fun a _ => ?_, trivial, by simp [CppVal.le], by simp [zero_fl]⟩
  · simp only [CppVal.le, decide_eq_true_eq] at h
    exact F.rnd_mono _ _ (by exact_mod_cast h)
  · rcases lt_trichotomy a.val 0 with h | h | h
    · have h1 := hneg a h
      have h2 : le (Fl.num (-1:K)) (.num 0) = true := by simp
      rw [show le a (CppNum.zero : SInt n) = true by simpa [CppVal.le, CppNum.zero] using h.le]
      exact CppOrder.le_trans _ _ _ h1 h2
    · rw [hz a h, show le a (CppNum.zero : SInt n) = true by simp [CppVal.le, CppNum.zero, h]]
      simp [zero_fl]
    · rw [show le a (CppNum.zero : SInt n) = false by simpa [CppVal.le, CppNum.zero] using h, Bool.eq_false_iff]
      intro h'
      have := CppOrder.le_trans _ _ _ (hpos a h) h'
      simp [zero_fl] at this
      linarith
  · rcases lt_trichotomy a.val 0 with h | h | h
    · rw [show le (CppNum.zero : SInt n) a = false by simpa [CppVal.le, CppNum.zero] using h, Bool.eq_false_iff]
      intro h'
      have := CppOrder.le_trans _ _ _ h' (hneg a h)
      simp [zero_fl] at this
      linarith
    · rw [hz a h, show le (CppNum.zero : SInt n) a = true by simp [CppVal.le, CppNum.zero, h]]
      simp [zero_fl]
    · have h1 := hpos a h
      have h2 : le (Fl.num (0:K)) (.num 1) = true := by simp
      rw [show le (CppNum.zero : SInt n) a = true by simpa [CppVal.le, CppNum.zero] using h.le]
      exact CppOrder.le_trans _ _ _ h2 h1
  · rw [show isNegInf a = false from rfl, Bool.eq_false_iff]
    intro h
    have := (key a).1
    rw [Fl.isNegInf_iff.mp h] at this
    simp at this
  · rw [show isPosInf a = false from rfl, Bool.eq_false_iff]
    intro h
    have := (key a).2
    rw [Fl.isPosInf_iff.mp h] at this
    simp at this

/-- C68: the conversion to a wider floating-point format does not change the numbers of the narrower one. -/
theorem C68_float_to_float [Fmt K] (F₁ F₂ : Fmt K) (h : SubFmt F₁ F₂) :
    (∀ v, InFmt F₁ v → toFormatV F₂ v = v) ∧ GoodCast (toFormatV F₂) (InFmt F₁) := by
  have key : ∀ v, InFmt F₁ v → toFormatV F₂ v = v := by
    rintro (_ | _ | _ | _ | k) hv
    · rfl
    · rfl
    · rfl
    · rfl
    · exact (h k k hv.2).2
  refine ⟨key, fun a b ha hb hab => ?_, fun a ha => ?_, fun a ha => ?_, fun a ha => ?_, fun a ha => ?_,
    ⟨by simp [zero_fl], by rw [zero_fl]; exact F₁.rnd_zero⟩, by simp [zero_fl], by simp [zero_fl]⟩
  · rwa [key a ha, key b hb]
  all_goals rw [key a ha]

/-- the operand that has the common type already is not converted -/
theorem C68_no_conversion {T : Type} [CppVal T] [CppNum T] (h : le (CppNum.zero : T) (CppNum.zero : T) = true) : GoodCast (fun x : T => x) (fun _ => True) :=
  ⟨fun _ _ _ _ h => h, fun _ _ => rfl, fun _ _ => rfl, fun _ _ => rfl, fun _ _ => rfl, trivial, h, h⟩

/-- C68: the conversion to a wider signed integer type -/
theorem C68_int_to_int {n m : Nat} (h : n ≤ m) : GoodCast (widenV h) (fun _ => True) :=
  ⟨fun _ _ _ _ h => h, fun _ _ => rfl, fun _ _ => rfl, fun _ _ => rfl, fun _ _ => rfl, trivial, by simp [CppVal.le], by simp [CppVal.le]⟩
end casts

section ints
variable {n m k : Nat}

theorem inI_widen (h : n ≤ k) {a : Int} {X : Arg (SInt n)} : InI a (mapA (widenV h) X) ↔ InI a X := by cases X <;> exact Iff.rfl
theorem inhab_widen (h : n ≤ k) {X : Arg (SInt n)} (hX : Inhab X) : Inhab (mapA (widenV h) X) := by cases X <;> exact hX
theorem properA_of_inhab {X : Arg (SInt n)} (hX : Inhab X) : ProperA X := by
  cases X with
  | scalar s => simp [ProperA, NotNan, CppVal.le]
  | ivl x => exact decide_eq_true (p := x.lo.val ≤ x.hi.val) hX
theorem exact2M_of (hn : n ≤ k) (hm : m ≤ k) {g : Int → Int → Option Int} {X : Arg (SInt n)} {Y : Arg (SInt m)} {res : Outcome (Ivl (SInt k))}
    (h : ExactInt2 g (mapA (widenV hn) X) (mapA (widenV hm) Y) res) : ExactInt2M g X Y res := by
  unfold ExactInt2 at h
  simp only [inI_widen] at h
  exact h

/-- C68: sum, difference, product and quotient of two signed integer types: undefined behaviour if and only if some point operation is undefined
in the common type; otherwise the result contains every point result and its bounds are point results. -/
theorem C68_int (hn : n ≤ k) (hm : m ≤ k) (dbg : Bool) {X : Arg (SInt n)} {Y : Arg (SInt m)} (hX : Inhab X) (hY : Inhab Y) :
    ExactInt2M (fun a b => some (a + b)) X Y (addM (widenV hn) (widenV hm) dbg X Y) ∧
    ExactInt2M (fun a b => some (a - b)) X Y (subM (widenV hn) (widenV hm) dbg X Y) ∧
    ExactInt2M (fun a b => some (a * b)) X Y (mulM (widenV hn) (widenV hm) dbg X Y) ∧
    ExactInt2M divInt X Y (divM (widenV hn) (widenV hm) dbg X Y) := by
  obtain ⟨e1, e2, e3, e4⟩ := C68_same_type (C68_int_to_int hn) (C68_int_to_int hm) dbg (properA_of_inhab hX) (properA_of_inhab hY)
    ⟨trivial, trivial⟩ ⟨trivial, trivial⟩
  have hX' := inhab_widen hn hX; have hY' := inhab_widen hm hY
  rw [e1, e2, e3, e4]
  exact ⟨exact2M_of hn hm (C25_add dbg _ _ hX' hY'), exact2M_of hn hm (C25_sub dbg _ _ hX' hY'), exact2M_of hn hm (C26_mul dbg _ _ hX' hY'),
    exact2M_of hn hm (C27_div dbg _ _ hX' hY')⟩
end ints

section witnesses

/-- C68: `float` and `double` have `1`, `2^31` and `2^63`; every `float` is a `double`.  So the theorems above apply to every pair of `int`,
`long long`, `float` and `double` operands. -/
theorem C68_formats : HasInts binary32Fmt 31 ∧ HasInts binary32Fmt 63 ∧ HasInts binary64Fmt 31 ∧ HasInts binary64Fmt 63 ∧
    SubFmt binary32Fmt binary64Fmt := by
  refine ⟨⟨?_, ?_⟩, ⟨?_, ?_⟩, ⟨?_, ?_⟩, ⟨?_, ?_⟩, subFmt_float_double⟩ <;> decide +kernel

/-- C68: a divisor of integral type with upper bound zero converts to one with upper bound `+0`: `1. / interval<int>{ -2, 0 }` is
`[-0.5, inf]`, which does not contain `1. / -1`. -/
theorem C68_div_violated : letI := exactFmt ℚ
    divM (T := Fl ℚ) (fun x : Fl ℚ => x) (toFloatV (n := 31)) true (.scalar (.num 1)) (.ivl ⟨i32 (-2), i32 0⟩) = .ok ⟨.num (-1/2), .pinf⟩ ∧
    i32 (-1) ∈ₐ (.ivl ⟨i32 (-2), i32 0⟩ : Arg (SInt 31)) ∧
    ¬ Fl.div (.num 1) (toFloatV (i32 (-1))) ∈ᵢ (⟨.num (-1/2), .pinf⟩ : Ivl (Fl ℚ)) := by
  refine ⟨by decide +kernel, mem_bounds.mpr ⟨by decide +kernel, by decide +kernel⟩, by decide +kernel⟩

/-- C68: equality is not exact for operands of different types: no `int` equals `0.5`, but `interval<int>{ 0, 1 } == 0.5` may be true. -/
theorem C68_eq_inexact : letI := exactFmt ℚ
    opEqM (T := Fl ℚ) (toFloatV (n := 31)) (fun x : Fl ℚ => x) true (.ivl ⟨i32 0, i32 1⟩) (.scalar (.num (1/2))) = .ok 3#2 ∧
    BoolSet.contains 3#2 true = true ∧ ∀ a : SInt 31, eq (toFloatV (K := ℚ) a) (.num (1/2)) = false := by
  letI := exactFmt ℚ
  refine ⟨by decide +kernel, by decide, ?_⟩
  intro a
  rw [Bool.eq_false_iff]
  intro h
  have h : (a.val : ℚ) = 1/2 := by
    change eq (Fl.num (a.val : ℚ)) (.num (1/2)) = true at h
    have h2 : 2⁻¹ = (a.val : ℚ) := by simpa [Fl.eq_iff, Fl.ext] using h
    rw [← h2]; norm_num
  have : (2 * a.val : ℚ) = 1 := by rw [h]; norm_num
  have : 2 * a.val = 1 := by exact_mod_cast this
  omega

/-! Hypotheses met by concrete operands (`interval<int>` with `interval<double>`, in binary64). -/
attribute [local instance] binary64Fmt
def exMX : Arg (SInt 31) := .ivl ⟨i32 (-1), i32 3⟩
def exMY : Arg (Fl ℚ) := .ivl ⟨.num (1/2), .pinf⟩
def cuD : SInt 31 → Fl ℚ := toFloatV
theorem exMX_proper : ProperA exMX := by show le (i32 (-1)) (i32 3) = true; decide
theorem exMY_proper : ProperA exMY := by show le (Fl.num (1/2 : ℚ)) .pinf = true; decide +kernel
example := C68_float_add_sub_mul (C68_int_to_float C68_formats.2.2.1) (C68_no_conversion (T := Fl ℚ) (by decide +kernel)) true exMX_proper exMY_proper
  ⟨trivial, trivial⟩ ⟨trivial, trivial⟩
example := C68_float_div_exact (C68_int_to_float C68_formats.2.2.1) (C68_no_conversion (T := Fl ℚ) (by decide +kernel)) true exMX_proper exMY_proper
  ⟨trivial, trivial⟩ ⟨trivial, trivial⟩ (by rw [mem_bounds]; decide +kernel)
example := C68_float_div_partial (C68_int_to_float C68_formats.2.2.1) (C68_no_conversion (T := Fl ℚ) (by decide +kernel)) true exMX_proper exMY_proper
  ⟨trivial, trivial⟩ ⟨trivial, trivial⟩
example := C68_compare_sound (C68_int_to_float C68_formats.2.2.1) (C68_no_conversion (T := Fl ℚ) (by decide +kernel)) true exMX_proper exMY_proper
  ⟨trivial, trivial⟩ ⟨trivial, trivial⟩
example := C68_compare_exact (C68_int_to_float C68_formats.2.2.1) (C68_no_conversion (T := Fl ℚ) (by decide +kernel)) true exMX_proper exMY_proper
  ⟨trivial, trivial⟩ ⟨trivial, trivial⟩
example := C68_same_type (C68_int_to_float C68_formats.2.2.1) (C68_no_conversion (T := Fl ℚ) (by decide +kernel)) true exMX_proper exMY_proper
  ⟨trivial, trivial⟩ ⟨trivial, trivial⟩
example : mulM cuD (fun x => x) true exMX exMY = .ok ⟨.nan, .nan⟩ := by decide +kernel
example : addM cuD (fun x => x) true exMX exMY = .ok ⟨.num (-1/2), .pinf⟩ := by decide +kernel
example := C68_int (n := 31) (m := 63) (k := 63) (by decide) (by decide) true (X := exMX) (Y := .scalar ⟨5, by decide, by decide⟩)
  (show (-1 : Int) ≤ 3 by decide) trivial
example := (C68_float_to_float binary32Fmt binary64Fmt C68_formats.2.2.2.2).2
example : InFmt binary32Fmt (.num (1/2 : ℚ)) := ⟨by simp, by decide +kernel⟩
end witnesses
end Intervals.Props
