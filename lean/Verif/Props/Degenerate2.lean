import Verif.Props.Degenerate
import Verif.Lemmas.FltArith
import Verif.Lemmas.Corner
import Verif.Lemmas.Elem
import Verif.Lemmas.IntArith
import Verif.Model.Elem
import Verif.Model.FltClass
import Verif.Props.Iter
import Mathlib.Data.Rat.Floor
/-!
# C64, continued: arithmetic and elementary functions of one-value operands
-/
set_option linter.unusedSectionVars false
namespace Intervals.Props
open Intervals Intervals.Spec CppVal

/-- the interval of one value that an outcome stands for -/
def lift {T : Type _} (o : Outcome T) : Outcome (Ivl T) := match o with
  | .ok v => .ok (Ivl.ofVal v)
  | .error e => .error e

theorem ite_out {α : Type _} {c : Bool} {x y z : α} (h1 : c = true → x = z) (h2 : c = false → y = z) : (if c then x else y) = z := by
  cases c <;> simp_all

section int
variable {n : Nat}

theorem bind_make {T : Type _} [CppVal T] [CppOrder T] (o : Outcome T) : (do Ivl.make (← o) (← o)) = lift o := by
  cases o with
  | error e => rfl
  | ok v => simp [lift, make_self]
theorem bind_hull2 {T : Type _} [CppVal T] [CppOrder T] (o : Outcome T) : (do let a ← o; let b ← o; hull2 a b) = lift o := by
  cases o with
  | error e => rfl
  | ok v => simp [lift, hull2_self]
theorem bind_hull4 {T : Type _} [CppVal T] [CppOrder T] (o : Outcome T) : (do let a ← o; let b ← o; let c ← o; let d ← o; hull4 a b c d) = lift o := by
  cases o with
  | error e => rfl
  | ok v => simp [lift, hull4_self]

/-- C64, integers: the interval operators on one-value operands return the scalar result, or have undefined behaviour exactly if the scalar operation
has. -/
theorem C64_int (dbg : Bool) {A B : Arg (SInt n)} {a b : SInt n} (hA : IsPoint A a) (hB : IsPoint B b) :
    addI dbg A B = lift (CppNum.add a b) ∧ subI dbg A B = lift (CppNum.sub a b) ∧ mulI dbg A B = lift (CppNum.mul a b) ∧
    divI dbg A B = lift (CppNum.div a b) := by
  have hf : CppNum.isFloat (SInt n) = false := rfl
  refine ⟨?_, ?_, ?_, ?_⟩
  · simp only [addI, hA.assigned, hB.assigned, hf, Bool.and_self, expectsDebug_true, ok_bind, Bool.false_and, Bool.false_eq_true, if_false,
      hA.lo, hA.hi, hB.lo, hB.hi]
    exact bind_make _
  · simp only [subI, hA.assigned, hB.assigned, hf, Bool.and_self, expectsDebug_true, ok_bind, Bool.false_and, Bool.false_eq_true, if_false,
      hA.lo, hA.hi, hB.lo, hB.hi]
    exact bind_make _
  · simp only [mulI, hA.assigned, hB.assigned, hf, Bool.and_self, expectsDebug_true, ok_bind, Bool.false_and, Bool.false_eq_true, if_false]
    rcases hA with rfl | rfl <;> rcases hB with rfl | rfl
    · exact bind_hull2 _
    · exact bind_hull2 _
    · exact bind_hull2 _
    · exact bind_hull4 _
  · simp only [divI, hA.assigned, hB.assigned, hf, Bool.and_self, expectsDebug_true, ok_bind, Bool.false_and, Bool.false_eq_true, if_false,
      Bool.not_false, Bool.true_and]
    have hz : (le b (CppNum.zero : SInt n) && le (CppNum.zero : SInt n) b) = true → CppNum.div a b = .error .ub := by
      intro h
      have h0 : b.val = 0 := by
        simp only [sint_le, CppNum.zero, Bool.and_eq_true, decide_eq_true_eq] at h; omega
      simp [CppNum.div, h0]
    rcases hA with rfl | rfl <;> rcases hB with rfl | rfl
    · by_cases h : (le b (CppNum.zero : SInt n) && le (CppNum.zero : SInt n) b) = true
      · simp only [Arg.lo, Arg.hi, h, if_true, hz h, lift]
      · simp only [Arg.lo, Arg.hi, h, if_false]; exact bind_hull2 _
    · by_cases h : (le b (CppNum.zero : SInt n) && le (CppNum.zero : SInt n) b) = true
      · simp only [Arg.lo, Arg.hi, ofVal_lo, ofVal_hi, h, if_true, hz h, lift]
      · simp only [Arg.lo, Arg.hi, ofVal_lo, ofVal_hi, h, if_false]; exact bind_hull2 _
    · exact bind_hull2 _
    · by_cases h : (le b (CppNum.zero : SInt n) && le (CppNum.zero : SInt n) b) = true
      · simp only [ofVal_lo, ofVal_hi, h, if_true, hz h, lift]
      · simp only [ofVal_lo, ofVal_hi, h, if_false]; exact bind_hull4 _

/-- C64, integers: unary functions -/
theorem C64_int_unary (dbg : Bool) (a : SInt n) :
    plusI dbg (Ivl.ofVal a) = .ok (Ivl.ofVal a) ∧ negI dbg (Ivl.ofVal a) = lift (CppNum.neg a) ∧
    squareI dbg (Ivl.ofVal a) = lift (squareV a) ∧ cubeI dbg (Ivl.ofVal a) = lift (cubeV a) ∧
    absI dbg (Ivl.ofVal a) = lift (SInt.abs a) := by
  have h0 : (0:Int) < 2^n := Int.pow_pos (by decide)
  refine ⟨?_, ?_, ?_, ?_, ?_⟩
  · simp [plusI, ofVal_assigned, pure, Except.pure]
  · simp only [negI, ofVal_assigned, expectsDebug_true, ok_bind, ofVal_lo, ofVal_hi]
    exact bind_make _
  · simp only [squareI, ofVal_assigned, expectsDebug_true, ok_bind, ofVal_lo, ofVal_hi, squareV]
    by_cases h : (le a (CppNum.zero : SInt n) && ge a (CppNum.zero : SInt n)) = true
    · have hv : a.val = 0 := by
        simp only [CppVal.ge, sint_le, CppNum.zero, Bool.and_eq_true, decide_eq_true_eq] at h; omega
      have hm : CppNum.mul a a = .ok (CppNum.zero : SInt n) := by
        have : Rep n (a.val * a.val) := by rw [hv]; constructor <;> omega
        simp only [CppNum.mul, SInt.of_ok this, CppNum.zero]
        congr 1; apply BInt.ext; simp [hv]
      simp [h, hm, lift, cmax_self, make_self, pure, Except.pure]
    · simp only [h, if_false]
      cases hm : CppNum.mul a a with
      | error e => simp [lift]
      | ok v => simp [lift, cmax_self, cmin_self, make_self, pure, Except.pure]
  · simp only [cubeI, ofVal_assigned, expectsDebug_true, ok_bind, ofVal_lo, ofVal_hi, cubeV]
    cases hm : CppNum.mul a a with
    | error e => simp [lift]
    | ok v =>
      simp only [ok_bind]
      exact bind_make _
  · simp only [absI, ofVal_assigned, expectsDebug_true, ok_bind, ofVal_lo, ofVal_hi, SInt.abs]
    by_cases h : (le a (CppNum.zero : SInt n) && ge a (CppNum.zero : SInt n)) = true
    · have hv : a.val = 0 := by
        simp only [CppVal.ge, sint_le, CppNum.zero, Bool.and_eq_true, decide_eq_true_eq] at h; omega
      have hm : CppNum.neg a = .ok a := by
        have : Rep n (-a.val) := by rw [hv]; constructor <;> omega
        simp only [CppNum.neg, SInt.of_ok this]
        congr 1; apply BInt.ext; simp [hv]
      have ha : (CppNum.zero : SInt n) = a := BInt.ext (by simp [CppNum.zero, hv])
      rw [ha] at h ⊢
      simp [h, hm, lift, cmax_self, make_self, hv, pure, Except.pure]
    · simp only [h, if_false]
      by_cases hl : a.val < 0
      · have : lt a (CppNum.zero : SInt n) = true := by simp [sint_lt, CppNum.zero, hl]
        simp only [this, if_true, hl]
        exact bind_make _
      · have : lt a (CppNum.zero : SInt n) = false := by simp [sint_lt, CppNum.zero]; omega
        simp [this, hl, lift, pure, Except.pure]
end int

section float
variable {K : Type} [Field K] [LinearOrder K] [IsStrictOrderedRing K] [Fmt K]

theorem lift_ok (v : Fl K) : lift (.ok v) = .ok (Ivl.ofVal v) := rfl

/-- C64, floating point, in every format and rounding mode and for all operands including NaN, infinities and signed zeros: the interval operators on
one-value operands return exactly the scalar result. -/
theorem C64_float (dbg : Bool) {A B : Arg (Fl K)} {a b : Fl K} (hA : IsPoint A a) (hB : IsPoint B b) :
    addI dbg A B = .ok (Ivl.ofVal (Fl.add a b)) ∧ subI dbg A B = .ok (Ivl.ofVal (Fl.sub a b)) ∧
    mulI dbg A B = .ok (Ivl.ofVal (Fl.mul a b)) ∧ divI dbg A B = .ok (Ivl.ofVal (Fl.div a b)) := by
  have hf : CppNum.isFloat (Fl K) = true := rfl
  have hn : (nanInterval : Outcome (Ivl (Fl K))) = .ok (Ivl.ofVal .nan) := make_self _
  refine ⟨?_, ?_, ?_, ?_⟩
  · simp only [addI, hA.assigned, hB.assigned, hf, Bool.and_self, expectsDebug_true, ok_bind, Bool.true_and, hA.lo, hA.hi, hB.lo, hB.hi]
    split
    · next h =>
      simp only [Bool.or_eq_true, Bool.and_eq_true, Fl.isNegInf_iff, Fl.isPosInf_iff] at h
      rcases h with ⟨rfl, rfl⟩ | ⟨rfl, rfl⟩ <;> simp [hn, Fl.add, Fl.isNan, Fl.isInf, Fl.signBit]
    · exact bind_make _
  · simp only [subI, hA.assigned, hB.assigned, hf, Bool.and_self, expectsDebug_true, ok_bind, Bool.true_and, hA.lo, hA.hi, hB.lo, hB.hi]
    split
    · next h =>
      simp only [Bool.or_eq_true, Bool.and_eq_true, Fl.isNegInf_iff, Fl.isPosInf_iff] at h
      rcases h with ⟨rfl, rfl⟩ | ⟨rfl, rfl⟩ <;> simp [hn, Fl.sub, Fl.neg, Fl.add, Fl.isNan, Fl.isInf, Fl.signBit]
    · exact bind_make _
  · simp only [mulI, hA.assigned, hB.assigned, hf, Bool.and_self, expectsDebug_true, ok_bind, Bool.true_and, hA.lo, hA.hi, hB.lo, hB.hi]
    have hc : ∀ {C : Arg (Fl K)} {c : Fl K}, IsPoint C c → C.contains (CppNum.zero : Fl K) = true → Fl.isZero c = true := by
      intro C c hC h
      rw [Fl.isZero_iff]
      rcases hC with rfl | rfl
      · have := (CppOrder.eq_iff _ _).mp h; exact this
      · simp only [Arg.contains, Ivl.containsVal, ofVal_lo, ofVal_hi, Bool.and_eq_true] at h; exact h
    split
    · next h =>
      simp only [Bool.or_eq_true, Bool.and_eq_true, Fl.isNegInf_iff, Fl.isPosInf_iff] at h
      rw [hn]
      rcases h with ⟨h1, h2⟩ | ⟨h1, h2⟩
      · have := hc hB h2
        have hbn : Fl.isNan b = false := by cases b <;> simp_all [Fl.isZero, Fl.isNan]
        rcases h1 with rfl | rfl <;> simp [Fl.mul, Fl.isNan, Fl.isInf, this, hbn]
      · have := hc hA h1
        have hbn : Fl.isNan a = false := by cases a <;> simp_all [Fl.isZero, Fl.isNan]
        rcases h2 with rfl | rfl <;> simp [Fl.mul, Fl.isNan, Fl.isInf, this, hbn]
    · rcases hA with rfl | rfl <;> rcases hB with rfl | rfl
      · exact bind_hull2 _
      · exact bind_hull2 _
      · exact bind_hull2 _
      · exact bind_hull4 _
  · simp only [divI, hA.assigned, hB.assigned, hf, Bool.and_self, expectsDebug_true, ok_bind, Bool.true_and, Bool.not_true, Bool.false_and,
      Bool.false_eq_true, if_false]
    have hinf : ∀ {a b : Fl K}, (isNegInf a || isPosInf a) = true → (isNegInf b || isPosInf b) = true → Fl.div a b = .nan := by
      intro a b h1 h2
      simp only [Bool.or_eq_true, Fl.isNegInf_iff, Fl.isPosInf_iff] at h1 h2
      rcases h1 with rfl | rfl <;> rcases h2 with rfl | rfl <;> simp [Fl.div, Fl.isNan, Fl.isInf]
    have hzz : ∀ {a b : Fl K}, Fl.isZero a = true → Fl.isZero b = true → Fl.div a b = .nan := by
      intro a b h1 h2
      have ha : Fl.isNan a = false := by cases a <;> simp_all [Fl.isZero, Fl.isNan]
      have hb : Fl.isNan b = false := by cases b <;> simp_all [Fl.isZero, Fl.isNan]
      have ha' : Fl.isInf a = false := by cases a <;> simp_all [Fl.isZero, Fl.isInf]
      have hb' : Fl.isInf b = false := by cases b <;> simp_all [Fl.isZero, Fl.isInf]
      simp [Fl.div, ha, hb, ha', hb', h1, h2]
    have hno : ∀ b : Fl K, (lt b (CppNum.zero : Fl K) && lt (CppNum.zero : Fl K) b) = false := by
      intro b
      cases h1 : lt b (CppNum.zero : Fl K) <;> cases h2 : lt (CppNum.zero : Fl K) b <;> first | rfl | grind
    have hz1 : ∀ {c : Fl K}, eq c (CppNum.zero : Fl K) = true → Fl.isZero c = true := fun h => Fl.isZero_iff.mpr ((CppOrder.eq_iff _ _).mp h)
    have hz2 : ∀ {c : Fl K}, le c (CppNum.zero : Fl K) = true → le (CppNum.zero : Fl K) c = true → Fl.isZero c = true := fun h h' => Fl.isZero_iff.mpr ⟨h, h'⟩
    rcases hA with rfl | rfl <;> rcases hB with rfl | rfl <;> simp only [Arg.lo, Arg.hi, ofVal_lo, ofVal_hi]
    · refine ite_out (fun h => ?_) (fun _ => ite_out (fun h => ?_) (fun _ => ite_out (fun h => ?_) (fun _ => bind_hull2 _)))
      · rw [Bool.and_eq_true] at h; rw [hn, hinf h.1 h.2]
      · simp only [Bool.and_eq_true] at h
        rw [hn, hzz (hz1 h.1.1) (hz2 h.1.2 h.2)]
      · rw [Bool.and_assoc, hno, Bool.and_false] at h; cases h
    · refine ite_out (fun h => ?_) (fun _ => ite_out (fun h => ?_) (fun _ => ite_out (fun h => ?_) (fun _ => bind_hull2 _)))
      · rw [Bool.and_eq_true] at h; rw [hn, hinf h.1 h.2]
      · simp only [Bool.and_eq_true] at h
        rw [hn, hzz (hz1 h.1.1) (hz2 h.1.2 h.2)]
      · rw [Bool.and_assoc, hno, Bool.and_false] at h; cases h
    · refine ite_out (fun h => ?_) (fun _ => ite_out (fun h => ?_) (fun _ => bind_hull2 _))
      · rw [Bool.and_eq_true] at h; rw [hn, hinf h.1 h.2]
      · simp only [Bool.and_eq_true] at h
        rw [hn, hzz (hz2 h.1.1 h.1.2) (hz1 h.2)]
    · refine ite_out (fun h => ?_) (fun _ => ite_out (fun h => ?_) (fun _ => ite_out (fun h => ?_) (fun _ => bind_hull4 _)))
      · rw [Bool.and_eq_true] at h; rw [hn, hinf h.1 h.2]
      · simp only [Bool.and_eq_true] at h
        rw [hn, hzz (hz2 h.1.1.1 h.1.1.2) (hz2 h.1.2 h.2)]
      · rw [Bool.and_assoc, hno, Bool.and_false] at h; cases h

/-- C64, floating point: unary functions.  `abs` of a zero returns `[0, -0]`, equal but not identical to the scalar result. -/
theorem C64_float_unary (dbg : Bool) (a : Fl K) :
    plusI dbg (Ivl.ofVal a) = .ok (Ivl.ofVal a) ∧ negI dbg (Ivl.ofVal a) = .ok (Ivl.ofVal (Fl.neg a)) ∧
    squareI dbg (Ivl.ofVal a) = .ok (Ivl.ofVal (Fl.mul a a)) ∧ cubeI dbg (Ivl.ofVal a) = .ok (Ivl.ofVal (Fl.mul (Fl.mul a a) a)) ∧
    (Fl.isZero a = false → absI dbg (Ivl.ofVal a) = .ok (Ivl.ofVal (Fl.abs a))) ∧
    (Fl.isZero a = true → ∃ R, absI dbg (Ivl.ofVal a) = .ok R ∧ IsVal R (Fl.abs a)) := by
  have hz : ∀ c : Fl K, (le c (CppNum.zero : Fl K) && ge c (CppNum.zero : Fl K)) = Fl.isZero c := by
    intro c; rw [Bool.eq_iff_iff, Bool.and_eq_true, Fl.isZero_iff]; rfl
  refine ⟨?_, ?_, ?_, ?_, ?_, ?_⟩
  · simp [plusI, ofVal_assigned, pure, Except.pure]
  · simp only [negI, ofVal_assigned, expectsDebug_true, ok_bind, ofVal_lo, ofVal_hi]
    exact bind_make _
  · simp only [squareI, ofVal_assigned, expectsDebug_true, ok_bind, ofVal_lo, ofVal_hi, hz, CppNum.mul]
    rcases Bool.eq_false_or_eq_true (Fl.isZero a) with h | h
    · have : Fl.mul a a = .num 0 := by
        have h1 : Fl.isNan a = false := by cases a <;> simp_all [Fl.isZero, Fl.isNan]
        have h2 : Fl.isInf a = false := by cases a <;> simp_all [Fl.isZero, Fl.isInf]
        simp [Fl.mul, h1, h2, h, Fl.zeroS]
      simp [h, this, cmax_self, pure, Except.pure, CppNum.zero, make_self]
    · simp [h, cmin_self, cmax_self, make_self, pure, Except.pure]
  · simp only [cubeI, ofVal_assigned, expectsDebug_true, ok_bind, ofVal_lo, ofVal_hi, CppNum.mul]
    exact make_self _
  · intro h
    simp only [absI, ofVal_assigned, expectsDebug_true, ok_bind, ofVal_lo, ofVal_hi, hz, h, Bool.false_eq_true, if_false, CppNum.neg, make_self]
    have : lt a (CppNum.zero : Fl K) = Fl.signBit a := by
      rw [Bool.eq_iff_iff, CppOrder.lt_iff]
      cases a <;> simp_all [CppNum.zero, Fl.signBit, Fl.isZero]
    rw [this, Fl.abs]
    cases Fl.signBit a <;> rfl
  · intro h
    simp only [absI, ofVal_assigned, expectsDebug_true, ok_bind, ofVal_lo, ofVal_hi, hz, h, if_true, CppNum.neg]
    have hz' : ∀ c : Fl K, Fl.isZero c = true → eq (CppNum.zero : Fl K) c = true ∧ eq c (CppNum.zero : Fl K) = true := by
      intro c hc
      have := Fl.isZero_iff.mp hc
      exact ⟨(CppOrder.eq_iff _ _).mpr ⟨this.2, this.1⟩, (CppOrder.eq_iff _ _).mpr this⟩
    have hn : Fl.isZero (Fl.neg a) = true := by cases a <;> simp_all [Fl.isZero, Fl.neg]
    have ha : Fl.isZero (Fl.abs a) = true := by
      unfold Fl.abs; cases Fl.signBit a <;> simp_all
    have hm : Fl.isZero (cmax (Fl.neg a) a) = true := by unfold cmax; split <;> assumption
    refine ⟨⟨CppNum.zero, cmax (Fl.neg a) a⟩, ?_, isVal_of ⟨(hz' _ ha).1, ?_⟩⟩
    · refine make_ok_of_le ?_
      exact (Fl.isZero_iff.mp hm).2
    · have h1 := hz' _ ha
      have h2 := hz' _ hm
      show eq (cmax (Fl.neg a) a) (Fl.abs a) = true
      generalize cmax (Fl.neg a) a = u at *
      generalize Fl.abs a = w at *
      generalize (CppNum.zero : Fl K) = z at *
      obtain ⟨h1, h1'⟩ := h1
      obtain ⟨h2, h2'⟩ := h2
      grind

section libm
variable [Libm K]
theorem bind_unordered {T : Type _} [CppVal T] [CppOrder T] (o : Outcome T) : (do Ivl.fromUnorderedBounds (← o) (← o)) = lift o := by
  cases o with
  | error e => rfl
  | ok v => simp [lift, unordered_self]

/-- C64: the elementary functions without a reduction of the argument return the value of the scalar function, and check the same precondition. -/
theorem C64_elem (dbg : Bool) (a : Fl K) :
    sqrtI dbg (Ivl.ofVal a) = lift (sqrtS dbg a) ∧ cbrtI dbg (Ivl.ofVal a) = .ok (Ivl.ofVal (Libm.cbrt a)) ∧
    logI dbg (Ivl.ofVal a) = lift (logS dbg a) ∧ expI dbg (Ivl.ofVal a) = .ok (Ivl.ofVal (Libm.exp a)) ∧
    asinI dbg (Ivl.ofVal a) = lift (asinS dbg a) ∧ acosI dbg (Ivl.ofVal a) = lift (acosS dbg a) ∧
    atanI dbg (Ivl.ofVal a) = .ok (Ivl.ofVal (Libm.atan a)) := by
  simp only [sqrtI, cbrtI, logI, expI, asinI, acosI, atanI, ofVal_assigned, expectsDebug_true, ok_bind, ofVal_lo, ofVal_hi, make_self,
    unordered_self, bind_make, bind_unordered, and_self]

/-- C64: `atan2` of one-value operands inside the scalar domain.  (Outside of it, the interval version returns NaN for `y = 0`, `x ≤ 0`, where the
scalar version has its precondition violated.) -/
theorem C64_atan2 (dbg : Bool) {Y X : Arg (Fl K)} {y x : Fl K} (hY : IsPoint Y y) (hX : IsPoint X x) (hn : NotNan x)
    (h : (ne y (.num 0) || gt x (.num 0)) = true) : atan2I dbg Y X = .ok (Ivl.ofVal (Libm.atan2 y x)) := by
  have hs : atan2S dbg y x = .ok (Libm.atan2 y x) := by simp [atan2S, h, pure, Except.pure]
  have hc : (le x (.num 0) && Y.contains (.num 0)) = false := by
    rw [Bool.and_eq_false_iff]
    rw [Bool.or_eq_true] at h
    rcases h with h | h
    · right
      have e : eq y (.num 0) = false := by
        simp only [ne, Bool.not_eq_true'] at h; exact h
      rcases hY with rfl | rfl
      · exact e
      · simp only [Arg.contains, Ivl.containsVal, ofVal_lo, ofVal_hi]
        rw [Bool.and_eq_false_iff]
        by_contra hh
        have hh' : le y (.num 0) = true ∧ le (.num 0) y = true := by simpa using hh
        have := (CppOrder.eq_iff _ _).mpr hh'
        rw [e] at this; cases this
    · left
      have := (CppOrder.lt_iff _ _).mp h
      exact this.2.2
  simp only [atan2I, hY.assigned, hX.assigned, Bool.and_self, expectsDebug_true, ok_bind, hX.lo, hc, Bool.false_eq_true, if_false]
  rcases hY with rfl | rfl <;> rcases hX with rfl | rfl <;>
    simp only [Arg.lo, Arg.hi, ofVal_lo, ofVal_hi, hs, ok_bind, hull2_self, hull4_self]
end libm

section flr
variable [FloorRing K]
/-- C64: rounding to integers, for all values; `frac` for all numbers and infinities -/
theorem C64_floor (dbg : Bool) (a : Fl K) :
    floorI dbg (Ivl.ofVal a) = .ok (Ivl.ofVal (Fl.floor a)) ∧ ceilI dbg (Ivl.ofVal a) = .ok (Ivl.ofVal (Fl.ceil a)) ∧
    roundI dbg (Ivl.ofVal a) = .ok (Ivl.ofVal (Fl.round a)) ∧
    (Fl.isNan a = false → fracI dbg (Ivl.ofVal a) = .ok (Ivl.ofVal (Fl.frac a))) := by
  refine ⟨?_, ?_, ?_, ?_⟩
  · simp [floorI, ofVal_assigned, ofVal_lo, ofVal_hi, make_self]
  · simp [ceilI, ofVal_assigned, ofVal_lo, ofVal_hi, make_self]
  · simp [roundI, ofVal_assigned, ofVal_lo, ofVal_hi, make_self]
  · intro h
    have : ne (Fl.floor a) (Fl.floor a) = false := by
      have hn : le (Fl.floor a) (Fl.floor a) = true := by
        refine Fl.floor_mono (Fl.notNan_iff.mpr ?_)
        rintro rfl; cases h
      simp only [ne, Bool.not_eq_false']
      exact (CppOrder.eq_iff _ _).mpr ⟨hn, hn⟩
    simp [fracI, ofVal_assigned, ofVal_lo, ofVal_hi, make_self, this, Fl.frac]

/-- C64 needs the exclusion of NaN for `frac`: on the one-value interval `[NaN, NaN]` it returns `[0, 1]`, although the
fractional part of NaN is NaN (`lfloor != ufloor` is true for NaN, interval.hpp:1251). -/
theorem C64_frac_nan (dbg : Bool) : fracI dbg (Ivl.ofVal (Fl.nan : Fl K)) = .ok ⟨.num 0, .num 1⟩ ∧ Fl.frac (Fl.nan : Fl K) = .nan := by
  have h1 : (ne (Fl.floor (Fl.nan : Fl K)) (Fl.floor (Fl.nan : Fl K))) = true := rfl
  have h2 : Ivl.make (.num 0 : Fl K) (.num 1) = .ok ⟨.num 0, .num 1⟩ := make_ok_of_le (by simp)
  refine ⟨?_, rfl⟩
  simp [fracI, ofVal_assigned, ofVal_lo, ofVal_hi, h1, h2]
end flr

theorem geA_point (dbg : Bool) {A : Arg (Fl K)} {a : Fl K} (hA : IsPoint A a) (ha : NotNan a) (k : K) :
    geA dbg A (.scalar (.num k)) = .ok (BoolSet.single (ge a (.num k))) ∧ leA dbg A (.scalar (.num k)) = .ok (BoolSet.single (le a (.num k))) := by
  have hk : NotNan (Fl.num k : Fl K) := by unfold NotNan; simp
  have := C64_compare dbg hA (B := .scalar (.num k)) (b := .num k) (Or.inl rfl) ha hk
  rcases hA with rfl | rfl
  · exact ⟨rfl, rfl⟩
  · exact ⟨this.2.2.2.2.2, this.2.2.2.1⟩

/-- C64: `fractional_weights` and `blend_fractions` return the scalar results and check the scalar preconditions. -/
theorem C64_weights (dbg : Bool) {A B : Arg (Fl K)} {a b : Fl K} (hA : IsPoint A a) (hB : IsPoint B b) (ha : NotNan a) (hb : NotNan b)
    (hab : NotNan (Fl.add a b)) :
    fractionalWeightsI dbg A B = match fractionalWeightsS dbg a b with
      | .ok (wa, wb) => .ok (Ivl.ofVal wa, Ivl.ofVal wb)
      | .error e => .error e := by
  have hk : NotNan (Fl.num 0 : Fl K) := by unfold NotNan; simp
  have h1 := (geA_point dbg hA ha 0).1
  have h2 := (geA_point dbg hB hb 0).1
  have h3 := (C64_compare dbg (A := .ivl (Ivl.ofVal (Fl.add a b))) (B := .scalar (.num 0)) (Or.inr rfl) (Or.inl rfl) hab hk).2.2.2.2.1
  have hal : ∀ b, BoolSet.always (BoolSet.single b) = b := by decide
  have h4 := (C64_float dbg hA hB).1
  simp only [fractionalWeightsI, fractionalWeightsS, hA.assigned, hB.assigned, Bool.and_self, expectsDebug_true, ok_bind, zeroA, h1, h2, h3, h4, hal,
    hA.lo, hA.hi, hB.lo, hB.hi, make_self, pure, Except.pure]
  cases dbg
  · simp
  · simp only [if_true]
    cases ge a (.num 0) <;> cases ge b (.num 0) <;> cases gt (Fl.add a b) (.num 0) <;> simp

theorem C64_blend (dbg : Bool) {F X Y : Arg (Fl K)} {f x y : Fl K} (hF : IsPoint F f) (hX : IsPoint X x) (hY : IsPoint Y y) (hf : NotNan f) :
    blendFractionsI dbg F X Y = lift (blendFractionsS dbg f x y) := by
  have h1 := (geA_point dbg hF hf 0).1
  have h2 := (geA_point dbg hF hf 1).2
  have hal : ∀ b c, BoolSet.always (BoolSet.and (BoolSet.single b) (BoolSet.single c)) = (b && c) := by decide
  simp only [blendFractionsI, blendFractionsS, hF.assigned, hX.assigned, hY.assigned, Bool.and_self, expectsDebug_true, ok_bind, zeroA, h1, h2, hal,
    hF.lo, hF.hi, hX.lo, hX.hi, hY.lo, hY.hi, ite_self, unordered_self]
  cases dbg
  · simp [lift, pure, Except.pure]
  · simp only [if_true]
    cases ge f (.num 0) <;> cases le f (.num 1) <;> simp [lift, pure, Except.pure, expectsDebug]

/-- C64: classification of a one-value interval that is not NaN -/
theorem C64_classify (dbg : Bool) (a : Fl K) (ha : Fl.isNan a = false) :
    isInfI dbg (Ivl.ofVal a) = .ok (BoolSet.single (Fl.isInf a)) ∧ isFiniteI dbg (Ivl.ofVal a) = .ok (BoolSet.single (!Fl.isInf a)) ∧
    isNanI dbg (Ivl.ofVal a) = .ok (BoolSet.single (Fl.isNan a)) := by
  have h1 : isInfI dbg (Ivl.ofVal a) = .ok (BoolSet.single (Fl.isInf a)) := by
    simp only [isInfI, ofVal_assigned, expectsDebug_true, ok_bind, ofVal_lo, ofVal_hi, pure, Except.pure, Except.ok.injEq]
    have e : Fl.isInf a = (isNegInf a || isPosInf a) := by
      rw [Bool.eq_iff_iff, Bool.or_eq_true, Fl.isNegInf_iff, Fl.isPosInf_iff]
      cases a <;> simp [Fl.isInf]
    rw [e]
    rcases Bool.eq_false_or_eq_true (isNegInf a) with h | h <;> rcases Bool.eq_false_or_eq_true (isPosInf a) with h' | h' <;>
      simp only [h, h'] <;> decide
  have hn : ∀ b, BoolSet.not dbg (BoolSet.single b) = .ok (BoolSet.single (!b)) := by cases dbg <;> decide
  refine ⟨h1, ?_, ?_⟩
  · simp [isFiniteI, h1, hn]
  · simp [isNanI, ofVal_assigned, ofVal_lo, ofVal_hi, ha, pure, Except.pure]
end float

section iter
variable {n m : Nat}
/-- C64: iterators — movement and distance of one-position operands, with undefined behaviour exactly where the iterator operation has it, and
reading at a valid position -/
theorem C64_iter (dbg : Bool) {A B : Arg (Iter n)} {D : Arg (SInt m)} {a b : Iter n} {d : SInt m} (hA : IsPoint A a) (hB : IsPoint B b)
    (hD : IsPoint D d) :
    iterAddI dbg A D = lift (Iter.add a d) ∧ addIterI dbg D A = lift (Iter.add a d) ∧ iterSubI dbg A D = lift (Iter.sub a d) ∧
    iterDiffI m dbg A B = lift (Iter.diff m a b) ∧ prevI (Ivl.ofVal a) = lift (Iter.pred a) ∧ nextI (Ivl.ofVal a) = lift (Iter.succ a) := by
  simp only [iterAddI, addIterI, iterSubI, iterDiffI, prevI, nextI, hA.assigned, hB.assigned, hD.assigned, Bool.and_self, expectsDebug_true, ok_bind,
    hA.lo, hA.hi, hB.lo, hB.hi, hD.lo, hD.hi, ofVal_lo, ofVal_hi, bind_make, and_self]

/-- C64: `*it` of a one-position interval reads the element there (undefined past the end, as for the iterator). -/
theorem C64_deref {V : Type} [CppVal V] [CppOrder V] [CppLimits V] [CppLawfulLimits V] (l : List V) (hl : ∀ v ∈ l, NotNan v) (a : Iter l.length) :
    match readAt l a with
    | .ok v => ∃ R, derefI (readAt l) (Ivl.ofVal a) = .ok R ∧ IsVal R v
    | .error e => derefI (readAt l) (Ivl.ofVal a) = .error e := by
  cases hr : readAt l a with
  | error e =>
    simp only [derefI, ofVal_lo, ofVal_hi]
    rw [derefLoop]; simp [hr]
  | ok v =>
    have hg : l[a.val.toNat]? = some v := by
      unfold readAt at hr
      split at hr
      · cases hr; assumption
      · cases hr
    obtain ⟨hlt, -⟩ := List.getElem?_eq_some_iff.mp hg
    have h0 := a.ge
    have hs : BInt.ofInt 0 l.length (a.val + 1) = .ok ⟨a.val + 1, by omega, by omega⟩ := by
      unfold BInt.ofInt; rw [dif_pos]; constructor <;> omega
    have hv := hl v (List.mem_of_getElem? hg)
    obtain ⟨R, h1, -, h2⟩ := assign_unassigned (v := v) hv
    refine ⟨R, ?_, isVal_of h2⟩
    simp only [derefI, ofVal_lo, ofVal_hi]
    rw [derefLoop]
    simp only [hr, le_refl, if_true]
    split
    · next e => rw [hs] at e; cases e
    · next e =>
      rw [hs] at e; cases e
      rw [derefLoop]
      have : ¬ (a.val + 1 ≤ a.val) := by omega
      simp only [this, if_false]
      simpa [Ivl.assign, ofVal_assigned, ofVal_lo, ofVal_hi, pure, Except.pure, Ivl.assignVal] using h1
end iter

/-! Examples: all hypotheses are met by ordinary operands, and the results are not all failures -/
example : IsPoint (.ivl (Ivl.ofVal (i32 7))) (i32 7) := .inr rfl
example : mulI true (.ivl (Ivl.ofVal (i32 7))) (.scalar (i32 (-6))) = .ok (Ivl.ofVal (i32 (-42))) :=
  (C64_int true (.inr rfl) (.inl rfl)).2.2.1.trans (by decide)
example : divI false (.ivl (Ivl.ofVal (i32 7))) (.ivl (Ivl.ofVal (i32 0))) = .error .ub :=
  (C64_int false (.inr rfl) (.inr rfl)).2.2.2.trans (by decide)
example : absI true (Ivl.ofVal (i32 (-5))) = .ok (Ivl.ofVal (i32 5)) := (C64_int_unary true _).2.2.2.2.trans (by decide)
example : NotNan (Fl.num (-3) : Fl ℚ) := by unfold NotNan; decide +kernel
example : opLt true (.ivl (Ivl.ofVal (Fl.num 1 : Fl ℚ))) (.scalar .pinf) = .ok (BoolSet.single true) := by decide +kernel
example : letI := exactFmt ℚ; mulI true (.ivl (Ivl.ofVal (.num 0))) (.scalar (.pinf : Fl ℚ)) = .ok (Ivl.ofVal .nan) := by
  letI := exactFmt ℚ
  exact (C64_float true (.inr rfl) (.inl rfl)).2.2.1.trans (by decide +kernel)
example : letI := exactFmt ℚ; NotNan (Fl.add (.num 1 : Fl ℚ) (.num 3)) ∧ fractionalWeightsI true (.scalar (.num 1 : Fl ℚ)) (.ivl (Ivl.ofVal (.num 3))) =
    .ok (Ivl.ofVal (.num (1/4)), Ivl.ofVal (.num (3/4))) := by
  letI := exactFmt ℚ
  exact ⟨by unfold NotNan; decide +kernel, by decide +kernel⟩
example : (Operand.scalar true (i32 4)).matchesId true 0 = false ∧ (Operand.scalar true (i32 4)).disc = true ∧
    IsPoint (Operand.scalar true (i32 4)).arg (i32 4) ∧ NotNan (i32 3) ∧ CmpOp.lt.eval (i32 3) (i32 4) = true := ⟨rfl, rfl, .inl rfl, by decide, by decide⟩
example : readAt exA (⟨2, by decide, by decide⟩ : Iter exA.length) = .ok (i32 9) := by decide
end Intervals.Props
