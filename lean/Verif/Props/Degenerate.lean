import Verif.Props.Constraint
import Verif.Props.Basic
import Verif.Lemmas.IntArith
import Verif.Model.Scalar
import Verif.Model.Elem
import Verif.Model.FltClass
import Verif.Model.Iter
import Mathlib.Data.Rat.Floor
/-!
# C64: an interval of one value behaves like that value
-/
set_option linter.unusedSectionVars false
namespace Intervals.Props
open Intervals Intervals.Spec CppVal

/-- the operand is the value `a` or the interval `[a, a]` -/
def IsPoint {T : Type _} (A : Arg T) (a : T) : Prop := A = .scalar a ∨ A = .ivl (Ivl.ofVal a)

section generic
variable {T : Type _} [CppVal T] [CppOrder T]

theorem lt_self (a : T) : lt a a = false := by
  cases h : lt a a
  · rfl
  · have := (CppOrder.lt_iff a a).mp h; grind
theorem gt_self (a : T) : gt a a = false := lt_self a
theorem cmin_self (a : T) : cmin a a = a := by simp [cmin]
theorem cmax_self (a : T) : cmax a a = a := by simp [cmax]
theorem make_self (a : T) : Ivl.make a a = .ok (Ivl.ofVal a) := by simp [Ivl.make, gt_self, Ivl.ofVal, pure, Except.pure]
theorem unordered_self (a : T) : Ivl.fromUnorderedBounds a a = .ok (Ivl.ofVal a) := by simp [Ivl.fromUnorderedBounds, cmin_self, cmax_self, make_self]
theorem hull2_self (a : T) : hull2 a a = .ok (Ivl.ofVal a) := by simp [hull2, cmin_self, cmax_self, make_self]
theorem hull4_self (a : T) : hull4 a a a a = .ok (Ivl.ofVal a) := by simp [hull4, cmin_self, cmax_self, make_self]
theorem ofVal_lo (a : T) : (Ivl.ofVal a).lo = a := rfl
theorem ofVal_hi (a : T) : (Ivl.ofVal a).hi = a := rfl
theorem ofVal_assigned (a : T) : (Ivl.ofVal a).assigned = true := by simp [Ivl.assigned, Ivl.ofVal, gt_self]
theorem IsPoint.lo {A : Arg T} {a : T} (h : IsPoint A a) : A.lo = a := by rcases h with rfl | rfl <;> rfl
theorem IsPoint.hi {A : Arg T} {a : T} (h : IsPoint A a) : A.hi = a := by rcases h with rfl | rfl <;> rfl
theorem IsPoint.assigned {A : Arg T} {a : T} (h : IsPoint A a) : A.assigned = true := by
  rcases h with rfl | rfl
  · rfl
  · exact ofVal_assigned a

/-- C64: a comparison of one-value operands is the singleton of the scalar comparison. -/
theorem C64_compare (dbg : Bool) {A B : Arg T} {a b : T} (hA : IsPoint A a) (hB : IsPoint B b) (ha : NotNan a) (hb : NotNan b) :
    opEq dbg A B = .ok (BoolSet.single (eq a b)) ∧ opNe dbg A B = .ok (BoolSet.single (ne a b)) ∧
    opLt dbg A B = .ok (BoolSet.single (lt a b)) ∧ opLe dbg A B = .ok (BoolSet.single (le a b)) ∧
    opGt dbg A B = .ok (BoolSet.single (gt a b)) ∧ opGe dbg A B = .ok (BoolSet.single (ge a b)) := by
  have single_ite : ∀ p : Bool, BoolSet.single p = if p then BoolSet.assign BoolSet.empty true else BoolSet.assign BoolSet.empty false := by decide
  unfold NotNan at ha hb
  simp only [opEq, opNe, opLt, opLe, opGt, opGe, hA.assigned, hB.assigned, Bool.and_self, expectsDebug_true, ok_bind, pure, Except.pure,
    Except.ok.injEq, compareEq, compareNeq, compareLt, compareLeq, hA.lo, hA.hi, hB.lo, hB.hi, single_ite]
  have e1 : eq a b = (le a b && le b a) := by
    rw [Bool.eq_iff_iff, Bool.and_eq_true]; exact CppOrder.eq_iff a b
  have e2 : lt a b = !le b a := by rw [Bool.eq_iff_iff, CppOrder.lt_iff]; simp [ha, hb]
  have e3 : lt b a = !le a b := by rw [Bool.eq_iff_iff, CppOrder.lt_iff]; simp [ha, hb]
  have e4 : (le a b || le b a) = true := by
    rw [Bool.or_eq_true]; exact CppOrder.le_total a b ha hb
  simp only [ge, gt, ne, e1, e2, e3]
  rcases Bool.eq_false_or_eq_true (le a b) with h1 | h1 <;> rcases Bool.eq_false_or_eq_true (le b a) with h2 | h2 <;>
    simp only [h1, h2, Bool.or_self, Bool.false_eq_true] at e4 ⊢ <;> decide

/-- C64: the projections of a singleton condition agree with those of the `bool`. -/
theorem C64_projections (b : Bool) : BoolSet.possibly (BoolSet.single b) = possiblyB b ∧ BoolSet.possiblyNot (BoolSet.single b) = possiblyNotB b ∧
    BoolSet.always (BoolSet.single b) = alwaysB b ∧ BoolSet.never (BoolSet.single b) = neverB b ∧
    BoolSet.contingent (BoolSet.single b) = contingentB b ∧ BoolSet.vacuous (BoolSet.single b) = vacuousB b := by
  revert b; decide

/-- C64: `min`, `max`, `infimum`, `supremum`, `value` -/
theorem C64_minmax (dbg : Bool) {A B : Arg T} {a b : T} (hA : IsPoint A a) (hB : IsPoint B b) :
    minI dbg A B = .ok (Ivl.ofVal (Scalar.min a b)) ∧ maxI dbg A B = .ok (Ivl.ofVal (Scalar.max a b)) ∧
    infimum dbg (Ivl.ofVal a) = .ok (Scalar.infimum a) ∧ supremum dbg (Ivl.ofVal a) = .ok (Scalar.supremum a) := by
  refine ⟨?_, ?_, ?_, ?_⟩
  · simp [minI, hA.assigned, hB.assigned, hA.lo, hA.hi, hB.lo, hB.hi, make_self, Scalar.min, cmin]
  · simp [maxI, hA.assigned, hB.assigned, hA.lo, hA.hi, hB.lo, hB.hi, make_self, Scalar.max, cmax]
  · simp [infimum, ofVal_assigned, ofVal_lo, Scalar.infimum, pure, Except.pure]
  · simp [supremum, ofVal_assigned, ofVal_hi, Scalar.supremum, pure, Except.pure]

variable [CppLimits T] [CppLawfulLimits T]

theorem assign_unassigned {v : T} (hv : NotNan v) : ∃ R, Ivl.assign Ivl.unassigned (Ivl.ofVal v) = .ok R ∧ Proper R ∧ eq R.lo v = true ∧ eq R.hi v = true := by
  have h1 := CppLawfulLimits.le_top v hv
  have h2 := CppLawfulLimits.bot_le v hv
  unfold NotNan at hv
  refine ⟨⟨cmin CppLimits.top v, cmax CppLimits.bot v⟩, ?_, ?_⟩
  · simp [Ivl.assign, ofVal_assigned, Ivl.assignCore, Ivl.unassigned, ofVal_lo, ofVal_hi, pure, Except.pure]
  · unfold Proper cmin cmax; grind

/-- the interval is `[v, v]` (up to signed zeros) -/
def IsVal (R : Ivl T) (v : T) : Prop := Proper R ∧ ∀ w, w ∈ᵢ R ↔ eq w v = true

theorem isVal_of {R : Ivl T} {v : T} (h : eq R.lo v = true ∧ eq R.hi v = true) : IsVal R v := by
  unfold IsVal Proper Pt
  exact ⟨by grind, fun w => by grind⟩

/-- C64: `if_else` with a singleton condition, and the three ways to give a fresh variable its value -/
theorem C64_select (b : Bool) (t f : T) (ht : NotNan t) (hf : NotNan f) :
    (∃ R, Ivl.ifElse (BoolSet.single b) (Ivl.ofVal t) (Ivl.ofVal f) = .ok R ∧ IsVal R (Scalar.ifElse b t f)) ∧
    (∃ R, Ivl.ifElseVV (BoolSet.single b) t f = .ok R ∧ IsVal R (Scalar.ifElse b t f)) ∧
    (∃ R, Ivl.assignFree Ivl.unassigned (Ivl.ofVal t) = .ok R ∧ IsVal R (Scalar.assign f t)) ∧
    (∃ R, Ivl.assignPartial Ivl.unassigned (Ivl.ofVal t) = .ok R ∧ IsVal R (Scalar.assignPartial f t)) ∧
    IsVal (Ivl.resetFree (Ivl.ofVal f) (Ivl.ofVal t)) (Scalar.reset f t) := by
  obtain ⟨Rt, h1, _, h2⟩ := assign_unassigned ht
  obtain ⟨Rf, h3, _, h4⟩ := assign_unassigned hf
  have key : ∃ R, Ivl.ifElse (BoolSet.single b) (Ivl.ofVal t) (Ivl.ofVal f) = .ok R ∧ IsVal R (Scalar.ifElse b t f) := by
    cases b
    · refine ⟨Rf, ?_, isVal_of h4⟩
      simp [Ivl.ifElse, h3, show BoolSet.possibly (BoolSet.single false) = false by decide, show BoolSet.possiblyNot (BoolSet.single false) = true by decide, pure, Except.pure]
    · refine ⟨Rt, ?_, isVal_of h2⟩
      simp [Ivl.ifElse, h1, show BoolSet.possibly (BoolSet.single true) = true by decide, show BoolSet.possiblyNot (BoolSet.single true) = false by decide, pure, Except.pure]
  have he : eq t t = true := by unfold NotNan at ht; grind
  refine ⟨key, key, ?_, ⟨Rt, h1, isVal_of h2⟩, isVal_of ⟨he, he⟩⟩
  refine ⟨Ivl.ofVal t, ?_, isVal_of ⟨he, he⟩⟩
  simp [Ivl.assignFree, Ivl.resetIvl, Ivl.resetFree, unassigned_assigned, ofVal_lo, ofVal_hi, pure, Except.pure]
  rfl

/-- C64: `merge` and `intersect` of copies of one value -/
theorem C64_merge (v : T) (hv : NotNan v) (n : Nat) :
    (∃ R, Ivl.merge (Ivl.ofVal v) (List.replicate n (Ivl.ofVal v)) = .ok R ∧ IsVal R (Scalar.merge v (List.replicate n v))) ∧
    (∃ R, Ivl.intersect (Ivl.ofVal v) (List.replicate n (Ivl.ofVal v)) = .ok R ∧ IsVal R (Scalar.intersect v (List.replicate n v))) := by
  have he : eq v v = true := by unfold NotNan at hv; grind
  constructor
  · refine ⟨Ivl.ofVal v, ?_, isVal_of ⟨he, he⟩⟩
    unfold Ivl.merge
    induction n with
    | zero => rfl
    | succ n ih =>
      rw [List.replicate_succ, Ivl.mergeLoop]
      simp only [Ivl.assign, ofVal_assigned, expects_true, ok_bind, pure, Except.pure, Ivl.assignCore]
      simpa [Ivl.ofVal, cmin_self, cmax_self] using ih
  · refine ⟨Ivl.ofVal v, ?_, isVal_of ⟨he, he⟩⟩
    unfold Ivl.intersect
    induction n with
    | zero => rfl
    | succ n ih =>
      rw [List.replicate_succ, Ivl.intersectLoop]
      have : Ivl.narrowInterval (Ivl.ofVal v) (Ivl.ofVal v) = .ok (Ivl.ofVal v) := by
        simp [Ivl.narrowInterval, ofVal_lo, ofVal_hi, cmin_self, cmax_self, unordered_self, Ivl.resetIvl, pure, Except.pure]
        rfl
      rw [this]; exact ih
variable [CppStep T]

/-- what the scalar call says about the interval call: the same value, or the same failure -/
def Follows (r : Outcome (Ivl T)) (s : Outcome T) : Prop := match s with
  | .ok v => ∃ R, r = .ok R ∧ IsVal R v
  | .error e => r = .error e

theorem matches_self (d : Bool) (id : Nat) (X : Ivl T) : (Operand.ident d id X).matchesId d id = true := by simp [Operand.matchesId]

theorem constrain_point_leq {d : Bool} {id : Nat} {x y : T} (dbg : Bool) (s : BoolSet) {O : Operand T} (hO : IsPoint O.arg y)
    (hid : O.matchesId d id = false) (hx : NotNan x) :
    (le x y = true → BoolSet.contains s true = true →
      ∃ R, constrain dbg d id (Ivl.ofVal x) (.leq s (.ident d id (Ivl.ofVal x)) O) = .ok R ∧ IsVal R x) ∧
    (le y x = true → BoolSet.contains s true = true →
      ∃ R, constrain dbg d id (Ivl.ofVal x) (.leq s O (.ident d id (Ivl.ofVal x))) = .ok R ∧ IsVal R x) := by
  unfold NotNan at hx
  constructor
  · intro h hs
    refine ⟨⟨x, cmin x y⟩, ?_, isVal_of ?_⟩
    · have : gt x (cmin x y) = false := by unfold CppVal.gt cmin; grind
      simp [constrain, detailConstrain, matches_self, hs, ofVal_lo, ofVal_hi, hO.hi, h, Ivl.make, this, pure, Except.pure]
    · simp only; unfold cmin; grind
  · intro h hs
    refine ⟨⟨cmax y x, x⟩, ?_, isVal_of ?_⟩
    · have : gt (cmax y x) x = false := by unfold CppVal.gt cmax; grind
      simp [constrain, detailConstrain, matches_self, hid, hs, ofVal_lo, ofVal_hi, hO.lo, h, Ivl.make, this, pure, Except.pure]
    · simp only; unfold cmax; grind

theorem constrain_point_less {d : Bool} {id : Nat} {x y : T} (hl : d = true → LawfulStep T) (dbg : Bool) (s : BoolSet) {O : Operand T}
    (hO : IsPoint O.arg y) (hd : O.disc = d) (hid : O.matchesId d id = false) (hx : NotNan x) :
    (lt x y = true → BoolSet.contains s true = true →
      ∃ R, constrain dbg d id (Ivl.ofVal x) (.less s (.ident d id (Ivl.ofVal x)) O) = .ok R ∧ IsVal R x) ∧
    (lt y x = true → BoolSet.contains s true = true →
      ∃ R, constrain dbg d id (Ivl.ofVal x) (.less s O (.ident d id (Ivl.ofVal x))) = .ok R ∧ IsVal R x) := by
  unfold NotNan at hx
  constructor
  · intro h hs
    obtain ⟨p, hp, h1⟩ : ∃ p, predStep d y = .ok p ∧ le x p = true := by
      cases d
      · exact ⟨y, by simp [predStep], by grind⟩
      · obtain ⟨p, hp, h1, _⟩ := (hl rfl).pred_of_lt x y h
        exact ⟨p, by simp [predStep, hp], h1⟩
    refine ⟨⟨x, cmin x p⟩, ?_, isVal_of ?_⟩
    · have : gt x (cmin x p) = false := by unfold CppVal.gt cmin; grind
      simp [constrain, detailConstrain, matches_self, hs, ofVal_lo, ofVal_hi, hO.hi, h, hd, hp, Ivl.make, this, pure, Except.pure]
    · simp only; unfold cmin; grind
  · intro h hs
    obtain ⟨p, hp, h1⟩ : ∃ p, succStep d y = .ok p ∧ le p x = true := by
      cases d
      · exact ⟨y, by simp [succStep], by grind⟩
      · obtain ⟨p, hp, h1, _⟩ := (hl rfl).succ_of_lt y x h
        exact ⟨p, by simp [succStep, hp], h1⟩
    refine ⟨⟨cmax p x, x⟩, ?_, isVal_of ?_⟩
    · have : gt (cmax p x) x = false := by unfold CppVal.gt cmax; grind
      simp [constrain, detailConstrain, matches_self, hid, hs, ofVal_lo, ofVal_hi, hO.lo, h, hd, hp, Ivl.make, this, pure, Except.pure]
    · simp only; unfold cmax; grind

/-- C64: `constrain(x, x op y)` and `constrain(x, y op x)` of an interval of one value: the same value if the comparison holds, a contract violation
otherwise — what the scalar overload does. -/
theorem C64_constrain {d : Bool} {id : Nat} {x y : T} (hl : d = true → LawfulStep T) (dbg : Bool) (op : CmpOp) {O : Operand T}
    (hO : IsPoint O.arg y) (hd : O.disc = d) (hid : O.matchesId d id = false) (hx : NotNan x) (hy : NotNan y) :
    (∃ c, buildCmp dbg op (.ident d id (Ivl.ofVal x)) O = .ok c ∧ Follows (constrain dbg d id (Ivl.ofVal x) c) (Scalar.constrain x (op.eval x y))) ∧
    (∃ c, buildCmp dbg op O (.ident d id (Ivl.ofVal x)) = .ok c ∧ Follows (constrain dbg d id (Ivl.ofVal x) c) (Scalar.constrain x (op.eval y x))) := by
  have hX : IsPoint (Operand.ident d id (Ivl.ofVal x)).arg x := .inr rfl
  have ct : BoolSet.contains (BoolSet.single true) true = true := by decide
  have cf : BoolSet.contains (BoolSet.single false) true = false := by decide
  have hxx := hx
  have hyy := hy
  obtain ⟨q1, q2, q3, q4, q5, q6⟩ := C64_compare dbg hX hO hx hy
  obtain ⟨p1, p2, p3, p4, p5, p6⟩ := C64_compare dbg hO hX hy hx
  unfold NotNan at hxx hyy
  have fail : ∀ (l r : Operand T), (l.matchesId d id = true ∨ r.matchesId d id = true) →
      constrain dbg d id (Ivl.ofVal x) (.leq (BoolSet.single false) l r) = .error .contract ∧
      constrain dbg d id (Ivl.ofVal x) (.less (BoolSet.single false) l r) = .error .contract ∧
      constrain dbg d id (Ivl.ofVal x) (.equal (BoolSet.single false) l r) = .error .contract ∧
      constrain dbg d id (Ivl.ofVal x) (.notEqual (BoolSet.single false) l r) = .error .contract := by
    intro l r h
    rcases h with h | h
    · simp [constrain, detailConstrain, h, cf]
    · cases h' : l.matchesId d id <;> simp [constrain, detailConstrain, h, h', cf]
  have hme : (Operand.ident d id (Ivl.ofVal x)).matchesId d id = true := by simp [Operand.matchesId]
  have f1 := fail (.ident d id (Ivl.ofVal x)) O (.inl hme)
  have f2 := fail O (.ident d id (Ivl.ofVal x)) (.inr hme)
  have same : ∀ c : Cond T, detailConstrain dbg d id (Ivl.ofVal x) c false false = .ok (Ivl.ofVal x, true) →
      ∃ R, constrain dbg d id (Ivl.ofVal x) c = .ok R ∧ IsVal R x := by
    intro c hc
    exact ⟨Ivl.ofVal x, by simp [constrain, hc, pure, Except.pure], isVal_of ⟨by simp only [ofVal_lo]; grind, by simp only [ofVal_hi]; grind⟩⟩
  have heq : ∀ l r : Operand T, (l.matchesId d id = true ∨ r.matchesId d id = true) → (IsPoint l.arg x ∧ IsPoint r.arg y ∨ IsPoint l.arg y ∧ IsPoint r.arg x) →
      eq x y = true → ∃ R, constrain dbg d id (Ivl.ofVal x) (.equal (BoolSet.single true) l r) = .ok R ∧ IsVal R x := by
    intro l r hm hp he
    have hm' : (l.matchesId d id || r.matchesId d id) = true := by simpa using hm
    rcases hp with ⟨h1, h2⟩ | ⟨h1, h2⟩
    · refine ⟨⟨cmax x y, cmin x y⟩, ?_, isVal_of ?_⟩
      · have g : gt (cmax x y) (cmin x y) = false := by unfold CppVal.gt cmax cmin; grind
        have g1 : (ge y x && le y x) = true := by unfold CppVal.ge; grind
        simp only [constrain, detailConstrain, hm', ct, if_true, h1.lo, h1.hi, h2.lo, h2.hi, g1, expectsDebug_true, ok_bind, Ivl.make, g,
          Bool.not_false, expects_true, pure, Except.pure]
      · simp only; unfold cmax cmin; grind
    · refine ⟨⟨cmax y x, cmin y x⟩, ?_, isVal_of ?_⟩
      · have g : gt (cmax y x) (cmin y x) = false := by unfold CppVal.gt cmax cmin; grind
        have g1 : (ge x y && le x y) = true := by unfold CppVal.ge; grind
        simp only [constrain, detailConstrain, hm', ct, if_true, h1.lo, h1.hi, h2.lo, h2.hi, g1, expectsDebug_true, ok_bind, Ivl.make, g,
          Bool.not_false, expects_true, pure, Except.pure]
      · simp only; unfold cmax cmin; grind
  have hne : ∀ l r : Operand T, (l.matchesId d id = true ∧ r.matchesId d id = false ∧ IsPoint l.arg x ∧ IsPoint r.arg y ∨
      l.matchesId d id = false ∧ r.matchesId d id = true ∧ IsPoint l.arg y ∧ IsPoint r.arg x) →
      ne x y = true → ∃ R, constrain dbg d id (Ivl.ofVal x) (.notEqual (BoolSet.single true) l r) = .ok R ∧ IsVal R x := by
    intro l r hp he
    apply same
    have e1 : ne x x = false := by unfold CppVal.ne; grind
    have e2 : ne y x = true := by unfold CppVal.ne at he ⊢; grind
    rcases hp with ⟨m1, m2, h1, h2⟩ | ⟨m1, m2, h1, h2⟩
    · simp [detailConstrain, m1, m2, ct, h1.lo, h1.hi, h2.lo, h2.hi, he, e1, pure, Except.pure]
    · simp [detailConstrain, m1, m2, ct, h1.lo, h1.hi, h2.lo, h2.hi, e2, e1, pure, Except.pure]
  have a1 := constrain_point_leq dbg (BoolSet.single true) hO hid hx (y := y)
  have a2 := constrain_point_less hl dbg (BoolSet.single true) hO hd hid hx (y := y)
  have sw1 : eq y x = eq x y := by rw [Bool.eq_iff_iff]; grind
  have sw2 : ne y x = ne x y := by unfold CppVal.ne; rw [sw1]
  cases op <;> simp only [buildCmp, condEq, condNe, condLt, condLe, condGt, condGe, q1, q2, q3, q4, q5, q6, p1, p2, p3, p4, p5, p6, ok_bind, pure, Except.pure,
    Except.ok.injEq, exists_eq_left', CmpOp.eval, sw1, sw2]
  · cases h : eq x y
    · exact ⟨f1.2.2.1, f2.2.2.1⟩
    · exact ⟨heq _ _ (.inl hme) (.inl ⟨hX, hO⟩) h, heq _ _ (.inr hme) (.inr ⟨hO, hX⟩) h⟩
  · cases h : ne x y
    · exact ⟨f1.2.2.2, f2.2.2.2⟩
    · exact ⟨hne _ _ (.inl ⟨hme, hid, hX, hO⟩) h, hne _ _ (.inr ⟨hid, hme, hO, hX⟩) h⟩
  · constructor
    · cases h : lt x y
      · exact f1.2.1
      · exact a2.1 h ct
    · cases h : lt y x
      · exact f2.2.1
      · exact a2.2 h ct
  · constructor
    · cases h : le x y
      · exact f1.1
      · exact a1.1 h ct
    · cases h : le y x
      · exact f2.1
      · exact a1.2 h ct
  · constructor
    · cases h : gt x y
      · exact f2.2.1
      · exact a2.2 h ct
    · cases h : gt y x
      · exact f1.2.1
      · exact a2.1 h ct
  · constructor
    · cases h : ge x y
      · exact f2.1
      · exact a1.2 h ct
    · cases h : ge y x
      · exact f1.1
      · exact a1.1 h ct
end generic
end Intervals.Props
