import Verif.Model.Elem
import Verif.Model.FltClass
import Verif.Model.Iter
import Verif.Spec.Set
import Verif.Props.Compare
/-!
# C50: with debug checks every use of an unassigned interval is a contract violation
-/
set_option linter.unusedSectionVars false
namespace Intervals.Props
open Intervals CppVal Spec

theorem expects_bad {α : Type _} (f : Unit → Outcome α) : (expectsDebug true false >>= f) = .error .contract := rfl

section generic
variable {T : Type _} [CppVal T] [CppNum T]

/-- C50: arithmetic and `min`/`max` with an unassigned operand -/
theorem C50_binary (X Y : Arg T) (h : X.assigned = false ∨ Y.assigned = false) :
    ∀ op ∈ [addI (T := T), subI, mulI, divI, minI, maxI], op true X Y = .error .contract := by
  have e : (X.assigned && Y.assigned) = false := by rcases h with h | h <;> simp [h]
  intro op hop
  simp only [List.mem_cons, List.not_mem_nil, or_false] at hop
  rcases hop with rfl | rfl | rfl | rfl | rfl | rfl
  · unfold addI; rw [e, expects_bad]
  · unfold subI; rw [e, expects_bad]
  · unfold mulI; rw [e, expects_bad]
  · unfold divI; rw [e, expects_bad]
  · unfold minI; rw [e, expects_bad]
  · unfold maxI; rw [e, expects_bad]

/-- C50: comparisons with an unassigned operand -/
theorem C50_compare [CppOrder T] (X Y : Arg T) (h : X.assigned = false ∨ Y.assigned = false) :
    ∀ op ∈ [opEq (T := T), opNe, opLt, opLe, opGt, opGe], op true X Y = .error .contract := by
  have := C11_unassigned_debug X Y h
  simpa using this

/-- C50: unary functions, `sgn`, products with a sign and the accessors -/
theorem C50_unary (X : Ivl T) (h : X.assigned = false) :
    (∀ op ∈ [plusI (T := T), negI, squareI, cubeI, absI], op true X = .error .contract) ∧
    sgnI true X = .error .contract ∧
    Ivl.lower true X = .error .contract ∧ Ivl.upper true X = .error .contract ∧
    Ivl.get0 true X = .error .contract ∧ Ivl.get1 true X = .error .contract ∧
    infimum true X = .error .contract ∧ supremum true X = .error .contract := by
  refine ⟨fun op hop => ?_, ?_, ?_, ?_, ?_, ?_, ?_, ?_⟩
  · simp only [List.mem_cons, List.not_mem_nil, or_false] at hop
    rcases hop with rfl | rfl | rfl | rfl | rfl
    · unfold plusI; rw [h, expects_bad]
    · unfold negI; rw [h, expects_bad]
    · unfold squareI; rw [h, expects_bad]
    · unfold cubeI; rw [h, expects_bad]
    · unfold absI; rw [h, expects_bad]
  · unfold sgnI; rw [h, expects_bad]
  · unfold Ivl.lower; rw [h, expects_bad]
  · unfold Ivl.upper; rw [h, expects_bad]
  · unfold Ivl.get0 Ivl.lower; rw [h, expects_bad]
  · unfold Ivl.get1 Ivl.upper; rw [h, expects_bad]
  · unfold infimum; rw [h, expects_bad]
  · unfold supremum; rw [h, expects_bad]

/-- C50: products with a sign (whose conversion to the value type is defined) -/
theorem C50_sign (s : Sign) (v : T) (hs : signVal s = .ok v) (X : Ivl T) (h : X.assigned = false) :
    signMulI true s X = .error .contract ∧ mulSignI true X s = .error .contract := by
  unfold signMulI mulSignI
  simp only [hs]
  exact ⟨C50_binary (.scalar v) (.ivl X) (.inr h) mulI (by simp), C50_binary (.ivl X) (.scalar v) (.inl h) mulI (by simp)⟩

/-- C50 for products with a set of signs.  Full statement: for every set.  It is false for `{zero}` and the empty set
(`C50_signset_violated`). -/
theorem C50_signset_partial [CppLimits T] (S : SignSet) (X : Ivl T) (h : X.assigned = false) (hS : SMem .pos S ∨ SMem .neg S) :
    signSetMulI true S X = .error .contract ∧ mulSignSetI true X S = .error .contract := by
  have key : signSetMulI true S X = .error .contract := by
    have en : negI true X = .error .contract := (C50_unary X h).1 negI (by simp)
    have ea : ∀ r : Ivl T, Ivl.assign r X = .error .contract := fun r => by unfold Ivl.assign; rw [h]; rfl
    unfold signSetMulI
    rcases hS with hS | hS
    · rw [show CSet.containsVal S .pos = .ok true from hS]
      simp only [ok_bind, if_true, ea]; rfl
    · rw [show CSet.containsVal S .neg = .ok true from hS]
      have : ∃ b, CSet.containsVal S .pos = .ok b := by revert S; decide
      obtain ⟨b, hb⟩ := this
      rw [hb]
      cases b
      · simp only [ok_bind, if_true, en, Bool.false_eq_true, if_false, pure_bind]; rfl
      · simp only [ok_bind, if_true, ea]; rfl
  exact ⟨key, key⟩

/-- The missing part is false throughout: in debug mode the product of an unassigned interval and a set without positive and negative sign returns `[0, 0]`
if the set contains zero and an unassigned interval if it is empty. -/
theorem C50_signset_fails [CppLimits T] [CppOrder T] [CppLawfulLimits T] (S : SignSet) (X : Ivl T) (h0 : le (CppNum.zero : T) CppNum.zero = true) (h1 : ¬ SMem .pos S) (h2 : ¬ SMem .neg S) :
    (¬ SMem .zero S → signSetMulI true S X = .ok Ivl.unassigned) ∧
    (SMem .zero S → ∃ R, signSetMulI true S X = .ok R ∧ eq R.lo CppNum.zero = true ∧ eq R.hi CppNum.zero = true) := by
  have hc : ∀ (S : SignSet) (s : Sign), ¬ SMem s S → CSet.containsVal S s = .ok false := by decide
  have e : signSetMulI true S X = (do
      let result ← if ← CSet.containsVal S .zero then pure (Ivl.assignVal Ivl.unassigned CppNum.zero) else pure Ivl.unassigned
      return result : Outcome (Ivl T)) := by
    unfold signSetMulI; rw [hc S .pos h1, hc S .neg h2]; rfl
  rw [e]
  refine ⟨fun h => by rw [hc S .zero h]; rfl, fun h => ?_⟩
  rw [show CSet.containsVal S .zero = .ok true from h]
  refine ⟨Ivl.assignVal Ivl.unassigned CppNum.zero, rfl, ?_⟩
  have a1 := CppLawfulLimits.le_top (CppNum.zero : T) h0
  have a2 := CppLawfulLimits.bot_le (CppNum.zero : T) h0
  have l1 := fun a b : T => CppOrder.lt_iff a b
  have l2 := fun a b : T => CppOrder.eq_iff a b
  have c1 : cmin (CppLimits.top : T) CppNum.zero = if lt (CppNum.zero : T) CppLimits.top then CppNum.zero else CppLimits.top := rfl
  have c2 : cmax (CppLimits.bot : T) CppNum.zero = if lt (CppLimits.bot : T) CppNum.zero then CppNum.zero else CppLimits.bot := rfl
  show eq (cmin (CppLimits.top : T) CppNum.zero) CppNum.zero = true ∧ eq (cmax (CppLimits.bot : T) CppNum.zero) CppNum.zero = true
  rw [c1, c2]
  constructor <;> split <;> grind

/-- C50 is false for `{zero}*X` and `∅*X` with an unassigned `X`: the results are `[0,0]` and unassigned. -/
theorem C50_signset_violated : (∃ R, signSetMulI (T := SInt 31) true (2#3) Ivl.unassigned = .ok R ∧ R.lo.val = 0 ∧ R.hi.val = 0) ∧
    signSetMulI (T := SInt 31) true (0#3) Ivl.unassigned = .ok Ivl.unassigned :=
  ⟨⟨⟨i32 0, i32 0⟩, by decide +kernel, rfl, rfl⟩, by decide +kernel⟩
end generic

section float
variable {K : Type} [Field K] [LinearOrder K] [Fmt K] [FloorRing K] [Libm K]

/-- C50: elementary functions and classification -/
theorem C50_elementary (X : Ivl (Fl K)) (h : X.assigned = false) :
    (∀ op ∈ [sqrtI (K := K), cbrtI, logI, expI, acosI, asinI, atanI, floorI, ceilI, roundI, fracI, cosI, sinI, tanI], op true X = .error .contract) ∧
    (∀ op ∈ [isInfI (K := K), isFiniteI, isNanI], op true X = .error .contract) := by
  have ei : isInfI true X = .error .contract := by unfold isInfI; rw [h, expects_bad]
  constructor
  · intro op hop
    simp only [List.mem_cons, List.not_mem_nil, or_false] at hop
    rcases hop with rfl | rfl | rfl | rfl | rfl | rfl | rfl | rfl | rfl | rfl | rfl | rfl | rfl | rfl
    · unfold sqrtI; rw [h, expects_bad]
    · unfold cbrtI; rw [h, expects_bad]
    · unfold logI; rw [h, expects_bad]
    · unfold expI; rw [h, expects_bad]
    · unfold acosI; rw [h, expects_bad]
    · unfold asinI; rw [h, expects_bad]
    · unfold atanI; rw [h, expects_bad]
    · unfold floorI; rw [h, expects_bad]
    · unfold ceilI; rw [h, expects_bad]
    · unfold roundI; rw [h, expects_bad]
    · unfold fracI; rw [h, expects_bad]
    · unfold cosI; rw [h, expects_bad]
    · unfold sinI; rw [C50_binary (.ivl X) _ (.inl h) subI (by simp)]; rfl
    · unfold tanI; rw [h, expects_bad]
  · intro op hop
    simp only [List.mem_cons, List.not_mem_nil, or_false] at hop
    rcases hop with rfl | rfl | rfl
    · exact ei
    · unfold isFiniteI; rw [ei]; rfl
    · unfold isNanI; rw [h, expects_bad]

/-- C50: functions of several intervals -/
theorem C50_elementary_binary (X Y : Arg (Fl K)) (h : X.assigned = false ∨ Y.assigned = false) :
    atan2I true X Y = .error .contract ∧ powI true X Y = .error .contract ∧ fractionalWeightsI true X Y = .error .contract := by
  have e : (X.assigned && Y.assigned) = false := by rcases h with h | h <;> simp [h]
  refine ⟨?_, ?_, ?_⟩
  · unfold atan2I; rw [e, expects_bad]
  · unfold powI; rw [e, expects_bad]
  · unfold fractionalWeightsI; rw [e, expects_bad]
theorem C50_blend (A B X Y : Arg (Fl K)) :
    (A.assigned = false ∨ X.assigned = false ∨ Y.assigned = false → blendFractionsI true A X Y = .error .contract) ∧
    (A.assigned = false ∨ B.assigned = false ∨ X.assigned = false ∨ Y.assigned = false → blendLinearI true A B X Y = .error .contract) := by
  constructor
  · intro h
    have e : (A.assigned && X.assigned && Y.assigned) = false := by rcases h with h | h | h <;> simp [h]
    unfold blendFractionsI; rw [e, expects_bad]
  · intro h
    have e : (A.assigned && B.assigned && X.assigned && Y.assigned) = false := by rcases h with h | h | h | h <;> simp [h]
    unfold blendLinearI; rw [e, expects_bad]
end float

section iter
variable {n m : Nat}
/-- C50: iterator arithmetic and indexing -/
theorem C50_iter (X Y : Arg (Iter n)) (D : Arg (SInt m)) :
    (X.assigned = false ∨ D.assigned = false →
      iterAddI true X D = .error .contract ∧ addIterI true D X = .error .contract ∧ iterSubI true X D = .error .contract) ∧
    (X.assigned = false ∨ Y.assigned = false → iterDiffI m true X Y = .error .contract) := by
  refine ⟨fun h => ?_, fun h => ?_⟩
  · have e : (X.assigned && D.assigned) = false := by rcases h with h | h <;> simp [h]
    have e' : (D.assigned && X.assigned) = false := by rcases h with h | h <;> simp [h]
    refine ⟨?_, ?_, ?_⟩
    · unfold iterAddI; rw [e, expects_bad]
    · unfold addIterI; rw [e', expects_bad]
    · unfold iterSubI; rw [e, expects_bad]
  · have e : (X.assigned && Y.assigned) = false := by rcases h with h | h <;> simp [h]
    unfold iterDiffI; rw [e, expects_bad]
theorem C50_index {V : Type} [CppVal V] [CppLimits V] (read : Iter n → Outcome V) (x : Ivl (Iter n)) (D : Arg (SInt m))
    (h : x.assigned = false ∨ D.assigned = false) : indexI true read x D = .error .contract := by
  unfold indexI
  rw [((C50_iter (.ivl x) (.ivl x) D).1 h).1]; rfl

/-- `prev` and `next` contain no debug check, but never return a result for an unassigned interval in either mode. -/
theorem C50_step (x : Ivl (Iter n)) (h : x.assigned = false) (R : Ivl (Iter n)) : prevI x ≠ .ok R ∧ nextI x ≠ .ok R := by
  have h' : x.hi.val < x.lo.val := by simpa [Ivl.assigned, CppVal.gt, CppVal.lt] using h
  have of : ∀ v : Int, BInt.ofInt 0 n v = .error .ub ∨ ∃ r : Iter n, BInt.ofInt 0 n v = .ok r ∧ r.val = v := fun v => by
    unfold BInt.ofInt; split
    · exact .inr ⟨_, rfl, rfl⟩
    · exact .inl rfl
  have mk : ∀ a b : Iter n, b.val < a.val → Ivl.make a b = .error .contract := fun a b hab => by
    simp [Ivl.make, CppVal.gt, CppVal.lt, hab]
  constructor
  · unfold prevI Iter.pred
    rcases of (x.lo.val - 1) with e | ⟨r, e, hr⟩
    · rw [e]; intro h; cases h
    rcases of (x.hi.val - 1) with e' | ⟨r', e', hr'⟩
    · rw [e, e']; intro h; cases h
    · rw [e, e', ok_bind, ok_bind, mk _ _ (by omega)]; intro h; cases h
  · unfold nextI Iter.succ
    rcases of (x.lo.val + 1) with e | ⟨r, e, hr⟩
    · rw [e]; intro h; cases h
    rcases of (x.hi.val + 1) with e' | ⟨r', e', hr'⟩
    · rw [e, e']; intro h; cases h
    · rw [e, e', ok_bind, ok_bind, mk _ _ (by omega)]; intro h; cases h
end iter

/-! An unassigned interval. -/
example : (Ivl.unassigned : Ivl (SInt 31)).assigned = false := by decide
end Intervals.Props
