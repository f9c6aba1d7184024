import Verif.Model.Unsigned
import Verif.Spec.Unsigned
import Verif.Props.Mixed
import Verif.Props.ConstraintFails
/-!
# C98: scalars of unsigned integer type
-/
namespace Intervals.Props
open Intervals CppVal CppNum Spec
set_option linter.unusedSectionVars false
set_option linter.unusedSimpArgs false

section compare
variable {n m k : Nat}

theorem pow_lt_two {n m : Nat} (h : n < m) : (2:Int) * 2^n ≤ 2^m := by
  have := pow_le_pow_right₀ (show (1:Int) ≤ 2 by decide) (Nat.succ_le_of_lt h)
  rw [pow_succ] at this; omega

theorem toUnsigned_val (h : n < m) (v : SInt n) : (toUnsignedV m v).val = uval m v.val := by
  have h1 := v.ge; have h2 := v.le
  have h3 := pow_lt_two h
  have h4 : (0:Int) < 2^n := Int.pow_pos (by decide)
  simp only [toUnsignedV, UInt.wrap, uval]
  split
  · rw [← Int.add_emod_right, Int.emod_eq_of_lt (by omega) (by omega)]
  · rw [Int.emod_eq_of_lt (by omega) (by omega)]

section truth
variable {U V T : Type _} [CppVal U] [CppNum U] [CppVal V] [CppNum V] [CppVal T] [CppNum T] (cu : U → T) (cv : V → T)
theorem contains_ltM (l : Arg U) (r : Arg V) (b : Bool) :
    BoolSet.contains (compareLtM cu cv l r) b = if b then lt (cu l.lo) (cv r.hi) else ge (cu l.hi) (cv r.lo) := contains_pq _ _ b
theorem contains_leM (l : Arg U) (r : Arg V) (b : Bool) :
    BoolSet.contains (compareLeqM cu cv l r) b = if b then le (cu l.lo) (cv r.hi) else gt (cu l.hi) (cv r.lo) := contains_pq _ _ b
theorem contains_eqM (l : Arg U) (r : Arg V) (b : Bool) : BoolSet.contains (compareEqM cu cv l r) b =
    if b then (ge (cv r.hi) (cu l.lo) && le (cv r.lo) (cu l.hi)) else (ne (cu l.lo) (cv r.hi) || ne (cu l.hi) (cv r.lo)) := contains_pq _ _ b
theorem contains_neM (l : Arg U) (r : Arg V) (b : Bool) : BoolSet.contains (compareNeqM cu cv l r) b =
    if b then (ne (cu l.lo) (cv r.hi) || ne (cu l.hi) (cv r.lo)) else (ge (cv r.hi) (cu l.lo) && le (cv r.lo) (cu l.hi)) := contains_pq' _ _ b
end truth

/-- the comparisons of the numbers from `L` to `H` with `c` -/
theorem range_cmp {L H c : Int} (h : L ≤ H) (r : Bool) :
    ((if r then decide (L < c) else decide (c ≤ H)) = true ↔ ∃ v, L ≤ v ∧ v ≤ H ∧ decide (v < c) = r) ∧
    ((if r then decide (L ≤ c) else decide (c < H)) = true ↔ ∃ v, L ≤ v ∧ v ≤ H ∧ decide (v ≤ c) = r) ∧
    ((if r then decide (c < H) else decide (L ≤ c)) = true ↔ ∃ v, L ≤ v ∧ v ≤ H ∧ decide (c < v) = r) ∧
    ((if r then decide (c ≤ H) else decide (L < c)) = true ↔ ∃ v, L ≤ v ∧ v ≤ H ∧ decide (c ≤ v) = r) ∧
    ((if r then (decide (L ≤ c) && decide (c ≤ H)) else (!decide (L = c) || !decide (H = c))) = true ↔ ∃ v, L ≤ v ∧ v ≤ H ∧ decide (v = c) = r) ∧
    ((if r then (!decide (L = c) || !decide (H = c)) else (decide (L ≤ c) && decide (c ≤ H))) = true ↔ ∃ v, L ≤ v ∧ v ≤ H ∧ (!decide (v = c)) = r) := by
  refine ⟨?_, ?_, ?_, ?_, ?_, ?_⟩ <;> constructor
  all_goals cases r
  all_goals simp only [if_true, if_false, Bool.false_eq_true, decide_eq_true_eq, decide_eq_false_iff_not, Bool.and_eq_true, Bool.or_eq_true, Bool.not_eq_true',
    Bool.not_eq_false', not_lt, not_le]
  all_goals first
    | (intro h'; first
        | exact ⟨L, by omega, by omega, by omega⟩
        | exact ⟨H, by omega, by omega, by omega⟩
        | exact ⟨c, by omega, by omega, by omega⟩
        | (rcases h' with h' | h'
           · exact ⟨L, by omega, by omega, by omega⟩
           · exact ⟨H, by omega, by omega, by omega⟩))
    | (rintro ⟨v, h1, h2, h3⟩; omega)

/-- the six comparisons of an interval with a scalar, for any conversion that maps the points onto the numbers between the converted bounds -/
theorem cmpU_core {l0 h0 : Int} [CppNum (BInt l0 h0)] {cu : SInt n → BInt l0 h0} {cv : UInt m → BInt l0 h0} {f : Int → Int} (dbg : Bool) (X : Ivl (SInt n))
    (c : UInt m) (hX : X.lo.val ≤ X.hi.val) (el : (cu X.lo).val = f X.lo.val) (eh : (cu X.hi).val = f X.hi.val) (ec : (cv c).val = c.val)
    (um : ∀ a, X.lo.val ≤ a → a ≤ X.hi.val → f X.lo.val ≤ f a ∧ f a ≤ f X.hi.val)
    (us : ∀ v, f X.lo.val ≤ v → v ≤ f X.hi.val → ∃ a, X.lo.val ≤ a ∧ a ≤ X.hi.val ∧ f a = v) :
    (∃ R, opLtM cu cv dbg (.ivl X) (.scalar c) = .ok R ∧ ExactU iLt f X c R) ∧
    (∃ R, opLeM cu cv dbg (.ivl X) (.scalar c) = .ok R ∧ ExactU iLe f X c R) ∧
    (∃ R, opGtM cu cv dbg (.ivl X) (.scalar c) = .ok R ∧ ExactU iGt f X c R) ∧
    (∃ R, opGeM cu cv dbg (.ivl X) (.scalar c) = .ok R ∧ ExactU iGe f X c R) ∧
    (∃ R, opEqM cu cv dbg (.ivl X) (.scalar c) = .ok R ∧ ExactU iEq f X c R) ∧
    (∃ R, opNeM cu cv dbg (.ivl X) (.scalar c) = .ok R ∧ ExactU iNe f X c R) := by
  have a1 : (Arg.ivl X).assigned = true := properA_assigned (A := .ivl X) (decide_eq_true (p := X.lo.val ≤ X.hi.val) hX)
  have ul : f X.lo.val ≤ f X.hi.val := (um _ (le_refl _) hX).2
  generalize f X.lo.val = L at *
  generalize f X.hi.val = H at *
  have sc : (Arg.scalar c : Arg (UInt m)).assigned = true := rfl
  refine ⟨⟨_, by simp only [opLtM, a1, sc, Bool.and_self, expectsDebug_true, ok_bind]; rfl, ?_⟩,
    ⟨_, by simp only [opLeM, a1, sc, Bool.and_self, expectsDebug_true, ok_bind]; rfl, ?_⟩,
    ⟨_, by simp only [opGtM, a1, sc, Bool.and_self, expectsDebug_true, ok_bind]; rfl, ?_⟩,
    ⟨_, by simp only [opGeM, a1, sc, Bool.and_self, expectsDebug_true, ok_bind]; rfl, ?_⟩,
    ⟨_, by simp only [opEqM, a1, sc, Bool.and_self, expectsDebug_true, ok_bind]; rfl, ?_⟩,
    ⟨_, by simp only [opNeM, a1, sc, Bool.and_self, expectsDebug_true, ok_bind]; rfl, ?_⟩⟩
  all_goals intro r
  all_goals simp only [contains_ltM, contains_leM, contains_eqM, contains_neM, Arg.lo, Arg.hi, CppVal.lt, CppVal.le, CppVal.ge, CppVal.gt, CppVal.ne, CppVal.eq, el, eh, ec,
    iLt, iLe, iGt, iGe, iEq, iNe]
  all_goals (have := range_cmp (c := c.val) ul r)
  all_goals (have hr : ∀ p : Int → Prop, (∃ a, X.lo.val ≤ a ∧ a ≤ X.hi.val ∧ p (f a)) ↔ ∃ v, L ≤ v ∧ v ≤ H ∧ p v := fun p =>
    ⟨fun ⟨a, h1, h2, h3⟩ => ⟨_, (um a h1 h2).1, (um a h1 h2).2, h3⟩, fun ⟨v, h1, h2, h3⟩ => by
      obtain ⟨a, h4, h5, rfl⟩ := us v h1 h2; exact ⟨a, h4, h5, h3⟩⟩)
  · exact this.1.trans (hr (fun v => decide (v < c.val) = r)).symm
  · exact this.2.1.trans (hr (fun v => decide (v ≤ c.val) = r)).symm
  · exact this.2.2.1.trans (hr (fun v => decide (c.val < v) = r)).symm
  · exact this.2.2.2.1.trans (hr (fun v => decide (c.val ≤ v) = r)).symm
  · exact this.2.2.2.2.1.trans (hr (fun v => decide (v = c.val) = r)).symm
  · exact this.2.2.2.2.2.trans (hr (fun v => (!decide (v = c.val)) = r)).symm

/-- C98: comparisons with an unsigned scalar whose type has more bits than the type of the interval has value bits, so that the operands are compared as
unsigned numbers: `==`, `!=`, `<`, `<=`, `>`, `>=` contain the result for every point and nothing else if the points of the interval have the same sign.
Missing: intervals with -1 and 0 (`C98_violated`, `C98_mixed_sign`). -/
theorem C98_compare_partial (h : n < m) (dbg : Bool) (X : Ivl (SInt n)) (c : UInt m) (hX : X.lo.val ≤ X.hi.val) (hs : OneSign X) :
    (∃ R, opLtM (toUnsignedV m) (fun c => c) dbg (.ivl X) (.scalar c) = .ok R ∧ ExactU iLt (uval m) X c R) ∧
    (∃ R, opLeM (toUnsignedV m) (fun c => c) dbg (.ivl X) (.scalar c) = .ok R ∧ ExactU iLe (uval m) X c R) ∧
    (∃ R, opGtM (toUnsignedV m) (fun c => c) dbg (.ivl X) (.scalar c) = .ok R ∧ ExactU iGt (uval m) X c R) ∧
    (∃ R, opGeM (toUnsignedV m) (fun c => c) dbg (.ivl X) (.scalar c) = .ok R ∧ ExactU iGe (uval m) X c R) ∧
    (∃ R, opEqM (toUnsignedV m) (fun c => c) dbg (.ivl X) (.scalar c) = .ok R ∧ ExactU iEq (uval m) X c R) ∧
    (∃ R, opNeM (toUnsignedV m) (fun c => c) dbg (.ivl X) (.scalar c) = .ok R ∧ ExactU iNe (uval m) X c R) := by
  have h1 := X.lo.ge; have h2 := X.hi.le; have h3 := pow_lt_two h
  have h4 : (0:Int) < 2^n := Int.pow_pos (by decide)
  refine cmpU_core dbg X c hX (toUnsigned_val h X.lo) (toUnsigned_val h X.hi) rfl ?_ ?_
  · intro a ha hb; unfold uval; unfold OneSign at hs; split <;> split <;> split <;> omega
  · intro v hv hv'
    unfold OneSign at hs
    rcases hs with hs | hs
    · refine ⟨v, ?_, ?_, ?_⟩ <;> unfold uval at * <;> grind
    · refine ⟨v - 2^m, ?_, ?_, ?_⟩ <;> unfold uval at * <;> grind

/-- C98: comparisons with an unsigned scalar whose type is narrower, so that the operands are compared as signed numbers of the common type: the
comparisons contain the result for every point and nothing else. -/
theorem C98_compare_signed (hn : n ≤ k) (hm : m ≤ k) (dbg : Bool) (X : Ivl (SInt n)) (c : UInt m) (hX : X.lo.val ≤ X.hi.val) :
    (∃ R, opLtM (widenV hn) (ofUnsignedV hm) dbg (.ivl X) (.scalar c) = .ok R ∧ ExactU iLt (fun a => a) X c R) ∧
    (∃ R, opLeM (widenV hn) (ofUnsignedV hm) dbg (.ivl X) (.scalar c) = .ok R ∧ ExactU iLe (fun a => a) X c R) ∧
    (∃ R, opGtM (widenV hn) (ofUnsignedV hm) dbg (.ivl X) (.scalar c) = .ok R ∧ ExactU iGt (fun a => a) X c R) ∧
    (∃ R, opGeM (widenV hn) (ofUnsignedV hm) dbg (.ivl X) (.scalar c) = .ok R ∧ ExactU iGe (fun a => a) X c R) ∧
    (∃ R, opEqM (widenV hn) (ofUnsignedV hm) dbg (.ivl X) (.scalar c) = .ok R ∧ ExactU iEq (fun a => a) X c R) ∧
    (∃ R, opNeM (widenV hn) (ofUnsignedV hm) dbg (.ivl X) (.scalar c) = .ok R ∧ ExactU iNe (fun a => a) X c R) :=
  cmpU_core dbg X c hX rfl rfl rfl (fun _ h1 h2 => ⟨h1, h2⟩) (fun v h1 h2 => ⟨v, h1, h2, rfl⟩)

/-- the same on integers -/
theorem mixed_core {lo hi M c : Int} {u : Int → Int} (h0 : lo < 0) (h0' : 0 ≤ hi) (hM : hi < lo + M) (c1 : 0 ≤ c) (c2 : c ≤ M - 1)
    (wn : ∀ a, 0 ≤ a → u a = a) (wm : ∀ a, a < 0 → u a = a + M) :
    ((∀ a, lo ≤ a → a ≤ hi → (if decide (u a < c) then decide (lo + M < c) else decide (c ≤ hi)) = true) ↔ c = 0) ∧
    ((∀ a, lo ≤ a → a ≤ hi → (if decide (u a ≤ c) then decide (lo + M ≤ c) else decide (c < hi)) = true) ↔ c = M - 1) ∧
    ((∀ a, lo ≤ a → a ≤ hi → (if decide (c < u a) then decide (c < hi) else decide (lo + M ≤ c)) = true) ↔ c = M - 1) ∧
    ((∀ a, lo ≤ a → a ≤ hi → (if decide (c ≤ u a) then decide (c ≤ hi) else decide (lo + M < c)) = true) ↔ c = 0) ∧
    ((∀ a, lo ≤ a → a ≤ hi → (if decide (u a = c) then (decide (lo + M ≤ c) && decide (c ≤ hi)) else (!decide (lo + M = c) || !decide (hi = c))) = true) ↔
      hi < c ∧ c < lo + M) ∧
    ((∀ a, lo ≤ a → a ≤ hi → (if (!decide (u a = c)) then (!decide (lo + M = c) || !decide (hi = c)) else (decide (lo + M ≤ c) && decide (c ≤ hi))) = true) ↔
      hi < c ∧ c < lo + M) := by
  have w0 := wn 0 (le_refl _)
  have w1 := wm (-1) (by omega)
  refine ⟨⟨fun H => ?_, fun e a g1 g2 => ?_⟩, ⟨fun H => ?_, fun e a g1 g2 => ?_⟩, ⟨fun H => ?_, fun e a g1 g2 => ?_⟩, ⟨fun H => ?_, fun e a g1 g2 => ?_⟩,
    ⟨fun H => ?_, fun e a g1 g2 => ?_⟩, ⟨fun H => ?_, fun e a g1 g2 => ?_⟩⟩
  case refine_1 | refine_3 | refine_5 | refine_7 =>
    have H0 := H 0 (by omega) (by omega)
    have H1 := H (-1) (by omega) (by omega)
    rw [w0] at H0; rw [w1] at H1
    simp only [decide_eq_true_eq] at H0 H1
    split at H0 <;> split at H1 <;> simp only [decide_eq_true_eq] at H0 H1 <;> omega
  case refine_9 | refine_11 =>
    constructor
    · by_contra hc
      have H0 := H c (by omega) (by omega)
      rw [wn c c1] at H0
      simp at H0; omega
    · by_contra hc
      have H0 := H (c - M) (by omega) (by omega)
      rw [wm (c - M) (by omega)] at H0
      simp at H0; omega
  all_goals
    by_cases ha : a < 0
    · rw [wm a ha]; simp only [decide_eq_true_eq, Bool.not_eq_true', decide_eq_false_iff_not]; split <;> simp at * <;> omega
    · rw [wn a (by omega)]; simp only [decide_eq_true_eq, Bool.not_eq_true', decide_eq_false_iff_not]; split <;> simp at * <;> omega

/-- C98: what the comparisons return for an interval with negative and non-negative points, compared as unsigned numbers: the bounds are exchanged. -/
theorem C98_mixed_sign (h : n < m) (dbg : Bool) (X : Ivl (SInt n)) (c : UInt m) (h0 : X.lo.val < 0) (h0' : 0 ≤ X.hi.val) :
    (∃ R, opLtM (toUnsignedV m) (fun c => c) dbg (.ivl X) (.scalar c) = .ok R ∧
      (SoundU iLt (uval m) X c R ↔ c.val = 0) ∧ (R = BoolSet.empty ↔ X.hi.val < c.val ∧ c.val ≤ X.lo.val + 2^m)) ∧
    (∃ R, opLeM (toUnsignedV m) (fun c => c) dbg (.ivl X) (.scalar c) = .ok R ∧
      (SoundU iLe (uval m) X c R ↔ c.val = 2^m - 1) ∧ (R = BoolSet.empty ↔ X.hi.val ≤ c.val ∧ c.val < X.lo.val + 2^m)) ∧
    (∃ R, opGtM (toUnsignedV m) (fun c => c) dbg (.ivl X) (.scalar c) = .ok R ∧
      (SoundU iGt (uval m) X c R ↔ c.val = 2^m - 1) ∧ (R = BoolSet.empty ↔ X.hi.val ≤ c.val ∧ c.val < X.lo.val + 2^m)) ∧
    (∃ R, opGeM (toUnsignedV m) (fun c => c) dbg (.ivl X) (.scalar c) = .ok R ∧
      (SoundU iGe (uval m) X c R ↔ c.val = 0) ∧ (R = BoolSet.empty ↔ X.hi.val < c.val ∧ c.val ≤ X.lo.val + 2^m)) ∧
    (∃ R, opEqM (toUnsignedV m) (fun c => c) dbg (.ivl X) (.scalar c) = .ok R ∧
      (SoundU iEq (uval m) X c R ↔ X.hi.val < c.val ∧ c.val < X.lo.val + 2^m) ∧ R ≠ BoolSet.empty) ∧
    (∃ R, opNeM (toUnsignedV m) (fun c => c) dbg (.ivl X) (.scalar c) = .ok R ∧
      (SoundU iNe (uval m) X c R ↔ X.hi.val < c.val ∧ c.val < X.lo.val + 2^m) ∧ R ≠ BoolSet.empty) := by
  have a1 : (Arg.ivl X).assigned = true := properA_assigned (A := .ivl X) (decide_eq_true (p := X.lo.val ≤ X.hi.val) (by omega))
  have sc : (Arg.scalar c : Arg (UInt m)).assigned = true := rfl
  have h1 := X.lo.ge; have h2 := X.hi.le; have h3 := pow_lt_two h; have c1 := c.ge; have c2 := c.le
  have h4 : (0:Int) < 2^n := Int.pow_pos (by decide)
  have el : (toUnsignedV m X.lo).val = X.lo.val + 2^m := by rw [toUnsigned_val h, uval, if_pos h0]
  have eh : (toUnsignedV m X.hi).val = X.hi.val := by rw [toUnsigned_val h, uval, if_neg (by omega)]
  have emp : ∀ R : BoolSet, R = BoolSet.empty ↔ BoolSet.contains R true = false ∧ BoolSet.contains R false = false := by decide
  have wn : ∀ a, 0 ≤ a → uval m a = a := fun a ha => by unfold uval; rw [if_neg (by omega)]
  have wm : ∀ a, a < 0 → uval m a = a + 2^m := fun a ha => by unfold uval; rw [if_pos (by omega)]
  refine ⟨⟨_, by simp only [opLtM, a1, sc, Bool.and_self, expectsDebug_true, ok_bind]; rfl, ?_, ?_⟩,
    ⟨_, by simp only [opLeM, a1, sc, Bool.and_self, expectsDebug_true, ok_bind]; rfl, ?_, ?_⟩,
    ⟨_, by simp only [opGtM, a1, sc, Bool.and_self, expectsDebug_true, ok_bind]; rfl, ?_, ?_⟩,
    ⟨_, by simp only [opGeM, a1, sc, Bool.and_self, expectsDebug_true, ok_bind]; rfl, ?_, ?_⟩,
    ⟨_, by simp only [opEqM, a1, sc, Bool.and_self, expectsDebug_true, ok_bind]; rfl, ?_, ?_⟩,
    ⟨_, by simp only [opNeM, a1, sc, Bool.and_self, expectsDebug_true, ok_bind]; rfl, ?_, ?_⟩⟩
  all_goals simp only [SoundU, ne_eq, emp, contains_ltM, contains_leM, contains_eqM, contains_neM, Arg.lo, Arg.hi, CppVal.lt, CppVal.le, CppVal.ge, CppVal.gt, CppVal.ne, CppVal.eq, el, eh,
    iLt, iLe, iGt, iGe, iEq, iNe]
  all_goals (have mc := mixed_core (c := c.val) (M := 2^m) h0 h0' (by omega) c1 c2 wn wm)
  · exact mc.1
  · simp; omega
  · exact mc.2.1
  · simp; omega
  · exact mc.2.2.1
  · simp
  · exact mc.2.2.2.1
  · simp
  · exact mc.2.2.2.2.1
  · simp; omega
  · exact mc.2.2.2.2.2
  · simp; omega

/-- C98, the full claim for the comparisons with an unsigned scalar that are computed in an unsigned type: they contain the result for every point. -/
def C98_full : Prop := ∀ (n m : Nat) (dbg : Bool) (X : Ivl (SInt n)) (c : UInt m) (R : BoolSet), n < m → X.lo.val ≤ X.hi.val →
  opLtM (toUnsignedV m) (fun c => c) dbg (.ivl X) (.scalar c) = .ok R → SoundU iLt (uval m) X c R

/-- C98: `interval<int>{ -1, 3 } < 2u` is `{ false }`, although `0 < 2u`. -/
theorem C98_violated : ¬ C98_full := by
  intro h
  have := h 31 32 true ⟨i32 (-1), i32 3⟩ (UInt.wrap 32 2) (BoolSet.assign BoolSet.empty false) (by decide) (by decide) (by decide) 0 (by decide) (by decide)
  revert this; decide

/-- C98: `interval<int>{ -1, 3 } < 10u` is the empty set: neither `possibly(x < 10u)` nor `possibly(!(x < 10u))`, although `0 < 10u` and `!(-1 < 10u)`. -/
theorem C98_violated_empty : opLtM (toUnsignedV 32) (fun c => c) true (.ivl ⟨i32 (-1), i32 3⟩) (.scalar (UInt.wrap 32 10)) = .ok BoolSet.empty ∧
    iLt (uval 32 0) 10 = true ∧ iLt (uval 32 (-1)) 10 = false := by decide

example : OneSign (⟨i32 2, i32 7⟩ : Ivl (SInt 31)) ∧ (i32 2).val ≤ (i32 7).val ∧
    opLtM (toUnsignedV 64) (fun c => c) true (.ivl ⟨i32 2, i32 7⟩) (.scalar (UInt.wrap 64 5)) = .ok (BoolSet.assign (BoolSet.assign BoolSet.empty true) false) ∧
    opLtM (toUnsignedV 64) (fun c => c) true (.ivl ⟨i32 (-7), i32 (-2)⟩) (.scalar (UInt.wrap 64 5)) = .ok (BoolSet.assign BoolSet.empty false) := by
  refine ⟨Or.inl (by decide), by decide, by decide, by decide⟩

/-- C98_compare_signed: `interval<long long>{ -1, 3 } < 2u`; C98_mixed_sign: `interval<int>{ -1, 3 } == 10u`. -/
example : opLtM (T := SInt 63) (widenV (n := 63) (by decide)) (ofUnsignedV (m := 32) (by decide)) true (.ivl ⟨⟨-1, by decide, by decide⟩, ⟨3, by decide, by decide⟩⟩)
      (.scalar (UInt.wrap 32 2)) = .ok (BoolSet.assign (BoolSet.assign BoolSet.empty true) false) ∧
    opEqM (toUnsignedV 32) (fun c => c) true (.ivl ⟨i32 (-1), i32 3⟩) (.scalar (UInt.wrap 32 10)) = .ok (BoolSet.assign BoolSet.empty false) := by decide
end compare

section arith
variable {n m k : Nat}

/-- C98: the conversion of an unsigned type to a wider signed type is monotone and keeps signs. -/
theorem C98_to_signed (h : m ≤ k) : GoodCast (ofUnsignedV h) (fun _ => True) := by
  have hz : (CppNum.zero : UInt m).val = 0 := by simp [CppNum.zero, UInt.wrap]
  have hz' : (CppNum.zero : SInt k).val = 0 := rfl
  refine ⟨fun _ _ _ _ h => h, fun a _ => ?_, fun a _ => ?_, fun _ _ => rfl, fun _ _ => rfl, trivial, by simp [CppVal.le], by simp [CppVal.le]⟩
  · simp only [CppVal.le, hz, hz']; rfl
  · simp only [CppVal.le, hz, hz']; rfl

theorem properA_uscalar (c : UInt m) : ProperA (.scalar c : Arg (UInt m)) := by simp [ProperA, NotNan, CppVal.le]

/-- C98: sum, difference, product and quotient of an interval or value of a signed type and an unsigned scalar of a narrower type (`interval<long long>` and
`unsigned`), in either order: undefined behaviour if and only if some point operation is undefined in the common type; otherwise the result contains every
point result and its bounds are point results.  `c'` is the scalar as a number of the common type. -/
theorem C98_int (hn : n ≤ k) (hm : m ≤ k) (dbg : Bool) {X : Arg (SInt n)} (hX : Inhab X) (c : UInt m) (c' : SInt k) (hc : c'.val = c.val) :
    (ExactInt2M (fun a b => some (a + b)) X (.scalar c') (addM (widenV hn) (ofUnsignedV hm) dbg X (.scalar c)) ∧
     ExactInt2M (fun a b => some (a - b)) X (.scalar c') (subM (widenV hn) (ofUnsignedV hm) dbg X (.scalar c)) ∧
     ExactInt2M (fun a b => some (a * b)) X (.scalar c') (mulM (widenV hn) (ofUnsignedV hm) dbg X (.scalar c)) ∧
     ExactInt2M divInt X (.scalar c') (divM (widenV hn) (ofUnsignedV hm) dbg X (.scalar c))) ∧
    (ExactInt2M (fun a b => some (a + b)) (.scalar c') X (addM (ofUnsignedV hm) (widenV hn) dbg (.scalar c) X) ∧
     ExactInt2M (fun a b => some (a - b)) (.scalar c') X (subM (ofUnsignedV hm) (widenV hn) dbg (.scalar c) X) ∧
     ExactInt2M (fun a b => some (a * b)) (.scalar c') X (mulM (ofUnsignedV hm) (widenV hn) dbg (.scalar c) X) ∧
     ExactInt2M divInt (.scalar c') X (divM (ofUnsignedV hm) (widenV hn) dbg (.scalar c) X)) := by
  have ec : mapA (ofUnsignedV hm) (.scalar c) = mapA (widenV (le_refl k)) (.scalar c') := by
    simp only [mapA, Arg.scalar.injEq]; exact BInt.ext hc.symm
  have hs : Inhab (.scalar c' : Arg (SInt k)) := trivial
  have hX' := inhab_widen hn hX
  have hs' := inhab_widen (le_refl k) hs
  obtain ⟨e1, e2, e3, e4⟩ := C68_same_type (C68_int_to_int hn) (C98_to_signed hm) dbg (properA_of_inhab hX) (properA_uscalar c)
    ⟨trivial, trivial⟩ ⟨trivial, trivial⟩
  obtain ⟨f1, f2, f3, f4⟩ := C68_same_type (C98_to_signed hm) (C68_int_to_int hn) dbg (properA_uscalar c) (properA_of_inhab hX)
    ⟨trivial, trivial⟩ ⟨trivial, trivial⟩
  rw [e1, e2, e3, e4, f1, f2, f3, f4, ec]
  exact ⟨⟨exact2M_of hn _ (C25_add dbg _ _ hX' hs'), exact2M_of hn _ (C25_sub dbg _ _ hX' hs'), exact2M_of hn _ (C26_mul dbg _ _ hX' hs'),
    exact2M_of hn _ (C27_div dbg _ _ hX' hs')⟩, exact2M_of _ hn (C25_add dbg _ _ hs' hX'), exact2M_of _ hn (C25_sub dbg _ _ hs' hX'),
    exact2M_of _ hn (C26_mul dbg _ _ hs' hX'), exact2M_of _ hn (C27_div dbg _ _ hs' hX')⟩

example : subM (T := SInt 63) (widenV (n := 63) (by decide)) (ofUnsignedV (m := 32) (by decide)) true (.ivl ⟨⟨2, by decide, by decide⟩, ⟨5, by decide, by decide⟩⟩)
    (.scalar (UInt.wrap 32 7)) = .ok ⟨⟨-5, by decide, by decide⟩, ⟨-2, by decide, by decide⟩⟩ := by decide
end arith

section float
variable {K : Type} [Field K] [LinearOrder K] [IsStrictOrderedRing K]

/-- C98: the conversion of an unsigned type to a floating-point format that has `1` and `2^m` is monotone and keeps signs and finiteness. -/
theorem C98_to_float [F : Fmt K] {m : Nat} (hF : HasInts F m) : GoodCast (unsignedToFloatV (K := K) (m := m)) (fun _ => True) := by
  have g := C68_int_to_float (n := m) hF
  have gu := C98_to_signed (le_refl m)
  have e : ∀ a : UInt m, unsignedToFloatV (K := K) a = toFloatV (ofUnsignedV (le_refl m) a) := fun _ => rfl
  refine ⟨fun a b _ _ h => ?_, fun a _ => ?_, fun a _ => ?_, fun a _ => ?_, fun a _ => ?_, trivial, by simp [CppVal.le], by simp [zero_fl]⟩
  · rw [e, e]; exact g.mono _ _ trivial trivial (gu.mono _ _ trivial trivial h)
  · rw [e, g.le_zero _ trivial, gu.le_zero _ trivial]
  · rw [e, g.zero_le _ trivial, gu.zero_le _ trivial]
  · rw [e, g.ninf _ trivial, gu.ninf _ trivial]
  · rw [e, g.pinf _ trivial, gu.pinf _ trivial]

/-- C98: floating-point intervals and unsigned scalars: sum, difference and product are the NaN interval if and only if some point operation is indefinite;
otherwise they contain every point result and the bounds are point results; likewise the quotient by a non-zero scalar; the comparisons contain the result
for every point, the orderings nothing else. -/
theorem C98_float [F : Fmt K] {m : Nat} (hF : HasInts F m) (dbg : Bool) {X : Arg (Fl K)} (hX : ProperA X) (c : UInt m) :
    MixedExact2 (fun a b => Fl.add a (unsignedToFloatV b)) (fun _ => True) (fun _ => True) X (.scalar c) (addM (fun x => x) unsignedToFloatV dbg X (.scalar c)) ∧
    MixedExact2 (fun a b => Fl.sub a (unsignedToFloatV b)) (fun _ => True) (fun _ => True) X (.scalar c) (subM (fun x => x) unsignedToFloatV dbg X (.scalar c)) ∧
    MixedExact2 (fun a b => Fl.mul a (unsignedToFloatV b)) (fun _ => True) (fun _ => True) X (.scalar c) (mulM (fun x => x) unsignedToFloatV dbg X (.scalar c)) ∧
    (c.val ≠ 0 → MixedExact2 (fun a b => Fl.div a (unsignedToFloatV b)) (fun _ => True) (fun _ => True) X (.scalar c)
      (divM (fun x => x) unsignedToFloatV dbg X (.scalar c))) ∧
    (∃ R, opLtM (fun x => x) (unsignedToFloatV (K := K)) dbg X (.scalar c) = .ok R ∧ ExactCmpM (fun a b => lt a (unsignedToFloatV b)) (fun _ => True) (fun _ => True) X (.scalar c) R) ∧
    (∃ R, opLeM (fun x => x) (unsignedToFloatV (K := K)) dbg X (.scalar c) = .ok R ∧ ExactCmpM (fun a b => le a (unsignedToFloatV b)) (fun _ => True) (fun _ => True) X (.scalar c) R) ∧
    (∃ R, opGtM (fun x => x) (unsignedToFloatV (K := K)) dbg X (.scalar c) = .ok R ∧ ExactCmpM (fun a b => gt a (unsignedToFloatV b)) (fun _ => True) (fun _ => True) X (.scalar c) R) ∧
    (∃ R, opGeM (fun x => x) (unsignedToFloatV (K := K)) dbg X (.scalar c) = .ok R ∧ ExactCmpM (fun a b => ge a (unsignedToFloatV b)) (fun _ => True) (fun _ => True) X (.scalar c) R) ∧
    (∃ R, opEqM (fun x => x) (unsignedToFloatV (K := K)) dbg X (.scalar c) = .ok R ∧ SoundCmpM (fun a b => eq a (unsignedToFloatV b)) (fun _ => True) (fun _ => True) X (.scalar c) R) ∧
    (∃ R, opNeM (fun x => x) (unsignedToFloatV (K := K)) dbg X (.scalar c) = .ok R ∧ SoundCmpM (fun a b => ne a (unsignedToFloatV b)) (fun _ => True) (fun _ => True) X (.scalar c) R) := by
  have gi : GoodCast (fun x : Fl K => x) (fun _ => True) := C68_no_conversion (by simp [zero_fl])
  have gc := C98_to_float hF
  have hc := properA_uscalar c
  obtain ⟨a1, a2, a3⟩ := C68_float_add_sub_mul gi gc dbg hX hc ⟨trivial, trivial⟩ ⟨trivial, trivial⟩
  obtain ⟨b1, b2, b3, b4⟩ := C68_compare_exact gi gc dbg hX hc ⟨trivial, trivial⟩ ⟨trivial, trivial⟩
  obtain ⟨s1, s2, -⟩ := C68_compare_sound gi gc dbg hX hc ⟨trivial, trivial⟩ ⟨trivial, trivial⟩
  refine ⟨a1, a2, a3, fun h0 => C68_float_div_exact gi gc dbg hX hc ⟨trivial, trivial⟩ ⟨trivial, trivial⟩ ?_, b1, b2, b3, b4, s1, s2⟩
  intro h
  simp only [PtA, CppVal.le, decide_eq_true_eq, CppNum.zero, UInt.wrap, Int.zero_emod] at h
  have := of_decide_eq_true h.1
  have := c.ge
  omega

/-- C98_float: `interval<double>{ 1., 3. } / 2u` is `[0.5, 1.5]`. -/
example : letI := binary64Fmt
    divM (T := Fl ℚ) (fun x => x) (unsignedToFloatV (m := 32)) true (.ivl ⟨.num 1, .num 3⟩) (.scalar (UInt.wrap 32 2)) = .ok ⟨.num (1/2), .num (3/2)⟩ := by decide +kernel
end float

section flip
variable {U V T : Type} [CppVal U] [CppNum U] [CppVal V] [CppNum V] [CppVal T] [CppNum T] [CppOrder T]

/-- C98: with the operands exchanged, the comparisons are those of C98 with the relation turned round: `2u < x` is `x > 2u`. -/
theorem C98_flip (cu : U → T) (cv : V → T) (dbg : Bool) (x : Arg U) (c : Arg V) :
    opLtM cv cu dbg c x = opGtM cu cv dbg x c ∧ opLeM cv cu dbg c x = opGeM cu cv dbg x c ∧ opGtM cv cu dbg c x = opLtM cu cv dbg x c ∧
    opGeM cv cu dbg c x = opLeM cu cv dbg x c ∧ opEqM cv cu dbg c x = opEqM cu cv dbg x c ∧ opNeM cv cu dbg c x = opNeM cu cv dbg x c := by
  have ne_symm : ∀ a b : T, ne a b = ne b a := fun a b => by
    have h1 := CppOrder.eq_iff a b
    have h2 := CppOrder.eq_iff b a
    have : eq a b = eq b a := by rw [Bool.eq_iff_iff, h1, h2, and_comm]
    simp only [CppVal.ne, this]
  refine ⟨?_, ?_, ?_, ?_, ?_, ?_⟩
  · simp only [opLtM, opGtM, Bool.and_comm]
  · simp only [opLeM, opGeM, Bool.and_comm]
  · simp only [opLtM, opGtM, Bool.and_comm]
  · simp only [opLeM, opGeM, Bool.and_comm]
  · simp only [opEqM, compareEqM, CppVal.ge, Bool.and_comm c.assigned, ne_symm (cv _), Bool.and_comm (le (cv _) _), Bool.or_comm (ne (cu x.hi) _)]; rfl
  · simp only [opNeM, compareNeqM, CppVal.ge, Bool.and_comm c.assigned, ne_symm (cv _), Bool.and_comm (le (cv _) _), Bool.or_comm (ne (cu x.hi) _)]; rfl
end flip

section constrain
variable {m k : Nat}

theorem predU_val (c : UInt m) : (predU c).val = if c.val = 0 then 2^m - 1 else c.val - 1 := by
  have h1 := c.ge; have h2 := c.le
  have h0 : (0:Int) < 2^m := Int.pow_pos (by decide)
  simp only [predU, UInt.wrap]
  split
  · next h => rw [h, ← Int.add_emod_right, Int.emod_eq_of_lt (by omega) (by omega)]; omega
  · exact Int.emod_eq_of_lt (by omega) (by omega)
theorem succU_val (c : UInt m) : (succU c).val = if c.val = 2^m - 1 then 0 else c.val + 1 := by
  have h1 := c.ge; have h2 := c.le
  simp only [succU, UInt.wrap]
  split
  · next h => rw [h]; simp
  · exact Int.emod_eq_of_lt (by omega) (by omega)

/-- C98: `constrain(x, x < c)` for an interval of a signed type and an unsigned scalar of a narrower type: if the condition can hold, the result contains
every point that satisfies it, and only such points unless `c` is `0u` (missing, and false: `C98_constrain_violated`), whose predecessor is the largest number of its type; then nothing is removed but
points above that number.  If the condition cannot hold, a contract is violated. -/
theorem C98_constrain_lt_partial (h : m ≤ k) (dbg : Bool) (x : Ivl (SInt k)) (c : UInt m) (hx : x.lo.val ≤ x.hi.val) :
    (x.lo.val < c.val → ∃ R, constrainLtU (ofUnsignedV h) dbg x c = .ok R ∧
      (∀ a, x.lo.val ≤ a → a ≤ x.hi.val → a < c.val → R.lo.val ≤ a ∧ a ≤ R.hi.val) ∧
      (c.val ≠ 0 → ∀ a, R.lo.val ≤ a → a ≤ R.hi.val → x.lo.val ≤ a ∧ a ≤ x.hi.val ∧ a < c.val) ∧
      (c.val = 0 → R.lo = x.lo ∧ R.hi.val = min x.hi.val (2^m - 1))) ∧
    (c.val ≤ x.lo.val → constrainLtU (ofUnsignedV h) dbg x c = .error .contract) := by
  have a1 : (Arg.ivl x).assigned = true := properA_assigned (A := .ivl x) (decide_eq_true (p := x.lo.val ≤ x.hi.val) hx)
  have sc : (Arg.scalar (ofUnsignedV h c)).assigned = true := rfl
  have pv := predU_val c
  have h0 : (0:Int) < 2^m := Int.pow_pos (by decide)
  have c1 := c.ge
  have e : (ofUnsignedV h (predU c)).val = (predU c).val := rfl
  have ec : (ofUnsignedV h c).val = c.val := rfl
  constructor
  · intro hp
    have hR : constrainLtU (ofUnsignedV h) dbg x c = Ivl.make x.lo (cmin x.hi (ofUnsignedV h (predU c))) := by
      simp only [constrainLtU, opLt, a1, sc, Bool.and_self, expectsDebug_true, ok_bind, pure, Except.pure, contains_lt, Arg.lo, Arg.hi, CppVal.lt, if_true, ec, hp, decide_true]
    have hv : (cmin x.hi (ofUnsignedV h (predU c))).val = min x.hi.val (predU c).val := by
      unfold cmin; simp only [CppVal.lt, e, decide_eq_true_eq]; split <;> omega
    have hle : x.lo.val ≤ (cmin x.hi (ofUnsignedV h (predU c))).val := by rw [hv, pv]; split <;> omega
    refine ⟨_, hR.trans (make_of_le (by simpa [CppVal.le] using hle)), ?_, ?_, ?_⟩
    · intro a g1 g2 g3; refine ⟨g1, ?_⟩
      simp only [hv, pv]; split <;> omega
    · intro hc a g1 g2
      simp only [hv, pv, if_neg hc] at g2 ⊢; dsimp only at g1; omega
    · intro hc
      exact ⟨rfl, by simp only [hv, pv, if_pos hc]⟩
  · intro hp
    simp only [constrainLtU, opLt, a1, sc, Bool.and_self, expectsDebug_true, ok_bind, pure, Except.pure, contains_lt, Arg.lo, Arg.hi, CppVal.lt, if_true, ec,
      decide_eq_true_eq, if_neg (not_lt.mpr hp)]

/-- C98: `constrain(x, x > c)`, likewise: only points that satisfy the condition remain unless `c` is the largest number of its type, whose
successor is `0u` (missing, and false: `C98_constrain_violated`). -/
theorem C98_constrain_gt_partial (h : m ≤ k) (dbg : Bool) (x : Ivl (SInt k)) (c : UInt m) (hx : x.lo.val ≤ x.hi.val) :
    (c.val < x.hi.val → ∃ R, constrainGtU (ofUnsignedV h) dbg x c = .ok R ∧
      (∀ a, x.lo.val ≤ a → a ≤ x.hi.val → c.val < a → R.lo.val ≤ a ∧ a ≤ R.hi.val) ∧
      (c.val ≠ 2^m - 1 → ∀ a, R.lo.val ≤ a → a ≤ R.hi.val → x.lo.val ≤ a ∧ a ≤ x.hi.val ∧ c.val < a) ∧
      (c.val = 2^m - 1 → R.lo.val = max x.lo.val 0 ∧ R.hi = x.hi)) ∧
    (x.hi.val ≤ c.val → constrainGtU (ofUnsignedV h) dbg x c = .error .contract) := by
  have a1 : (Arg.ivl x).assigned = true := properA_assigned (A := .ivl x) (decide_eq_true (p := x.lo.val ≤ x.hi.val) hx)
  have sc : (Arg.scalar (ofUnsignedV h c)).assigned = true := rfl
  have pv := succU_val c
  have h0 : (0:Int) < 2^m := Int.pow_pos (by decide)
  have c1 := c.ge
  have e : (ofUnsignedV h (succU c)).val = (succU c).val := rfl
  have ec : (ofUnsignedV h c).val = c.val := rfl
  constructor
  · intro hp
    have hR : constrainGtU (ofUnsignedV h) dbg x c = Ivl.make (cmax (ofUnsignedV h (succU c)) x.lo) x.hi := by
      simp only [constrainGtU, opGt, a1, sc, Bool.and_self, expectsDebug_true, ok_bind, pure, Except.pure, contains_lt, Arg.lo, Arg.hi, CppVal.lt, if_true, ec, hp, decide_true]
    have hv : (cmax (ofUnsignedV h (succU c)) x.lo).val = max x.lo.val (succU c).val := by
      unfold cmax; simp only [CppVal.lt, e, decide_eq_true_eq]; split <;> omega
    have hle : (cmax (ofUnsignedV h (succU c)) x.lo).val ≤ x.hi.val := by rw [hv, pv]; split <;> omega
    refine ⟨_, hR.trans (make_of_le (by simpa [CppVal.le] using hle)), ?_, ?_, ?_⟩
    · intro a g1 g2 g3; refine ⟨?_, g2⟩
      simp only [hv, pv]; split <;> omega
    · intro hc a g1 g2
      simp only [hv, pv, if_neg hc] at g1 ⊢; dsimp only at g2; omega
    · intro hc
      exact ⟨by simp only [hv, pv, if_pos hc], rfl⟩
  · intro hp
    simp only [constrainGtU, opGt, a1, sc, Bool.and_self, expectsDebug_true, ok_bind, pure, Except.pure, contains_lt, Arg.lo, Arg.hi, CppVal.lt, if_true, ec,
      decide_eq_true_eq, if_neg (not_lt.mpr hp)]

/-- a `long long` literal -/
def i64 (v : Int) (h : -(2:Int)^63 ≤ v ∧ v ≤ 2^63 - 1 := by decide) : SInt 63 := ⟨v, h.1, h.2⟩

/-- C98: `constrain(x, x < 0u)` for `x = interval<long long>{ -5, 5 }` is `[-5, 5]`, `constrain(x, x > 4294967295u)` for `x = interval<long long>{ -5, 2^32 + 5 }` is
`[0, 2^32 + 5]`. -/
theorem C98_constrain_violated :
    constrainLtU (ofUnsignedV (m := 32) (by decide)) true ⟨i64 (-5), i64 5⟩ (UInt.wrap 32 0) = .ok ⟨i64 (-5), i64 5⟩ ∧
    constrainGtU (ofUnsignedV (m := 32) (by decide)) true ⟨i64 (-5), i64 (2^32 + 5)⟩ (UInt.wrap 32 (2^32 - 1)) = .ok ⟨i64 0, i64 (2^32 + 5)⟩ := by decide

example : constrainLtU (ofUnsignedV (m := 32) (by decide)) true ⟨i64 (-5), i64 5⟩ (UInt.wrap 32 3) = .ok ⟨i64 (-5), i64 2⟩ ∧
    constrainGtU (ofUnsignedV (m := 32) (by decide)) true ⟨i64 (-5), i64 5⟩ (UInt.wrap 32 3) = .ok ⟨i64 4, i64 5⟩ := by decide
end constrain

section constrainFloat
variable {K : Type} [Field K] [LinearOrder K] [IsStrictOrderedRing K]

/-- C98: `constrain(x, x < c)` for a floating-point interval and an unsigned scalar other than `0u` that is exact in the format, like its predecessor: every point
that satisfies the condition is kept if and only if `x` has no point strictly between `c - 1` and `c` (disagreement b). -/
theorem C98_constrain_float_iff [F : Fmt K] {m : Nat} (dbg : Bool) (x : Ivl (Fl K)) (c : UInt m) (hx : Proper x) (hc : c.val ≠ 0)
    (e1 : F.rnd (c.val : K) = .num (c.val : K)) (e2 : F.rnd ((c.val : K) - 1) = .num ((c.val : K) - 1)) :
    (∀ u, u ∈ᵢ x → lt u (.num (c.val : K)) = true → ∃ R, constrainLtU (unsignedToFloatV (K := K)) dbg x c = .ok R ∧ u ∈ᵢ R) ↔
    ¬ ∃ u, u ∈ᵢ x ∧ lt (.num ((c.val : K) - 1)) u = true ∧ lt u (.num (c.val : K)) = true := by
  have a1 : (Arg.ivl x).assigned = true := properA_assigned (A := .ivl x) hx
  have sc : ∀ v : Fl K, (Arg.scalar v).assigned = true := fun _ => rfl
  have ec : unsignedToFloatV (K := K) c = .num (c.val : K) := e1
  have ep : unsignedToFloatV (K := K) (predU c) = .num ((c.val : K) - 1) := by
    unfold unsignedToFloatV; rw [predU_val, if_neg hc]; push_cast; exact e2
  have hval : lt x.lo (.num (c.val : K)) = true →
      constrainLtU (unsignedToFloatV (K := K)) dbg x c = Ivl.make x.lo (cmin x.hi (.num ((c.val : K) - 1))) := by
    intro hp
    simp only [constrainLtU, opLt, a1, sc, Bool.and_self, expectsDebug_true, ok_bind, pure, Except.pure, contains_lt, Arg.lo, Arg.hi, if_true, ec, ep, hp]
  have hst : lt (Fl.num ((c.val : K) - 1)) (Fl.num (c.val : K)) = true := by rw [CppOrder.lt_iff]; simp
  unfold Proper at hx
  constructor
  · rintro H ⟨u, hu, h1, h2⟩
    obtain ⟨R, hR, hm⟩ := H u hu h2
    have hp : lt x.lo (.num (c.val : K)) = true := by unfold Pt at hu; grind
    rw [hval hp] at hR
    have hR' : R.hi = cmin x.hi (.num ((c.val : K) - 1)) := by
      unfold Ivl.make at hR
      simp only [expects] at hR
      split at hR <;> cases hR
      rfl
    have := hm.2
    rw [hR'] at this
    unfold cmin at this
    unfold Pt at hu
    clear hR H hval
    grind
  · intro H u hu h2
    have hp : lt x.lo (.num (c.val : K)) = true := by unfold Pt at hu; grind
    have hu1 : le u (.num ((c.val : K) - 1)) = true := by
      by_contra hcon
      apply H
      refine ⟨u, hu, ?_, h2⟩
      have nn : le (Fl.num ((c.val : K) - 1)) (Fl.num ((c.val : K) - 1)) = true := by simp
      unfold Pt at hu
      clear H hval
      grind
    rw [hval hp, make_of_le (by unfold Pt at hu; unfold cmin; clear H hval; grind)]
    refine ⟨_, rfl, ?_⟩
    unfold Pt at hu ⊢
    unfold cmin
    clear H hval
    grind

/-- C98: `constrain(x, x < 1u)` for `x = interval<double>{ 0., 2. }` is `[0, 0]`: 0.5 is lost. -/
theorem C98_constrain_float_violated : letI := binary64Fmt
    constrainLtU (unsignedToFloatV (K := ℚ) (m := 32)) true ⟨.num 0, .num 2⟩ (UInt.wrap 32 1) = .ok ⟨.num 0, .num 0⟩ := by decide +kernel
end constrainFloat
end Intervals.Props
