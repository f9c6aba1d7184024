import Verif.Lemmas.Pow
import Verif.Spec.FltPow
import Verif.Props.Pow
/-!
# C41: pow of intervals in any floating-point format, with any operands
-/
set_option linter.unusedSectionVars false
set_option linter.unusedSimpArgs false
namespace Intervals.PowF
open Intervals CppVal Spec Fl

variable {K : Type} [Field K] [LinearOrder K] [IsStrictOrderedRing K] [Fmt K] [FloorRing K] [Libm K]

theorem eq_sym {a b : Fl K} (h : CppVal.eq a b = true) : CppVal.eq b a = true := by
  rw [CppOrder.eq_iff] at *; exact h.symm
theorem eq_trans {a b c : Fl K} (h : CppVal.eq a b = true) (h' : CppVal.eq b c = true) : CppVal.eq a c = true := by
  rw [CppOrder.eq_iff] at *; exact ⟨CppOrder.le_trans _ _ _ h.1 h'.1, CppOrder.le_trans _ _ _ h'.2 h.2⟩
theorem mem_eq {R : Ivl (Fl K)} {a b : Fl K} (h : CppVal.eq a b = true) (ha : a ∈ᵢ R) : b ∈ᵢ R := by
  rw [CppOrder.eq_iff] at h; exact ⟨CppOrder.le_trans _ _ _ ha.1 h.1, CppOrder.le_trans _ _ _ h.2 ha.2⟩

theorem mul0_congr {y l l' : Fl K} (hy : y ≠ nan) (h : CppVal.eq l l' = true) : CppVal.eq (multiply0 y l) (multiply0 y l') = true := by
  rw [CppOrder.eq_iff] at *
  rcases sign_cases (notNan_iff.mpr hy) with c | c
  · exact ⟨mul0_mono c h.1, mul0_mono c h.2⟩
  · exact ⟨mul0_anti c h.2, mul0_anti c h.1⟩

theorem mul_zero_isZero {a b : Fl K} (h : isZero a = true ∨ isZero b = true) (hn : mul a b ≠ nan) : isZero (mul a b) = true := by
  rcases h with h | h <;> cases a <;> cases b <;> simp [mul, isNan, isInf, isZero, signBit, val, infS, zeroS] at h hn ⊢
  all_goals first
    | (subst h; simp [Fmt.rnd_zero])
    | skip
  all_goals (repeat' split) <;> simp_all
  all_goals (repeat' split at *) <;> simp_all
  all_goals exact absurd ‹_ < _› (not_lt.mpr ‹_›)

theorem mul0_spec {y l : Fl K} (hy : y ≠ nan) (hl : l ≠ nan) :
    CppVal.eq (multiply0 y l) (if y.isZero || l.isZero then .num 0 else Fl.mul y l) = true := by
  rw [multiply0_eq hy hl]
  by_cases h : y.isZero = true ∨ l.isZero = true
  · have c : (y.isZero || l.isZero) = true := by simpa using h
    rw [if_pos c]
    by_cases hn : mul y l = nan
    · rw [if_pos hn, CppOrder.eq_iff]; simp
    · rw [if_neg hn, eq_zero_iff]; exact mul_zero_isZero h hn
  · have hn : mul y l ≠ nan := by
      rw [Ne, mul_eq_nan hy hl]; rintro (⟨-, h'⟩ | ⟨h', -⟩)
      · exact h (.inr h')
      · exact h (.inl h')
    rw [if_neg hn, if_neg (by simpa using h), CppOrder.eq_iff]
    exact ⟨notNan_iff.mpr hn, notNan_iff.mpr hn⟩

/-- the program on points -/
def powC (x y : Fl K) : Fl K := Libm.exp (multiply0 y (Libm.log (cmax (.num 0) x)))

theorem powC_eqv (hl : LogMono K) (he : ExpMono K) {x x' y : Fl K} (h : CppVal.eq (cmax (.num 0) x) x' = true) (hx : le x x = true) (hy : y ≠ nan) :
    CppVal.eq (powC x y) (powPt x' y) = true := by
  have hc := cmax_zero_nonneg hx
  have e := (CppOrder.eq_iff _ _).mp h
  have hx' := CppOrder.le_trans _ _ _ hc e.1
  have l : CppVal.eq (Libm.log (cmax (.num 0) x)) (Libm.log x') = true := (CppOrder.eq_iff _ _).mpr ⟨hl _ _ hc hx' e.1, hl _ _ hx' hc e.2⟩
  have ln : Libm.log x' ≠ nan := ne_nan_of_le_right ((CppOrder.eq_iff _ _).mp l).1
  have m := (CppOrder.eq_iff _ _).mp (eq_trans (mul0_congr hy l) (mul0_spec hy ln))
  exact (CppOrder.eq_iff _ _).mpr ⟨he _ _ m.1, he _ _ m.2⟩

theorem cmax_zero_of_nonneg {x : Fl K} (h : le (.num 0) x = true) : CppVal.eq (cmax (.num 0) x) x = true := by
  have z0 : le (Fl.num (0:K)) (.num 0) = true := by simp
  rw [CppOrder.eq_iff]; unfold cmax; split <;> grind
theorem cmax_zero_of_nonpos {x : Fl K} (h : le x (.num 0) = true) : CppVal.eq (cmax (.num 0) x) (.num 0) = true := by
  have z0 : le (Fl.num (0:K)) (.num 0) = true := by simp
  rw [CppOrder.eq_iff]; unfold cmax; split <;> grind

theorem powPos_img (hl : LogMono K) (he : ExpMono K) (dbg : Bool) {P : Fl K → Prop} {X Y : Arg (Fl K)} (hX : Img P X) (hY : ProperA Y) :
    ∃ S, (∀ {α : Type} (f : Arg (Fl K) → Outcome α), (max0A dbg X >>= fun m => logA dbg m >>= fun l => multiply0A Y l >>= fun p => expA dbg p >>= f) = f S) ∧
      Img (fun v => ∃ x y, P x ∧ y ∈ₐ Y ∧ v = powC x y) S := by
  obtain ⟨S0, e0, i0⟩ := max0A_img dbg hX.proper
  have i0' : Img (fun v => ∃ x, P x ∧ v = cmax (.num 0) x) S0 := by
    have l : S0.lo = cmax (.num 0) X.lo ∧ S0.hi = cmax (.num 0) X.hi := by
      cases X with
      | scalar x => cases e0; exact ⟨rfl, rfl⟩
      | ivl x =>
        have := make_ok_of_le (cmax_zero_mono (show le x.lo x.hi = true from hX.proper))
        simp only [max0A, maxI, assigned_of_proper hX.proper, show (Arg.scalar (Fl.num 0 : Fl K)).assigned = true from rfl, Bool.and_self,
          expectsDebug_true, ok_bind, Arg.lo, Arg.hi, this] at e0
        cases e0; exact ⟨rfl, rfl⟩
    exact hX.map (fun a b _ _ h => cmax_zero_mono h) l.1 l.2
  obtain ⟨x0, hx0, ex0⟩ := i0'.lo
  have p0 : le (.num 0) S0.lo = true := by
    rw [ex0]; exact cmax_zero_nonneg (by have := mem_bounds.mp (hX.mem _ hx0); grind)
  obtain ⟨S1, e1, i1⟩ := logA_img hl dbg i0' p0
  obtain ⟨S2, e2, i2⟩ := multiply0A_img hY i1
  obtain ⟨S3, e3, i3⟩ := expA_img he dbg i2
  refine ⟨S3, fun f => by rw [e0, ok_bind, e1, ok_bind, e2, ok_bind, e3, ok_bind], i3.proper, ?_, ?_, ?_⟩
  · rintro v ⟨x, y, hx, hy, rfl⟩
    exact i3.mem _ ⟨_, ⟨y, _, hy, ⟨_, ⟨x, hx, rfl⟩, rfl⟩, rfl⟩, rfl⟩
  · obtain ⟨_, ⟨y, _, hy, ⟨_, ⟨x, hx, rfl⟩, rfl⟩, rfl⟩, e⟩ := i3.lo
    exact ⟨x, y, hx, hy, e⟩
  · obtain ⟨_, ⟨y, _, hy, ⟨_, ⟨x, hx, rfl⟩, rfl⟩, rfl⟩, e⟩ := i3.hi
    exact ⟨x, y, hx, hy, e⟩

theorem possibly_geA (dbg : Bool) {X : Arg (Fl K)} (h : ProperA X) :
    ∃ R, geA dbg X zeroA = .ok R ∧ BoolSet.possibly R = le (.num 0) X.hi := by
  cases X with
  | scalar v =>
    refine ⟨_, rfl, ?_⟩
    rcases Bool.eq_false_or_eq_true (le (.num 0) v) with h0 | h0 <;> simp [CppVal.ge, h0, Arg.hi] <;> decide
  | ivl x =>
    refine ⟨compareLeq zeroA (.ivl x), ?_, ?_⟩
    · simp only [geA, opGe, zeroA, assigned_of_proper h]; simp [Arg.assigned]
    · simp only [compareLeq, show (zeroA : Arg (Fl K)).lo = .num 0 from rfl]
      generalize CppVal.gt (zeroA : Arg (Fl K)).hi (Arg.ivl x).lo = b
      rcases Bool.eq_false_or_eq_true (le (.num 0) (Arg.ivl x).hi) with h0 | h0 <;> cases b <;> simp [h0] <;> decide

theorem possibly_ltA (dbg : Bool) {X : Arg (Fl K)} (h : ProperA X) :
    ∃ R, ltA dbg X zeroA = .ok R ∧ BoolSet.possibly R = lt X.lo (.num 0) := by
  cases X with
  | scalar v =>
    refine ⟨_, rfl, ?_⟩
    rcases Bool.eq_false_or_eq_true (lt v (.num 0)) with h0 | h0 <;> simp [h0, Arg.lo] <;> decide
  | ivl x =>
    refine ⟨compareLt (.ivl x) zeroA, ?_, ?_⟩
    · simp only [ltA, opLt, zeroA, assigned_of_proper h]; simp [Arg.assigned]
    · simp only [compareLt, show (zeroA : Arg (Fl K)).hi = .num 0 from rfl]
      generalize CppVal.ge (Arg.ivl x).hi (zeroA : Arg (Fl K)).lo = b
      rcases Bool.eq_false_or_eq_true (lt (Arg.ivl x).lo (.num 0)) with h0 | h0 <;> cases b <;> simp [h0] <;> decide

theorem assignA_ok {r : Ivl (Fl K)} {S : Arg (Fl K)} (h : ProperA S) : assignA r S = .ok (Ivl.assignCore r S.lo S.hi) := by
  cases S with
  | scalar v => rfl
  | ivl x => simp only [assignA, Ivl.assign, show x.assigned = true from assigned_of_proper (X := .ivl x) h]; rfl

theorem assignCore_unassigned {l u : Fl K} (h : le l u = true) : Ivl.assignCore Ivl.unassigned l u = ⟨l, u⟩ := by
  have h1 : cmin (CppLimits.top : Fl K) l = l := by
    unfold cmin
    split
    · rfl
    · next hc =>
      have nl := CppOrder.le_left _ _ h
      have : le (CppLimits.top : Fl K) l = true := by
        have t : le (CppLimits.top : Fl K) CppLimits.top = true := by simp [CppLimits.top]
        grind
      cases l <;> simp [CppLimits.top] at this; rfl
  have h2 : cmax (CppLimits.bot : Fl K) u = u := by
    unfold cmax
    split
    · rfl
    · next hc =>
      have nu := CppOrder.le_right _ _ h
      have : le u (CppLimits.bot : Fl K) = true := by
        have t : le (CppLimits.bot : Fl K) CppLimits.bot = true := by simp [CppLimits.bot]
        grind
      cases u <;> simp [CppLimits.bot] at this; rfl
  simp only [Ivl.assignCore, Ivl.unassigned, h1, h2]

/-- the part of `pow` for a base that may be negative, after the non-negative part -/
theorem powI_neg (hl : LogMono K) (he : ExpMono K) (dbg : Bool) {X Y : Arg (Fl K)} (hX : ProperA X) (hY : ProperA Y) (hneg : lt X.lo (.num 0) = true) :
    ∃ r : Ivl (Fl K), ((le (.num 0) X.hi = true → ∃ S, Img (fun v => ∃ x y, x ∈ₐ X ∧ y ∈ₐ Y ∧ v = powC x y) S ∧ r = ⟨S.lo, S.hi⟩) ∧
        (le (.num 0) X.hi = false → r = Ivl.unassigned)) ∧
      powI dbg X Y = (do
        let yi ← toLongLong Y.lo
        if eq Y.lo Y.hi && eq (ofLongLong yi) Y.lo then
          let sign : Fl K := if yi % 2 = 0 then .num 1 else .num (-1)
          assignA r (← signMulA dbg sign (← expA dbg (← multiply0A (.scalar Y.lo) (← logA dbg (← max0A dbg (← negA dbg X))))))
        else
          nanInterval) := by
  obtain ⟨S, eS, iS⟩ := powPos_img hl he dbg (Img.self hX) hY
  obtain ⟨G, eG, hG⟩ := possibly_geA dbg hX
  obtain ⟨L, eL, hL⟩ := possibly_ltA dbg hX
  rcases Bool.eq_false_or_eq_true (le (.num 0) X.hi) with h0 | h0
  · refine ⟨⟨S.lo, S.hi⟩, ⟨fun _ => ⟨S, iS, rfl⟩, fun h => absurd (h0.symm.trans h) (by decide)⟩, ?_⟩
    unfold powI
    rw [assigned_of_proper hX, assigned_of_proper hY, Bool.and_self, expectsDebug_true, ok_bind, eG, ok_bind, hG, eL]
    simp only [h0, if_true, ok_bind, hL, hneg]
    rw [eS, assignA_ok iS.proper, assignCore_unassigned (proper_le iS.proper)]; rfl
  · refine ⟨Ivl.unassigned, ⟨fun h => absurd (h0.symm.trans h) (by decide), fun _ => rfl⟩, ?_⟩
    unfold powI
    rw [assigned_of_proper hX, assigned_of_proper hY, Bool.and_self, expectsDebug_true, ok_bind, eG, ok_bind, hG, eL]
    simp only [h0, Bool.false_eq_true, if_false, if_true, ok_bind, hL, hneg, pure_bind]

theorem mul_pm_ne {s v : Fl K} (hs : s = .num 1 ∨ s = .num (-1)) (hv : v ≠ nan) : mul s v ≠ nan := by
  rw [Ne, mul_eq_nan (by rcases hs with rfl | rfl <;> simp) hv]
  rcases hs with rfl | rfl <;> simp [isInf, isZero]

theorem mul_pm_mono {s : Fl K} (hs : s = .num 1 ∨ s = .num (-1)) :
    (∀ a b : Fl K, le a b = true → le (Fl.mul s a) (Fl.mul s b) = true) ∨ (∀ a b : Fl K, le a b = true → le (Fl.mul s b) (Fl.mul s a) = true) := by
  rcases hs with rfl | rfl
  · refine .inl fun a b h => ?_
    have h1 := mul_pm_ne (s := (.num 1 : Fl K)) (.inl rfl) (ne_nan_of_le_left h)
    have h2 := mul_pm_ne (s := (.num 1 : Fl K)) (.inl rfl) (ne_nan_of_le_right h)
    rw [Fl.mul_comm'] at h1 h2
    rw [Fl.mul_comm' _ a, Fl.mul_comm' _ b]
    exact Fl.mul_mono (by simp) h h1 h2
  · refine .inr fun a b h => ?_
    have h1 := mul_pm_ne (s := (.num (-1) : Fl K)) (.inr rfl) (ne_nan_of_le_left h)
    have h2 := mul_pm_ne (s := (.num (-1) : Fl K)) (.inr rfl) (ne_nan_of_le_right h)
    rw [Fl.mul_comm'] at h1 h2
    rw [Fl.mul_comm' _ a, Fl.mul_comm' _ b]
    exact Fl.mul_anti (by simp) h h1 h2

theorem mul_pm_congr {s a b : Fl K} (hs : s = .num 1 ∨ s = .num (-1)) (h : CppVal.eq a b = true) : CppVal.eq (Fl.mul s a) (Fl.mul s b) = true := by
  rw [CppOrder.eq_iff] at *
  rcases mul_pm_mono hs with m | m
  · exact ⟨m _ _ h.1, m _ _ h.2⟩
  · exact ⟨m _ _ h.2, m _ _ h.1⟩

theorem signMulA_img (dbg : Bool) {P : Fl K → Prop} {R : Arg (Fl K)} (h : Img P R) {s : Fl K} (hs : s = .num 1 ∨ s = .num (-1)) :
    ∃ S, signMulA dbg s R = .ok S ∧ Img (fun v => ∃ u, P u ∧ v = Fl.mul s u) S := by
  have nn : ∀ {u}, u ∈ₐ R → u ≠ .nan := fun {u} hu => ne_nan_of_le_right (mem_bounds.mp hu).1
  have l := lo_mem h.proper; have r := hi_mem h.proper
  have dir := mul_pm_mono hs
  have sn : ∀ a, a ∈ₐ R → NotNan (Fl.mul s a) := fun a ha => notNan_iff.mpr (mul_pm_ne hs (nn ha))
  have betw : ∀ a, a ∈ₐ R → Betw (Fl.mul s R.lo) (Fl.mul s R.hi) (Fl.mul s a) := by
    intro a ha
    have hb := mem_bounds.mp ha
    apply betw_cases
    rcases dir with d | d
    · exact .inl ⟨d _ _ hb.1, d _ _ hb.2⟩
    · exact .inr ⟨d _ _ hb.2, d _ _ hb.1⟩
  cases R with
  | scalar v =>
    refine ⟨_, rfl, ⟨sn v l, ?_, ⟨_, h.lo, rfl⟩, ⟨_, h.lo, rfl⟩⟩⟩
    rintro w ⟨u, hu, rfl⟩
    have := betw u (h.mem u hu)
    simpa [Betw, Arg.lo, Arg.hi, PtA] using this
  | ivl x =>
    obtain ⟨Q, e, hQ⟩ := hull2_ok (sn _ l) (sn _ r)
    have hc := hQ.2.2
    have q1 := hQ.1; have q2 := hQ.2.1
    simp only [List.mem_cons, List.not_mem_nil, or_false, forall_eq_or_imp, forall_eq] at hc q1 q2
    have hi : ∀ v, (∃ u, P u ∧ v = Fl.mul s u) → v ∈ᵢ Q := by
      rintro v ⟨u, hu, rfl⟩
      have := betw u (h.mem u hu)
      obtain ⟨t1, t2⟩ := this
      refine ⟨?_, ?_⟩
      · rcases t1 with t | t
        exacts [CppOrder.le_trans _ _ _ hc.1.1 t, CppOrder.le_trans _ _ _ hc.2.1 t]
      · rcases t2 with t | t
        exacts [CppOrder.le_trans _ _ _ t hc.1.2, CppOrder.le_trans _ _ _ t hc.2.2]
    have a1 : ∃ u, P u ∧ Q.lo = Fl.mul s u := by
      rcases q1 with e | e
      exacts [⟨_, h.lo, e⟩, ⟨_, h.hi, e⟩]
    have a2 : ∃ u, P u ∧ Q.hi = Fl.mul s u := by
      rcases q2 with e | e
      exacts [⟨_, h.lo, e⟩, ⟨_, h.hi, e⟩]
    refine ⟨.ivl Q, ?_, ⟨(hi _ a1).2, hi, a1, a2⟩⟩
    have hz : isNegInf s = false ∧ isPosInf s = false ∧ eq s (.num 0) = false := by
      rw [eq_zero_iff]
      refine ⟨by rw [Bool.eq_false_iff, Ne, isNegInf_iff]; rcases hs with rfl | rfl <;> simp,
        by rw [Bool.eq_false_iff, Ne, isPosInf_iff]; rcases hs with rfl | rfl <;> simp, by rcases hs with rfl | rfl <;> simp [isZero]⟩
    simp only [signMulA, mulI, assigned_of_proper (X := .ivl x) h.proper]
    have z : (CppNum.zero : Fl K) = .num 0 := rfl
    simp only [Arg.assigned, Bool.and_self, expectsDebug_true, ok_bind, Arg.lo, Arg.hi, Arg.contains, z, hz.1, hz.2.1, hz.2.2, Bool.or_self, Bool.false_and,
      Bool.and_false, Bool.false_eq_true, if_false, CppNum.mul]
    rw [show hull2 (Fl.mul s x.lo) (Fl.mul s x.hi) = _ from e]; rfl
end Intervals.PowF

namespace Intervals.Props
open Intervals CppVal Spec Fl PowF

variable {K : Type} [Field K] [LinearOrder K] [IsStrictOrderedRing K] [Fmt K] [FloorRing K] [Libm K]

/-- C41 in every format, for a non-negative base, with finite or infinite bounds: `pow(X, Y)` is the exact range of `x ^ y` as computed on numbers. -/
theorem C41_float_nonneg (hl : LogMono K) (he : ExpMono K) (dbg : Bool) (X Y : Arg (Fl K)) (hX : ProperA X) (hY : ProperA Y) (pos : le (.num 0) X.lo = true) :
    ∃ R, powI dbg X Y = .ok R ∧ (∀ x y, x ∈ₐ X → y ∈ₐ Y → powPt x y ∈ᵢ R) ∧
      (∃ x y, x ∈ₐ X ∧ y ∈ₐ Y ∧ eq R.lo (powPt x y) = true) ∧ (∃ x y, x ∈ₐ X ∧ y ∈ₐ Y ∧ eq R.hi (powPt x y) = true) := by
  obtain ⟨S, eS, iS⟩ := PowF.powPos_img hl he dbg (PowF.Img.self hX) hY
  obtain ⟨G, eG, hG⟩ := PowF.possibly_geA dbg hX
  obtain ⟨L, eL, hL⟩ := PowF.possibly_ltA dbg hX
  have h0 : le (.num 0) X.hi = true := CppOrder.le_trans _ _ _ pos (proper_le hX)
  have h1 : lt X.lo (.num 0) = false := by
    rw [Bool.eq_false_iff, Ne, CppOrder.lt_iff]; simp [pos]
  have spec : ∀ {x y}, x ∈ₐ X → y ∈ₐ Y → CppVal.eq (PowF.powC x y) (powPt x y) = true := fun {x y} hx hy => by
    have hx' := mem_bounds.mp hx
    have p : le (.num 0) x = true := CppOrder.le_trans _ _ _ pos hx'.1
    exact powC_eqv hl he (cmax_zero_of_nonneg p) (CppOrder.le_right _ _ p) (ne_nan_of_le_right (mem_bounds.mp hy).1)
  refine ⟨⟨S.lo, S.hi⟩, ?_, ?_, ?_, ?_⟩
  · unfold powI
    rw [assigned_of_proper hX, assigned_of_proper hY, Bool.and_self, expectsDebug_true, ok_bind, eG, ok_bind, hG, eL]
    simp only [h0, if_true, ok_bind, hL, h1, Bool.false_eq_true, if_false]
    rw [eS, PowF.assignA_ok iS.proper, PowF.assignCore_unassigned (proper_le iS.proper)]; rfl
  · intro x y hx hy
    exact mem_eq (spec hx hy) (mem_bounds.mp (iS.mem _ ⟨_, _, hx, hy, rfl⟩))
  · obtain ⟨x, y, hx, hy, e⟩ := iS.lo
    exact ⟨_, _, hx, hy, by rw [show (Ivl.mk S.lo S.hi).lo = S.lo from rfl, e]; exact spec hx hy⟩
  · obtain ⟨x, y, hx, hy, e⟩ := iS.hi
    exact ⟨_, _, hx, hy, by rw [show (Ivl.mk S.lo S.hi).hi = S.hi from rfl, e]; exact spec hx hy⟩

theorem toLongLong_int {y : Fl K} {n : ℤ} (hn : -2^63 ≤ n ∧ n < 2^63) (hf : isFinite y = true) (hv : y.val = n) : toLongLong y = .ok n := by
  cases y <;> simp [isFinite] at hf
  · simp only [val] at hv
    have : n = 0 := by exact_mod_cast hv.symm
    subst this; rfl
  · simp only [val] at hv; subst hv
    have t : truncInt (n : K) = n := by
      unfold truncInt; split
      · rw [← Int.cast_neg, Int.floor_intCast, neg_neg]
      · exact Int.floor_intCast n
    simp only [toLongLong, t]; rw [if_pos hn]

/-- C41 in every format, for a base that may be negative and a single integer exponent `n` of type `long long`: the result contains `x ^ n` for all points `x` of
the base, where `x ^ n = (-1)^n * (-x) ^ n` for negative `x`, and both bounds are such powers. -/
theorem C41_float_integer_partial (hl : LogMono K) (he : ExpMono K) (dbg : Bool) (X Y : Arg (Fl K)) (hX : ProperA X) (hY : ProperA Y) (neg : lt X.lo (.num 0) = true)
    (n : ℤ) (hn : -2^63 ≤ n ∧ n < 2^63) (hf : isFinite Y.lo = true) (hv : Y.lo.val = n) (hs : eq Y.lo Y.hi = true) (hr : eq (Fmt.rnd (n : K)) Y.lo = true) :
    ∃ R, powI dbg X Y = .ok R ∧
      (∀ x, x ∈ₐ X → (le (.num 0) x = true → powPt x Y.lo ∈ᵢ R) ∧ (le x (.num 0) = true → Fl.mul (signPow n) (powPt (Fl.neg x) Y.lo) ∈ᵢ R)) ∧
      (∃ x, x ∈ₐ X ∧ (le (.num 0) x = true ∧ eq R.lo (powPt x Y.lo) = true ∨ le x (.num 0) = true ∧ eq R.lo (Fl.mul (signPow n) (powPt (Fl.neg x) Y.lo)) = true)) ∧
      (∃ x, x ∈ₐ X ∧ (le (.num 0) x = true ∧ eq R.hi (powPt x Y.lo) = true ∨ le x (.num 0) = true ∧ eq R.hi (Fl.mul (signPow n) (powPt (Fl.neg x) Y.lo)) = true)) := by
  obtain ⟨r, ⟨hr1, hr2⟩, e⟩ := PowF.powI_neg hl he dbg hX hY neg
  have z0 : le (Fl.num (0:K)) (.num 0) = true := by simp
  have nyl : Y.lo ≠ nan := ne_nan_of_le_left (proper_le hY)
  have sg : (if n % 2 = 0 then .num 1 else .num (-1) : Fl K) = signPow n := by simp only [signPow, Int.even_iff]
  have hsg : (signPow n : Fl K) = .num 1 ∨ (signPow n : Fl K) = .num (-1) := by unfold signPow; split <;> simp
  obtain ⟨N, eN, iN⟩ := PowF.negA_img dbg hX
  obtain ⟨T, eT, iT⟩ := PowF.powPos_img hl he dbg iN (Y := .scalar Y.lo) (notNan_iff.mpr nyl)
  obtain ⟨U, eU, iU⟩ := PowF.signMulA_img dbg iT hsg
  rw [e, toLongLong_int hn hf hv, ok_bind, if_pos (by simp [hs, show eq (ofLongLong n) Y.lo = true from hr]), sg, eN, ok_bind, eT, eU, ok_bind,
    PowF.assignA_ok iU.proper]
  refine ⟨_, rfl, ?_⟩
  -- points of the second part
  have neg0 : CppVal.eq (cmax (.num 0) (.num 0 : Fl K)) (Fl.neg (.num 0)) = true := by
    rw [CppOrder.eq_iff]; simp [cmax, Fl.neg, lt]
  have part2 : ∀ v, (∃ u, (∃ x y, (∃ w, w ∈ₐ X ∧ x = Fl.neg w) ∧ y ∈ₐ (.scalar Y.lo : Arg (Fl K)) ∧ u = PowF.powC x y) ∧ v = Fl.mul (signPow n) u) →
      ∃ x, x ∈ₐ X ∧ le x (.num 0) = true ∧ eq v (Fl.mul (signPow n) (powPt (Fl.neg x) Y.lo)) = true := by
    rintro v ⟨u, ⟨x, y, ⟨w, hw, rfl⟩, hy, rfl⟩, rfl⟩
    have hwb := mem_bounds.mp hw
    have nw := CppOrder.le_right _ _ hwb.1
    have nnw : le (Fl.neg w) (Fl.neg w) = true := Fl.neg_anti nw
    -- the exponent is the scalar up to equality
    have hye : CppVal.eq Y.lo y = true := (CppOrder.eq_iff _ _).mpr (mem_bounds.mp hy)
    have ny : y ≠ nan := ne_nan_of_le_right ((CppOrder.eq_iff _ _).mp hye).1
    have hp : CppVal.eq (PowF.powC (Fl.neg w) y) (PowF.powC (Fl.neg w) Y.lo) = true := by
      have hc := cmax_zero_nonneg nnw
      have lnn := hl _ _ hc hc (CppOrder.le_right _ _ hc)
      have ln := ne_nan_of_le_left lnn
      have m : CppVal.eq (multiply0 y (Libm.log (cmax (.num 0) (Fl.neg w)))) (multiply0 Y.lo (Libm.log (cmax (.num 0) (Fl.neg w)))) = true := by
        rw [multiply0_comm ny ln, multiply0_comm nyl ln]; exact mul0_congr ln (eq_sym hye)
      have m := (CppOrder.eq_iff _ _).mp m
      exact (CppOrder.eq_iff _ _).mpr ⟨he _ _ m.1, he _ _ m.2⟩
    rcases sign_cases nw with c | c
    · refine ⟨.num 0, mem_bounds.mpr ⟨?_, CppOrder.le_trans _ _ _ c hwb.2⟩, z0, mul_pm_congr hsg (eq_trans hp ?_)⟩
      · have := (CppOrder.lt_iff _ _).mp neg; grind
      · have hnw : le (Fl.neg w) (.num 0) = true := by
          have := Fl.neg_anti c; rw [show Fl.neg (.num 0 : Fl K) = .nzero by simp [Fl.neg], le_nzero_iff] at this; exact this
        refine powC_eqv hl he (eq_trans (cmax_zero_of_nonpos hnw) ?_) nnw nyl
        rw [CppOrder.eq_iff]; simp [Fl.neg]
    · refine ⟨w, hw, c, mul_pm_congr hsg (eq_trans hp (powC_eqv hl he (cmax_zero_of_nonneg ?_) nnw nyl))⟩
      have := Fl.neg_anti c; rw [show Fl.neg (.num 0 : Fl K) = .nzero by simp [Fl.neg], nzero_le_iff] at this; exact this
  have mem2 : ∀ x, x ∈ₐ X → le x (.num 0) = true → Fl.mul (signPow n) (powPt (Fl.neg x) Y.lo) ∈ₐ U := by
    intro x hx hx0
    have nnx : le (Fl.neg x) (Fl.neg x) = true := Fl.neg_anti (CppOrder.le_left _ _ hx0)
    have hp : CppVal.eq (Fl.mul (signPow n) (PowF.powC (Fl.neg x) Y.lo)) (Fl.mul (signPow n) (powPt (Fl.neg x) Y.lo)) = true := by
      refine mul_pm_congr hsg (powC_eqv hl he (cmax_zero_of_nonneg ?_) nnx nyl)
      have := Fl.neg_anti hx0; rw [show Fl.neg (.num 0 : Fl K) = .nzero by simp [Fl.neg], nzero_le_iff] at this; exact this
    have := iU.mem _ ⟨_, ⟨_, Y.lo, ⟨x, hx, rfl⟩, ⟨notNan_iff.mpr nyl, notNan_iff.mpr nyl⟩, rfl⟩, rfl⟩
    rw [mem_bounds] at this ⊢
    have hp := (CppOrder.eq_iff _ _).mp hp
    exact ⟨CppOrder.le_trans _ _ _ this.1 hp.1, CppOrder.le_trans _ _ _ hp.2 this.2⟩
  rcases Bool.eq_false_or_eq_true (le (.num 0) X.hi) with h0 | h0
  · obtain ⟨S, iS, rfl⟩ := hr1 h0
    have part1 : ∀ v, (∃ x y, x ∈ₐ X ∧ y ∈ₐ Y ∧ v = PowF.powC x y) → ∃ x, x ∈ₐ X ∧ le (.num 0) x = true ∧ eq v (powPt x Y.lo) = true := by
      rintro v ⟨x, y, hx, hy, rfl⟩
      have hxb := mem_bounds.mp hx
      have nx := CppOrder.le_right _ _ hxb.1
      have hyb := mem_bounds.mp hy
      have hs' := (CppOrder.eq_iff _ _).mp hs
      have hye : CppVal.eq Y.lo y = true := (CppOrder.eq_iff _ _).mpr ⟨hyb.1, CppOrder.le_trans _ _ _ hyb.2 hs'.2⟩
      have ny : y ≠ nan := ne_nan_of_le_right hyb.1
      have hp : CppVal.eq (PowF.powC x y) (PowF.powC x Y.lo) = true := by
        have hc := cmax_zero_nonneg nx
        have lnn := hl _ _ hc hc (CppOrder.le_right _ _ hc)
        have ln := ne_nan_of_le_left lnn
        have m : CppVal.eq (multiply0 y (Libm.log (cmax (.num 0) x))) (multiply0 Y.lo (Libm.log (cmax (.num 0) x))) = true := by
          rw [multiply0_comm ny ln, multiply0_comm nyl ln]; exact mul0_congr ln (eq_sym hye)
        have m := (CppOrder.eq_iff _ _).mp m
        exact (CppOrder.eq_iff _ _).mpr ⟨he _ _ m.1, he _ _ m.2⟩
      rcases sign_cases nx with c | c
      · exact ⟨x, hx, c, eq_trans hp (powC_eqv hl he (cmax_zero_of_nonneg c) nx nyl)⟩
      · refine ⟨.num 0, mem_bounds.mpr ⟨CppOrder.le_trans _ _ _ hxb.1 c, h0⟩, z0, eq_trans hp (powC_eqv hl he (cmax_zero_of_nonpos c) nx nyl)⟩
    have mem1 : ∀ x, x ∈ₐ X → le (.num 0) x = true → powPt x Y.lo ∈ₐ S := by
      intro x hx hx0
      have hp := (CppOrder.eq_iff _ _).mp (powC_eqv hl he (cmax_zero_of_nonneg hx0) (CppOrder.le_right _ _ hx0) nyl)
      have := mem_bounds.mp (iS.mem _ ⟨x, Y.lo, hx, lo_mem hY, rfl⟩)
      exact mem_bounds.mpr ⟨CppOrder.le_trans _ _ _ this.1 hp.1, CppOrder.le_trans _ _ _ hp.2 this.2⟩
    have pS := proper_le iS.proper; have pU := proper_le iU.proper
    have lo1 := cmin_le (CppOrder.le_left _ _ pS) (CppOrder.le_left _ _ pU)
    have hi1 := le_cmax (CppOrder.le_right _ _ pS) (CppOrder.le_right _ _ pU)
    simp only [Ivl.assignCore]
    refine ⟨fun x hx => ⟨fun h => ?_, fun h => ?_⟩, ?_, ?_⟩
    · have := mem_bounds.mp (mem1 x hx h)
      exact ⟨CppOrder.le_trans _ _ _ lo1.1 this.1, CppOrder.le_trans _ _ _ this.2 hi1.1⟩
    · have := mem_bounds.mp (mem2 x hx h)
      exact ⟨CppOrder.le_trans _ _ _ lo1.2 this.1, CppOrder.le_trans _ _ _ this.2 hi1.2⟩
    · rcases cmin_or S.lo U.lo with c | c
      · obtain ⟨x, hx, h1, h2⟩ := part1 _ iS.lo
        exact ⟨x, hx, .inl ⟨h1, by rw [c]; exact h2⟩⟩
      · obtain ⟨x, hx, h1, h2⟩ := part2 _ iU.lo
        exact ⟨x, hx, .inr ⟨h1, by rw [c]; exact h2⟩⟩
    · rcases cmax_or S.hi U.hi with c | c
      · obtain ⟨x, hx, h1, h2⟩ := part1 _ iS.hi
        exact ⟨x, hx, .inl ⟨h1, by rw [c]; exact h2⟩⟩
      · obtain ⟨x, hx, h1, h2⟩ := part2 _ iU.hi
        exact ⟨x, hx, .inr ⟨h1, by rw [c]; exact h2⟩⟩
  · rw [hr2 h0, PowF.assignCore_unassigned (proper_le iU.proper)]
    refine ⟨fun x hx => ⟨fun h => ?_, fun h => mem_bounds.mp (mem2 x hx h)⟩, ?_, ?_⟩
    · exact absurd (h0.symm.trans (CppOrder.le_trans _ _ _ h (mem_bounds.mp hx).2)) (by decide)
    · obtain ⟨x, hx, h1, h2⟩ := part2 _ iU.lo
      exact ⟨x, hx, .inr ⟨h1, h2⟩⟩
    · obtain ⟨x, hx, h1, h2⟩ := part2 _ iU.hi
      exact ⟨x, hx, .inr ⟨h1, h2⟩⟩

theorem toLongLong_range {y : Fl K} (hf : isFinite y = true) (hr : -2^63 - 1 < y.val ∧ y.val < 2^63) : ∃ n : ℤ, toLongLong y = .ok n := by
  cases y <;> simp [isFinite] at hf
  · exact ⟨0, rfl⟩
  · next k =>
    simp only [val] at hr
    refine ⟨truncInt k, ?_⟩
    simp only [toLongLong]; rw [if_pos]
    unfold truncInt; split
    · have h1 : -k < 2^63 + 1 := by linarith [hr.1]
      have : ⌊-k⌋ < 2^63 + 1 := by rw [Int.floor_lt]; push_cast; norm_num at h1 ⊢; exact h1
      have h2 : (0:ℤ) ≤ ⌊-k⌋ := Int.floor_nonneg.mpr (by linarith)
      omega
    · next h =>
      have : ⌊k⌋ < 2^63 := by rw [Int.floor_lt]; push_cast; have := hr.2; norm_num at this ⊢; exact this
      have h2 : (0:ℤ) ≤ ⌊k⌋ := Int.floor_nonneg.mpr (not_lt.mp h)
      omega

/-- C41 in every format: if the base may be negative and the exponent is not a single integer, the result is the NaN interval, provided that the lower bound of the
exponent is in the range of `long long`. -/
theorem C41_float_nan_partial (hl : LogMono K) (he : ExpMono K) (dbg : Bool) (X Y : Arg (Fl K)) (hX : ProperA X) (hY : ProperA Y) (neg : lt X.lo (.num 0) = true)
    (hf : isFinite Y.lo = true) (hr : -2^63 - 1 < Y.lo.val ∧ Y.lo.val < 2^63) (not_single : eq Y.lo Y.hi = true → ∀ n : ℤ, ¬ eq (Fmt.rnd (n : K)) Y.lo = true) :
    powI dbg X Y = .ok ⟨.nan, .nan⟩ := by
  obtain ⟨r, -, e⟩ := PowF.powI_neg hl he dbg hX hY neg
  obtain ⟨n, hn⟩ := toLongLong_range hf hr
  rw [e, hn, ok_bind, if_neg]
  · exact nanInterval_eq
  · rw [Bool.and_eq_true]; rintro ⟨h1, h2⟩; exact not_single h1 n h2

/-- C41 is false for all exponents whose lower bound is infinite or outside of the range of `long long`, if the base may be negative: `pow` has undefined behaviour. -/
theorem C41_float_violated (hl : LogMono K) (he : ExpMono K) (dbg : Bool) (X Y : Arg (Fl K)) (hX : ProperA X) (hY : ProperA Y) (neg : lt X.lo (.num 0) = true)
    (hr : Y.lo = .ninf ∨ Y.lo = .pinf ∨ Y.lo.val ≤ -2^63 - 1 ∨ 2^63 ≤ Y.lo.val) : powI dbg X Y = .error .ub := by
  obtain ⟨r, -, e⟩ := PowF.powI_neg hl he dbg hX hY neg
  have ny : Y.lo ≠ nan := ne_nan_of_le_left (proper_le hY)
  have : toLongLong Y.lo = .error .ub := by
    revert hr ny; generalize Y.lo = y; intro hr ny
    cases y with
    | nan => exact absurd rfl ny
    | ninf => rfl
    | pinf => rfl
    | nzero =>
      exfalso; simp [val] at hr
      have p : (0:K) < 2^63 := by positivity
      rcases hr with h | h <;> linarith
    | num k =>
      simp only [val, reduceCtorEq, false_or] at hr
      simp only [toLongLong]; rw [if_neg]
      rintro ⟨h1, h2⟩
      unfold truncInt at h1 h2
      have p : (0:K) < 2^63 := by positivity
      split at h1
      · next hk =>
        rw [if_pos hk] at h2
        rcases hr with h | h
        · have : 2^63 + 1 ≤ ⌊-k⌋ := by rw [Int.le_floor]; push_cast; linarith
          omega
        · linarith
      · next hk =>
        rw [if_neg hk] at h2
        rcases hr with h | h
        · linarith
        · have : 2^63 ≤ ⌊k⌋ := by rw [Int.le_floor]; push_cast; norm_num at h ⊢; exact h
          omega
  rw [e, this]; rfl

section real
attribute [local instance] exactFmt

theorem logMono_real [Fmt ℝ] : LogMono ℝ := fun a b ha hb h => log_mono a b ha hb h
theorem expMono_real [Fmt ℝ] : ExpMono ℝ := fun a b h => exp_mono a b trivial trivial h

theorem powPt_ext {x y : Fl ℝ} {k m : ℝ} (hx : Is x k) (hy : Is y m) (hk : 0 ≤ k) : ext (powPt x y) = ext (powSpec k m) := by
  have h := Props.powC_eq hx hy
  rw [max_eq_right hk] at h
  have e := powC_eqv logMono_real expMono_real (cmax_zero_of_nonneg (((Is.num 0).le_iff hx).mpr hk)) ((hx.le_iff hx).mpr le_rfl) hy.ne_nan
  rw [Fl.eq_iff] at e
  obtain ⟨_, e1, e2⟩ := e
  rw [← h, e2]; exact e1.symm

/-- C41 in exact arithmetic, for a non-negative base and operands that may be unbounded: `pow(X, Y)` contains `x ^ y` for all real points. -/
theorem C41_unbounded (dbg : Bool) (X Y : Arg (Fl ℝ)) (hX : ProperA X) (hY : ProperA Y) (pos : le (.num 0) X.lo = true) :
    ∃ R, powI dbg X Y = .ok R ∧ ∀ x y : ℝ, .num x ∈ₐ X → .num y ∈ₐ Y → powSpec x y ∈ᵢ R := by
  obtain ⟨R, e, h, -, -⟩ := C41_float_nonneg logMono_real expMono_real dbg X Y hX hY pos
  refine ⟨R, e, fun x y hx hy => mem_of_ext (powPt_ext (Is.num x) (Is.num y) ?_) (h _ _ hx hy)⟩
  simpa using CppOrder.le_trans _ _ _ pos (mem_bounds.mp hx).1

/-- the same for a base that may be negative and a single integer exponent -/
theorem C41_unbounded_integer_partial (dbg : Bool) (X Y : Arg (Fl ℝ)) (hX : ProperA X) (neg : ∃ x : ℝ, .num x ∈ₐ X ∧ x < 0) (n : ℤ) (hn : -2^63 ≤ n ∧ n < 2^63)
    (hY : FiniteA Y) (single : ∀ y : ℝ, .num y ∈ₐ Y ↔ y = n) :
    ∃ R, powI dbg X Y = .ok R ∧ ∀ x : ℝ, .num x ∈ₐ X → (0 ≤ x → powSpec x n ∈ᵢ R) ∧ (x ≤ 0 → powNegSpec x n ∈ᵢ R) := by
  obtain ⟨x0, hx0, hx0n⟩ := neg
  have neg : lt X.lo (.num 0) = true := by
    rw [CppOrder.lt_iff]
    have h1 := (mem_bounds.mp hx0).1
    have h2 : le (.num 0) (.num x0 : Fl ℝ) = false := by simpa using hx0n
    have z0 : le (Fl.num (0:ℝ)) (.num 0) = true := by simp
    refine ⟨CppOrder.le_left _ _ h1, z0, ?_⟩
    rw [Bool.eq_false_iff]; intro h; exact absurd (h2.symm.trans (CppOrder.le_trans _ _ _ h h1)) (by decide)
  have vlo : Y.lo.val = n := (single _).mp (finite_mem hY (lo_mem hY.2.2)).2
  have vhi : Y.hi.val = n := (single _).mp (finite_mem hY (hi_mem hY.2.2)).2
  have ylo : Is Y.lo (n : ℝ) := ⟨hY.1, vlo⟩
  have yhi : Is Y.hi (n : ℝ) := ⟨hY.2.1, vhi⟩
  obtain ⟨R, e, h, -, -⟩ := C41_float_integer_partial logMono_real expMono_real dbg X Y hX hY.2.2 neg n hn hY.1 vlo ((ylo.eq_iff yhi).mpr rfl)
    ((show Is (Fmt.rnd (n:ℝ)) (n:ℝ) from Is.num _).eq_iff ylo |>.mpr rfl)
  refine ⟨R, e, fun x hx => ⟨fun h0 => ?_, fun h0 => ?_⟩⟩
  · exact mem_of_ext (powPt_ext (Is.num x) ylo h0) ((h _ hx).1 (by simpa using h0))
  · have m := (h _ hx).2 (by simpa using h0)
    have nx : Is (Fl.neg (.num x : Fl ℝ)) (-x) := (Is.num x).neg
    have hn0 : (0:ℝ) ≤ -x := by linarith
    have e1 := powPt_ext nx ylo hn0
    have e2 := powNeg_eq (x := Fl.neg (.num x)) (y := Y.lo) nx ylo
    rw [max_eq_right hn0, neg_neg] at e2
    have e3 := Props.powC_eq nx ylo
    rw [max_eq_right hn0] at e3
    refine mem_of_ext ?_ m
    rw [← e2]
    have sg : (if n % 2 = 0 then .num 1 else .num (-1) : Fl ℝ) = signPow n := by simp only [signPow, Int.even_iff]
    rw [sg]
    have hne : ∀ {a : Fl ℝ}, ext a = ext (powSpec (-x) n) → a ≠ .nan := by
      rintro a ha rfl
      have := powSpec_ne_nan (-x) n
      cases h : powSpec (-x) n <;> rw [h] at ha <;> simp [ext] at ha
      exact this h
    unfold signPow; split
    · rw [mul_one_eq (hne e1), mul_one_eq (hne e3), e1, e3]
    · rw [mul_neg_one_eq (hne e1), mul_neg_one_eq (hne e3), neg_ext e1, neg_ext e3]
end real

/-! Non-trivial operands: base `[0,+inf]` and exponent `[-inf,1]`; base `[-2,+inf]` and exponent `3`; exponent `[1/2,+inf]`; exponent `[-inf,0]`. -/
example : ProperA (.ivl ⟨.num 0, .pinf⟩ : Arg (Fl ℝ)) ∧ ProperA (.ivl ⟨.ninf, .num 1⟩ : Arg (Fl ℝ)) ∧ le (.num 0) (.num 0 : Fl ℝ) = true := by
  simp [ProperA, Proper]
example : ProperA (.ivl ⟨.num (-2), .pinf⟩ : Arg (Fl ℝ)) ∧ lt (.num (-2)) (.num 0 : Fl ℝ) = true ∧ (Arg.scalar (.num 3) : Arg (Fl ℝ)).lo.val = ((3:ℤ):ℝ) := by
  refine ⟨by simp [ProperA, Proper], by rw [CppOrder.lt_iff]; simp, by simp [Arg.lo, val]⟩
end Intervals.Props
