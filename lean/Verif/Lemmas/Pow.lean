import Verif.Lemmas.Corner
import Verif.Lemmas.FltArith
import Verif.Lemmas.Accum
import Verif.Model.Elem
/-!
# Images of monotone programs, and the steps of `pow`, in any floating-point format
-/
set_option linter.unusedSectionVars false
namespace Intervals.PowF
open Intervals CppVal Spec Fl

variable {K : Type} [Field K] [LinearOrder K] [IsStrictOrderedRing K] [Fmt K] [FloorRing K] [Libm K]

/-- `R` is proper, contains the values `P`, and its bounds are among them -/
structure Img (P : Fl K → Prop) (R : Arg (Fl K)) : Prop where
  proper : ProperA R
  mem : ∀ v, P v → v ∈ₐ R
  lo : P R.lo
  hi : P R.hi

theorem Img.self {X : Arg (Fl K)} (h : ProperA X) : Img (· ∈ₐ X) X := ⟨h, fun _ h => h, lo_mem h, hi_mem h⟩

/-- a monotone function applied to the bounds -/
theorem Img.map {P : Fl K → Prop} {R S : Arg (Fl K)} {f : Fl K → Fl K} (h : Img P R)
    (mono : ∀ a b, a ∈ₐ R → b ∈ₐ R → le a b = true → le (f a) (f b) = true)
    (hlo : S.lo = f R.lo) (hhi : S.hi = f R.hi) : Img (fun v => ∃ u, P u ∧ v = f u) S := by
  have l := lo_mem h.proper; have u := hi_mem h.proper
  have m := mono _ _ l u (proper_le h.proper)
  have pS : ProperA S := by
    cases S with
    | scalar s => change s = _ at hlo; change s = _ at hhi; rw [← hlo, ← hhi] at m; exact m
    | ivl s => change s.lo = _ at hlo; change s.hi = _ at hhi; rw [← hlo, ← hhi] at m; exact m
  refine ⟨pS, ?_, ⟨_, h.lo, hlo⟩, ⟨_, h.hi, hhi⟩⟩
  rintro v ⟨w, hw, rfl⟩
  have hm := h.mem w hw
  have hb := mem_bounds.mp hm
  rw [mem_bounds, hlo, hhi]
  exact ⟨mono _ _ l hm hb.1, mono _ _ hm u hb.2⟩

/-- an antitone function applied to the bounds -/
theorem Img.mapAnti {P : Fl K → Prop} {R S : Arg (Fl K)} {f : Fl K → Fl K} (h : Img P R)
    (anti : ∀ a b, a ∈ₐ R → b ∈ₐ R → le a b = true → le (f b) (f a) = true)
    (hlo : S.lo = f R.hi) (hhi : S.hi = f R.lo) : Img (fun v => ∃ u, P u ∧ v = f u) S := by
  have l := lo_mem h.proper; have u := hi_mem h.proper
  have m := anti _ _ l u (proper_le h.proper)
  have pS : ProperA S := by
    cases S with
    | scalar s => change s = _ at hlo; change s = _ at hhi; rw [← hlo, ← hhi] at m; exact m
    | ivl s => change s.lo = _ at hlo; change s.hi = _ at hhi; rw [← hlo, ← hhi] at m; exact m
  refine ⟨pS, ?_, ⟨_, h.hi, hlo⟩, ⟨_, h.lo, hhi⟩⟩
  rintro v ⟨w, hw, rfl⟩
  have hm := h.mem w hw
  have hb := mem_bounds.mp hm
  rw [mem_bounds, hlo, hhi]
  exact ⟨anti _ _ hm u hb.2, anti _ _ l hm hb.1⟩

theorem cmax_zero_mono {a b : Fl K} (h : le a b = true) : le (cmax (.num 0) a) (cmax (.num 0) b) = true := by
  have z0 : le (Fl.num (0:K)) (.num 0) = true := by simp
  unfold cmax; split <;> split <;> grind

theorem cmax_zero_nonneg {a : Fl K} (h : le a a = true) : le (.num 0) (cmax (.num 0) a) = true := by
  have z0 : le (Fl.num (0:K)) (.num 0) = true := by simp
  exact (le_cmax z0 h).1

theorem max0A_img (dbg : Bool) {X : Arg (Fl K)} (hX : ProperA X) :
    ∃ S, max0A dbg X = .ok S ∧ Img (fun v => ∃ x, x ∈ₐ X ∧ v = cmax (.num 0) x) S := by
  cases X with
  | scalar x => exact ⟨_, rfl, (Img.self hX).map (fun a b _ _ h => cmax_zero_mono h) rfl rfl⟩
  | ivl x =>
    have := make_ok_of_le (cmax_zero_mono (show le x.lo x.hi = true from hX))
    refine ⟨.ivl ⟨_, _⟩, ?_, (Img.self hX).map (fun a b _ _ h => cmax_zero_mono h) rfl rfl⟩
    simp only [max0A, maxI, assigned_of_proper hX]
    simp only [Arg.assigned, Bool.and_self, expectsDebug_true, ok_bind, Arg.lo, Arg.hi, this]; rfl

/-- `log` is monotone on the non-negative numbers -/
def LogMono (K : Type) [Field K] [LinearOrder K] [Libm K] : Prop :=
  ∀ a b : Fl K, le (.num 0) a = true → le (.num 0) b = true → le a b = true → le (Libm.log a) (Libm.log b) = true
/-- `exp` is monotone -/
def ExpMono (K : Type) [Field K] [LinearOrder K] [Libm K] : Prop := ∀ a b : Fl K, le a b = true → le (Libm.exp a) (Libm.exp b) = true

theorem logA_img (hm : LogMono K) (dbg : Bool) {P : Fl K → Prop} {X : Arg (Fl K)} (h : Img P X) (h0 : le (.num 0) X.lo = true) :
    ∃ S, logA dbg X = .ok S ∧ Img (fun v => ∃ u, P u ∧ v = Libm.log u) S := by
  have nn : ∀ a, a ∈ₐ X → le (.num 0) a = true := fun a ha => CppOrder.le_trans _ _ _ h0 (mem_bounds.mp ha).1
  have mono : ∀ a b, a ∈ₐ X → b ∈ₐ X → le a b = true → le (Libm.log a : Fl K) (Libm.log b) = true := fun a b ha hb hab =>
    hm a b (nn a ha) (nn b hb) hab
  have e : ∀ a, a ∈ₐ X → logS dbg a = .ok (Libm.log a) := fun a ha => by
    unfold logS; rw [show ge a (.num 0) = true from nn a ha, expectsDebug_true]; rfl
  have l := lo_mem h.proper; have u := hi_mem h.proper
  cases X with
  | scalar x =>
    refine ⟨_, ?_, h.map mono (S := .scalar (Libm.log x)) rfl rfl⟩
    simp only [logA]; rw [e x l]; rfl
  | ivl x =>
    have := make_ok_of_le (mono _ _ l u h.proper)
    refine ⟨_, ?_, h.map mono (S := .ivl ⟨Libm.log x.lo, Libm.log x.hi⟩) rfl rfl⟩
    simp only [logA, logI, show x.assigned = true from assigned_of_proper (X := .ivl x) h.proper]
    rw [expectsDebug_true, ok_bind, show logS dbg x.lo = _ from e _ l, ok_bind, show logS dbg x.hi = _ from e _ u, ok_bind]
    rw [show Ivl.make (Libm.log x.lo) (Libm.log x.hi) = _ from this]; rfl

theorem expA_img (hm : ExpMono K) (dbg : Bool) {P : Fl K → Prop} {X : Arg (Fl K)} (h : Img P X) :
    ∃ S, expA dbg X = .ok S ∧ Img (fun v => ∃ u, P u ∧ v = Libm.exp u) S := by
  have mono : ∀ a b, a ∈ₐ X → b ∈ₐ X → le a b = true → le (Libm.exp a : Fl K) (Libm.exp b) = true := fun a b _ _ hab => hm a b hab
  have l := lo_mem h.proper; have u := hi_mem h.proper
  cases X with
  | scalar x => exact ⟨_, rfl, h.map mono (S := .scalar (Libm.exp x)) rfl rfl⟩
  | ivl x =>
    have := make_ok_of_le (mono _ _ l u h.proper)
    refine ⟨_, ?_, h.map mono (S := .ivl ⟨Libm.exp x.lo, Libm.exp x.hi⟩) rfl rfl⟩
    simp only [expA, expI, show x.assigned = true from assigned_of_proper (X := .ivl x) h.proper]
    rw [expectsDebug_true, ok_bind, show Ivl.make (Libm.exp x.lo) (Libm.exp x.hi) = _ from this]; rfl

theorem negA_img (dbg : Bool) {X : Arg (Fl K)} (hX : ProperA X) :
    ∃ S, negA dbg X = .ok S ∧ Img (fun v => ∃ x, x ∈ₐ X ∧ v = Fl.neg x) S := by
  have m := Fl.neg_anti (proper_le hX)
  cases X with
  | scalar x => exact ⟨_, rfl, (Img.self hX).mapAnti (fun a b _ _ h => Fl.neg_anti h) rfl rfl⟩
  | ivl x =>
    refine ⟨.ivl ⟨Fl.neg x.hi, Fl.neg x.lo⟩, ?_, (Img.self hX).mapAnti (fun a b _ _ h => Fl.neg_anti h) rfl rfl⟩
    simp only [negA, negI, show x.assigned = true from assigned_of_proper (X := .ivl x) hX, expectsDebug_true, ok_bind, CppNum.neg]
    rw [make_ok_of_le (show le (Fl.neg x.hi) (Fl.neg x.lo) = true from m)]; rfl

/-! ## `_multiply_0` -/
theorem isNan_iff {a : Fl K} : isNan a = true ↔ a = nan := by cases a <;> simp [isNan]
theorem eq_zero_iff {a : Fl K} : CppVal.eq a (.num 0) = isZero a := by
  rw [Bool.eq_iff_iff, CppOrder.eq_iff, isZero_iff]

theorem multiply0_eq {x y : Fl K} (hx : x ≠ nan) (hy : y ≠ nan) : multiply0 x y = if mul x y = nan then .num 0 else mul x y := by
  unfold multiply0
  by_cases h : mul x y = nan
  · rw [if_pos h]
    have h' := (mul_eq_nan hx hy).mp h
    simp only [eq_zero_iff, isNan_iff.mpr h, Bool.true_and]
    rw [if_pos]
    rcases h' with ⟨a, b⟩ | ⟨a, b⟩ <;> simp [a, b]
  · rw [if_neg h, if_neg]
    simp [isNan_iff, h]
theorem multiply0_comm {x y : Fl K} (hx : x ≠ nan) (hy : y ≠ nan) : multiply0 x y = multiply0 y x := by
  rw [multiply0_eq hx hy, multiply0_eq hy hx, Fl.mul_comm']
theorem multiply0_ne {x y : Fl K} (hx : x ≠ nan) (hy : y ≠ nan) : multiply0 x y ≠ nan := by
  rw [multiply0_eq hx hy]; split
  · simp
  · assumption
local macro "sgnfin" : tactic => `(tactic| (
  (repeat' split) <;> simp_all
  all_goals first
    | exact zero_le_rnd (mul_nonneg ‹_› ‹_›)
    | exact zero_le_rnd (mul_nonneg_of_nonpos_of_nonpos ‹_› ‹_›)
    | exact rnd_le_zero (mul_nonpos_of_nonpos_of_nonneg ‹_› ‹_›)
    | (exfalso; exact absurd (le_antisymm ‹_› ‹_›) ‹_›)
    | (exfalso; exact absurd (le_antisymm ‹_› ‹_›).symm ‹_›)
    | (exfalso; exact absurd ‹_ < _› (not_lt.mpr ‹_›))))
theorem mul_sign_pos {a b : Fl K} (ha : le (.num 0) a = true) (hb : le (.num 0) b = true) (h : mul a b ≠ nan) : le (.num 0) (mul a b) = true := by
  cases a <;> cases b <;> simp [mul, isNan, isInf, isZero, signBit, val, infS, zeroS] at ha hb h ⊢
  all_goals sgnfin
theorem mul_sign_neg {a b : Fl K} (ha : le a (.num 0) = true) (hb : le (.num 0) b = true) (h : mul a b ≠ nan) : le (mul a b) (.num 0) = true := by
  cases a <;> cases b <;> simp [mul, isNan, isInf, isZero, signBit, val, infS, zeroS] at ha hb h ⊢
  all_goals sgnfin
theorem mul_sign_pos' {a b : Fl K} (ha : le a (.num 0) = true) (hb : le b (.num 0) = true) (h : mul a b ≠ nan) : le (.num 0) (mul a b) = true := by
  cases a <;> cases b <;> simp [mul, isNan, isInf, isZero, signBit, val, infS, zeroS] at ha hb h ⊢
  all_goals sgnfin

theorem mul0_mono {b a a' : Fl K} (hb : le (.num 0) b = true) (h : le a a' = true) : le (multiply0 b a) (multiply0 b a') = true := by
  have nb := ne_nan_of_le_right hb; have na := ne_nan_of_le_left h; have na' := ne_nan_of_le_right h
  have z0 : le (Fl.num (0:K)) (.num 0) = true := by simp
  rw [multiply0_eq nb na, multiply0_eq nb na', Fl.mul_comm' b a, Fl.mul_comm' b a']
  by_cases h1 : mul a b = nan <;> by_cases h2 : mul a' b = nan
  · rw [if_pos h1, if_pos h2]; exact z0
  · rw [if_pos h1, if_neg h2]
    rcases (mul_eq_nan na nb).mp h1 with ⟨i, z⟩ | ⟨z, i⟩
    · -- b is zero: every product is zero or NaN
      have hz := isZero_iff.mp z
      rcases Bool.eq_false_or_eq_true (le (.num 0) a') with s | s
      · exact mul_sign_pos s hb h2
      · have : le a' (.num 0) = true := by grind
        exact mul_sign_pos' this hz.1 h2
    · exact mul_sign_pos (CppOrder.le_trans _ _ _ (isZero_iff.mp z).2 h) hb h2
  · rw [if_neg h1, if_pos h2]
    rcases (mul_eq_nan na' nb).mp h2 with ⟨i, z⟩ | ⟨z, i⟩
    · have hz := isZero_iff.mp z
      rcases Bool.eq_false_or_eq_true (le a (.num 0)) with s | s
      · exact mul_sign_neg s hb h1
      · have : le (.num 0) a = true := by grind
        have hm : mul a b = mul b a := Fl.mul_comm' _ _
        rw [hm] at h1 ⊢
        exact mul_sign_neg hz.1 this h1
    · exact mul_sign_neg (CppOrder.le_trans _ _ _ h (isZero_iff.mp z).1) hb h1
  · rw [if_neg h1, if_neg h2]; exact Fl.mul_mono hb h h1 h2

theorem mul0_anti {b a a' : Fl K} (hb : le b (.num 0) = true) (h : le a a' = true) : le (multiply0 b a') (multiply0 b a) = true := by
  have nb := ne_nan_of_le_left hb; have na := ne_nan_of_le_left h; have na' := ne_nan_of_le_right h
  have z0 : le (Fl.num (0:K)) (.num 0) = true := by simp
  rw [multiply0_eq nb na, multiply0_eq nb na', Fl.mul_comm' b a, Fl.mul_comm' b a']
  by_cases h1 : mul a b = nan <;> by_cases h2 : mul a' b = nan
  · rw [if_pos h1, if_pos h2]; exact z0
  · rw [if_pos h1, if_neg h2]
    rcases (mul_eq_nan na nb).mp h1 with ⟨i, z⟩ | ⟨z, i⟩
    · have hz := isZero_iff.mp z
      rcases Bool.eq_false_or_eq_true (le a' (.num 0)) with s | s
      · exact mul_sign_neg s hz.2 h2
      · have : le (.num 0) a' = true := by grind
        rw [Fl.mul_comm' a' b] at h2 ⊢
        exact mul_sign_neg hb this h2
    · rw [Fl.mul_comm' a' b] at h2 ⊢
      exact mul_sign_neg hb (CppOrder.le_trans _ _ _ (isZero_iff.mp z).2 h) h2
  · rw [if_neg h1, if_pos h2]
    rcases (mul_eq_nan na' nb).mp h2 with ⟨i, z⟩ | ⟨z, i⟩
    · have hz := isZero_iff.mp z
      rcases Bool.eq_false_or_eq_true (le (.num 0) a) with s | s
      · exact mul_sign_pos s hz.2 h1
      · have : le a (.num 0) = true := by grind
        exact mul_sign_pos' this hb h1
    · exact mul_sign_pos' (CppOrder.le_trans _ _ _ h (isZero_iff.mp z).1) hb h1
  · rw [if_neg h1, if_neg h2]; exact Fl.mul_anti hb h h1 h2

theorem betw_cases {u v w : Fl K} (h : (le u w = true ∧ le w v = true) ∨ (le v w = true ∧ le w u = true)) : Betw u v w := by
  unfold Betw; rcases h with h | h <;> grind

theorem sign_cases {a : Fl K} (h : le a a = true) : le (.num 0) a = true ∨ le a (.num 0) = true := by
  have z0 : le (Fl.num (0:K)) (.num 0) = true := by simp
  grind

theorem multiply0A_img {P : Fl K → Prop} {Y L : Arg (Fl K)} (hY : ProperA Y) (h : Img P L) :
    ∃ S, multiply0A Y L = .ok S ∧ Img (fun v => ∃ y l, y ∈ₐ Y ∧ P l ∧ v = multiply0 y l) S := by
  have yl := lo_mem hY; have yh := hi_mem hY; have ll := lo_mem h.proper; have lh := hi_mem h.proper
  have nY : ∀ {y}, y ∈ₐ Y → y ≠ nan := fun {y} hy => ne_nan_of_le_right (mem_bounds.mp hy).1
  have nL : ∀ {y}, y ∈ₐ L → y ≠ nan := fun {y} hy => ne_nan_of_le_right (mem_bounds.mp hy).1
  have nn : ∀ {y l}, y ∈ₐ Y → l ∈ₐ L → NotNan (multiply0 y l) := fun {y l} hy hl => notNan_iff.mpr (multiply0_ne (nY hy) (nL hl))
  have betwL : ∀ y l, y ∈ₐ Y → l ∈ₐ L → Betw (multiply0 y L.lo) (multiply0 y L.hi) (multiply0 y l) := by
    intro y l hy hl
    have hb := mem_bounds.mp hl
    apply betw_cases
    rcases sign_cases (notNan_iff.mpr (nY hy)) with c | c
    · exact .inl ⟨mul0_mono c hb.1, mul0_mono c hb.2⟩
    · exact .inr ⟨mul0_anti c hb.2, mul0_anti c hb.1⟩
  have betwY : ∀ y l, y ∈ₐ Y → l ∈ₐ L → Betw (multiply0 Y.lo l) (multiply0 Y.hi l) (multiply0 y l) := by
    intro y l hy hl
    have hb := mem_bounds.mp hy
    rw [multiply0_comm (nY yl) (nL hl), multiply0_comm (nY yh) (nL hl), multiply0_comm (nY hy) (nL hl)]
    apply betw_cases
    rcases sign_cases (notNan_iff.mpr (nL hl)) with c | c
    · exact .inl ⟨mul0_mono c hb.1, mul0_mono c hb.2⟩
    · exact .inr ⟨mul0_anti c hb.2, mul0_anti c hb.1⟩
  have incl : ∀ {R : Ivl (Fl K)}, HullOf (corners multiply0 Y L) R → Img (fun v => ∃ y l, y ∈ₐ Y ∧ P l ∧ v = multiply0 y l) (.ivl R) := by
    intro R hR
    have hi : ∀ v, (∃ y l, y ∈ₐ Y ∧ P l ∧ v = multiply0 y l) → v ∈ᵢ R := by
      rintro v ⟨y, l, hy, hl, rfl⟩
      have hl := h.mem l hl
      exact corner_incl hR (betwY y l hy hl) (betwL _ l yl hl) (betwL _ l yh hl)
    have c1 := hR.1; have c2 := hR.2.1
    simp only [corners, List.mem_cons, List.not_mem_nil, or_false] at c1 c2
    have at1 : ∃ y l, y ∈ₐ Y ∧ P l ∧ R.lo = multiply0 y l := by
      rcases c1 with e | e | e | e
      exacts [⟨_, _, yl, h.lo, e⟩, ⟨_, _, yl, h.hi, e⟩, ⟨_, _, yh, h.lo, e⟩, ⟨_, _, yh, h.hi, e⟩]
    have at2 : ∃ y l, y ∈ₐ Y ∧ P l ∧ R.hi = multiply0 y l := by
      rcases c2 with e | e | e | e
      exacts [⟨_, _, yl, h.lo, e⟩, ⟨_, _, yl, h.hi, e⟩, ⟨_, _, yh, h.lo, e⟩, ⟨_, _, yh, h.hi, e⟩]
    exact ⟨(hi _ at1).2, hi, at1, at2⟩
  cases Y with
  | scalar y =>
    cases L with
    | scalar l =>
      refine ⟨_, rfl, ⟨nn yl ll, ?_, ⟨_, _, yl, h.lo, rfl⟩, ⟨_, _, yl, h.lo, rfl⟩⟩⟩
      rintro v ⟨y', l', hy', hl', rfl⟩
      have hl' := h.mem _ hl'
      have b1 := betwY y' l' hy' hl'
      have b2 := betwL y l' yl hl'
      simp only [Arg.lo, Arg.hi] at b1 b2
      have n := nn yl ll
      simp only [Arg.lo, NotNan] at n
      unfold Betw at b1 b2
      simp only [PtA, or_self] at b1 b2 ⊢
      exact ⟨CppOrder.le_trans _ _ _ b2.1 b1.1, CppOrder.le_trans _ _ _ b1.2 b2.2⟩
    | ivl l =>
      obtain ⟨R, e, hR⟩ := hull2_ok (nn yl ll) (nn yl lh)
      refine ⟨.ivl R, ?_, incl (hR.congr ?_)⟩
      · simp only [multiply0A]; rw [show hull2 (multiply0 y l.lo) (multiply0 y l.hi) = _ from e]; rfl
      · intro c; simp [corners, Arg.lo, Arg.hi]; tauto
  | ivl y =>
    cases L with
    | scalar l =>
      obtain ⟨R, e, hR⟩ := hull2_ok (nn yl ll) (nn yh ll)
      refine ⟨.ivl R, ?_, incl (hR.congr ?_)⟩
      · simp only [multiply0A]; rw [show hull2 (multiply0 y.lo l) (multiply0 y.hi l) = _ from e]; rfl
      · intro c; simp [corners, Arg.lo, Arg.hi]
    | ivl l =>
      obtain ⟨R, e, hR⟩ := hull4_ok (nn yl ll) (nn yl lh) (nn yh ll) (nn yh lh)
      refine ⟨.ivl R, ?_, incl hR⟩
      simp only [multiply0A]
      rw [show hull4 (multiply0 y.lo l.lo) (multiply0 y.lo l.hi) (multiply0 y.hi l.lo) (multiply0 y.hi l.hi) = _ from e]; rfl
end Intervals.PowF
