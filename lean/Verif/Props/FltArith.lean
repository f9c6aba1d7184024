import Verif.Lemmas.FltArith
import Verif.Lemmas.Corner
import Verif.Lemmas.Arith
import Verif.Spec.Flt
/-!
# C30–C33: floating-point interval arithmetic
-/
set_option linter.unusedSectionVars false
set_option linter.unusedSimpArgs false
namespace Intervals.Props
open Intervals CppVal Spec CppNum

variable {K : Type} [Field K] [LinearOrder K] [IsStrictOrderedRing K] [Fmt K]

theorem isFloat_fl : CppNum.isFloat (Fl K) = true := rfl
theorem zero_fl : (CppNum.zero : Fl K) = .num 0 := rfl

theorem ptA_ne_nan {X : Arg (Fl K)} {a : Fl K} (h : a ∈ₐ X) : a ≠ .nan := Fl.ne_nan_of_le_left (mem_bounds.mp h).2

/-- C30 addition -/
theorem C30_add (dbg : Bool) (X Y : Arg (Fl K)) (hX : ProperA X) (hY : ProperA Y) :
    FloatExact2 Fl.add X Y (addI dbg X Y) := by
  have hx := lo_mem hX; have hx' := hi_mem hX; have hy := lo_mem hY; have hy' := hi_mem hY
  unfold addI
  rw [assigned_of_proper hX, assigned_of_proper hY, isFloat_fl]
  simp only [Bool.and_self, expectsDebug_true, ok_bind, Bool.true_and]
  by_cases hc : (isNegInf X.lo && isPosInf Y.hi || isNegInf Y.lo && isPosInf X.hi) = true
  · left
    rw [if_pos hc, Fl.nanInterval_eq]
    refine ⟨?_, rfl⟩
    simp only [Bool.or_eq_true, Bool.and_eq_true, Fl.isNegInf_iff, Fl.isPosInf_iff] at hc
    rcases hc with ⟨h1, h2⟩ | ⟨h1, h2⟩
    · exact ⟨_, _, hx, hy', by rw [h1, h2]; rfl⟩
    · exact ⟨_, _, hx', hy, by rw [h1, h2]; rfl⟩
  · right
    rw [if_neg hc]
    simp only [Bool.or_eq_true, Bool.and_eq_true, Fl.isNegInf_iff, Fl.isPosInf_iff] at hc
    have hn : ∀ a b, a ∈ₐ X → b ∈ₐ Y → Fl.add a b ≠ .nan := by
      intro a b ha hb h
      rw [Fl.add_eq_nan (ptA_ne_nan ha) (ptA_ne_nan hb)] at h
      rw [mem_bounds] at ha hb
      rcases h with ⟨rfl, rfl⟩ | ⟨rfl, rfl⟩
      · exact hc (Or.inl ⟨Fl.le_ninf_iff.mp ha.1, Fl.pinf_le_iff.mp hb.2⟩)
      · exact hc (Or.inr ⟨Fl.le_ninf_iff.mp hb.1, Fl.pinf_le_iff.mp ha.2⟩)
    have mono : ∀ a a' b b', a ∈ₐ X → a' ∈ₐ X → b ∈ₐ Y → b' ∈ₐ Y → le a a' = true → le b b' = true →
        le (Fl.add a b) (Fl.add a' b') = true := by
      intro a a' b b' ha ha' hb hb' h h'
      refine CppOrder.le_trans _ _ _ (Fl.add_mono_left h (hn _ _ ha hb) (hn _ _ ha' hb)) ?_
      rw [Fl.add_comm' a' b, Fl.add_comm' a' b']
      exact Fl.add_mono_left h' (by rw [Fl.add_comm']; exact hn _ _ ha' hb) (by rw [Fl.add_comm']; exact hn _ _ ha' hb')
    refine ⟨hn, _, make_ok_of_le (mono _ _ _ _ hx hx' hy hy' (proper_le hX) (proper_le hY)), fun a b ha hb => ?_, ⟨_, _, hx, hy, rfl⟩, ⟨_, _, hx', hy', rfl⟩⟩
    have ba := mem_bounds.mp ha; have bb := mem_bounds.mp hb
    exact ⟨mono _ _ _ _ hx ha hy hb ba.1 bb.1, mono _ _ _ _ ha hx' hb hy' ba.2 bb.2⟩

/-- C30 subtraction -/
theorem C30_sub (dbg : Bool) (X Y : Arg (Fl K)) (hX : ProperA X) (hY : ProperA Y) :
    FloatExact2 Fl.sub X Y (subI dbg X Y) := by
  have hx := lo_mem hX; have hx' := hi_mem hX; have hy := lo_mem hY; have hy' := hi_mem hY
  unfold subI
  rw [assigned_of_proper hX, assigned_of_proper hY, isFloat_fl]
  simp only [Bool.and_self, expectsDebug_true, ok_bind, Bool.true_and]
  by_cases hc : (isNegInf X.lo && isNegInf Y.lo || isPosInf Y.hi && isPosInf X.hi) = true
  · left
    rw [if_pos hc, Fl.nanInterval_eq]
    refine ⟨?_, rfl⟩
    simp only [Bool.or_eq_true, Bool.and_eq_true, Fl.isNegInf_iff, Fl.isPosInf_iff] at hc
    rcases hc with ⟨h1, h2⟩ | ⟨h1, h2⟩
    · exact ⟨_, _, hx, hy, by rw [h1, h2]; rfl⟩
    · exact ⟨_, _, hx', hy', by rw [h1, h2]; rfl⟩
  · right
    rw [if_neg hc]
    simp only [Bool.or_eq_true, Bool.and_eq_true, Fl.isNegInf_iff, Fl.isPosInf_iff] at hc
    have hn : ∀ a b, a ∈ₐ X → b ∈ₐ Y → Fl.sub a b ≠ .nan := by
      intro a b ha hb h
      unfold Fl.sub at h
      rw [Fl.add_eq_nan (ptA_ne_nan ha) (mt Fl.neg_ne_nan.mp (ptA_ne_nan hb))] at h
      rw [mem_bounds] at ha hb
      rcases h with ⟨rfl, h⟩ | ⟨rfl, h⟩
      · have : b = .ninf := by cases b <;> simp [Fl.neg] at h ⊢; split at h <;> simp at h
        subst this
        exact hc (Or.inl ⟨Fl.le_ninf_iff.mp ha.1, Fl.le_ninf_iff.mp hb.1⟩)
      · have : b = .pinf := by cases b <;> simp [Fl.neg] at h ⊢; split at h <;> simp at h
        subst this
        exact hc (Or.inr ⟨Fl.pinf_le_iff.mp hb.2, Fl.pinf_le_iff.mp ha.2⟩)
    have mono : ∀ a a' b b', a ∈ₐ X → a' ∈ₐ X → b ∈ₐ Y → b' ∈ₐ Y → le a a' = true → le b' b = true →
        le (Fl.sub a b) (Fl.sub a' b') = true := by
      intro a a' b b' ha ha' hb hb' h h'
      refine CppOrder.le_trans _ _ _ (Fl.add_mono_left h (hn _ _ ha hb) (hn _ _ ha' hb)) ?_
      unfold Fl.sub
      rw [Fl.add_comm' a', Fl.add_comm' a']
      exact Fl.add_mono_left (Fl.neg_anti h') (by rw [Fl.add_comm']; exact hn _ _ ha' hb) (by rw [Fl.add_comm']; exact hn _ _ ha' hb')
    refine ⟨hn, _, make_ok_of_le (mono _ _ _ _ hx hx' hy' hy (proper_le hX) (proper_le hY)), fun a b ha hb => ?_, ⟨_, _, hx, hy', rfl⟩, ⟨_, _, hx', hy, rfl⟩⟩
    have ba := mem_bounds.mp ha; have bb := mem_bounds.mp hb
    exact ⟨mono _ _ _ _ hx ha hy' hb ba.1 bb.2, mono _ _ _ _ ha hx' hb hy ba.2 bb.1⟩

/-- C30 negation (exact: no rounding) -/
theorem C30_neg (dbg : Bool) (X : Ivl (Fl K)) (hX : Proper X) : FloatExact1 Fl.neg X (negI dbg X) := by
  have hx : X.lo ∈ᵢ X := lo_mem (X := .ivl X) hX
  have hx' : X.hi ∈ᵢ X := hi_mem (X := .ivl X) hX
  unfold negI
  have : X.assigned = true := assigned_of_proper (X := .ivl X) hX
  rw [this, expectsDebug_true]
  exact ⟨_, make_ok_of_le (Fl.neg_anti hX), fun a ha => ⟨Fl.neg_anti ha.2, Fl.neg_anti ha.1⟩, ⟨_, hx', rfl⟩, ⟨_, hx, rfl⟩⟩

/-- C30 unary plus -/
theorem C30_plus (dbg : Bool) (X : Ivl (Fl K)) (hX : Proper X) : plusI dbg X = .ok X := by
  unfold plusI
  have : X.assigned = true := assigned_of_proper (X := .ivl X) hX
  rw [this, expectsDebug_true]; rfl

theorem exact_of_hull {f : Fl K → Fl K → Fl K} {X Y : Arg (Fl K)} {res : Outcome (Ivl (Fl K))} (hX : ProperA X) (hY : ProperA Y)
    (hn : ∀ a b, a ∈ₐ X → b ∈ₐ Y → f a b ≠ .nan) {R : Ivl (Fl K)} (hR : res = .ok R) (hh : HullOf (corners f X Y) R)
    (h1 : ∀ a b, a ∈ₐ X → b ∈ₐ Y → Betw (f X.lo b) (f X.hi b) (f a b))
    (h2 : ∀ a b, a ∈ₐ X → b ∈ₐ Y → Betw (f a Y.lo) (f a Y.hi) (f a b)) : FloatExact2 f X Y res := by
  have hx := lo_mem hX; have hx' := hi_mem hX; have hy := lo_mem hY; have hy' := hi_mem hY
  have key : ∀ c ∈ corners f X Y, ∃ a b, a ∈ₐ X ∧ b ∈ₐ Y ∧ f a b = c := by
    intro c hc
    simp only [corners, List.mem_cons, List.not_mem_nil, or_false] at hc
    rcases hc with rfl | rfl | rfl | rfl
    · exact ⟨_, _, hx, hy, rfl⟩
    · exact ⟨_, _, hx, hy', rfl⟩
    · exact ⟨_, _, hx', hy, rfl⟩
    · exact ⟨_, _, hx', hy', rfl⟩
  exact Or.inr ⟨hn, R, hR, fun a b ha hb => corner_incl hh (h1 a b ha hb) (h2 _ b hx hb) (h2 _ b hx' hb), key _ hh.1, key _ hh.2.1⟩

theorem mul_betw {a a1 a2 b : Fl K} (h1 : le a1 a = true) (h2 : le a a2 = true) (hb : b ≠ .nan) (n : Fl.mul a b ≠ .nan) (n1 : Fl.mul a1 b ≠ .nan)
    (n2 : Fl.mul a2 b ≠ .nan) : Betw (Fl.mul a1 b) (Fl.mul a2 b) (Fl.mul a b) := by
  have : le (Fl.num 0) b = true ∨ le b (Fl.num 0) = true := by
    cases b <;> simp_all
    exact le_total _ _
  rcases this with h | h
  · exact ⟨Or.inl (Fl.mul_mono h h1 n1 n), Or.inr (Fl.mul_mono h h2 n n2)⟩
  · exact ⟨Or.inr (Fl.mul_anti h h2 n n2), Or.inl (Fl.mul_anti h h1 n1 n)⟩

/-- the hull of the corners that the multiplicative operators compute -/
theorem hull_prog {f : Fl K → Fl K → Fl K} {X Y : Arg (Fl K)} (hX : ProperA X) (hY : ProperA Y)
    (hn : ∀ a b, a ∈ₐ X → b ∈ₐ Y → f a b ≠ .nan) :
    (∃ R, hull4 (f X.lo Y.lo) (f X.lo Y.hi) (f X.hi Y.lo) (f X.hi Y.hi) = .ok R ∧ HullOf (corners f X Y) R) ∧
    (X.lo = X.hi → ∃ R, hull2 (f X.lo Y.lo) (f X.lo Y.hi) = .ok R ∧ HullOf (corners f X Y) R) ∧
    (Y.lo = Y.hi → ∃ R, hull2 (f X.lo Y.lo) (f X.hi Y.lo) = .ok R ∧ HullOf (corners f X Y) R) := by
  have hx := lo_mem hX; have hx' := hi_mem hX; have hy := lo_mem hY; have hy' := hi_mem hY
  have nn : ∀ a b, a ∈ₐ X → b ∈ₐ Y → NotNan (f a b) := fun a b ha hb => Fl.notNan_iff.mpr (hn a b ha hb)
  refine ⟨hull4_ok (nn _ _ hx hy) (nn _ _ hx hy') (nn _ _ hx' hy) (nn _ _ hx' hy'), fun he => ?_, fun he => ?_⟩
  · obtain ⟨R, h, hR⟩ := hull2_ok (nn _ _ hx hy) (nn _ _ hx hy')
    exact ⟨R, h, hR.congr (by intro c; simp only [corners, ← he, List.mem_cons, List.not_mem_nil, or_false]; tauto)⟩
  · obtain ⟨R, h, hR⟩ := hull2_ok (nn _ _ hx hy) (nn _ _ hx' hy)
    exact ⟨R, h, hR.congr (by intro c; simp only [corners, ← he, List.mem_cons, List.not_mem_nil, or_false]; tauto)⟩

theorem contains_zero_iff {X : Arg (Fl K)} : X.contains CppNum.zero = true ↔ (Fl.num 0) ∈ₐ X := by
  cases X with
  | scalar s =>
    simp only [Arg.contains, CppOrder.eq_iff, PtA, zero_fl]
    try rw [Bool.and_comm]
    try tauto
  | ivl x =>
    simp only [Arg.contains, Ivl.containsVal, PtA, Pt, zero_fl, Bool.and_eq_true, CppVal.ge]


theorem zero_mem_of {X : Arg (Fl K)} {a : Fl K} (ha : a ∈ₐ X) (hz : Fl.isZero a = true) : (Fl.num 0) ∈ₐ X := by
  have := Fl.isZero_iff.mp hz
  rw [mem_bounds] at ha ⊢
  exact ⟨CppOrder.le_trans _ _ _ ha.1 this.1, CppOrder.le_trans _ _ _ this.2 ha.2⟩
theorem inf_mem_of {X : Arg (Fl K)} {a : Fl K} (ha : a ∈ₐ X) (hz : Fl.isInf a = true) : X.lo = .ninf ∨ X.hi = .pinf := by
  rw [mem_bounds] at ha
  rcases Fl.isInf_iff.mp hz with rfl | rfl
  · exact Or.inl (Fl.le_ninf_iff.mp ha.1)
  · exact Or.inr (Fl.pinf_le_iff.mp ha.2)

/-- C31 multiplication -/
theorem C31_mul (dbg : Bool) (X Y : Arg (Fl K)) (hX : ProperA X) (hY : ProperA Y) :
    FloatExact2 Fl.mul X Y (mulI dbg X Y) := by
  have hx := lo_mem hX; have hx' := hi_mem hX; have hy := lo_mem hY; have hy' := hi_mem hY
  unfold mulI
  rw [assigned_of_proper hX, assigned_of_proper hY, isFloat_fl]
  simp only [Bool.and_self, expectsDebug_true, ok_bind, Bool.true_and]
  by_cases hc : ((isNegInf X.lo || isPosInf X.hi) && Y.contains CppNum.zero || X.contains CppNum.zero && (isNegInf Y.lo || isPosInf Y.hi)) = true
  · left
    rw [if_pos hc, Fl.nanInterval_eq]
    refine ⟨?_, rfl⟩
    simp only [Bool.or_eq_true, Bool.and_eq_true, Fl.isNegInf_iff, Fl.isPosInf_iff, contains_zero_iff] at hc
    rcases hc with ⟨h1 | h1, h2⟩ | ⟨h2, h1 | h1⟩
    · exact ⟨_, _, hx, h2, by simp [h1, Fl.mul, Fl.isNan, Fl.isInf, Fl.isZero]⟩
    · exact ⟨_, _, hx', h2, by simp [h1, Fl.mul, Fl.isNan, Fl.isInf, Fl.isZero]⟩
    · exact ⟨_, _, h2, hy, by simp [h1, Fl.mul, Fl.isNan, Fl.isInf, Fl.isZero]⟩
    · exact ⟨_, _, h2, hy', by simp [h1, Fl.mul, Fl.isNan, Fl.isInf, Fl.isZero]⟩
  · rw [if_neg hc]
    simp only [Bool.or_eq_true, Bool.and_eq_true, Fl.isNegInf_iff, Fl.isPosInf_iff, contains_zero_iff] at hc
    have hn : ∀ a b, a ∈ₐ X → b ∈ₐ Y → Fl.mul a b ≠ .nan := by
      intro a b ha hb h
      rw [Fl.mul_eq_nan (ptA_ne_nan ha) (ptA_ne_nan hb)] at h
      rcases h with ⟨h, h'⟩ | ⟨h', h⟩
      · exact hc (Or.inl ⟨inf_mem_of ha h, zero_mem_of hb h'⟩)
      · exact hc (Or.inr ⟨zero_mem_of ha h', inf_mem_of hb h⟩)
    obtain ⟨p4, p2, p2'⟩ := hull_prog hX hY hn
    have fin : ∀ res, (∃ R, res = .ok R ∧ HullOf (corners Fl.mul X Y) R) → FloatExact2 Fl.mul X Y res := by
      rintro res ⟨R, hR, hh⟩
      refine exact_of_hull hX hY hn hR hh (fun a b ha hb => ?_) (fun a b ha hb => ?_)
      · have := mem_bounds.mp ha
        exact mul_betw this.1 this.2 (ptA_ne_nan hb) (hn _ _ ha hb) (hn _ _ hx hb) (hn _ _ hx' hb)
      · have := mem_bounds.mp hb
        rw [Fl.mul_comm' a, Fl.mul_comm' a, Fl.mul_comm' a]
        refine mul_betw this.1 this.2 (ptA_ne_nan ha) ?_ ?_ ?_ <;> rw [Fl.mul_comm']
        · exact hn _ _ ha hb
        · exact hn _ _ ha hy
        · exact hn _ _ ha hy'
    apply fin
    cases X with
    | scalar s => exact p2 rfl
    | ivl x =>
      cases Y with
      | scalar t => exact p2' rfl
      | ivl y => exact p4


theorem alo_s' (s : Fl K) : (Arg.scalar s).lo = s := rfl
theorem ahi_s' (s : Fl K) : (Arg.scalar s).hi = s := rfl
theorem alo_i' (x : Ivl (Fl K)) : (Arg.ivl x).lo = x.lo := rfl
theorem ahi_i' (x : Ivl (Fl K)) : (Arg.ivl x).hi = x.hi := rfl

/-- the hull of the quotients of the bounds -/
def divHull (X Y : Arg (Fl K)) : Outcome (Ivl (Fl K)) :=
  match X, Y with
  | .scalar s, y => hull2 (Fl.div s y.lo) (Fl.div s y.hi)
  | x, .scalar s => hull2 (Fl.div x.lo s) (Fl.div x.hi s)
  | .ivl x, .ivl y => hull4 (Fl.div x.lo y.lo) (Fl.div x.lo y.hi) (Fl.div x.hi y.lo) (Fl.div x.hi y.hi)

/-- what the quotient operator computes, generically -/
theorem divI_prog (dbg : Bool) (X Y : Arg (Fl K)) (hX : ProperA X) (hY : ProperA Y) :
    divI dbg X Y =
      if ((isNegInf X.lo || isPosInf X.hi) && (isNegInf Y.lo || isPosInf Y.hi)) ||
        ((le X.lo (.num 0) && le (.num 0) X.hi) && (le Y.lo (.num 0) && le (.num 0) Y.hi)) then .ok ⟨.nan, .nan⟩
      else if lt Y.lo (.num 0) && lt (.num 0) Y.hi then .ok ⟨.ninf, .pinf⟩
      else divHull X Y := by
  have hy := proper_le hY; have hx := proper_le hX
  unfold divI
  rw [assigned_of_proper hX, assigned_of_proper hY, isFloat_fl, Fl.nanInterval_eq, Fl.infInterval_eq]
  simp only [Bool.and_self, expectsDebug_true, ok_bind, Bool.true_and, Bool.not_true, Bool.false_and, Bool.false_eq_true, if_false, zero_fl]
  have b1 : ∀ (c1 c2 c2' : Bool) (a b : Outcome (Ivl (Fl K))), c2 = c2' → (if c1 then a else if c2 then a else b) = if (c1 || c2') then a else b := by
    intro c1 c2 c2' a b h; subst h; cases c1 <;> cases c2 <;> rfl
  have b2 : ∀ (c c3 c3' : Bool) (a b d : Outcome (Ivl (Fl K))), (c = false → c3 = c3') → (if c then a else if c3 then b else d) = if c then a else if c3' then b else d := by
    intro c c3 c3' a b d h; cases c <;> simp_all
  cases X with
  | scalar s =>
    refine (b1 _ _ ((le s (.num 0) && le (.num 0) s) && (le Y.lo (.num 0) && le (.num 0) Y.hi)) _ _ (by
      rw [Bool.eq_iff_iff]; simp only [Bool.and_eq_true, CppOrder.eq_iff, and_assoc])).trans ?_
    refine b2 _ _ _ _ _ _ fun hc => ?_
    change NotNan s at hX
    simp only [Bool.or_eq_false_iff, Bool.and_eq_false_iff] at hc
    rw [Bool.eq_iff_iff]
    simp only [CppVal.ne, Bool.and_eq_true, Bool.not_eq_true', and_assoc]
    constructor
    · rintro ⟨-, h⟩; exact h
    · rintro ⟨h1, h2⟩
      refine ⟨?_, h1, h2⟩
      have h3 := (CppOrder.lt_iff _ _).mp h1; have h4 := (CppOrder.lt_iff _ _).mp h2
      rw [Bool.eq_false_iff]
      intro he
      have := (CppOrder.eq_iff _ _).mp he
      grind
  | ivl x =>
    cases Y with
    | scalar t =>
      change NotNan t at hY
      have h0 : (lt t (Fl.num 0) && lt (Fl.num 0) t) = false := by grind
      refine (b1 _ _ ((le x.lo (.num 0) && le (.num 0) x.hi) && (le t (.num 0) && le (.num 0) t)) _ _ (by
        rw [Bool.eq_iff_iff]; simp only [Bool.and_eq_true, CppOrder.eq_iff, and_assoc, alo_i', ahi_i'])).trans ?_
      simp only [alo_i', ahi_i', alo_s', ahi_s', h0, Bool.false_eq_true, if_false]
      rfl
    | ivl y =>
      change le x.lo x.hi = true at hX
      change le y.lo y.hi = true at hY
      refine (b1 _ _ ((le x.lo (.num 0) && le (.num 0) x.hi) && (le y.lo (.num 0) && le (.num 0) y.hi)) _ _ (by
        rw [Bool.eq_iff_iff]; simp only [Bool.and_eq_true, and_assoc])).trans ?_
      refine b2 _ _ _ _ _ _ fun hc => ?_
      simp only [Bool.or_eq_false_iff, Bool.and_eq_false_iff] at hc
      obtain ⟨-, hc⟩ := hc
      simp only [alo_i', ahi_i']
      have z : le (Fl.num 0 : Fl K) (Fl.num 0) = true := by simp
      rw [Bool.eq_iff_iff]
      simp only [Bool.and_eq_true, Bool.or_eq_true]
      grind


theorem div_nan_iff {X Y : Arg (Fl K)} (hX : ProperA X) (hY : ProperA Y) :
    (((isNegInf X.lo || isPosInf X.hi) && (isNegInf Y.lo || isPosInf Y.hi)) ||
        ((le X.lo (.num 0) && le (.num 0) X.hi) && (le Y.lo (.num 0) && le (.num 0) Y.hi))) = true ↔
      ∃ a b, a ∈ₐ X ∧ b ∈ₐ Y ∧ Fl.div a b = .nan := by
  have hx := lo_mem hX; have hx' := hi_mem hX; have hy := lo_mem hY; have hy' := hi_mem hY
  simp only [Bool.or_eq_true, Bool.and_eq_true, Fl.isNegInf_iff, Fl.isPosInf_iff]
  have i : ∀ {X : Arg (Fl K)}, ProperA X → (X.lo = .ninf ∨ X.hi = .pinf) → ∃ a, a ∈ₐ X ∧ Fl.isInf a = true := by
    rintro X h (h' | h')
    · exact ⟨_, lo_mem h, by rw [h']; rfl⟩
    · exact ⟨_, hi_mem h, by rw [h']; rfl⟩
  constructor
  · rintro (⟨h1, h2⟩ | ⟨h1, h2⟩)
    · obtain ⟨a, ha, ha'⟩ := i hX h1
      obtain ⟨b, hb, hb'⟩ := i hY h2
      exact ⟨a, b, ha, hb, (Fl.div_eq_nan (ptA_ne_nan ha) (ptA_ne_nan hb)).mpr (Or.inl ⟨ha', hb'⟩)⟩
    · exact ⟨_, _, mem_bounds.mpr h1, mem_bounds.mpr h2, (Fl.div_eq_nan (by simp) (by simp)).mpr (Or.inr ⟨by simp [Fl.isZero], by simp [Fl.isZero]⟩)⟩
  · rintro ⟨a, b, ha, hb, h⟩
    rw [Fl.div_eq_nan (ptA_ne_nan ha) (ptA_ne_nan hb)] at h
    rcases h with ⟨h, h'⟩ | ⟨h, h'⟩
    · exact Or.inl ⟨inf_mem_of ha h, inf_mem_of hb h'⟩
    · exact Or.inr ⟨mem_bounds.mp (zero_mem_of ha h), mem_bounds.mp (zero_mem_of hb h')⟩

theorem divHull_ok {X Y : Arg (Fl K)} (hX : ProperA X) (hY : ProperA Y) (hn : ∀ a b, a ∈ₐ X → b ∈ₐ Y → Fl.div a b ≠ .nan) :
    ∃ R, divHull X Y = .ok R ∧ HullOf (corners Fl.div X Y) R := by
  obtain ⟨p4, p2, p2'⟩ := hull_prog hX hY hn
  cases X with
  | scalar s => exact p2 rfl
  | ivl x =>
    cases Y with
    | scalar t => exact p2' rfl
    | ivl y => exact p4

theorem hull_proper {l : List (Fl K)} {R : Ivl (Fl K)} (h : HullOf l R) : Proper R := (h.2.2 _ h.1).2

/-- C32: the quotient is reported as indefinite exactly if some point quotient is indefinite, and it is a proper interval otherwise. -/
theorem C32_nan (dbg : Bool) (X Y : Arg (Fl K)) (hX : ProperA X) (hY : ProperA Y) :
    FloatIncl2 Fl.div (fun _ => False) X Y (divI dbg X Y) := by
  rw [divI_prog dbg X Y hX hY]
  split
  · next h => exact Or.inl ⟨(div_nan_iff hX hY).mp h, rfl⟩
  · next h =>
    rw [div_nan_iff hX hY] at h
    push Not at h
    refine Or.inr ⟨h, ?_⟩
    split
    · exact ⟨_, rfl, by simp [Proper], by simp⟩
    · obtain ⟨R, hR, hh⟩ := divHull_ok hX hY h
      exact ⟨R, hR, hull_proper hh, by simp⟩

theorem div_betw_left {a a1 a2 b : Fl K} (h1 : le a1 a = true) (h2 : le a a2 = true) (n : Fl.div a b ≠ .nan) (n1 : Fl.div a1 b ≠ .nan)
    (n2 : Fl.div a2 b ≠ .nan) : Betw (Fl.div a1 b) (Fl.div a2 b) (Fl.div a b) := by
  rcases Bool.eq_false_or_eq_true (Fl.signBit b) with h | h
  · exact ⟨Or.inr (Fl.div_anti_neg h h2 n n2), Or.inl (Fl.div_anti_neg h h1 n1 n)⟩
  · exact ⟨Or.inl (Fl.div_mono_pos h h1 n1 n), Or.inr (Fl.div_mono_pos h h2 n n2)⟩
theorem div_betw_right {a b b1 b2 : Fl K} (ha : a ≠ .nan) (s1 : Fl.signBit b1 = Fl.signBit b) (s2 : Fl.signBit b2 = Fl.signBit b)
    (h1 : le b1 b = true) (h2 : le b b2 = true) (n : Fl.div a b ≠ .nan) (n1 : Fl.div a b1 ≠ .nan)
    (n2 : Fl.div a b2 ≠ .nan) : Betw (Fl.div a b1) (Fl.div a b2) (Fl.div a b) := by
  have : le (Fl.num 0) a = true ∨ le a (Fl.num 0) = true := by
    cases a <;> simp_all
    exact le_total _ _
  rcases this with h | h
  · exact ⟨Or.inr (Fl.div_right_anti s2.symm h h2 n n2), Or.inl (Fl.div_right_anti s1 h h1 n1 n)⟩
  · exact ⟨Or.inl (Fl.div_right_mono s1 h h1 n1 n), Or.inr (Fl.div_right_mono s2.symm h h2 n n2)⟩

theorem signBit_lt {b : Fl K} (h : lt b (.num 0) = true) : Fl.signBit b = true := by
  rw [CppOrder.lt_iff] at h
  cases b <;> simp_all [Fl.signBit]
theorem signBit_gt {b : Fl K} (h : lt (.num 0) b = true) : Fl.signBit b = false := by
  rw [CppOrder.lt_iff] at h
  cases b <;> simp_all [Fl.signBit]
  exact h.le
theorem fl_tri {b : Fl K} (h : b ≠ .nan) : lt b (.num 0) = true ∨ Fl.isZero b = true ∨ lt (.num 0) b = true := by
  cases b <;> simp_all [CppOrder.lt_iff, Fl.isZero]
  rcases lt_trichotomy ‹K› 0 with h | h | h
  · left; exact h
  · right; left; exact h
  · right; right; exact h

theorem same_sign {Y : Arg (Fl K)} (hY : ProperA Y) (h0 : ¬(lt Y.lo (.num 0) && lt (.num 0) Y.hi) = true) (hs : ZeroSignOk Y) {b : Fl K}
    (hb : b ∈ₐ Y) (hz : ¬ eq b (.num 0) = true) : Fl.signBit Y.lo = Fl.signBit b ∧ Fl.signBit Y.hi = Fl.signBit b := by
  have bb := mem_bounds.mp hb
  have tr : ∀ {a b c : Fl K}, le a b = true → lt b c = true → lt a c = true := by intro a b c h h'; grind
  have tr' : ∀ {a b c : Fl K}, lt a b = true → le b c = true → lt a c = true := by intro a b c h h'; grind
  simp only [Bool.and_eq_true, not_and] at h0
  rcases fl_tri (ptA_ne_nan hb) with h | h | h
  · have hl := tr bb.1 h
    rw [signBit_lt h, signBit_lt hl]
    refine ⟨rfl, ?_⟩
    rcases fl_tri (ptA_ne_nan (hi_mem hY)) with h' | h' | h'
    · exact signBit_lt h'
    · rw [hs.2 ((CppOrder.eq_iff _ _).mpr (Fl.isZero_iff.mp h')) hl]; rfl
    · exact absurd h' (h0 hl)
  · exact absurd ((CppOrder.eq_iff _ _).mpr (Fl.isZero_iff.mp h)) hz
  · have hl := tr' h bb.2
    rw [signBit_gt h, signBit_gt hl]
    refine ⟨?_, rfl⟩
    rcases fl_tri (ptA_ne_nan (lo_mem hY)) with h' | h' | h'
    · exact absurd hl (h0 h')
    · rw [hs.1 ((CppOrder.eq_iff _ _).mpr (Fl.isZero_iff.mp h')) hl]; simp [Fl.signBit]
    · exact signBit_gt h'

/-- a zero bound with the sign of the other side -/
theorem bad_zero {Y : Arg (Fl K)} (h : ¬ ZeroSignOk Y) : (lt Y.lo (.num 0) = true ∧ Y.hi = .num 0) ∨ (Y.lo = .nzero ∧ lt (.num 0) Y.hi = true) := by
  unfold ZeroSignOk at h
  rw [not_and_or] at h
  have z : ∀ a : Fl K, eq a (.num 0) = true → a = .nzero ∨ a = .num 0 := by
    intro a h; rw [CppOrder.eq_iff] at h
    cases a <;> simp_all
    exact le_antisymm h.1 h.2
  rcases h with h | h
  · push Not at h
    rcases z _ h.1 with h' | h'
    · exact .inr ⟨h', h.2.1⟩
    · exact absurd h' h.2.2
  · push Not at h
    rcases z _ h.1 with h' | h'
    · exact absurd h' h.2.2
    · exact .inl ⟨h.2.1, h'⟩

/-- an infinite dividend: both infinities are corners -/
theorem div_bad_inf {x yl yh : Fl K} (hx : x = .ninf ∨ x = .pinf) (hl : Fl.isInf yl = false) (hh : Fl.isInf yh = false)
    (hy : (lt yl (.num 0) = true ∧ yh = .num 0) ∨ (yl = .nzero ∧ lt (.num 0) yh = true)) :
    (Fl.div x yl = .ninf ∧ Fl.div x yh = .pinf) ∨ (Fl.div x yl = .pinf ∧ Fl.div x yh = .ninf) := by
  rcases hy with ⟨hy, rfl⟩ | ⟨rfl, hy⟩
  · have s := signBit_lt hy
    have n : Fl.isNan yl = false := by cases yl <;> simp_all [Fl.isNan, CppOrder.lt_iff]
    have e : ∀ x : Fl K, (x = .ninf ∨ x = .pinf) → Fl.div x yl = Fl.infS (!Fl.signBit x) := by
      rintro x (rfl | rfl) <;> (unfold Fl.div; rw [n, hl, s]; simp [Fl.isNan, Fl.isInf, Fl.signBit])
    rw [e x hx]
    rcases hx with rfl | rfl <;> simp [Fl.div, Fl.isNan, Fl.isInf, Fl.infS, Fl.signBit]
  · have s := signBit_gt hy
    have n : Fl.isNan yh = false := by cases yh <;> simp_all [Fl.isNan, CppOrder.lt_iff]
    have e : ∀ x : Fl K, (x = .ninf ∨ x = .pinf) → Fl.div x yh = Fl.infS (Fl.signBit x) := by
      rintro x (rfl | rfl) <;> (unfold Fl.div; rw [n, hh, s]; simp [Fl.isNan, Fl.isInf, Fl.signBit])
    rw [e x hx]
    rcases hx with rfl | rfl <;> simp [Fl.div, Fl.isNan, Fl.isInf, Fl.infS, Fl.signBit]
theorem hull_all {X Y : Arg (Fl K)} (hX : ProperA X) (hY : ProperA Y) (hn : ∀ a b, a ∈ₐ X → b ∈ₐ Y → Fl.div a b ≠ .nan)
    (hi : X.lo = .ninf ∨ X.hi = .pinf)
    (hbad : (lt Y.lo (.num 0) = true ∧ Y.hi = .num 0) ∨ (Y.lo = .nzero ∧ lt (.num 0) Y.hi = true))
    {R : Ivl (Fl K)} (hh : HullOf (corners Fl.div X Y) R) : le R.lo .ninf = true ∧ le .pinf R.hi = true := by
  have hx := lo_mem hX; have hx' := hi_mem hX; have hy := lo_mem hY; have hy' := hi_mem hY
  have noinf : ∀ b, b ∈ₐ Y → Fl.isInf b = false := by
    intro b hb
    by_contra hc
    have : ∃ a, a ∈ₐ X ∧ Fl.isInf a = true := by
      rcases hi with h | h
      · exact ⟨_, hx, by rw [h]; rfl⟩
      · exact ⟨_, hx', by rw [h]; rfl⟩
    obtain ⟨a, ha, ha'⟩ := this
    exact hn a b ha hb ((Fl.div_eq_nan (ptA_ne_nan ha) (ptA_ne_nan hb)).mpr (Or.inl ⟨ha', by simpa using hc⟩))
  have c := hh.2.2
  simp only [corners, List.mem_cons, List.not_mem_nil, or_false] at c
  rcases hi with h | h
  · rcases div_bad_inf (x := X.lo) (.inl h) (noinf _ hy) (noinf _ hy') hbad with ⟨e1, e2⟩ | ⟨e1, e2⟩
    · exact ⟨(c _ (.inl e1.symm)).1, (c _ (.inr (.inl e2.symm))).2⟩
    · exact ⟨(c _ (.inr (.inl e2.symm))).1, (c _ (.inl e1.symm)).2⟩
  · rcases div_bad_inf (x := X.hi) (.inr h) (noinf _ hy) (noinf _ hy') hbad with ⟨e1, e2⟩ | ⟨e1, e2⟩
    · exact ⟨(c _ (.inr (.inr (.inl e1.symm)))).1, (c _ (.inr (.inr (.inr e2.symm)))).2⟩
    · exact ⟨(c _ (.inr (.inr (.inr e2.symm)))).1, (c _ (.inr (.inr (.inl e1.symm)))).2⟩

/-- C32, the part of the inclusion claim that holds: if a zero bound of the divisor carries the sign of the side on which the divisor
lies (`ZeroSignOk`), or the dividend has an infinite bound, the result contains the quotient by every non-zero point.
Missing: divisors such as `[-1, +0]` and `[-0, 1]` with a finite dividend, where the code computes a wrong result (`C32_violated`). -/
theorem C32_incl_partial (dbg : Bool) (X Y : Arg (Fl K)) (hX : ProperA X) (hY : ProperA Y) (hs : ZeroSignOk Y ∨ X.lo = .ninf ∨ X.hi = .pinf) :
    FloatIncl2 Fl.div (fun b => ¬ eq b (.num 0) = true) X Y (divI dbg X Y) := by
  have hx := lo_mem hX; have hx' := hi_mem hX; have hy := lo_mem hY; have hy' := hi_mem hY
  rw [divI_prog dbg X Y hX hY]
  split
  · next h => exact Or.inl ⟨(div_nan_iff hX hY).mp h, rfl⟩
  · next h =>
    rw [div_nan_iff hX hY] at h
    push Not at h
    refine Or.inr ⟨h, ?_⟩
    split
    · exact ⟨_, rfl, by simp [Proper], fun a b ha hb _ => ⟨Fl.ninf_le (h a b ha hb), Fl.le_pinf (h a b ha hb)⟩⟩
    · next h0 =>
      obtain ⟨R, hR, hh⟩ := divHull_ok hX hY h
      refine ⟨R, hR, hull_proper hh, fun a b ha hb hz => ?_⟩
      by_cases hs : ZeroSignOk Y
      · obtain ⟨s1, s2⟩ := same_sign hY h0 hs hb hz
        have ba := mem_bounds.mp ha; have bb := mem_bounds.mp hb
        refine corner_incl hh (div_betw_left ba.1 ba.2 (h _ _ ha hb) (h _ _ hx hb) (h _ _ hx' hb)) ?_ ?_
        · exact div_betw_right (ptA_ne_nan hx) s1 s2 bb.1 bb.2 (h _ _ hx hb) (h _ _ hx hy) (h _ _ hx hy')
        · exact div_betw_right (ptA_ne_nan hx') s1 s2 bb.1 bb.2 (h _ _ hx' hb) (h _ _ hx' hy) (h _ _ hx' hy')
      · next hi =>
        have hi : X.lo = .ninf ∨ X.hi = .pinf := hi.resolve_left hs
        have hc := hull_all hX hY h hi (bad_zero hs) hh
        exact ⟨CppOrder.le_trans _ _ _ hc.1 (Fl.ninf_le (h a b ha hb)), CppOrder.le_trans _ _ _ (Fl.le_pinf (h a b ha hb)) hc.2⟩

/-- C32 for divisors that do not contain zero: nothing is missing, and the bounds are attained. -/
theorem C32_exact (dbg : Bool) (X Y : Arg (Fl K)) (hX : ProperA X) (hY : ProperA Y) (h0 : ¬ (Fl.num 0) ∈ₐ Y) :
    FloatExact2 Fl.div X Y (divI dbg X Y) := by
  have hx := lo_mem hX; have hx' := hi_mem hX; have hy := lo_mem hY; have hy' := hi_mem hY
  have hlt : ¬(lt Y.lo (.num 0) && lt (.num 0) Y.hi) = true := by
    intro h
    apply h0
    rw [mem_bounds]
    simp only [Bool.and_eq_true] at h
    grind
  have hs : ZeroSignOk Y := by
    constructor
    · intro h; exact absurd (zero_mem_of hy (Fl.isZero_iff.mpr ((CppOrder.eq_iff _ _).mp h))) h0
    · intro h; exact absurd (zero_mem_of hy' (Fl.isZero_iff.mpr ((CppOrder.eq_iff _ _).mp h))) h0
  rw [divI_prog dbg X Y hX hY, if_neg hlt]
  split
  · next h => exact Or.inl ⟨(div_nan_iff hX hY).mp h, rfl⟩
  · next h =>
    rw [div_nan_iff hX hY] at h
    push Not at h
    obtain ⟨R, hR, hh⟩ := divHull_ok hX hY h
    refine exact_of_hull hX hY h hR hh (fun a b ha hb => ?_) (fun a b ha hb => ?_)
    · have ba := mem_bounds.mp ha
      exact div_betw_left ba.1 ba.2 (h _ _ ha hb) (h _ _ hx hb) (h _ _ hx' hb)
    · have bb := mem_bounds.mp hb
      obtain ⟨s1, s2⟩ := same_sign hY hlt hs hb
        (fun he => h0 (zero_mem_of hb (Fl.isZero_iff.mpr ((CppOrder.eq_iff _ _).mp he))))
      exact div_betw_right (ptA_ne_nan ha) s1 s2 bb.1 bb.2 (h _ _ ha hb) (h _ _ ha hy) (h _ _ ha hy')


/-- for examples: an interval of rationals as floating-point values -/
def iq (a b : Fl ℚ) : Ivl (Fl ℚ) := ⟨a, b⟩

/-! ## Scalar operands -/
theorem assigned_point (s : Fl K) : (Arg.ivl ⟨s, s⟩).assigned = true := by
  have := CppOrder.lt_iff s s
  simp only [Arg.assigned, Ivl.assigned, gt]
  cases h : lt s s
  · rfl
  · have := this.mp h; grind
theorem contains_point (s v : Fl K) : (Arg.ivl ⟨s, s⟩).contains v = (Arg.scalar s).contains v := by
  have := CppOrder.eq_iff s v
  simp only [Arg.contains, Ivl.containsVal]
  cases h : eq s v <;> grind
theorem cmin_point (a : Fl K) : cmin a a = a := by unfold cmin; split <;> rfl
theorem cmax_point (a : Fl K) : cmax a a = a := by unfold cmax; split <;> rfl
theorem mul_total (a b : Fl K) : (CppNum.mul a b : Outcome (Fl K)) = .ok (Fl.mul a b) := rfl
theorem div_total (a b : Fl K) : (CppNum.div a b : Outcome (Fl K)) = .ok (Fl.div a b) := rfl

/-- C30: a scalar operand of `+` or `-` is treated like the interval of this one value, NaN included. -/
theorem C30_scalar (dbg : Bool) (s : Fl K) (Y : Arg (Fl K)) :
    addI dbg (.scalar s) Y = addI dbg (.ivl ⟨s, s⟩) Y ∧ addI dbg Y (.scalar s) = addI dbg Y (.ivl ⟨s, s⟩) ∧
    subI dbg (.scalar s) Y = subI dbg (.ivl ⟨s, s⟩) Y ∧ subI dbg Y (.scalar s) = subI dbg Y (.ivl ⟨s, s⟩) := by
  unfold addI subI
  rw [assigned_point]
  exact ⟨rfl, rfl, rfl, rfl⟩

/-- C31: the overloads of `*` for a scalar operand agree with the operator on the interval of this one value, NaN included. -/
theorem C31_scalar (dbg : Bool) (s : Fl K) (Y : Arg (Fl K)) :
    mulI dbg (.scalar s) Y = mulI dbg (.ivl ⟨s, s⟩) Y ∧ mulI dbg Y (.scalar s) = mulI dbg Y (.ivl ⟨s, s⟩) := by
  unfold mulI
  rw [assigned_point, contains_point]
  constructor <;> cases Y <;> simp only [Arg.lo, Arg.hi, Arg.assigned, hull4, hull2, cmin_point, cmax_point, mul_total, ok_bind] <;> rfl

/-- C32: the overloads of `/` for a scalar operand agree with the operator on the interval of this one value; a NaN dividend is the exception
(`C34_scalar_div_violated`). -/
theorem C32_scalar (dbg : Bool) (s : Fl K) (Y : Arg (Fl K)) :
    (s ≠ .nan → divI dbg (.scalar s) Y = divI dbg (.ivl ⟨s, s⟩) Y) ∧ divI dbg Y (.scalar s) = divI dbg Y (.ivl ⟨s, s⟩) := by
  have h1 : ∀ s : Fl K, (le s zero && le zero s) = eq s (zero : Fl K) := by
    intro s
    have := CppOrder.eq_iff s (zero : Fl K)
    cases h : eq s (zero : Fl K) <;> grind
  have h2 : s ≠ .nan → (lt zero s || lt s zero) = ne s (zero : Fl K) := by
    intro hn
    have := CppOrder.eq_iff s (zero : Fl K)
    have := CppOrder.lt_iff s (zero : Fl K)
    have := CppOrder.lt_iff (zero : Fl K) s
    have hs : le s s = true := Fl.le_refl_of_ne hn
    have hz : le (zero : Fl K) zero = true := Fl.le_refl_of_ne (by rw [zero_fl]; nofun)
    unfold ne
    cases h : eq s (zero : Fl K) <;> grind
  have h3 : ∀ s : Fl K, (lt s zero && lt zero s) = false := by
    intro s
    have := CppOrder.lt_iff s (zero : Fl K)
    have := CppOrder.lt_iff (zero : Fl K) s
    grind
  unfold divI
  rw [assigned_point]
  constructor
  · intro hn
    cases Y <;> simp only [Arg.lo, Arg.hi, Arg.assigned, hull4, hull2, cmin_point, cmax_point, div_total, ok_bind, h1, ← h2 hn, Bool.and_assoc, h3, Bool.and_false,
      isFloat_fl, Bool.not_true, Bool.false_and, Bool.false_eq_true, if_false]
  · cases Y <;> simp only [Arg.lo, Arg.hi, Arg.assigned, hull4, hull2, cmin_point, cmax_point, div_total, ok_bind, h1, Bool.and_assoc, h3, Bool.and_false,
      isFloat_fl, Bool.not_true, Bool.false_and, Bool.false_eq_true, if_false]

section examples
attribute [local instance] exactFmt
example : ProperA (.ivl (iq .ninf (.num 2))) ∧ ProperA (.ivl (iq .nzero (.num (7/2)))) ∧
    addI true (.ivl (iq .ninf (.num 2))) (.ivl (iq .nzero (.num (7/2)))) = .ok (iq .ninf (.num (11/2))) ∧
    subI true (.ivl (iq .ninf (.num 2))) (.ivl (iq .nzero (.num (7/2)))) = .ok (iq .ninf (.num 2)) ∧
    subI true (.ivl (iq .ninf (.num 2))) (.ivl (iq .ninf (.num 2))) = .ok (iq .nan .nan) := by decide +kernel
example : mulI true (.scalar (.num (-2))) (.ivl (iq (.num 1) .pinf)) = .ok (iq .ninf (.num (-2))) ∧
    mulI true (.ivl (iq (.num (-2)) (.num (-2)))) (.ivl (iq (.num 1) .pinf)) = .ok (iq .ninf (.num (-2))) ∧
    divI true (.scalar (.num 1)) (.ivl (iq (.num (-1)) (.num 4))) = divI true (.ivl (iq (.num 1) (.num 1))) (.ivl (iq (.num (-1)) (.num 4))) := by decide +kernel
example : negI true (iq (.num (-1)) (.num 0)) = .ok (iq .nzero (.num 1)) := by decide +kernel
example : mulI true (.ivl (iq (.num (-2)) (.num 3))) (.ivl (iq (.num (-5)) (.num 4))) = .ok (iq (.num (-15)) (.num 12)) ∧
    mulI true (.ivl (iq (.num (-2)) (.num 3))) (.ivl (iq (.num 1) .pinf)) = .ok (iq .nan .nan) ∧
    mulI true (.scalar (.num (-2))) (.ivl (iq (.num 1) .pinf)) = .ok (iq .ninf (.num (-2))) := by decide +kernel
example : divI true (.ivl (iq (.num (-2)) (.num 3))) (.ivl (iq (.num 2) (.num 4))) = .ok (iq (.num (-1)) (.num (3/2))) ∧
    divI true (.scalar (.num 1)) (.ivl (iq (.num 0) (.num 4))) = .ok (iq (.num (1/4)) .pinf) ∧
    divI true (.scalar (.num 1)) (.ivl (iq (.num (-4)) .nzero)) = .ok (iq .ninf (.num (-1/4))) ∧
    divI true (.scalar (.num 1)) (.ivl (iq (.num (-1)) (.num 4))) = .ok (iq .ninf .pinf) ∧
    divI true (.ivl (iq (.num 0) (.num 1))) (.ivl (iq (.num 0) (.num 4))) = .ok (iq .nan .nan) := by decide +kernel
/-- the hypothesis of `C32_incl_partial` is met by divisors with zero bounds of the right sign -/
example : ZeroSignOk (.ivl (iq (.num 0) (.num 4))) ∧ ZeroSignOk (.ivl (iq (.num (-4)) .nzero)) ∧ ZeroSignOk (.ivl (iq (.num (-4)) (.num 1))) := by
  unfold ZeroSignOk; decide +kernel
end examples

/-- C32 is violated: `1 / [-1, +0]` is computed as `[-1, +inf]`, which does not contain `1 / -0.5 = -2`
(and symmetrically `1 / [-0, 1] = [-inf, 1]` does not contain `1 / 0.5 = 2`).  `0.` is the natural way to write such an upper bound. -/
theorem C32_violated : letI := exactFmt ℚ
    divI (T := Fl ℚ) false (.scalar (.num 1)) (.ivl ⟨.num (-1), .num (0 : ℚ)⟩) = .ok ⟨.num (-1), .pinf⟩ ∧
    ¬ Fl.div (.num 1) (.num (-1/2 : ℚ)) ∈ᵢ ⟨.num (-1), .pinf⟩ ∧
    divI (T := Fl ℚ) false (.scalar (.num 1)) (.ivl ⟨.nzero, .num (1 : ℚ)⟩) = .ok ⟨.ninf, .num 1⟩ ∧
    ¬ Fl.div (.num 1) (.num (1/2 : ℚ)) ∈ᵢ ⟨.ninf, .num 1⟩ := by
  decide +kernel

end Intervals.Props
