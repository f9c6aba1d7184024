import Verif.Props.Blend
import Verif.Lemmas.BinFmt2
/-!
# C77: blending in floating-point arithmetic

C43–C45 are about exact arithmetic.  Here the format is arbitrary; the claim (`C77_full`) is that the interval functions succeed whenever
their preconditions hold and contain what the scalar functions compute.
-/
set_option linter.unusedSectionVars false
namespace Intervals.Props
open Intervals CppVal Spec Fl

variable {K : Type} [Field K] [LinearOrder K] [IsStrictOrderedRing K]

/-- the bounds are values of the format -/
def RepA [Fmt K] (X : Arg (Fl K)) : Prop := Representable X.lo ∧ Representable X.hi

/-- C77 as stated. -/
def C77_full : Prop :=
  ∀ (K : Type) [Field K] [LinearOrder K] [IsStrictOrderedRing K] [Fmt K], (Fmt.rnd (1 : K) : Fl K) = .num 1 →
    (∀ (dbg : Bool) (F X Y : Arg (Fl K)), FiniteA F → FiniteA X → FiniteA Y → RepA F → RepA X → RepA Y →
      le (.num 0) F.lo = true → le F.hi (.num 1) = true →
      ∃ R, blendFractionsI dbg F X Y = .ok R ∧
        ∀ f x y, f ∈ₐ F → x ∈ₐ X → y ∈ₐ Y → ∃ r, blendFractionsS dbg f x y = .ok r ∧ r ∈ᵢ R) ∧
    (∀ (dbg : Bool) (A B X Y : Arg (Fl K)), FiniteA A → FiniteA B → FiniteA X → FiniteA Y → RepA A → RepA B → RepA X → RepA Y →
      le (.num 0) A.lo = true → le (.num 0) B.lo = true → (lt (.num 0) A.lo = true ∨ lt (.num 0) B.lo = true) →
      ∃ R, blendLinearI dbg A B X Y = .ok R ∧
        ∀ a b x y, a ∈ₐ A → b ∈ₐ B → x ∈ₐ X → y ∈ₐ Y → ∃ r, blendLinearS dbg a b x y = .ok r ∧ r ∈ᵢ R)

section
variable [Fmt K]

theorem le_ext {a a' b b' : Fl K} (h : ext a = ext a') (h' : ext b = ext b') : le a b = le a' b' := by simp only [CppVal.le, h, h']
theorem finite_flags {a : Fl K} (h : a.isFinite = true) : isNan a = false ∧ isInf a = false ∧ (isZero a = true ↔ val a = 0) := by
  cases a <;> simp_all [isFinite, isNan, isInf, isZero, val]
theorem ext_zeroS (s : Bool) : ext (zeroS s : Fl K) = ext (.num 0 : Fl K) := by cases s <;> rfl
theorem ext_add {a b : Fl K} {k l : K} (ha : Is a k) (hb : Is b l) : ext (Fl.add a b) = ext (Fmt.rnd (k + l) : Fl K) := by
  obtain ⟨ha, rfl⟩ := ha; obtain ⟨hb, rfl⟩ := hb
  obtain ⟨a1, a2, a3⟩ := finite_flags ha
  obtain ⟨b1, b2, b3⟩ := finite_flags hb
  simp only [Fl.add, a1, a2, b1, b2, Bool.or_self, Bool.false_eq_true, if_false, Bool.and_eq_true, a3, b3]
  split
  · next h => rw [h.1, h.2, add_zero, Fmt.rnd_zero]; split <;> rfl
  · rfl
theorem ext_sub {a b : Fl K} {k l : K} (ha : Is a k) (hb : Is b l) : ext (Fl.sub a b) = ext (Fmt.rnd (k - l) : Fl K) := by
  rw [sub_eq_add_neg]; exact ext_add ha hb.neg
theorem ext_mul {a b : Fl K} {k l : K} (ha : Is a k) (hb : Is b l) : ext (Fl.mul a b) = ext (Fmt.rnd (k * l) : Fl K) := by
  obtain ⟨ha, rfl⟩ := ha; obtain ⟨hb, rfl⟩ := hb
  obtain ⟨a1, a2, a3⟩ := finite_flags ha
  obtain ⟨b1, b2, b3⟩ := finite_flags hb
  simp only [Fl.mul, a1, a2, b1, b2, Bool.or_self, Bool.false_eq_true, if_false, Bool.or_eq_true, a3, b3]
  split
  · next h => rw [mul_eq_zero.mpr h, Fmt.rnd_zero, ext_zeroS]
  · rfl
theorem ext_div {a b : Fl K} {k l : K} (ha : Is a k) (hb : Is b l) (hl : l ≠ 0) : ext (Fl.div a b) = ext (Fmt.rnd (k / l) : Fl K) := by
  obtain ⟨ha, rfl⟩ := ha; obtain ⟨hb, rfl⟩ := hb
  obtain ⟨a1, a2, a3⟩ := finite_flags ha
  obtain ⟨b1, b2, b3⟩ := finite_flags hb
  simp only [Fl.div, a1, a2, b1, b2, Bool.or_self, Bool.false_eq_true, if_false, a3, b3, hl]
  split
  · next h => rw [h, zero_div, Fmt.rnd_zero, ext_zeroS]
  · rfl

theorem Is.of_ext {a b : Fl K} {k : K} (h : ext a = ext b) (hb : Is b k) : Is a k := by
  rw [is_iff_ext] at *; exact h.trans hb

theorem rnd_rep {x : Fl K} (r : Representable x) {k : K} (h : Is x k) : (Fmt.rnd k : Fl K) = .num k := by
  obtain ⟨h1, rfl⟩ := h
  cases x <;> simp_all [Representable, isFinite, val, Fmt.rnd_zero]

/-- rounding a number between two representable numbers -/
theorem rnd_between {k m M : K} (rm : (Fmt.rnd m : Fl K) = .num m) (rM : (Fmt.rnd M : Fl K) = .num M) (h1 : m ≤ k) (h2 : k ≤ M) :
    ∃ v, Is (Fmt.rnd k : Fl K) v ∧ m ≤ v ∧ v ≤ M := by
  have l1 := Fmt.rnd_mono m k h1
  have l2 := Fmt.rnd_mono k M h2
  rw [rm] at l1; rw [rM] at l2
  have f := Is.of_finite (finite_of_between (Is.num m).1 (Is.num M).1 l1 l2)
  exact ⟨_, f, ((Is.num m).le_iff f).mp l1, (f.le_iff (Is.num M)).mp l2⟩

/-- the complement of a fraction -/
theorem compl_is (one : (Fmt.rnd (1 : K) : Fl K) = .num 1) {f : Fl K} {t : K} (hf : Is f t) (h0 : 0 ≤ t) (h1 : t ≤ 1) :
    ∃ g, Is (Fl.sub (.num 1) f) g ∧ 0 ≤ g ∧ g ≤ 1 := by
  obtain ⟨v, hv, h⟩ := rnd_between (k := 1 - t) Fmt.rnd_zero one (by linarith) (by linarith)
  exact ⟨v, Is.of_ext (ext_sub (Is.num 1) hf) hv, h⟩

/-- the product of a fraction and a number between representable numbers -/
theorem prod_is {f x : Fl K} {t k m M : K} (hf : Is f t) (hx : Is x k) (h0 : 0 ≤ t) (h1 : t ≤ 1)
    (rm : (Fmt.rnd m : Fl K) = .num m) (rM : (Fmt.rnd M : Fl K) = .num M) (l1 : m ≤ k) (l2 : k ≤ M) :
    ∃ v, Is (Fl.mul f x) v ∧ min 0 m ≤ v ∧ v ≤ max 0 M := by
  have rm' : (Fmt.rnd (min 0 m) : Fl K) = .num (min 0 m) := by
    rcases min_cases 0 m with ⟨e, -⟩ | ⟨e, -⟩ <;> rw [e]
    · exact Fmt.rnd_zero
    · exact rm
  have rM' : (Fmt.rnd (max 0 M) : Fl K) = .num (max 0 M) := by
    rcases max_cases 0 M with ⟨e, -⟩ | ⟨e, -⟩ <;> rw [e]
    · exact Fmt.rnd_zero
    · exact rM
  have a0 : min 0 m ≤ 0 := min_le_left _ _
  have am : min 0 m ≤ m := min_le_right _ _
  have b0 : 0 ≤ max 0 M := le_max_left _ _
  have bM : M ≤ max 0 M := le_max_right _ _
  obtain ⟨v, hv, h⟩ := rnd_between (k := t * k) rm' rM' (by nlinarith) (by nlinarith)
  exact ⟨v, Is.of_ext (ext_mul hf hx) hv, h⟩

/-- what `blend_fractions` computes on numbers (math.hpp:242) -/
def blendV (f x y : Fl K) : Fl K := Fl.add (Fl.mul f x) (Fl.mul (Fl.sub (.num 1) f) y)

theorem blendFractionsS_ok (dbg : Bool) {f x y : Fl K} {t : K} (hf : Is f t) (h0 : 0 ≤ t) (h1 : t ≤ 1) :
    blendFractionsS dbg f x y = .ok (blendV f x y) := by
  have e1 : ge f (.num 0) = true := ((Is.num 0).le_iff hf).mpr h0
  have e2 : le f (.num 1) = true := (hf.le_iff (Is.num 1)).mpr h1
  simp only [blendFractionsS, e1, e2, Bool.and_self, expectsDebug_true, ok_bind, pure, Except.pure, blendV]

/-- the value of a blend on the extended line -/
theorem blend_ext (one : (Fmt.rnd (1 : K) : Fl K) = .num 1) {f x y : Fl K} {t k l m M m' M' : K} (hf : Is f t) (hx : Is x k) (hy : Is y l)
    (h0 : 0 ≤ t) (h1 : t ≤ 1) (rm : (Fmt.rnd m : Fl K) = .num m) (rM : (Fmt.rnd M : Fl K) = .num M) (l1 : m ≤ k) (l2 : k ≤ M)
    (rm' : (Fmt.rnd m' : Fl K) = .num m') (rM' : (Fmt.rnd M' : Fl K) = .num M') (l1' : m' ≤ l) (l2' : l ≤ M') :
    ∃ g p q, Is (Fmt.rnd (1 - t) : Fl K) g ∧ 0 ≤ g ∧ g ≤ 1 ∧ Is (Fmt.rnd (t * k) : Fl K) p ∧ Is (Fmt.rnd (g * l) : Fl K) q ∧
      (min 0 m ≤ p ∧ p ≤ max 0 M) ∧ (min 0 m' ≤ q ∧ q ≤ max 0 M') ∧
      ext (blendV f x y) = ext (Fmt.rnd (p + q) : Fl K) := by
  obtain ⟨g, hg, g0, g1⟩ := compl_is one hf h0 h1
  obtain ⟨p, hp, bp⟩ := prod_is hf hx h0 h1 rm rM l1 l2
  obtain ⟨q, hq, bq⟩ := prod_is hg hy g0 g1 rm' rM' l1' l2'
  exact ⟨g, p, q, Is.of_ext (ext_sub (Is.num 1) hf).symm hg, g0, g1, Is.of_ext (ext_mul hf hx).symm hp, Is.of_ext (ext_mul hg hy).symm hq,
    bp, bq, ext_add hp hq⟩

theorem rnd_notNan (k : K) : le (Fmt.rnd k : Fl K) (Fmt.rnd k) = true := Fmt.rnd_mono _ _ le_rfl

/-- blends with one fraction are monotone in the blended numbers -/
theorem blend_mono (one : (Fmt.rnd (1 : K) : Fl K) = .num 1) {f f' x x' y y' : Fl K} {t k k' l l' m M m' M' : K} (hf : Is f t) (hf' : Is f' t)
    (hx : Is x k) (hx' : Is x' k') (hy : Is y l) (hy' : Is y' l') (h0 : 0 ≤ t) (h1 : t ≤ 1)
    (rm : (Fmt.rnd m : Fl K) = .num m) (rM : (Fmt.rnd M : Fl K) = .num M)
    (rm' : (Fmt.rnd m' : Fl K) = .num m') (rM' : (Fmt.rnd M' : Fl K) = .num M')
    (l1 : m ≤ k) (l2 : k ≤ k') (l3 : k' ≤ M) (l1' : m' ≤ l) (l2' : l ≤ l') (l3' : l' ≤ M') :
    le (blendV f x y) (blendV f' x' y') = true := by
  obtain ⟨g, p, q, hg, g0, g1, hp, hq, -, -, e⟩ := blend_ext one hf hx hy h0 h1 rm rM l1 (l2.trans l3) rm' rM' l1' (l2'.trans l3')
  obtain ⟨g', p', q', hg', -, -, hp', hq', -, -, e'⟩ := blend_ext one hf' hx' hy' h0 h1 rm rM (l1.trans l2) l3 rm' rM' (l1'.trans l2') l3'
  obtain rfl := Is.unique hg hg'
  rw [le_ext e e']
  refine Fmt.rnd_mono _ _ (add_le_add ?_ ?_)
  · exact (hp.le_iff hp').mp (Fmt.rnd_mono _ _ (mul_le_mul_of_nonneg_left l2 h0))
  · exact (hq.le_iff hq').mp (Fmt.rnd_mono _ _ (mul_le_mul_of_nonneg_left l2' g0))

/-- the preconditions of `blend_fractions` hold and it returns the hull of two blends of bounds -/
theorem blendFractionsI_eq (dbg : Bool) {F X Y : Arg (Fl K)} {f0 f1 : K} (hF : IsA F f0 f1) (pF : ProperA F) (pX : ProperA X) (pY : ProperA Y)
    (h0 : 0 ≤ f0) (h1 : f1 ≤ 1) :
    blendFractionsI dbg F X Y = Ivl.fromUnorderedBounds
      (blendV (if ge X.lo Y.lo then F.lo else F.hi) X.lo Y.lo) (blendV (if ge X.hi Y.hi then F.hi else F.lo) X.hi Y.hi) := by
  obtain ⟨R1, e1, n1, h1'⟩ := always_geA_zero true hF pF
  obtain ⟨R2, e2, n2, h2'⟩ := always_leA_one true hF pF
  unfold blendFractionsI
  rw [assigned_of_proper pF, assigned_of_proper pX, assigned_of_proper pY]
  cases dbg with
  | false => simp [blendV]
  | true =>
    simp only [Bool.and_self, expectsDebug_true, ok_bind, if_true, e1, e2, and_always n1 n2, h1', h2', h0, h1, decide_true, expects_true, blendV]

private theorem unordered_spec {T : Type _} [CppVal T] [CppOrder T] {a b : T} (ha : le a a = true) (hb : le b b = true) :
    ∃ R, Ivl.fromUnorderedBounds a b = .ok R ∧ Proper R ∧ (R.lo = a ∨ R.lo = b) ∧ (R.hi = a ∨ R.hi = b) ∧ a ∈ᵢ R ∧ b ∈ᵢ R := by
  unfold Ivl.fromUnorderedBounds cmin cmax
  have hlt := CppOrder.lt_iff (T := T)
  have tot := CppOrder.le_total a b ha hb
  cases c : lt b a <;> cases d : lt a b <;> simp only [Bool.false_eq_true, if_false, if_true]
  · have : le a b = true := by grind
    have : le b a = true := by grind
    exact ⟨_, make_ok_of_le ha, ha, .inl rfl, .inl rfl, ⟨ha, ha⟩, by assumption, by assumption⟩
  · have : le a b = true := by grind
    exact ⟨_, make_ok_of_le this, this, .inl rfl, .inr rfl, ⟨ha, this⟩, this, hb⟩
  · have : le b a = true := by grind
    exact ⟨_, make_ok_of_le this, this, .inr rfl, .inl rfl, ⟨this, ha⟩, hb, this⟩
  · exfalso; grind

theorem mem_lo {X : Arg (Fl K)} (h : ProperA X) : X.lo ∈ₐ X := by
  cases X with
  | scalar s => exact ⟨h, h⟩
  | ivl x => exact ⟨CppOrder.le_left _ _ h, h⟩
theorem mem_hi {X : Arg (Fl K)} (h : ProperA X) : X.hi ∈ₐ X := by
  cases X with
  | scalar s => exact ⟨h, h⟩
  | ivl x => exact ⟨h, CppOrder.le_right _ _ h⟩

/-- both bounds are blends of bounds -/
theorem fractions_core (one : (Fmt.rnd (1 : K) : Fl K) = .num 1) (dbg : Bool) (F X Y : Arg (Fl K)) (hF : FiniteA F) (hX : FiniteA X)
    (hY : FiniteA Y) (rX : RepA X) (rY : RepA Y) (h0 : le (.num 0) F.lo = true) (h1 : le F.hi (.num 1) = true) :
    ∃ R, blendFractionsI dbg F X Y = .ok R ∧ Proper R ∧
      (∃ f x y, (f = F.lo ∨ f = F.hi) ∧ x ∈ₐ X ∧ y ∈ₐ Y ∧ blendFractionsS dbg f x y = .ok R.lo) ∧
      (∃ f x y, (f = F.lo ∨ f = F.hi) ∧ x ∈ₐ X ∧ y ∈ₐ Y ∧ blendFractionsS dbg f x y = .ok R.hi) := by
  have iF := isA_of_finite hF; have iX := isA_of_finite hX; have iY := isA_of_finite hY
  have t0 : 0 ≤ F.lo.val := ((Is.num 0).le_iff iF.1).mp h0
  have t1 : F.hi.val ≤ 1 := (iF.2.le_iff (Is.num 1)).mp h1
  have lF := iF.le hF.2.2; have lX := iX.le hX.2.2; have lY := iY.le hY.2.2
  have x1 := rnd_rep rX.1 iX.1; have x2 := rnd_rep rX.2 iX.2
  have y1 := rnd_rep rY.1 iY.1; have y2 := rnd_rep rY.2 iY.2
  rw [blendFractionsI_eq dbg iF hF.2.2 hX.2.2 hY.2.2 t0 t1]
  have ends : ∀ c : Bool, ∃ q, Is (if c then F.lo else F.hi) q ∧ 0 ≤ q ∧ q ≤ 1 ∧ ((if c then F.lo else F.hi) = F.lo ∨ (if c then F.lo else F.hi) = F.hi) := by
    intro c
    cases c with
    | false => exact ⟨_, iF.2, t0.trans lF, t1, .inr rfl⟩
    | true => exact ⟨_, iF.1, t0, lF.trans t1, .inl rfl⟩
  obtain ⟨q, hq, q0, q1, mq⟩ := ends (ge X.lo Y.lo)
  obtain ⟨r, hr, r0, r1, mr⟩ : ∃ q, Is (if ge X.hi Y.hi then F.hi else F.lo) q ∧ 0 ≤ q ∧ q ≤ 1 ∧
      ((if ge X.hi Y.hi then F.hi else F.lo) = F.lo ∨ (if ge X.hi Y.hi then F.hi else F.lo) = F.hi) := by
    have := ends (!(ge X.hi Y.hi))
    cases c : ge X.hi Y.hi <;> simpa [c] using this
  have n1 : le (blendV (if ge X.lo Y.lo then F.lo else F.hi) X.lo Y.lo) (blendV (if ge X.lo Y.lo then F.lo else F.hi) X.lo Y.lo) = true :=
    blend_mono one hq hq iX.1 iX.1 iY.1 iY.1 q0 q1 x1 x1 y1 y1 le_rfl le_rfl le_rfl le_rfl le_rfl le_rfl
  have n2 : le (blendV (if ge X.hi Y.hi then F.hi else F.lo) X.hi Y.hi) (blendV (if ge X.hi Y.hi then F.hi else F.lo) X.hi Y.hi) = true :=
    blend_mono one hr hr iX.2 iX.2 iY.2 iY.2 r0 r1 x2 x2 y2 y2 le_rfl le_rfl le_rfl le_rfl le_rfl le_rfl
  obtain ⟨R, eR, pR, cl, ch, -, -⟩ := unordered_spec n1 n2
  have p1 := blendFractionsS_ok dbg (x := X.lo) (y := Y.lo) hq q0 q1
  have p2 := blendFractionsS_ok dbg (x := X.hi) (y := Y.hi) hr r0 r1
  refine ⟨R, eR, pR, ?_, ?_⟩
  · rcases cl with c | c <;> rw [c]
    · exact ⟨_, _, _, mq, mem_lo hX.2.2, mem_lo hY.2.2, p1⟩
    · exact ⟨_, _, _, mr, mem_hi hX.2.2, mem_hi hY.2.2, p2⟩
  · rcases ch with c | c <;> rw [c]
    · exact ⟨_, _, _, mq, mem_lo hX.2.2, mem_lo hY.2.2, p1⟩
    · exact ⟨_, _, _, mr, mem_hi hX.2.2, mem_hi hY.2.2, p2⟩

/-- C77, blend_fractions: the result is an interval without NaN, and both bounds are values that the scalar function takes at points of the
operands.  (Missing: the values at all points, see `C77_fractions_known_partial`, `C77_error_partial` and `C77_violated`.) -/
theorem C77_fractions_partial (one : (Fmt.rnd (1 : K) : Fl K) = .num 1) (dbg : Bool) (F X Y : Arg (Fl K)) (hF : FiniteA F) (hX : FiniteA X)
    (hY : FiniteA Y) (rX : RepA X) (rY : RepA Y) (h0 : le (.num 0) F.lo = true) (h1 : le F.hi (.num 1) = true) :
    ∃ R, blendFractionsI dbg F X Y = .ok R ∧ Proper R ∧
      (∃ f x y, f ∈ₐ F ∧ x ∈ₐ X ∧ y ∈ₐ Y ∧ blendFractionsS dbg f x y = .ok R.lo) ∧
      (∃ f x y, f ∈ₐ F ∧ x ∈ₐ X ∧ y ∈ₐ Y ∧ blendFractionsS dbg f x y = .ok R.hi) := by
  obtain ⟨R, eR, pR, ⟨f, x, y, hf, hx, hy, el⟩, ⟨f', x', y', hf', hx', hy', eh⟩⟩ := fractions_core one dbg F X Y hF hX hY rX rY h0 h1
  have mem : ∀ f, f = F.lo ∨ f = F.hi → f ∈ₐ F := by
    rintro f (rfl | rfl)
    · exact mem_lo hF.2.2
    · exact mem_hi hF.2.2
  exact ⟨R, eR, pR, ⟨f, x, y, mem f hf, hx, hy, el⟩, ⟨f', x', y', mem f' hf', hx', hy', eh⟩⟩

/-- C77, blend_fractions with a known fraction: the result contains what the scalar function computes at every choice of points.  (Missing:
proper intervals of fractions.) -/
theorem C77_fractions_known_partial (one : (Fmt.rnd (1 : K) : Fl K) = .num 1) (dbg : Bool) (F X Y : Arg (Fl K)) (hF : FiniteA F)
    (hX : FiniteA X) (hY : FiniteA Y) (rX : RepA X) (rY : RepA Y) (h0 : le (.num 0) F.lo = true) (h1 : le F.hi (.num 1) = true)
    (known : eq F.lo F.hi = true) :
    ∃ R, blendFractionsI dbg F X Y = .ok R ∧
      ∀ f x y, f ∈ₐ F → x ∈ₐ X → y ∈ₐ Y → ∃ r, blendFractionsS dbg f x y = .ok r ∧ r ∈ᵢ R := by
  have iF := isA_of_finite hF; have iX := isA_of_finite hX; have iY := isA_of_finite hY
  have t0 : 0 ≤ F.lo.val := ((Is.num 0).le_iff iF.1).mp h0
  have t1 : F.hi.val ≤ 1 := (iF.2.le_iff (Is.num 1)).mp h1
  have ef : F.lo.val = F.hi.val := (iF.1.eq_iff iF.2).mp known
  have lX := iX.le hX.2.2; have lY := iY.le hY.2.2
  have x1 := rnd_rep rX.1 iX.1; have x2 := rnd_rep rX.2 iX.2
  have y1 := rnd_rep rY.1 iY.1; have y2 := rnd_rep rY.2 iY.2
  rw [blendFractionsI_eq dbg iF hF.2.2 hX.2.2 hY.2.2 t0 t1]
  have hq : Is (if ge X.lo Y.lo then F.lo else F.hi) F.lo.val := by
    cases ge X.lo Y.lo
    · rw [ef]; exact iF.2
    · exact iF.1
  have hr : Is (if ge X.hi Y.hi then F.hi else F.lo) F.lo.val := by
    cases ge X.hi Y.hi
    · exact iF.1
    · rw [ef]; exact iF.2
  have q1 : F.lo.val ≤ 1 := ef.le.trans t1
  have n1 := blend_mono one hq hq iX.1 iX.1 iY.1 iY.1 t0 q1 x1 x1 y1 y1 le_rfl le_rfl le_rfl le_rfl le_rfl le_rfl
  have n2 := blend_mono one hr hr iX.2 iX.2 iY.2 iY.2 t0 q1 x2 x2 y2 y2 le_rfl le_rfl le_rfl le_rfl le_rfl le_rfl
  obtain ⟨R, eR, -, -, -, ma, mb⟩ := unordered_spec n1 n2
  refine ⟨R, eR, ?_⟩
  intro f x y hf hx hy
  have point : ∀ {Z : Arg (Fl K)} {z : Fl K} {k l : K}, IsA Z k l → z ∈ₐ Z → ∃ v, Is z v ∧ k ≤ v ∧ v ≤ l := by
    intro Z z k l h hz
    rw [mem_bounds] at hz
    have f := Is.of_finite (finite_of_between h.1.1 h.2.1 hz.1 hz.2)
    exact ⟨_, f, (h.1.le_iff f).mp hz.1, (f.le_iff h.2).mp hz.2⟩
  obtain ⟨t, ht, a1, a2⟩ := point iF hf
  obtain ⟨k, hk, b1, b2⟩ := point iX hx
  obtain ⟨l, hl, c1, c2⟩ := point iY hy
  obtain rfl : t = F.lo.val := le_antisymm (a2.trans ef.ge) a1
  refine ⟨_, blendFractionsS_ok dbg ht t0 q1, ?_, ?_⟩
  · exact CppOrder.le_trans _ _ _ ma.1 (blend_mono one hq ht iX.1 hk iY.1 hl t0 q1 x1 x2 y1 y2 le_rfl b1 b2 le_rfl c1 c2)
  · exact CppOrder.le_trans _ _ _ (blend_mono one ht hr hk iX.2 hl iY.2 t0 q1 x1 x2 y1 y2 b1 b2 le_rfl c1 c2 le_rfl) mb.2

/-! ## blend_linear -/
/-- the fraction computed by `blend_linear` (interval.hpp:1327–1328) -/
def fracV (a b : Fl K) : Fl K := Fl.div (.num 1) (Fl.add (.num 1) (Fl.div b a))

theorem ext_pinf {a : Fl K} (h : ext a = ext (.pinf : Fl K)) : a = .pinf := by
  cases a <;> simp_all [ext] <;> first | exact absurd h (by simp) | cases h

theorem frac_fin {a b : Fl K} {k l w z : K} (ha : Is a k) (hb : Is b l) (hk : 0 < k) (hw : Is (Fmt.rnd (l / k) : Fl K) w)
    (hz : Is (Fmt.rnd (1 + w) : Fl K) z) (h1 : 1 ≤ z) : ext (fracV a b) = ext (Fmt.rnd (1 / z) : Fl K) := by
  have e1 : Is (Fl.div b a) w := Is.of_ext (ext_div hb ha hk.ne') hw
  have e2 : Is (Fl.add (.num 1) (Fl.div b a)) z := Is.of_ext (ext_add (Is.num 1) e1) hz
  exact ext_div (Is.num 1) e2 (by linarith)

theorem rnd_pinf_or {k m : K} (rm : (Fmt.rnd m : Fl K) = .num m) (h : m ≤ k) :
    (Fmt.rnd k : Fl K) = .pinf ∨ ∃ v, Is (Fmt.rnd k : Fl K) v ∧ m ≤ v := by
  have l := Fmt.rnd_mono m k h
  rw [rm] at l
  cases e : (Fmt.rnd k : Fl K) with
  | nan => exact absurd e (Fmt.rnd_ne_nan k)
  | ninf => rw [e] at l; simp at l
  | pinf => exact .inl rfl
  | nzero => rw [e] at l; exact .inr ⟨0, Is.nzero, by simpa using l⟩
  | num v => rw [e] at l; exact .inr ⟨v, Is.num v, by simpa using l⟩

/-- `blend_linear`'s fraction is a number of [0, 1]; it is 0 unless no intermediate result is infinite -/
theorem frac_cases (one : (Fmt.rnd (1 : K) : Fl K) = .num 1) {a b : Fl K} {k l : K} (ha : Is a k) (hb : Is b l) (hk : 0 ≤ k) (hl : 0 ≤ l)
    (h : 0 < k ∨ 0 < l) :
    ∃ v, Is (fracV a b) v ∧ 0 ≤ v ∧ v ≤ 1 ∧
      (v = 0 ∨ 0 < k ∧ ∃ w z, Is (Fmt.rnd (l / k) : Fl K) w ∧ 0 ≤ w ∧ Is (Fmt.rnd (1 + w) : Fl K) z ∧ 1 ≤ z ∧ Is (Fmt.rnd (1 / z) : Fl K) v) := by
  have zero : ∀ c : Fl K, (c = .pinf ∨ c = .ninf) → Is (Fl.div (.num 1) (Fl.add (.num 1) c)) (0 : K) := by
    rintro c (rfl | rfl)
    · simp [Fl.add, Fl.div, isNan, isInf, isZero, zeroS, signBit, not_lt.mpr (zero_le_one' K), Is.num]
    · simp [Fl.add, Fl.div, isNan, isInf, isZero, zeroS, signBit, not_lt.mpr (zero_le_one' K), Is.nzero]
  have zero' : ∀ c : Fl K, c = .pinf → Is (Fl.div (.num 1) c) (0 : K) := by
    rintro c rfl
    simp [Fl.div, isNan, isInf, isZero, zeroS, signBit, not_lt.mpr (zero_le_one' K), Is.num]
  rcases hk.lt_or_eq with c | c
  · rcases rnd_pinf_or (k := l / k) Fmt.rnd_zero (by positivity) with e | ⟨w, hw, w0⟩
    · exact ⟨0, zero _ (.inl (ext_pinf ((ext_div hb ha c.ne').trans (by rw [e])))), le_rfl, zero_le_one, .inl rfl⟩
    · have e1 : Is (Fl.div b a) w := Is.of_ext (ext_div hb ha c.ne') hw
      rcases rnd_pinf_or (k := 1 + w) one (by linarith) with e | ⟨z, hz, z1⟩
      · exact ⟨0, zero' _ (ext_pinf ((ext_add (Is.num 1) e1).trans (by rw [e]))), le_rfl, zero_le_one, .inl rfl⟩
      · have z0 : 0 < z := by linarith
        obtain ⟨v, hv, v0, v1⟩ := rnd_between (k := 1 / z) Fmt.rnd_zero one (by positivity) ((div_le_one z0).mpr z1)
        exact ⟨v, Is.of_ext (frac_fin ha hb c hw hz z1) hv, v0, v1, .inr ⟨c, w, z, hw, w0, hz, z1, hv⟩⟩
  · subst c
    have l0 : 0 < l := h.resolve_left (lt_irrefl _)
    refine ⟨0, zero _ ?_, le_rfl, zero_le_one, .inl rfl⟩
    obtain ⟨b1, b2, b3⟩ := finite_flags hb.1
    obtain ⟨a1, a2, a3⟩ := finite_flags ha.1
    have za : isZero a = true := a3.mpr ha.2
    have zb : isZero b = false := by
      cases c : isZero b with
      | false => rfl
      | true => rw [c] at b3; exact absurd (hb.2.symm.trans (b3.mp rfl)) l0.ne'
    simp only [Fl.div, a1, a2, b1, b2, za, zb, Bool.or_self, Bool.false_eq_true, if_false, if_true, infS]
    cases (signBit b != signBit a) <;> simp

theorem frac_mono (one : (Fmt.rnd (1 : K) : Fl K) = .num 1) {a b a' b' : Fl K} {k l k' l' : K} (ha : Is a k) (hb : Is b l) (ha' : Is a' k')
    (hb' : Is b' l') (hk : 0 ≤ k) (hl' : 0 ≤ l') (h : 0 < k ∨ 0 < l) (h' : 0 < k' ∨ 0 < l') (lk : k ≤ k') (ll : l' ≤ l) :
    le (fracV a b) (fracV a' b') = true := by
  obtain ⟨v, hv, v0, -, cv⟩ := frac_cases one ha hb hk (hl'.trans ll) h
  obtain ⟨v', hv', v0', -, -⟩ := frac_cases one ha' hb' (hk.trans lk) hl' h'
  rw [hv.le_iff hv']
  rcases cv with rfl | ⟨c, w, z, hw, w0, hz, z1, hv2⟩
  · exact v0'
  · have c' : 0 < k' := c.trans_le lk
    have lq : l' / k' ≤ l / k := div_le_div₀ (hl'.trans ll) ll c lk
    have fin : ∀ {p q : K} {m s : K}, (Fmt.rnd m : Fl K) = .num m → m ≤ p → p ≤ q → Is (Fmt.rnd q : Fl K) s → ∃ r, Is (Fmt.rnd p : Fl K) r ∧ m ≤ r ∧ r ≤ s := by
      intro p q m s rm h1 h2 hs
      have l1 := Fmt.rnd_mono m p h1
      have l2 := Fmt.rnd_mono p q h2
      rw [rm] at l1
      have f := Is.of_finite (finite_of_between (Is.num m).1 hs.1 l1 l2)
      exact ⟨_, f, ((Is.num m).le_iff f).mp l1, (f.le_iff hs).mp l2⟩
    obtain ⟨w', hw', w0', lw⟩ := fin Fmt.rnd_zero (div_nonneg hl' c'.le) lq hw
    obtain ⟨z', hz', z1', lz⟩ := fin one (show 1 ≤ 1 + w' by linarith) (add_le_add le_rfl lw) hz
    have e := frac_fin ha' hb' c' hw' hz' z1'
    refine (hv2.le_iff (Is.of_ext e.symm hv')).mp (Fmt.rnd_mono _ _ ?_)
    exact one_div_le_one_div_of_le (by linarith) lz

theorem addI_pos (dbg : Bool) {A B : Arg (Fl K)} (hA : FiniteA A) (hB : FiniteA B) (rA : RepA A) (rB : RepA B)
    (h0 : 0 ≤ A.lo.val) (h1 : 0 ≤ B.lo.val) (h : 0 < A.lo.val ∨ 0 < B.lo.val) :
    ∃ S R, addI dbg A B = .ok S ∧ opGt dbg (.ivl S) zeroA = .ok R ∧ BoolSet.always R = true := by
  have iA := isA_of_finite hA; have iB := isA_of_finite hB
  have e1 := ext_add iA.1 iB.1
  have e2 := ext_add iA.2 iB.2
  have lo : le (Fl.add A.lo B.lo) (Fl.add A.hi B.hi) = true := by
    rw [le_ext e1 e2]; exact Fmt.rnd_mono _ _ (add_le_add (iA.le hA.2.2) (iB.le hB.2.2))
  have pos : lt (.num 0) (Fl.add A.lo B.lo) = true := by
    have l1 : le A.lo (Fl.add A.lo B.lo) = true := by
      rw [le_ext (show ext A.lo = ext (Fmt.rnd A.lo.val : Fl K) by rw [rnd_rep rA.1 iA.1]; exact is_iff_ext.mp iA.1) e1]
      exact Fmt.rnd_mono _ _ (by linarith)
    have l2 : le B.lo (Fl.add A.lo B.lo) = true := by
      rw [le_ext (show ext B.lo = ext (Fmt.rnd B.lo.val : Fl K) by rw [rnd_rep rB.1 iB.1]; exact is_iff_ext.mp iB.1) e1]
      exact Fmt.rnd_mono _ _ (by linarith)
    rcases h with c | c
    · have : lt (.num 0) A.lo = true := ((Is.num 0).lt_iff iA.1).mpr c
      clear e1 e2 lo l2; grind
    · have : lt (.num 0) B.lo = true := ((Is.num 0).lt_iff iB.1).mpr c
      clear e1 e2 lo l1; grind
  refine ⟨⟨Fl.add A.lo B.lo, Fl.add A.hi B.hi⟩, compareLt zeroA (.ivl ⟨Fl.add A.lo B.lo, Fl.add A.hi B.hi⟩), ?_, ?_, ?_⟩
  · unfold addI
    rw [assigned_of_proper hA.2.2, assigned_of_proper hB.2.2, (isInf_false iA.1).1, (isInf_false iB.1).1]
    simpa [CppNum.add] using make_ok_of_le lo
  · have hp : Proper (⟨Fl.add A.lo B.lo, Fl.add A.hi B.hi⟩ : Ivl (Fl K)) := lo
    simp only [opGt, zeroA, assigned_of_proper (X := .ivl _) hp]
    simp [Arg.assigned]
  · have f1 : CppVal.lt (zeroA : Arg (Fl K)).lo (Arg.ivl ⟨Fl.add A.lo B.lo, Fl.add A.hi B.hi⟩).hi = true := by
      change lt (.num 0) (Fl.add A.hi B.hi) = true
      clear e1 e2; grind
    have f2 : CppVal.ge (zeroA : Arg (Fl K)).hi (Arg.ivl ⟨Fl.add A.lo B.lo, Fl.add A.hi B.hi⟩).lo = false := by
      change le (Fl.add A.lo B.lo) (.num 0) = false
      clear e1 e2 lo; grind
    simp only [compareLt, f1, f2]
    decide

/-- the preconditions of `blend_linear` hold and it blends with the fractions from `1/(1 + bhi/alo)` to `1/(1 + blo/ahi)` -/
theorem blendLinearI_eq (one : (Fmt.rnd (1 : K) : Fl K) = .num 1) (dbg : Bool) (A B X Y : Arg (Fl K)) (hA : FiniteA A) (hB : FiniteA B)
    (hX : FiniteA X) (hY : FiniteA Y) (rA : RepA A) (rB : RepA B) (h0 : le (.num 0) A.lo = true)
    (h1 : le (.num 0) B.lo = true) (h : lt (.num 0) A.lo = true ∨ lt (.num 0) B.lo = true) :
    FiniteA (.ivl ⟨fracV A.lo B.hi, fracV A.hi B.lo⟩ : Arg (Fl K)) ∧ le (.num 0) (fracV A.lo B.hi) = true ∧ le (fracV A.hi B.lo) (.num 1) = true ∧
      blendLinearI dbg A B X Y = blendFractionsI dbg (.ivl ⟨fracV A.lo B.hi, fracV A.hi B.lo⟩) X Y := by
  have iA := isA_of_finite hA; have iB := isA_of_finite hB
  have a0 : 0 ≤ A.lo.val := ((Is.num 0).le_iff iA.1).mp h0
  have b0 : 0 ≤ B.lo.val := ((Is.num 0).le_iff iB.1).mp h1
  have lA := iA.le hA.2.2; have lB := iB.le hB.2.2
  have hp : 0 < A.lo.val ∨ 0 < B.lo.val := h.imp ((Is.num 0).lt_iff iA.1).mp ((Is.num 0).lt_iff iB.1).mp
  have hp1 : 0 < A.lo.val ∨ 0 < B.hi.val := hp.imp id (fun c => c.trans_le lB)
  have hp2 : 0 < A.hi.val ∨ 0 < B.lo.val := hp.imp (fun c => c.trans_le lA) id
  obtain ⟨u, hu, u0, u1, -⟩ := frac_cases one iA.1 iB.2 a0 (b0.trans lB) hp1
  obtain ⟨v, hv, v0, v1, -⟩ := frac_cases one iA.2 iB.1 (a0.trans lA) b0 hp2
  have lq := frac_mono one iA.1 iB.2 iA.2 iB.1 a0 b0 hp1 hp2 lA lB
  refine ⟨⟨hu.1, hv.1, lq⟩, ((Is.num 0).le_iff hu).mpr u0, (hv.le_iff (Is.num 1)).mpr v1, ?_⟩
  have tail : (Ivl.make (fracV A.lo B.hi) (fracV A.hi B.lo) >>= fun q => blendFractionsI dbg (.ivl q) X Y) =
      blendFractionsI dbg (.ivl ⟨fracV A.lo B.hi, fracV A.hi B.lo⟩) X Y := by
    rw [make_ok_of_le lq]; rfl
  obtain ⟨R1, e1, -, t1⟩ := always_geA_zero true iA hA.2.2
  obtain ⟨R2, e2, -, t2⟩ := always_geA_zero true iB hB.2.2
  obtain ⟨S, R3, e3, e4, t3⟩ := addI_pos true hA hB rA rB a0 b0 hp
  unfold blendLinearI
  rw [assigned_of_proper hA.2.2, assigned_of_proper hB.2.2, assigned_of_proper hX.2.2, assigned_of_proper hY.2.2]
  cases dbg with
  | false => exact tail
  | true =>
    simp only [Bool.and_self, expectsDebug_true, ok_bind, if_true, e1, e2, e3, e4, t1, t2, t3, a0, b0, decide_true, expects_true]
    exact tail

/-- C77, blend_linear: whenever the preconditions hold, the result is an interval without NaN, although the quotients may overflow or divide
by zero; both bounds are scalar blends of points with the computed fraction 1/(1 + b/a) of two weights.  (Missing: the values of the scalar
function, see `C77_violated_linear`.) -/
theorem C77_linear_partial (one : (Fmt.rnd (1 : K) : Fl K) = .num 1) (dbg : Bool) (A B X Y : Arg (Fl K)) (hA : FiniteA A) (hB : FiniteA B)
    (hX : FiniteA X) (hY : FiniteA Y) (rA : RepA A) (rB : RepA B) (rX : RepA X) (rY : RepA Y) (h0 : le (.num 0) A.lo = true)
    (h1 : le (.num 0) B.lo = true) (h : lt (.num 0) A.lo = true ∨ lt (.num 0) B.lo = true) :
    ∃ R, blendLinearI dbg A B X Y = .ok R ∧ Proper R ∧
      (∃ a b x y, a ∈ₐ A ∧ b ∈ₐ B ∧ x ∈ₐ X ∧ y ∈ₐ Y ∧
        blendFractionsS dbg (Fl.div (.num 1) (Fl.add (.num 1) (Fl.div b a))) x y = .ok R.lo) ∧
      (∃ a b x y, a ∈ₐ A ∧ b ∈ₐ B ∧ x ∈ₐ X ∧ y ∈ₐ Y ∧
        blendFractionsS dbg (Fl.div (.num 1) (Fl.add (.num 1) (Fl.div b a))) x y = .ok R.hi) := by
  obtain ⟨hQ, q0, q1, e⟩ := blendLinearI_eq one dbg A B X Y hA hB hX hY rA rB h0 h1 h
  obtain ⟨R, eR, pR, ⟨f, x, y, hf, hx, hy, el⟩, ⟨f', x', y', hf', hx', hy', eh⟩⟩ := fractions_core one dbg
    (.ivl ⟨fracV A.lo B.hi, fracV A.hi B.lo⟩) X Y hQ hX hY rX rY q0 q1
  have mem : ∀ f, (f = fracV A.lo B.hi ∨ f = fracV A.hi B.lo) → ∃ a b, a ∈ₐ A ∧ b ∈ₐ B ∧ f = Fl.div (.num 1) (Fl.add (.num 1) (Fl.div b a)) := by
    rintro f (rfl | rfl)
    · exact ⟨_, _, mem_lo hA.2.2, mem_hi hB.2.2, rfl⟩
    · exact ⟨_, _, mem_hi hA.2.2, mem_lo hB.2.2, rfl⟩
  obtain ⟨a, b, ha, hb, rfl⟩ := mem f hf
  obtain ⟨a', b', ha', hb', rfl⟩ := mem f' hf'
  exact ⟨R, e.trans eR, pR, ⟨a, b, x, y, ha, hb, hx, hy, el⟩, ⟨a', b', x', y', ha', hb', hx', hy', eh⟩⟩

/-- C77, blend_linear with known weights: the result contains the scalar blend with the computed fraction 1/(1 + b/a) at every choice of points.
(Missing: the values of the scalar `blend_linear`, which computes the fractions differently; intervals of weights.) -/
theorem C77_linear_known_partial (one : (Fmt.rnd (1 : K) : Fl K) = .num 1) (dbg : Bool) (a b : Fl K) (X Y : Arg (Fl K))
    (ha : a.isFinite = true) (hb : b.isFinite = true) (hX : FiniteA X) (hY : FiniteA Y) (ra : Representable a) (rb : Representable b)
    (rX : RepA X) (rY : RepA Y) (h0 : le (.num 0) a = true) (h1 : le (.num 0) b = true) (h : lt (.num 0) a = true ∨ lt (.num 0) b = true) :
    ∃ R, blendLinearI dbg (.scalar a) (.scalar b) X Y = .ok R ∧
      ∀ x y, x ∈ₐ X → y ∈ₐ Y → ∃ r, blendFractionsS dbg (Fl.div (.num 1) (Fl.add (.num 1) (Fl.div b a))) x y = .ok r ∧ r ∈ᵢ R := by
  have hA : FiniteA (.scalar a : Arg (Fl K)) := ⟨ha, ha, CppOrder.le_right _ _ h0⟩
  have hB : FiniteA (.scalar b : Arg (Fl K)) := ⟨hb, hb, CppOrder.le_right _ _ h1⟩
  obtain ⟨hQ, q0, q1, e⟩ := blendLinearI_eq one dbg (.scalar a) (.scalar b) X Y hA hB hX hY ⟨ra, ra⟩ ⟨rb, rb⟩ h0 h1 h
  have self : eq (fracV a b) (fracV a b) = true := by
    have := CppOrder.eq_iff (T := Fl K) (fracV a b) (fracV a b)
    exact this.mpr ⟨hQ.2.2, hQ.2.2⟩
  obtain ⟨R, eR, hR⟩ := C77_fractions_known_partial one dbg (.ivl ⟨fracV a b, fracV a b⟩) X Y hQ hX hY rX rY q0 q1 self
  exact ⟨R, e.trans eR, fun x y hx hy => hR _ x y ⟨hQ.2.2, hQ.2.2⟩ hx hy⟩

/-! ## The error of rounding -/
/-- rounding a number of magnitude at most `M` gives a finite number that differs by at most `e` -/
def AbsErr (M e : K) : Prop := ∀ k : K, |k| ≤ M → ∃ v, Is (Fmt.rnd k : Fl K) v ∧ |v - k| ≤ e

/-- the scalar function is accurate up to `3e + e₁M` -/
theorem blend_err {M e e₁ : K} (E : AbsErr (2 * M) e) (E₁ : AbsErr (1 : K) e₁) (one : (Fmt.rnd (1 : K) : Fl K) = .num 1)
    {f x y : Fl K} {t k l m N m' N' : K} (hf : Is f t) (hx : Is x k) (hy : Is y l) (h0 : 0 ≤ t) (h1 : t ≤ 1)
    (rm : (Fmt.rnd m : Fl K) = .num m) (rN : (Fmt.rnd N : Fl K) = .num N) (l1 : m ≤ k) (l2 : k ≤ N)
    (rm' : (Fmt.rnd m' : Fl K) = .num m') (rN' : (Fmt.rnd N' : Fl K) = .num N') (l1' : m' ≤ l) (l2' : l ≤ N')
    (bm : -M ≤ m) (bN : N ≤ M) (bm' : -M ≤ m') (bN' : N' ≤ M) :
    ∃ v, Is (blendV f x y) v ∧ |v - (t * k + (1 - t) * l)| ≤ 3 * e + e₁ * M := by
  obtain ⟨g, p, q, hg, g0, g1, hp, hq, bp, bq, ext⟩ := blend_ext one hf hx hy h0 h1 rm rN l1 l2 rm' rN' l1' l2'
  have M0 : 0 ≤ M := by linarith
  have p1 : -M ≤ p := (le_min (by linarith) bm).trans bp.1
  have p2 : p ≤ M := bp.2.trans (max_le M0 bN)
  have q1 : -M ≤ q := (le_min (by linarith) bm').trans bq.1
  have q2 : q ≤ M := bq.2.trans (max_le M0 bN')
  obtain ⟨v, hv, ev⟩ := E (p + q) (abs_le.mpr ⟨by linarith, by linarith⟩)
  obtain ⟨p', hp', ep⟩ := E (t * k) (abs_le.mpr ⟨by nlinarith, by nlinarith⟩)
  obtain ⟨q', hq', eq'⟩ := E (g * l) (abs_le.mpr ⟨by nlinarith, by nlinarith⟩)
  obtain ⟨g', hg', eg⟩ := E₁ (1 - t) (abs_le.mpr ⟨by linarith, by linarith⟩)
  obtain rfl := Is.unique hp hp'
  obtain rfl := Is.unique hq hq'
  obtain rfl := Is.unique hg hg'
  have e0 : 0 ≤ e₁ := (abs_nonneg _).trans eg
  refine ⟨v, Is.of_ext ext hv, ?_⟩
  have gl : |(g - (1 - t)) * l| ≤ e₁ * M := by
    rw [abs_mul]
    exact mul_le_mul eg (abs_le.mpr ⟨by linarith, by linarith⟩) (abs_nonneg _) e0
  rw [abs_le] at *
  constructor <;> nlinarith [ev.1, ev.2, ep.1, ep.2, eq'.1, eq'.2, gl.1, gl.2]

/-- C77, blend_fractions: in a format with absolute rounding error `e` for numbers up to `2M` and `e₁` for numbers up to 1, on operands of
magnitude at most `M`, the result contains the real blend of any real points up to `3e + e₁M`, and the scalar result up to twice that.
(Missing: containment without this tolerance.) -/
theorem C77_error_partial {M e e₁ : K} (E : AbsErr (2 * M) e) (E₁ : AbsErr (1 : K) e₁) (one : (Fmt.rnd (1 : K) : Fl K) = .num 1) (dbg : Bool)
    (F X Y : Arg (Fl K)) (hF : FiniteA F) (hX : FiniteA X) (hY : FiniteA Y) (rX : RepA X) (rY : RepA Y) (h0 : le (.num 0) F.lo = true)
    (h1 : le F.hi (.num 1) = true) (bX : ∀ x : K, .num x ∈ₐ X → |x| ≤ M) (bY : ∀ y : K, .num y ∈ₐ Y → |y| ≤ M) :
    ∃ R m N, blendFractionsI dbg F X Y = .ok R ∧ Is R.lo m ∧ Is R.hi N ∧
      ∀ f x y : K, .num f ∈ₐ F → .num x ∈ₐ X → .num y ∈ₐ Y →
        (m - (3 * e + e₁ * M) ≤ f * x + (1 - f) * y ∧ f * x + (1 - f) * y ≤ N + (3 * e + e₁ * M)) ∧
        ∃ r v, blendFractionsS dbg (.num f) (.num x) (.num y) = .ok r ∧ Is r v ∧
          m - 2 * (3 * e + e₁ * M) ≤ v ∧ v ≤ N + 2 * (3 * e + e₁ * M) := by
  have iF := isA_of_finite hF; have iX := isA_of_finite hX; have iY := isA_of_finite hY
  have t0 : 0 ≤ F.lo.val := ((Is.num 0).le_iff iF.1).mp h0
  have t1 : F.hi.val ≤ 1 := (iF.2.le_iff (Is.num 1)).mp h1
  have lF := iF.le hF.2.2; have lX := iX.le hX.2.2; have lY := iY.le hY.2.2
  have x1 := rnd_rep rX.1 iX.1; have x2 := rnd_rep rX.2 iX.2
  have y1 := rnd_rep rY.1 iY.1; have y2 := rnd_rep rY.2 iY.2
  have bx1 := abs_le.mp (bX X.lo.val (iX.mem_num.mpr ⟨le_rfl, lX⟩))
  have bx2 := abs_le.mp (bX X.hi.val (iX.mem_num.mpr ⟨lX, le_rfl⟩))
  have by1 := abs_le.mp (bY Y.lo.val (iY.mem_num.mpr ⟨le_rfl, lY⟩))
  have by2 := abs_le.mp (bY Y.hi.val (iY.mem_num.mpr ⟨lY, le_rfl⟩))
  rw [blendFractionsI_eq dbg iF hF.2.2 hX.2.2 hY.2.2 t0 t1]
  have c1 : ∃ q, Is (if ge X.lo Y.lo then F.lo else F.hi) q ∧ 0 ≤ q ∧ q ≤ 1 ∧
      (∀ f, F.lo.val ≤ f → f ≤ F.hi.val → q * X.lo.val + (1 - q) * Y.lo.val ≤ f * X.lo.val + (1 - f) * Y.lo.val) := by
    rw [show ge X.lo Y.lo = decide (Y.lo.val ≤ X.lo.val) from iY.1.le_eq iX.1]
    by_cases c : Y.lo.val ≤ X.lo.val
    · rw [if_pos (by simpa using c)]; exact ⟨_, iF.1, t0, lF.trans t1, fun f a b => by nlinarith⟩
    · rw [if_neg (by simpa using c)]; exact ⟨_, iF.2, t0.trans lF, t1, fun f a b => by nlinarith⟩
  have c2 : ∃ q, Is (if ge X.hi Y.hi then F.hi else F.lo) q ∧ 0 ≤ q ∧ q ≤ 1 ∧
      (∀ f, F.lo.val ≤ f → f ≤ F.hi.val → f * X.hi.val + (1 - f) * Y.hi.val ≤ q * X.hi.val + (1 - q) * Y.hi.val) := by
    rw [show ge X.hi Y.hi = decide (Y.hi.val ≤ X.hi.val) from iY.2.le_eq iX.2]
    by_cases c : Y.hi.val ≤ X.hi.val
    · rw [if_pos (by simpa using c)]; exact ⟨_, iF.2, t0.trans lF, t1, fun f a b => by nlinarith⟩
    · rw [if_neg (by simpa using c)]; exact ⟨_, iF.1, t0, lF.trans t1, fun f a b => by nlinarith⟩
  obtain ⟨q, hq, q0, q1, mq⟩ := c1
  obtain ⟨r, hr, r0, r1, mr⟩ := c2
  obtain ⟨u, hu, eu⟩ := blend_err E E₁ one hq iX.1 iY.1 q0 q1 x1 x1 le_rfl le_rfl y1 y1 le_rfl le_rfl bx1.1 bx1.2 by1.1 by1.2
  obtain ⟨w, hw, ew⟩ := blend_err E E₁ one hr iX.2 iY.2 r0 r1 x2 x2 le_rfl le_rfl y2 y2 le_rfl le_rfl bx2.1 bx2.2 by2.1 by2.2
  obtain ⟨R, eR, hR⟩ := hu.unordered hw
  refine ⟨R, _, _, eR, hR.1, hR.2, ?_⟩
  intro f x y hf hx hy
  rw [iF.mem_num] at hf; rw [iX.mem_num] at hx; rw [iY.mem_num] at hy
  have f0 : 0 ≤ f := t0.trans hf.1
  have f1 : f ≤ 1 := hf.2.trans t1
  have mono : ∀ x x' y y', x ≤ x' → y ≤ y' → f * x + (1 - f) * y ≤ f * x' + (1 - f) * y' := by
    intro x x' y y' c d
    have := mul_le_mul_of_nonneg_left c f0
    have := mul_le_mul_of_nonneg_left d (by linarith : 0 ≤ 1 - f)
    linarith
  have k1 := mono _ _ _ _ hx.1 hy.1
  have k2 := mono _ _ _ _ hx.2 hy.2
  have k3 := mq f hf.1 hf.2
  have k4 := mr f hf.1 hf.2
  have k5 := min_le_left u w
  have k6 := le_max_right u w
  obtain ⟨v, hv, ev⟩ := blend_err E E₁ one (Is.num f) (Is.num x) (Is.num y) f0 f1 x1 x2 hx.1 hx.2 y1 y2 hy.1 hy.2 bx1.1 bx2.2 by1.1 by2.2
  rw [abs_le] at eu ew ev
  refine ⟨⟨by linarith, by linarith⟩, _, v, blendFractionsS_ok dbg (Is.num f) f0 f1, hv, by linarith, by linarith⟩
end

/-- binary formats: the rounding error of numbers up to `2^n` is at most half a unit in the last place -/
theorem absErr_bin {p emin : ℤ} {Ω : ℚ} (hp : 1 ≤ p) (hΩ : 0 ≤ Ω) (n : ℤ) (hn : (2:ℚ)^n ≤ Ω) (he : emin ≤ n - p) :
    let := binFmt p emin Ω hp hΩ
    AbsErr ((2:ℚ)^n) (2^(n - p) / 2) := by
  intro _ k hk
  obtain ⟨h1, h2, h3⟩ := rndBin_near hp n hn he hk
  exact ⟨_, ⟨h1, h2⟩, h3⟩

theorem two_zpow_le_max {n : ℤ} (hn : n ≤ 1023) : (2:ℚ)^n ≤ (2^53 - 1) * 2^971 := by
  have h : (2:ℚ)^n ≤ 2^(1023:ℤ) := zpow_le_zpow_right₀ (by norm_num) hn
  refine h.trans ?_
  rw [show (1023:ℤ) = 52 + (971:ℕ) from rfl, zpow_add₀ (by norm_num), zpow_natCast]
  exact mul_le_mul_of_nonneg_right (by norm_num) (pow_pos (by norm_num) _).le

/-- C77 for `double`: on operands of magnitude at most `2^n`, blend_fractions contains the real blend of any points up to `7·2^(n-54)`, and
the scalar result up to twice that. -/
theorem C77_double_partial (n : ℤ) (h1 : -1022 ≤ n) (h2 : n ≤ 1022) (dbg : Bool) (F X Y : Arg (Fl ℚ)) (hF : FiniteA F) (hX : FiniteA X)
    (hY : FiniteA Y) (rX : let := binary64Fmt; RepA X) (rY : let := binary64Fmt; RepA Y) (f0 : le (.num 0) F.lo = true)
    (f1 : le F.hi (.num 1) = true) (bX : ∀ x : ℚ, .num x ∈ₐ X → |x| ≤ 2^n) (bY : ∀ y : ℚ, .num y ∈ₐ Y → |y| ≤ 2^n) :
    let := binary64Fmt
    ∃ R m N, blendFractionsI dbg F X Y = .ok R ∧ Is R.lo m ∧ Is R.hi N ∧
      ∀ f x y : ℚ, .num f ∈ₐ F → .num x ∈ₐ X → .num y ∈ₐ Y →
        (m - 7 * 2^(n - 54) ≤ f * x + (1 - f) * y ∧ f * x + (1 - f) * y ≤ N + 7 * 2^(n - 54)) ∧
        ∃ r v, blendFractionsS dbg (.num f) (.num x) (.num y) = .ok r ∧ Is r v ∧
          m - 14 * 2^(n - 54) ≤ v ∧ v ≤ N + 14 * 2^(n - 54) := by
  intro _
  have E := absErr_bin (p := 53) (emin := -1074) (Ω := (2^53 - 1) * 2^971) (by norm_num) (by norm_num) (n + 1) (two_zpow_le_max (by omega)) (by omega)
  have E₁ := absErr_bin (p := 53) (emin := -1074) (Ω := (2^53 - 1) * 2^971) (by norm_num) (by norm_num) 0 (two_zpow_le_max (by omega)) (by norm_num)
  rw [show (2:ℚ)^(n + 1) = 2 * 2^n by rw [zpow_add₀ (by norm_num), zpow_one, mul_comm]] at E
  rw [zpow_zero] at E₁
  have tol : 3 * ((2:ℚ)^(n + 1 - 53) / 2) + 2^((0:ℤ) - 53) / 2 * 2^n = 7 * 2^(n - 54) := by
    have a : (2:ℚ)^(n + 1 - 53) = 4 * 2^(n - 54) := by
      rw [show n + 1 - 53 = 2 + (n - 54) by ring, zpow_add₀ (by norm_num)]; norm_num
    have b : (2:ℚ)^((0:ℤ) - 53) * 2^n = 2 * 2^(n - 54) := by
      rw [← zpow_add₀ (by norm_num), show (0:ℤ) - 53 + n = 1 + (n - 54) by ring, zpow_add₀ (by norm_num)]; norm_num
    rw [a, div_mul_eq_mul_div, b]; ring
  obtain ⟨R, m, N, eR, hm, hN, h⟩ := C77_error_partial E E₁ (by decide +kernel) dbg F X Y hF hX hY rX rY f0 f1 bX bY
  rw [tol] at h
  refine ⟨R, m, N, eR, hm, hN, ?_⟩
  intro f x y hf hx hy
  obtain ⟨a, r, v, c, d, e1, e2⟩ := h f x y hf hx hy
  exact ⟨a, r, v, c, d, by linarith, by linarith⟩

/-- Rounding makes blends miss scalar results: in `double`, blending 3 with 3 for fractions of [0, 1] gives [3, 3], but with the fraction 0.2
the scalar function returns a number above 3. -/
theorem C77_violated :
    let := binary64Fmt
    ∃ f r : Fl ℚ, Representable f ∧ f ∈ₐ (.ivl ⟨.num 0, .num 1⟩ : Arg (Fl ℚ)) ∧
      blendFractionsI true (.ivl ⟨.num 0, .num 1⟩) (.scalar (.num 3)) (.scalar (.num (3 : ℚ))) = .ok ⟨.num 3, .num 3⟩ ∧
      blendFractionsS true f (.num 3) (.num 3) = .ok r ∧ lt (.num 3) r = true :=
  ⟨.num (3602879701896397 / 18014398509481984), .num (3 + 1/2^51), by decide +kernel, ⟨by decide +kernel, by decide +kernel⟩, by decide +kernel,
    by decide +kernel, by decide +kernel⟩

/-- The interval function avoids the overflow of the scalar one: in `double` with the weights 2^1023 and 2^1023, blend_linear of 1 and 1 is
[1, 1] for an interval operand but 0 for scalars. -/
theorem C77_violated_linear :
    let := binary64Fmt
    ∃ a : Fl ℚ, Representable a ∧ lt (.num 0) a = true ∧
      blendLinearI true (.scalar a) (.scalar a) (.ivl ⟨.num 1, .num 1⟩) (.scalar (.num 1)) = .ok ⟨.num 1, .num 1⟩ ∧
      blendLinearS true a a (.num 1) (.num 1) = .ok (.num 0) :=
  ⟨.num (2^1023), by decide +kernel, by decide +kernel, by decide +kernel, by decide +kernel⟩

theorem C77_full_violated : ¬ C77_full := by
  intro h
  obtain ⟨f, r, -, hf, e, es, lt3⟩ := C77_violated
  let _ := binary64Fmt
  obtain ⟨R, eR, hR⟩ := (h ℚ (by decide +kernel)).1 true (.ivl ⟨.num 0, .num 1⟩) (.scalar (.num 3)) (.scalar (.num 3))
    ⟨rfl, rfl, by decide +kernel⟩ ⟨rfl, rfl, by decide +kernel⟩ ⟨rfl, rfl, by decide +kernel⟩ ⟨by decide +kernel, by decide +kernel⟩
    ⟨by decide +kernel, by decide +kernel⟩ ⟨by decide +kernel, by decide +kernel⟩ (by decide +kernel) (by decide +kernel)
  rw [e] at eR; cases eR
  obtain ⟨r', er, m⟩ := hR f (.num 3) (.num 3) hf ⟨by decide +kernel, by decide +kernel⟩ ⟨by decide +kernel, by decide +kernel⟩
  rw [es] at er; cases er
  have := CppOrder.lt_iff (T := Fl ℚ) (.num 3) r
  grind [m.2]

/-! Examples: double operands; the hypotheses of `C77_error_partial` with `M = 2^10`. -/
example : let := binary64Fmt
    FiniteA (.ivl ⟨.num (1/4), .num (1/2)⟩ : Arg (Fl ℚ)) ∧ RepA (.ivl ⟨.num (1/4), .num (1/2)⟩ : Arg (Fl ℚ)) ∧ (Fmt.rnd (1 : ℚ) : Fl ℚ) = .num 1 ∧
    blendFractionsI true (.ivl ⟨.num (1/4), .num (1/2)⟩) (.ivl ⟨.num (-3), .num 5⟩) (.scalar (.num (7 : ℚ))) = .ok ⟨.num 2, .num (13/2)⟩ := by
  refine ⟨⟨rfl, rfl, by decide +kernel⟩, ⟨by decide +kernel, by decide +kernel⟩, by decide +kernel, by decide +kernel⟩
example : let := binary64Fmt
    blendLinearI true (.ivl ⟨.nzero, .num 1⟩) (.scalar (.num (1/2^1074))) (.ivl ⟨.num (-3), .num 5⟩) (.scalar (.num (7 : ℚ))) =
      .ok ⟨.num (-3), .num 7⟩ := by decide +kernel
example : let := binary64Fmt
    Representable (.num 3 : Fl ℚ) ∧ lt (.num 0 : Fl ℚ) (.num 3) = true ∧
    blendLinearI true (.scalar (.num 3)) (.scalar (.num 1)) (.ivl ⟨.num (-4), .num 8⟩) (.scalar (.num (12 : ℚ))) = .ok ⟨.num 0, .num 9⟩ := by
  refine ⟨?_, by decide +kernel, ?_⟩ <;> decide +kernel
example : let := binary64Fmt
    AbsErr (2 * 2^10 : ℚ) (2^(11 - 53 : ℤ) / 2) ∧ AbsErr (1 : ℚ) (2^(0 - 53 : ℤ) / 2) := by
  intro _
  have h : ∀ n : ℕ, n ≤ 971 → (2:ℚ)^(n:ℤ) ≤ (2^53 - 1) * 2^971 := by
    intro n hn
    rw [zpow_natCast]
    calc (2:ℚ)^n ≤ 2^971 := pow_le_pow_right₀ (by norm_num) hn
      _ ≤ (2^53 - 1) * 2^971 := by
        have : (0:ℚ) < 2^971 := by positivity
        exact le_mul_of_one_le_left this.le (by norm_num)
  constructor
  · have := absErr_bin (p := 53) (emin := -1074) (Ω := (2^53 - 1) * 2^971) (by norm_num) (by norm_num) 11 (h 11 (by norm_num)) (by norm_num)
    rwa [show (2:ℚ)^(11:ℤ) = 2 * 2^10 by norm_num] at this
  · have := absErr_bin (p := 53) (emin := -1074) (Ω := (2^53 - 1) * 2^971) (by norm_num) (by norm_num) 0 (h 0 (by norm_num)) (by norm_num)
    rwa [show (2:ℚ)^(0:ℤ) = 1 by norm_num] at this
end Intervals.Props
