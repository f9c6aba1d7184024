import Verif.Props.Rounded
import Verif.Lemmas.Hull
import Verif.Spec.Laws
/-!
# C72: laws of interval arithmetic, floating-point value types
-/
set_option linter.unusedSectionVars false
namespace Intervals.Props
open Intervals CppVal Spec Fl

variable {K : Type} [Field K] [LinearOrder K] [IsStrictOrderedRing K] [Fmt K]

/-- operands related by a map of points under which the point operations agree have the same results -/
theorem same_of_exact {f f' : Fl K → Fl K → Fl K} {X Y X' Y' : Arg (Fl K)} {r r' : Outcome (Ivl (Fl K))}
    (h : FloatExact2 f X Y r) (h' : FloatExact2 f' X' Y' r')
    (fwd : ∀ a b, a ∈ₐ X → b ∈ₐ Y → ∃ a' b', a' ∈ₐ X' ∧ b' ∈ₐ Y' ∧ f' a' b' = f a b)
    (bwd : ∀ a b, a ∈ₐ X' → b ∈ₐ Y' → ∃ a' b', a' ∈ₐ X ∧ b' ∈ₐ Y ∧ f a' b' = f' a b) : SameVal r r' := by
  rcases h with ⟨⟨a, b, ha, hb, hn⟩, h⟩ | ⟨hd, R, hR, hin, ⟨a, b, ha, hb, hl⟩, ⟨c, d, hc, hd', hh⟩⟩
  · obtain ⟨a', b', ha', hb', e⟩ := fwd a b ha hb
    rcases h' with ⟨_, h'⟩ | ⟨hd, _⟩
    · exact Or.inl ⟨h, h'⟩
    · exact absurd (e.trans hn) (hd a' b' ha' hb')
  · rcases h' with ⟨⟨a, b, ha, hb, hn⟩, h'⟩ | ⟨_, R', hR', hin', ⟨a', b', ha', hb', hl'⟩, ⟨c', d', hc', hd'', hh'⟩⟩
    · obtain ⟨a', b', ha', hb', e⟩ := bwd a b ha hb
      exact absurd (e.trans hn) (hd a' b' ha' hb')
    · refine Or.inr ⟨R, R', hR, hR', ?_, ?_⟩
      · obtain ⟨p, q, hp, hq, e⟩ := fwd a b ha hb
        obtain ⟨p', q', hp', hq', e'⟩ := bwd a' b' ha' hb'
        have h1 := (hin' p q hp hq).1; have h2 := (hin p' q' hp' hq').1
        rw [e, hl] at h1; rw [e', hl'] at h2
        exact (CppOrder.eq_iff _ _).mpr ⟨h2, h1⟩
      · obtain ⟨p, q, hp, hq, e⟩ := fwd c d hc hd'
        obtain ⟨p', q', hp', hq', e'⟩ := bwd c' d' hc' hd''
        have h1 := (hin' p q hp hq).2; have h2 := (hin p' q' hp' hq').2
        rw [e, hh] at h1; rw [e', hh'] at h2
        exact (CppOrder.eq_iff _ _).mpr ⟨h1, h2⟩

/-- C72: addition commutes, in every format. -/
theorem C72_add_comm (dbg : Bool) (X Y : Arg (Fl K)) (hX : ProperA X) (hY : ProperA Y) : SameVal (addI dbg X Y) (addI dbg Y X) :=
  same_of_exact (C30_add dbg X Y hX hY) (C30_add dbg Y X hY hX)
    (fun a b ha hb => ⟨b, a, hb, ha, add_comm' b a⟩) (fun a b ha hb => ⟨b, a, hb, ha, add_comm' b a⟩)

/-- C72: multiplication commutes, in every format. -/
theorem C72_mul_comm (dbg : Bool) (X Y : Arg (Fl K)) (hX : ProperA X) (hY : ProperA Y) : SameVal (mulI dbg X Y) (mulI dbg Y X) :=
  same_of_exact (C31_mul dbg X Y hX hY) (C31_mul dbg Y X hY hX)
    (fun a b ha hb => ⟨b, a, hb, ha, mul_comm' b a⟩) (fun a b ha hb => ⟨b, a, hb, ha, mul_comm' b a⟩)

theorem neg_neg' (a : Fl K) : neg (neg a) = a := by
  cases a <;> simp [neg]
  split_ifs with h <;> simp [h]

/-- C72: negation is defined for every valid interval, and subtraction is addition of the negative, in every format. -/
theorem C72_sub_neg (dbg : Bool) (X : Arg (Fl K)) (Y : Ivl (Fl K)) (hX : ProperA X) (hY : Proper Y) :
    ∃ N, negI dbg Y = .ok N ∧ SameVal (subI dbg X (.ivl Y)) (addI dbg X (.ivl N)) := by
  obtain ⟨N, hN, hin, ⟨a, ha, hl⟩, ⟨b, hb, hh⟩⟩ := C30_neg dbg Y hY
  have hNp : Proper N := by
    have := hin _ ha
    unfold Pt Proper at *; grind
  have mem : ∀ c, c ∈ᵢ N → neg c ∈ᵢ Y := by
    intro c hc
    have h1 := neg_anti hc.1; have h2 := neg_anti hc.2
    rw [← hl, neg_neg'] at h1; rw [← hh, neg_neg'] at h2
    unfold Pt at *; grind
  refine ⟨N, hN, same_of_exact (C30_sub dbg X (.ivl Y) hX hY) (C30_add dbg X (.ivl N) hX hNp)
    (fun a b ha hb => ⟨a, neg b, ha, hin b hb, rfl⟩) (fun a b ha hb => ⟨a, neg b, ha, mem b hb, ?_⟩)⟩
  unfold Fl.sub; rw [neg_neg']

/-- a monotone point function that leaves the bounds alone leaves the interval alone -/
theorem neutral_of {f : Fl K → Fl K → Fl K} {X : Arg (Fl K)} {e : Fl K} {r : Outcome (Ivl (Fl K))} (hX : ProperA X) (he : NotNan e)
    (H : FloatExact2 f X (.scalar e) r) (hm : ∀ a a' b, le a a' = true → eq b e = true → le (f a b) (f a' b) = true)
    (hv : ∀ b, eq b e = true → eq (f X.lo b) X.lo = true ∧ eq (f X.hi b) X.hi = true) (hn : ∀ a b, a ∈ₐ X → eq b e = true → f a b ≠ .nan) :
    SameVal r (.ok ⟨X.lo, X.hi⟩) := by
  have hee : e ∈ₐ Arg.scalar e := mem_bounds.mpr ⟨he, he⟩
  have pt : ∀ {b : Fl K}, b ∈ₐ Arg.scalar e → eq b e = true := fun hb => by
    obtain ⟨h1, h2⟩ := mem_bounds.mp hb
    exact (CppOrder.eq_iff _ _).mpr ⟨h2, h1⟩
  rcases H with ⟨⟨a, b, ha, hb, h⟩, -⟩ | ⟨-, R, hR, hin, ⟨a, b, ha, hb, hl⟩, ⟨c, d, hc, hd, hh⟩⟩
  · exact absurd h (hn a b ha (pt hb))
  · refine Or.inr ⟨R, _, hR, rfl, ?_, ?_⟩
    · have h1 := hm _ _ b (mem_bounds.mp ha).1 (pt hb)
      have h2 := (hv b (pt hb)).1
      have h3 := (hin _ _ (lo_mem hX) hb).1
      rw [hl] at h1
      show eq R.lo X.lo = true
      grind
    · have h1 := hm _ _ d (mem_bounds.mp hc).2 (pt hd)
      have h2 := (hv d (pt hd)).2
      have h3 := (hin _ _ (hi_mem hX) hd).2
      rw [hh] at h1
      show eq R.hi X.hi = true
      grind

theorem eq_zero_cases {b : Fl K} (h : eq b (.num 0) = true) : b = .num 0 ∨ b = .nzero := by
  cases b <;> simp_all [CppVal.eq, ext]
  cases h
theorem eq_one_cases {b : Fl K} (h : eq b (.num 1) = true) : b = .num 1 := by
  cases b <;> simp_all [CppVal.eq, ext]
  cases h
theorem eq_self {a : Fl K} (h : a ≠ .nan) : eq a a = true := (CppOrder.eq_iff _ _).mpr ⟨le_refl_of_ne h, le_refl_of_ne h⟩
theorem eq_of_ext_fl {a b : Fl K} (h : ext a = ext b) (hb : b ≠ .nan) : eq a b = true := by
  cases a <;> cases b <;> simp_all [CppVal.eq, ext]

theorem add_zero_val {a b : Fl K} (ha : a ≠ .nan) (hr : Representable a) (hb : eq b (.num 0) = true) : eq (add a b) a = true := by
  have fb : isFinite b = true ∧ val b = 0 := by rcases eq_zero_cases hb with rfl | rfl <;> exact ⟨rfl, rfl⟩
  cases a with
  | nan => exact absurd rfl ha
  | ninf => rcases eq_zero_cases hb with rfl | rfl <;> exact eq_self (by simp [add, isNan, isInf])
  | pinf => rcases eq_zero_cases hb with rfl | rfl <;> exact eq_self (by simp [add, isNan, isInf])
  | nzero =>
    refine eq_of_ext_fl ?_ (by simp)
    rw [ext_add rfl fb.1, fb.2]; simp [val, ext, show Fmt.rnd (0:K) = .num 0 from Fmt.rnd_zero]
  | num k =>
    refine eq_of_ext_fl ?_ (by simp)
    rw [ext_add rfl fb.1, fb.2]; simp only [val, add_zero]; rw [show Fmt.rnd k = .num k from hr]
theorem mul_one_val {a : Fl K} (ha : a ≠ .nan) (hr : Representable a) : eq (mul a (.num 1)) a = true := by
  cases a with
  | nan => exact absurd rfl ha
  | ninf =>
    rw [show mul ninf (.num (1:K)) = ninf by simp [mul, isNan, isInf, isZero, signBit, infS]]
    exact eq_self (by simp)
  | pinf =>
    rw [show mul pinf (.num (1:K)) = pinf by simp [mul, isNan, isInf, isZero, signBit, infS]]
    exact eq_self (by simp)
  | nzero => exact eq_of_ext_fl (by rw [ext_mul rfl rfl]; simp [val, ext, show Fmt.rnd (0:K) = .num 0 from Fmt.rnd_zero]) (by simp)
  | num k => exact eq_of_ext_fl (by rw [ext_mul rfl rfl]; simp only [val, mul_one]; rw [show Fmt.rnd k = .num k from hr]) (by simp)
theorem div_one_val {a : Fl K} (ha : a ≠ .nan) (hr : Representable a) : eq (div a (.num 1)) a = true := by
  cases a with
  | nan => exact absurd rfl ha
  | ninf =>
    rw [show div ninf (.num (1:K)) = ninf by simp [div, isNan, isInf, isZero, signBit, infS]]
    exact eq_self (by simp)
  | pinf =>
    rw [show div pinf (.num (1:K)) = pinf by simp [div, isNan, isInf, isZero, signBit, infS]]
    exact eq_self (by simp)
  | nzero => exact eq_of_ext_fl (by rw [ext_div rfl rfl one_ne_zero]; simp [val, ext, show Fmt.rnd (0:K) = .num 0 from Fmt.rnd_zero]) (by simp)
  | num k => exact eq_of_ext_fl (by rw [ext_div rfl rfl one_ne_zero]; simp only [val, div_one]; rw [show Fmt.rnd k = .num k from hr]) (by simp)

theorem mem_ne_nan {X : Arg (Fl K)} {a : Fl K} (h : a ∈ₐ X) : a ≠ .nan := ne_nan_of_le_left (mem_bounds.mp h).2

/-- C72: zero is neutral for addition and subtraction, one for multiplication and division, in every format (bounds representable,
possibly infinite). -/
theorem C72_neutral (dbg : Bool) (X : Arg (Fl K)) (hX : ProperA X) (hl : Representable X.lo) (hh : Representable X.hi) :
    SameVal (addI dbg X (.scalar (.num 0))) (.ok ⟨X.lo, X.hi⟩) ∧ SameVal (subI dbg X (.scalar (.num 0))) (.ok ⟨X.lo, X.hi⟩) ∧
    SameVal (mulI dbg X (.scalar (.num 1))) (.ok ⟨X.lo, X.hi⟩) ∧ SameVal (divI dbg X (.scalar (.num 1))) (.ok ⟨X.lo, X.hi⟩) := by
  have n0 : ProperA (Arg.scalar (Fl.num (0:K))) := le_refl_of_ne (by simp)
  have n1 : ProperA (Arg.scalar (Fl.num (1:K))) := le_refl_of_ne (by simp)
  have nl := mem_ne_nan (lo_mem hX); have nh := mem_ne_nan (hi_mem hX)
  have an : ∀ a b : Fl K, a ≠ .nan → eq b (.num 0) = true → add a b ≠ .nan := by
    intro a b ha hb h
    rcases eq_zero_cases hb with rfl | rfl <;> rw [add_eq_nan ha (by simp)] at h <;> simp at h
  have mn : ∀ a : Fl K, a ≠ .nan → mul a (.num 1) ≠ .nan := by
    intro a ha h
    rw [mul_eq_nan ha (by simp)] at h
    simp [isZero, isInf] at h
  have dn : ∀ a : Fl K, a ≠ .nan → div a (.num 1) ≠ .nan := by
    intro a ha h
    rw [div_eq_nan ha (by simp)] at h
    simp [isZero, isInf] at h
  have nz : ∀ {b : Fl K}, eq b (.num 0) = true → eq (neg b) (.num 0) = true := by
    intro b hb
    rcases eq_zero_cases hb with rfl | rfl <;> simp [neg, CppVal.eq, ext]
  refine ⟨neutral_of hX n0 (C30_add dbg X _ hX n0) ?_ ?_ ?_, neutral_of hX n0 (C30_sub dbg X _ hX n0) ?_ ?_ ?_,
    neutral_of hX n1 (C31_mul dbg X _ hX n1) ?_ ?_ ?_, neutral_of hX n1 (C32_exact dbg X _ hX n1 ?_) ?_ ?_ ?_⟩
  · exact fun a a' b h hb => add_mono_left h (an _ _ (ne_nan_of_le_left h) hb) (an _ _ (ne_nan_of_le_right h) hb)
  · exact fun b hb => ⟨add_zero_val nl hl hb, add_zero_val nh hh hb⟩
  · exact fun a b ha hb => an a b (mem_ne_nan ha) hb
  · exact fun a a' b h hb => add_mono_left h (an _ _ (ne_nan_of_le_left h) (nz hb)) (an _ _ (ne_nan_of_le_right h) (nz hb))
  · exact fun b hb => ⟨add_zero_val nl hl (nz hb), add_zero_val nh hh (nz hb)⟩
  · exact fun a b ha hb => an a _ (mem_ne_nan ha) (nz hb)
  · intro a a' b h hb
    rw [eq_one_cases hb]
    exact mul_mono (by simp) h (mn _ (ne_nan_of_le_left h)) (mn _ (ne_nan_of_le_right h))
  · intro b hb
    rw [eq_one_cases hb]
    exact ⟨mul_one_val nl hl, mul_one_val nh hh⟩
  · intro a b ha hb
    rw [eq_one_cases hb]
    exact mn a (mem_ne_nan ha)
  · intro h
    have := (mem_bounds.mp h).1
    simp [Arg.lo] at this
    exact absurd this (not_le.mpr one_pos)
  · intro a a' b h hb
    rw [eq_one_cases hb]
    exact div_mono_pos (by simp [signBit]) h (dn _ (ne_nan_of_le_left h)) (dn _ (ne_nan_of_le_right h))
  · intro b hb
    rw [eq_one_cases hb]
    exact ⟨div_one_val nl hl, div_one_val nh hh⟩
  · intro a b ha hb
    rw [eq_one_cases hb]
    exact dn a (mem_ne_nan ha)

theorem finite_of_sub_self {a : Fl K} (ha : a ≠ .nan) (h : Fl.sub a a ≠ .nan) : isFinite a = true := by
  cases a with
  | nan => exact absurd rfl ha
  | ninf => exact absurd (by simp [Fl.sub, add, neg, isNan, isInf, signBit]) h
  | pinf => exact absurd (by simp [Fl.sub, add, neg, isNan, isInf, signBit]) h
  | nzero => rfl
  | num k => rfl

/-- C72: in every format `x - x` contains zero if the bounds of `x` are finite, and is the NaN interval otherwise. -/
theorem C72_sub_self (dbg : Bool) (X : Arg (Fl K)) (hX : ProperA X) :
    (FiniteA X → ∃ R, subI dbg X X = .ok R ∧ .num 0 ∈ᵢ R) ∧ (¬ FiniteA X → subI dbg X X = .ok ⟨.nan, .nan⟩) := by
  have nl := mem_ne_nan (lo_mem hX); have nh := mem_ne_nan (hi_mem hX)
  constructor
  · intro hf
    obtain ⟨R, hR, hin, -⟩ := C71_sub dbg X X hf hf
    refine ⟨R, hR, ?_⟩
    have iX := isA_of_finite hf
    have m := iX.mem_num.mpr ⟨le_rfl, iX.le hX⟩
    have := hin 0 ⟨_, _, m, m, (sub_self _).symm⟩
    rwa [show Fmt.rnd (0:K) = .num 0 from Fmt.rnd_zero] at this
  · intro hf
    rcases C30_sub dbg X X hX hX with ⟨-, h⟩ | ⟨hd, -⟩
    · exact h
    · exfalso
      apply hf
      have h1 := hd _ _ (lo_mem hX) (lo_mem hX)
      have h2 := hd _ _ (hi_mem hX) (hi_mem hX)
      exact ⟨finite_of_sub_self nl h1, finite_of_sub_self nh h2, hX⟩

/-! Exact arithmetic -/
section exact
variable {K : Type} [Field K] [LinearOrder K] [IsStrictOrderedRing K]

/-- with exact arithmetic the rounded range is the hull -/
theorem hull_of_rounded {V : K → Prop} {R : Ivl (Fl K)} (h : letI := exactFmt K; RoundedRange V R) :
    FiniteA (.ivl R) ∧ Hull V R.lo.val R.hi.val := by
  letI := exactFmt K
  obtain ⟨h1, ⟨v, hv, hmin, e⟩, ⟨w, hw, hmax, e'⟩⟩ := h
  have il : Is R.lo v := by
    rw [is_iff_ext]
    have e : eq R.lo (.num v) = true := e
    cases h : R.lo <;> rw [h] at e <;> simp_all [CppVal.eq, ext]
  have ih : Is R.hi w := by
    rw [is_iff_ext]
    have e' : eq R.hi (.num w) = true := e'
    cases h : R.hi <;> rw [h] at e' <;> simp_all [CppVal.eq, ext]
  refine ⟨⟨il.1, ih.1, (il.le_iff ih).mpr (hmin w hw)⟩, ?_⟩
  rw [il.2, ih.2]
  exact ⟨fun u hu => ⟨hmin u hu, hmax u hu⟩, hv, hw⟩

/-- the exact operation on finite operands -/
def ExactOp (g : K → K → K) (op : Arg (Fl K) → Arg (Fl K) → Outcome (Ivl (Fl K))) : Prop :=
  ∀ X Y, FiniteA X → FiniteA Y → ∃ R, op X Y = .ok R ∧ FiniteA (.ivl R) ∧
    Hull (fun v => ∃ a b : K, .num a ∈ₐ X ∧ .num b ∈ₐ Y ∧ v = g a b) R.lo.val R.hi.val

theorem exactOp_add (dbg : Bool) : letI := exactFmt K; ExactOp (K := K) (fun a b => a + b) (addI dbg) := by
  letI := exactFmt K
  intro X Y hX hY
  obtain ⟨R, hR, h⟩ := C71_add dbg X Y hX hY
  exact ⟨R, hR, hull_of_rounded h⟩
theorem exactOp_mul (dbg : Bool) : letI := exactFmt K; ExactOp (K := K) (fun a b => a * b) (mulI dbg) := by
  letI := exactFmt K
  intro X Y hX hY
  obtain ⟨R, hR, h⟩ := C71_mul dbg X Y hX hY
  exact ⟨R, hR, hull_of_rounded h⟩

theorem mem_hull {R : Ivl (Fl K)} (hR : FiniteA (.ivl R)) {v : K} : .num v ∈ₐ Arg.ivl R ↔ R.lo.val ≤ v ∧ v ≤ R.hi.val :=
  (isA_of_finite hR).mem_num

/-- the result on the result of the first two operands is the exact result on the three operands -/
theorem exact3 {g : K → K → K} {op : Arg (Fl K) → Arg (Fl K) → Outcome (Ivl (Fl K))} (hg : Bet g) (hop : ExactOp g op) {X Y Z : Arg (Fl K)}
    {P R : Ivl (Fl K)} (hX : FiniteA X) (hY : FiniteA Y) (hZ : FiniteA Z) (hP : op X Y = .ok P) (hR : op (.ivl P) Z = .ok R) :
    Hull (fun v => ∃ a b c : K, .num a ∈ₐ X ∧ .num b ∈ₐ Y ∧ .num c ∈ₐ Z ∧ v = g (g a b) c) R.lo.val R.hi.val := by
  obtain ⟨P', e, fP, h⟩ := hop X Y hX hY
  obtain rfl : P = P' := by rw [hP] at e; exact Except.ok.inj e
  obtain ⟨R', e', fR, h'⟩ := hop (.ivl P) Z fP hZ
  obtain rfl : R = R' := by rw [hR] at e'; exact Except.ok.inj e'
  simp only [mem_hull fP] at h'
  exact (h.step (C := fun c => .num c ∈ₐ Z) hg h').congr fun v =>
    ⟨fun ⟨_, c, ⟨a, b, ha, hb, e⟩, hc, hv⟩ => ⟨a, b, c, ha, hb, hc, e ▸ hv⟩, fun ⟨a, b, c, ha, hb, hc, hv⟩ => ⟨_, c, ⟨a, b, ha, hb, rfl⟩, hc, hv⟩⟩

theorem eq_of_val {a b : Fl K} (ha : isFinite a = true) (hb : isFinite b = true) (h : val a = val b) : eq a b = true := (eq_iff_val ha hb).mpr h

theorem exact_assoc {g : K → K → K} {op : Arg (Fl K) → Arg (Fl K) → Outcome (Ivl (Fl K))} (hg : Bet g) (hc : ∀ a b, g a b = g b a)
    (ha : ∀ a b c, g (g a b) c = g a (g b c)) (hop : ExactOp g op) (X Y Z : Arg (Fl K)) (hX : FiniteA X) (hY : FiniteA Y) (hZ : FiniteA Z) :
    ∃ P Q R S, op X Y = .ok P ∧ op Y Z = .ok Q ∧ op (.ivl P) Z = .ok R ∧ op X (.ivl Q) = .ok S ∧ eq R.lo S.lo = true ∧ eq R.hi S.hi = true := by
  obtain ⟨P, eP, fP, hP⟩ := hop X Y hX hY
  obtain ⟨Q, eQ, fQ, hQ⟩ := hop Y Z hY hZ
  obtain ⟨R, eR, fR, hR⟩ := hop (.ivl P) Z fP hZ
  obtain ⟨S, eS, fS, hS⟩ := hop X (.ivl Q) hX fQ
  have h1 := exact3 hg hop hX hY hZ eP eR
  simp only [mem_hull fQ] at hS
  have hS' : Hull (fun v => ∃ p c, (Q.lo.val ≤ p ∧ p ≤ Q.hi.val) ∧ .num c ∈ₐ X ∧ v = g p c) S.lo.val S.hi.val :=
    hS.congr fun v => ⟨fun ⟨a, b, ha, hb, hv⟩ => ⟨b, a, hb, ha, hv.trans (hc a b)⟩, fun ⟨a, b, ha, hb, hv⟩ => ⟨b, a, hb, ha, hv.trans (hc a b)⟩⟩
  have h2 := (hQ.step (C := fun c => .num c ∈ₐ X) hg hS').congr (V' := fun v => ∃ a b c : K, .num a ∈ₐ X ∧ .num b ∈ₐ Y ∧ .num c ∈ₐ Z ∧ v = g (g a b) c) fun v =>
    ⟨fun ⟨_, a, ⟨b, c, hb, hc', e⟩, ha', hv⟩ => ⟨a, b, c, ha', hb, hc', by rw [hv, e, hc, ← ha]⟩,
     fun ⟨a, b, c, ha', hb, hc', hv⟩ => ⟨g b c, a, ⟨b, c, hb, hc', rfl⟩, ha', by rw [hv, ha, hc]⟩⟩
  obtain ⟨u1, u2⟩ := h1.unique h2
  exact ⟨P, Q, R, S, eP, eQ, eR, eS, eq_of_val fR.1 fS.1 u1, eq_of_val fR.2.1 fS.2.1 u2⟩

/-- C72: addition and multiplication associate in exact arithmetic. -/
theorem C72_assoc (dbg : Bool) (X Y Z : Arg (Fl K)) (hX : FiniteA X) (hY : FiniteA Y) (hZ : FiniteA Z) : letI := exactFmt K
    (∃ P Q R S, addI dbg X Y = .ok P ∧ addI dbg Y Z = .ok Q ∧ addI dbg (.ivl P) Z = .ok R ∧ addI dbg X (.ivl Q) = .ok S ∧
      eq R.lo S.lo = true ∧ eq R.hi S.hi = true) ∧
    (∃ P Q R S, mulI dbg X Y = .ok P ∧ mulI dbg Y Z = .ok Q ∧ mulI dbg (.ivl P) Z = .ok R ∧ mulI dbg X (.ivl Q) = .ok S ∧
      eq R.lo S.lo = true ∧ eq R.hi S.hi = true) :=
  ⟨exact_assoc bet_add add_comm add_assoc (exactOp_add dbg) X Y Z hX hY hZ, exact_assoc bet_mul mul_comm mul_assoc (exactOp_mul dbg) X Y Z hX hY hZ⟩

/-- C72: subdistributivity in exact arithmetic: `x*(y+z)` is contained in `x*y + x*z`; multiplication by a scalar distributes. -/
theorem C72_subdistrib (dbg : Bool) (X Y Z : Arg (Fl K)) (hX : FiniteA X) (hY : FiniteA Y) (hZ : FiniteA Z) : letI := exactFmt K
    ∃ S P Q R T, addI dbg Y Z = .ok S ∧ mulI dbg X Y = .ok P ∧ mulI dbg X Z = .ok Q ∧ addI dbg (.ivl P) (.ivl Q) = .ok R ∧
      mulI dbg X (.ivl S) = .ok T ∧ (∀ t, t ∈ᵢ T → t ∈ᵢ R) ∧
      ((∃ s, X = .scalar s) → eq R.lo T.lo = true ∧ eq R.hi T.hi = true) := by
  letI := exactFmt K
  obtain ⟨S, eS, fS, hS⟩ := exactOp_add dbg Y Z hY hZ
  obtain ⟨P, eP, fP, hP⟩ := exactOp_mul dbg X Y hX hY
  obtain ⟨Q, eQ, fQ, hQ⟩ := exactOp_mul dbg X Z hX hZ
  obtain ⟨R, eR, fR, hR⟩ := exactOp_add dbg (.ivl P) (.ivl Q) fP fQ
  obtain ⟨T, eT, fT, hT⟩ := exactOp_mul dbg X (.ivl S) hX fS
  have hT' : Hull (fun v => ∃ p c, (S.lo.val ≤ p ∧ p ≤ S.hi.val) ∧ .num c ∈ₐ X ∧ v = p * c) T.lo.val T.hi.val := by
    simp only [mem_hull fS] at hT
    exact hT.congr fun v => ⟨fun ⟨a, b, ha, hb, hv⟩ => ⟨b, a, hb, ha, hv.trans (mul_comm a b)⟩,
      fun ⟨a, b, ha, hb, hv⟩ => ⟨b, a, hb, ha, hv.trans (mul_comm a b)⟩⟩
  have hT3 := hS.step (C := fun c => .num c ∈ₐ X) bet_mul hT'
  simp only [mem_hull fP, mem_hull fQ] at hR
  have key : ∀ a b c : K, .num a ∈ₐ X → .num b ∈ₐ Y → .num c ∈ₐ Z → R.lo.val ≤ a * b + a * c ∧ a * b + a * c ≤ R.hi.val := fun a b c ha hb hc =>
    hR.1 _ ⟨_, _, hP.1 _ ⟨a, b, ha, hb, rfl⟩, hQ.1 _ ⟨a, c, ha, hc, rfl⟩, rfl⟩
  have sub : R.lo.val ≤ T.lo.val ∧ T.hi.val ≤ R.hi.val := by
    obtain ⟨-, ⟨_, a, ⟨b, c, hb, hc, rfl⟩, ha, e⟩, ⟨_, a', ⟨b', c', hb', hc', rfl⟩, ha', e'⟩⟩ := hT3
    rw [e, e']
    have k1 := key a b c ha hb hc; have k2 := key a' b' c' ha' hb' hc'
    exact ⟨by rw [mul_comm, mul_add]; exact k1.1, by rw [mul_comm, mul_add]; exact k2.2⟩
  refine ⟨S, P, Q, R, T, eS, eP, eQ, eR, eT, ?_, ?_⟩
  · intro t ht
    have h1 := (le_iff_val fR.1 fT.1).mpr sub.1
    have h2 := (le_iff_val fT.2.1 fR.2.1).mpr sub.2
    unfold Pt at *
    simp only [Arg.lo, Arg.hi] at h1 h2
    grind
  · rintro ⟨s, rfl⟩
    have iX := isA_of_finite hX
    have one : ∀ a : K, .num a ∈ₐ Arg.scalar s → a = s.val := fun a ha => le_antisymm (iX.mem_num.mp ha).2 (iX.mem_num.mp ha).1
    obtain ⟨-, ⟨a1, b1, ha1, hb1, e1⟩, ⟨a2, b2, ha2, hb2, e2⟩⟩ := hP
    obtain ⟨-, ⟨a3, c1, ha3, hc1, e3⟩, ⟨a4, c2, ha4, hc2, e4⟩⟩ := hQ
    obtain ⟨-, ⟨p, q, hp, hq, e5⟩, ⟨p', q', hp', hq', e6⟩⟩ := hR
    have k1 := (hT3.1 _ ⟨_, s.val, ⟨b1, c1, hb1, hc1, rfl⟩, one a1 ha1 ▸ ha1, rfl⟩).1
    have k2 := (hT3.1 _ ⟨_, s.val, ⟨b2, c2, hb2, hc2, rfl⟩, one a1 ha1 ▸ ha1, rfl⟩).2
    rw [one a1 ha1] at e1; rw [one a2 ha2] at e2; rw [one a3 ha3] at e3; rw [one a4 ha4] at e4
    refine ⟨eq_of_val fR.1 fT.1 (le_antisymm sub.1 ?_), eq_of_val fR.2.1 fT.2.1 (le_antisymm ?_ sub.2)⟩
    · have : (b1 + c1) * s.val = P.lo.val + Q.lo.val := by rw [e1, e3]; ring
      simp only [Arg.lo] at *
      linarith [hp.1, hq.1]
    · have : (b2 + c2) * s.val = P.hi.val + Q.hi.val := by rw [e2, e4]; ring
      simp only [Arg.hi] at *
      linarith [hp'.2, hq'.2]
end exact

/-- C72: with rounding, addition does not associate and multiplication does not even subdistribute: in `double`
`(1 + 2^-53) + 2^-53 ≠ 1 + (2^-53 + 2^-53)`, and `3 * (1 + 2^-53)` is 3 while `3*1 + 3*2^-53` is `3 + 2^-51`. -/
theorem C72_rounding : letI := binary64Fmt
    (∃ x y p q r s : Ivl (Fl ℚ), addI false (.ivl x) (.ivl y) = .ok p ∧ addI false (.ivl y) (.ivl y) = .ok q ∧
      addI false (.ivl p) (.ivl y) = .ok r ∧ addI false (.ivl x) (.ivl q) = .ok s ∧ ¬ eq r.lo s.lo = true) ∧
    (∃ x y z s p q r t : Ivl (Fl ℚ), addI false (.ivl y) (.ivl z) = .ok s ∧ mulI false (.ivl x) (.ivl y) = .ok p ∧
      mulI false (.ivl x) (.ivl z) = .ok q ∧ addI false (.ivl p) (.ivl q) = .ok r ∧ mulI false (.ivl x) (.ivl s) = .ok t ∧
      (t.lo ∈ᵢ t ∧ ¬ t.lo ∈ᵢ r)) := by
  letI := binary64Fmt
  constructor
  · refine ⟨⟨.num 1, .num 1⟩, ⟨.num (1/2^53), .num (1/2^53)⟩, ⟨.num 1, .num 1⟩, ⟨.num (1/2^52), .num (1/2^52)⟩, ⟨.num 1, .num 1⟩,
      ⟨.num (1 + 1/2^52), .num (1 + 1/2^52)⟩, ?_⟩
    decide +kernel
  · refine ⟨⟨.num 3, .num 3⟩, ⟨.num 1, .num 1⟩, ⟨.num (1/2^53), .num (1/2^53)⟩, ⟨.num 1, .num 1⟩, ⟨.num 3, .num 3⟩, ⟨.num (3/2^53), .num (3/2^53)⟩,
      ⟨.num (3 + 1/2^51), .num (3 + 1/2^51)⟩, ⟨.num 3, .num 3⟩, ?_⟩
    decide +kernel

/-- C72: the two orders of a product can differ in the sign of a zero bound, and the quotient by it tells them apart: `x*y` and `y*x` for
`x = [-1, -0]`, `y = [-1, +0]`. -/
theorem C72_mul_zero_sign : letI := exactFmt ℚ
    mulI (T := Fl ℚ) false (.ivl ⟨.num (-1), .nzero⟩) (.ivl ⟨.num (-1), .num 0⟩) = .ok ⟨.nzero, .num 1⟩ ∧
    mulI (T := Fl ℚ) false (.ivl ⟨.num (-1), .num 0⟩) (.ivl ⟨.num (-1), .nzero⟩) = .ok ⟨.num 0, .num 1⟩ ∧
    divI (T := Fl ℚ) false (.scalar (.num 1)) (.ivl ⟨.nzero, .num 1⟩) = .ok ⟨.ninf, .num 1⟩ ∧
    divI (T := Fl ℚ) false (.scalar (.num 1)) (.ivl ⟨.num 0, .num 1⟩) = .ok ⟨.num 1, .pinf⟩ := by
  decide +kernel

/-! Examples -/
section
attribute [local instance] exactFmt
example : FiniteA (Arg.ivl (⟨.num (-3), .num 5⟩ : Ivl (Fl ℚ))) := ⟨rfl, rfl, (by decide +kernel : CppVal.le (Fl.num (-3:ℚ)) (.num 5) = true)⟩
/-- proper containment in `C72_subdistrib`: `x*(1 + -1)` and `x*1 + x*-1` -/
example : mulI (T := Fl ℚ) false (.ivl ⟨.num (-3), .num (5:ℚ)⟩) (.ivl ⟨.num 0, .num 0⟩) = .ok ⟨.nzero, .nzero⟩ ∧
    addI (T := Fl ℚ) false (.ivl ⟨.num (-3), .num (5:ℚ)⟩) (.ivl ⟨.num (-5), .num 3⟩) = .ok ⟨.num (-8), .num 8⟩ := by decide +kernel
example : subI (T := Fl ℚ) false (.ivl ⟨.ninf, .num (5:ℚ)⟩) (.ivl ⟨.ninf, .num 5⟩) = .ok ⟨.nan, .nan⟩ := by decide +kernel
end
end Intervals.Props
