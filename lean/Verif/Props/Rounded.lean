import Verif.Props.FltArith
import Verif.Props.Blend
import Verif.Spec.Rounded
import Mathlib.Tactic.Linarith
/-!
# C71: results on real numbers are the real results, rounded once

C30–C32 compare the interval functions with the floating-point operations on points.  Here the points are real numbers (representable or
not) and the operation is that of the reals.
-/
set_option linter.unusedSectionVars false
namespace Intervals.Props
open Intervals CppVal Spec Fl

variable {K : Type} [Field K] [LinearOrder K] [IsStrictOrderedRing K]

/-- a function of two variables that is extremal at the ends in each variable has a minimum on a box -/
theorem box_min {g : K → K → K} {k l m n : K} (hkl : k ≤ l) (hmn : m ≤ n)
    (h1 : ∀ a b, k ≤ a → a ≤ l → m ≤ b → b ≤ n → g k b ≤ g a b ∨ g l b ≤ g a b)
    (h2 : ∀ a b, k ≤ a → a ≤ l → m ≤ b → b ≤ n → g a m ≤ g a b ∨ g a n ≤ g a b) :
    ∃ a b, (k ≤ a ∧ a ≤ l) ∧ (m ≤ b ∧ b ≤ n) ∧ ∀ a' b', k ≤ a' → a' ≤ l → m ≤ b' → b' ≤ n → g a b ≤ g a' b' := by
  have key : ∀ a' b', k ≤ a' → a' ≤ l → m ≤ b' → b' ≤ n →
      g k m ≤ g a' b' ∨ g k n ≤ g a' b' ∨ g l m ≤ g a' b' ∨ g l n ≤ g a' b' := by
    intro a' b' e1 e2 e3 e4
    rcases h1 a' b' e1 e2 e3 e4 with h | h
    · rcases h2 k b' le_rfl hkl e3 e4 with h' | h' <;> [left; (right; left)] <;> exact h'.trans h
    · rcases h2 l b' hkl le_rfl e3 e4 with h' | h' <;> [(right; right; left); (right; right; right)] <;> exact h'.trans h
  have pick : ∃ c, (c = g k m ∨ c = g k n ∨ c = g l m ∨ c = g l n) ∧ c ≤ g k m ∧ c ≤ g k n ∧ c ≤ g l m ∧ c ≤ g l n := by
    refine ⟨min (min (g k m) (g k n)) (min (g l m) (g l n)), ?_, ?_⟩
    · rcases min_choice (min (g k m) (g k n)) (min (g l m) (g l n)) with h | h <;> rw [h]
      · rcases min_choice (g k m) (g k n) with h | h <;> rw [h] <;> simp
      · rcases min_choice (g l m) (g l n) with h | h <;> rw [h] <;> simp
    · simp
  obtain ⟨c, hc, c1, c2, c3, c4⟩ := pick
  have all : ∀ a' b', k ≤ a' → a' ≤ l → m ≤ b' → b' ≤ n → c ≤ g a' b' := by
    intro a' b' e1 e2 e3 e4
    rcases key a' b' e1 e2 e3 e4 with h | h | h | h
    · exact c1.trans h
    · exact c2.trans h
    · exact c3.trans h
    · exact c4.trans h
  rcases hc with rfl | rfl | rfl | rfl
  · exact ⟨k, m, ⟨le_rfl, hkl⟩, ⟨le_rfl, hmn⟩, all⟩
  · exact ⟨k, n, ⟨le_rfl, hkl⟩, ⟨hmn, le_rfl⟩, all⟩
  · exact ⟨l, m, ⟨hkl, le_rfl⟩, ⟨le_rfl, hmn⟩, all⟩
  · exact ⟨l, n, ⟨hkl, le_rfl⟩, ⟨hmn, le_rfl⟩, all⟩

variable [Fmt K]

/-- from floating-point operations on points to the rounded operation on reals -/
theorem rounded_of_exact {f : Fl K → Fl K → Fl K} {g : K → K → K} {X Y : Arg (Fl K)} {res : Outcome (Ivl (Fl K))}
    (hX : FiniteA X) (hY : FiniteA Y) (H : FloatExact2 f X Y res)
    (hf : ∀ a b, a ∈ₐ X → b ∈ₐ Y → isFinite a = true → isFinite b = true → ext (f a b) = ext (Fmt.rnd (g (val a) (val b))))
    (hmin : ∃ a b, .num a ∈ₐ X ∧ .num b ∈ₐ Y ∧ ∀ a' b', .num a' ∈ₐ X → .num b' ∈ₐ Y → g a b ≤ g a' b')
    (hmax : ∃ a b, .num a ∈ₐ X ∧ .num b ∈ₐ Y ∧ ∀ a' b', .num a' ∈ₐ X → .num b' ∈ₐ Y → g a' b' ≤ g a b) :
    ∃ R, res = .ok R ∧ RoundedRange (fun v => ∃ a b : K, .num a ∈ₐ X ∧ .num b ∈ₐ Y ∧ v = g a b) R := by
  have fin : ∀ {Z : Arg (Fl K)} {a : Fl K}, FiniteA Z → a ∈ₐ Z → isFinite a = true := fun hZ h =>
    finite_of_between hZ.1 hZ.2.1 (mem_bounds.mp h).1 (mem_bounds.mp h).2
  have mnum : ∀ {Z : Arg (Fl K)} {a : Fl K}, FiniteA Z → a ∈ₐ Z → .num (val a) ∈ₐ Z := by
    intro Z a hZ h
    have f := fin hZ h
    obtain ⟨h1, h2⟩ := mem_bounds.mp h
    exact mem_bounds.mpr ⟨(le_iff_val hZ.1 (b := .num (val a)) rfl).mpr ((le_iff_val hZ.1 f).mp h1),
      (le_iff_val (a := .num (val a)) rfl hZ.2.1).mpr ((le_iff_val f hZ.2.1).mp h2)⟩
  have e : ∀ a b, a ∈ₐ X → b ∈ₐ Y → ext (f a b) = ext (Fmt.rnd (g (val a) (val b))) := fun a b ha hb =>
    hf a b ha hb (fin hX ha) (fin hY hb)
  have eqv : ∀ {u v : Fl K}, ext u = ext v → v ≠ .nan → eq u v = true := by
    intro u v h hv
    cases u <;> cases v <;> simp_all [CppVal.eq, ext]
  have E : ∀ a b, a ∈ₐ X → b ∈ₐ Y → eq (f a b) (Fmt.rnd (g (val a) (val b))) = true := fun a b ha hb =>
    eqv (e a b ha hb) (Fmt.rnd_ne_nan _)
  rcases H with ⟨⟨a, b, ha, hb, hn⟩, -⟩ | ⟨-, R, hR, hin, ⟨a, b, ha, hb, hl⟩, ⟨c, d, hc, hd, hh⟩⟩
  · have := E a b ha hb
    rw [hn] at this
    simp [CppVal.eq, ext] at this
  · have incl : ∀ a b : K, .num a ∈ₐ X → .num b ∈ₐ Y → Fmt.rnd (g a b) ∈ᵢ R := by
      intro a b ha hb
      have h1 := hin _ _ ha hb
      have h2 := E _ _ ha hb
      simp only [val] at h2
      unfold Pt at *
      grind
    refine ⟨R, hR, fun v ⟨a, b, ha, hb, hv⟩ => hv ▸ incl a b ha hb, ?_, ?_⟩
    · obtain ⟨a', b', ha', hb', hm⟩ := hmin
      refine ⟨_, ⟨a', b', ha', hb', rfl⟩, fun w ⟨p, q, hp, hq, hw⟩ => hw ▸ hm p q hp hq, ?_⟩
      have h1 := (incl a' b' ha' hb').1
      have h2 := Fmt.rnd_mono _ _ (hm _ _ (mnum hX ha) (mnum hY hb))
      have h3 := E a b ha hb
      rw [hl] at h3
      grind
    · obtain ⟨a', b', ha', hb', hm⟩ := hmax
      refine ⟨_, ⟨a', b', ha', hb', rfl⟩, fun w ⟨p, q, hp, hq, hw⟩ => hw ▸ hm p q hp hq, ?_⟩
      have h1 := (incl a' b' ha' hb').2
      have h2 := Fmt.rnd_mono _ _ (hm _ _ (mnum hX hc) (mnum hY hd))
      have h3 := E c d hc hd
      rw [hh] at h3
      grind

/-- minimum and maximum over the real points of two operands -/
theorem box_ext {g : K → K → K} {X Y : Arg (Fl K)} (hX : FiniteA X) (hY : FiniteA Y)
    (h1 : ∀ k l a b, k ≤ a → a ≤ l → .num b ∈ₐ Y → (g k b ≤ g a b ∨ g l b ≤ g a b) ∧ (g a b ≤ g k b ∨ g a b ≤ g l b))
    (h2 : ∀ m n a b, m ≤ b → b ≤ n → .num m ∈ₐ Y → .num n ∈ₐ Y → (g a m ≤ g a b ∨ g a n ≤ g a b) ∧ (g a b ≤ g a m ∨ g a b ≤ g a n)) :
    (∃ a b, .num a ∈ₐ X ∧ .num b ∈ₐ Y ∧ ∀ a' b', .num a' ∈ₐ X → .num b' ∈ₐ Y → g a b ≤ g a' b') ∧
    (∃ a b, .num a ∈ₐ X ∧ .num b ∈ₐ Y ∧ ∀ a' b', .num a' ∈ₐ X → .num b' ∈ₐ Y → g a' b' ≤ g a b) := by
  have iX := isA_of_finite hX; have iY := isA_of_finite hY
  have lX := iX.le hX.2.2; have lY := iY.le hY.2.2
  have mlo : .num Y.lo.val ∈ₐ Y := iY.mem_num.mpr ⟨le_rfl, lY⟩
  have mhi : .num Y.hi.val ∈ₐ Y := iY.mem_num.mpr ⟨lY, le_rfl⟩
  constructor
  · obtain ⟨a, b, ha, hb, h⟩ := box_min (g := g) lX lY
      (fun a b e1 e2 e3 e4 => (h1 _ _ a b e1 e2 (iY.mem_num.mpr ⟨e3, e4⟩)).1) (fun a b _ _ e3 e4 => (h2 _ _ a b e3 e4 mlo mhi).1)
    exact ⟨a, b, iX.mem_num.mpr ha, iY.mem_num.mpr hb, fun a' b' ha' hb' =>
      h a' b' (iX.mem_num.mp ha').1 (iX.mem_num.mp ha').2 (iY.mem_num.mp hb').1 (iY.mem_num.mp hb').2⟩
  · obtain ⟨a, b, ha, hb, h⟩ := box_min (g := fun a b => -g a b) lX lY
      (fun a b e1 e2 e3 e4 => by simpa using (h1 _ _ a b e1 e2 (iY.mem_num.mpr ⟨e3, e4⟩)).2)
      (fun a b _ _ e3 e4 => by simpa using (h2 _ _ a b e3 e4 mlo mhi).2)
    exact ⟨a, b, iX.mem_num.mpr ha, iY.mem_num.mpr hb, fun a' b' ha' hb' =>
      neg_le_neg_iff.mp (h a' b' (iX.mem_num.mp ha').1 (iX.mem_num.mp ha').2 (iY.mem_num.mp hb').1 (iY.mem_num.mp hb').2)⟩

/-- C71: the bounds of a sum are the least and the greatest real sum, rounded once. -/
theorem C71_add (dbg : Bool) (X Y : Arg (Fl K)) (hX : FiniteA X) (hY : FiniteA Y) :
    ∃ R, addI dbg X Y = .ok R ∧ RoundedRange (fun v => ∃ a b : K, .num a ∈ₐ X ∧ .num b ∈ₐ Y ∧ v = a + b) R := by
  obtain ⟨e1, e2⟩ := box_ext (g := fun a b => a + b) hX hY
    (fun k l a b h1 h2 _ => ⟨Or.inl (by linarith), Or.inr (by linarith)⟩)
    (fun m n a b h1 h2 _ _ => ⟨Or.inl (by linarith), Or.inr (by linarith)⟩)
  exact rounded_of_exact (g := fun a b => a + b) hX hY (C30_add dbg X Y hX.2.2 hY.2.2) (fun a b _ _ fa fb => ext_add fa fb) e1 e2

/-- C71: the bounds of a difference are the least and the greatest real difference, rounded once. -/
theorem C71_sub (dbg : Bool) (X Y : Arg (Fl K)) (hX : FiniteA X) (hY : FiniteA Y) :
    ∃ R, subI dbg X Y = .ok R ∧ RoundedRange (fun v => ∃ a b : K, .num a ∈ₐ X ∧ .num b ∈ₐ Y ∧ v = a - b) R := by
  obtain ⟨e1, e2⟩ := box_ext (g := fun a b => a - b) hX hY
    (fun k l a b h1 h2 _ => ⟨Or.inl (by linarith), Or.inr (by linarith)⟩)
    (fun m n a b h1 h2 _ _ => ⟨Or.inr (by linarith), Or.inl (by linarith)⟩)
  exact rounded_of_exact (g := fun a b => a - b) hX hY (C30_sub dbg X Y hX.2.2 hY.2.2) (fun a b _ _ fa fb => ext_sub fa fb) e1 e2

theorem mul_between {k l a : K} (b : K) (h1 : k ≤ a) (h2 : a ≤ l) :
    (k * b ≤ a * b ∨ l * b ≤ a * b) ∧ (a * b ≤ k * b ∨ a * b ≤ l * b) := by
  rcases le_total 0 b with h | h
  · exact ⟨Or.inl (mul_le_mul_of_nonneg_right h1 h), Or.inr (mul_le_mul_of_nonneg_right h2 h)⟩
  · exact ⟨Or.inr (mul_le_mul_of_nonpos_right h2 h), Or.inl (mul_le_mul_of_nonpos_right h1 h)⟩

/-- C71: the bounds of a product are the least and the greatest real product, rounded once. -/
theorem C71_mul (dbg : Bool) (X Y : Arg (Fl K)) (hX : FiniteA X) (hY : FiniteA Y) :
    ∃ R, mulI dbg X Y = .ok R ∧ RoundedRange (fun v => ∃ a b : K, .num a ∈ₐ X ∧ .num b ∈ₐ Y ∧ v = a * b) R := by
  obtain ⟨e1, e2⟩ := box_ext (g := fun a b => a * b) hX hY
    (fun k l a b h1 h2 _ => mul_between b h1 h2)
    (fun m n a b h1 h2 _ _ => by simpa only [mul_comm a] using mul_between a h1 h2)
  exact rounded_of_exact (g := fun a b => a * b) hX hY (C31_mul dbg X Y hX.2.2 hY.2.2) (fun a b _ _ fa fb => ext_mul fa fb) e1 e2

/-- C71: the bounds of a quotient by a divisor without zero are the least and the greatest real quotient, rounded once. -/
theorem C71_div (dbg : Bool) (X Y : Arg (Fl K)) (hX : FiniteA X) (hY : FiniteA Y) (h0 : ¬ (.num 0) ∈ₐ Y) :
    ∃ R, divI dbg X Y = .ok R ∧ RoundedRange (fun v => ∃ a b : K, .num a ∈ₐ X ∧ .num b ∈ₐ Y ∧ v = a / b) R := by
  have iY := isA_of_finite hY
  have sgn : (∀ b : K, .num b ∈ₐ Y → 0 < b) ∨ (∀ b : K, .num b ∈ₐ Y → b < 0) := by
    rw [iY.mem_num] at h0
    simp only [iY.mem_num]
    rcases lt_or_ge 0 Y.lo.val with h | h
    · exact Or.inl fun b hb => h.trans_le hb.1
    · refine Or.inr fun b hb => hb.2.trans_lt ?_
      by_contra hc
      exact h0 ⟨h, not_lt.mp hc⟩
  have inv : ∀ {m n b : K}, m ≤ b → b ≤ n → .num m ∈ₐ Y → .num n ∈ₐ Y → n⁻¹ ≤ b⁻¹ ∧ b⁻¹ ≤ m⁻¹ := by
    intro m n b h1 h2 hm hn
    rcases sgn with s | s
    · have := s m hm
      exact ⟨inv_anti₀ (this.trans_le h1) h2, inv_anti₀ this h1⟩
    · have := s n hn
      exact ⟨(inv_le_inv_of_neg this (h2.trans_lt this)).mpr h2, (inv_le_inv_of_neg (h2.trans_lt this) ((h1.trans h2).trans_lt this)).mpr h1⟩
  obtain ⟨e1, e2⟩ := box_ext (g := fun a b => a / b) hX hY
    (fun k l a b h1 h2 _ => by simpa only [div_eq_mul_inv] using mul_between b⁻¹ h1 h2)
    (fun m n a b h1 h2 hm hn => by
      obtain ⟨i1, i2⟩ := inv h1 h2 hm hn
      have := mul_between a i1 i2
      simp only [div_eq_mul_inv, mul_comm a]
      tauto)
  refine rounded_of_exact (g := fun a b => a / b) hX hY (C32_exact dbg X Y hX.2.2 hY.2.2 h0) (fun a b _ hb fa fb => ext_div fa fb ?_) e1 e2
  intro hz
  apply h0
  obtain ⟨h1, h2⟩ := mem_bounds.mp hb
  have hz' : Is b 0 := ⟨fb, hz⟩
  exact mem_bounds.mpr ⟨(iY.1.le_iff (Is.num 0)).mpr ((iY.1.le_iff hz').mp h1), ((Is.num 0).le_iff iY.2).mpr ((hz'.le_iff iY.2).mp h2)⟩

/-- In a binary format a real number that does not overflow is off by at most half a unit in the last place. -/
theorem rndBin_error (p emin : ℤ) (Ω k : ℚ) (h : |rndU p emin k| ≤ Ω) :
    Is (rndBin p emin Ω k) (rndU p emin k) ∧ |rndU p emin k - k| ≤ 2 ^ (ulpExp p emin k - 1) := by
  obtain ⟨h1, h2⟩ := abs_le.mp h
  constructor
  · unfold rndBin
    rw [if_neg (not_lt.mpr h2), if_neg (not_lt.mpr h1)]
    split_ifs with h3 h4
    · rw [h3]; exact Is.nzero
    · rw [h3]; exact Is.num 0
    · exact Is.num _
  · have e : (0:ℚ) < 2 ^ ulpExp p emin k := zpow_pos (by norm_num) _
    obtain ⟨n1, n2⟩ := roundNE_near (k / 2 ^ ulpExp p emin k)
    have hk : k = k / 2 ^ ulpExp p emin k * 2 ^ ulpExp p emin k := by field_simp
    have : rndU p emin k - k = (roundNE (k / 2 ^ ulpExp p emin k) - k / 2 ^ ulpExp p emin k) * 2 ^ ulpExp p emin k := by
      unfold rndU; rw [sub_mul, ← hk]
    rw [this, abs_mul, abs_of_pos e, zpow_sub₀ (by norm_num), zpow_one]
    have : |(roundNE (k / 2 ^ ulpExp p emin k) : ℚ) - k / 2 ^ ulpExp p emin k| ≤ 1/2 := by rw [abs_le]; constructor <;> linarith
    calc _ ≤ 1/2 * 2 ^ ulpExp p emin k := mul_le_mul_of_nonneg_right this e.le
      _ = _ := by ring

/-- C71: in a binary format a real result lies at most half a unit in its last place outside of the result interval (finite bounds). -/
theorem C71_error (p emin : ℤ) (Ω : ℚ) (hp : 1 ≤ p) (hΩ : 0 ≤ Ω) (V : ℚ → Prop) (R : Ivl (Fl ℚ))
    (hR : letI := binFmt p emin Ω hp hΩ; RoundedRange V R) (v : ℚ) (hv : V v) (hfin : |rndU p emin v| ≤ Ω) (lo hi : ℚ)
    (hlo : eq R.lo (.num lo) = true) (hhi : eq R.hi (.num hi) = true) :
    lo - 2 ^ (ulpExp p emin v - 1) ≤ v ∧ v ≤ hi + 2 ^ (ulpExp p emin v - 1) := by
  obtain ⟨h1, h2⟩ := rndBin_error p emin Ω v hfin
  have h3 : rndBin p emin Ω v ∈ᵢ R := hR.1 v hv
  obtain ⟨h4, h5⟩ := abs_le.mp h2
  have ilo : Is R.lo lo := by
    rw [is_iff_ext]; cases h : R.lo <;> rw [h] at hlo <;> simp_all [CppVal.eq, ext]
  have ihi : Is R.hi hi := by
    rw [is_iff_ext]; cases h : R.hi <;> rw [h] at hhi <;> simp_all [CppVal.eq, ext]
  have h6 := (ilo.le_iff h1).mp h3.1
  have h7 := (h1.le_iff ihi).mp h3.2
  constructor <;> linarith

/-- C71: the result need not contain the real results themselves: bounds are rounded to nearest, not outwards.  Here `1 + 2^-60` in `double`. -/
theorem C71_not_enclosed : letI := binary64Fmt
    ∃ (X Y : Arg (Fl ℚ)) (R : Ivl (Fl ℚ)) (a b : ℚ), FiniteA X ∧ FiniteA Y ∧ Representable X.lo ∧ Representable Y.lo ∧
      addI false X Y = .ok R ∧ .num a ∈ₐ X ∧ .num b ∈ₐ Y ∧ ¬ (.num (a + b)) ∈ᵢ R := by
  letI := binary64Fmt
  refine ⟨.ivl ⟨.num 1, .num 1⟩, .ivl ⟨.num (1/2^60), .num (1/2^60)⟩, ⟨.num 1, .num 1⟩, 1, 1/2^60, ⟨rfl, rfl, ?_⟩, ⟨rfl, rfl, ?_⟩, ?_, ?_, ?_,
    mem_bounds.mpr ?_, mem_bounds.mpr ?_, ?_⟩
  · exact (by decide +kernel : CppVal.le (Fl.num (1:ℚ)) (.num 1) = true)
  · exact (by decide +kernel : CppVal.le (Fl.num (1/2^60:ℚ)) (.num (1/2^60)) = true)
  all_goals decide +kernel

/-! Examples -/
section
attribute [local instance] binary64Fmt
example : FiniteA (Arg.ivl (⟨.num (1/2), .num 3⟩ : Ivl (Fl ℚ))) := ⟨rfl, rfl, (by decide +kernel : CppVal.le (Fl.num (1/2:ℚ)) (.num 3) = true)⟩
example : divI false (.ivl ⟨.num 1, .num 2⟩) (.ivl ⟨.num 3, .num 5⟩) = .ok ⟨Fmt.rnd (1/5 : ℚ), Fmt.rnd (2/3)⟩ := by decide +kernel
example : ¬ (.num 0) ∈ₐ Arg.ivl (⟨.num 3, .num 5⟩ : Ivl (Fl ℚ)) := by rw [mem_bounds]; decide +kernel
/-- the hypotheses of `C71_error` for the sum of `C71_not_enclosed` -/
example : ∃ R, addI false (.scalar (.num 1)) (.scalar (.num (1/2^60 : ℚ))) = .ok R ∧
    RoundedRange (fun v => ∃ a b : ℚ, Fl.num a ∈ₐ Arg.scalar (Fl.num 1) ∧ Fl.num b ∈ₐ Arg.scalar (Fl.num (1/2^60)) ∧ v = a + b) R :=
  C71_add false _ _ ⟨rfl, rfl, (by decide +kernel : CppVal.le (Fl.num (1:ℚ)) (.num 1) = true)⟩
    ⟨rfl, rfl, (by decide +kernel : CppVal.le (Fl.num (1/2^60:ℚ)) (.num (1/2^60)) = true)⟩
example : |rndU 53 (-1074) (1 + 1/2^60 : ℚ)| ≤ (2^53 - 1) * 2^971 ∧ ulpExp 53 (-1074) (1 + 1/2^60 : ℚ) = -52 := by decide +kernel
end
end Intervals.Props
