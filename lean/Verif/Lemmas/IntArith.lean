import Verif.Model.IntArith
import Verif.Spec.IntArith
import Mathlib.Tactic.Linarith
import Mathlib.Tactic.Ring
/-! Lemmas on integer arithmetic. -/
namespace Intervals
open CppVal Spec CppNum

theorem SInt.of_ok {n : Nat} {v : Int} (h : Rep n v) :
    SInt.of n v = .ok ⟨v, h.1, by have := h.2; omega⟩ := by
  unfold SInt.of BInt.ofInt
  rw [dif_pos ⟨h.1, by have := h.2; omega⟩]
theorem SInt.of_ub {n : Nat} {v : Int} (h : ¬ Rep n v) : SInt.of n v = .error .ub := by
  unfold SInt.of BInt.ofInt
  rw [dif_neg]
  intro ⟨h1, h2⟩; exact h ⟨h1, by omega⟩
theorem SInt.rep {n : Nat} (a : SInt n) : Rep n a.val := ⟨a.ge, by have := a.le; omega⟩

theorem sint_le {n : Nat} (a b : SInt n) : CppVal.le a b = decide (a.val ≤ b.val) := rfl
theorem sint_lt {n : Nat} (a b : SInt n) : CppVal.lt a b = decide (a.val < b.val) := rfl
theorem sint_eq {n : Nat} (a b : SInt n) : CppVal.eq a b = decide (a.val = b.val) := rfl
theorem sint_cmin {n : Nat} (a b : SInt n) : (cmin a b).val = min a.val b.val := by
  unfold cmin; rw [sint_lt]; split
  all_goals (simp_all <;> omega)
theorem sint_cmax {n : Nat} (a b : SInt n) : (cmax a b).val = max a.val b.val := by
  unfold cmax; rw [sint_lt]; split
  all_goals (simp_all <;> omega)
theorem sint_make {n : Nat} (a b : SInt n) (h : a.val ≤ b.val) : Ivl.make a b = .ok ⟨a, b⟩ := by
  unfold Ivl.make CppVal.gt; rw [sint_lt]
  rw [decide_eq_false (by omega)]; rfl

/-- the two-corner program -/
theorem prog2 (n : Nat) (v1 v2 : Int) :
    ((¬ Rep n v1 ∨ ¬ Rep n v2) ∧ (do let a ← SInt.of n v1; let b ← SInt.of n v2; hull2 a b) = .error .ub) ∨
    (Rep n v1 ∧ Rep n v2 ∧ ∃ R, (do let a ← SInt.of n v1; let b ← SInt.of n v2; hull2 a b) = .ok R ∧
      R.lo.val = min v1 v2 ∧ R.hi.val = max v1 v2) := by
  by_cases h1 : Rep n v1
  · by_cases h2 : Rep n v2
    · right
      refine ⟨h1, h2, ?_⟩
      rw [SInt.of_ok h1, SInt.of_ok h2]
      simp only [ok_bind, hull2]
      rw [sint_make _ _ (by rw [sint_cmin, sint_cmax]; omega)]
      exact ⟨_, rfl, by rw [sint_cmin], by rw [sint_cmax]⟩
    · left; refine ⟨Or.inr h2, ?_⟩
      rw [SInt.of_ok h1, SInt.of_ub h2]; rfl
  · left; refine ⟨Or.inl h1, ?_⟩
    rw [SInt.of_ub h1]; rfl

/-- the four-corner program -/
theorem prog4 (n : Nat) (v1 v2 v3 v4 : Int) :
    ((¬ Rep n v1 ∨ ¬ Rep n v2 ∨ ¬ Rep n v3 ∨ ¬ Rep n v4) ∧
      (do let a ← SInt.of n v1; let b ← SInt.of n v2; let c ← SInt.of n v3; let d ← SInt.of n v4; hull4 a b c d) = .error .ub) ∨
    (Rep n v1 ∧ Rep n v2 ∧ Rep n v3 ∧ Rep n v4 ∧
      ∃ R, (do let a ← SInt.of n v1; let b ← SInt.of n v2; let c ← SInt.of n v3; let d ← SInt.of n v4; hull4 a b c d) = .ok R ∧
      R.lo.val = min (min v1 v2) (min v3 v4) ∧ R.hi.val = max (max v1 v2) (max v3 v4)) := by
  by_cases h1 : Rep n v1
  · by_cases h2 : Rep n v2
    · by_cases h3 : Rep n v3
      · by_cases h4 : Rep n v4
        · right
          refine ⟨h1, h2, h3, h4, ?_⟩
          rw [SInt.of_ok h1, SInt.of_ok h2, SInt.of_ok h3, SInt.of_ok h4]
          simp only [ok_bind, hull4]
          rw [sint_make _ _ (by simp only [sint_cmin, sint_cmax]; omega)]
          exact ⟨_, rfl, by simp only [sint_cmin], by simp only [sint_cmax]⟩
        · left; refine ⟨Or.inr (Or.inr (Or.inr h4)), ?_⟩
          rw [SInt.of_ok h1, SInt.of_ok h2, SInt.of_ok h3, SInt.of_ub h4]; rfl
      · left; refine ⟨Or.inr (Or.inr (Or.inl h3)), ?_⟩
        rw [SInt.of_ok h1, SInt.of_ok h2, SInt.of_ub h3]; rfl
    · left; refine ⟨Or.inr (Or.inl h2), ?_⟩
      rw [SInt.of_ok h1, SInt.of_ub h2]; rfl
  · left; refine ⟨Or.inl h1, ?_⟩
    rw [SInt.of_ub h1]; rfl

/-- the bounds program of `+` and `-` -/
theorem progBounds (n : Nat) (v1 v2 : Int) (hv : v1 ≤ v2) :
    ((¬ Rep n v1 ∨ ¬ Rep n v2) ∧ (do let a ← SInt.of n v1; let b ← SInt.of n v2; Ivl.make a b) = .error .ub) ∨
    (Rep n v1 ∧ Rep n v2 ∧ ∃ R, (do let a ← SInt.of n v1; let b ← SInt.of n v2; Ivl.make a b) = .ok R ∧
      R.lo.val = v1 ∧ R.hi.val = v2) := by
  by_cases h1 : Rep n v1
  · by_cases h2 : Rep n v2
    · right
      refine ⟨h1, h2, ?_⟩
      rw [SInt.of_ok h1, SInt.of_ok h2]
      simp only [ok_bind]
      rw [sint_make _ _ hv]
      exact ⟨_, rfl, rfl, rfl⟩
    · left; refine ⟨Or.inr h2, ?_⟩
      rw [SInt.of_ok h1, SInt.of_ub h2]; rfl
  · left; refine ⟨Or.inl h1, ?_⟩
    rw [SInt.of_ub h1]; rfl

theorem rep_mid {n : Nat} {a b v : Int} (ha : Rep n a) (hb : Rep n b) (h1 : min a b ≤ v) (h2 : v ≤ max a b) : Rep n v := by
  obtain ⟨a1, a2⟩ := ha; obtain ⟨b1, b2⟩ := hb
  exact ⟨by omega, by omega⟩

/-- A function lies between its values at the ends of `[l,h]`. -/
def Between (f : Int → Int) (l h : Int) : Prop :=
  ∀ a, l ≤ a → a ≤ h → min (f l) (f h) ≤ f a ∧ f a ≤ max (f l) (f h)

theorem InI.lo {n : Nat} (X : Arg (SInt n)) (h : Inhab X) : InI X.lo.val X := by
  cases X
  · rfl
  · exact ⟨Int.le_refl _, h⟩
theorem InI.hi {n : Nat} (X : Arg (SInt n)) (h : Inhab X) : InI X.hi.val X := by
  cases X
  · rfl
  · exact ⟨h, Int.le_refl _⟩
theorem InI.bounds {n : Nat} {X : Arg (SInt n)} {a : Int} (h : InI a X) : X.lo.val ≤ a ∧ a ≤ X.hi.val := by
  cases X
  · cases h; exact ⟨Int.le_refl _, Int.le_refl _⟩
  · exact h

/-- corner values that occur, program outcome by corners ⇒ exactness -/
theorem exact_of_corners {n : Nat} (g : Int → Int → Int) (D : Int → Int → Prop) [∀ a b, Decidable (D a b)]
    (X Y : Arg (SInt n)) (res : Outcome (Ivl (SInt n)))
    (hD : ∀ a b, InI a X → InI b Y → D a b)
    (S : List (Int × Int)) (hS : ∀ p ∈ S, InI p.1 X ∧ InI p.2 Y)
    (hres : ((∃ p ∈ S, ¬ Rep n (g p.1 p.2)) ∧ res = .error .ub) ∨
      ((∀ p ∈ S, Rep n (g p.1 p.2)) ∧ ∃ R, res = .ok R ∧ (∃ p ∈ S, g p.1 p.2 = R.lo.val) ∧ (∃ p ∈ S, g p.1 p.2 = R.hi.val) ∧
        ∀ a b, InI a X → InI b Y → R.lo.val ≤ g a b ∧ g a b ≤ R.hi.val)) :
    ExactInt2 (fun a b => if D a b then some (g a b) else none) X Y res := by
  rcases hres with ⟨⟨p, hp, hr⟩, he⟩ | ⟨hall, R, hR, ⟨p, hp, hlo⟩, ⟨q, hq, hhi⟩, hb⟩
  · left
    obtain ⟨h1, h2⟩ := hS p hp
    refine ⟨⟨p.1, p.2, h1, h2, ?_⟩, he⟩
    rintro ⟨v, hv, hrv⟩
    simp only [hD _ _ h1 h2, if_true, Option.some.injEq] at hv
    subst hv; exact hr hrv
  · right
    obtain ⟨p1, p2⟩ := hS p hp
    obtain ⟨q1, q2⟩ := hS q hq
    refine ⟨fun a b ha hb' => ⟨g a b, by simp [hD a b ha hb'], ?_⟩, R, hR, fun a b v ha hb' hv => ?_,
      ⟨p.1, p.2, p1, p2, by simp [hD _ _ p1 p2, hlo]⟩, ⟨q.1, q.2, q1, q2, by simp [hD _ _ q1 q2, hhi]⟩⟩
    · obtain ⟨x, y⟩ := hb a b ha hb'
      have l := R.lo.rep; have r := R.hi.rep
      exact ⟨by have := l.1; omega, by have := r.2; omega⟩
    · simp only [hD a b ha hb', if_true, Option.some.injEq] at hv
      subst hv; exact hb a b ha hb'

/-- the two-coordinate corner bound -/
theorem corner_bound (g : Int → Int → Int) (al ah bl bh : Int)
    (h1 : ∀ b, bl ≤ b → b ≤ bh → Between (fun a => g a b) al ah)
    (h2 : ∀ a, al ≤ a → a ≤ ah → Between (fun b => g a b) bl bh)
    (a b : Int) (ha : al ≤ a) (ha' : a ≤ ah) (hb : bl ≤ b) (hb' : b ≤ bh) :
    min (min (g al bl) (g al bh)) (min (g ah bl) (g ah bh)) ≤ g a b ∧
    g a b ≤ max (max (g al bl) (g al bh)) (max (g ah bl) (g ah bh)) := by
  have e1 := h1 b hb hb' a ha ha'
  have e2 := h2 al (Int.le_refl _) (by omega) b hb hb'
  have e3 := h2 ah (by omega) (Int.le_refl _) b hb hb'
  simp only at e1 e2 e3
  omega

theorem between_mul_left (b l h : Int) : Between (fun a => a * b) l h := by
  intro a h1 h2
  simp only
  rcases Int.le_total 0 b with hb | hb
  · have := mul_le_mul_of_nonneg_right h1 hb
    have := mul_le_mul_of_nonneg_right h2 hb
    omega
  · have := mul_le_mul_of_nonpos_right h1 hb
    have := mul_le_mul_of_nonpos_right h2 hb
    omega
theorem between_mul_right (a l h : Int) : Between (fun b => a * b) l h := by
  intro b h1 h2
  have := between_mul_left a l h b h1 h2
  simpa only [Int.mul_comm] using this

theorem tdiv_mono_left {a a' b : Int} (hb : 0 < b) (h : a ≤ a') : a.tdiv b ≤ a'.tdiv b := Int.tdiv_le_tdiv hb h
theorem between_tdiv_left (b l h : Int) (hb : b ≠ 0) : Between (fun a => a.tdiv b) l h := by
  intro a h1 h2
  simp only
  rcases lt_or_gt_of_ne hb with hb | hb
  · have e : ∀ c : Int, c.tdiv b = -(c.tdiv (-b)) := by intro c; rw [Int.tdiv_neg]; omega
    have := tdiv_mono_left (b := -b) (by omega) h1
    have := tdiv_mono_left (b := -b) (by omega) h2
    rw [e a, e l, e h]; omega
  · have := tdiv_mono_left hb h1
    have := tdiv_mono_left hb h2
    omega
/-- for a non-negative dividend and positive divisors the quotient decreases with the divisor -/
theorem tdiv_anti_right {a b b' : Int} (ha : 0 ≤ a) (hb : 0 < b) (h : b ≤ b') : a.tdiv b' ≤ a.tdiv b := by
  rw [Int.tdiv_eq_ediv_of_nonneg ha, Int.tdiv_eq_ediv_of_nonneg ha]
  have h0 : 0 ≤ a / b' := Int.ediv_nonneg ha (by omega)
  have h1 : a / b' * b' ≤ a := Int.ediv_mul_le a (by omega)
  apply Int.le_ediv_of_mul_le hb
  have := mul_le_mul_of_nonneg_left h h0
  omega
theorem between_tdiv_right_pos (a l h : Int) (hl : 0 < l) : Between (fun b => a.tdiv b) l h := by
  intro b h1 h2
  simp only
  rcases Int.le_total 0 a with ha | ha
  · have := tdiv_anti_right ha hl h1
    have := tdiv_anti_right ha (by omega) h2
    omega
  · have e : ∀ c : Int, a.tdiv c = -((-a).tdiv c) := by intro c; rw [Int.neg_tdiv]; omega
    have := tdiv_anti_right (a := -a) (by omega) hl h1
    have := tdiv_anti_right (a := -a) (by omega) (by omega) h2
    rw [e b, e l, e h]; omega
theorem between_tdiv_right (a l h : Int) (hb : ¬ (l ≤ 0 ∧ 0 ≤ h)) : Between (fun b => a.tdiv b) l h := by
  intro b h1 h2
  simp only
  rcases lt_or_ge 0 l with hl | hl
  · exact between_tdiv_right_pos a l h hl b h1 h2
  · have := between_tdiv_right_pos a (-h) (-l) (by omega) (-b) (by omega) (by omega)
    simp only [Int.tdiv_neg] at this
    omega

theorem isQuot_tdiv (a b : Int) (hb : b ≠ 0) : IsQuot a b (a.tdiv b) := by
  refine ⟨a.tmod b, ?_, ?_, ?_, ?_⟩
  · have := Int.tmod_add_tdiv_mul a b; omega
  · have := Int.natAbs_tmod a b
    rw [this]; exact Nat.mod_lt _ (by omega)
  · intro h; exact Int.tmod_nonneg _ h
  · intro h
    have e : a.tmod b = -((-a).tmod b) := by rw [Int.neg_tmod]; omega
    have := Int.tmod_nonneg (a := -a) b (by omega)
    omega
theorem isQuot_unique (a b p q : Int) (hp : IsQuot a b p) (hq : IsQuot a b q) : p = q := by
  obtain ⟨r, h1, h2, h3, h4⟩ := hp
  obtain ⟨s, k1, k2, k3, k4⟩ := hq
  by_contra hne
  have e : (p - q) * b = s - r := by rw [Int.sub_mul]; omega
  have hlt : (s - r).natAbs < b.natAbs := by omega
  have : b.natAbs ≤ ((p - q) * b).natAbs := by
    rw [Int.natAbs_mul]
    have : 1 ≤ (p - q).natAbs := by omega
    exact Nat.le_mul_of_pos_left _ this
  rw [e] at this; omega

end Intervals
