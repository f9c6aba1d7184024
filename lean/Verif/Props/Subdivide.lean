import Verif.Props.ExprRange
import Verif.Props.Basic
/-!
# C85: subdivision gives arbitrarily tight enclosures
-/
set_option linter.unusedSectionVars false
set_option linter.unusedSimpArgs false
namespace Intervals.Props
open Intervals CppVal Spec Fl Set

attribute [local instance] exactFmt

theorem mapM_ok {α β : Type} {f : α → Outcome β} {l : List α} (h : ∀ a ∈ l, ∃ b, f a = .ok b) :
    ∃ bs, l.mapM f = .ok bs ∧ (∀ b ∈ bs, ∃ a ∈ l, f a = .ok b) ∧ ∀ a ∈ l, ∃ b ∈ bs, f a = .ok b := by
  induction l with
  | nil => exact ⟨[], rfl, by simp, by simp⟩
  | cons a l ih =>
    obtain ⟨b, hb⟩ := h a (by simp)
    obtain ⟨bs, e, h1, h2⟩ := ih fun x hx => h x (by simp [hx])
    refine ⟨b :: bs, by rw [List.mapM_cons, hb, e]; rfl, fun c hc => ?_, fun x hx => ?_⟩
    · rcases List.mem_cons.mp hc with rfl | hc
      · exact ⟨a, by simp, hb⟩
      · obtain ⟨x, hx, e⟩ := h1 c hc; exact ⟨x, by simp [hx], e⟩
    · rcases List.mem_cons.mp hx with rfl | hx
      · exact ⟨b, by simp, hb⟩
      · obtain ⟨c, hc, e⟩ := h2 x hx; exact ⟨c, by simp [hc], e⟩

/-- evaluates the expression on each of the boxes `B`, `Bs` and merges the results -/
noncomputable def evalPieces (dbg : Bool) (e : RExpr) (B : Nat → Ivl (Fl ℝ)) (Bs : List (Nat → Ivl (Fl ℝ))) : Outcome (Ivl (Fl ℝ)) := do
  let r ← e.ivl dbg B
  let rs ← Bs.mapM (e.ivl dbg)
  Ivl.merge r rs

/-- C85: evaluating a regular expression on the pieces of a subdivision of a finite box and merging the results contains all values of the expression on the box, and
exceeds their range by at most `ε` on either side if the pieces are narrow enough, however often the variables are repeated. -/
theorem C85_subdivision (dbg : Bool) (X₀ : Nat → Ivl (Fl ℝ)) (hX : FiniteBox X₀) (e : RExpr) (he : e.Regular dbg X₀) (ε : ℝ) (hε : 0 < ε) :
    ∃ R₀, e.ivl dbg X₀ = .ok R₀ ∧ ∃ δ > 0, ∀ B Bs, (∀ C ∈ B :: Bs, FiniteBox C ∧ (∀ i, SubI (C i) (X₀ i)) ∧ ∀ i ∈ e.vars, width (C i) ≤ δ) →
      (∀ κ, InBox κ X₀ → ∃ C ∈ B :: Bs, InBox κ C) →
      ∃ R, evalPieces dbg e B Bs = .ok R ∧ FiniteI R ∧ SubI R R₀ ∧ (∀ κ, InBox κ X₀ → ∃ v, e.val κ = some v ∧ .num v ∈ᵢ R) ∧
        (∃ κ v, InBox κ X₀ ∧ e.val κ = some v ∧ v ≤ R.lo.val + ε) ∧ ∃ κ v, InBox κ X₀ ∧ e.val κ = some v ∧ R.hi.val ≤ v + ε := by
  obtain ⟨a₀, b₀, ⟨R₀, eR₀, iR₀⟩, -, h⟩ := conv_expr dbg X₀ hX e he
  obtain ⟨δ, hδ, h⟩ := h ε hε
  refine ⟨R₀, eR₀, δ, hδ, fun B Bs hB hcov => ?_⟩
  have hp : ∀ C ∈ B :: Bs, ∃ R, e.ivl dbg C = .ok R ∧ (FiniteI R ∧ a₀ ≤ R.lo.val ∧ R.hi.val ≤ b₀) ∧ width R ≤ ε ∧ (∀ κ, InBox κ C → ∃ v, e.val κ = some v ∧ .num v ∈ᵢ R) ∧
      ∃ κ v, InBox κ X₀ ∧ e.val κ = some v ∧ .num v ∈ᵢ R := fun C hC => by
    obtain ⟨f, s, w⟩ := hB C hC
    obtain ⟨R, c, d, e1, i, hcd, g1, g2, hw, hκ⟩ := h C f s w
    have e4 : ∀ κ, InBox κ C → ∃ v, e.val κ = some v ∧ .num v ∈ᵢ R := fun κ hk => by
      obtain ⟨v, hv, e⟩ := hκ κ hk
      exact ⟨v, e, i.mem_num.mpr hv⟩
    refine ⟨R, e1, ⟨⟨i.1.1, i.2.1, i.proper.mpr hcd⟩, by rw [i.1.2]; exact g1, by rw [i.2.2]; exact g2⟩, by unfold width; rw [i.1.2, i.2.2]; exact hw, e4, fun i => (C i).lo.val, ?_⟩
    have hk : InBox (fun i => (C i).lo.val) C := fun i => by
      have := isI_of_finite (f i).1 (f i).2.1
      exact this.mem_num.mpr ⟨le_rfl, this.proper.mp (f i).2.2⟩
    obtain ⟨v, hv, m⟩ := e4 _ hk
    exact ⟨v, fun i => s i _ (hk i), hv, m⟩
  obtain ⟨r, er, -⟩ := hp B (by simp)
  obtain ⟨rs, ers, h1, h2⟩ := mapM_ok (f := e.ivl dbg) (l := Bs) fun C hC => (hp C (by simp [hC])).imp fun R h => h.1
  have hall : ∀ A ∈ r :: rs, ∃ C ∈ B :: Bs, e.ivl dbg C = .ok A := fun A hA => by
    rcases List.mem_cons.mp hA with rfl | hA
    · exact ⟨B, by simp, er⟩
    · obtain ⟨C, hC, e⟩ := h1 A hA; exact ⟨C, by simp [hC], e⟩
  have hall' : ∀ C ∈ B :: Bs, ∃ A ∈ r :: rs, e.ivl dbg C = .ok A := fun C hC => by
    rcases List.mem_cons.mp hC with rfl | hC
    · exact ⟨r, by simp, er⟩
    · obtain ⟨A, hA, e⟩ := h2 C hC; exact ⟨A, by simp [hA], e⟩
  have hfin : ∀ A ∈ r :: rs, (FiniteI A ∧ a₀ ≤ A.lo.val ∧ A.hi.val ≤ b₀) ∧ width A ≤ ε ∧ ∃ κ v, InBox κ X₀ ∧ e.val κ = some v ∧ .num v ∈ᵢ A := fun A hA => by
    obtain ⟨C, hC, e⟩ := hall A hA
    obtain ⟨R, e1, e2, e3, -, e5⟩ := hp C hC
    rw [e] at e1; cases e1
    exact ⟨e2, e3, e5⟩
  obtain ⟨R, eR, pR, hull⟩ := C14_merge r rs (hfin r (by simp)).1.1.2.2 fun A hA => (hfin A (by simp [hA])).1.1.2.2
  obtain ⟨hsub, ⟨A, hA, eA⟩, ⟨A', hA', eA'⟩⟩ := hull
  have iA := isI_of_finite (hfin A hA).1.1.1 (hfin A hA).1.1.2.1
  have iA' := isI_of_finite (hfin A' hA').1.1.1 (hfin A' hA').1.1.2.1
  have iR : IsI R A.lo.val A'.hi.val := ⟨is_of_eq iA.1 (eq_symm' eA), is_of_eq iA'.2 (eq_symm' eA')⟩
  refine ⟨R, by simp only [evalPieces, er, ers, ok_bind, eR], ⟨iR.1.1, iR.2.1, pR⟩, fun u hu => ?_, fun κ hk => ?_, ?_, ?_⟩
  · obtain ⟨k, ik, hk⟩ := iR.mem.mp hu
    exact iR₀.mem.mpr ⟨k, ik, (hfin A hA).1.2.1.trans hk.1, hk.2.trans (hfin A' hA').1.2.2⟩
  · obtain ⟨C, hC, hkC⟩ := hcov κ hk
    obtain ⟨S, e1, -, -, e4, -⟩ := hp C hC
    obtain ⟨S', hS', e⟩ := hall' C hC
    rw [e] at e1; cases e1
    obtain ⟨v, hv, m⟩ := e4 κ hkC
    exact ⟨v, hv, CppOrder.le_trans _ _ _ (hsub _ hS').1 m.1, CppOrder.le_trans _ _ _ m.2 (hsub _ hS').2⟩
  · obtain ⟨-, w, κ, v, hk, hv, m⟩ := hfin A hA
    refine ⟨κ, v, hk, hv, ?_⟩
    have := iA.mem_num.mp m
    rw [iR.1.2]; unfold width at w; linarith [this.2]
  · obtain ⟨-, w, κ, v, hk, hv, m⟩ := hfin A' hA'
    refine ⟨κ, v, hk, hv, ?_⟩
    have := iA'.mem_num.mp m
    rw [iR.2.2]; unfold width at w; linarith [this.1]

/-- the `j`-th of `n` equal parts of `[a, b]` -/
noncomputable def part (a b : ℝ) (n j : ℕ) : Ivl (Fl ℝ) := ⟨.num (a + (b - a) * j / n), .num (a + (b - a) * (j + 1 : ℕ) / n)⟩

/-- the box with its side `0` replaced by the `j`-th of `n` equal parts of `[a, b]` -/
noncomputable def slice (X : Nat → Ivl (Fl ℝ)) (a b : ℝ) (n j : ℕ) (i : Nat) : Ivl (Fl ℝ) := if i = 0 then part a b n j else X i

theorem part_sub {a b : ℝ} (hab : a ≤ b) {n j : ℕ} (hj : j < n) : a ≤ a + (b - a) * j / n ∧ a + (b - a) * j / n ≤ a + (b - a) * (j + 1 : ℕ) / n ∧
    a + (b - a) * (j + 1 : ℕ) / n ≤ b := by
  have hn : (0:ℝ) < n := by exact_mod_cast (Nat.zero_le j).trans_lt hj
  have hj' : ((j + 1 : ℕ) : ℝ) ≤ n := by exact_mod_cast hj
  have h0 : 0 ≤ b - a := by linarith
  refine ⟨?_, ?_, ?_⟩
  · have : 0 ≤ (b - a) * j / n := by positivity
    linarith
  · have : (b - a) * j / n ≤ (b - a) * (j + 1 : ℕ) / n := by
      apply div_le_div_of_nonneg_right _ hn.le
      exact mul_le_mul_of_nonneg_left (by push_cast; linarith) h0
    linarith
  · have : (b - a) * (j + 1 : ℕ) / n ≤ b - a := by
      rw [div_le_iff₀ hn]; exact mul_le_mul_of_nonneg_left hj' h0
    linarith

theorem part_cover {a b x : ℝ} (h1 : a ≤ x) (h2 : x ≤ b) {n : ℕ} (hn : 0 < n) : ∃ j < n, a + (b - a) * j / n ≤ x ∧ x ≤ a + (b - a) * (j + 1 : ℕ) / n := by
  have hn' : (0:ℝ) < n := by exact_mod_cast hn
  have hex : ∃ j : ℕ, x ≤ a + (b - a) * (j + 1 : ℕ) / n := ⟨n - 1, by
    rw [Nat.sub_add_cancel hn, mul_div_assoc, div_self hn'.ne']; linarith⟩
  classical
  refine ⟨Nat.find hex, ?_, ?_, Nat.find_spec hex⟩
  · have : Nat.find hex ≤ n - 1 := Nat.find_le (by rw [Nat.sub_add_cancel hn, mul_div_assoc, div_self hn'.ne']; linarith)
    omega
  · rcases Nat.eq_zero_or_pos (Nat.find hex) with h | h
    · rw [h]; simpa using h1
    · have := Nat.find_min hex (Nat.sub_lt h one_pos)
      rw [show Nat.find hex - 1 + 1 = Nat.find hex by omega] at this
      exact (not_le.mp this).le

/-- C85 for functions of one variable: evaluating on `n` equal parts of `[a, b]` and merging the results is as tight as desired, for every large enough `n`. -/
theorem C85_equal_parts (dbg : Bool) (X₀ : Nat → Ivl (Fl ℝ)) (hX : FiniteBox X₀) (a b : ℝ) (h0 : X₀ 0 = ⟨.num a, .num b⟩) (e : RExpr) (he : e.Regular dbg X₀)
    (hv : ∀ i ∈ e.vars, i = 0) (ε : ℝ) (hε : 0 < ε) :
    ∃ N : ℕ, ∀ n ≥ N, ∃ R, evalPieces dbg e (slice X₀ a b (n + 1) 0) ((List.range n).map fun j => slice X₀ a b (n + 1) (j + 1)) = .ok R ∧ FiniteI R ∧
      (∀ x, a ≤ x → x ≤ b → ∃ v, e.val (fun _ => x) = some v ∧ .num v ∈ᵢ R) ∧
      (∃ x v, a ≤ x ∧ x ≤ b ∧ e.val (fun _ => x) = some v ∧ v ≤ R.lo.val + ε) ∧ ∃ x v, a ≤ x ∧ x ≤ b ∧ e.val (fun _ => x) = some v ∧ R.hi.val ≤ v + ε := by
  have i0 : IsI (X₀ 0) a b := by rw [h0]; exact ⟨Is.num a, Is.num b⟩
  have hab : a ≤ b := i0.proper.mp (hX 0).2.2
  have hval : ∀ κ, e.val κ = e.val fun _ => κ 0 := fun κ => val_congr e fun i hi => by rw [hv i hi]
  obtain ⟨R₀, -, δ, hδ, h⟩ := C85_subdivision dbg X₀ hX e he ε hε
  obtain ⟨N, hN⟩ := exists_nat_gt ((b - a) / δ)
  refine ⟨N, fun n hn => ?_⟩
  have hw : (b - a) / (n + 1 : ℕ) ≤ δ := by
    have : (N : ℝ) ≤ n := by exact_mod_cast hn
    rw [div_le_iff₀ (by positivity)]
    rw [div_lt_iff₀ hδ] at hN
    push_cast; nlinarith
  have ip : ∀ j, IsI (slice X₀ a b (n + 1) j 0) (a + (b - a) * j / (n + 1 : ℕ)) (a + (b - a) * (j + 1 : ℕ) / (n + 1 : ℕ)) := fun j => ⟨Is.num _, Is.num _⟩
  have hpiece : ∀ j < n + 1, FiniteBox (slice X₀ a b (n + 1) j) ∧ (∀ i, SubI (slice X₀ a b (n + 1) j i) (X₀ i)) ∧ ∀ i ∈ e.vars, width (slice X₀ a b (n + 1) j i) ≤ δ := fun j hj => by
    obtain ⟨p1, p2, p3⟩ := part_sub hab hj
    refine ⟨fun i => ?_, fun i => ?_, fun i hi => ?_⟩
    · by_cases hi : i = 0
      · subst hi; exact ⟨rfl, rfl, (ip j).proper.mpr p2⟩
      · simp only [slice, hi, if_false]; exact hX i
    · by_cases hi : i = 0
      · subst hi
        intro u hu
        obtain ⟨k, ik, hk⟩ := (ip j).mem.mp hu
        exact i0.mem.mpr ⟨k, ik, p1.trans hk.1, hk.2.trans p3⟩
      · simp only [slice, hi, if_false]; exact fun _ h => h
    · rw [hv i hi]; unfold width; rw [(ip j).1.2, (ip j).2.2]
      refine le_trans (le_of_eq ?_) hw
      push_cast; field_simp; ring
  obtain ⟨R, e1, e2, -, e3, ⟨κ, v, k1, k2, k3⟩, ⟨κ', v', k1', k2', k3'⟩⟩ := h (slice X₀ a b (n + 1) 0) ((List.range n).map fun j => slice X₀ a b (n + 1) (j + 1)) (fun C hC => by
      rcases List.mem_cons.mp hC with rfl | hC
      · exact hpiece 0 (by omega)
      · obtain ⟨j, hj, rfl⟩ := List.mem_map.mp hC
        exact hpiece (j + 1) (by have := List.mem_range.mp hj; omega)) fun κ hk => by
    obtain ⟨m1, m2⟩ := i0.mem_num.mp (hk 0)
    obtain ⟨j, hj, q⟩ := part_cover m1 m2 (n := n + 1) (by omega)
    refine ⟨slice X₀ a b (n + 1) j, ?_, fun i => ?_⟩
    · cases j with
      | zero => simp
      | succ j => exact List.mem_cons_of_mem _ (List.mem_map.mpr ⟨j, List.mem_range.mpr (by omega), rfl⟩)
    · by_cases hi : i = 0
      · subst hi; exact (ip j).mem_num.mpr q
      · simp only [slice, hi, if_false]; exact hk i
  refine ⟨R, e1, e2, fun x h1 h2 => ?_, ⟨κ 0, v, (i0.mem_num.mp (k1 0)).1, (i0.mem_num.mp (k1 0)).2, hval κ ▸ k2, k3⟩,
    ⟨κ' 0, v', (i0.mem_num.mp (k1' 0)).1, (i0.mem_num.mp (k1' 0)).2, hval κ' ▸ k2', k3'⟩⟩
  have hk : InBox (fun i => if i = 0 then x else (X₀ i).lo.val) X₀ := fun i => by
    by_cases hi : i = 0
    · subst hi; exact i0.mem_num.mpr ⟨h1, h2⟩
    · simp only [hi, if_false]
      have := isI_of_finite (hX i).1 (hX i).2.1
      exact this.mem_num.mpr ⟨le_rfl, this.proper.mp (hX i).2.2⟩
  have := e3 _ hk
  rw [hval] at this
  simpa using this

/-- `x * x - x` on `[0, 1]` meets the hypotheses; evaluated at once it yields `[-1, 1]`, though its values lie in `[-1/4, 0]` -/
example : let e : RExpr := .bin (.arith .sub) (.bin (.arith .mul) (.var 0) (.var 0)) (.var 0)
    FiniteBox (fun _ => ⟨.num 0, .num 1⟩) ∧ e.Regular true (fun _ => ⟨.num 0, .num 1⟩) ∧ ∀ i ∈ e.vars, i = 0 := by
  refine ⟨fun _ => ⟨rfl, rfl, by simp [Proper]⟩, ⟨⟨trivial, trivial, fun _ _ _ _ _ _ _ _ => ⟨rfl, by simp⟩⟩, trivial, fun _ _ _ _ _ _ _ _ => ⟨rfl, by simp⟩⟩, by simp [RExpr.vars]⟩
end Intervals.Props
