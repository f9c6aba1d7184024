import Verif.Props.Isotone
import Verif.Props.Monotone
import Verif.Props.Floor
import Verif.Props.Trig
import Verif.Props.Atan2
import Verif.Props.PowFlt
import Verif.Props.Blend
/-!
# C80: the elementary functions are inclusion isotone

`SubI X X'`, `SubA X X'` (Props/Isotone.lean): every point of `X` is a point of `X'`.
-/
set_option linter.unusedSectionVars false
namespace Intervals.Props
open Intervals CppVal Spec

section generic
variable {K : Type} [Field K] [LinearOrder K] [IsStrictOrderedRing K] [Fmt K] [FloorRing K]

theorem subI_bounds {X X' : Ivl (Fl K)} (pX : Proper X) (h : SubI X X') : le X'.lo X.lo = true ∧ le X.hi X'.hi = true :=
  ⟨(h _ (lo_mem (X := .ivl X) pX)).1, (h _ (hi_mem (X := .ivl X) pX)).2⟩

variable [Libm K]

/-- C80 for the monotone functions, in every format and for every library whose functions are monotone on their domains; the domain is required of the larger
operand only. -/
theorem C80_monotone (dbg : Bool) (X X' : Ivl (Fl K)) (pX : Proper X) (pX' : Proper X') (hX : SubI X X') :
    let Iso (f : Bool → Ivl (Fl K) → Outcome (Ivl (Fl K))) : Prop := ∃ R R', f dbg X = .ok R ∧ f dbg X' = .ok R' ∧ SubI R R'
    (MonoOnFl (Libm.sqrt : Fl K → Fl K) Nonneg → Nonneg X'.lo → Iso sqrtI) ∧
    (MonoOnFl (Libm.cbrt : Fl K → Fl K) (fun _ => True) → Iso cbrtI) ∧
    (MonoOnFl (Libm.log : Fl K → Fl K) Nonneg → Nonneg X'.lo → Iso logI) ∧
    (MonoOnFl (Libm.exp : Fl K → Fl K) (fun _ => True) → Iso expI) ∧
    (MonoOnFl (Libm.atan : Fl K → Fl K) (fun _ => True) → Iso atanI) ∧
    (MonoOnFl (Libm.asin : Fl K → Fl K) Unit1 → le (.num (-1)) X'.lo = true → le X'.hi (.num 1) = true → Iso asinI) ∧
    (AntiOnFl (Libm.acos : Fl K → Fl K) Unit1 → le (.num (-1)) X'.lo = true → le X'.hi (.num 1) = true → Iso acosI) := by
  obtain ⟨b1, b2⟩ := subI_bounds pX hX
  have n0 : Nonneg X'.lo → Nonneg X.lo := fun h => CppOrder.le_trans _ _ _ h b1
  refine ⟨fun m h => ?_, fun m => ?_, fun m h => ?_, fun m => ?_, fun m => ?_, fun m h h' => ?_, fun m h h' => ?_⟩
  · exact isotone1 hX (exactV_of (C37_sqrt m dbg X pX (n0 h))) (exactV_of (C37_sqrt m dbg X' pX' h))
  · exact isotone1 hX (exactV_of (C37_cbrt m dbg X pX)) (exactV_of (C37_cbrt m dbg X' pX'))
  · exact isotone1 hX (exactV_of (C37_log m dbg X pX (n0 h))) (exactV_of (C37_log m dbg X' pX' h))
  · exact isotone1 hX (exactV_of (C37_exp m dbg X pX)) (exactV_of (C37_exp m dbg X' pX'))
  · exact isotone1 hX (exactV_of (C37_atan m dbg X pX)) (exactV_of (C37_atan m dbg X' pX'))
  · exact isotone1 hX (exactV_of (C37_asin m dbg X pX (CppOrder.le_trans _ _ _ h b1) (CppOrder.le_trans _ _ _ b2 h'))) (exactV_of (C37_asin m dbg X' pX' h h'))
  · exact isotone1 hX (exactV_of (C37_acos m dbg X pX (CppOrder.le_trans _ _ _ h b1) (CppOrder.le_trans _ _ _ b2 h'))) (exactV_of (C37_acos m dbg X' pX' h h'))


/-- C80 for `frac`, in every format in which 1 is a number, for finite operands -/
theorem C80_frac (h1 : Fmt.rnd (1:K) = .num 1) (dbg : Bool) (X X' : Ivl (Fl K)) (pX : FiniteI X) (pX' : FiniteI X') (hX : SubI X X') :
    ∃ R R', fracI dbg X = .ok R ∧ fracI dbg X' = .ok R' ∧ SubI R R' := by
  obtain ⟨R, e, r0, r1, i, hs, hd⟩ := C36_frac h1 dbg X pX.2.2 pX.1 pX.2.1
  obtain ⟨R', e', r0', r1', i', hs', hd'⟩ := C36_frac h1 dbg X' pX'.2.2 pX'.1 pX'.2.1
  refine ⟨R, R', e, e', ?_⟩
  by_cases c' : ⌊X'.lo.val⌋ = ⌊X'.hi.val⌋
  · have c : ⌊X.lo.val⌋ = ⌊X.hi.val⌋ := by
      obtain ⟨b1, b2⟩ := subI_bounds pX.2.2 hX
      have l := Fl.Is.of_finite pX.1; have u := Fl.Is.of_finite pX.2.1
      have l' := Fl.Is.of_finite pX'.1; have u' := Fl.Is.of_finite pX'.2.1
      have a1 := Int.floor_mono ((l'.le_iff l).mp b1)
      have a2 := Int.floor_mono ((l.le_iff u).mp pX.2.2)
      have a3 := Int.floor_mono ((u.le_iff u').mp b2)
      omega
    have hR := hs c
    subst hR
    exact subI_of_bounds (i' _ (hX _ (lo_mem (X := .ivl X) pX.2.2))) (i' _ (hX _ (hi_mem (X := .ivl X) pX.2.2)))
  · rw [hd' c']
    exact fun v hv => ⟨CppOrder.le_trans _ _ _ r0 hv.1, CppOrder.le_trans _ _ _ hv.2 r1⟩

/-- C80 for `pow` with a non-negative base, in every format and for every library with monotone `log` and `exp`, with finite or infinite operands -/
theorem C80_pow (hl : PowF.LogMono K) (he : PowF.ExpMono K) (dbg : Bool) (X Y X' Y' : Arg (Fl K)) (pX : ProperA X) (pY : ProperA Y) (pX' : ProperA X')
    (pY' : ProperA Y') (hX : SubA X X') (hY : SubA Y Y') (pos : le (.num 0) X'.lo = true) :
    ∃ R R', powI dbg X Y = .ok R ∧ powI dbg X' Y' = .ok R' ∧ SubI R R' := by
  have b := mem_bounds.mp (hX _ (lo_mem pX))
  obtain ⟨R, e, -, ⟨x, y, hx, hy, h⟩, ⟨u, v, hu, hv, h'⟩⟩ := C41_float_nonneg hl he dbg X Y pX pY (CppOrder.le_trans _ _ _ pos b.1)
  obtain ⟨R', e', i, -, -⟩ := C41_float_nonneg hl he dbg X' Y' pX' pY' pos
  rw [CppOrder.eq_iff] at h h'
  have m := i x y (hX x hx) (hY y hy); have m' := i u v (hX u hu) (hY v hv)
  exact ⟨R, R', e, e', subI_of_bounds ⟨CppOrder.le_trans _ _ _ m.1 h.2, CppOrder.le_trans _ _ _ h.1 m.2⟩
    ⟨CppOrder.le_trans _ _ _ m'.1 h'.2, CppOrder.le_trans _ _ _ h'.1 m'.2⟩⟩
end generic

section exact
variable {K : Type} [Field K] [LinearOrder K] [IsStrictOrderedRing K]
open Fl

theorem isotone_range {V V' : K → Prop} {R R' : Ivl (Fl K)} (h : ExactRange V R) (h' : ExactRange V' R') (sub : ∀ v, V v → V' v) : SubI R R' := by
  obtain ⟨-, ⟨a, ha, hl⟩, ⟨b, hb, hh⟩⟩ := h
  have m := h'.1 a (sub a ha); have m' := h'.1 b (sub b hb)
  rw [CppOrder.eq_iff] at hl hh
  exact subI_of_bounds ⟨CppOrder.le_trans _ _ _ m.1 hl.2, CppOrder.le_trans _ _ _ hl.1 m.2⟩ ⟨CppOrder.le_trans _ _ _ m'.1 hh.2, CppOrder.le_trans _ _ _ hh.1 m'.2⟩

/-- C80 for `fractional_weights` in exact arithmetic -/
theorem C80_weights (dbg : Bool) (A B A' B' : Arg (Fl K)) (hA : FiniteA A) (hB : FiniteA B) (hA' : FiniteA A') (hB' : FiniteA B')
    (sA : SubA A A') (sB : SubA B B') (pos : ∀ a b : K, .num a ∈ₐ A' → .num b ∈ₐ B' → 0 ≤ a ∧ 0 ≤ b ∧ 0 < a + b) :
    let := exactFmt K
    ∃ Wa Wb Wa' Wb', fractionalWeightsI dbg A B = .ok (Wa, Wb) ∧ fractionalWeightsI dbg A' B' = .ok (Wa', Wb') ∧ SubI Wa Wa' ∧ SubI Wb Wb' := by
  intro _
  obtain ⟨Wa, Wb, e, h1, h2⟩ := C43_fractional_weights dbg A B hA hB fun a b ha hb => pos a b (sA _ ha) (sB _ hb)
  obtain ⟨Wa', Wb', e', h1', h2'⟩ := C43_fractional_weights dbg A' B' hA' hB' pos
  exact ⟨Wa, Wb, Wa', Wb', e, e', isotone_range h1 h1' fun v ⟨a, b, ha, hb, h⟩ => ⟨a, b, sA _ ha, sB _ hb, h⟩,
    isotone_range h2 h2' fun v ⟨a, b, ha, hb, h⟩ => ⟨a, b, sA _ ha, sB _ hb, h⟩⟩

/-- C80 for `blend_fractions` in exact arithmetic -/
theorem C80_blend_fractions (dbg : Bool) (F X Y F' X' Y' : Arg (Fl K)) (hF : FiniteA F) (hX : FiniteA X) (hY : FiniteA Y)
    (hF' : FiniteA F') (hX' : FiniteA X') (hY' : FiniteA Y') (sF : SubA F F') (sX : SubA X X') (sY : SubA Y Y')
    (dom : ∀ f : K, .num f ∈ₐ F' → 0 ≤ f ∧ f ≤ 1) :
    let := exactFmt K
    ∃ R R', blendFractionsI dbg F X Y = .ok R ∧ blendFractionsI dbg F' X' Y' = .ok R' ∧ SubI R R' := by
  intro _
  obtain ⟨R, e, h⟩ := C44_blend_fractions dbg F X Y hF hX hY fun f hf => dom f (sF _ hf)
  obtain ⟨R', e', h'⟩ := C44_blend_fractions dbg F' X' Y' hF' hX' hY' dom
  exact ⟨R, R', e, e', isotone_range h h' fun v ⟨f, x, y, hf, hx, hy, h⟩ => ⟨f, x, y, sF _ hf, sX _ hx, sY _ hy, h⟩⟩

/-- C80 for `blend_linear` in exact arithmetic -/
theorem C80_blend_linear (dbg : Bool) (A B X Y A' B' X' Y' : Arg (Fl K)) (hA : FiniteA A) (hB : FiniteA B) (hX : FiniteA X) (hY : FiniteA Y)
    (hA' : FiniteA A') (hB' : FiniteA B') (hX' : FiniteA X') (hY' : FiniteA Y') (sA : SubA A A') (sB : SubA B B') (sX : SubA X X') (sY : SubA Y Y')
    (pos : ∀ a b : K, .num a ∈ₐ A' → .num b ∈ₐ B' → 0 ≤ a ∧ 0 ≤ b ∧ 0 < a + b) :
    let := exactFmt K
    ∃ R R', blendLinearI dbg A B X Y = .ok R ∧ blendLinearI dbg A' B' X' Y' = .ok R' ∧ SubI R R' := by
  intro _
  obtain ⟨R, e, h⟩ := C45_blend_linear dbg A B X Y hA hB hX hY fun a b ha hb => pos a b (sA _ ha) (sB _ hb)
  obtain ⟨R', e', h'⟩ := C45_blend_linear dbg A' B' X' Y' hA' hB' hX' hY' pos
  exact ⟨R, R', e, e', isotone_range h h' fun v ⟨a, b, x, y, ha, hb, hx, hy, h⟩ => ⟨a, b, x, y, sA _ ha, sB _ hb, sX _ hx, sY _ hy, h⟩⟩
end exact

section real
open Fl

theorem isotone_real {f : ℝ → ℝ} {X X' : Ivl (Fl ℝ)} {res res' : Outcome (Ivl (Fl ℝ))} (hX : SubI X X') (h : RealRange f X res) (h' : RealRange f X' res') :
    ∃ R R', res = .ok R ∧ res' = .ok R' ∧ SubI R R' := by
  obtain ⟨R, e, i, a, b⟩ := h
  obtain ⟨R', e', i', a', b'⟩ := h'
  refine ⟨R, R', e, e', isotone_range (V := fun v => ∃ x : ℝ, .num x ∈ᵢ X ∧ v = f x) (V' := fun v => ∃ x : ℝ, .num x ∈ᵢ X' ∧ v = f x) ⟨?_, ?_, ?_⟩ ⟨?_, ?_, ?_⟩ ?_⟩
  · rintro _ ⟨x, hx, rfl⟩; exact i x hx
  · obtain ⟨x, hx, h⟩ := a; exact ⟨_, ⟨x, hx, rfl⟩, h⟩
  · obtain ⟨x, hx, h⟩ := b; exact ⟨_, ⟨x, hx, rfl⟩, h⟩
  · rintro _ ⟨x, hx, rfl⟩; exact i' x hx
  · obtain ⟨x, hx, h⟩ := a'; exact ⟨_, ⟨x, hx, rfl⟩, h⟩
  · obtain ⟨x, hx, h⟩ := b'; exact ⟨_, ⟨x, hx, rfl⟩, h⟩
  · rintro v ⟨x, hx, h⟩; exact ⟨x, hX _ hx, h⟩

attribute [local instance] exactFmt

/-- C80 for `cos` and `sin` in exact arithmetic, with finite or infinite operands -/
theorem C80_trig (dbg : Bool) (X X' : Ivl (Fl ℝ)) (pX : Proper X) (pX' : Proper X') (hX : SubI X X') :
    (∃ R R', cosI dbg X = .ok R ∧ cosI dbg X' = .ok R' ∧ SubI R R') ∧ (∃ R R', sinI dbg X = .ok R ∧ sinI dbg X' = .ok R' ∧ SubI R R') := by
  by_cases f' : X'.lo.isFinite = true ∧ X'.hi.isFinite = true
  · obtain ⟨b1, b2⟩ := subI_bounds pX hX
    have F' : FiniteI X' := ⟨f'.1, f'.2, pX'⟩
    have F : FiniteI X := ⟨finite_of_between f'.1 f'.2 b1 (CppOrder.le_trans _ _ _ pX b2), finite_of_between f'.1 f'.2 (CppOrder.le_trans _ _ _ b1 pX) b2, pX⟩
    exact ⟨isotone_real hX (C38_cos dbg X F) (C38_cos dbg X' F'), isotone_real hX (C38_sin dbg X F) (C38_sin dbg X' F')⟩
  · obtain ⟨c', s'⟩ := C38_infinite dbg X' pX' f'
    by_cases f : X.lo.isFinite = true ∧ X.hi.isFinite = true
    · obtain ⟨C, S, c, s, a1, a2, a3, a4⟩ := C38_range dbg X ⟨f.1, f.2, pX⟩
      exact ⟨⟨C, _, c, c', fun v hv => ⟨CppOrder.le_trans _ _ _ a1 hv.1, CppOrder.le_trans _ _ _ hv.2 a2⟩⟩,
        ⟨S, _, s, s', fun v hv => ⟨CppOrder.le_trans _ _ _ a3 hv.1, CppOrder.le_trans _ _ _ hv.2 a4⟩⟩⟩
    · obtain ⟨c, s⟩ := C38_infinite dbg X pX f
      exact ⟨⟨_, _, c, c', fun _ h => h⟩, ⟨_, _, s, s', fun _ h => h⟩⟩

/-- C80 for `tan` in exact arithmetic, if the larger operand contains no pole or is at least `π` wide, and the bounds of the smaller one are not poles.  Full statement:
for all finite operands; it is false for every other larger operand with a pole strictly between its bounds (`C80_tan_violated_all`). -/
theorem C80_tan_partial (dbg : Bool) (X X' : Ivl (Fl ℝ)) (pX : FiniteI X) (pX' : FiniteI X') (hX : SubI X X')
    (hb : Real.cos X.lo.val ≠ 0 ∧ Real.cos X.hi.val ≠ 0)
    (h : (∀ x : ℝ, .num x ∈ᵢ X' → Real.cos x ≠ 0) ∨ Real.pi ≤ X'.hi.val - X'.lo.val) :
    ∃ R R', tanI dbg X = .ok R ∧ tanI dbg X' = .ok R' ∧ SubI R R' := by
  rcases h with h | h
  · exact isotone_real hX ((C39_tan_partial dbg X pX).1 fun x hx => h x (hX _ hx)) ((C39_tan_partial dbg X' pX').1 h)
  · have i := isI_of_finite pX.1 pX.2.1
    obtain ⟨n, lo, hi, hlo, hhi, -, -, e⟩ := tan_core dbg i (i.proper.mp pX.2.2)
    have ex : ∃ R, tanI dbg X = .ok R := by
      rw [e]
      split
      · exact ⟨_, rfl⟩
      · have t1 := is_tan hlo (by rw [Ne, cos_add_int_pi]; exact hb.1)
        have t2 := is_tan hhi (by rw [Ne, cos_add_int_pi]; exact hb.2)
        obtain ⟨R, eR, -⟩ := hull2_ok (notNan_iff.mpr t1.ne_nan) (notNan_iff.mpr t2.ne_nan)
        exact ⟨R, eR⟩
    obtain ⟨R, eR⟩ := ex
    exact ⟨R, _, eR, ((C39_tan_partial dbg X' pX').2 h).1, fun v hv => ⟨ninf_le (ne_nan_of_le_right hv.1), le_pinf (ne_nan_of_le_right hv.1)⟩⟩

/-- C80 is false for `tan`, for every operand narrower than `π` with a pole strictly between its bounds: some number of it, taken as operand, has a tangent that is not
contained in the result. -/
theorem C80_tan_violated_all (dbg : Bool) (X' : Ivl (Fl ℝ)) (hX : FiniteI X') (hw : X'.hi.val - X'.lo.val < Real.pi)
    (p : ℝ) (hp : Real.cos p = 0) (h1 : X'.lo.val < p) (h2 : p < X'.hi.val) :
    ∃ X, FiniteI X ∧ SubI X X' ∧ ∃ R R', tanI dbg X = .ok R ∧ tanI dbg X' = .ok R' ∧ ¬ SubI R R' := by
  obtain ⟨R', e', x, hx, hc, hn⟩ := C39_violated_all dbg X' hX hw p hp h1 h2
  have F : FiniteI (⟨.num x, .num x⟩ : Ivl (Fl ℝ)) := ⟨rfl, rfl, by simp [Proper]⟩
  have pt : ∀ y : ℝ, .num y ∈ᵢ (⟨.num x, .num x⟩ : Ivl (Fl ℝ)) ↔ y = x := fun y => by
    simp only [Pt, le_num_num, decide_eq_true_eq]; exact ⟨fun ⟨a, b⟩ => le_antisymm b a, fun h => ⟨h.ge, h.le⟩⟩
  obtain ⟨R, e, i, -, -⟩ := (C39_tan_partial dbg _ F).1 fun y hy => by rw [(pt y).mp hy]; exact hc
  exact ⟨_, F, subI_of_bounds hx hx, R, R', e, e', fun h => hn (h _ (i x ((pt x).mpr rfl)))⟩

/-- C80 is false: there is a subinterval of `[1,2]` whose tangent is not contained in `tan([1,2])`. -/
theorem C80_violated : ∃ X X' : Ivl (Fl ℝ), FiniteI X ∧ FiniteI X' ∧ SubI X X' ∧ ∃ R R', tanI true X = .ok R ∧ tanI true X' = .ok R' ∧ ¬ SubI R R' := by
  have h : FiniteI (⟨.num 1, .num 2⟩ : Ivl (Fl ℝ)) := ⟨rfl, rfl, by simp [Proper]⟩
  have a := Real.pi_gt_three; have b := Real.pi_lt_d2
  obtain ⟨X, hX, hs, r⟩ := C80_tan_violated_all true _ h (by simp only [val]; linarith) (Real.pi/2) Real.cos_pi_div_two (by simp only [val]; linarith) (by simp only [val]; linarith)
  exact ⟨X, _, hX, h, hs, r⟩

theorem pow_integer_isotone (dbg : Bool) (X X' Y Y' : Arg (Fl ℝ)) (pX : FiniteA X) (pX' : FiniteA X') (pY : FiniteA Y) (pY' : FiniteA Y')
    (hX : SubA X X') (n : ℤ) (hn : -2^63 ≤ n ∧ n < 2^63)
    (single : ∀ y : ℝ, .num y ∈ₐ Y ↔ y = n) (single' : ∀ y : ℝ, .num y ∈ₐ Y' ↔ y = n) (neg : ∃ x : ℝ, .num x ∈ₐ X' ∧ x < 0) :
    ∃ R R', powI dbg X Y = .ok R ∧ powI dbg X' Y' = .ok R' ∧ SubI R R' := by
  obtain ⟨R', e', i, -, -⟩ := C41_integer_partial dbg X' Y' pX' pY' n hn single' neg
  have key : ∀ {R : Ivl (Fl ℝ)} {r v : Fl ℝ}, eq r v = true → v ∈ᵢ R → r ∈ᵢ R := fun h m => by
    rw [CppOrder.eq_iff] at h; exact ⟨CppOrder.le_trans _ _ _ m.1 h.2, CppOrder.le_trans _ _ _ h.1 m.2⟩
  by_cases c : ∃ x : ℝ, .num x ∈ₐ X ∧ x < 0
  · obtain ⟨R, e, -, ⟨x, hx, h⟩, ⟨y, hy, h'⟩⟩ := C41_integer_partial dbg X Y pX pY n hn single c
    refine ⟨R, R', e, e', subI_of_bounds ?_ ?_⟩
    · rcases h with ⟨s, h⟩ | ⟨s, h⟩
      · exact key h ((i x (hX _ hx)).1 s)
      · exact key h ((i x (hX _ hx)).2 s)
    · rcases h' with ⟨s, h⟩ | ⟨s, h⟩
      · exact key h ((i y (hX _ hy)).1 s)
      · exact key h ((i y (hX _ hy)).2 s)
  · have c0 : ∀ x : ℝ, .num x ∈ₐ X → 0 ≤ x := fun x hx => not_lt.mp fun h => c ⟨x, hx, h⟩
    obtain ⟨R, e, -, ⟨x, y, hx, hy, h⟩, ⟨u, v, hu, hv, h'⟩⟩ := C41_nonneg dbg X Y pX pY c0
    rw [(single y).mp hy] at h; rw [(single v).mp hv] at h'
    exact ⟨R, R', e, e', subI_of_bounds (key h ((i x (hX _ hx)).1 (c0 x hx))) (key h' ((i u (hX _ hu)).1 (c0 u hu)))⟩

/-- C80 for `pow` in exact arithmetic, for all finite operands: whenever the larger operation has a result other than NaN, the smaller operation has a result, and it is
contained in the larger one. -/
theorem C80_pow_real (dbg : Bool) (X X' Y Y' : Arg (Fl ℝ)) (pX : FiniteA X) (pX' : FiniteA X') (pY : FiniteA Y) (pY' : FiniteA Y')
    (hX : SubA X X') (hY : SubA Y Y') (R' : Ivl (Fl ℝ)) (e' : powI dbg X' Y' = .ok R') (hn : R' ≠ ⟨.nan, .nan⟩) :
    ∃ R, powI dbg X Y = .ok R ∧ SubI R R' := by
  by_cases neg : ∃ x : ℝ, .num x ∈ₐ X' ∧ x < 0
  · by_cases hr : 2^63 ≤ Y'.lo.val ∨ Y'.lo.val ≤ -2^63 - 1
    · rw [C41_violated_all dbg X' Y' pX' pY' hr neg] at e'; cases e'
    push Not at hr
    by_cases sg : ∃ n : ℤ, ∀ y : ℝ, .num y ∈ₐ Y' ↔ y = n
    · obtain ⟨n, hs⟩ := sg
      have v : Y'.lo.val = n := (hs _).mp (finite_mem pY' (lo_mem pY'.2.2)).2
      rw [v] at hr
      have r1 : n < 2^63 := by exact_mod_cast hr.1
      have r2 : -2^63 - 1 < n := by exact_mod_cast hr.2
      have sY : ∀ y : ℝ, .num y ∈ₐ Y ↔ y = n := fun y => ⟨fun hy => (hs y).mp (hY _ hy), fun hy => by
        have m := (finite_mem pY (lo_mem pY.2.2)).2
        rw [hy, ← (hs _).mp (hY _ m)]; exact m⟩
      obtain ⟨R, S, e, eS, h⟩ := pow_integer_isotone dbg X X' Y Y' pX pX' pY pY' hX n ⟨by omega, r1⟩ sY hs neg
      rw [e'] at eS; cases eS; exact ⟨R, e, h⟩
    · rw [C41_nan_partial dbg X' Y' pX' pY' ⟨hr.2, hr.1⟩ sg neg] at e'; cases e'; exact absurd rfl hn
  · have pos : ∀ x : ℝ, .num x ∈ₐ X' → 0 ≤ x := fun x hx => not_lt.mp fun h => neg ⟨x, hx, h⟩
    have key : ∀ {R : Ivl (Fl ℝ)} {r v : Fl ℝ}, eq r v = true → v ∈ᵢ R → r ∈ᵢ R := fun h m => by
      rw [CppOrder.eq_iff] at h; exact ⟨CppOrder.le_trans _ _ _ m.1 h.2, CppOrder.le_trans _ _ _ h.1 m.2⟩
    obtain ⟨R, e, -, ⟨x, y, hx, hy, h⟩, ⟨u, v, hu, hv, h'⟩⟩ := C41_nonneg dbg X Y pX pY fun x hx => pos x (hX _ hx)
    obtain ⟨S, eS, i, -, -⟩ := C41_nonneg dbg X' Y' pX' pY' pos
    rw [e'] at eS; cases eS
    exact ⟨R, e, subI_of_bounds (key h (i x y (hX _ hx) (hY _ hy))) (key h' (i u v (hX _ hu) (hY _ hv)))⟩
end real

/-- C80 for `atan2`: if the larger operands do not meet the branch cut, the smaller result is contained in the larger one. -/
theorem C80_atan2 [Fmt ℝ] (dbg : Bool) (Y X Y' X' : Arg (Fl ℝ)) (pY : ProperA Y) (pX : ProperA X) (pY' : ProperA Y') (pX' : ProperA X')
    (hY : SubA Y Y') (hX : SubA X X') (R' : Ivl (Fl ℝ)) (e' : atan2I dbg Y' X' = .ok R') (hn : R' ≠ ⟨.nan, .nan⟩) :
    ∃ R, atan2I dbg Y X = .ok R ∧ SubI R R' := by
  have off : ¬ MeetsCut Y' X' := fun h => by
    have := (C40_atan2 dbg Y' X' pY' pX').1 h; rw [e'] at this; cases this; exact hn rfl
  obtain ⟨S, eS, i, -, -⟩ := (C40_atan2 dbg Y' X' pY' pX').2 off
  rw [e'] at eS; cases eS
  obtain ⟨R, e, -, ⟨y, x, hy, hx, h⟩, ⟨v, u, hv, hu, h'⟩⟩ := (C40_atan2 dbg Y X pY pX).2 fun ⟨y, x, hy, hx, h⟩ => off ⟨y, x, hY y hy, hX x hx, h⟩
  exact ⟨R, e, subI_of_bounds (h ▸ i y x (hY y hy) (hX x hx)) (h' ▸ i v u (hY v hv) (hX u hu))⟩

/-! Non-trivial operands -/
-- `[0,1] ⊆ [-1,4]`; `[1/4,1/2] ⊆ [0,1]` for `asin`, `sqrt`; `[1/4,1/2] ⊆ [1/4,3/2]` for `frac`
example : SubI (T := Fl ℚ) ⟨.num 0, .num 1⟩ ⟨.num (-1), .num 4⟩ := subI_of_bounds ⟨by decide +kernel, by decide +kernel⟩ ⟨by decide +kernel, by decide +kernel⟩
example : SubI (T := Fl ℚ) ⟨.num (1/4), .num (1/2)⟩ ⟨.nzero, .num 1⟩ ∧ Nonneg (K := ℚ) .nzero :=
  ⟨subI_of_bounds ⟨by decide +kernel, by decide +kernel⟩ ⟨by decide +kernel, by decide +kernel⟩, by unfold Nonneg; decide +kernel⟩
example : let := exactFmt ℚ
    fracI (K := ℚ) true ⟨.num (1/4), .num (1/2)⟩ = .ok ⟨.num (1/4), .num (1/2)⟩ ∧ fracI (K := ℚ) true ⟨.num (1/4), .num (3/2)⟩ = .ok ⟨.num 0, .num 1⟩ := by
  constructor <;> decide +kernel
-- `sqrt`, `exp` and `acos` of real intervals
example : let := exactFmt ℝ
    ∃ R R', sqrtI true ⟨.num 1, .num 2⟩ = .ok R ∧ sqrtI (K := ℝ) true ⟨.num 0, .num 3⟩ = .ok R' ∧ SubI R R' := by
  intro _
  refine (C80_monotone true _ _ ?_ ?_ ?_).1 sqrt_mono ?_
  · simp [Proper]
  · simp [Proper]
  · exact subI_of_bounds ⟨by simp, by simp⟩ ⟨by simp, by simp; norm_num⟩
  · simp [Nonneg]
-- `cos([0,1]) ⊆ cos([-1,inf])`
example : Proper (⟨.num (-1), .pinf⟩ : Ivl (Fl ℝ)) ∧ SubI (T := Fl ℝ) ⟨.num 0, .num 1⟩ ⟨.num (-1), .pinf⟩ :=
  ⟨by simp [Proper], subI_of_bounds ⟨by simp, by simp⟩ ⟨by simp, by simp⟩⟩
-- the bounds 0, 2 are not poles, and `[-1,3]` is wider than `π`
example : (Real.cos (Fl.num (0:ℝ)).val ≠ 0 ∧ Real.cos (Fl.num (2:ℝ)).val ≠ 0) ∧ Real.pi ≤ (Fl.num (3:ℝ)).val - (Fl.num (-1:ℝ)).val := by
  have h := Real.pi_gt_three; have h4 := Real.pi_lt_d2
  simp only [Fl.val]
  refine ⟨⟨by simp, ?_⟩, by linarith⟩
  exact (Real.cos_neg_of_pi_div_two_lt_of_lt (by linarith) (by linarith)).ne
-- base `[1/2,2] ⊆ [0,2]`, exponent `1 ∈ [-1,1]`; base `[1,2] ⊆ [-2,3]` with a single integer exponent
example : SubA (T := Fl ℚ) (.ivl ⟨.num (1/2), .num 2⟩) (.ivl ⟨.num 0, .num 2⟩) ∧ SubA (T := Fl ℚ) (.scalar (.num 1)) (.ivl ⟨.num (-1), .num 1⟩) := by
  constructor
  · exact subI_of_bounds (T := Fl ℚ) (R := ⟨.num (1/2), .num 2⟩) (R' := ⟨.num 0, .num 2⟩) ⟨by decide +kernel, by decide +kernel⟩ ⟨by decide +kernel, by decide +kernel⟩
  · exact subI_of_bounds (T := Fl ℚ) (R := ⟨.num 1, .num 1⟩) (R' := ⟨.num (-1), .num 1⟩) ⟨by decide +kernel, by decide +kernel⟩ ⟨by decide +kernel, by decide +kernel⟩
example : ∃ x : ℝ, .num x ∈ₐ (.ivl ⟨.num (-2), .num 3⟩ : Arg (Fl ℝ)) ∧ x < 0 := ⟨-1, by simp [PtA, Pt]; norm_num, by norm_num⟩
-- weights `a ∈ [0,1] ⊆ [0,2]`, `b = 2`, operands `[0,1] ⊆ [-1,1]` and `[1,2] ⊆ [0,3]`
example : let := exactFmt ℚ
    blendLinearI (K := ℚ) true (.ivl ⟨.num 0, .num 1⟩) (.scalar (.num 2)) (.ivl ⟨.num 0, .num 1⟩) (.ivl ⟨.num 1, .num 2⟩) = .ok ⟨.num (2/3), .num 2⟩ ∧
    blendLinearI (K := ℚ) true (.ivl ⟨.num 0, .num 2⟩) (.scalar (.num 2)) (.ivl ⟨.num (-1), .num 1⟩) (.ivl ⟨.num 0, .num 3⟩) = .ok ⟨.num (-1/2), .num 3⟩ := by
  constructor <;> decide +kernel
-- `atan2`: the operands `[1,2]`, `[-1,3]` do not meet the branch cut
example : ¬ MeetsCut (.ivl ⟨.num 1, .num 2⟩) (.ivl ⟨.num (-1), .num 3⟩) := by
  let := exactFmt ℝ
  rw [meetsCut_iff (by simp [ProperA, Proper]) (by simp [ProperA, Proper]; norm_num)]
  simp [Arg.lo, Arg.contains, Ivl.containsVal]
end Intervals.Props
