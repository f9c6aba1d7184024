import Verif.Model.NarrowFlt
import Verif.Lemmas.BinFmt2
import Verif.Lemmas.Elem
import Verif.Props.Narrow
/-!
# C67: narrowing that involves floating-point types

`SubFmt`, `TruncClosed` and `IntToInt` are properties of the formats that hold for every IEEE 754 binary format (Lemmas/BinFmt2).
-/
namespace Intervals.Props
open Intervals CppVal Spec
set_option linter.unusedSectionVars false

section generic
variable {U T : Type _} [CppVal U] [CppVal T] [CppLimits T]

/-- both checked conversions; `e` is the failure -/
def chk (e : Err) (cast : U → Outcome T) (back : T → Outcome U) (u : U) : Outcome T := do
  let t ← cast u
  let v ← back t
  if ne v u then .error e else .ok t
theorem narrowG_chk (cast : U → Outcome T) (back : T → Outcome U) : narrowG cast back = chk .narrowing cast back := rfl
theorem narrowFailfastG_chk (cast : U → Outcome T) (back : T → Outcome U) : narrowFailfastG cast back = chk .contract cast back := rfl
end generic

variable {K : Type} [Field K] [LinearOrder K] [IsStrictOrderedRing K]

theorem assigned_nf {T : Type _} [CppVal T] [CppOrder T] {X : Ivl T} (h : Proper X) : X.assigned = true := by
  unfold Proper at h; simp only [Ivl.assigned, CppVal.gt]; grind

/-! ## Format to format -/

/-- C67: `narrow_cast` to another format never fails and encloses the converted points. -/
theorem C67_float_cast (F : Fmt K) (X : Ivl (Fl K)) (hX : Proper X) :
    ∃ R, narrowCastFF F X = .ok R ∧ Proper R ∧ (∀ a, a ∈ᵢ X → toFormatV F a ∈ᵢ R) ∧
      R.lo = toFormatV F X.lo ∧ R.hi = toFormatV F X.hi := by
  have mono := (C49_conversions_monotone (K := K) (F := F) (le_refl 0)).2.2
  refine ⟨⟨toFormatV F X.lo, toFormatV F X.hi⟩, ?_, mono _ _ hX, fun a ha => ⟨mono _ _ ha.1, mono _ _ ha.2⟩, rfl, rfl⟩
  simp only [narrowCastFF, narrowCastGI, assigned_nf hX, if_true, toFormatO, ok_bind]
  exact make_ok_of_le (mono _ _ hX)

theorem chkFF (e : Err) {F₀ F : Fmt K} (hs : SubFmt F F₀) (v : Fl K) :
    (InFmt F v → chk e (toFormatO F) (toFormatO F₀) v = .ok v) ∧
    (¬ InFmt F v → chk e (toFormatO F) (toFormatO F₀) v = .error e) := by
  cases v with
  | nan => simp [InFmt, chk, toFormatO, toFormatV, ne, CppVal.eq, Fl.ext]
  | ninf => simp [InFmt, chk, toFormatO, toFormatV, ne, CppVal.eq, Fl.ext, Fl.Representable]
  | pinf => simp [InFmt, chk, toFormatO, toFormatV, ne, CppVal.eq, Fl.ext, Fl.Representable]
  | nzero => simp [InFmt, chk, toFormatO, toFormatV, ne, CppVal.eq, Fl.ext, Fl.Representable]
  | num k =>
    constructor
    · rintro ⟨-, h⟩
      have h : F.rnd k = .num k := h
      simp [chk, toFormatO, toFormatV, h, (hs _ _ h).2, ne, CppVal.eq, Fl.ext]
    · intro h
      have h : F.rnd k ≠ .num k := fun h' => h ⟨by simp, h'⟩
      have key : ne (toFormatV F₀ (F.rnd k)) (.num k) = true := by
        rcases hr : F.rnd k with _ | _ | _ | _ | k'
        · exact absurd hr (F.rnd_ne_nan k)
        · simp [toFormatV, ne, CppVal.eq, Fl.ext]
        · simp [toFormatV, ne, CppVal.eq, Fl.ext]
        · have : k ≠ 0 := by rintro rfl; rw [F.rnd_zero] at hr; cases hr
          simp [toFormatV, ne, CppVal.eq, Fl.ext]
          exact this
        · have hne : k' ≠ k := by rintro rfl; exact h hr
          have := (hs _ _ hr).2
          simp only [toFormatV, this]
          simp [ne, CppVal.eq, Fl.ext]
          exact hne
      simp only [chk, toFormatO, ok_bind]
      rw [if_pos]; exact key

/-- C67: `narrow` and `narrow_failfast` between formats: the same interval if both bounds are numbers of the target format, otherwise
`narrowing_error`, respectively a contract violation. -/
theorem C67_float_narrow {F₀ F : Fmt K} (hs : SubFmt F F₀) (X : Ivl (Fl K)) (hX : Proper X) :
    (InFmt F X.lo ∧ InFmt F X.hi ∧ narrowFF F₀ F X = .ok X ∧ narrowFailfastFF F₀ F X = .ok X) ∨
    (¬ (InFmt F X.lo ∧ InFmt F X.hi) ∧ narrowFF F₀ F X = .error .narrowing ∧ narrowFailfastFF F₀ F X = .error .contract) := by
  simp only [narrowFF, narrowFailfastFF, narrowGI, narrowFailfastGI, assigned_nf hX, if_true, narrowG_chk, narrowFailfastG_chk]
  have l := fun e => chkFF e hs X.lo
  have h := fun e => chkFF e hs X.hi
  by_cases hl : InFmt F X.lo
  · by_cases hh : InFmt F X.hi
    · left; refine ⟨hl, hh, ?_, ?_⟩ <;> rw [(l _).1 hl, (h _).1 hh] <;> exact make_ok_of_le hX
    · right; refine ⟨fun c => hh c.2, ?_, ?_⟩ <;> rw [(l _).1 hl, (h _).2 hh] <;> rfl
  · right; refine ⟨fun c => hl c.1, ?_, ?_⟩ <;> rw [(l _).2 hl] <;> rfl

/-- C67: a NaN bound is never narrowed without a failure: it differs from itself. -/
theorem C67_nan (F₀ F : Fmt K) (b : Fl K) :
    narrowFF F₀ F ⟨.nan, b⟩ = .error .narrowing ∧ narrowFailfastFF F₀ F ⟨.nan, b⟩ = .error .contract := by
  have : (⟨.nan, b⟩ : Ivl (Fl K)).assigned = true := by
    simp [Ivl.assigned, CppVal.gt, CppVal.lt]; cases b <;> simp [Fl.ext]
  simp only [narrowFF, narrowFailfastFF, narrowGI, narrowFailfastGI, this, if_true, narrowG_chk, narrowFailfastG_chk]
  constructor <;> simp [chk, toFormatO, toFormatV, ne, CppVal.eq, Fl.ext] <;> rfl

/-! ## Floating point to integer -/
section toInt
variable [FloorRing K]

theorem isTrunc_trunc (k : K) : IsTrunc k (Fl.truncInt k) := by
  unfold IsTrunc Fl.truncInt
  constructor
  · intro h; rw [if_neg (not_lt.mpr h)]; exact ⟨Int.floor_le k, Int.lt_floor_add_one k⟩
  · intro h
    have h1 := Int.floor_le (-k); have h2 := Int.lt_floor_add_one (-k)
    rw [if_pos h]; push_cast
    constructor <;> linarith
theorem isTrunc_unique {k : K} {s t : ℤ} (hs : IsTrunc k s) (ht : IsTrunc k t) : s = t := by
  rcases le_or_gt 0 k with h | h
  · obtain ⟨a, b⟩ := hs.1 h; obtain ⟨c, d⟩ := ht.1 h
    have h1 : (s : K) < ((t + 1 : ℤ) : K) := by push_cast; linarith
    have h2 : (t : K) < ((s + 1 : ℤ) : K) := by push_cast; linarith
    have := Int.cast_lt.mp h1; have := Int.cast_lt.mp h2; omega
  · obtain ⟨a, b⟩ := hs.2 h; obtain ⟨c, d⟩ := ht.2 h
    have h1 : ((s - 1 : ℤ) : K) < (t : K) := by push_cast; linarith
    have h2 : ((t - 1 : ℤ) : K) < (s : K) := by push_cast; linarith
    have := Int.cast_lt.mp h1; have := Int.cast_lt.mp h2; omega
theorem isTrunc_mono {k k' : K} {s t : ℤ} (hs : IsTrunc k s) (ht : IsTrunc k' t) (h : k ≤ k') : s ≤ t := by
  rcases le_or_gt 0 k with h0 | h0
  · obtain ⟨a, b⟩ := hs.1 h0; obtain ⟨c, d⟩ := ht.1 (h0.trans h)
    have h1 : (s : K) < ((t + 1 : ℤ) : K) := by push_cast; linarith
    have := Int.cast_lt.mp h1; omega
  · obtain ⟨a, b⟩ := hs.2 h0
    rcases le_or_gt 0 k' with h1 | h1
    · obtain ⟨c, d⟩ := ht.1 h1
      have h1 : ((s - 1 : ℤ) : K) < (0:ℤ) := by push_cast; linarith
      have h2 : ((0 : ℤ) : K) < ((t + 1 : ℤ) : K) := by push_cast; linarith
      have := Int.cast_lt.mp h1; have := Int.cast_lt.mp h2; omega
    · obtain ⟨c, d⟩ := ht.2 h1
      have h1 : ((s - 1 : ℤ) : K) < (t : K) := by push_cast; linarith
      have := Int.cast_lt.mp h1; omega
theorem isTrunc_int {z t : ℤ} (h : IsTrunc (z : K) t) : t = z :=
  isTrunc_unique h ⟨fun _ => ⟨le_refl _, by linarith⟩, fun _ => ⟨le_refl _, by linarith⟩⟩

theorem rep_trunc_iff {m : Nat} {k : K} {t : ℤ} (ht : IsTrunc k t) : Rep m t ↔ -(2:K)^m - 1 < k ∧ k < (2:K)^m := by
  have p0 : (0:ℤ) < 2^m := by positivity
  have pk : (0:K) < 2^m := by positivity
  unfold Rep
  rcases le_or_gt 0 k with h | h
  · obtain ⟨a, b⟩ := ht.1 h
    have t0 : 0 ≤ t := by
      have h2 : ((0 : ℤ) : K) < ((t + 1 : ℤ) : K) := by push_cast; linarith
      have := Int.cast_lt.mp h2; omega
    constructor
    · rintro ⟨-, h2⟩
      refine ⟨by linarith, ?_⟩
      have : ((t + 1 : ℤ) : K) ≤ ((2^m : ℤ) : K) := by exact_mod_cast h2
      push_cast at this; linarith
    · rintro ⟨-, h2⟩
      refine ⟨by omega, ?_⟩
      have : (t : K) < ((2^m : ℤ) : K) := by push_cast; linarith
      exact_mod_cast this
  · obtain ⟨a, b⟩ := ht.2 h
    have t0 : t ≤ 0 := by
      have h2 : ((t - 1 : ℤ) : K) < ((0 : ℤ) : K) := by push_cast; linarith
      have := Int.cast_lt.mp h2; omega
    constructor
    · rintro ⟨h1, -⟩
      refine ⟨?_, by linarith⟩
      have : ((-2^m : ℤ) : K) ≤ (t : K) := by exact_mod_cast h1
      push_cast at this; linarith
    · rintro ⟨h1, -⟩
      refine ⟨?_, by omega⟩
      have : ((-2^m - 1 : ℤ) : K) < (t : K) := by push_cast; linarith
      have := Int.cast_lt.mp this; omega

/-- the cast of a value -/
theorem toIntV_eq (m : Nat) (v : Fl K) :
    (Fits m v → ∃ t : SInt m, toIntV m v = .ok t ∧ IsTrunc (Fl.val v) t.val) ∧ (¬ Fits m v → toIntV m v = .error .ub) := by
  have hz : IsTrunc (0:K) 0 := by constructor <;> intro h <;> simp at h ⊢
  cases v with
  | nan => simp [Fits, Fl.isFinite, toIntV]
  | ninf => simp [Fits, Fl.isFinite, toIntV]
  | pinf => simp [Fits, Fl.isFinite, toIntV]
  | nzero =>
    have r : Rep m 0 := by have : (0:ℤ) < 2^m := by positivity
                           exact ⟨by omega, this⟩
    refine ⟨fun _ => ⟨_, SInt.of_ok r, hz⟩, fun h => absurd ?_ h⟩
    exact ⟨rfl, (rep_trunc_iff hz).mp r⟩
  | num k =>
    have ht := isTrunc_trunc k
    refine ⟨fun h => ⟨_, SInt.of_ok ((rep_trunc_iff ht).mpr h.2), ht⟩, fun h => SInt.of_ub fun r => h ⟨rfl, (rep_trunc_iff ht).mp r⟩⟩

/-- C67: `narrow_cast` to an integer type discards the fractions of the bounds: defined iff the results are integers of the type; the
result encloses the casts of all points. -/
theorem C67_to_int_cast (m : Nat) (X : Ivl (Fl K)) (hX : Proper X) :
    (Fits m X.lo → Fits m X.hi → ∃ R : Ivl (SInt m), narrowCastFI m X = .ok R ∧ R.lo.val ≤ R.hi.val ∧
      IsTrunc (Fl.val X.lo) R.lo.val ∧ IsTrunc (Fl.val X.hi) R.hi.val ∧
      ∀ a, a ∈ᵢ X → ∃ t, toIntV m a = .ok t ∧ t ∈ᵢ R) ∧
    (¬ (Fits m X.lo ∧ Fits m X.hi) → narrowCastFI m X = .error .ub) := by
  simp only [narrowCastFI, narrowCastGI, assigned_nf hX, if_true]
  constructor
  · intro hl hh
    obtain ⟨s, hs, ts⟩ := (toIntV_eq m X.lo).1 hl
    obtain ⟨t, ht, tt⟩ := (toIntV_eq m X.hi).1 hh
    have hst : s.val ≤ t.val := isTrunc_mono ts tt ((Fl.le_iff_val hl.1 hh.1).mp hX)
    refine ⟨⟨s, t⟩, ?_, hst, ts, tt, fun a ha => ?_⟩
    · rw [hs, ht]; exact sint_make _ _ hst
    · have fa := Fl.finite_of_between hl.1 hh.1 ha.1 ha.2
      have a1 := (Fl.le_iff_val hl.1 fa).mp ha.1
      have a2 := (Fl.le_iff_val fa hh.1).mp ha.2
      have hf : Fits m a := ⟨fa, by have := hl.2.1; linarith, by have := hh.2.2; linarith⟩
      obtain ⟨u, hu, tu⟩ := (toIntV_eq m a).1 hf
      exact ⟨u, hu, by rw [sint_le, decide_eq_true_eq]; exact isTrunc_mono ts tu a1,
        by rw [sint_le, decide_eq_true_eq]; exact isTrunc_mono tu tt a2⟩
  · intro h
    by_cases hl : Fits m X.lo
    · obtain ⟨s, hs, ts⟩ := (toIntV_eq m X.lo).1 hl
      rw [hs, (toIntV_eq m X.hi).2 (fun c => h ⟨hl, c⟩)]; rfl
    · rw [(toIntV_eq m X.lo).2 hl]; rfl

theorem chkFI (e : Err) {F₀ : Fmt K} (hF : TruncClosed F₀) {m : Nat} {v : Fl K} (hv : InFmt F₀ v) :
    (Fits m v → IsInt v → ∃ t : SInt m, chk e (toIntV m) (toFloatO F₀) v = .ok t ∧ (t.val : K) = Fl.val v) ∧
    (Fits m v → ¬ IsInt v → chk e (toIntV m) (toFloatO F₀) v = .error e) ∧
    (¬ Fits m v → chk e (toIntV m) (toFloatO F₀) v = .error .ub) := by
  refine ⟨fun hf hi => ?_, fun hf hi => ?_, fun hf => ?_⟩
  · obtain ⟨t, ht, tt⟩ := (toIntV_eq m v).1 hf
    obtain ⟨z, hz⟩ := hi
    have e1 : t.val = z := isTrunc_int (K := K) (by rw [← hz]; exact tt)
    have back : CppVal.eq (F₀.rnd (t.val : K)) v = true := by
      rw [e1, ← hz]
      cases v with
      | num k => have h : F₀.rnd k = .num k := hv.2
                 simp [Fl.val, h, CppVal.eq, Fl.ext]
      | nzero => simp [Fl.val, F₀.rnd_zero, CppVal.eq, Fl.ext]
      | _ => simp [Fits, Fl.isFinite] at hf
    refine ⟨t, ?_, by rw [e1, hz]⟩
    simp only [chk, ht, ok_bind, toFloatO, toFloatV, ne, back]; rfl
  · obtain ⟨t, ht, tt⟩ := (toIntV_eq m v).1 hf
    have back : CppVal.eq (F₀.rnd (t.val : K)) v = false := by
      cases v with
      | num k =>
        have h : F₀.rnd k = .num k := hv.2
        rw [hF k t.val h tt]
        have : (t.val : K) ≠ k := fun c => hi ⟨t.val, c.symm⟩
        simp [CppVal.eq, Fl.ext]; exact this
      | nzero => exact absurd ⟨0, by simp [Fl.val]⟩ hi
      | _ => simp [Fits, Fl.isFinite] at hf
    simp only [chk, ht, ok_bind, toFloatO, toFloatV, ne, back]; rfl
  · simp only [chk, (toIntV_eq m v).2 hf]; rfl

/-- C67: `narrow` and `narrow_failfast` to an integer type: if the bounds are integers of the type, the interval with these bounds; a bound
with a fraction is reported; a bound outside the type is not reported but undefined behaviour, unless the lower bound has been reported. -/
theorem C67_to_int_narrow_partial {F₀ : Fmt K} (hF : TruncClosed F₀) (m : Nat) (X : Ivl (Fl K)) (hX : Proper X)
    (rl : InFmt F₀ X.lo) (rh : InFmt F₀ X.hi) :
    (Fits m X.lo → IsInt X.lo → Fits m X.hi → IsInt X.hi →
      ∃ R : Ivl (SInt m), narrowFI F₀ m X = .ok R ∧ narrowFailfastFI F₀ m X = .ok R ∧
        (R.lo.val : K) = Fl.val X.lo ∧ (R.hi.val : K) = Fl.val X.hi) ∧
    (Fits m X.lo → ¬ IsInt X.lo ∨ (Fits m X.hi ∧ ¬ IsInt X.hi) →
      narrowFI F₀ m X = .error .narrowing ∧ narrowFailfastFI F₀ m X = .error .contract) ∧
    (¬ Fits m X.lo ∨ (IsInt X.lo ∧ ¬ Fits m X.hi) →
      narrowFI F₀ m X = .error .ub ∧ narrowFailfastFI F₀ m X = .error .ub) := by
  simp only [narrowFI, narrowFailfastFI, narrowGI, narrowFailfastGI, assigned_nf hX, if_true, narrowG_chk, narrowFailfastG_chk]
  have l := fun e => chkFI e hF (m := m) rl
  have h := fun e => chkFI e hF (m := m) rh
  refine ⟨fun fl il fh ih => ?_, fun fl c => ?_, fun c => ?_⟩
  · obtain ⟨s, hs, vs⟩ := (l .narrowing).1 fl il
    obtain ⟨s', hs', vs'⟩ := (l .contract).1 fl il
    obtain ⟨t, ht, vt⟩ := (h .narrowing).1 fh ih
    obtain ⟨t', ht', vt'⟩ := (h .contract).1 fh ih
    have es : s' = s := by
      have : s'.val = s.val := by exact_mod_cast (vs'.trans vs.symm)
      cases s; cases s'; simp at this; subst this; rfl
    have et : t' = t := by
      have : t'.val = t.val := by exact_mod_cast (vt'.trans vt.symm)
      cases t; cases t'; simp at this; subst this; rfl
    subst es et
    have hle : s'.val ≤ t'.val := by
      have := (Fl.le_iff_val fl.1 fh.1).mp hX
      rw [← vs, ← vt] at this; exact_mod_cast this
    refine ⟨⟨s', t'⟩, ?_, ?_, vs, vt⟩
    · rw [hs, ht]; exact sint_make _ _ hle
    · rw [hs', ht']; exact sint_make _ _ hle
  · by_cases il : IsInt X.lo
    · rcases c with c | ⟨fh, ih⟩
      · exact absurd il c
      · obtain ⟨s, hs, -⟩ := (l .narrowing).1 fl il
        obtain ⟨s', hs', -⟩ := (l .contract).1 fl il
        rw [hs, hs', (h _).2.1 fh ih, (h _).2.1 fh ih]; exact ⟨rfl, rfl⟩
    · rw [(l _).2.1 fl il, (l _).2.1 fl il]; exact ⟨rfl, rfl⟩
  · by_cases fl : Fits m X.lo
    · rcases c with c | ⟨il, fh⟩
      · exact absurd fl c
      · obtain ⟨s, hs, -⟩ := (l .narrowing).1 fl il
        obtain ⟨s', hs', -⟩ := (l .contract).1 fl il
        rw [hs, hs', (h _).2.2 fh, (h _).2.2 fh]; exact ⟨rfl, rfl⟩
    · rw [(l _).2.2 fl, (l _).2.2 fl]; exact ⟨rfl, rfl⟩

/-! ## Integer to floating point -/

/-- C67: `narrow_cast` of an integer interval to a floating-point format never fails and encloses the converted points. -/
theorem C67_of_int_cast (F : Fmt K) {n : Nat} (X : Ivl (SInt n)) (hX : X.lo.val ≤ X.hi.val) :
    ∃ R : Ivl (Fl K), narrowCastIF F X = .ok R ∧ Proper R ∧ (∀ a, a ∈ᵢ X → F.rnd (a.val : K) ∈ᵢ R) ∧
      R.lo = F.rnd (X.lo.val : K) ∧ R.hi = F.rnd (X.hi.val : K) := by
  have mono := (C49_conversions_monotone (K := K) (F := F) (le_refl n)).2.1
  have hX' : Proper X := by unfold Proper; rw [sint_le, decide_eq_true_eq]; exact hX
  refine ⟨⟨F.rnd (X.lo.val : K), F.rnd (X.hi.val : K)⟩, ?_, mono _ _ hX', fun a ha => ⟨mono _ _ ha.1, mono _ _ ha.2⟩, rfl, rfl⟩
  simp only [narrowCastIF, narrowCastGI, assigned_nf hX', if_true, toFloatO, ok_bind]
  exact make_ok_of_le (mono _ _ hX')

theorem chkIF (e : Err) {F : Fmt K} (hI : IntToInt F) {n : Nat} (v : SInt n) :
    (F.rnd (v.val : K) = .num (v.val : K) → chk e (toFloatO F) (toIntV n) v = .ok (.num (v.val : K))) ∧
    (F.rnd (v.val : K) ≠ .num (v.val : K) → Fits n (F.rnd (v.val : K)) → chk e (toFloatO F) (toIntV n) v = .error e) ∧
    (¬ Fits n (F.rnd (v.val : K)) → chk e (toFloatO F) (toIntV n) v = .error .ub) := by
  refine ⟨fun h => ?_, fun h hf => ?_, fun hf => ?_⟩
  · have hf : Fits n (.num (v.val : K)) := ⟨rfl, (rep_trunc_iff (t := v.val)
      ⟨fun _ => ⟨le_refl _, by linarith⟩, fun _ => ⟨le_refl _, by linarith⟩⟩).mp v.rep⟩
    obtain ⟨t, ht, tt⟩ := (toIntV_eq n _).1 hf
    have : t.val = v.val := isTrunc_int (K := K) tt
    simp only [chk, toFloatO, toFloatV, ok_bind, h, ht, ne, sint_eq, this]; simp
  · obtain ⟨t, ht, tt⟩ := (toIntV_eq n _).1 hf
    have : t.val ≠ v.val := by
      rcases hr : F.rnd (v.val : K) with _ | _ | _ | _ | k
      · exact absurd hr (F.rnd_ne_nan _)
      · rw [hr] at hf; simp [Fits, Fl.isFinite] at hf
      · rw [hr] at hf; simp [Fits, Fl.isFinite] at hf
      · rw [hr] at tt
        have t0 : t.val = 0 := isTrunc_int (K := K) (by simpa [Fl.val] using tt)
        intro c
        rw [← c, t0, Int.cast_zero, F.rnd_zero] at hr; cases hr
      · obtain ⟨z, hz⟩ := hI _ _ hr
        rw [hr] at tt
        have tz : t.val = z := isTrunc_int (K := K) (by rw [← hz]; exact tt)
        intro c
        exact h (by rw [hr, hz, ← tz, c])
    simp only [chk, toFloatO, toFloatV, ok_bind, ht, ne, sint_eq]; simp [this]
  · simp only [chk, toFloatO, toFloatV, ok_bind, (toIntV_eq n _).2 hf]; rfl

/-- C67: `narrow` and `narrow_failfast` of an integer interval to a floating-point format: the same bounds if both are numbers of the
format; a bound that is rounded is reported if the rounded number is an integer of the source type, otherwise the check itself is undefined
behaviour. -/
theorem C67_of_int_narrow_partial {F : Fmt K} (hI : IntToInt F) {n : Nat} (X : Ivl (SInt n)) (hX : X.lo.val ≤ X.hi.val) :
    (InFmt F (.num (X.lo.val : K)) → InFmt F (.num (X.hi.val : K)) →
      narrowIF F X = .ok ⟨.num (X.lo.val : K), .num (X.hi.val : K)⟩ ∧ narrowFailfastIF F X = .ok ⟨.num (X.lo.val : K), .num (X.hi.val : K)⟩) ∧
    (¬ InFmt F (.num (X.lo.val : K)) ∧ Fits n (F.rnd (X.lo.val : K)) ∨
        InFmt F (.num (X.lo.val : K)) ∧ ¬ InFmt F (.num (X.hi.val : K)) ∧ Fits n (F.rnd (X.hi.val : K)) →
      narrowIF F X = .error .narrowing ∧ narrowFailfastIF F X = .error .contract) ∧
    (¬ Fits n (F.rnd (X.lo.val : K)) ∨ InFmt F (.num (X.lo.val : K)) ∧ ¬ Fits n (F.rnd (X.hi.val : K)) →
      narrowIF F X = .error .ub ∧ narrowFailfastIF F X = .error .ub) := by
  have hX' : Proper X := by unfold Proper; rw [sint_le, decide_eq_true_eq]; exact hX
  simp only [narrowIF, narrowFailfastIF, narrowGI, narrowFailfastGI, assigned_nf hX', if_true, narrowG_chk, narrowFailfastG_chk]
  have l := fun e => chkIF e hI X.lo
  have h := fun e => chkIF e hI X.hi
  have inf : ∀ k : K, InFmt F (.num k) ↔ F.rnd k = .num k := fun k => ⟨fun c => c.2, fun c => ⟨by simp, c⟩⟩
  simp only [inf]
  refine ⟨fun rl rh => ?_, fun c => ?_, fun c => ?_⟩
  · rw [(l _).1 rl, (l _).1 rl, (h _).1 rh, (h _).1 rh]
    have : le (Fl.num (X.lo.val : K)) (Fl.num (X.hi.val : K)) = true := by simpa using hX
    exact ⟨make_ok_of_le this, make_ok_of_le this⟩
  · rcases c with ⟨rl, fl⟩ | ⟨rl, rh, fh⟩
    · rw [(l _).2.1 rl fl, (l _).2.1 rl fl]; exact ⟨rfl, rfl⟩
    · rw [(l _).1 rl, (l _).1 rl, (h _).2.1 rh fh, (h _).2.1 rh fh]; exact ⟨rfl, rfl⟩
  · rcases c with fl | ⟨rl, fh⟩
    · rw [(l _).2.2 fl, (l _).2.2 fl]; exact ⟨rfl, rfl⟩
    · rw [(l _).1 rl, (l _).1 rl, (h _).2.2 fh, (h _).2.2 fh]; exact ⟨rfl, rfl⟩
end toInt

/-- C67: unassigned intervals stay unassigned. -/
theorem C67_unassigned [FloorRing K] (F₀ F : Fmt K) (m : Nat) {n : Nat} (X : Ivl (Fl K)) (hX : lt X.hi X.lo = true)
    (Y : Ivl (SInt n)) (hY : Y.hi.val < Y.lo.val) :
    narrowCastFF F X = .ok Ivl.unassigned ∧ narrowFF F₀ F X = .ok Ivl.unassigned ∧ narrowFailfastFF F₀ F X = .ok Ivl.unassigned ∧
    narrowCastFI m X = .ok Ivl.unassigned ∧ narrowFI F₀ m X = .ok Ivl.unassigned ∧ narrowFailfastFI F₀ m X = .ok Ivl.unassigned ∧
    narrowCastIF F Y = .ok (Ivl.unassigned : Ivl (Fl K)) ∧ narrowIF F Y = .ok (Ivl.unassigned : Ivl (Fl K)) ∧
    narrowFailfastIF F Y = .ok (Ivl.unassigned : Ivl (Fl K)) := by
  have a : X.assigned = false := by simp [Ivl.assigned, CppVal.gt, hX]
  have b : Y.assigned = false := by simp [Ivl.assigned, CppVal.gt, sint_lt, hY]
  simp [narrowCastFF, narrowFF, narrowFailfastFF, narrowCastFI, narrowFI, narrowFailfastFI, narrowCastIF, narrowIF, narrowFailfastIF,
    narrowCastGI, narrowGI, narrowFailfastGI, a, b]

/-! ## IEEE formats -/

/-- the hypotheses hold for `float` and `double` -/
theorem C67_formats : SubFmt binary32Fmt binary64Fmt ∧ TruncClosed binary32Fmt ∧ TruncClosed binary64Fmt ∧ IntToInt binary32Fmt ∧
    IntToInt binary64Fmt :=
  ⟨subFmt_float_double, truncClosed_bin _ _ (by norm_num), truncClosed_bin _ _ (by norm_num), intToInt_bin _ _ (by norm_num),
    intToInt_bin _ _ (by norm_num)⟩

/-- C67, the full claim about the checked conversions: whatever the proper interval, they return or report. -/
def C67_full : Prop :=
  (∀ (X : Ivl (Fl ℚ)), Proper X → InFmt binary64Fmt X.lo → InFmt binary64Fmt X.hi →
    narrowFI binary64Fmt 31 X ≠ .error .ub) ∧
  (∀ X : Ivl (SInt 63), X.lo.val ≤ X.hi.val → narrowIF binary64Fmt X ≠ .error .ub)

/-- The full claim fails for both directions: `narrow<int>(interval{ 0., 1e10 })`, and `narrow<double>` of an interval that contains the
largest `long long`, which rounds to `2^63`. -/
theorem C67_violated :
    (∃ X : Ivl (Fl ℚ), Proper X ∧ InFmt binary64Fmt X.lo ∧ InFmt binary64Fmt X.hi ∧ narrowFI binary64Fmt 31 X = .error .ub) ∧
    (∃ X : Ivl (SInt 63), X.lo.val ≤ X.hi.val ∧ narrowIF binary64Fmt X = .error .ub) := by
  refine ⟨⟨⟨.num 0, .num 10000000000⟩, by decide +kernel, ⟨by simp, by decide +kernel⟩, ⟨by simp, by decide +kernel⟩, by decide +kernel⟩,
    ⟨⟨0, by decide, by decide⟩, ⟨2^63 - 1, by decide, by decide⟩⟩, by decide, by decide +kernel⟩

/-! `narrow<float>([0.1 (a double), 1])` throws; `narrow<float>([-0.5, 16777216])` succeeds; `narrow_cast<int>([-2.5, 7.75]) = [-2, 7]`. -/
example : narrowFF binary64Fmt binary32Fmt ⟨.num (3602879701896397/36028797018963968), .num 1⟩ = .error .narrowing := by decide +kernel
example : narrowFF binary64Fmt binary32Fmt ⟨.num (-1/2), .num 16777216⟩ = .ok ⟨.num (-1/2), .num 16777216⟩ := by decide +kernel
example : (narrowCastFI 31 (⟨.num (-5/2), .num (31/4)⟩ : Ivl (Fl ℚ))).map (fun R => (R.lo.val, R.hi.val)) = .ok (-2, 7) := by decide +kernel
example : narrowFI binary64Fmt 31 (⟨.num (-5/2), .num (31/4)⟩ : Ivl (Fl ℚ)) = .error .narrowing := by decide +kernel
example : (narrowFI binary64Fmt 31 (⟨.nzero, .num 5⟩ : Ivl (Fl ℚ))).map (fun R => (R.lo.val, R.hi.val)) = .ok (0, 5) := by decide +kernel
example : narrowIF binary32Fmt (⟨i32 16777216, i32 16777217⟩ : Ivl (SInt 31)) = .error .narrowing := by decide +kernel
end Intervals.Props
