import Verif.Props.Convert
/-!
# C103: membership of values of another type
-/
set_option linter.unusedSectionVars false
namespace Intervals.Props
open Intervals CppVal Spec

section toInt
variable {K : Type} [Field K] [LinearOrder K] [IsStrictOrderedRing K] [FloorRing K]

theorem trunc_ge_iff {k : K} {t l : ℤ} (ht : IsTrunc k t) : l ≤ t ↔ (if l ≤ 0 then (l:K) - 1 < k else (l:K) ≤ k) := by
  rcases le_or_gt 0 k with h | h
  · obtain ⟨a, b⟩ := ht.1 h
    have t0 : 0 ≤ t := by
      have h2 : ((0 : ℤ) : K) < ((t + 1 : ℤ) : K) := by push_cast; linarith
      have := Int.cast_lt.mp h2; omega
    split
    · rename_i hl
      have : (l:K) ≤ 0 := by exact_mod_cast hl
      exact ⟨fun _ => by linarith, fun _ => by omega⟩
    · constructor
      · intro h; have : (l:K) ≤ (t:K) := by exact_mod_cast h
        linarith
      · intro h; have : (l:K) < ((t + 1 : ℤ) : K) := by push_cast; linarith
        have := Int.cast_lt.mp this; omega
  · obtain ⟨a, b⟩ := ht.2 h
    have t0 : t ≤ 0 := by
      have h2 : ((t - 1 : ℤ) : K) < ((0 : ℤ) : K) := by push_cast; linarith
      have := Int.cast_lt.mp h2; omega
    split
    · constructor
      · intro h; have : (l:K) ≤ (t:K) := by exact_mod_cast h
        linarith
      · intro h; have : ((l - 1 : ℤ) : K) < (t : K) := by push_cast; linarith
        have := Int.cast_lt.mp this; omega
    · rename_i hl
      have : (0:K) < (l:K) := by exact_mod_cast (by omega : 0 < l)
      exact ⟨fun _ => by omega, fun _ => by linarith⟩

theorem trunc_le_iff {k : K} {t u : ℤ} (ht : IsTrunc k t) : t ≤ u ↔ (if 0 ≤ u then k < (u:K) + 1 else k ≤ (u:K)) := by
  have hn : IsTrunc (-k) (-t) := by
    constructor
    · intro h
      rcases eq_or_lt_of_le h with h | h
      · have k0 : k = 0 := by linarith
        obtain ⟨a, b⟩ := ht.1 k0.ge
        rw [k0] at a b
        have : t ≤ 0 := by exact_mod_cast a
        have : 0 < t + 1 := by exact_mod_cast b
        have : t = 0 := by omega
        subst this; rw [k0]; simp
      · obtain ⟨a, b⟩ := ht.2 (by linarith)
        push_cast; constructor <;> linarith
    · intro h
      obtain ⟨a, b⟩ := ht.1 (by linarith)
      push_cast; constructor <;> linarith
  have := trunc_ge_iff (l := -u) hn
  rw [neg_le_neg_iff] at this
  rw [this]
  by_cases h : 0 ≤ u
  · rw [if_pos h, if_pos (by omega)]; push_cast; constructor <;> intro h <;> linarith
  · rw [if_neg h, if_neg (by omega)]; push_cast; constructor <;> intro h <;> linarith

/-- C103 for an integer interval and a value of floating-point type: the value is truncated.  If it is in range, `contains` is true exactly for the values between the bounds and those that lie less
than one outside a bound on the side away from zero, `encloses` exactly for those at least one
inside a bound on the side away from zero, and strictly inside the other bounds; `matches` compares the truncation.  Otherwise all queries and assignments are undefined behaviour. -/
theorem C103_to_int {m : Nat} (X : Ivl (SInt m)) (v : Fl K) :
    (Fits m v →
      (∃ b, containsO (toIntV m) X v = .ok b ∧ (b = true ↔
        (if X.lo.val ≤ 0 then (X.lo.val : K) - 1 < Fl.val v else (X.lo.val : K) ≤ Fl.val v) ∧ (if 0 ≤ X.hi.val then Fl.val v < (X.hi.val : K) + 1 else Fl.val v ≤ (X.hi.val : K)))) ∧
      (∃ b, enclosesO (toIntV m) X v = .ok b ∧ (b = true ↔
        (if X.lo.val < 0 then (X.lo.val : K) < Fl.val v else (X.lo.val : K) + 1 ≤ Fl.val v) ∧ (if 0 < X.hi.val then Fl.val v < (X.hi.val : K) else Fl.val v ≤ (X.hi.val : K) - 1))) ∧
      (∃ b, matchesO (toIntV m) X v = .ok b ∧ (b = true ↔ IsTrunc (Fl.val v) X.lo.val ∧ IsTrunc (Fl.val v) X.hi.val))) ∧
    (¬ Fits m v → containsO (toIntV m) X v = .error .ub ∧ enclosesO (toIntV m) X v = .error .ub ∧ matchesO (toIntV m) X v = .error .ub ∧
      assignO (toIntV m) X v = .error .ub ∧ resetO (toIntV m) X v = .error .ub) := by
  refine ⟨fun hv => ?_, fun hv => ?_⟩
  · obtain ⟨t, e, ht⟩ := (toIntV_eq m v).1 hv
    refine ⟨⟨X.containsVal t, by simp [containsO, e], ?_⟩, ⟨X.enclosesVal t, by simp [enclosesO, e], ?_⟩, ⟨X.matchesVal t, by simp [matchesO, e], ?_⟩⟩
    · rw [← trunc_ge_iff ht, ← trunc_le_iff ht]
      simp only [Ivl.containsVal, Bool.and_eq_true, sint_le, decide_eq_true_eq]
    · have h1 := trunc_ge_iff (l := X.lo.val + 1) ht
      have h2 := trunc_le_iff (u := X.hi.val - 1) ht
      have : X.enclosesVal t = true ↔ X.lo.val + 1 ≤ t.val ∧ t.val ≤ X.hi.val - 1 := by
        simp only [Ivl.enclosesVal, Bool.and_eq_true, sint_lt, decide_eq_true_eq]; omega
      rw [this, h1, h2]
      refine and_congr ?_ ?_
      · by_cases h : X.lo.val < 0
        · rw [if_pos (by omega), if_pos h]; push_cast; rw [add_sub_cancel_right]
        · rw [if_neg (by omega), if_neg h]; push_cast; rfl
      · by_cases h : 0 < X.hi.val
        · rw [if_pos (by omega), if_pos h]; push_cast; rw [sub_add_cancel]
        · rw [if_neg (by omega), if_neg h]; push_cast; rfl
    · have : X.matchesVal t = true ↔ X.lo.val = t.val ∧ X.hi.val = t.val := by
        simp only [Ivl.matchesVal, Bool.and_eq_true, sint_eq, decide_eq_true_eq]
      rw [this]
      constructor
      · rintro ⟨h1, h2⟩; rw [h1, h2]; exact ⟨ht, ht⟩
      · rintro ⟨h1, h2⟩; exact ⟨isTrunc_unique h1 ht, isTrunc_unique h2 ht⟩
  · have e := (toIntV_eq m v).2 hv
    simp only [containsO, enclosesO, matchesO, assignO, resetO, e]
    exact ⟨rfl, rfl, rfl, rfl, rfl⟩

/-- C103 for an integer interval and a value of floating-point type: what remains of it.  A value between the bounds is reported as contained, and a value reported as enclosed lies strictly
between the bounds.  For integral values both are right. -/
theorem C103_to_int_partial {m : Nat} (X : Ivl (SInt m)) (v : Fl K) (hv : Fits m v) :
    ((X.lo.val : K) ≤ Fl.val v → Fl.val v ≤ (X.hi.val : K) → containsO (toIntV m) X v = .ok true) ∧
    (enclosesO (toIntV m) X v = .ok true → (X.lo.val : K) < Fl.val v ∧ Fl.val v < (X.hi.val : K)) ∧
    (∀ z : ℤ, Fl.val v = (z : K) → (containsO (toIntV m) X v = .ok true ↔ X.lo.val ≤ z ∧ z ≤ X.hi.val) ∧
      (enclosesO (toIntV m) X v = .ok true ↔ X.lo.val < z ∧ z < X.hi.val) ∧ (matchesO (toIntV m) X v = .ok true ↔ X.lo.val = z ∧ X.hi.val = z)) := by
  obtain ⟨⟨c, ec, hc⟩, ⟨d, ed, hd⟩, ⟨f, ef, hf⟩⟩ := (C103_to_int X v).1 hv
  have ok : ∀ b : Bool, (Except.ok b : Outcome Bool) = .ok true ↔ b = true := fun b => ⟨fun h => by injection h, fun h => by rw [h]⟩
  rw [ec, ed, ef, ok, ok, ok, hc, hd, hf]
  refine ⟨fun h1 h2 => ⟨?_, ?_⟩, fun ⟨h1, h2⟩ => ⟨?_, ?_⟩, fun z hz => ⟨?_, ?_, ?_⟩⟩
  · split <;> linarith
  · split <;> linarith
  · split at h1 <;> linarith
  · split at h2 <;> linarith
  · rw [hz]
    refine and_congr ?_ ?_
    · split
      · rw [sub_lt_iff_lt_add]; norm_cast; omega
      · norm_cast
    · split <;> norm_cast; omega
  · rw [hz]
    refine and_congr ?_ ?_
    · split <;> norm_cast
    · split
      · norm_cast
      · rw [le_sub_iff_add_le]; norm_cast
  · rw [hz]
    have self : IsTrunc (z : K) z := by constructor <;> intro _ <;> constructor <;> linarith
    exact and_congr ⟨fun h => isTrunc_int h, fun h => h ▸ self⟩ ⟨fun h => isTrunc_int h, fun h => h ▸ self⟩
end toInt

section toFloat
variable {K : Type} [Field K] [LinearOrder K] [IsStrictOrderedRing K]

theorem toFormat_inFmt {F : Fmt K} {v : Fl K} (h : InFmt F v) : toFormatV F v = v := by
  cases v <;> simp [toFormatV]
  exact h.2

/-- C103 for a floating-point interval and a value of another floating-point format, or an integer: the value is rounded.  A value between the bounds is reported as contained, and a value reported
as enclosed lies strictly between the bounds; for representable values all three queries are right. -/
theorem C103_to_float_partial (F : Fmt K) (X : Ivl (Fl K)) (hl : InFmt F X.lo) (hh : InFmt F X.hi) (v : Fl K) :
    (v ∈ᵢ X → containsO (toFormatO F) X v = .ok true) ∧
    (enclosesO (toFormatO F) X v = .ok true → lt X.lo v = true ∧ lt v X.hi = true) ∧
    (InFmt F v → (containsO (toFormatO F) X v = .ok true ↔ v ∈ᵢ X) ∧ (enclosesO (toFormatO F) X v = .ok true ↔ lt X.lo v = true ∧ lt v X.hi = true) ∧
      (matchesO (toFormatO F) X v = .ok true ↔ eq X.lo v = true ∧ eq X.hi v = true)) ∧
    (v = .nan → containsO (toFormatO F) X v = .ok false ∧ enclosesO (toFormatO F) X v = .ok false ∧ matchesO (toFormatO F) X v = .ok false) := by
  have mono := (C49_conversions_monotone (K := K) (F := F) (le_refl 0)).2.2
  have ok : ∀ b : Bool, (Except.ok b : Outcome Bool) = .ok true ↔ b = true := fun b => ⟨fun h => by injection h, fun h => by rw [h]⟩
  have e1 : containsO (toFormatO F) X v = .ok (X.containsVal (toFormatV F v)) := rfl
  have e2 : enclosesO (toFormatO F) X v = .ok (X.enclosesVal (toFormatV F v)) := rfl
  have e3 : matchesO (toFormatO F) X v = .ok (X.matchesVal (toFormatV F v)) := rfl
  have fl := toFormat_inFmt hl
  have fh := toFormat_inFmt hh
  rw [e1, e2, e3, ok, ok, ok]
  refine ⟨fun h => ?_, fun h => ?_, fun h => ?_, fun h => ?_⟩
  · have h1 := mono _ _ h.1; have h2 := mono _ _ h.2
    rw [fl] at h1; rw [fh] at h2
    simp [Ivl.containsVal, h1, h2]
  · simp only [Ivl.enclosesVal, Bool.and_eq_true] at h
    have hv : v ≠ .nan := by rintro rfl; simp [toFormatV, CppVal.lt, Fl.ext] at h
    have nv := Fl.notNan_iff.mpr hv
    have tot : ∀ a : Fl K, a ≠ .nan → lt a v = true ∨ le v a = true := by
      intro a ha; have := Fl.notNan_iff.mpr ha
      cases h1 : le v a
      · exact .inl ((CppOrder.lt_iff _ _).mpr ⟨this, nv, h1⟩)
      · exact .inr rfl
    have tot' : ∀ a : Fl K, a ≠ .nan → lt v a = true ∨ le a v = true := by
      intro a ha; have := Fl.notNan_iff.mpr ha
      cases h1 : le a v
      · exact .inl ((CppOrder.lt_iff _ _).mpr ⟨nv, this, h1⟩)
      · exact .inr rfl
    have nn : ∀ a b : Fl K, lt a b = true → le b a = true → False := by
      intro a b h1 h2; rw [((CppOrder.lt_iff _ _).mp h1).2.2] at h2; cases h2
    constructor
    · rcases tot _ hl.1 with h' | h'
      · exact h'
      · have := mono _ _ h'; rw [fl] at this; exact (nn _ _ h.1 this).elim
    · rcases tot' _ hh.1 with h' | h'
      · exact h'
      · have := mono _ _ h'; rw [fh] at this; exact (nn _ _ h.2 this).elim
  · rw [toFormat_inFmt h]
    simp only [Ivl.containsVal, Ivl.enclosesVal, Ivl.matchesVal, Bool.and_eq_true]
    exact ⟨Iff.rfl, trivial, trivial⟩
  · subst h
    rw [← e1, ← e2, ← e3]
    refine ⟨?_, ?_, ?_⟩ <;> simp [containsO, enclosesO, matchesO, toFormatO, toFormatV, Ivl.containsVal, Ivl.enclosesVal, Ivl.matchesVal, CppVal.lt, CppVal.le, CppVal.eq, Fl.ext] <;> rfl

/-- C103 for a floating-point interval and an integer: the integer acts like the same number in the wider format -/
theorem C103_of_int (F : Fmt K) (X : Ivl (Fl K)) {n : Nat} (v : SInt n) :
    containsO (toFloatO F) X v = containsO (toFormatO F) X (.num (v.val : K)) ∧ enclosesO (toFloatO F) X v = enclosesO (toFormatO F) X (.num (v.val : K)) ∧
    matchesO (toFloatO F) X v = matchesO (toFormatO F) X (.num (v.val : K)) := ⟨rfl, rfl, rfl⟩
end toFloat

/-- C103 for two integer types: the value is reduced modulo `2^(m+1)`.  For values of the interval's type all three queries are right; for other values they answer about another number. -/
theorem C103_int_partial {n m : Nat} (X : Ivl (SInt m)) (v : SInt n) :
    (∀ c, CastOf m v.val c → (containsO (fun v => .ok (narrowCastV m v)) X v = .ok true ↔ X.lo.val ≤ c ∧ c ≤ X.hi.val) ∧
      (enclosesO (fun v => .ok (narrowCastV m v)) X v = .ok true ↔ X.lo.val < c ∧ c < X.hi.val) ∧
      (matchesO (fun v => .ok (narrowCastV m v)) X v = .ok true ↔ X.lo.val = c ∧ X.hi.val = c)) ∧
    (Rep m v.val → CastOf m v.val v.val) := by
  refine ⟨fun c hc => ?_, fun h => ⟨h, Int.ModEq.refl _⟩⟩
  have ok : ∀ b : Bool, (Except.ok b : Outcome Bool) = .ok true ↔ b = true := fun b => ⟨fun h => by injection h, fun h => by rw [h]⟩
  have e1 : containsO (fun v => .ok (narrowCastV m v)) X v = .ok (X.containsVal (narrowCastV m v)) := rfl
  have e2 : enclosesO (fun v => .ok (narrowCastV m v)) X v = .ok (X.enclosesVal (narrowCastV m v)) := rfl
  have e3 : matchesO (fun v => .ok (narrowCastV m v)) X v = .ok (X.matchesVal (narrowCastV m v)) := rfl
  rw [e1, e2, e3, ok, ok, ok, castOf_unique hc (castOf_narrow m v)]
  simp only [Ivl.containsVal, Ivl.enclosesVal, Ivl.matchesVal, Bool.and_eq_true, sint_le, sint_lt, sint_eq, decide_eq_true_eq]
  exact ⟨trivial, trivial, trivial⟩

/-- C103: `assign` of a value of another type extends the interval by the converted value and not further, `reset` replaces it by the converted value. -/
theorem C103_assign {U T : Type _} [CppVal T] [CppOrder T] (conv : U → Outcome T) (X : Ivl T) (hX : Proper X) (v : U) (t : T) (h : conv v = .ok t) (ht : NotNan t) :
    (∃ R, assignO conv X v = .ok R ∧ t ∈ᵢ R ∧ (∀ p, p ∈ᵢ X → p ∈ᵢ R) ∧ (R.lo = X.lo ∨ R.lo = t) ∧ (R.hi = X.hi ∨ R.hi = t)) ∧
    (∃ R : Ivl T, resetO conv X v = .ok R ∧ R.lo = t ∧ R.hi = t) := by
  have hl : NotNan X.lo := CppOrder.le_left _ _ hX
  have hh : NotNan X.hi := CppOrder.le_right _ _ hX
  refine ⟨⟨X.assignVal t, by simp [assignO, h], ⟨(cmin_le hl ht).2, ?_⟩, fun p hp => ⟨CppOrder.le_trans _ _ _ (cmin_le hl ht).1 hp.1, ?_⟩, cmin_or _ _, cmax_or _ _⟩,
    ⟨⟨t, t⟩, by simp [resetO, h, Ivl.resetVal], rfl, rfl⟩⟩
  · exact (le_cmax hh ht).2
  · exact CppOrder.le_trans _ _ _ hp.2 (le_cmax hh ht).1

/-- C103 as stated, for integer intervals and floating-point values -/
def C103_full : Prop :=
  ∀ (m : Nat) (X : Ivl (SInt m)) (v : Fl ℚ), Fl.isFinite v = true → (containsO (toIntV m) X v = .ok true ↔ (X.lo.val : ℚ) ≤ Fl.val v ∧ Fl.val v ≤ (X.hi.val : ℚ)) ∧
    (enclosesO (toIntV m) X v = .ok true ↔ (X.lo.val : ℚ) < Fl.val v ∧ Fl.val v < (X.hi.val : ℚ))

/-- C103 is violated: `interval{ 0, 3 }.contains(-0.5)`, `interval{ 0, 3 }.contains(3.5)`, `interval{ 2 }.matches(2.5)` and `interval{ 0, 3 }.contains(4294967297)` are true,
`interval{ 0, 3 }.encloses(0.5)` is false, `interval{ 0, 3 }.contains(1e10)` is undefined behaviour, and `interval{ 0.f, 16777216.f }.contains(16777217)` is true. -/
theorem C103_violated :
    ¬ C103_full ∧ containsO (toIntV 31) ⟨i32 0, i32 3⟩ (.num (-1/2) : Fl ℚ) = .ok true ∧ containsO (toIntV 31) ⟨i32 0, i32 3⟩ (.num (7/2) : Fl ℚ) = .ok true ∧
    matchesO (toIntV 31) ⟨i32 2, i32 2⟩ (.num (5/2) : Fl ℚ) = .ok true ∧ containsO (fun v => .ok (narrowCastV 31 v)) ⟨i32 0, i32 3⟩ (i64 4294967297) = .ok true ∧
    enclosesO (toIntV 31) ⟨i32 0, i32 3⟩ (.num (1/2) : Fl ℚ) = .ok false ∧ containsO (toIntV 31) ⟨i32 0, i32 3⟩ (.num 10000000000 : Fl ℚ) = .error .ub ∧
    containsO (toFloatO binary32Fmt) ⟨.num 0, .num 16777216⟩ (i32 16777217) = .ok true := by
  refine ⟨fun h => ?_, by decide +kernel, by decide +kernel, by decide +kernel, by decide +kernel, by decide +kernel, by decide +kernel, by decide +kernel⟩
  have := ((h 31 ⟨i32 0, i32 3⟩ (.num (-1/2)) rfl).1.mp (by decide +kernel)).1
  revert this; decide +kernel

/-! `interval{ -3, 4 }` contains `2.5` and encloses it; `interval{ 0., 3. }` contains the integer `1`. -/
example : Fits 31 (.num (5/2) : Fl ℚ) ∧ containsO (toIntV 31) ⟨i32 (-3), i32 4⟩ (.num (5/2) : Fl ℚ) = .ok true ∧ enclosesO (toIntV 31) ⟨i32 (-3), i32 4⟩ (.num (5/2) : Fl ℚ) = .ok true :=
  ⟨⟨rfl, by decide +kernel⟩, by decide +kernel, by decide +kernel⟩
example : InFmt binary64Fmt (.num 0) ∧ InFmt binary64Fmt (.num 3) ∧ containsO (toFloatO binary64Fmt) ⟨.num 0, .num 3⟩ (i32 1) = .ok true :=
  ⟨⟨by simp, by decide +kernel⟩, ⟨by simp, by decide +kernel⟩, by decide +kernel⟩
example : (assignO (toIntV 31) ⟨i32 0, i32 3⟩ (.num (9/2) : Fl ℚ)).map (fun R => (R.lo.val, R.hi.val)) = .ok (0, 4) := by decide +kernel
end Intervals.Props
