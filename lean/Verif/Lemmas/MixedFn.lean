import Verif.Spec.MixedFn
import Verif.Props.Mixed
import Verif.Props.Blend
/-! Typed values and operands with finite bounds, in exact arithmetic. -/
set_option linter.unusedSectionVars false
namespace Intervals
open CppVal Spec Fl Props
variable {n : Nat} {K : Type} [Field K] [LinearOrder K] [IsStrictOrderedRing K]

/-- the value is the number `k` -/
def IsD : DVal n K → K → Prop
  | .int v, k => (v.val : K) = k
  | .flt v, k => Is v k
/-- the operand has the bounds `k`, `l` -/
def IsDA (X : DArg n K) (k l : K) : Prop := IsD X.lo k ∧ IsD X.hi l
/-- the value is of the integer type -/
def DVal.IsInt : DVal n K → Prop
  | .int _ => True
  | .flt _ => False

attribute [local instance] exactFmt
theorem IsD.toF {d : DVal n K} {k : K} (h : IsD d k) : Is d.toF k := by
  cases d with
  | int v => subst h; exact Is.num _
  | flt v => exact h
theorem isInt_lo {X : DArg n K} : X.lo.IsInt ↔ IsIntD X := by cases X <;> rfl
theorem isInt_hi {X : DArg n K} : X.hi.IsInt ↔ IsIntD X := by cases X <;> rfl

theorem one_val (hn : 1 ≤ n) : (CppNum.one : SInt n).val = 1 := by
  show (if n = 0 then (0:Int) else 1) = 1
  rw [if_neg (by omega)]
theorem zero_val : (CppNum.zero : SInt n).val = 0 := rfl
theorem isD_one (hn : 1 ≤ n) : IsD (DVal.one : DVal n K) 1 := by
  show (((CppNum.one : SInt n).val : ℤ) : K) = 1
  rw [one_val hn]; exact Int.cast_one
theorem one_toF (hn : 1 ≤ n) : (DVal.one : DVal n K).toF = .num 1 := by
  show Fl.num (((CppNum.one : SInt n).val : ℤ) : K) = .num 1
  rw [one_val hn, Int.cast_one]

theorem sint_of {v : ℤ} (h : Rep n v) : SInt.of n v = .ok ⟨v, h.1, by have := h.2; omega⟩ := by
  unfold SInt.of BInt.ofInt
  rw [dif_pos ⟨h.1, by have := h.2; omega⟩]

theorem op2_flt {i : SInt n → SInt n → Outcome (SInt n)} {f : Fl K → Fl K → Fl K} {a b : DVal n K} (h : ¬ (a.IsInt ∧ b.IsInt)) :
    DVal.op2 i f a b = .ok (.flt (f a.toF b.toF)) := by
  cases a with
  | flt a => cases b <;> rfl
  | int a =>
    cases b with
    | flt b => rfl
    | int b => exact absurd ⟨trivial, trivial⟩ h
theorem isD_add {a b : DVal n K} {k l : K} (ha : IsD a k) (hb : IsD b l) (h : ¬ (a.IsInt ∧ b.IsInt)) :
    ∃ r, DVal.add a b = .ok r ∧ IsD r (k + l) := by
  cases a with
  | flt a => cases b <;> exact ⟨.flt _, rfl, ha.toF.add hb.toF⟩
  | int a =>
    cases b with
    | flt b => exact ⟨.flt _, rfl, ha.toF.add hb.toF⟩
    | int b => exact absurd ⟨trivial, trivial⟩ h
/-- a product; of integers only if one factor is 0 or 1 -/
theorem isD_mul {a b : DVal n K} {k l : K} (ha : IsD a k) (hb : IsD b l) (h : a.IsInt → k = 0 ∨ k = 1) :
    ∃ r, DVal.mul a b = .ok r ∧ IsD r (k * l) ∧ (r.IsInt ↔ a.IsInt ∧ b.IsInt) := by
  have key : ∀ (u v : SInt n), (u.val = 0 ∨ u.val = 1) → ∃ r, SInt.of n (u.val * v.val) = .ok r ∧ r.val = u.val * v.val := by
    intro u v hu
    refine ⟨_, sint_of (v := u.val * v.val) ?_, rfl⟩
    have := v.ge; have := v.le
    have : (0:Int) < 2^n := Int.pow_pos (by decide)
    rcases hu with e | e <;> rw [e] <;> constructor <;> omega
  cases a with
  | flt a => cases b <;> exact ⟨.flt _, rfl, ha.toF.mul hb.toF, by simp [DVal.IsInt]⟩
  | int a =>
    cases b with
    | flt b => exact ⟨.flt _, rfl, ha.toF.mul hb.toF, by simp [DVal.IsInt]⟩
    | int b =>
      have ha' : (a.val : K) = k := ha
      have hb' : (b.val : K) = l := hb
      have hu : a.val = 0 ∨ a.val = 1 := by
        have := h trivial
        rw [← ha'] at this
        exact_mod_cast this
      obtain ⟨r, e, hr⟩ := key a b hu
      refine ⟨.int r, ?_, ?_, by simp [DVal.IsInt]⟩
      · show (do return DVal.int (← SInt.of n (a.val * b.val))) = _
        rw [e]; rfl
      · show ((r.val : ℤ) : K) = k * l
        rw [hr, ← ha', ← hb']; push_cast; ring
/-- `1 - q` for a fraction -/
theorem isD_one_sub (hn : 1 ≤ n) {q : DVal n K} {k : K} (hq : IsD q k) (h : q.IsInt → k = 0 ∨ k = 1) :
    ∃ r, DVal.sub DVal.one q = .ok r ∧ IsD r (1 - k) ∧ (r.IsInt ↔ q.IsInt) := by
  cases q with
  | flt q => exact ⟨.flt _, rfl, (isD_one (n := n) hn).toF.sub hq, by simp [DVal.IsInt]⟩
  | int q =>
    have hq' : (q.val : K) = k := hq
    have hu : q.val = 0 ∨ q.val = 1 := by
      have := h trivial
      rw [← hq'] at this
      exact_mod_cast this
    have : (2:Int) ≤ 2^n := by
      obtain ⟨m, rfl⟩ := Nat.exists_eq_add_of_le hn
      rw [pow_add]; have : (0:Int) < 2^m := Int.pow_pos (by decide)
      omega
    have hr : Rep n ((CppNum.one : SInt n).val - q.val) := by
      rw [one_val hn]; rcases hu with e | e <;> rw [e] <;> constructor <;> omega
    refine ⟨.int ⟨_, hr.1, by have := hr.2; omega⟩, ?_, ?_, by simp [DVal.IsInt]⟩
    · show (do return DVal.int (← SInt.of n ((CppNum.one : SInt n).val - q.val))) = _
      rw [sint_of hr]; rfl
    · show (((CppNum.one : SInt n).val - q.val : ℤ) : K) = 1 - k
      rw [one_val hn, ← hq']; push_cast; ring
theorem isD_ge {a b : DVal n K} {k l : K} (ha : IsD a k) (hb : IsD b l) : DVal.ge a b = decide (l ≤ k) := by
  cases a with
  | flt a => cases b <;> exact hb.toF.le_eq ha.toF
  | int a =>
    cases b with
    | flt b => exact hb.toF.le_eq ha.toF
    | int b =>
      have ha' : (a.val : K) = k := ha
      have hb' : (b.val : K) = l := hb
      show decide (b.val ≤ a.val) = _
      rw [← ha', ← hb']; simp

/-! Operands -/
theorem finiteD_isDA {X : DArg n K} (h : FiniteD X) : ∃ k l, IsDA X k l ∧ k ≤ l := by
  cases X with
  | int X =>
    refine ⟨_, _, ⟨rfl, rfl⟩, ?_⟩
    cases X with
    | scalar s => exact le_rfl
    | ivl x => exact Int.cast_le.mpr h
  | flt X => exact ⟨_, _, isA_of_finite h, (isA_of_finite h).le h.2.2⟩
theorem memD_bounds {X : DArg n K} {k l v : K} (hX : IsDA X k l) (hv : MemD v X) : k ≤ v ∧ v ≤ l := by
  cases X with
  | int X =>
    obtain ⟨m, hm, rfl⟩ := hv
    obtain ⟨rfl, rfl⟩ : ((X.lo.val : ℤ) : K) = k ∧ ((X.hi.val : ℤ) : K) = l := hX
    cases X with
    | scalar s => subst hm; exact ⟨le_rfl, le_rfl⟩
    | ivl x => exact ⟨Int.cast_le.mpr hm.1, Int.cast_le.mpr hm.2⟩
  | flt X => exact IsA.mem_num (X := X) hX |>.mp hv
theorem memD_lo {X : DArg n K} {k l : K} (hf : FiniteD X) (hX : IsDA X k l) : MemD k X := by
  cases X with
  | int X =>
    obtain ⟨rfl, rfl⟩ : ((X.lo.val : ℤ) : K) = k ∧ ((X.hi.val : ℤ) : K) = l := hX
    refine ⟨X.lo.val, ?_, rfl⟩
    cases X with
    | scalar s => rfl
    | ivl x => exact ⟨le_rfl, hf⟩
  | flt X => exact (IsA.mem_num (X := X) hX).mpr ⟨le_rfl, IsA.le (X := X) hX hf.2.2⟩
theorem memD_hi {X : DArg n K} {k l : K} (hf : FiniteD X) (hX : IsDA X k l) : MemD l X := by
  cases X with
  | int X =>
    obtain ⟨rfl, rfl⟩ : ((X.lo.val : ℤ) : K) = k ∧ ((X.hi.val : ℤ) : K) = l := hX
    refine ⟨X.hi.val, ?_, rfl⟩
    cases X with
    | scalar s => rfl
    | ivl x => exact ⟨hf, le_rfl⟩
  | flt X => exact (IsA.mem_num (X := X) hX).mpr ⟨IsA.le (X := X) hX hf.2.2, le_rfl⟩
theorem assignedD {X : DArg n K} (hf : FiniteD X) : X.assigned = true := by
  cases X with
  | int X => exact assigned_of_proper (properA_of_inhab hf)
  | flt X => exact assigned_of_proper hf.2.2

/-! Debug preconditions -/
theorem geLit_always {U : Type} [CppVal U] [CppOrder U] (dbg : Bool) {X : Arg U} {z : U} (hp : ProperA X) {p : Prop} [Decidable p] (h0 : le z X.lo = decide p)
    (h1 : lt X.lo z = decide (¬ p)) (h2 : p → le z X.hi = true) : ∃ R, geLit dbg X z = .ok R ∧ R ≠ 0#2 ∧ BoolSet.always R = decide p := by
  cases X with
  | scalar v =>
    refine ⟨_, rfl, by cases CppVal.ge v z <;> decide, ?_⟩
    rw [show CppVal.ge v z = decide p from h0]
    by_cases c : p <;> simp [c] <;> decide
  | ivl x =>
    refine ⟨compareLeq (.scalar z) (.ivl x), ?_, ?_⟩
    · simp only [geLit, opGe, assigned_of_proper hp]
      simp [Arg.assigned]
    · have e2 : CppVal.gt (Arg.scalar z).hi (Arg.ivl x).lo = decide (¬ p) := h1
      simp only [compareLeq, e2]
      by_cases c : p
      · have e1 : CppVal.le (Arg.scalar z).lo (Arg.ivl x).hi = true := h2 c
        rw [e1]; simp [c]; decide
      · cases CppVal.le (Arg.scalar z).lo (Arg.ivl x).hi <;> simp [c] <;> decide
theorem leLit_always {U : Type} [CppVal U] [CppOrder U] (dbg : Bool) {X : Arg U} {z : U} (hp : ProperA X) {p : Prop} [Decidable p] (h0 : le X.hi z = decide p)
    (h1 : lt z X.hi = decide (¬ p)) (h2 : p → le X.lo z = true) : ∃ R, leLit dbg X z = .ok R ∧ R ≠ 0#2 ∧ BoolSet.always R = decide p := by
  cases X with
  | scalar v =>
    refine ⟨_, rfl, by cases CppVal.le v z <;> decide, ?_⟩
    rw [show CppVal.le v z = decide p from h0]
    by_cases c : p <;> simp [c] <;> decide
  | ivl x =>
    refine ⟨compareLeq (.ivl x) (.scalar z), ?_, ?_⟩
    · simp only [leLit, opLe, assigned_of_proper hp]
      simp [Arg.assigned]
    · have e2 : CppVal.gt (Arg.ivl x).hi (Arg.scalar z).lo = decide (¬ p) := h1
      simp only [compareLeq, e2]
      by_cases c : p
      · have e1 : CppVal.le (Arg.ivl x).lo (Arg.scalar z).hi = true := h2 c
        rw [e1]; simp [c]; decide
      · cases CppVal.le (Arg.ivl x).lo (Arg.scalar z).hi <;> simp [c] <;> decide

theorem geZero_always (dbg : Bool) {X : DArg n K} {k l : K} (hf : FiniteD X) (hX : IsDA X k l) :
    ∃ R, X.geZero dbg = .ok R ∧ R ≠ 0#2 ∧ BoolSet.always R = decide (0 ≤ k) := by
  have hkl := (memD_bounds hX (memD_hi hf hX)).1
  cases X with
  | int X =>
    obtain ⟨rfl, rfl⟩ : ((X.lo.val : ℤ) : K) = k ∧ ((X.hi.val : ℤ) : K) = l := hX
    have hkl' : X.lo.val ≤ X.hi.val := Int.cast_le.mp hkl
    refine geLit_always dbg (properA_of_inhab hf) (p := (0:K) ≤ X.lo.val) ?_ ?_ ?_
    · show decide (0 ≤ X.lo.val) = _; simp
    · show decide (X.lo.val < 0) = _; simp
    · intro h
      have h : 0 ≤ X.lo.val := by exact_mod_cast h
      show decide (0 ≤ X.hi.val) = true
      simp; omega
  | flt X =>
    obtain ⟨a, b⟩ : Is X.lo k ∧ Is X.hi l := hX
    refine geLit_always dbg hf.2.2 ((Is.num 0).le_eq a) ?_ ?_
    · rw [a.lt_eq (Is.num 0)]; simp
    · intro h; rw [(Is.num 0).le_eq b]; simpa using h.trans hkl
theorem leOne_always (hn : 1 ≤ n) (dbg : Bool) {X : DArg n K} {k l : K} (hf : FiniteD X) (hX : IsDA X k l) :
    ∃ R, X.leOne dbg = .ok R ∧ R ≠ 0#2 ∧ BoolSet.always R = decide (l ≤ 1) := by
  have hkl := (memD_bounds hX (memD_hi hf hX)).1
  cases X with
  | int X =>
    obtain ⟨rfl, rfl⟩ : ((X.lo.val : ℤ) : K) = k ∧ ((X.hi.val : ℤ) : K) = l := hX
    have hkl' : X.lo.val ≤ X.hi.val := Int.cast_le.mp hkl
    have e1 : ((X.hi.val : K) ≤ 1) ↔ X.hi.val ≤ 1 := by exact_mod_cast Iff.rfl
    have ev := one_val hn
    refine leLit_always dbg (properA_of_inhab hf) (p := (X.hi.val : K) ≤ 1) ?_ ?_ ?_
    · show decide (X.hi.val ≤ (CppNum.one : SInt n).val) = _; rw [ev]; simp [e1]
    · show decide ((CppNum.one : SInt n).val < X.hi.val) = _; rw [ev]; simp [e1]
    · intro h
      rw [e1] at h
      show decide (X.lo.val ≤ (CppNum.one : SInt n).val) = true
      rw [ev]; simp; omega
  | flt X =>
    obtain ⟨a, b⟩ : Is X.lo k ∧ Is X.hi l := hX
    refine leLit_always dbg hf.2.2 (b.le_eq (Is.num 1)) ?_ ?_
    · rw [(Is.num 1).lt_eq b]; simp
    · intro h; rw [a.le_eq (Is.num 1)]; simpa using hkl.trans h

theorem sumPos_flt (dbg : Bool) {A B : Arg (Fl K)} {a0 a1 b0 b1 : K} (hA : IsA A a0 a1) (hB : IsA B b0 b1) (pA : ProperA A) (pB : ProperA B) :
    ∃ R, sumPos dbg A B = .ok R ∧ BoolSet.always R = decide (0 < a0 + b0) := by
  have gen : ∃ R, (do opGt dbg (.ivl (← addI dbg A B)) (.scalar CppNum.zero) : Outcome BoolSet) = .ok R ∧ BoolSet.always R = decide (0 < a0 + b0) := by
    obtain ⟨S, e3, hS⟩ := hA.addI dbg hB pA pB
    rw [e3]
    exact always_opGt_zero dbg hS (add_le_add (hA.le pA) (hB.le pB))
  cases A with
  | ivl A => exact gen
  | scalar a =>
    cases B with
    | ivl B => exact gen
    | scalar b =>
      refine ⟨_, rfl, ?_⟩
      rw [show CppVal.gt (Fl.add a b) (CppNum.zero : Fl K) = decide (0 < a0 + b0) from (Is.num 0).lt_eq (hA.1.add hB.1)]
      by_cases c : 0 < a0 + b0 <;> simp [c] <;> decide
theorem isDA_map {X : Arg (SInt n)} {k l : K} (hX : IsDA (.int X : DArg n K) k l) : IsA (mapA toFloatV X) k l := by
  obtain ⟨rfl, rfl⟩ : ((X.lo.val : ℤ) : K) = k ∧ ((X.hi.val : ℤ) : K) = l := hX
  cases X <;> exact ⟨Is.num _, Is.num _⟩
theorem sumPos_always (dbg : Bool) {A B : DArg n K} {a0 a1 b0 b1 : K} (fA : FiniteD A) (fB : FiniteD B) (hA : IsDA A a0 a1) (hB : IsDA B b0 b1)
    (hi : ¬ (IsIntD A ∧ IsIntD B)) : ∃ R, DArg.sumPos dbg A B = .ok R ∧ BoolSet.always R = decide (0 < a0 + b0) := by
  have gI := C68_int_to_float (F := exactFmt K) (n := n) ⟨rfl, rfl⟩
  have gF : GoodCast (fun v : Fl K => v) (fun _ => True) := C68_no_conversion ((Is.num 0).le_iff (Is.num 0) |>.mpr le_rfl)
  cases A with
  | flt A =>
    cases B with
    | flt B => exact sumPos_flt dbg hA hB fA.2.2 fB.2.2
    | int B =>
      have pB := mapA_proper gI (properA_of_inhab fB) ⟨trivial, trivial⟩
      obtain ⟨R, e, hR⟩ := sumPos_flt dbg (A := A) hA (isDA_map hB) fA.2.2 pB
      refine ⟨R, ?_, hR⟩
      have := (C68_same_type gF gI dbg fA.2.2 (properA_of_inhab fB) ⟨trivial, trivial⟩ ⟨trivial, trivial⟩).1
      rw [← e]
      cases A <;> cases B <;> first | rfl | (simp only [DArg.sumPos, sumPosM, this]; rfl)
  | int A =>
    cases B with
    | int B => exact absurd ⟨trivial, trivial⟩ hi
    | flt B =>
      have pA := mapA_proper gI (properA_of_inhab fA) ⟨trivial, trivial⟩
      obtain ⟨R, e, hR⟩ := sumPos_flt dbg (B := B) (isDA_map hA) hB pA fB.2.2
      refine ⟨R, ?_, hR⟩
      have := (C68_same_type gI gF dbg (properA_of_inhab fA) fB.2.2 ⟨trivial, trivial⟩ ⟨trivial, trivial⟩).1
      rw [← e]
      cases A <;> cases B <;> first | rfl | (simp only [DArg.sumPos, sumPosM, this]; rfl)
end Intervals
