import Verif.Model.Arith
import Verif.Lemmas.Val
import Verif.Spec.Interval
/-! Functions of two variables that are monotone or antitone in each variable: bounds are found at the corners. -/
set_option linter.unusedSectionVars false
namespace Intervals
open CppVal Spec

variable {T : Type _} [CppVal T] [CppOrder T]

/-- `R` is the hull of the list of values -/
def HullOf (l : List T) (R : Ivl T) : Prop := R.lo ∈ l ∧ R.hi ∈ l ∧ ∀ c ∈ l, le R.lo c = true ∧ le c R.hi = true

/-- the four corner values -/
def corners (f : T → T → T) (X Y : Arg T) : List T := [f X.lo Y.lo, f X.lo Y.hi, f X.hi Y.lo, f X.hi Y.hi]

theorem cmin_or (a b : T) : cmin a b = a ∨ cmin a b = b := by unfold cmin; split <;> simp
theorem cmax_or (a b : T) : cmax a b = a ∨ cmax a b = b := by unfold cmax; split <;> simp
theorem cmin_le {a b : T} (ha : NotNan a) (hb : NotNan b) : le (cmin a b) a = true ∧ le (cmin a b) b = true := by
  unfold NotNan at *; unfold cmin; split <;> grind
theorem le_cmax {a b : T} (ha : NotNan a) (hb : NotNan b) : le a (cmax a b) = true ∧ le b (cmax a b) = true := by
  unfold NotNan at *; unfold cmax; split <;> grind
theorem make_ok_of_le {l h : T} (hl : le l h = true) : Ivl.make l h = .ok ⟨l, h⟩ := by
  unfold Ivl.make
  have : (gt l h) = false := by simp only [CppVal.gt]; grind
  simp [this, expects_true]

theorem cmin_notNan {a b : T} (ha : NotNan a) (hb : NotNan b) : NotNan (cmin a b) := by
  rcases cmin_or a b with h | h <;> rw [h] <;> assumption
theorem cmax_notNan {a b : T} (ha : NotNan a) (hb : NotNan b) : NotNan (cmax a b) := by
  rcases cmax_or a b with h | h <;> rw [h] <;> assumption

theorem hull2_ok {v1 v2 : T} (h1 : NotNan v1) (h2 : NotNan v2) : ∃ R, hull2 v1 v2 = .ok R ∧ HullOf [v1, v2] R := by
  have hl := cmin_le h1 h2; have hh := le_cmax h1 h2
  have hle : le (cmin v1 v2) (cmax v1 v2) = true := CppOrder.le_trans _ _ _ hl.1 hh.1
  refine ⟨_, make_ok_of_le hle, ?_, ?_, ?_⟩
  · simpa using cmin_or v1 v2
  · simpa using cmax_or v1 v2
  · simpa using ⟨⟨hl.1, hh.1⟩, ⟨hl.2, hh.2⟩⟩

theorem hull4_ok {v1 v2 v3 v4 : T} (h1 : NotNan v1) (h2 : NotNan v2) (h3 : NotNan v3) (h4 : NotNan v4) :
    ∃ R, hull4 v1 v2 v3 v4 = .ok R ∧ HullOf [v1, v2, v3, v4] R := by
  have hl := cmin_le h1 h2; have hh := le_cmax h1 h2
  have hl' := cmin_le h3 h4; have hh' := le_cmax h3 h4
  have hL := cmin_le (cmin_notNan h1 h2) (cmin_notNan h3 h4)
  have hH := le_cmax (cmax_notNan h1 h2) (cmax_notNan h3 h4)
  have t : ∀ {a b c : T}, le a b = true → le b c = true → le a c = true := fun h h' => CppOrder.le_trans _ _ _ h h'
  refine ⟨_, make_ok_of_le (t hL.1 (t hl.1 (t hh.1 hH.1))), ?_, ?_, ?_⟩
  · simp only [List.mem_cons, List.not_mem_nil, or_false]
    rcases cmin_or (cmin v1 v2) (cmin v3 v4) with h | h <;> rw [h]
    · rcases cmin_or v1 v2 with h | h <;> simp [h]
    · rcases cmin_or v3 v4 with h | h <;> simp [h]
  · simp only [List.mem_cons, List.not_mem_nil, or_false]
    rcases cmax_or (cmax v1 v2) (cmax v3 v4) with h | h <;> rw [h]
    · rcases cmax_or v1 v2 with h | h <;> simp [h]
    · rcases cmax_or v3 v4 with h | h <;> simp [h]
  · simp only [List.mem_cons, List.not_mem_nil, or_false, forall_eq_or_imp, forall_eq]
    exact ⟨⟨t hL.1 hl.1, t hh.1 hH.1⟩, ⟨t hL.1 hl.2, t hh.2 hH.1⟩, ⟨t hL.2 hl'.1, t hh'.1 hH.2⟩, ⟨t hL.2 hl'.2, t hh'.2 hH.2⟩⟩

theorem HullOf.congr {l l' : List T} {R : Ivl T} (h : ∀ c, c ∈ l ↔ c ∈ l') (H : HullOf l R) : HullOf l' R :=
  ⟨(h _).mp H.1, (h _).mp H.2.1, fun c hc => H.2.2 c ((h c).mpr hc)⟩

/-- the value `f` lies between those at the ends -/
def Betw (u v w : T) : Prop := (le u w = true ∨ le v w = true) ∧ (le w u = true ∨ le w v = true)

theorem corner_incl {f : T → T → T} {X Y : Arg T} {R : Ivl T} (hR : HullOf (corners f X Y) R)
    {a b : T} (h1 : Betw (f X.lo b) (f X.hi b) (f a b))
    (h2 : Betw (f X.lo Y.lo) (f X.lo Y.hi) (f X.lo b)) (h3 : Betw (f X.hi Y.lo) (f X.hi Y.hi) (f X.hi b)) : f a b ∈ᵢ R := by
  obtain ⟨-, -, hc⟩ := hR
  simp only [corners, List.mem_cons, List.not_mem_nil, or_false, forall_eq_or_imp, forall_eq] at hc
  unfold Betw at *
  unfold Pt
  grind

theorem lo_mem {X : Arg T} (h : ProperA X) : X.lo ∈ₐ X := by
  cases X with
  | scalar s => exact ⟨h, h⟩
  | ivl x => change le x.lo x.hi = true at h; exact ⟨CppOrder.le_left _ _ h, h⟩
theorem hi_mem {X : Arg T} (h : ProperA X) : X.hi ∈ₐ X := by
  cases X with
  | scalar s => exact ⟨h, h⟩
  | ivl x => change le x.lo x.hi = true at h; exact ⟨h, CppOrder.le_right _ _ h⟩
omit [CppOrder T] in
theorem mem_bounds {X : Arg T} {a : T} : a ∈ₐ X ↔ le X.lo a = true ∧ le a X.hi = true := by
  cases X <;> exact Iff.rfl
theorem assigned_of_proper {X : Arg T} (h : ProperA X) : X.assigned = true := by
  cases X with
  | scalar s => rfl
  | ivl x =>
    change le x.lo x.hi = true at h
    simp only [Arg.assigned, Ivl.assigned, CppVal.gt]
    grind
theorem proper_le {X : Arg T} (h : ProperA X) : le X.lo X.hi = true := by cases X <;> exact h
end Intervals
