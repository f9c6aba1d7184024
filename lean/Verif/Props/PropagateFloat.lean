import Verif.Props.PropagateMixed
import Verif.Spec.PropagateFloat
/-!
# C111 for floating-point intervals: repeated constraining comes to an end
-/
set_option linter.unusedSectionVars false
set_option linter.unusedVariables false
namespace Intervals.Props
open Intervals Spec CppVal
section
variable {U : Type} [CppVal U] [CppNum U] [CppOrder U] [CppStep U]

/-- without steps and conversions, the bounds of the result are bounds of the operands -/
theorem bounds_among {dbg : Bool} {x R : Ivl U} {r : Arg U} (hx : Proper x) (hr : ProperA r) (k : XRel) (h : constrainM (fun v : U => v) (predStep false) (succStep false) false dbg x r k = .ok R) :
    (R.lo = x.lo ∨ R.lo = r.lo) ∧ (R.hi = x.hi ∨ R.hi = r.hi) := by
  have hc : BoolSet.contains (k.compare (fun v : U => v) x r) true = true := by
    cases hc : BoolSet.contains (k.compare (fun v : U => v) x r) true
    · rw [constrainM_impossible hx hr k hc] at h; cases h
    · rfl
  rw [constrainM_body hx hr k hc] at h
  have c1 : ∀ a b : U, cmin a b = a ∨ cmin a b = b := fun a b => by unfold cmin; split <;> simp
  have c2 : ∀ a b : U, cmax a b = a ∨ cmax a b = b := fun a b => by unfold cmax; split <;> simp
  cases k
  case xNe => simp [bodyX, pure, Except.pure] at h; subst h; simp
  case neX => simp [bodyX, pure, Except.pure] at h; subst h; simp
  case xLess =>
    simp only [bodyX, predStep, Bool.false_eq_true, if_false, ok_bind] at h
    obtain ⟨-, rfl⟩ := make_eq_ok.mp h
    exact ⟨.inl rfl, c1 _ _⟩
  case lessX =>
    simp only [bodyX, succStep, Bool.false_eq_true, if_false, ok_bind] at h
    obtain ⟨-, rfl⟩ := make_eq_ok.mp h
    exact ⟨(c2 _ _).symm, .inl rfl⟩
  case xLeq => obtain ⟨-, rfl⟩ := make_eq_ok.mp h; exact ⟨.inl rfl, c1 _ _⟩
  case leqX => obtain ⟨-, rfl⟩ := make_eq_ok.mp h; exact ⟨(c2 _ _).symm, .inl rfl⟩
  case xEq => obtain ⟨-, rfl⟩ := make_eq_ok.mp h; exact ⟨c2 _ _, c1 _ _⟩
  case eqX => obtain ⟨-, rfl⟩ := make_eq_ok.mp h; exact ⟨(c2 _ _).symm, (c1 _ _).symm⟩

/-- the number of values of the list below `v` -/
private def rankIn (L : List U) (v : U) : Int := (L.countP (fun l => lt l v) : Nat)
private theorem rankIn_le (L : List U) {u v : U} (h : le u v = true) : rankIn L u ≤ rankIn L v := by
  unfold rankIn
  exact_mod_cast List.countP_mono_left (fun l _ hl => by grind)
private theorem rankIn_lt {L : List U} {u v : U} (hu : u ∈ L) (h : lt u v = true) : rankIn L u < rankIn L v := by
  unfold rankIn
  induction L with
  | nil => simp at hu
  | cons a L ih =>
    have hm : (L.countP (fun l => lt l u) : Int) ≤ (L.countP (fun l => lt l v) : Int) := by
      exact_mod_cast List.countP_mono_left (fun l _ hl => by grind)
    simp only [List.countP_cons]
    rcases List.mem_cons.mp hu with rfl | hu
    · have : lt u u = false := by grind
      rw [this, h]; push_cast; simp; omega
    · have i := ih hu
      by_cases h1 : lt a u = true
      · have h2 : lt a v = true := by grind
        rw [h1, h2]; push_cast; simp; omega
      · have h1' : lt a u = false := by simpa using h1
        rw [h1']
        cases lt a v <;> simp <;> omega

variable {ι : Type} [DecidableEq ι] {dbg : Bool} {A : List (MNarrowing (fun _ : ι => U))}

/-- all bounds are in the list -/
private def Inv (A : List (MNarrowing (fun _ : ι => U))) (L : List U) (S : ι → Ivl U) : Prop :=
  ∀ a ∈ A, ((S a.x).lo ∈ L ∧ (S a.x).hi ∈ L) ∧ ((a.y.arg S).lo ∈ L ∧ (a.y.arg S).hi ∈ L)

private theorem ok_float (hA : ∀ a ∈ A, a.y.Ok a.x) : ∀ a ∈ A, a.Ok (unsteppedTypes U) := fun a ha =>
  ⟨hA a ha, fun _ _ h => h, ⟨fun a b p h e => by
    change predStep false a = _ at e
    simp only [predStep, Bool.false_eq_true, if_false] at e; cases e; exact ⟨b, rfl, h⟩, fun a b p h e => by
    change succStep false b = _ at e
    simp only [succStep, Bool.false_eq_true, if_false] at e; cases e; exact ⟨a, rfl, h⟩⟩⟩
private theorem gapless_float (a : MNarrowing (fun _ : ι => U)) (S : ι → Ivl U) : a.Gapless (unsteppedTypes U) S := fun _ u v _ _ =>
  ⟨fun h => ⟨v, rfl, by change lt u v = true at h; change le u v = true; grind⟩, fun h => ⟨v, rfl, by change lt v u = true at h; change le v u = true; grind⟩⟩

private theorem inv_step {L : List U} {S F : ι → Ivl U} (hA : ∀ a ∈ A, a.y.Ok a.x) (hS : AllProperM S) (hi : Inv A L S) {b : MNarrowing (fun _ : ι => U)} (hb : b ∈ A)
    (h : b.exec (unsteppedTypes U) dbg S = .ok F) : Inv A L F := by
  obtain ⟨R, g, rfl⟩ := exec_iff.mp h
  obtain ⟨⟨b1, b2⟩, b3, b4⟩ := hi b hb
  obtain ⟨r1, r2⟩ := bounds_among (hS b.x) (opd_proper (hA b hb) hS) b.k g
  have hR : R.lo ∈ L ∧ R.hi ∈ L := ⟨by rcases r1 with e | e <;> rw [e] <;> assumption, by rcases r2 with e | e <;> rw [e] <;> assumption⟩
  have upd : ∀ j : ι, ((S j).lo ∈ L ∧ (S j).hi ∈ L) → (Function.update S b.x R j).lo ∈ L ∧ (Function.update S b.x R j).hi ∈ L := fun j hj => by
    by_cases e : j = b.x
    · subst e; rw [Function.update_self]; exact hR
    · rw [Function.update_of_ne e]; exact hj
  intro a ha
  obtain ⟨a1, a2⟩ := hi a ha
  refine ⟨upd _ a1, ?_⟩
  obtain ⟨x, k, y⟩ := a
  cases y with
  | var j => exact upd j a2
  | lit j r => exact a2

private theorem changes_at {T : ι → Type} [∀ i, CppVal (T i)] [∀ i, CppNum (T i)] [∀ i, CppOrder (T i)] [∀ i, CppStep (T i)] {E : ValueTypes T} {a : MNarrowing T} {S F : ∀ i, Ivl (T i)} (hS : AllProperM S)
    (h : a.exec E dbg S = .ok F) (hn : ¬ SameBoundsM F S) : ¬(eq (F a.x).lo (S a.x).lo = true ∧ eq (F a.x).hi (S a.x).hi = true) := by
  intro h'; apply hn; intro i
  by_cases e : i = a.x
  · subst e; exact h'
  · obtain ⟨R, -, rfl⟩ := exec_iff.mp h
    rw [Function.update_of_ne e]
    have := withinM_refl hS i
    constructor <;> grind

private theorem width_lt {L : List U} {S F : ι → Ivl U} (hS : AllProperM S) (w : WithinM F S) {a : MNarrowing (fun _ : ι => U)} (ha : a ∈ A) (hi : Inv A L S) (hi' : Inv A L F)
    (hx : ¬(eq (F a.x).lo (S a.x).lo = true ∧ eq (F a.x).hi (S a.x).hi = true)) :
    ((A.map (·.x)).map (fun i => rankIn L (F i).hi - rankIn L (F i).lo)).sum < ((A.map (·.x)).map (fun i => rankIn L (S i).hi - rankIn L (S i).lo)).sum := by
  apply List.sum_lt_sum
  · intro i _
    have := rankIn_le L (w i).1; have := rankIn_le L (w i).2
    omega
  · refine ⟨a.x, List.mem_map.mpr ⟨a, ha, rfl⟩, ?_⟩
    have v1 := rankIn_le L (w a.x).1; have v2 := rankIn_le L (w a.x).2
    have w1 := (w a.x).1; have w2 := (w a.x).2
    by_cases e : eq (F a.x).lo (S a.x).lo = true
    · have : lt (F a.x).hi (S a.x).hi = true := by grind
      have := rankIn_lt (hi' a ha).1.2 this
      omega
    · have : lt (S a.x).lo (F a.x).lo = true := by grind
      have := rankIn_lt (hi a ha).1.1 this
      omega

private theorem reachesF (hA : ∀ a ∈ A, a.y.Ok a.x) (L : List U) {s : ι → U} : ∀ (n : Nat) (S : ι → Ivl U), Inv A L S → SolutionM (unsteppedTypes U) A S s →
    ((A.map (·.x)).map (fun i => rankIn L (S i).hi - rankIn L (S i).lo)).sum < n →
    ∃ as F, (∀ a ∈ as, a ∈ A) ∧ execAllM (unsteppedTypes U) dbg as S = .ok F ∧ StableM (unsteppedTypes U) dbg A F ∧ SolutionM (unsteppedTypes U) A F s := by
  intro n
  induction n with
  | zero =>
    intro S hi hsol hn
    exfalso
    have h2 : 0 ≤ ((A.map (·.x)).map (fun i => rankIn L (S i).hi - rankIn L (S i).lo)).sum := by
      apply List.sum_nonneg
      intro z hz
      obtain ⟨i, -, rfl⟩ := List.mem_map.mp hz
      have := rankIn_le L (CppOrder.le_trans _ _ _ (hsol.1 i).1 (hsol.1 i).2)
      omega
    simp only [Nat.cast_zero] at hn
    omega
  | succ n ih =>
    intro S hi hsol hn
    have hS : AllProperM S := fun i => CppOrder.le_trans _ _ _ (hsol.1 i).1 (hsol.1 i).2
    by_cases hst : StableM (unsteppedTypes U) dbg A S
    · exact ⟨[], S, by simp, rfl, hst, hsol⟩
    · unfold StableM at hst
      push Not at hst
      obtain ⟨a, ha, hst⟩ := hst
      obtain ⟨F, f1, f2⟩ := C111_keeps (E := unsteppedTypes U) (dbg := dbg) (as := [a]) (fun _ h => by simp [unsteppedTypes] at h) (ok_float hA) (by simpa using ha) (fun a _ => gapless_float a S) hsol
      obtain ⟨S1, g1, g2⟩ := execAllM_cons.mp f1
      cases g2
      obtain ⟨p, w, -⟩ := execM_mono (E := unsteppedTypes U) (fun _ h => by simp [unsteppedTypes] at h) hS hS (withinM_refl hS) (ok_float hA a ha) g1
      have hne := hst F g1
      have hi' := inv_step hA hS hi ha g1
      have h1 := width_lt hS w ha hi hi' (changes_at hS g1 hne)
      obtain ⟨as, G, a1, a2, a3, a4⟩ := ih F hi' f2 (by push_cast at hn; omega)
      exact ⟨a :: as, G, by intro b hb; rcases List.mem_cons.mp hb with rfl | hb; exacts [ha, a1 b hb], execAllM_cons.mpr ⟨F, g1, a2⟩, a3, a4⟩

/-- C111 for intervals of one floating-point type, narrowed by comparisons with each other and with numbers and intervals of that type: if there is a solution, the statements can be run until nothing changes,
and the bounds reached do not depend on the order.  Nothing is assumed about the format. -/
theorem C111_float (dbg : Bool) {A : List (MNarrowing (fun _ : ι => U))} {S : ι → Ivl U} {s : ι → U} (hA : ∀ a ∈ A, a.y.Ok a.x) (hsol : SolutionM (unsteppedTypes U) A S s) :
    ∃ as F, (∀ a ∈ as, a ∈ A) ∧ execAllM (unsteppedTypes U) dbg as S = .ok F ∧ StableM (unsteppedTypes U) dbg A F ∧ SolutionM (unsteppedTypes U) A F s ∧
      ∀ bs G, (∀ b ∈ bs, b ∈ A) → execAllM (unsteppedTypes U) dbg bs S = .ok G → WithinM F G ∧ (StableM (unsteppedTypes U) dbg A G → SameBoundsM F G) := by
  have hs : ∀ i : ι, (unsteppedTypes U : ValueTypes (fun _ : ι => U)).disc i = true → LawfulStep U := fun _ h => by simp [unsteppedTypes] at h
  have hS : AllProperM S := fun i => CppOrder.le_trans _ _ _ (hsol.1 i).1 (hsol.1 i).2
  have hi : Inv A (A.flatMap (fun a => [(S a.x).lo, (S a.x).hi, (a.y.arg S).lo, (a.y.arg S).hi])) S := fun a ha => by
    refine ⟨⟨?_, ?_⟩, ?_, ?_⟩ <;> exact List.mem_flatMap.mpr ⟨a, ha, by simp⟩
  have big : ∀ z : Int, ∃ n : Nat, z < n := fun z => ⟨z.toNat + 1, by have := Int.self_le_toNat z; push_cast; omega⟩
  obtain ⟨as, F, a1, a2, a3, a4⟩ := reachesF (dbg := dbg) hA _ _ S hi hsol (big _).choose_spec
  obtain ⟨f1, f2⟩ := C111_narrows hs hS (fun a h => ok_float hA a (a1 a h)) a2
  refine ⟨as, F, a1, a2, a3, a4, fun bs G hb hG => ⟨?_, fun sG => C111_order hs (ok_float hA) a1 hb hS a2 hG a3 sG⟩⟩
  obtain ⟨G', k1, k2⟩ := C111_above_stable hs (ok_float hA) hb hS f1 a3 f2
  rw [hG] at k1; cases k1
  exact k2

/-- C111: integers, in any order: if every statement of a sequence changes a bound, the sequence is no longer than the sum of the widths of the intervals `D` that are narrowed. -/
theorem C111_terminates_int (dbg : Bool) {w : ι → Nat} (D : List ι) {as : List (MNarrowing (fun i => SInt (w i)))} {S : ∀ i, Ivl (SInt (w i))} (hS : AllProperM S) (ha : ∀ a ∈ as, a.IntOk) (hD : ∀ a ∈ as, a.x ∈ D)
    (h : EachChanges (intTypes w) dbg as S) : (as.length : Int) ≤ (D.map (fun i => (S i).hi.val - (S i).lo.val)).sum := by
  induction as generalizing S with
  | nil =>
    apply List.sum_nonneg
    intro z hz
    obtain ⟨i, -, rfl⟩ := List.mem_map.mp hz
    have : (S i).lo.val ≤ (S i).hi.val := of_decide_eq_true (hS i)
    omega
  | cons a as ih =>
    obtain ⟨F, g1, hn, h⟩ := h
    obtain ⟨p, wi, -⟩ := execM_mono (E := intTypes w) (fun _ _ => lawfulStep_bint _ _) hS hS (withinM_refl hS) (narrowing_ok_int (ha a (by simp))) g1
    have i := ih p (fun b hb => ha b (by simp [hb])) (fun b hb => hD b (by simp [hb])) h
    have hx := changes_at hS g1 hn
    have := (stepM_width (D := D) (fun i (v : SInt (w i)) => v.val) (fun i _ u v h => of_decide_eq_true h) (fun i _ u v h => by simpa [CppVal.eq] using h) hS p wi).2 (fun h => hx (h a.x (hD a (by simp))))
    simp only [List.length_cons]
    push_cast
    omega

private theorem steps_float (hA : ∀ a ∈ A, a.y.Ok a.x) (L : List U) : ∀ (as : List (MNarrowing (fun _ : ι => U))) (S : ι → Ivl U), AllProperM S → Inv A L S → (∀ a ∈ as, a ∈ A) →
    EachChanges (unsteppedTypes U) dbg as S → (as.length : Int) ≤ ((A.map (·.x)).map (fun i => rankIn L (S i).hi - rankIn L (S i).lo)).sum := by
  intro as
  induction as with
  | nil =>
    intro S hS hi _ _
    apply List.sum_nonneg
    intro z hz
    obtain ⟨i, -, rfl⟩ := List.mem_map.mp hz
    have := rankIn_le L (hS i)
    omega
  | cons a as ih =>
    intro S hS hi has h
    obtain ⟨F, g1, hn, h⟩ := h
    have ha := has a (by simp)
    obtain ⟨p, w, -⟩ := execM_mono (E := unsteppedTypes U) (fun _ h => by simp [unsteppedTypes] at h) hS hS (withinM_refl hS) (ok_float hA a ha) g1
    have hi' := inv_step hA hS hi ha g1
    have i := ih F p hi' (fun b hb => has b (by simp [hb])) h
    have := width_lt hS w ha hi hi' (changes_at hS g1 hn)
    simp only [List.length_cons]
    push_cast
    omega

/-- C111: floating-point numbers, in any order: if each statement of a sequence is one of `A` and changes a bound, the sequence has at most `4 n²` statements, where `n` is the length of `A`. -/
theorem C111_terminates_float (dbg : Bool) {A as : List (MNarrowing (fun _ : ι => U))} {S : ι → Ivl U} (hS : AllProperM S) (hA : ∀ a ∈ A, a.y.Ok a.x) (has : ∀ a ∈ as, a ∈ A)
    (h : EachChanges (unsteppedTypes U) dbg as S) : as.length ≤ 4 * A.length * A.length := by
  have hi : Inv A (A.flatMap (fun a => [(S a.x).lo, (S a.x).hi, (a.y.arg S).lo, (a.y.arg S).hi])) S := fun a ha => by
    refine ⟨⟨?_, ?_⟩, ?_, ?_⟩ <;> exact List.mem_flatMap.mpr ⟨a, ha, by simp⟩
  have h1 := steps_float hA _ as S hS hi has h
  generalize hL : A.flatMap (fun a => [(S a.x).lo, (S a.x).hi, (a.y.arg S).lo, (a.y.arg S).hi]) = L at h1
  have hlen : L.length = 4 * A.length := by rw [← hL]; simp [List.length_flatMap]; omega
  have h2 : ∀ D : List ι, (D.map (fun i => rankIn L (S i).hi - rankIn L (S i).lo)).sum ≤ (4 * A.length : Int) * D.length := by
    intro D
    induction D with
    | nil => simp
    | cons i D ih =>
      have a1 : (L.countP (fun l => lt l (S i).hi)) ≤ L.length := List.countP_le_length
      have a2 : rankIn L (S i).hi - rankIn L (S i).lo ≤ 4 * A.length := by unfold rankIn; omega
      simp only [List.map_cons, List.sum_cons, List.length_cons]
      push_cast
      linarith
  have h3 := h2 (A.map (·.x))
  rw [List.length_map] at h3
  exact_mod_cast h1.trans h3
end

private def flA : List (MNarrowing (fun _ : Bool => Fl ℚ)) := [⟨false, .xLeq, .var true⟩, ⟨true, .xLess, .lit true (.scalar (.num (5/2)))⟩, ⟨true, .leqX, .var false⟩]
private def flS : Bool → Ivl (Fl ℚ)
  | false => ⟨.num (1/2), .num 4⟩
  | true => ⟨.num 0, .num 3⟩
private def fls : Bool → Fl ℚ := fun _ => .num 1
private def flR : Bool → Ivl (Fl ℚ) := fun _ => ⟨.num (1/2), .num (5/2)⟩
/-- the hypotheses of `C111_float` hold for `x <= y`, `y < 2.5`, `y >= x` at `x = [0.5, 4.]`, `y = [0., 3.]`; running the statements twice gives `[0.5, 2.5]` for both, which is stable -/
example : letI := binary64Fmt
    (∀ a ∈ flA, a.y.Ok a.x) ∧ SolutionM (unsteppedTypes (Fl ℚ)) flA flS fls ∧ (∀ i, (execAllM (unsteppedTypes (Fl ℚ)) true (flA ++ flA) flS).map (fun F => F i) = .ok (flR i)) ∧
    (∀ a ∈ flA, ∀ i, (a.exec (unsteppedTypes (Fl ℚ)) true flR).map (fun F => F i) = .ok (flR i)) := by
  letI := binary64Fmt
  refine ⟨fun a ha => ?_, ⟨fun i => ?_, fun a ha => ?_⟩, fun i => ?_, fun a ha i => ?_⟩
  · simp only [flA, List.mem_cons, List.not_mem_nil, or_false] at ha
    rcases ha with rfl | rfl | rfl
    · show true ≠ false; decide
    · show ProperA (Arg.scalar (Fl.num (5/2 : ℚ))); decide +kernel
    · show false ≠ true; decide
  · cases i <;> exact ⟨by decide +kernel, by decide +kernel⟩
  · simp only [flA, List.mem_cons, List.not_mem_nil, or_false] at ha
    rcases ha with rfl | rfl | rfl
    · show holdsX _ _ _ = true; decide +kernel
    · exact ⟨.num (5/2), mem_bounds.mpr ⟨by decide +kernel, by decide +kernel⟩, by decide +kernel⟩
    · show holdsX _ _ _ = true; decide +kernel
  · cases i <;> decide +kernel
  · simp only [flA, List.mem_cons, List.not_mem_nil, or_false] at ha
    rcases ha with rfl | rfl | rfl <;> cases i <;> decide +kernel

/-- the hypotheses of `C111_terminates_float` hold: the first two statements of the example each change a bound -/
example : letI := binary64Fmt
    AllProperM flS ∧ EachChanges (unsteppedTypes (Fl ℚ)) true [⟨false, .xLeq, .var true⟩, ⟨true, .xLess, .lit true (.scalar (.num (5/2)))⟩] flS := by
  letI := binary64Fmt
  refine ⟨fun i => ?_, _, exec_iff.mpr ⟨⟨.num (1/2), .num 3⟩, by decide +kernel, rfl⟩, fun h => ?_, _, exec_iff.mpr ⟨⟨.num 0, .num (5/2)⟩, by decide +kernel, rfl⟩, fun h => ?_, trivial⟩
  · cases i <;> (unfold Proper; decide +kernel)
  · exact absurd (h false).2 (by decide +kernel)
  · exact absurd (h true).2 (by decide +kernel)

private def twoW : Bool → Nat
  | false => 15
  | true => 31
private def twoS : ∀ i, Ivl (SInt (twoW i))
  | false => ⟨⟨2, by decide, by decide⟩, ⟨9, by decide, by decide⟩⟩
  | true => ⟨⟨0, by decide, by decide⟩, ⟨50, by decide, by decide⟩⟩
/-- the hypotheses of `C111_terminates_int` hold for `n > s` at a short `s = [2, 9]` and an int `n = [0, 50]`, which changes a bound of `n` -/
example : AllProperM twoS ∧ (⟨true, .lessX, .var false⟩ : MNarrowing (fun i => SInt (twoW i))).IntOk ∧ EachChanges (intTypes twoW) true [⟨true, .lessX, .var false⟩] twoS := by
  refine ⟨fun i => ?_, ⟨by show false ≠ true; decide, by decide⟩, _, exec_iff.mpr ⟨⟨⟨3, by decide, by decide⟩, ⟨50, by decide, by decide⟩⟩, by decide, rfl⟩, fun h => ?_, trivial⟩
  · cases i <;> (unfold Proper; decide)
  · exact absurd (h true).1 (by decide)
end Intervals.Props
