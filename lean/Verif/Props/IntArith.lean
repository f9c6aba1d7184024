import Verif.Lemmas.IntArith
import Verif.Lemmas.Arith
/-!
# C25–C28: integer interval arithmetic is exact, and undefined exactly where a point operation is
-/
set_option linter.unusedSimpArgs false
namespace Intervals.Props
open Intervals CppVal Spec CppNum

variable {n : Nat}

theorem assigned_of_inhab {X : Arg (SInt n)} (h : Inhab X) : X.assigned = true := by
  cases X with
  | scalar s => rfl
  | ivl x =>
    change x.lo.val ≤ x.hi.val at h
    simp only [Arg.assigned, Ivl.assigned, CppVal.gt, sint_lt]
    rw [decide_eq_false (by omega)]; rfl

@[simp] theorem alo_s (s : SInt n) : (Arg.scalar s).lo = s := rfl
@[simp] theorem ahi_s (s : SInt n) : (Arg.scalar s).hi = s := rfl
@[simp] theorem alo_i (x : Ivl (SInt n)) : (Arg.ivl x).lo = x.lo := rfl
@[simp] theorem ahi_i (x : Ivl (SInt n)) : (Arg.ivl x).hi = x.hi := rfl
theorem isFloat_sint : CppNum.isFloat (SInt n) = false := rfl
theorem zero_sint : (CppNum.zero : SInt n).val = 0 := rfl

theorem total2 (g : Int → Int → Int) (X Y : Arg (SInt n)) (res)
    (h : ExactInt2 (fun a b => if True then some (g a b) else none) X Y res) : ExactInt2 (fun a b => some (g a b)) X Y res := by
  simpa only [if_true] using h

/-- C25 addition -/
theorem C25_add (dbg : Bool) (X Y : Arg (SInt n)) (hX : Inhab X) (hY : Inhab Y) :
    ExactInt2 (fun a b => some (a + b)) X Y (addI dbg X Y) := by
  apply total2
  have hx := InI.lo X hX; have hx' := InI.hi X hX; have hy := InI.lo Y hY; have hy' := InI.hi Y hY
  have b1 := InI.bounds hx'; have b2 := InI.bounds hy'
  refine exact_of_corners (fun a b => a + b) _ X Y _ (fun _ _ _ _ => trivial) [(X.lo.val, Y.lo.val), (X.hi.val, Y.hi.val)]
    (by simp [hx, hx', hy, hy']) ?_
  unfold addI
  rw [assigned_of_inhab hX, assigned_of_inhab hY, isFloat_sint]
  simp only [Bool.and_self, expectsDebug_true, ok_bind, Bool.false_and, Bool.false_eq_true, if_false, CppNum.add]
  rcases progBounds n (X.lo.val + Y.lo.val) (X.hi.val + Y.hi.val) (by omega) with ⟨h, he⟩ | ⟨h1, h2, R, he, hl, hh⟩
  · left; exact ⟨by simpa using h, he⟩
  · right
    refine ⟨by simpa using ⟨h1, h2⟩, R, he, by simp [hl], by simp [hh], fun a b ha hb => ?_⟩
    have := InI.bounds ha; have := InI.bounds hb
    rw [hl, hh]; omega

/-- C25 subtraction -/
theorem C25_sub (dbg : Bool) (X Y : Arg (SInt n)) (hX : Inhab X) (hY : Inhab Y) :
    ExactInt2 (fun a b => some (a - b)) X Y (subI dbg X Y) := by
  apply total2
  have hx := InI.lo X hX; have hx' := InI.hi X hX; have hy := InI.lo Y hY; have hy' := InI.hi Y hY
  have b1 := InI.bounds hx'; have b2 := InI.bounds hy'
  refine exact_of_corners (fun a b => a - b) _ X Y _ (fun _ _ _ _ => trivial) [(X.lo.val, Y.hi.val), (X.hi.val, Y.lo.val)]
    (by simp [hx, hx', hy, hy']) ?_
  unfold subI
  rw [assigned_of_inhab hX, assigned_of_inhab hY, isFloat_sint]
  simp only [Bool.and_self, expectsDebug_true, ok_bind, Bool.false_and, Bool.false_eq_true, if_false, CppNum.sub]
  rcases progBounds n (X.lo.val - Y.hi.val) (X.hi.val - Y.lo.val) (by omega) with ⟨h, he⟩ | ⟨h1, h2, R, he, hl, hh⟩
  · left; exact ⟨by simpa using h, he⟩
  · right
    refine ⟨by simpa using ⟨h1, h2⟩, R, he, by simp [hl], by simp [hh], fun a b ha hb => ?_⟩
    have := InI.bounds ha; have := InI.bounds hb
    rw [hl, hh]; omega

/-- unary version of `exact_of_corners` -/
theorem exact1_of_ends (g : Int → Int) (X : Ivl (SInt n)) (res : Outcome (Ivl (SInt n)))
    (hres : ((∃ a, InI a (.ivl X) ∧ ¬ Rep n (g a)) ∧ res = .error .ub) ∨
      (∃ R, res = .ok R ∧ (∃ a, InI a (.ivl X) ∧ g a = R.lo.val) ∧ (∃ a, InI a (.ivl X) ∧ g a = R.hi.val) ∧
        ∀ a, InI a (.ivl X) → R.lo.val ≤ g a ∧ g a ≤ R.hi.val)) :
    ExactInt1 (fun a => some (g a)) X res := by
  rcases hres with ⟨⟨a, ha, hr⟩, he⟩ | ⟨R, hR, ⟨a, ha, hlo⟩, ⟨b, hb, hhi⟩, hbd⟩
  · left; refine ⟨⟨a, ha, ?_⟩, he⟩
    rintro ⟨v, hv, hrv⟩; cases hv; exact hr hrv
  · right
    refine ⟨fun a ha => ⟨g a, rfl, ?_⟩, R, hR, fun a v ha hv => ?_, ⟨a, ha, congrArg some hlo⟩, ⟨b, hb, congrArg some hhi⟩⟩
    · obtain ⟨x, y⟩ := hbd a ha
      have l := R.lo.rep; have r := R.hi.rep
      exact ⟨by have := l.1; omega, by have := r.2; omega⟩
    · cases hv; exact hbd a ha

/-- C25 negation -/
theorem C25_neg (dbg : Bool) (X : Ivl (SInt n)) (hX : Inhab (.ivl X)) :
    ExactInt1 (fun a => some (-a)) X (negI dbg X) := by
  apply exact1_of_ends
  have ha : X.assigned = true := assigned_of_inhab hX
  change X.lo.val ≤ X.hi.val at hX
  unfold negI
  rw [ha]
  simp only [expectsDebug_true, ok_bind, CppNum.neg]
  rcases progBounds n (-X.hi.val) (-X.lo.val) (by omega) with ⟨h, he⟩ | ⟨h1, h2, R, he, hl, hh⟩
  · left
    refine ⟨?_, he⟩
    rcases h with h | h
    · exact ⟨_, ⟨hX, Int.le_refl _⟩, h⟩
    · exact ⟨_, ⟨Int.le_refl _, hX⟩, h⟩
  · right
    refine ⟨R, he, ⟨_, ⟨hX, Int.le_refl _⟩, hl.symm⟩, ⟨_, ⟨Int.le_refl _, hX⟩, hh.symm⟩, fun a ha => ?_⟩
    obtain ⟨_, _⟩ := ha
    rw [hl, hh]; omega

/-- C25: unary plus returns its operand -/
theorem C25_plus (dbg : Bool) (X : Ivl (SInt n)) (hX : Inhab (.ivl X)) : plusI dbg X = .ok X := by
  unfold plusI
  rw [show X.assigned = true from assigned_of_inhab hX, expectsDebug_true]; rfl

/-- C26 multiplication (all three overloads: `X`, `Y` may be scalars) -/
theorem C26_mul (dbg : Bool) (X Y : Arg (SInt n)) (hX : Inhab X) (hY : Inhab Y) :
    ExactInt2 (fun a b => some (a * b)) X Y (mulI dbg X Y) := by
  apply total2
  have hx := InI.lo X hX; have hx' := InI.hi X hX; have hy := InI.lo Y hY; have hy' := InI.hi Y hY
  have hc : ∀ a b, InI a X → InI b Y → _ := fun a b ha hb =>
    corner_bound (fun a b => a * b) X.lo.val X.hi.val Y.lo.val Y.hi.val
      (fun b _ _ => between_mul_left b _ _) (fun a _ _ => between_mul_right a _ _) a b
      (InI.bounds ha).1 (InI.bounds ha).2 (InI.bounds hb).1 (InI.bounds hb).2
  refine exact_of_corners (fun a b => a * b) _ X Y _ (fun _ _ _ _ => trivial)
    [(X.lo.val, Y.lo.val), (X.lo.val, Y.hi.val), (X.hi.val, Y.lo.val), (X.hi.val, Y.hi.val)]
    (by simp [hx, hx', hy, hy']) ?_
  unfold mulI
  rw [assigned_of_inhab hX, assigned_of_inhab hY, isFloat_sint]
  simp only [Bool.and_self, expectsDebug_true, ok_bind, Bool.false_and, Bool.false_eq_true, if_false, CppNum.mul]
  split
  · next _ s =>
    simp only [alo_s, ahi_s, alo_i, ahi_i] at hc ⊢
    rcases prog2 n (s.val * Y.lo.val) (s.val * Y.hi.val) with ⟨h, he⟩ | ⟨h1, h2, R, he, hl, hh⟩
    · left; refine ⟨?_, he⟩
      simp only [List.mem_cons, List.not_mem_nil, or_false, exists_eq_or_imp, exists_eq_left]
      tauto
    · right
      refine ⟨?_, R, he, ?_, ?_, fun a b ha hb => ?_⟩
      · simp only [List.mem_cons, List.not_mem_nil, or_false, forall_eq_or_imp, forall_eq]; tauto
      · simp only [List.mem_cons, List.not_mem_nil, or_false, exists_eq_or_imp, exists_eq_left]; omega
      · simp only [List.mem_cons, List.not_mem_nil, or_false, exists_eq_or_imp, exists_eq_left]; omega
      · have := hc a b ha hb; rw [hl, hh]; omega
  · next _ s hns =>
    simp only [alo_s, ahi_s, alo_i, ahi_i] at hc ⊢
    rcases prog2 n (X.lo.val * s.val) (X.hi.val * s.val) with ⟨h, he⟩ | ⟨h1, h2, R, he, hl, hh⟩
    · left; refine ⟨?_, he⟩
      simp only [List.mem_cons, List.not_mem_nil, or_false, exists_eq_or_imp, exists_eq_left]
      tauto
    · right
      refine ⟨?_, R, he, ?_, ?_, fun a b ha hb => ?_⟩
      · simp only [List.mem_cons, List.not_mem_nil, or_false, forall_eq_or_imp, forall_eq]; tauto
      · simp only [List.mem_cons, List.not_mem_nil, or_false, exists_eq_or_imp, exists_eq_left]; omega
      · simp only [List.mem_cons, List.not_mem_nil, or_false, exists_eq_or_imp, exists_eq_left]; omega
      · have := hc a b ha hb; rw [hl, hh]; omega
  · next x y =>
    simp only [alo_s, ahi_s, alo_i, ahi_i] at hc ⊢
    rcases prog4 n (x.lo.val * y.lo.val) (x.lo.val * y.hi.val) (x.hi.val * y.lo.val) (x.hi.val * y.hi.val) with
      ⟨h, he⟩ | ⟨h1, h2, h3, h4, R, he, hl, hh⟩
    · left; refine ⟨?_, he⟩
      simp only [List.mem_cons, List.not_mem_nil, or_false, exists_eq_or_imp, exists_eq_left]
      exact h
    · right
      refine ⟨?_, R, he, ?_, ?_, fun a b ha hb => ?_⟩
      · simp only [List.mem_cons, List.not_mem_nil, or_false, forall_eq_or_imp, forall_eq]; tauto
      · simp only [List.mem_cons, List.not_mem_nil, or_false, exists_eq_or_imp, exists_eq_left]; omega
      · simp only [List.mem_cons, List.not_mem_nil, or_false, exists_eq_or_imp, exists_eq_left]; omega
      · have := hc a b ha hb; rw [hl, hh]; omega

/-- An exact result is unique, so the theorems determine the outcome completely. -/
theorem exactInt2_unique {g : Int → Int → Option Int} {X Y : Arg (SInt n)} {r r' : Outcome (Ivl (SInt n))}
    (h : ExactInt2 g X Y r) (h' : ExactInt2 g X Y r') : r = r' := by
  rcases h with ⟨⟨a, b, ha, hb, hn⟩, h⟩ | ⟨hd, R, hR, hin, ⟨a, b, ha, hb, hl⟩, ⟨c, d, hc, hd', hh⟩⟩
  · rcases h' with ⟨_, h'⟩ | ⟨hd, _⟩
    · rw [h, h']
    · exact absurd (hd a b ha hb) hn
  · rcases h' with ⟨⟨a, b, ha, hb, hn⟩, h'⟩ | ⟨_, R', hR', hin', ⟨a', b', ha', hb', hl'⟩, ⟨c', d', hc', hd'', hh'⟩⟩
    · exact absurd (hd a b ha hb) hn
    · rw [hR, hR']
      have e1 := (hin' _ _ _ ha hb hl).1
      have e2 := (hin _ _ _ ha' hb' hl').1
      have e3 := (hin' _ _ _ hc hd' hh).2
      have e4 := (hin _ _ _ hc' hd'' hh').2
      have el : R.lo = R'.lo := BInt.ext (by omega)
      have eh : R.hi = R'.hi := BInt.ext (by omega)
      cases R; cases R'; simp only at el eh; rw [el, eh]

theorem inI_degenerate (s : SInt n) (a : Int) : InI a (.ivl ⟨s, s⟩) ↔ InI a (.scalar s) := by
  simp only [InI]; omega
theorem exactInt2_congr {g : Int → Int → Option Int} {X Y X' Y' : Arg (SInt n)} {r : Outcome (Ivl (SInt n))}
    (hX : ∀ a, InI a X ↔ InI a X') (hY : ∀ a, InI a Y ↔ InI a Y') (h : ExactInt2 g X Y r) : ExactInt2 g X' Y' r := by
  simpa only [ExactInt2, hX, hY] using h

/-- C26: the scalar overloads agree with the interval overload on the degenerate interval. -/
theorem C26_scalar (dbg : Bool) (s : SInt n) (Y : Arg (SInt n)) (hY : Inhab Y) :
    mulI dbg (.scalar s) Y = mulI dbg (.ivl ⟨s, s⟩) Y ∧ mulI dbg Y (.scalar s) = mulI dbg Y (.ivl ⟨s, s⟩) := by
  constructor
  · exact exactInt2_unique (C26_mul dbg _ Y trivial hY)
      (exactInt2_congr (inI_degenerate s) (fun _ => Iff.rfl) (C26_mul dbg (.ivl ⟨s, s⟩) Y (Int.le_refl _) hY))
  · exact exactInt2_unique (C26_mul dbg Y _ hY trivial)
      (exactInt2_congr (fun _ => Iff.rfl) (inI_degenerate s) (C26_mul dbg Y (.ivl ⟨s, s⟩) hY (Int.le_refl _)))

/-- C27: the point quotient of the specification is truncating division, characterised uniquely. -/
theorem C27_quotient (a b q : Int) : divInt a b = some q ↔ b ≠ 0 ∧ IsQuot a b q := by
  unfold divInt
  by_cases hb : b = 0
  · simp [hb]
  · simp only [hb, if_false, Option.some.injEq, ne_eq, not_false_eq_true, true_and]
    constructor
    · rintro rfl; exact isQuot_tdiv a b hb
    · intro h; exact isQuot_unique a b _ _ (isQuot_tdiv a b hb) h

theorem div_ub_of_zero {X Y : Arg (SInt n)} {res : Outcome (Ivl (SInt n))} (hX : Inhab X) (h0 : InI 0 Y) (hr : res = .error .ub) :
    ExactInt2 divInt X Y res := by
  left
  refine ⟨⟨X.lo.val, 0, InI.lo X hX, h0, ?_⟩, hr⟩
  rintro ⟨v, hv, _⟩
  simp [divInt] at hv

/-- C27 division (all three overloads) -/
theorem C27_div (dbg : Bool) (X Y : Arg (SInt n)) (hX : Inhab X) (hY : Inhab Y) :
    ExactInt2 divInt X Y (divI dbg X Y) := by
  have hx := InI.lo X hX; have hx' := InI.hi X hX; have hy := InI.lo Y hY; have hy' := InI.hi Y hY
  have hxy := InI.bounds hx'
  by_cases h0 : InI 0 Y
  · apply div_ub_of_zero hX h0
    unfold divI
    rw [assigned_of_inhab hX, assigned_of_inhab hY, isFloat_sint]
    simp only [Bool.and_self, expectsDebug_true, ok_bind, Bool.false_and, Bool.false_eq_true, if_false, CppNum.div,
      Bool.not_false, Bool.true_and, sint_le, zero_sint]
    split
    · next _ s =>
      obtain ⟨e1, e2⟩ := InI.bounds h0
      rw [decide_eq_true e1, decide_eq_true e2]; rfl
    · next _ s hns =>
      change 0 = s.val at h0
      rw [if_pos h0.symm]; rfl
    · next x y =>
      obtain ⟨e1, e2⟩ := h0
      rw [decide_eq_true e1, decide_eq_true e2]; rfl
  · have hY0 : ¬ (Y.lo.val ≤ 0 ∧ 0 ≤ Y.hi.val) := by
      intro ⟨e1, e2⟩
      apply h0
      cases Y with
      | scalar s => change s.val ≤ 0 at e1; change 0 ≤ s.val at e2; change 0 = s.val; omega
      | ivl y => exact ⟨e1, e2⟩
    have hne : ∀ b, InI b Y → b ≠ 0 := by rintro b hb rfl; exact h0 hb
    have hdec : ∀ c : Bool, (decide (Y.lo.val ≤ 0) && decide (0 ≤ Y.hi.val)) = c → c = false := by
      intro c hc; rw [← hc]; simp; intro h; by_contra h'; exact hY0 ⟨h, by omega⟩
    have hc : ∀ a b, InI a X → InI b Y → _ := fun a b ha hb =>
      corner_bound (fun a b => a.tdiv b) X.lo.val X.hi.val Y.lo.val Y.hi.val
        (fun b h1 h2 => between_tdiv_left b _ _ (by rintro rfl; exact hY0 ⟨h1, h2⟩))
        (fun a _ _ => between_tdiv_right a _ _ hY0) a b
        (InI.bounds ha).1 (InI.bounds ha).2 (InI.bounds hb).1 (InI.bounds hb).2
    have key : ExactInt2 (fun a b => if b ≠ 0 then some (a.tdiv b) else none) X Y (divI dbg X Y) := by
      refine exact_of_corners (fun a b => a.tdiv b) (fun _ b => b ≠ 0) X Y _ (fun _ b _ hb => hne b hb)
        [(X.lo.val, Y.lo.val), (X.lo.val, Y.hi.val), (X.hi.val, Y.lo.val), (X.hi.val, Y.hi.val)]
        (by simp [hx, hx', hy, hy']) ?_
      unfold divI
      rw [assigned_of_inhab hX, assigned_of_inhab hY, isFloat_sint]
      simp only [Bool.and_self, expectsDebug_true, ok_bind, Bool.false_and, Bool.false_eq_true, if_false, CppNum.div,
        Bool.not_false, Bool.true_and, sint_le, zero_sint]
      split
      · next _ s =>
        rw [hdec _ rfl, if_neg (by decide), if_neg (hne _ hy), if_neg (hne _ hy')]
        simp only [alo_s, ahi_s, alo_i, ahi_i] at hc ⊢
        rcases prog2 n (s.val.tdiv Y.lo.val) (s.val.tdiv Y.hi.val) with ⟨h, he⟩ | ⟨h1, h2, R, he, hl, hh⟩
        · left; refine ⟨?_, he⟩
          simp only [List.mem_cons, List.not_mem_nil, or_false, exists_eq_or_imp, exists_eq_left]
          tauto
        · right
          refine ⟨?_, R, he, ?_, ?_, fun a b ha hb => ?_⟩
          · simp only [List.mem_cons, List.not_mem_nil, or_false, forall_eq_or_imp, forall_eq]; tauto
          · simp only [List.mem_cons, List.not_mem_nil, or_false, exists_eq_or_imp, exists_eq_left]; omega
          · simp only [List.mem_cons, List.not_mem_nil, or_false, exists_eq_or_imp, exists_eq_left]; omega
          · have := hc a b ha hb; rw [hl, hh]; omega
      · next _ s hns =>
        have hs : s.val ≠ 0 := hne _ hy
        simp only [hs, if_false]
        simp only [alo_s, ahi_s, alo_i, ahi_i] at hc ⊢
        rcases prog2 n (X.lo.val.tdiv s.val) (X.hi.val.tdiv s.val) with ⟨h, he⟩ | ⟨h1, h2, R, he, hl, hh⟩
        · left; refine ⟨?_, he⟩
          simp only [List.mem_cons, List.not_mem_nil, or_false, exists_eq_or_imp, exists_eq_left]
          tauto
        · right
          refine ⟨?_, R, he, ?_, ?_, fun a b ha hb => ?_⟩
          · simp only [List.mem_cons, List.not_mem_nil, or_false, forall_eq_or_imp, forall_eq]; tauto
          · simp only [List.mem_cons, List.not_mem_nil, or_false, exists_eq_or_imp, exists_eq_left]; omega
          · simp only [List.mem_cons, List.not_mem_nil, or_false, exists_eq_or_imp, exists_eq_left]; omega
          · have := hc a b ha hb; rw [hl, hh]; omega
      · next x y =>
        have hy1 : y.lo.val ≠ 0 := hne _ hy
        have hy2 : y.hi.val ≠ 0 := hne _ hy'
        rw [hdec (decide (y.lo.val ≤ 0) && decide (0 ≤ y.hi.val)) rfl]
        simp only [Bool.false_eq_true, if_false, hy1, hy2]
        simp only [alo_s, ahi_s, alo_i, ahi_i] at hc ⊢
        rcases prog4 n (x.lo.val.tdiv y.lo.val) (x.lo.val.tdiv y.hi.val) (x.hi.val.tdiv y.lo.val) (x.hi.val.tdiv y.hi.val) with
          ⟨h, he⟩ | ⟨h1, h2, h3, h4, R, he, hl, hh⟩
        · left; refine ⟨?_, he⟩
          simp only [List.mem_cons, List.not_mem_nil, or_false, exists_eq_or_imp, exists_eq_left]
          exact h
        · right
          refine ⟨?_, R, he, ?_, ?_, fun a b ha hb => ?_⟩
          · simp only [List.mem_cons, List.not_mem_nil, or_false, forall_eq_or_imp, forall_eq]; tauto
          · simp only [List.mem_cons, List.not_mem_nil, or_false, exists_eq_or_imp, exists_eq_left]; omega
          · simp only [List.mem_cons, List.not_mem_nil, or_false, exists_eq_or_imp, exists_eq_left]; omega
          · have := hc a b ha hb; rw [hl, hh]; omega
    have e : (fun a b : Int => if b ≠ 0 then some (a.tdiv b) else none) = divInt := by
      funext a b; unfold divInt; by_cases h : b = 0 <;> simp [h]
    rwa [e] at key

/-- C27: the scalar overloads agree with the interval overload on the degenerate interval. -/
theorem C27_scalar (dbg : Bool) (s : SInt n) (Y : Arg (SInt n)) (hY : Inhab Y) :
    divI dbg (.scalar s) Y = divI dbg (.ivl ⟨s, s⟩) Y ∧ divI dbg Y (.scalar s) = divI dbg Y (.ivl ⟨s, s⟩) := by
  constructor
  · exact exactInt2_unique (C27_div dbg _ Y trivial hY)
      (exactInt2_congr (inI_degenerate s) (fun _ => Iff.rfl) (C27_div dbg (.ivl ⟨s, s⟩) Y (Int.le_refl _) hY))
  · exact exactInt2_unique (C27_div dbg Y _ hY trivial)
      (exactInt2_congr (fun _ => Iff.rfl) (inI_degenerate s) (C27_div dbg Y (.ivl ⟨s, s⟩) hY (Int.le_refl _)))

/-! ## C28 -/

theorem sq_le_max {l h a : Int} (h1 : l ≤ a) (h2 : a ≤ h) : a * a ≤ max (l * l) (h * h) := by
  rcases Int.le_total 0 a with ha | ha
  · have : a * a ≤ h * h := mul_le_mul h2 h2 ha (by omega)
    omega
  · have : a * a ≤ l * l := by nlinarith
    omega
theorem min_le_sq {l h a : Int} (h1 : l ≤ a) (h2 : a ≤ h) (h0 : ¬ (l ≤ 0 ∧ 0 ≤ h)) : min (l * l) (h * h) ≤ a * a := by
  by_cases hl : l ≤ 0
  · have : h < 0 := by omega
    have : h * h ≤ a * a := by nlinarith
    omega
  · have : l * l ≤ a * a := by nlinarith
    omega
theorem rep_zero : Rep n 0 := by
  have : (0:Int) < 2^n := Int.pow_pos (by decide)
  exact ⟨by omega, this⟩

theorem zero_in {X : Ivl (SInt n)} (h : X.lo.val ≤ 0 ∧ 0 ≤ X.hi.val) : (le X.lo zero && ge X.hi zero) = true := by
  simp only [sint_le, CppVal.ge, zero_sint, h.1, h.2]; rfl
theorem zero_notin {X : Ivl (SInt n)} (h : ¬ (X.lo.val ≤ 0 ∧ 0 ≤ X.hi.val)) : (le X.lo zero && ge X.hi zero) = false := by
  simp only [sint_le, CppVal.ge, zero_sint, ← Bool.decide_and, h]; rfl

/-- C28 square -/
theorem C28_square (dbg : Bool) (X : Ivl (SInt n)) (hX : Inhab (.ivl X)) :
    ExactInt1 (fun a => some (a * a)) X (squareI dbg X) := by
  apply exact1_of_ends
  have ha : X.assigned = true := assigned_of_inhab hX
  change X.lo.val ≤ X.hi.val at hX
  have il : InI X.lo.val (.ivl X) := ⟨Int.le_refl _, hX⟩
  have ih : InI X.hi.val (.ivl X) := ⟨hX, Int.le_refl _⟩
  unfold squareI
  rw [ha]
  simp only [expectsDebug_true, ok_bind, CppNum.mul]
  by_cases h1 : Rep n (X.lo.val * X.lo.val)
  · by_cases h2 : Rep n (X.hi.val * X.hi.val)
    · right
      rw [SInt.of_ok h1, SInt.of_ok h2]
      simp only [ok_bind, pure, Except.pure]
      by_cases h0 : X.lo.val ≤ 0 ∧ 0 ≤ X.hi.val
      · rw [zero_in h0]
        simp only [if_true, ok_bind]
        have hs := mul_self_nonneg X.lo.val
        rw [sint_make _ _ (by rw [sint_cmax, zero_sint]; simp only; omega)]
        refine ⟨_, rfl, ⟨0, h0, by simp [zero_sint]⟩, ?_, fun a ha => ?_⟩
        · simp only [sint_cmax]
          rcases Int.le_total (X.lo.val * X.lo.val) (X.hi.val * X.hi.val) with h | h
          · exact ⟨_, ih, by omega⟩
          · exact ⟨_, il, by omega⟩
        · simp only [sint_cmax, zero_sint]
          exact ⟨mul_self_nonneg a, sq_le_max ha.1 ha.2⟩
      · rw [zero_notin h0]
        simp only [Bool.false_eq_true, if_false, ok_bind]
        rw [sint_make _ _ (by rw [sint_cmax, sint_cmin]; simp only; omega)]
        refine ⟨_, rfl, ?_, ?_, fun a ha => ?_⟩
        · simp only [sint_cmin]
          rcases Int.le_total (X.lo.val * X.lo.val) (X.hi.val * X.hi.val) with h | h
          · exact ⟨_, il, by omega⟩
          · exact ⟨_, ih, by omega⟩
        · simp only [sint_cmax]
          rcases Int.le_total (X.lo.val * X.lo.val) (X.hi.val * X.hi.val) with h | h
          · exact ⟨_, ih, by omega⟩
          · exact ⟨_, il, by omega⟩
        · simp only [sint_cmax, sint_cmin]
          exact ⟨min_le_sq ha.1 ha.2 h0, sq_le_max ha.1 ha.2⟩
    · left; refine ⟨⟨_, ih, h2⟩, ?_⟩
      rw [SInt.of_ok h1, SInt.of_ub h2]
      cases (le X.lo zero && ge X.hi zero) <;> rfl
  · left; refine ⟨⟨_, il, h1⟩, ?_⟩
    rw [SInt.of_ub h1]
    cases (le X.lo zero && ge X.hi zero) <;> rfl

theorem cube_mono {a b : Int} (h : a ≤ b) : a * a * a ≤ b * b * b := by
  rcases Int.le_total 0 a with ha | ha
  · have h1 : a * a ≤ b * b := mul_le_mul h h ha (by omega)
    exact mul_le_mul h1 h ha (by nlinarith)
  · rcases Int.le_total 0 b with hb | hb
    · have : a * a * a ≤ 0 := by nlinarith [mul_self_nonneg a]
      have : 0 ≤ b * b * b := by positivity
      omega
    · have h1 : b * b ≤ a * a := by nlinarith
      nlinarith [mul_self_nonneg a, mul_self_nonneg b]

/-- C28 cube: the point operation `a*a*a` is defined iff `a*a` and `a*a*a` are representable. -/
theorem C28_cube (dbg : Bool) (X : Ivl (SInt n)) (hX : Inhab (.ivl X)) :
    ExactInt1 (fun a => if Rep n (a * a) then some (a * a * a) else none) X (cubeI dbg X) := by
  have ha : X.assigned = true := assigned_of_inhab hX
  change X.lo.val ≤ X.hi.val at hX
  have il : InI X.lo.val (.ivl X) := ⟨Int.le_refl _, hX⟩
  have ih : InI X.hi.val (.ivl X) := ⟨hX, Int.le_refl _⟩
  have nd : ∀ a, (¬ Rep n (a * a) ∨ ¬ Rep n (a * a * a)) →
      ¬ Def1 n (fun a => if Rep n (a * a) then some (a * a * a) else none) a := by
    rintro a h ⟨v, hv, hr⟩
    simp only at hv
    split at hv
    · next h' => cases hv; rcases h with h | h <;> contradiction
    · cases hv
  unfold cubeI
  rw [ha]
  simp only [expectsDebug_true, ok_bind, CppNum.mul]
  by_cases h1 : Rep n (X.lo.val * X.lo.val)
  · rw [SInt.of_ok h1]; simp only [ok_bind]
    by_cases h2 : Rep n (X.lo.val * X.lo.val * X.lo.val)
    · rw [SInt.of_ok h2]; simp only [ok_bind]
      by_cases h3 : Rep n (X.hi.val * X.hi.val)
      · rw [SInt.of_ok h3]; simp only [ok_bind]
        by_cases h4 : Rep n (X.hi.val * X.hi.val * X.hi.val)
        · rw [SInt.of_ok h4]; simp only [ok_bind]
          rw [sint_make _ _ (by simp only; exact cube_mono hX)]
          have hd : ∀ a, InI a (.ivl X) → Rep n (a * a) := by
            intro a ⟨l, r⟩
            have := sq_le_max l r
            have := mul_self_nonneg a
            have e1 := h1.2; have e3 := h3.2; have e0 := (rep_zero (n := n)).1
            exact ⟨by omega, by omega⟩
          right
          refine ⟨fun a ha => ⟨a * a * a, by simp [hd a ha], ?_⟩, _, rfl, fun a v ha hv => ?_,
            ⟨_, il, by simp [h1]⟩, ⟨_, ih, by simp [h3]⟩⟩
          · have := cube_mono ha.1; have := cube_mono ha.2
            exact ⟨by have := h2.1; omega, by have := h4.2; omega⟩
          · simp only [hd a ha, if_true, Option.some.injEq] at hv
            subst hv
            exact ⟨cube_mono ha.1, cube_mono ha.2⟩
        · left; exact ⟨⟨_, ih, nd _ (Or.inr h4)⟩, by rw [SInt.of_ub h4]; rfl⟩
      · left; exact ⟨⟨_, ih, nd _ (Or.inl h3)⟩, by rw [SInt.of_ub h3]; rfl⟩
    · left; exact ⟨⟨_, il, nd _ (Or.inr h2)⟩, by rw [SInt.of_ub h2]; rfl⟩
  · left; exact ⟨⟨_, il, nd _ (Or.inl h1)⟩, by rw [SInt.of_ub h1]; rfl⟩

/-- C28 abs -/
theorem C28_abs (dbg : Bool) (X : Ivl (SInt n)) (hX : Inhab (.ivl X)) :
    ExactInt1 (fun a => some (a.natAbs : Int)) X (absI dbg X) := by
  apply exact1_of_ends
  have ha : X.assigned = true := assigned_of_inhab hX
  change X.lo.val ≤ X.hi.val at hX
  have il : InI X.lo.val (.ivl X) := ⟨Int.le_refl _, hX⟩
  have ih : InI X.hi.val (.ivl X) := ⟨hX, Int.le_refl _⟩
  unfold absI
  rw [ha]
  simp only [expectsDebug_true, ok_bind, CppNum.neg]
  by_cases h0 : X.lo.val ≤ 0 ∧ 0 ≤ X.hi.val
  · rw [zero_in h0]
    simp only [if_true]
    by_cases h1 : Rep n (-X.lo.val)
    · rw [SInt.of_ok h1]; simp only [ok_bind]
      rw [sint_make _ _ (by rw [sint_cmax, zero_sint]; simp only; omega)]
      right
      refine ⟨_, rfl, ⟨0, h0, by simp [zero_sint]⟩, ?_, fun a ha => ?_⟩
      · simp only [sint_cmax]
        rcases Int.le_total (-X.lo.val) X.hi.val with h | h
        · exact ⟨_, ih, by omega⟩
        · exact ⟨_, il, by omega⟩
      · obtain ⟨_, _⟩ := ha
        simp only [sint_cmax, zero_sint]; omega
    · left; exact ⟨⟨_, il, by rw [show (X.lo.val.natAbs : Int) = -X.lo.val by omega]; exact h1⟩, by rw [SInt.of_ub h1]; rfl⟩
  · rw [zero_notin h0]
    simp only [Bool.false_eq_true, if_false]
    by_cases hl : X.lo.val < 0
    · rw [show lt X.lo zero = true from decide_eq_true hl]
      simp only [if_true]
      rcases progBounds n (-X.hi.val) (-X.lo.val) (by omega) with ⟨h, he⟩ | ⟨h1, h2, R, he, hl', hh⟩
      · left
        refine ⟨?_, he⟩
        rcases h with h | h
        · exact ⟨_, ih, by rw [show (X.hi.val.natAbs : Int) = -X.hi.val by omega]; exact h⟩
        · exact ⟨_, il, by rw [show (X.lo.val.natAbs : Int) = -X.lo.val by omega]; exact h⟩
      · right
        refine ⟨R, he, ⟨_, ih, by omega⟩, ⟨_, il, by omega⟩, fun a ha => ?_⟩
        obtain ⟨_, _⟩ := ha
        rw [hl', hh]; omega
    · rw [show lt X.lo zero = false from decide_eq_false hl]
      right
      refine ⟨X, rfl, ⟨_, il, by omega⟩, ⟨_, ih, by omega⟩, fun a ha => ?_⟩
      obtain ⟨_, _⟩ := ha
      omega

/-- C28 sgn: the result is exactly the set of signs of the points; no undefined behaviour. -/
theorem C28_sgn (dbg : Bool) (X : Ivl (SInt n)) (hX : Inhab (.ivl X)) :
    ∃ R, sgnI dbg X = .ok R ∧ ∀ s, SMem s R ↔ ∃ a, InI a (.ivl X) ∧ sgnInt a = s := by
  obtain ⟨R, hR, hp, hn, hz⟩ := sgnI_spec dbg X (assigned_of_inhab hX)
  change X.lo.val ≤ X.hi.val at hX
  refine ⟨R, hR, fun s => ?_⟩
  simp only [sint_le, sint_lt, CppVal.ge, CppVal.gt, zero_sint, Bool.and_eq_true, decide_eq_true_eq] at hp hn hz
  cases s
  · rw [hn]
    constructor
    · intro h; exact ⟨_, ⟨Int.le_refl _, hX⟩, by unfold sgnInt; rw [if_pos h]⟩
    · rintro ⟨a, ⟨h1, h2⟩, hs⟩
      unfold sgnInt at hs; split at hs
      · omega
      · split at hs <;> cases hs
  · rw [hz]
    constructor
    · intro h; exact ⟨0, h, rfl⟩
    · rintro ⟨a, ⟨h1, h2⟩, hs⟩
      unfold sgnInt at hs; split at hs
      · cases hs
      · split at hs
        · cases hs
        · omega
  · rw [hp]
    constructor
    · intro h; exact ⟨_, ⟨hX, Int.le_refl _⟩, by unfold sgnInt; rw [if_neg (by omega), if_pos h]⟩
    · rintro ⟨a, ⟨h1, h2⟩, hs⟩
      unfold sgnInt at hs; split at hs
      · cases hs
      · split at hs
        · omega
        · cases hs

/-- C28: the scalar functions compute the point operations of the theorems above. -/
theorem C28_scalar (x : SInt n) :
    (∀ v, squareV x = .ok v ↔ v.val = x.val * x.val) ∧
    (∀ v, cubeV x = .ok v ↔ Rep n (x.val * x.val) ∧ v.val = x.val * x.val * x.val) ∧
    (∀ v, SInt.abs x = .ok v ↔ v.val = (x.val.natAbs : Int)) ∧
    (squareV x ≠ .error .contract ∧ cubeV x ≠ .error .contract ∧ SInt.abs x ≠ .error .contract) := by
  have of_iff : ∀ w (v : SInt n), SInt.of n w = .ok v ↔ v.val = w := by
    intro w v
    by_cases h : Rep n w
    · rw [SInt.of_ok h]
      constructor
      · rintro ⟨⟩; rfl
      · rintro h'; subst h'; rfl
    · rw [SInt.of_ub h]
      constructor
      · intro h'; cases h'
      · intro h'; exact absurd (h' ▸ v.rep) h
  have of_nc : ∀ w, SInt.of n w ≠ .error .contract := by
    intro w
    by_cases h : Rep n w
    · rw [SInt.of_ok h]; simp
    · rw [SInt.of_ub h]; simp
  refine ⟨fun v => of_iff _ v, fun v => ?_, fun v => ?_, of_nc _, ?_, ?_⟩
  · unfold cubeV
    simp only [CppNum.mul]
    by_cases h : Rep n (x.val * x.val)
    · rw [SInt.of_ok h]; simp only [ok_bind, h, true_and]; exact of_iff _ v
    · rw [SInt.of_ub h]; simp [h]
  · unfold SInt.abs
    split
    · next h => rw [of_iff]; omega
    · next h =>
      constructor
      · rintro ⟨⟩; omega
      · intro h; rw [BInt.ext (a := x) (b := v) (by omega)]
  · unfold cubeV
    simp only [CppNum.mul]
    by_cases h : Rep n (x.val * x.val)
    · rw [SInt.of_ok h]; exact of_nc _
    · rw [SInt.of_ub h]; simp
  · unfold SInt.abs
    split
    · exact of_nc _
    · simp

/-- a binary result with a scalar operand is a unary result -/
theorem exactInt1_of_scalar {g : Int → Int → Option Int} {s : SInt n} {X : Ivl (SInt n)} {r : Outcome (Ivl (SInt n))}
    (h : ExactInt2 g (.scalar s) (.ivl X) r) : ExactInt1 (fun a => g s.val a) X r := by
  rcases h with ⟨⟨a, b, rfl, hb, hn⟩, h⟩ | ⟨hd, R, hR, hin, ⟨a, b, rfl, hb, hl⟩, ⟨c, d, rfl, hd', hh⟩⟩
  · left; exact ⟨⟨b, hb, hn⟩, h⟩
  · right; exact ⟨fun a ha => hd _ a rfl ha, R, hR, fun a v ha hv => hin _ a v rfl ha hv, ⟨b, hb, hl⟩, ⟨d, hd', hh⟩⟩
theorem exactInt1_of_scalar' {g : Int → Int → Option Int} {s : SInt n} {X : Ivl (SInt n)} {r : Outcome (Ivl (SInt n))}
    (h : ExactInt2 g (.ivl X) (.scalar s) r) : ExactInt1 (fun a => g a s.val) X r := by
  rcases h with ⟨⟨a, b, ha, rfl, hn⟩, h⟩ | ⟨hd, R, hR, hin, ⟨a, b, ha, rfl, hl⟩, ⟨c, d, hc, rfl, hh⟩⟩
  · left; exact ⟨⟨a, ha, hn⟩, h⟩
  · right; exact ⟨fun a ha => hd a _ ha rfl, R, hR, fun a v ha hv => hin a _ v ha rfl hv, ⟨a, ha, hl⟩, ⟨c, hc, hh⟩⟩

theorem signVal_int (hn : 1 ≤ n) (s : Sign) : ∃ v : SInt n, signVal s = .ok v ∧ ∀ a, v.val * a = signMulInt s a ∧ a * v.val = signMulInt s a := by
  have h1 : (CppNum.one : SInt n).val = 1 := by
    change (if n = 0 then (0:Int) else 1) = 1
    rw [if_neg (by omega)]
  have h2 : Rep n (-1) := by
    have : (0:Int) < 2^n := Int.pow_pos (by decide)
    exact ⟨by omega, by omega⟩
  cases s
  · have : (CppNum.neg (CppNum.one : SInt n)) = SInt.of n (-1) := by change SInt.of n (-(CppNum.one : SInt n).val) = _; rw [h1]
    refine ⟨⟨-1, h2.1, by have := h2.2; omega⟩, by unfold signVal; rw [this, SInt.of_ok h2], fun a => ⟨?_, ?_⟩⟩ <;>
      simp [signMulInt]
  · exact ⟨_, rfl, fun a => by simp [signMulInt, zero_sint]⟩
  · exact ⟨_, rfl, fun a => by simp [signMulInt, h1]⟩

/-- C28: the product of a sign and an interval is exact. -/
theorem C28_sign_mul (hn : 1 ≤ n) (dbg : Bool) (s : Sign) (X : Ivl (SInt n)) (hX : Inhab (.ivl X)) :
    ExactInt1 (fun a => some (signMulInt s a)) X (signMulI dbg s X) ∧
    ExactInt1 (fun a => some (signMulInt s a)) X (mulSignI dbg X s) := by
  obtain ⟨v, hv, he⟩ := signVal_int hn s
  unfold signMulI mulSignI
  rw [hv]
  simp only [ok_bind]
  constructor
  · have := exactInt1_of_scalar (C26_mul dbg (.scalar v) (.ivl X) trivial hX)
    simpa only [he] using this
  · have := exactInt1_of_scalar' (C26_mul dbg (.ivl X) (.scalar v) hX trivial)
    simpa only [he] using this
/-- C28: the product of a sign and a scalar. -/
theorem C28_sign_mul_scalar (hn : 1 ≤ n) (s : Sign) (x : SInt n) :
    valMulSign x s = SInt.of n (signMulInt s x.val) ∧ signMulVal s x = SInt.of n (signMulInt s x.val) := by
  obtain ⟨v, hv, he⟩ := signVal_int hn s
  unfold valMulSign signMulVal
  rw [hv]
  simp only [ok_bind, CppNum.mul, he, and_self]

theorem neg_cases (dbg : Bool) (X : Ivl (SInt n)) (hX : Inhab (.ivl X)) :
    ((∃ a, InI a (.ivl X) ∧ ¬ Rep n (-a)) ∧ negI dbg X = .error .ub) ∨
    ((∀ a, InI a (.ivl X) → Rep n (-a)) ∧ ∃ R, negI dbg X = .ok R ∧ R.lo.val = -X.hi.val ∧ R.hi.val = -X.lo.val) := by
  have hd : ∀ a, Def1 n (fun a => some (-a)) a ↔ Rep n (-a) := fun a =>
    ⟨fun ⟨v, hv, hr⟩ => by cases hv; exact hr, fun h => ⟨_, rfl, h⟩⟩
  change X.lo.val ≤ X.hi.val at hX
  rcases C25_neg dbg X hX with ⟨⟨a, ha, hn⟩, he⟩ | ⟨hd', R, hR, hin, ⟨a, ha, hl⟩, ⟨b, hb, hh⟩⟩
  · left; exact ⟨⟨a, ha, fun h => hn ((hd a).mpr h)⟩, he⟩
  · right
    refine ⟨fun a ha => (hd a).mp (hd' a ha), R, hR, ?_, ?_⟩
    · have e1 := hin X.hi.val _ ⟨hX, Int.le_refl _⟩ rfl
      have := ha.1; have := ha.2
      simp only [Option.some.injEq] at hl; omega
    · have e1 := hin X.lo.val _ ⟨Int.le_refl _, hX⟩ rfl
      have := hb.1; have := hb.2
      simp only [Option.some.injEq] at hh; omega

theorem sint_assign (r X : Ivl (SInt n)) (hX : Inhab (.ivl X)) :
    ∃ R, Ivl.assign r X = .ok R ∧ R.lo.val = min r.lo.val X.lo.val ∧ R.hi.val = max r.hi.val X.hi.val := by
  unfold Ivl.assign
  rw [show X.assigned = true from assigned_of_inhab hX]
  exact ⟨_, rfl, sint_cmin _ _, sint_cmax _ _⟩

/-- C28: the product of a set of signs and an interval is the hull of all products (unassigned if the set is empty); it is undefined
iff the set contains the negative sign and some point cannot be negated. -/
theorem C28_signset_mul (dbg : Bool) (S : SignSet) (X : Ivl (SInt n)) (hX : Inhab (.ivl X)) (res : Outcome (Ivl (SInt n)))
    (hres : res = signSetMulI dbg S X ∨ res = mulSignSetI dbg X S) :
    ((SMem .neg S ∧ ∃ a, InI a (.ivl X) ∧ ¬ Rep n (-a)) ∧ res = .error .ub) ∨
    ((SMem .neg S → ∀ a, InI a (.ivl X) → Rep n (-a)) ∧ ∃ R, res = .ok R ∧
      ((∀ s, ¬ SMem s S) → R.assigned = false) ∧
      (∀ s a, SMem s S → InI a (.ivl X) → R.lo.val ≤ signMulInt s a ∧ signMulInt s a ≤ R.hi.val) ∧
      ((∃ s, SMem s S) →
        (∃ s a, SMem s S ∧ InI a (.ivl X) ∧ signMulInt s a = R.lo.val) ∧
        (∃ s a, SMem s S ∧ InI a (.ivl X) ∧ signMulInt s a = R.hi.val))) := by
  have hr : res = signSetMulI dbg S X := by rcases hres with h | h <;> exact h
  subst hr
  rw [signSetMulI_spec]
  have hp2 : (0:Int) < 2^n := Int.pow_pos (by decide)
  have hX' : X.lo.val ≤ X.hi.val := hX
  have il : InI X.lo.val (.ivl X) := ⟨Int.le_refl _, hX'⟩
  have ih : InI X.hi.val (.ivl X) := ⟨hX', Int.le_refl _⟩
  have l1 := X.lo.ge; have l2 := X.lo.le; have h1 := X.hi.ge; have h2 := X.hi.le
  have u1 : (Ivl.unassigned : Ivl (SInt n)).lo.val = 2^n - 1 := rfl
  have u2 : (Ivl.unassigned : Ivl (SInt n)).hi.val = -2^n := rfl
  -- the positive part
  have P : ∃ R, (if SMem .pos S then Ivl.assign Ivl.unassigned X else pure (Ivl.unassigned : Ivl (SInt n))) = .ok R ∧
      ((SMem .pos S → R.lo.val = X.lo.val ∧ R.hi.val = X.hi.val) ∧ (¬ SMem .pos S → R.lo.val = 2^n - 1 ∧ R.hi.val = -2^n)) := by
    by_cases hp : SMem .pos S
    · rw [if_pos hp]
      obtain ⟨R, hR, e1, e2⟩ := sint_assign Ivl.unassigned X hX
      exact ⟨R, hR, fun _ => ⟨by omega, by omega⟩, fun h => absurd hp h⟩
    · rw [if_neg hp]; exact ⟨_, rfl, fun h => absurd h hp, fun _ => ⟨rfl, rfl⟩⟩
  obtain ⟨R1, hR1, p1, p2⟩ := P
  rw [hR1]; simp only [ok_bind]
  rcases neg_cases dbg X hX with ⟨hn, he⟩ | ⟨hn, N, hN, n1, n2⟩
  · by_cases hm : SMem .neg S
    · left; refine ⟨⟨hm, hn⟩, ?_⟩
      rw [if_pos hm, he]; rfl
    · right
      refine ⟨fun h => absurd h hm, ?_⟩
      rw [if_neg hm]
      simp only [pure, Except.pure, ok_bind]
      by_cases hz : SMem .zero S
      · rw [if_pos hz]
        refine ⟨_, rfl, fun h => absurd hz (h _), ?_, fun _ => ?_⟩
        · intro s a hs ⟨ha1, ha2⟩
          simp only [Ivl.assignVal, Ivl.assignCore, sint_cmin, sint_cmax, zero_sint]
          cases s
          · exact absurd hs hm
          · simp only [signMulInt]; omega
          · simp only [signMulInt]; have := p1 hs; omega
        · simp only [Ivl.assignVal, Ivl.assignCore, sint_cmin, sint_cmax, zero_sint]
          by_cases hp : SMem .pos S
          · have := p1 hp
            constructor
            · rcases Int.le_total R1.lo.val 0 with h | h
              · exact ⟨.pos, _, hp, il, by simp only [signMulInt]; omega⟩
              · exact ⟨.zero, _, hz, il, by simp only [signMulInt]; omega⟩
            · rcases Int.le_total R1.hi.val 0 with h | h
              · exact ⟨.zero, _, hz, il, by simp only [signMulInt]; omega⟩
              · exact ⟨.pos, _, hp, ih, by simp only [signMulInt]; omega⟩
          · have := p2 hp
            exact ⟨⟨.zero, _, hz, il, by simp only [signMulInt]; omega⟩, ⟨.zero, _, hz, il, by simp only [signMulInt]; omega⟩⟩
      · rw [if_neg hz]
        refine ⟨R1, rfl, fun h => ?_, ?_, fun ⟨s, hs⟩ => ?_⟩
        · have := p2 (h _)
          simp only [Ivl.assigned, CppVal.gt, sint_lt]
          rw [decide_eq_true (by omega)]; rfl
        · intro s a hs ⟨ha1, ha2⟩
          cases s
          · exact absurd hs hm
          · exact absurd hs hz
          · simp only [signMulInt]; have := p1 hs; omega
        · cases s
          · exact absurd hs hm
          · exact absurd hs hz
          · have := p1 hs
            exact ⟨⟨.pos, _, hs, il, by simp only [signMulInt]; omega⟩, ⟨.pos, _, hs, ih, by simp only [signMulInt]; omega⟩⟩
  · right
    refine ⟨fun _ => hn, ?_⟩
    have Q : ∃ R, (if SMem .neg S then (negI dbg X >>= fun m => Ivl.assign R1 m) else pure R1) = .ok R ∧
        ((SMem .neg S → R.lo.val = min R1.lo.val (-X.hi.val) ∧ R.hi.val = max R1.hi.val (-X.lo.val)) ∧
         (¬ SMem .neg S → R = R1)) := by
      by_cases hm : SMem .neg S
      · rw [if_pos hm, hN]
        obtain ⟨R, hR, e1, e2⟩ := sint_assign R1 N (show N.lo.val ≤ N.hi.val by omega)
        exact ⟨R, hR, fun _ => ⟨by omega, by omega⟩, fun h => absurd hm h⟩
      · rw [if_neg hm]; exact ⟨_, rfl, fun h => absurd h hm, fun _ => rfl⟩
    obtain ⟨R2, hR2, q1, q2⟩ := Q
    rw [hR2]; simp only [ok_bind, pure, Except.pure]
    have hlo : (SMem .pos S ∨ SMem .neg S) → ∃ s a, SMem s S ∧ InI a (.ivl X) ∧ signMulInt s a = R2.lo.val := by
      intro h
      by_cases hp : SMem .pos S
      · have a1 := p1 hp
        by_cases hm : SMem .neg S
        · have a2 := q1 hm
          rcases Int.le_total R1.lo.val (-X.hi.val) with h | h
          · exact ⟨.pos, _, hp, il, by simp only [signMulInt]; omega⟩
          · exact ⟨.neg, _, hm, ih, by simp only [signMulInt]; omega⟩
        · have a2 := q2 hm; subst a2
          exact ⟨.pos, _, hp, il, by simp only [signMulInt]; omega⟩
      · have a1 := p2 hp
        have hm : SMem .neg S := by tauto
        have a2 := q1 hm
        have := (hn _ ih).1; have := (hn _ ih).2
        exact ⟨.neg, _, hm, ih, by simp only [signMulInt]; omega⟩
    have hhi : (SMem .pos S ∨ SMem .neg S) → ∃ s a, SMem s S ∧ InI a (.ivl X) ∧ signMulInt s a = R2.hi.val := by
      intro h
      by_cases hp : SMem .pos S
      · have a1 := p1 hp
        by_cases hm : SMem .neg S
        · have a2 := q1 hm
          rcases Int.le_total R1.hi.val (-X.lo.val) with h | h
          · exact ⟨.neg, _, hm, il, by simp only [signMulInt]; omega⟩
          · exact ⟨.pos, _, hp, ih, by simp only [signMulInt]; omega⟩
        · have a2 := q2 hm; subst a2
          exact ⟨.pos, _, hp, ih, by simp only [signMulInt]; omega⟩
      · have a1 := p2 hp
        have hm : SMem .neg S := by tauto
        have a2 := q1 hm
        have := (hn _ il).1; have := (hn _ il).2
        exact ⟨.neg, _, hm, il, by simp only [signMulInt]; omega⟩
    have hin : ∀ s a, SMem s S → InI a (.ivl X) → s ≠ .zero → R2.lo.val ≤ signMulInt s a ∧ signMulInt s a ≤ R2.hi.val := by
      intro s a hs ⟨ha1, ha2⟩ hz
      cases s
      · have := q1 hs; simp only [signMulInt]; omega
      · exact absurd rfl hz
      · have a1 := p1 hs; simp only [signMulInt]
        by_cases hm : SMem .neg S
        · have := q1 hm; omega
        · have a2 := q2 hm; subst a2; omega
    by_cases hz : SMem .zero S
    · rw [if_pos hz]
      refine ⟨_, rfl, fun h => absurd hz (h _), ?_, fun _ => ?_⟩
      · intro s a hs ha
        simp only [Ivl.assignVal, Ivl.assignCore, sint_cmin, sint_cmax, zero_sint]
        by_cases h0 : s = .zero
        · subst h0; simp only [signMulInt]; omega
        · have := hin s a hs ha h0; omega
      · simp only [Ivl.assignVal, Ivl.assignCore, sint_cmin, sint_cmax, zero_sint]
        by_cases hpm : SMem .pos S ∨ SMem .neg S
        · obtain ⟨s, a, hs, ha, hv⟩ := hlo hpm
          obtain ⟨s', a', hs', ha', hv'⟩ := hhi hpm
          constructor
          · rcases Int.le_total R2.lo.val 0 with h | h
            · exact ⟨s, a, hs, ha, by omega⟩
            · exact ⟨.zero, _, hz, il, by simp only [signMulInt]; omega⟩
          · rcases Int.le_total R2.hi.val 0 with h | h
            · exact ⟨.zero, _, hz, il, by simp only [signMulInt]; omega⟩
            · exact ⟨s', a', hs', ha', by omega⟩
        · push Not at hpm
          have a2 := q2 hpm.2; subst a2
          have := p2 hpm.1
          exact ⟨⟨.zero, _, hz, il, by simp only [signMulInt]; omega⟩, ⟨.zero, _, hz, il, by simp only [signMulInt]; omega⟩⟩
    · rw [if_neg hz]
      refine ⟨R2, rfl, fun h => ?_, ?_, fun ⟨s, hs⟩ => ?_⟩
      · have a2 := q2 (h _); subst a2
        have := p2 (h _)
        simp only [Ivl.assigned, CppVal.gt, sint_lt]
        rw [decide_eq_true (by omega)]; rfl
      · intro s a hs ha
        exact hin s a hs ha (by rintro rfl; exact hz hs)
      · have : SMem .pos S ∨ SMem .neg S := by
          cases s
          · exact Or.inr hs
          · exact absurd hs hz
          · exact Or.inl hs
        exact ⟨hlo this, hhi this⟩

/-- C28: the product of a scalar and a set of signs is the hull of all products (unassigned if the set is empty). -/
theorem C28_signset_mul_scalar (S : SignSet) (x : SInt n) (res : Outcome (Ivl (SInt n)))
    (hres : res = valMulSignSet x S ∨ res = signSetMulVal S x) :
    ((SMem .neg S ∧ ¬ Rep n (-x.val)) ∧ res = .error .ub) ∨
    ((SMem .neg S → Rep n (-x.val)) ∧ ∃ R, res = .ok R ∧
      ((∀ s, ¬ SMem s S) → R.assigned = false) ∧
      (∀ s, SMem s S → R.lo.val ≤ signMulInt s x.val ∧ signMulInt s x.val ≤ R.hi.val) ∧
      ((∃ s, SMem s S) → (∃ s, SMem s S ∧ signMulInt s x.val = R.lo.val) ∧ (∃ s, SMem s S ∧ signMulInt s x.val = R.hi.val))) := by
  have hr : res = valMulSignSet x S := by rcases hres with h | h <;> exact h
  subst hr
  rw [valMulSignSet_spec]
  have hp2 : (0:Int) < 2^n := Int.pow_pos (by decide)
  have l1 := x.ge; have l2 := x.le
  have u1 : (Ivl.unassigned : Ivl (SInt n)).lo.val = 2^n - 1 := rfl
  have u2 : (Ivl.unassigned : Ivl (SInt n)).hi.val = -2^n := rfl
  have fin : ∀ R : Ivl (SInt n), (∀ s, ¬ SMem s S) → R.lo.val = 2^n - 1 → R.hi.val = -2^n → R.assigned = false := by
    intro R _ e1 e2
    simp only [Ivl.assigned, CppVal.gt, sint_lt]
    rw [decide_eq_true (by omega)]; rfl
  by_cases hm : SMem .neg S
  · by_cases hrep : Rep n (-x.val)
    · right
      refine ⟨fun _ => hrep, ?_⟩
      have r1 := hrep.1; have r2 := hrep.2
      simp only [if_pos hm, CppNum.neg, SInt.of_ok hrep, ok_bind, pure, Except.pure]
      refine ⟨_, rfl, fun h => absurd hm (h _), fun s hs => ?_, fun _ => ?_⟩
      · simp only [Ivl.assignVal, Ivl.assignCore, sint_cmin, sint_cmax]
        cases s
        · simp only [signMulInt]; omega
        · rw [if_pos hs]; simp only [signMulInt, sint_cmin, sint_cmax, zero_sint]; omega
        · simp only [if_pos hs, signMulInt]
          split <;> simp only [Ivl.assignCore, sint_cmin, sint_cmax] <;> omega
      · simp only [Ivl.assignVal, Ivl.assignCore, sint_cmin, sint_cmax]
        by_cases hp : SMem .pos S <;> by_cases hz : SMem .zero S <;>
          simp only [hp, hz, if_true, if_false, sint_cmin, sint_cmax, zero_sint, u1, u2]
        · constructor
          · rcases Int.le_total x.val 0 with h | h
            · exact ⟨.pos, hp, by simp only [signMulInt]; omega⟩
            · exact ⟨.neg, hm, by simp only [signMulInt]; omega⟩
          · rcases Int.le_total x.val 0 with h | h
            · exact ⟨.neg, hm, by simp only [signMulInt]; omega⟩
            · exact ⟨.pos, hp, by simp only [signMulInt]; omega⟩
        · constructor
          · rcases Int.le_total x.val 0 with h | h
            · exact ⟨.pos, hp, by simp only [signMulInt]; omega⟩
            · exact ⟨.neg, hm, by simp only [signMulInt]; omega⟩
          · rcases Int.le_total x.val 0 with h | h
            · exact ⟨.neg, hm, by simp only [signMulInt]; omega⟩
            · exact ⟨.pos, hp, by simp only [signMulInt]; omega⟩
        · constructor
          · rcases Int.le_total x.val 0 with h | h
            · exact ⟨.zero, hz, by simp only [signMulInt]; omega⟩
            · exact ⟨.neg, hm, by simp only [signMulInt]; omega⟩
          · rcases Int.le_total x.val 0 with h | h
            · exact ⟨.neg, hm, by simp only [signMulInt]; omega⟩
            · exact ⟨.zero, hz, by simp only [signMulInt]; omega⟩
        · exact ⟨⟨.neg, hm, by simp only [signMulInt]; omega⟩, ⟨.neg, hm, by simp only [signMulInt]; omega⟩⟩
    · left; refine ⟨⟨hm, hrep⟩, ?_⟩
      simp only [if_pos hm, CppNum.neg, SInt.of_ub hrep]; rfl
  · right
    refine ⟨fun h => absurd h hm, ?_⟩
    simp only [if_neg hm, pure, Except.pure]
    refine ⟨_, rfl, fun h => ?_, fun s hs => ?_, fun ⟨s, hs⟩ => ?_⟩
    · apply fin _ h <;> simp only [if_neg (h _), u1, u2]
    · cases s
      · exact absurd hs hm
      · rw [if_pos hs]
        simp only [Ivl.assignVal, Ivl.assignCore, sint_cmin, sint_cmax, zero_sint, signMulInt]; omega
      · simp only [if_pos hs, signMulInt]
        split <;> simp only [Ivl.assignVal, Ivl.assignCore, sint_cmin, sint_cmax] <;> omega
    · by_cases hp : SMem .pos S <;> by_cases hz : SMem .zero S <;>
        simp only [hp, hz, if_true, if_false, Ivl.assignVal, Ivl.assignCore, sint_cmin, sint_cmax, zero_sint, u1, u2]
      · constructor
        · rcases Int.le_total x.val 0 with h | h
          · exact ⟨.pos, hp, by simp only [signMulInt]; omega⟩
          · exact ⟨.zero, hz, by simp only [signMulInt]; omega⟩
        · rcases Int.le_total x.val 0 with h | h
          · exact ⟨.zero, hz, by simp only [signMulInt]; omega⟩
          · exact ⟨.pos, hp, by simp only [signMulInt]; omega⟩
      · exact ⟨⟨.pos, hp, by simp only [signMulInt]; omega⟩, ⟨.pos, hp, by simp only [signMulInt]; omega⟩⟩
      · exact ⟨⟨.zero, hz, by simp only [signMulInt]; omega⟩, ⟨.zero, hz, by simp only [signMulInt]; omega⟩⟩
      · cases s
        · exact absurd hs hm
        · exact absurd hs hz
        · exact absurd hs hp

/-! ## Examples: the hypotheses are met by ordinary operands, and the theorems' branches all occur. -/
/-- `[-3, 5]` -/
def exX : Ivl (SInt 31) := ⟨i32 (-3), i32 5⟩
/-- `[2, 7]` -/
def exY : Ivl (SInt 31) := ⟨i32 2, i32 7⟩
/-- `[INT_MIN, 1]` -/
def exM : Ivl (SInt 31) := ⟨i32 (-2147483648), i32 1⟩
example : Inhab (.ivl exX) ∧ Inhab (.ivl exY) ∧ Inhab (.ivl exM) := by unfold Inhab exX exY exM; decide
example : addI true (.ivl exX) (.ivl exY) = .ok ⟨i32 (-1), i32 12⟩ := by decide
example : subI true (.ivl exX) (.ivl exY) = .ok ⟨i32 (-10), i32 3⟩ := by decide
example : addI true (.ivl exM) (.scalar (i32 (-1))) = .error .ub := by decide
example : negI true exX = .ok ⟨i32 (-5), i32 3⟩ ∧ negI true exM = .error .ub := by decide
example : mulI true (.ivl exX) (.ivl exY) = .ok ⟨i32 (-21), i32 35⟩ := by decide
example : mulI true (.scalar (i32 (-2))) (.ivl exX) = .ok ⟨i32 (-10), i32 6⟩ := by decide
example : mulI true (.ivl exM) (.ivl exY) = .error .ub := by decide
example : divI true (.ivl exX) (.ivl exY) = .ok ⟨i32 (-1), i32 2⟩ := by decide
example : divI true (.ivl exY) (.ivl exX) = .error .ub ∧ divI true (.ivl exM) (.scalar (i32 (-1))) = .error .ub := by decide
example : squareI true exX = .ok ⟨i32 0, i32 25⟩ ∧ squareI true exM = .error .ub := by decide
example : cubeI true exX = .ok ⟨i32 (-27), i32 125⟩ ∧ cubeI true exM = .error .ub := by decide
example : absI true exX = .ok ⟨i32 0, i32 5⟩ ∧ absI true exM = .error .ub := by decide
example : sgnI true exX = .ok (7#3) ∧ sgnI true exY = .ok (4#3) := by decide
example : signMulI true .neg exX = .ok ⟨i32 (-5), i32 3⟩ ∧ signSetMulI true (5#3) exY = .ok ⟨i32 (-7), i32 7⟩ := by decide
example : valMulSignSet (i32 5) (3#3) = .ok ⟨i32 (-5), i32 0⟩ := by decide

end Intervals.Props
