import Verif.Lemmas.Program
import Verif.Props.Programs
import Verif.Props.Expr
import Verif.Props.IntArith
import Verif.Lemmas.Interpolate
/-!
# C62: interval-aware programs
-/
set_option linter.unusedSectionVars false
namespace Intervals.Props
open Intervals Intervals.Spec CppVal

section generic
variable {T : Type} [CppVal T] [CppOrder T] [CppLimits T] [CppLawfulLimits T] [CppStep T]

/-- C62: a well-formed interval-aware program, run on intervals, encloses the program run on any scalars from these intervals: if the interval run returns
(and no function in it returned a NaN or unassigned interval), then the scalar run returns, and every assigned variable's value lies in the interval. -/
theorem C62_encloses (dbg d : Bool) (zero : T) (hs : d = true → LawfulStep T) (p : Prog T) (ins : List Nat) (Γ : Ctx T) (S S' : Nat → Ivl T) (s : Nat → T)
    (hf : p.AllFn Fn.Encl) (hc : p.check (Ctx.start ins) = some Γ) (hin : ∀ x ∈ ins, s x ∈ᵢ S x) (hr : runI dbg d p S [] = .ok (S', true)) :
    ∃ s', runS zero p s [] = .ok s' ∧ ∀ x ∈ Γ.asgd, s' x ∈ᵢ S' x := by
  obtain ⟨s', h1, h2, _⟩ := run_encl (dbg := dbg) zero hs hf hc (inv_start (fun x hx => proper_of_pt (hin x hx))) hr (s := s) (B := [])
    ⟨hin, fun _ h => (nomatch h), rfl⟩
  exact ⟨s', h1, h2.mem⟩

/-- C62: if moreover the branch conditions are single comparisons, the functions are total and `assign` is not used, the interval run does not fail for any assigned, NaN-free
inputs, and every assigned variable ends up assigned and NaN-free. -/
theorem C62_total (dbg d : Bool) (hs : d = true → LawfulStep T) (p : Prog T) (ins : List Nat) (Γ : Ctx T) (S : Nat → Ivl T)
    (hf : p.AllFn Fn.Total) (hsg : p.Single) (hna : p.NoAssign) (hc : p.check (Ctx.start ins) = some Γ) (hin : ∀ x ∈ ins, Proper (S x)) :
    ∃ S', runI dbg d p S [] = .ok (S', true) ∧ ∀ x ∈ Γ.asgd, Proper (S' x) := by
  obtain ⟨S', h⟩ := run_total (dbg := dbg) hs hf hsg hna (fun _ h => absurd h List.not_mem_nil) hc (inv_start hin)
  exact ⟨S', h, (run_step hs hc (inv_start hin) h).1.prop⟩

/-! ## functions -/

/-- a unary function -/
def fn1 (F : Bool → Ivl T → Outcome (Ivl T)) (f : T → Outcome T) : Fn T where
  arity := 1
  ivl dbg | [X] => F dbg X | _ => .error .contract
  pt | [a] => f a | _ => .error .contract
/-- a binary function -/
def fn2 (F : Bool → Arg T → Arg T → Outcome (Ivl T)) (f : T → T → Outcome T) : Fn T where
  arity := 2
  ivl dbg | [X, Y] => F dbg (.ivl X) (.ivl Y) | _ => .error .contract
  pt | [a, b] => f a b | _ => .error .contract

theorem fn1_encl {F : Bool → Ivl T → Outcome (Ivl T)} {f : T → Outcome T}
    (h : ∀ dbg X R a, a ∈ᵢ X → F dbg X = .ok R → Proper R → ∃ v, f a = .ok v ∧ v ∈ᵢ R) : (fn1 F f).Encl := by
  intro dbg Xs vs R hl hv hr hp
  match Xs, hl with
  | [X], _ =>
    cases hv with
    | cons h1 h2 => cases h2; exact h dbg X R _ h1 hr hp
theorem fn2_encl {F : Bool → Arg T → Arg T → Outcome (Ivl T)} {f : T → T → Outcome T}
    (h : ∀ dbg X Y R a b, a ∈ᵢ X → b ∈ᵢ Y → F dbg (.ivl X) (.ivl Y) = .ok R → Proper R → ∃ v, f a b = .ok v ∧ v ∈ᵢ R) : (fn2 F f).Encl := by
  intro dbg Xs vs R hl hv hr hp
  match Xs, hl with
  | [X, Y], _ =>
    cases hv with
    | cons h1 h2 => cases h2 with
      | cons h2 h3 => cases h3; exact h dbg X Y R _ _ h1 h2 hr hp
theorem fn1_total {F : Bool → Ivl T → Outcome (Ivl T)} {f : T → Outcome T} (h : ∀ dbg X, Proper X → ∃ R, F dbg X = .ok R ∧ Proper R) : (fn1 F f).Total := by
  intro dbg Xs hl hp
  match Xs, hl with
  | [X], _ => exact h dbg X (hp X (by simp))
theorem fn2_total {F : Bool → Arg T → Arg T → Outcome (Ivl T)} {f : T → T → Outcome T}
    (h : ∀ dbg X Y, Proper X → Proper Y → ∃ R, F dbg (.ivl X) (.ivl Y) = .ok R ∧ Proper R) : (fn2 F f).Total := by
  intro dbg Xs hl hp
  match Xs, hl with
  | [X, Y], _ => exact h dbg X Y (hp X (by simp)) (hp Y (by simp))

/-- C62: `min` and `max` of the library may be used in such programs. -/
theorem C62_minmax : (fn2 (T := T) minI (fun a b => .ok (cmin a b))).Encl ∧ (fn2 (T := T) minI (fun a b => .ok (cmin a b))).Total ∧
    (fn2 (T := T) maxI (fun a b => .ok (cmax a b))).Encl ∧ (fn2 (T := T) maxI (fun a b => .ok (cmax a b))).Total := by
  refine ⟨fn2_encl ?_, fn2_total ?_, fn2_encl ?_, fn2_total ?_⟩
  · intro dbg X Y R a b ha hb hr _
    obtain ⟨R', h1, _, h3⟩ := C16_min dbg (.ivl X) (.ivl Y) (proper_of_pt ha) (proper_of_pt hb)
    rw [hr] at h1; cases h1
    exact ⟨_, rfl, (h3 _).2 ⟨a, b, ha, hb, rfl⟩⟩
  · intro dbg X Y hX hY
    obtain ⟨R', h1, h2, _⟩ := C16_min dbg (.ivl X) (.ivl Y) hX hY
    exact ⟨R', h1, h2⟩
  · intro dbg X Y R a b ha hb hr _
    obtain ⟨R', h1, _, h3⟩ := C16_max dbg (.ivl X) (.ivl Y) (proper_of_pt ha) (proper_of_pt hb)
    rw [hr] at h1; cases h1
    exact ⟨_, rfl, (h3 _).2 ⟨a, b, ha, hb, rfl⟩⟩
  · intro dbg X Y hX hY
    obtain ⟨R', h1, h2, _⟩ := C16_max dbg (.ivl X) (.ivl Y) hX hY
    exact ⟨R', h1, h2⟩

/-! ## the programs of the README -/

/-- `max3` (README.md:44–62): `a = 0`, `b = 1`, `x = 2`, `bc = 3`, `ac = 4` -/
def max3Prog : Prog T :=
  .seq (.decl 2) (.branch (.cmp .lt (.var 0) (.var 1))
    (.seq (.constrain 3 1 0) (.assignPartial 2 3))
    (.seq (.constrain 4 0 0) (.assignPartial 2 4)))
/-- `max2` (README.md:440–455) -/
def max2Prog : Prog T :=
  .seq (.decl 2) (.branch (.cmp .lt (.var 0) (.var 1)) (.assignPartial 2 1) (.assignPartial 2 0))

/-- The language means what the code says: the run of `max3Prog` is the hand-translated `max3` of C17. -/
theorem C62_max3 (dbg d : Bool) (S : Nat → Ivl T) (zero : T) (s : Nat → T) :
    (do let r ← runI dbg d max3Prog S []; return r.1 2) = max3 dbg d (S 0) (S 1) ∧
    (do let r ← runS zero max3Prog s []; return r 2) = max3Scalar zero (s 0) (s 1) := by
  constructor
  · simp only [max3Prog, max3, runI, PCond.inst, PTerm.inst, CExpr.build, buildCmp, upd, List.getElem?_cons_zero, ok_bind, bind_assoc, pure, Except.pure,
      Nat.reduceEqDiff, if_true, if_false, OfNat.one_ne_ofNat, OfNat.zero_ne_ofNat]
    cases hc : condLt dbg (.ident d 0 (S 0)) (.ident d 1 (S 1)) with
    | error e => rfl
    | ok c =>
      simp only [ok_bind]
      by_cases h1 : BoolSet.possibly c.truth = true
      · simp only [h1, if_true]
        cases hb : constrain dbg d 1 (S 1) c with
        | error e => rfl
        | ok bc =>
          simp only [ok_bind]
          cases ha : Ivl.assignPartial Ivl.unassigned bc with
          | error e => rfl
          | ok x1 =>
            simp only [ok_bind]
            cases hn : Cond.mkNot dbg c with
            | error e => rfl
            | ok nc =>
              simp only [ok_bind]
              by_cases h2 : BoolSet.possibly nc.truth = true
              · simp only [h2, if_true]
                cases hb : constrain dbg d 0 (S 0) nc with
                | error e => rfl
                | ok ac =>
                  simp only [ok_bind]
                  cases ha : Ivl.assignPartial x1 ac <;> rfl
              · simp only [h2, if_false, Bool.false_eq_true, ok_bind]; rfl
      · simp only [h1, if_false, Bool.false_eq_true, ok_bind]
        cases hn : Cond.mkNot dbg c with
        | error e => rfl
        | ok nc =>
          simp only [ok_bind]
          by_cases h2 : BoolSet.possibly nc.truth = true
          · simp only [h2, if_true]
            cases hb : constrain dbg d 0 (S 0) nc with
            | error e => rfl
            | ok ac =>
              simp only [ok_bind]
              cases ha : Ivl.assignPartial Ivl.unassigned ac <;> rfl
          · simp only [h2, if_false, Bool.false_eq_true, ok_bind]; rfl
  · simp only [max3Prog, max3Scalar, runS, Scalar.constrain, Scalar.assignPartial, PCond.eval, PTerm.eval, CmpOp.eval, upd, List.getElem?_cons_zero, ok_bind, bind_assoc, pure, Except.pure,
      Nat.reduceEqDiff, if_true, if_false, OfNat.one_ne_ofNat, OfNat.zero_ne_ofNat]
    cases h : lt (s 0) (s 1) <;> simp [ok_bind, bind_assoc, upd]

/-- C62: `max2` is an interval extension of itself on scalars, and `max2` on scalars is the maximum. -/
theorem C62_max2 (dbg d : Bool) (zero : T) (hs : d = true → LawfulStep T) (S : Nat → Ivl T) (hA : Proper (S 0)) (hB : Proper (S 1)) :
    ∃ S', runI dbg d max2Prog S [] = .ok (S', true) ∧ ∀ s : Nat → T, s 0 ∈ᵢ S 0 → s 1 ∈ᵢ S 1 →
      ∃ s', runS zero max2Prog s [] = .ok s' ∧ s' 2 ∈ᵢ S' 2 ∧ s' 2 = (if lt (s 0) (s 1) then s 1 else s 0) := by
  have hc : ∃ Γ, (max2Prog : Prog T).check (Ctx.start [0, 1]) = some Γ ∧ 2 ∈ Γ.asgd := ⟨_, rfl, by simp⟩
  obtain ⟨Γ, hc, hm⟩ := hc
  obtain ⟨S', h1, _⟩ := C62_total dbg d hs max2Prog [0, 1] Γ S ⟨trivial, trivial, trivial⟩ ⟨trivial, rfl, trivial, trivial⟩ ⟨trivial, trivial, trivial⟩ hc
    (fun x hx => by simp at hx; rcases hx with rfl | rfl <;> assumption)
  refine ⟨S', h1, fun s h2 h3 => ?_⟩
  obtain ⟨s', g1, g2⟩ := C62_encloses dbg d zero hs max2Prog [0, 1] Γ S S' s ⟨trivial, trivial, trivial⟩ hc
    (fun x hx => by simp at hx; rcases hx with rfl | rfl <;> assumption) h1
  refine ⟨s', g1, g2 2 hm, ?_⟩
  have he : (PCond.cmp .lt (.var 0) (.var 1)).eval (upd s 2 zero) = lt (s 0) (s 1) := rfl
  simp only [max2Prog, runS, Scalar.constrain, Scalar.assignPartial, ok_bind, he, pure, Except.pure] at g1
  cases h : lt (s 0) (s 1) <;> simp [h, ok_bind] at g1 <;> subst g1 <;> simp [upd]

end generic

section float
variable {K : Type} [Field K] [LinearOrder K] [IsStrictOrderedRing K] [Fmt K] [FloorRing K]

/-- C62: the unary functions of the library on floating-point numbers may be used in such programs. -/
theorem C62_float_unary (op : UnOp) : (fn1 (T := Fl K) op.ivl (fun a => .ok (op.pt a))).Encl := by
  apply fn1_encl
  intro dbg X R a ha hr _
  obtain ⟨R', h1, h2⟩ := un_encl dbg op ha
  rw [hr] at h1; cases h1
  exact ⟨_, rfl, h2⟩

/-- C62: so may its binary operators and functions, except division (see C46 for the divisors that are handled correctly). -/
theorem C62_float_binary (op : BinOp) (hop : op ≠ .div) : (fn2 (T := Fl K) op.ivl (fun a b => .ok (op.pt a b))).Encl := by
  apply fn2_encl
  intro dbg X Y R a b ha hb hr hR
  have hnn : ∀ {X : Ivl (Fl K)} {a}, a ∈ᵢ X → ¬ IsNanA (.ivl X) := by
    intro X a h hn
    have := proper_of_pt h
    unfold Proper at this
    rw [show X.lo = .nan from hn.1] at this
    cases h' : X.hi <;> rw [h'] at this <;> cases this
  obtain ⟨R', h1, h2⟩ := bin_encl dbg op (A := .ivl X) (B := .ivl Y) (encl_ivl (.inr ha)) (encl_ivl (.inr hb)) (by rintro ⟨⟨v, h⟩, _⟩; cases h)
    (fun h => absurd h hop) (fun _ => hnn hb)
  rw [hr] at h1; cases h1
  refine ⟨_, rfl, h2.2.resolve_left fun hn => ?_⟩
  unfold Proper at hR
  rw [show R.lo = .nan from hn.1] at hR
  cases h' : R.hi <;> rw [h'] at hR <;> cases hR
end float

section int
variable {n : Nat}

/-- the built-in integer operation: undefined behaviour if the result does not exist or is out of range -/
def intOp (g : Int → Int → Option Int) (a b : SInt n) : Outcome (SInt n) :=
  match g a.val b.val with
  | some v => BInt.ofInt _ _ v
  | none => .error .ub

theorem int_encl {F : Bool → Arg (SInt n) → Arg (SInt n) → Outcome (Ivl (SInt n))} {g : Int → Int → Option Int}
    (h : ∀ dbg X Y, Inhab X → Inhab Y → ExactInt2 g X Y (F dbg X Y)) : (fn2 F (intOp g)).Encl := by
  apply fn2_encl
  intro dbg X Y R a b ha hb hr _
  have ha' : X.lo.val ≤ a.val ∧ a.val ≤ X.hi.val := by simpa [Pt, bint_le] using ha
  have hb' : Y.lo.val ≤ b.val ∧ b.val ≤ Y.hi.val := by simpa [Pt, bint_le] using hb
  rcases h dbg (.ivl X) (.ivl Y) (le_trans ha'.1 ha'.2) (le_trans hb'.1 hb'.2) with ⟨_, h2⟩ | ⟨h1, R', h2, h3, _⟩
  · rw [hr] at h2; cases h2
  · rw [hr] at h2; cases h2
    obtain ⟨v, e1, e2⟩ := h1 a.val b.val ha' hb'
    have h4 := h3 a.val b.val v ha' hb' e1
    have e3 : v ≤ (2:Int)^n - 1 := by have := e2.2; omega
    refine ⟨⟨v, e2.1, e3⟩, ?_, ?_⟩
    · simp only [intOp, e1, BInt.ofInt]
      rw [dif_pos ⟨e2.1, e3⟩]
    · simpa [Pt, bint_le] using h4

/-- C62: integer addition, subtraction, multiplication and truncating division may be used in such programs. -/
theorem C62_int : (fn2 (addI (T := SInt n)) (intOp fun a b => some (a + b))).Encl ∧ (fn2 (subI (T := SInt n)) (intOp fun a b => some (a - b))).Encl ∧
    (fn2 (mulI (T := SInt n)) (intOp fun a b => some (a * b))).Encl ∧ (fn2 (divI (T := SInt n)) (intOp divInt)).Encl :=
  ⟨int_encl C25_add, int_encl C25_sub, int_encl C26_mul, int_encl C27_div⟩
end int

/-! ## the rule about assignments is needed -/

/-- `auto c = (x < 5); if (possibly(c)) { assign_partial(x, y); auto z = constrain(x, c); }` — assigns to `x` while `c` is about its old value -/
def staleProg : Prog (SInt 31) :=
  .branch (.cmp .lt (.var 0) (.lit (i32 5))) (.seq (.assignPartial 0 1) (.constrain 2 0 0)) .skip

/-- C62, why the rules forbid assigning to a variable while a condition about it is at hand: with `x = [0,3]`, `y = [7,8]` the run on intervals returns
`z = [0,4]`, while on the scalars `x = 0`, `y = 7` it returns `z = 7`. -/
theorem C62_stale : staleProg.check (Ctx.start [0, 1]) = none ∧
    (do let r ← runI true true staleProg (fun x => if x = 0 then ⟨i32 0, i32 3⟩ else ⟨i32 7, i32 8⟩) []; return r.1 2) = .ok ⟨i32 0, i32 4⟩ ∧
    (do let r ← runS (i32 0) staleProg (fun x => if x = 0 then i32 0 else i32 7) []; return r 2) = .ok (i32 7) := by
  refine ⟨rfl, by decide, by decide⟩

/-! Non-vacuity: the README's `max2([2,4],[3,6]) = [2,6]`, and `max3([2,4],[3,6]) = [3,6]`; a program with functions and nested branches. -/
private def S0 : Nat → Ivl (SInt 31) := fun x => if x = 0 then ⟨i32 2, i32 4⟩ else ⟨i32 3, i32 6⟩
example : (do let r ← runI true true max2Prog S0 []; return r.1 2) = .ok (⟨i32 2, i32 6⟩ : Ivl (SInt 31)) := by decide
example : (do let r ← runI true true max3Prog S0 []; return r.1 2) = .ok (⟨i32 3, i32 6⟩ : Ivl (SInt 31)) := by decide

/-- `auto z = max(x, y); auto c = (x < y) & (z < 8); auto r = T{ }; if (possibly(c)) { auto xc = constrain(x, c); auto w = min(xc, y); assign_partial(r, w); }
if (possibly(!c)) { assign_partial(r, z); }` -/
private def exProg : Prog (SInt 31) :=
  .seq (.letF 2 (fn2 maxI (fun a b => .ok (cmax a b))) [0, 1]) <| .seq (.decl 3) <|
    .branch (.and (.cmp .lt (.var 0) (.var 1)) (.cmp .lt (.var 2) (.lit (i32 8))))
      (.seq (.constrain 4 0 0) (.seq (.letF 5 (fn2 minI (fun a b => .ok (cmin a b))) [4, 1]) (.assignPartial 3 5)))
      (.assignPartial 3 2)
example : exProg.AllFn Fn.Encl ∧ (∃ Γ, exProg.check (Ctx.start [0, 1]) = some Γ ∧ 3 ∈ Γ.asgd) ∧ i32 7 ∈ᵢ (⟨i32 0, i32 9⟩ : Ivl (SInt 31)) ∧
    (do let r ← runI true true exProg (fun x => if x = 0 then ⟨i32 0, i32 9⟩ else ⟨i32 3, i32 6⟩) []; return (r.1 3, r.2)) =
      .ok ((⟨i32 0, i32 9⟩ : Ivl (SInt 31)), true) ∧
    (do let r ← runS (i32 0) exProg (fun x => if x = 0 then i32 7 else i32 4) []; return r 3) = .ok (i32 7) := by
  refine ⟨⟨C62_minmax.2.2.1, trivial, ⟨trivial, C62_minmax.1, trivial⟩, trivial⟩, ⟨_, rfl, by decide⟩, by decide, by decide, by decide⟩
end Intervals.Props
