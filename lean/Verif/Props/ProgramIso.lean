import Verif.Lemmas.ProgramIso
import Verif.Props.Program
import Verif.Props.Propagate
/-!
# C82: interval-aware programs are inclusion isotone
-/
set_option linter.unusedSectionVars false
namespace Intervals.Props
open Intervals Intervals.Spec CppVal

section generic
variable {T : Type} [CppVal T] [CppOrder T] [CppLimits T] [CppLawfulLimits T] [CppStep T]

/-- C82 for one call: constraining an interval with the same condition, built from operands each of which lies within the other's, gives results one of which
lies within the other.  The condition may be any tree of comparisons, `&`, `|`, `!`, if both sides of every disjunction mention the interval. -/
theorem C82_constrain (dbg d : Bool) (hs : d = true → LawfulStep T) (D : List Nat) (e : PCond T) (y : Nat) (S Q : Nat → Ivl T) (c c' : Cond T) (R R' : Ivl T)
    (he : e.ok D = true) (hu : e.uses y = true) (hd : e.disjUses y true = true) (hS : ∀ x ∈ D, Proper (S x)) (hw : ∀ x ∈ D, ∀ v, v ∈ᵢ S x → v ∈ᵢ Q x)
    (hb : (e.inst d S).build dbg = .ok c) (hb' : (e.inst d Q).build dbg = .ok c') (ht : BoolSet.contains c.truth true = true)
    (hR : constrain dbg d y (S y) c = .ok R) (hR' : constrain dbg d y (Q y) c' = .ok R') : ∀ v, v ∈ᵢ R → v ∈ᵢ R' :=
  constrain_iso (pol := true) hs he (ok_uses he y hu) hd hS (fun x hx => proper_of_pt (hw x hx _ (lo_pt (hS x hx)))) (sub_within hS hw) hb hb' ht hR hR'

/-- C82: a well-formed interval-aware program, run on two families of intervals one of which lies within the other, ends with every variable within its
counterpart — if both runs return and the functions it calls are inclusion isotone. -/
theorem C82_isotone (dbg d : Bool) (hs : d = true → LawfulStep T) (p : Prog T) (ins : List Nat) (Γ : Ctx T) (S Q S' Q' : Nat → Ivl T)
    (hf : p.AllFn Fn.Iso) (hc : p.check (Ctx.start ins) = some Γ) (hS : ∀ x ∈ ins, Proper (S x)) (hw : ∀ x ∈ ins, ∀ v, v ∈ᵢ S x → v ∈ᵢ Q x)
    (hr : runI dbg d p S [] = .ok (S', true)) (hq : runI dbg d p Q [] = .ok (Q', true)) : ∀ x ∈ Γ.scope, ∀ v, v ∈ᵢ S' x → v ∈ᵢ Q' x :=
  run_iso hs hf hc (inv_start hS) (inv_start fun x hx => proper_of_pt (hw x hx _ (lo_pt (hS x hx)))) hw hr hq

/-- C82: if the branch conditions are single comparisons, and the functions are defined for narrower arguments if they are for wider ones, then a program that
returns for the wider inputs returns for the narrower ones. -/
theorem C82_defined (dbg d : Bool) (hs : d = true → LawfulStep T) (p : Prog T) (ins : List Nat) (Γ : Ctx T) (S Q Q' : Nat → Ivl T)
    (hf : p.AllFn Fn.IsoDef) (hsg : p.Single) (hc : p.check (Ctx.start ins) = some Γ) (hS : ∀ x ∈ ins, Proper (S x))
    (hw : ∀ x ∈ ins, ∀ v, v ∈ᵢ S x → v ∈ᵢ Q x) (hq : runI dbg d p Q [] = .ok (Q', true)) :
    ∃ S', runI dbg d p S [] = .ok (S', true) ∧ (∀ x ∈ Γ.asgd, Proper (S' x)) ∧ ∀ x ∈ Γ.scope, ∀ v, v ∈ᵢ S' x → v ∈ᵢ Q' x := by
  have hQ : ∀ x ∈ ins, Proper (Q x) := fun x hx => proper_of_pt (hw x hx _ (lo_pt (hS x hx)))
  obtain ⟨S', h⟩ := run_defined (dbg := dbg) hs hf hsg (fun _ h => absurd h List.not_mem_nil) hc (inv_start hS) (inv_start hQ) hw hq
  exact ⟨S', h, (run_step hs hc (inv_start hS) h).1.prop, C82_isotone dbg d hs p ins Γ S Q S' Q' (allFn_mono (fun _ => Fn.IsoDef.iso) hf) hc hS hw h hq⟩

/-! ## functions -/

theorem fn1_isoDef {F : Bool → Ivl T → Outcome (Ivl T)} {f : T → Outcome T}
    (h : ∀ dbg X Y Q, Proper X → Proper Y → SubI X Y → F dbg Y = .ok Q → Proper Q → ∃ R, F dbg X = .ok R ∧ Proper R ∧ SubI R Q) : (fn1 F f).IsoDef := by
  intro dbg Xs Ys Q hl hs hp hQ pQ
  match Xs, hl with
  | [X], _ =>
    cases hs with
    | cons h1 h2 =>
      cases h2
      have pX := hp X (by simp)
      exact h dbg X _ Q pX (proper_of_pt (h1 _ (lo_pt pX))) h1 hQ pQ
theorem fn2_isoDef {F : Bool → Arg T → Arg T → Outcome (Ivl T)} {f : T → T → Outcome T}
    (h : ∀ dbg X Y X' Y' Q, Proper X → Proper Y → Proper X' → Proper Y' → SubI X X' → SubI Y Y' → F dbg (.ivl X') (.ivl Y') = .ok Q → Proper Q →
      ∃ R, F dbg (.ivl X) (.ivl Y) = .ok R ∧ Proper R ∧ SubI R Q) : (fn2 F f).IsoDef := by
  intro dbg Xs Ys Q hl hs hp hQ pQ
  match Xs, hl with
  | [X, Y], _ =>
    cases hs with
    | cons h1 h2 => cases h2 with
      | cons h2 h3 =>
        cases h3
        have pX := hp X (by simp)
        have pY := hp Y (by simp)
        exact h dbg X Y _ _ Q pX pY (proper_of_pt (h1 _ (lo_pt pX))) (proper_of_pt (h2 _ (lo_pt pY))) h1 h2 hQ pQ

/-- C82: `min` and `max` may be called in such programs. -/
theorem C82_minmax : (fn2 (T := T) minI (fun a b => .ok (cmin a b))).IsoDef ∧ (fn2 (T := T) maxI (fun a b => .ok (cmax a b))).IsoDef := by
  constructor <;> apply fn2_isoDef <;> intro dbg X Y X' Y' Q pX pY pX' pY' sX sY hQ pQ
  · obtain ⟨R, R', e1, e2, e3⟩ := (C47_min_max dbg (.ivl X) (.ivl Y) (.ivl X') (.ivl Y') pX pY pX' pY' sX sY).1
    obtain ⟨R1, g1, g2, _⟩ := C16_min dbg (.ivl X) (.ivl Y) pX pY
    rw [e1] at g1; cases g1
    rw [hQ] at e2; cases e2
    exact ⟨R, e1, g2, e3⟩
  · obtain ⟨R, R', e1, e2, e3⟩ := (C47_min_max dbg (.ivl X) (.ivl Y) (.ivl X') (.ivl Y') pX pY pX' pY' sX sY).2
    obtain ⟨R1, g1, g2, _⟩ := C16_max dbg (.ivl X) (.ivl Y) pX pY
    rw [e1] at g1; cases g1
    rw [hQ] at e2; cases e2
    exact ⟨R, e1, g2, e3⟩
end generic

section float
variable {K : Type} [Field K] [LinearOrder K] [IsStrictOrderedRing K] [Fmt K] [FloorRing K]

/-- C82: so may the unary functions on floating-point numbers. -/
theorem C82_float_unary (op : UnOp) : (fn1 (T := Fl K) op.ivl (fun a => .ok (op.pt a))).IsoDef := by
  apply fn1_isoDef
  intro dbg X Y Q pX pY hs hQ pQ
  obtain ⟨R, R', e1, e2, e3⟩ := C47_float_unary dbg X Y pX pY hs op
  rw [hQ] at e2; cases e2
  obtain ⟨R1, g1, g2⟩ := un_encl dbg op (lo_pt pX)
  rw [e1] at g1; cases g1
  exact ⟨R, e1, proper_of_pt g2, e3⟩

/-- C82: and the binary ones except division (which is not isotone: `C47_div_violated`). -/
theorem C82_float_binary (op : BinOp) (hop : op ≠ .div) : (fn2 (T := Fl K) op.ivl (fun a b => .ok (op.pt a b))).IsoDef := by
  have key : ∀ {F : Bool → Arg (Fl K) → Arg (Fl K) → Outcome (Ivl (Fl K))} {f : Fl K → Fl K → Fl K} {g : Fl K → Fl K → Outcome (Fl K)},
      (∀ dbg X Y, ProperA X → ProperA Y → FloatExact2 f X Y (F dbg X Y)) → (fn2 F g).IsoDef := by
    intro F f g h
    apply fn2_isoDef
    intro dbg X Y X' Y' Q pX pY pX' pY' sX sY hQ pQ
    have hn : Q ≠ ⟨.nan, .nan⟩ := by rintro rfl; cases pQ
    obtain ⟨R, e1, e2⟩ := isotone2 (X := .ivl X) (Y := .ivl Y) (X' := .ivl X') (Y' := .ivl Y') sX sY (h dbg _ _ pX pY) (h dbg _ _ pX' pY') Q hQ hn
    refine ⟨R, e1, ?_, e2⟩
    rcases h dbg (.ivl X) (.ivl Y) pX pY with ⟨⟨a, b, ha, hb, hf⟩, e⟩ | ⟨_, R1, e, i, ⟨a, b, ha, hb, hl⟩, _⟩
    · rcases h dbg (.ivl X') (.ivl Y') pX' pY' with ⟨_, e'⟩ | ⟨d', _⟩
      · rw [hQ] at e'; cases e'; exact absurd rfl hn
      · exact absurd hf (d' a b (sX a ha) (sY b hb))
    · rw [e1] at e; cases e
      exact proper_of_pt (i a b ha hb)
  cases op with
  | add => exact key C30_add
  | sub => exact key C30_sub
  | mul => exact key C31_mul
  | div => exact absurd rfl hop
  | min => exact C82_minmax.1
  | max => exact C82_minmax.2
end float

section int
variable {n : Nat}

/-- C82: and integer addition, subtraction, multiplication and division. -/
theorem C82_int (op : Bool → Arg (SInt n) → Arg (SInt n) → Outcome (Ivl (SInt n))) (hop : op ∈ [addI, subI, mulI, divI])
    (g : SInt n → SInt n → Outcome (SInt n)) : (fn2 op g).IsoDef := by
  apply fn2_isoDef
  intro dbg X Y X' Y' Q pX pY pX' pY' sX sY hQ pQ
  have conv : ∀ {X X' : Ivl (SInt n)}, Proper X → SubI X X' → ∀ a, InI a (.ivl X) → InI a (.ivl X') := by
    intro X X' pX s a ha
    have h1 := s _ (lo_pt pX)
    have h2 := s X.hi ⟨pX, by simp [bint_le]⟩
    simp only [Pt, bint_le] at h1 h2
    exact ⟨le_trans h1.1 ha.1, le_trans ha.2 h2.2⟩
  have inh : ∀ {X : Ivl (SInt n)}, Proper X → Inhab (.ivl X) := fun h => by unfold Proper at h; rw [bint_le] at h; exact h
  obtain ⟨R, e1, e2, e3⟩ := C47_int dbg (.ivl X) (.ivl Y) (.ivl X') (.ivl Y') (inh pX) (inh pY) (inh pX') (inh pY') (conv pX sX) (conv pY sY) op hop Q hQ
  refine ⟨R, e1, ?_, ?_⟩
  · have ex : ∃ g, ExactInt2 g (.ivl X) (.ivl Y) (op dbg (.ivl X) (.ivl Y)) := by
      simp only [List.mem_cons, List.not_mem_nil, or_false] at hop
      rcases hop with rfl | rfl | rfl | rfl
      · exact ⟨_, C25_add dbg _ _ (inh pX) (inh pY)⟩
      · exact ⟨_, C25_sub dbg _ _ (inh pX) (inh pY)⟩
      · exact ⟨_, C26_mul dbg _ _ (inh pX) (inh pY)⟩
      · exact ⟨_, C27_div dbg _ _ (inh pX) (inh pY)⟩
    obtain ⟨g, h⟩ := ex
    rcases h with ⟨_, h⟩ | ⟨_, R1, h, i, ⟨a, b, ha, hb, hl⟩, _⟩
    · rw [e1] at h; cases h
    · rw [e1] at h; cases h
      have := i a b _ ha hb hl
      unfold Proper; rw [bint_le]; exact this.2
  · intro v hv
    simp only [Pt, bint_le] at hv ⊢
    exact ⟨le_trans e2 hv.1, le_trans hv.2 e3⟩
end int

/-! ## the rule about disjunctions is needed -/

/-- `auto c = (x < 3) | (y < 0); if (possibly(c)) { auto z = constrain(x, c); }` — the right side does not mention `x` -/
def oneSidedProg : Prog (SInt 31) :=
  .branch (.or (.cmp .lt (.var 0) (.lit (i32 3))) (.cmp .lt (.var 1) (.lit (i32 0)))) (.constrain 2 0 0) .skip

/-- C82, why both sides of a disjunction must mention the interval: for `x = [5,9]`, `y = [-1,2]` the run returns `z = [5,9]`, for the wider `x = [0,9]`
and the same `y` it returns `z = [0,2]`. -/
theorem C82_one_sided : oneSidedProg.check (Ctx.start [0, 1]) = none ∧
    (do let r ← runI true true oneSidedProg (fun x => if x = 0 then ⟨i32 5, i32 9⟩ else ⟨i32 (-1), i32 2⟩) []; return r.1 2) = .ok ⟨i32 5, i32 9⟩ ∧
    (do let r ← runI true true oneSidedProg (fun x => if x = 0 then ⟨i32 0, i32 9⟩ else ⟨i32 (-1), i32 2⟩) []; return r.1 2) = .ok ⟨i32 0, i32 2⟩ := by
  refine ⟨rfl, by decide, by decide⟩

/-- `auto c = (x < y) & (y < x); if (possibly(c)) { auto z = constrain(x, c); }` -/
def crossProg : Prog (SInt 31) :=
  .branch (.and (.cmp .lt (.var 0) (.var 1)) (.cmp .lt (.var 1) (.var 0))) (.constrain 2 0 0) .skip

/-- C82, why `C82_defined` is about single comparisons: `x = [0,9]`, `y = [0,9]` succeeds, the narrower `x = [0,1]`, `y = [0,1]` violates a contract. -/
theorem C82_conj_fails : (∃ Γ, crossProg.check (Ctx.start [0, 1]) = some Γ) ∧ crossProg.AllFn Fn.IsoDef ∧
    (do let r ← runI true true crossProg (fun _ => ⟨i32 0, i32 9⟩) []; return r.1 2) = .ok ⟨i32 1, i32 8⟩ ∧
    (do let r ← runI true true crossProg (fun _ => ⟨i32 0, i32 1⟩) []; return r.1 2) = .error .contract := by
  refine ⟨⟨_, rfl⟩, ⟨trivial, trivial⟩, by decide, by decide⟩

/-! Non-vacuity: a program with functions, a conjunction, nested scopes, run on nested inputs. -/

/-- `auto z = x + y; auto c = (x < y) & (z < 8); auto r = T{ }; if (possibly(c)) { auto xc = constrain(x, c); auto w = min(xc, y); assign_partial(r, w); }
if (possibly(!c)) { assign_partial(r, z); }` -/
private def isoProg : Prog (SInt 31) :=
  .seq (.letF 2 (fn2 addI (intOp fun a b => some (a + b))) [0, 1]) <| .seq (.decl 3) <|
    .branch (.and (.cmp .lt (.var 0) (.var 1)) (.cmp .lt (.var 2) (.lit (i32 8))))
      (.seq (.constrain 4 0 0) (.seq (.letF 5 (fn2 minI (fun a b => .ok (cmin a b))) [4, 1]) (.assignPartial 3 5)))
      (.assignPartial 3 2)
example : isoProg.AllFn Fn.IsoDef ∧ (∃ Γ, isoProg.check (Ctx.start [0, 1]) = some Γ ∧ 3 ∈ Γ.scope) ∧
    (do let r ← runI true true isoProg (fun x => if x = 0 then ⟨i32 1, i32 3⟩ else ⟨i32 4, i32 4⟩) []; return (r.1 3, r.2)) =
      .ok (⟨i32 1, i32 3⟩, true) ∧
    (do let r ← runI true true isoProg (fun x => if x = 0 then ⟨i32 0, i32 9⟩ else ⟨i32 3, i32 6⟩) []; return (r.1 3, r.2)) =
      .ok (⟨i32 0, i32 15⟩, true) := by
  refine ⟨⟨C82_int _ (by simp) _, trivial, ⟨trivial, C82_minmax.1, trivial⟩, trivial⟩, ⟨_, rfl, by decide⟩, by decide, by decide⟩
/-- the README's `max3`: conditions are single comparisons -/
example : (max3Prog (T := SInt 31)).AllFn Fn.IsoDef ∧ (max3Prog (T := SInt 31)).Single ∧
    (do let r ← runI true true max3Prog (fun x => if x = 0 then ⟨i32 0, i32 9⟩ else ⟨i32 3, i32 6⟩) []; return (r.1 2, r.2)) =
      .ok ((⟨i32 3, i32 9⟩ : Ivl (SInt 31)), true) := by
  refine ⟨⟨trivial, ⟨trivial, trivial⟩, trivial, trivial⟩, ⟨trivial, rfl, ⟨trivial, trivial⟩, trivial, trivial⟩, by decide⟩
end Intervals.Props
