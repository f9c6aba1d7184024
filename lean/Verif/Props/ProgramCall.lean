import Verif.Props.ProgramIso
/-!
# C62, C82: functions, loops and recursion in interval-aware programs
-/
set_option linter.unusedSectionVars false
namespace Intervals.Props
open Intervals Spec CppVal
section generic
variable {T : Type} [CppVal T] [CppOrder T] [CppLimits T] [CppLawfulLimits T] [CppStep T]

/-- a context in which more variables are assigned -/
structure More (Γ Δ : Ctx T) : Prop where
  scope : Δ.scope = Γ.scope
  conds : Δ.conds = Γ.conds
  outer : Δ.outer = Γ.outer
  asgd : ∀ x ∈ Γ.asgd, x ∈ Δ.asgd

theorem more_refl (Γ : Ctx T) : More Γ Γ := ⟨rfl, rfl, rfl, fun _ h => h⟩

theorem more_bind {Γ Δ : Ctx T} (h : More Γ Δ) (x : Nat) : More (Γ.bind x) (Δ.bind x) :=
  ⟨by simp [Ctx.bind, h.scope], h.conds, h.outer, fun y hy => by
    rcases List.mem_cons.1 hy with rfl | hy
    · exact List.mem_cons_self
    · exact List.mem_cons_of_mem _ (h.asgd y hy)⟩

theorem more_cons {Γ Δ : Ctx T} (h : More Γ Δ) (x : Nat) : More { Γ with asgd := x :: Γ.asgd } { Δ with asgd := x :: Δ.asgd } :=
  ⟨h.scope, h.conds, h.outer, fun y hy => by
    rcases List.mem_cons.1 hy with rfl | hy
    · exact List.mem_cons_self
    · exact List.mem_cons_of_mem _ (h.asgd y hy)⟩

/-- A program that is well-formed is also well-formed where more variables are assigned. -/
theorem check_more {p : Prog T} : ∀ {Γ Δ Γ' : Ctx T}, More Γ Δ → p.check Γ = some Γ' → ∃ Δ', p.check Δ = some Δ' ∧ More Γ' Δ' := by
  induction p with
  | skip => intro Γ Δ Γ' h hc; simp only [Prog.check, Option.some.injEq] at hc ⊢; subst hc; exact ⟨_, rfl, h⟩
  | seq p q ihp ihq =>
    intro Γ Δ Γ' h hc
    simp only [Prog.check, Option.bind_eq_some_iff] at hc ⊢
    obtain ⟨Γ1, h1, h2⟩ := hc
    obtain ⟨Δ1, a1, a2⟩ := ihp h h1
    obtain ⟨Δ2, b1, b2⟩ := ihq a2 h2
    exact ⟨Δ2, ⟨Δ1, a1, b1⟩, b2⟩
  | decl x =>
    intro Γ Δ Γ' h hc
    simp only [Prog.check, h.scope] at hc ⊢
    split at hc
    · cases hc
    · next hx => cases hc; rw [if_neg hx]; exact ⟨_, rfl, rfl, h.conds, h.outer, h.asgd⟩
  | letF x f args =>
    intro Γ Δ Γ' h hc
    simp only [Prog.check, h.scope] at hc ⊢
    split at hc
    · next hx =>
      cases hc
      rw [if_pos]
      · exact ⟨_, rfl, more_bind h x⟩
      · simp only [Bool.and_eq_true, List.all_eq_true, List.contains_iff_mem] at hx ⊢
        exact ⟨⟨hx.1.1, fun y hy => h.asgd y (hx.1.2 y hy)⟩, hx.2⟩
    · cases hc
  | constrain x y k =>
    intro Γ Δ Γ' h hc
    simp only [Prog.check, h.scope, h.conds] at hc ⊢
    split at hc
    · cases hc
    · next e pol hk =>
      split at hc
      · next hx =>
        cases hc
        rw [if_pos]
        · exact ⟨_, rfl, more_bind h x⟩
        · simp only [Bool.and_eq_true, List.contains_iff_mem] at hx ⊢
          exact ⟨⟨⟨hx.1.1.1, h.asgd y hx.1.1.2⟩, hx.1.2⟩, hx.2⟩
      · cases hc
  | assignPartial x y =>
    intro Γ Δ Γ' h hc
    simp only [Prog.check, h.scope, h.conds] at hc ⊢
    split at hc
    · next hx =>
      cases hc
      rw [if_pos]
      · refine ⟨_, rfl, ?_, ?_, ?_, (more_cons h x).asgd⟩ <;> first | rfl | exact h.outer | exact h.conds
      · simp only [Bool.and_eq_true, List.contains_iff_mem] at hx ⊢
        exact ⟨⟨hx.1.1, h.asgd y hx.1.2⟩, hx.2⟩
    · cases hc
  | assign x y =>
    intro Γ Δ Γ' h hc
    simp only [Prog.check, h.scope, h.conds] at hc ⊢
    split at hc
    · next hx =>
      cases hc
      rw [if_pos]
      · refine ⟨_, rfl, ?_, ?_, ?_, (more_cons h x).asgd⟩ <;> first | rfl | exact h.outer | exact h.conds
      · simp only [Bool.and_eq_true, List.contains_iff_mem] at hx ⊢
        exact ⟨⟨hx.1.1, h.asgd y hx.1.2⟩, hx.2⟩
    · cases hc
  | reset x y =>
    intro Γ Δ Γ' h hc
    simp only [Prog.check, h.scope, h.outer] at hc ⊢
    split at hc
    · next hx =>
      cases hc
      rw [if_pos]
      · refine ⟨_, rfl, ?_, ?_, ?_, (more_cons h x).asgd⟩ <;> first | rfl | exact h.outer | exact h.conds
      · simp only [Bool.and_eq_true, List.contains_iff_mem] at hx ⊢
        exact ⟨⟨hx.1.1, h.asgd y hx.1.2⟩, hx.2⟩
    · cases hc
  | block p ih =>
    intro Γ Δ Γ' h hc
    simp only [Prog.check, Option.bind_eq_some_iff, Option.some.injEq] at hc ⊢
    obtain ⟨Γp, hp, rfl⟩ := hc
    obtain ⟨Δp, a1, a2⟩ := ih h hp
    refine ⟨_, ⟨Δp, a1, rfl⟩, h.scope, h.conds, h.outer, fun x hx => ?_⟩
    simp only [List.mem_append, List.mem_filter, List.contains_iff_mem, h.scope] at hx ⊢
    exact hx.imp (h.asgd x) fun hx => ⟨hx.1, a2.asgd x hx.2⟩
  | call x p args r ih =>
    intro Γ Δ Γ' h hc
    simp only [Prog.check, Option.bind_eq_some_iff, h.scope] at hc ⊢
    obtain ⟨Γp, hp, hc⟩ := hc
    split at hc
    · next hx =>
      cases hc
      refine ⟨_, ⟨Γp, hp, if_pos ?_⟩, more_bind h x⟩
      simp only [Bool.and_eq_true, List.all_eq_true, List.contains_iff_mem] at hx ⊢
      exact ⟨⟨hx.1.1, fun y hy => h.asgd y (hx.1.2 y hy)⟩, hx.2⟩
    · cases hc
  | branch e p q ihp ihq =>
    intro Γ Δ Γ' h hc
    simp only [Prog.check] at hc ⊢
    split at hc
    · next he =>
      simp only [Option.bind_eq_some_iff, Option.some.injEq] at hc
      obtain ⟨Γp, hp, Γq, hq, rfl⟩ := hc
      obtain ⟨Δp, a1, a2⟩ := ihp (Γ := { Γ with conds := (e, true) :: Γ.conds, outer := Γ.scope })
        (Δ := { Δ with conds := (e, true) :: Δ.conds, outer := Δ.scope }) ⟨h.scope, by simp [h.conds], h.scope, h.asgd⟩ hp
      obtain ⟨Δq, b1, b2⟩ := ihq (Γ := { Γ with conds := (e, false) :: Γ.conds, outer := Γ.scope })
        (Δ := { Δ with conds := (e, false) :: Δ.conds, outer := Δ.scope }) ⟨h.scope, by simp [h.conds], h.scope, h.asgd⟩ hq
      rw [if_pos (ok_mono h.asgd he), a1]
      simp only [Option.bind_some, b1]
      refine ⟨_, rfl, h.scope, h.conds, h.outer, fun x hx => ?_⟩
      simp only [List.mem_append, List.mem_filter, List.contains_iff_mem, h.scope, Bool.and_eq_true] at hx ⊢
      exact hx.imp (h.asgd x) fun hx => ⟨hx.1, a2.asgd x hx.2.1, b2.asgd x hx.2.2⟩
    · cases hc

/-- C62: if the body of a loop is well-formed where the loop is, so is the loop with any number of iterations: the claims about programs apply to it. -/
theorem C62_loop (p : Nat → Prog T) (Γ : Ctx T) (h : ∀ i, ∃ Γ', (p i).check Γ = some Γ') (n : Nat) :
    ∃ Δ, (forLoop p n).check Γ = some Δ ∧ Δ.scope = Γ.scope ∧ Δ.conds = Γ.conds ∧ Δ.outer = Γ.outer ∧ ∀ x ∈ Γ.asgd, x ∈ Δ.asgd := by
  suffices h : ∃ Δ, (forLoop p n).check Γ = some Δ ∧ More Γ Δ by
    obtain ⟨Δ, h1, h2⟩ := h
    exact ⟨Δ, h1, h2.scope, h2.conds, h2.outer, h2.asgd⟩
  induction n with
  | zero => exact ⟨Γ, rfl, more_refl Γ⟩
  | succ n ih =>
    obtain ⟨Δ, h1, h2⟩ := ih
    obtain ⟨Γ', g⟩ := h n
    obtain ⟨Δ', g1, g2⟩ := check_more h2 g
    refine ⟨{ Δ with asgd := Δ.asgd ++ Δ.scope.filter Δ'.asgd.contains }, ?_, h2.scope, h2.conds, h2.outer, fun x hx => List.mem_append_left _ (h2.asgd x hx)⟩
    simp only [forLoop, Prog.check, h1, Option.bind_some, g1]

/-- C62: a loop runs its body once for every index, on intervals and on scalars. -/
theorem C62_loop_run (dbg d : Bool) (zero : T) (p : Nat → Prog T) (n : Nat) (S : Nat → Ivl T) (K : List (Cond T)) (s : Nat → T) (B : List Bool) :
    (do let r ← runI dbg d (forLoop p n) S K; return r.1) =
      (List.range n).foldlM (fun S i => do let r ← runI dbg d (p i) S K; return r.1) S ∧
    runS zero (forLoop p n) s B = (List.range n).foldlM (fun s i => runS zero (p i) s B) s := by
  induction n with
  | zero => exact ⟨rfl, rfl⟩
  | succ n ih =>
    obtain ⟨h1, h2⟩ := ih
    rw [List.range_succ, List.foldlM_append, List.foldlM_append, ← h1, ← h2]
    constructor
    · simp only [forLoop, runI, List.foldlM_cons, List.foldlM_nil, bind_assoc, pure_bind, bind_pure]
    · simp only [forLoop, runS, List.foldlM_cons, List.foldlM_nil, bind_pure]

/-- the recursive function with `n` parameters and result `r` is well-formed if the function it calls is -/
def WfBody (body : Prog T → Prog T) (n r : Nat) : Prop := n ≤ r ∧
  ∀ q, (∃ Γ, q.check (Ctx.start (List.range n)) = some Γ ∧ r ∈ Γ.asgd) → ∃ Γ, (body q).check (Ctx.start (List.range n)) = some Γ ∧ r ∈ Γ.asgd

theorem wf_unfold {body : Prog T → Prog T} {n r : Nat} (h : WfBody body n r) (k : Nat) :
    ∃ Γ, (unfold body r k).check (Ctx.start (List.range n)) = some Γ ∧ r ∈ Γ.asgd := by
  induction k with
  | zero =>
    refine ⟨(Ctx.start (List.range n)).bind r, ?_, List.mem_cons_self⟩
    have : r ∉ List.range n := by rw [List.mem_range]; exact Nat.not_lt.2 h.1
    simp [unfold, Prog.check, Ctx.start, abortFn, this]
  | succ k ih => exact h.2 _ ih

theorem allFn_unfold {P : Fn T → Prop} {body : Prog T → Prog T} (hb : ∀ q, q.AllFn P → (body q).AllFn P) (h0 : P abortFn) (r k : Nat) :
    (unfold body r k).AllFn P := by
  induction k with
  | zero => exact h0
  | succ k ih => exact hb _ ih

theorem single_unfold {body : Prog T → Prog T} (hb : ∀ q, q.Single → (body q).Single) (r k : Nat) : (unfold body r k).Single := by
  induction k with
  | zero => trivial
  | succ k ih => exact hb _ ih

/-- C62: a recursive interval-aware function.  If its run on intervals returns with calls nested less than `k` deep, then on all scalars from these intervals it
returns with calls nested less than `k` deep, and the value lies in the interval. -/
theorem C62_recursive (dbg d : Bool) (zero : T) (hs : d = true → LawfulStep T) (body : Prog T → Prog T) (n r k : Nat) (S S' : Nat → Ivl T) (s : Nat → T)
    (hw : WfBody body n r) (hf : ∀ q, q.AllFn Fn.Encl → (body q).AllFn Fn.Encl) (hin : ∀ i < n, s i ∈ᵢ S i)
    (hr : runI dbg d (unfold body r k) S [] = .ok (S', true)) :
    ∃ s', runS zero (unfold body r k) s [] = .ok s' ∧ s' r ∈ᵢ S' r := by
  obtain ⟨Γ, h1, h2⟩ := wf_unfold hw k
  obtain ⟨s', g1, g2⟩ := C62_encloses dbg d zero hs _ (List.range n) Γ S S' s
    (allFn_unfold hf (fun dbg Xs vs R _ _ h => by cases h) r k) h1 (fun x hx => hin x (List.mem_range.1 hx)) hr
  exact ⟨s', g1, g2 r h2⟩

/-- C82: a recursive function is inclusion isotone; if its branch conditions are single comparisons, it returns for narrower arguments if it does for wider ones,
with calls nested no deeper. -/
theorem C82_recursive (dbg d : Bool) (hs : d = true → LawfulStep T) (body : Prog T → Prog T) (n r k : Nat) (S Q Q' : Nat → Ivl T)
    (hw : WfBody body n r) (hf : ∀ q, q.AllFn Fn.IsoDef → (body q).AllFn Fn.IsoDef) (hsg : ∀ q, q.Single → (body q).Single)
    (hS : ∀ i < n, Proper (S i)) (hin : ∀ i < n, ∀ v, v ∈ᵢ S i → v ∈ᵢ Q i)
    (hr : runI dbg d (unfold body r k) Q [] = .ok (Q', true)) :
    ∃ S', runI dbg d (unfold body r k) S [] = .ok (S', true) ∧ Proper (S' r) ∧ ∀ v, v ∈ᵢ S' r → v ∈ᵢ Q' r := by
  obtain ⟨Γ, h1, h2⟩ := wf_unfold hw k
  obtain ⟨S', g1, g2, g3⟩ := C82_defined dbg d hs _ (List.range n) Γ S Q Q'
    (allFn_unfold hf (fun dbg Xs Ys Q _ _ _ h => by cases h) r k) (single_unfold hsg r k) h1 (fun x hx => hS x (List.mem_range.1 hx)) (fun x hx => hin x (List.mem_range.1 hx)) hr
  have hsc := (run_step hs h1 (inv_start fun x hx => hS x (List.mem_range.1 hx)) g1).1.sub r h2
  exact ⟨S', g1, g2 r h2, g3 r hsc⟩

end generic

/-! ## examples, and why the rules are needed -/

/-- `T g(T x) { auto r = T{ }; auto c = (x < 10); if (possibly(c)) { auto xc = constrain(x, c); assign_partial(r, xc); }
if (possibly(!c)) { auto xn = constrain(x, !c); auto y = xn - 7; auto z = g(y); assign_partial(r, z); } return r; }` -/
def descend (lit : Nat → Prog (SInt 31)) (q : Prog (SInt 31)) : Prog (SInt 31) :=
  .seq (.decl 1) <| .branch (.cmp .lt (.var 0) (.lit (i32 10)))
    (.seq (.constrain 2 0 0) (.assignPartial 1 2))
    (.seq (.constrain 3 0 0) <| .seq (lit 4) <| .seq (.letF 5 (fn2 subI (intOp fun a b => some (a - b))) [3, 4]) <|
      .seq (.call 6 q [5] 1) (.assignPartial 1 6))

/-- a literal -/
def litFn (v : SInt 31) : Fn (SInt 31) := ⟨0, fun _ _ => .ok ⟨v, v⟩, fun _ => .ok v⟩
theorem litFn_encl (v : SInt 31) : (litFn v).Encl := by
  intro dbg Xs vs R _ _ h _
  cases h
  exact ⟨v, rfl, by simp [Pt, bint_le]⟩

private def seven (x : Nat) : Prog (SInt 31) := .letF x (litFn (i32 7)) []

theorem descend_wf : WfBody (descend seven) 1 1 := by
  refine ⟨le_refl _, ?_⟩
  rintro q ⟨Γ, h1, h2⟩
  have h1' : q.check (Ctx.start (List.range [5].length)) = some Γ := h1
  have h3 : Γ.asgd.contains 1 = true := by simpa using h2
  simp only [descend, seven, Prog.check, Option.bind_eq_bind]
  simp only [h1', Option.bind_some, h3]
  exact ⟨_, rfl, by decide⟩

theorem descend_encl (q : Prog (SInt 31)) (h : q.AllFn Fn.Encl) : (descend seven q).AllFn Fn.Encl :=
  ⟨trivial, ⟨trivial, trivial⟩, trivial, litFn_encl _, C62_int.2.1, h, trivial⟩

theorem litFn_iso (v : SInt 31) : (litFn v).IsoDef := by
  intro dbg Xs Ys Q _ _ _ h hp
  cases h
  exact ⟨_, rfl, hp, fun _ h => h⟩
theorem descend_iso (q : Prog (SInt 31)) (h : q.AllFn Fn.IsoDef) : (descend seven q).AllFn Fn.IsoDef :=
  ⟨trivial, ⟨trivial, trivial⟩, trivial, litFn_iso _, C82_int subI (by simp) _, h, trivial⟩
theorem descend_single (q : Prog (SInt 31)) (h : q.Single) : (descend seven q).Single := ⟨trivial, rfl, ⟨trivial, trivial⟩, trivial, trivial, trivial, h, trivial⟩

/-! Non-vacuity: the recursion on `[0, 30]` ends after four calls. -/
example : (do let r ← runI true true (unfold (descend seven) 1 5) (fun _ => ⟨i32 0, i32 30⟩) []; return (r.1 1, r.2)) = .ok ((⟨i32 0, i32 9⟩ : Ivl (SInt 31)), true) ∧
    (do let r ← runS (i32 0) (unfold (descend seven) 1 5) (fun _ => i32 29) []; return r 1) = .ok (i32 8) := by
  refine ⟨by decide +kernel, by decide +kernel⟩
example : i32 29 ∈ᵢ (⟨i32 0, i32 30⟩ : Ivl (SInt 31)) ∧
    ∃ S', runI true true (unfold (descend seven) 1 5) (fun _ => ⟨i32 0, i32 30⟩) [] = .ok (S', true) ∧ S' 1 = ⟨i32 0, i32 9⟩ := by
  refine ⟨by decide, ?_⟩
  have h : (do let r ← runI true true (unfold (descend seven) 1 5) (fun _ => ⟨i32 0, i32 30⟩) []; return (r.1 1, r.2)) =
    .ok ((⟨i32 0, i32 9⟩ : Ivl (SInt 31)), true) := by decide +kernel
  cases hr : runI true true (unfold (descend seven) 1 5) (fun _ => ⟨i32 0, i32 30⟩) [] with
  | error e => rw [hr] at h; cases h
  | ok r =>
    rw [hr] at h
    obtain ⟨S', b⟩ := r
    simp only [ok_bind, pure, Except.pure, Except.ok.injEq, Prod.mk.injEq] at h
    exact ⟨S', by rw [h.2], h.1⟩

/-- `for (int i = 0; i < n; ++i) { auto y = x + x; reset(x, y); auto c = (x < 50); if (possibly(c)) { assign_partial(r, x); } if (possibly(!c)) { } }` -/
def doubling : Nat → Prog (SInt 31) := fun _ =>
  .seq (.letF 2 (fn2 addI (intOp fun a b => some (a + b))) [0, 0]) <| .seq (.reset 0 2) <| .branch (.cmp .lt (.var 0) (.lit (i32 50))) (.assignPartial 1 0) .skip
example : ∀ i, ∃ Γ, (doubling i).check (Ctx.start [0, 1]) = some Γ := fun _ => ⟨_, rfl⟩
example : (do let r ← runI true true (forLoop doubling 6) (fun x => if x = 0 then ⟨i32 1, i32 3⟩ else ⟨i32 0, i32 0⟩) []; return (r.1 0, r.1 1, r.2)) =
      .ok ((⟨i32 64, i32 192⟩, ⟨i32 0, i32 96⟩, true) : Ivl (SInt 31) × Ivl (SInt 31) × Bool) ∧
    (do let r ← runS (i32 0) (forLoop doubling 6) (fun x => if x = 0 then i32 3 else i32 0) []; return (r 0, r 1)) = .ok (i32 192, i32 48) := by
  refine ⟨by decide +kernel, by decide +kernel⟩

/-- `auto x = a; auto c = (a < b); if (possibly(c)) { reset(x, b); }` — the maximum as one would write it for numbers -/
def overwriteProg : Prog (SInt 31) :=
  .seq (.decl 2) <| .seq (.reset 2 0) <| .branch (.cmp .lt (.var 0) (.var 1)) (.reset 2 1) .skip

/-- C62, why a variable declared outside the branch must not be overwritten in it: with `a = [0,3]`, `b = [1,2]` the run on intervals returns `[1,2]`, while on the
scalars `a = 3`, `b = 1` it returns 3. -/
theorem C62_overwrite : overwriteProg.check (Ctx.start [0, 1]) = none ∧
    (do let r ← runI true true overwriteProg (fun x => if x = 0 then ⟨i32 0, i32 3⟩ else ⟨i32 1, i32 2⟩) []; return r.1 2) = .ok ⟨i32 1, i32 2⟩ ∧
    (do let r ← runS (i32 0) overwriteProg (fun x => if x = 0 then i32 3 else i32 1) []; return r 2) = .ok (i32 3) := by
  refine ⟨rfl, by decide, by decide⟩

/-- `auto x = T{ }; auto c = (a < b); if (possibly(c)) { assign(x, b); } if (possibly(!c)) { assign(x, a); }` -/
def assignProg : Prog (SInt 31) :=
  .seq (.decl 2) <| .branch (.cmp .lt (.var 0) (.var 1)) (.assign 2 1) (.assign 2 0)

/-- C62, why the claim that runs do not fail excludes `assign`: if both branches are possible, the second assignment is a contract violation; otherwise the
program is well-formed and its run on intervals encloses that on scalars. -/
theorem C62_assign : (∃ Γ, assignProg.check (Ctx.start [0, 1]) = some Γ ∧ 2 ∈ Γ.asgd) ∧ assignProg.AllFn Fn.Total ∧ assignProg.Single ∧
    (do let r ← runI true true assignProg (fun x => if x = 0 then ⟨i32 0, i32 3⟩ else ⟨i32 1, i32 2⟩) []; return r.1 2) = .error .contract ∧
    (do let r ← runI true true assignProg (fun x => if x = 0 then ⟨i32 0, i32 1⟩ else ⟨i32 2, i32 3⟩) []; return r.1 2) = .ok ⟨i32 2, i32 3⟩ := by
  refine ⟨⟨_, rfl, by decide⟩, ⟨trivial, trivial, trivial⟩, ⟨trivial, rfl, trivial, trivial⟩, by decide, by decide⟩
end Intervals.Props
