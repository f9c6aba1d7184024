import Verif.Lemmas.ProgramMulti
import Verif.Props.Program
import Verif.Props.Enumerate
import Verif.Lemmas.Arith
import Verif.Props.Set
/-!
# C95: interval-aware programs over several value types, with `enumerate` loops
-/
set_option linter.unusedSectionVars false
namespace Intervals.Props
open Intervals Intervals.Spec CppVal

section generic
variable {σ κ : Type} [DecidableEq σ] [DecidableEq κ] {Ty : σ → Type} {En : κ → Type} [∀ k, DecidableEq (En k)] {vals : (k : κ) → List (En k)} [∀ s, CppVal (Ty s)] [∀ s, CppOrder (Ty s)] [∀ s, CppLimits (Ty s)] [∀ s, CppLawfulLimits (Ty s)] [∀ s, CppStep (Ty s)]

/-- C95: a well-formed program, run on intervals, encloses the program run on any scalars from these intervals: if the interval run returns (and no function in it returned
a NaN or unassigned interval), then the scalar run returns, and every assigned variable's value lies in the interval.  A loop over the values of a
function runs its body for every value that the function has on the intervals, on scalars only for the function's value. -/
theorem C95_encloses (hn : ∀ k, (vals k).Nodup) (dbg : Bool) (disc : σ → Bool) (zero : (t : VSort σ κ) → Sc Ty En t) (hs : ∀ s, disc s = true → LawfulStep (Ty s)) (p : MProg Ty vals) (ins : List (MVar σ κ)) (Γ : MCtx Ty vals)
    (S S' : Env (Dm Ty vals)) (s : Env (Sc Ty En)) (hf : p.All MFn.Encl Each.Encl) (hc : p.Wf (MCtx.start ins) Γ) (hin : ∀ x ∈ ins, s x ∈ₘ S x)
    (hr : runMI dbg disc p S [] = .ok (S', true)) : ∃ s', runMS zero p s [] = .ok s' ∧ ∀ x ∈ Γ.asgd, s' x ∈ₘ S' x := by
  have := fun k => Fact.mk (hn k)
  obtain ⟨s', h1, h2, _⟩ := mrun_encl (dbg := dbg) zero hs hf hc (minv_start (fun x hx => dmem_proper (hin x hx))) hr (s := s) (B := [])
    ⟨hin, fun _ h => (nomatch h), rfl⟩
  exact ⟨s', h1, h2.mem⟩

/-- C95: if moreover the branch conditions are single predicates or comparisons, the functions are total and `assign` is not used, the interval run does not fail for any assigned,
NaN-free inputs, and every assigned variable ends up assigned and NaN-free. -/
theorem C95_total (hn : ∀ k, (vals k).Nodup) (dbg : Bool) (disc : σ → Bool) (hs : ∀ s, disc s = true → LawfulStep (Ty s)) (p : MProg Ty vals) (ins : List (MVar σ κ)) (Γ : MCtx Ty vals)
    (S : Env (Dm Ty vals)) (hf : p.All MFn.Total Each.Total) (hp : p.Plain) (hc : p.Wf (MCtx.start ins) Γ) (hin : ∀ x ∈ ins, DProper (S x)) :
    ∃ S', runMI dbg disc p S [] = .ok (S', true) ∧ ∀ x ∈ Γ.asgd, DProper (S' x) := by
  have := fun k => Fact.mk (hn k)
  obtain ⟨S', h⟩ := mrun_total (dbg := dbg) hs hf hp (fun _ h => absurd h List.not_mem_nil) hc (minv_start hin)
  exact ⟨S', h, (mrun_step hs (fun _ h => h.nonempt) hf hc (minv_start hin) h).1.prop⟩

/-- C95: `constrain` with a condition that has nothing to say about the interval — for instance because all comparisons in it are of other types — does not return. -/
theorem C95_unmentioned (dbg : Bool) (disc : σ → Bool) (S : Env (Dm Ty vals)) (e : MCond Ty vals) (c : HCond Ty) (y : σ × Nat) (x R : Ivl (Ty y.1))
    (hb : e.build dbg disc S = .ok c) (hu : e.seenUses y true = false) : constrainH dbg (disc y.1) y.1 y.2 x c ≠ .ok R := by
  intro h
  simp only [constrainH, Intervals.constrain, bind_eq_ok] at h
  obtain ⟨⟨R', f⟩, h1, u, h2, -⟩ := h
  have hm := flag_val _ _ _ _ _ h1
  rw [show decide (Mentions (disc y.1) y.2 (Spec.seen (c.view y.1))) = false by
    rw [decide_eq_false_iff_not, hsh_seen (y := y) (hsh_build hb), show e.skel.seenUses y = false from hu]; decide] at hm
  subst hm
  cases h2

/-! ## functions of one type, and programs of one type -/

/-- a function of C62 with arguments and result of type `Ty s`, called with `n` arguments -/
def MFn.ofFn (s : σ) (f : Fn (Ty s)) (n : Nat) : MFn Ty vals where
  arity := n
  sig _ := .ivl s
  res := .ivl s
  ivl dbg Xs := f.ivl dbg (List.ofFn Xs)
  pt vs := f.pt (List.ofFn vs)

/-- C95: the functions that C62 admits may be used. -/
theorem C95_functions (s : σ) (f : Fn (Ty s)) : (f.Encl → (MFn.ofFn (vals := vals) s f f.arity).Encl) ∧ (f.Total → (MFn.ofFn (vals := vals) s f f.arity).Total) := by
  constructor
  · intro h dbg (Xs : Fin f.arity → Ivl (Ty s)) (vs : Fin f.arity → Ty s) R (hv : ∀ i, vs i ∈ᵢ Xs i) hr hp
    exact h dbg (List.ofFn Xs) (List.ofFn vs) R (List.length_ofFn ..)
      (List.forall₂_iff_get.2 ⟨by rw [List.length_ofFn, List.length_ofFn], fun i h1 h2 => by simpa using hv ⟨i, by simpa using h1⟩⟩) hr hp
  · intro h dbg (Xs : Fin f.arity → Ivl (Ty s)) (hp : ∀ i, Proper (Xs i))
    exact h dbg (List.ofFn Xs) (List.length_ofFn ..) (fun X hX => by
      obtain ⟨i, rfl⟩ := (List.mem_ofFn' _ _).1 hX
      exact hp i)

/-- the condition of a program of C62, as a condition on variables of type `Ty s` -/
def pcondMulti (s : σ) : PCond (Ty s) → MCond Ty vals
  | .cmp op l r => .cmp s op l r
  | .and e f => .and (pcondMulti s e) (pcondMulti s f)
  | .or e f => .or (pcondMulti s e) (pcondMulti s f)
  | .not e => .not (pcondMulti s e)
/-- a program of C62, as a program on variables of type `Ty s` -/
def progMulti (s : σ) : Prog (Ty s) → MProg Ty vals
  | .skip => .skip
  | .seq p q => .seq (progMulti s p) (progMulti s q)
  | .decl x => .decl (.ivl s, x)
  | .letF x f args => .letF x (MFn.ofFn s f args.length) args.get
  | .constrain x y k => .constrain s x y k
  | .assignPartial x y => .assignPartial (.ivl s) x y
  | .assign x y => .assign (.ivl s) x y
  | .reset x y => .reset (.ivl s) x y
  | .block p => .block (progMulti s p)
  | .call x p args r => .call x (progMulti s p) (args.map (.ivl s, ·)) (.ivl s, r)
  | .branch e p q => .branch (pcondMulti s e) (progMulti s p) (progMulti s q)

/-- the same outcome, up to `R` -/
private def Lifts {A B : Type} (R : A → B → Prop) : Outcome A → Outcome B → Prop
  | .ok a, .ok b => R a b
  | .error e, .error e' => e = e'
  | _, _ => False
private theorem Lifts.bind {A B C D : Type} {R : A → B → Prop} {Q : C → D → Prop} {x : Outcome A} {y : Outcome B} {f : A → Outcome C} {g : B → Outcome D}
    (h : Lifts R x y) (hf : ∀ a b, R a b → Lifts Q (f a) (g b)) : Lifts Q (x >>= f) (y >>= g) := by
  cases x <;> cases y <;> first | exact h.elim | exact hf _ _ h | exact h
private theorem Lifts.refl {A : Type} {x : Outcome A} : Lifts Eq x x := by cases x <;> rfl

/-- a condition with comparisons of type `s` only -/
private def HOnly (s : σ) : HCond Ty → Prop
  | .plain _ => False
  | .cmp t c => t = s ∧ c.isLeaf = true
  | .conj _ l r => HOnly s l ∧ HOnly s r
  | .disj _ l r => HOnly s l ∧ HOnly s r
private def Viewed (s : σ) (c : HCond Ty) (c' : Cond (Ty s)) : Prop := HOnly s c ∧ c.view s = c'

omit [DecidableEq σ] [∀ s, CppVal (Ty s)] [∀ s, CppOrder (Ty s)] [∀ s, CppLimits (Ty s)] [∀ s, CppLawfulLimits (Ty s)] [∀ s, CppStep (Ty s)] in
private theorem leaf_isCond {T : Type} {c : Cond T} (h : c.isLeaf = true) : c.isCond = true := by cases c <;> first | rfl | simp [Cond.isLeaf] at h
private theorem only_isCond (s : σ) : ∀ {c : HCond Ty}, HOnly s c → (c.view s).isCond = true
  | .cmp t c, h => by obtain ⟨rfl, h⟩ := h; rw [view_cmp]; exact leaf_isCond h
  | .conj _ _ _, _ => rfl
  | .disj _ _ _, _ => rfl
private theorem only_hcond (s : σ) : ∀ {c : HCond Ty}, HOnly s c → c.isCond = true
  | .cmp _ _, _ => rfl
  | .conj _ _ _, _ => rfl
  | .disj _ _ _, _ => rfl

private theorem viewed_not (dbg : Bool) (s : σ) : ∀ {c : HCond Ty}, HOnly s c → Lifts (Viewed s) (HCond.mkNot dbg c) (Cond.mkNot dbg (c.view s))
  | .cmp t c, h => by
    obtain ⟨rfl, h⟩ := h
    rw [view_cmp]
    simp only [HCond.mkNot]
    cases c <;> simp only [Cond.isLeaf, Bool.false_eq_true] at h <;> simp only [Cond.mkNot] <;>
    · cases BoolSet.not dbg _ <;> first | rfl | exact ⟨⟨rfl, rfl⟩, view_cmp _ _⟩
  | .conj b l r, h => by
    simp only [HCond.mkNot, HCond.view, Cond.mkNot, only_isCond s h.1, only_isCond s h.2, only_hcond s h.1, only_hcond s h.2, Bool.and_self, if_true]
    refine Lifts.refl.bind ?_; rintro b _ rfl
    refine (viewed_not dbg s h.1).bind ?_; rintro l' _ ⟨h1, rfl⟩
    refine (viewed_not dbg s h.2).bind ?_; rintro r' _ ⟨h2, rfl⟩
    exact ⟨⟨h1, h2⟩, rfl⟩
  | .disj b l r, h => by
    simp only [HCond.mkNot, HCond.view, Cond.mkNot, only_isCond s h.1, only_isCond s h.2, only_hcond s h.1, only_hcond s h.2, Bool.and_self, if_true]
    refine Lifts.refl.bind ?_; rintro b _ rfl
    refine (viewed_not dbg s h.1).bind ?_; rintro l' _ ⟨h1, rfl⟩
    refine (viewed_not dbg s h.2).bind ?_; rintro r' _ ⟨h2, rfl⟩
    exact ⟨⟨h1, h2⟩, rfl⟩

private theorem cmp_leaf {T : Type} [CppVal T] {dbg : Bool} {op : CmpOp} {l r : Operand T} {c : Cond T} (h : buildCmp dbg op l r = .ok c) : c.isLeaf = true := by
  cases op <;> simp only [buildCmp, condEq, condNe, condLt, condLe, condGt, condGe, bind_eq_ok, pure, Except.pure, Except.ok.injEq] at h <;> grind [Cond.isLeaf]

private theorem viewed_build (dbg : Bool) (disc : σ → Bool) (s : σ) (S : Env (Dm Ty vals)) : ∀ e : PCond (Ty s),
    Lifts (Viewed s) ((pcondMulti s e).build dbg disc S) ((e.inst (disc s) (S.ivls.on s)).build dbg)
  | .cmp op l r => by
    simp only [pcondMulti, MCond.build, PCond.inst, CExpr.build]
    cases h : buildCmp dbg op (l.inst (disc s) (S.ivls.on s)) (r.inst (disc s) (S.ivls.on s)) with
    | error e => rfl
    | ok c => exact ⟨⟨rfl, cmp_leaf h⟩, view_cmp _ _⟩
  | .and e f => by
    refine (viewed_build dbg disc s S e).bind ?_; rintro l _ ⟨h1, rfl⟩
    refine (viewed_build dbg disc s S f).bind ?_; rintro r _ ⟨h2, rfl⟩
    simp only [HCond.mkAnd, only_hcond s h1, Bool.true_or, if_true]
    exact ⟨⟨h1, h2⟩, by simp only [HCond.view, Cond.mkAnd, view_truth, only_isCond s h1, Bool.true_or, if_true]⟩
  | .or e f => by
    refine (viewed_build dbg disc s S e).bind ?_; rintro l _ ⟨h1, rfl⟩
    refine (viewed_build dbg disc s S f).bind ?_; rintro r _ ⟨h2, rfl⟩
    simp only [HCond.mkOr, only_hcond s h1, Bool.true_or, if_true]
    exact ⟨⟨h1, h2⟩, by simp only [HCond.view, Cond.mkOr, view_truth, only_isCond s h1, Bool.true_or, if_true]⟩
  | .not e => by
    refine (viewed_build dbg disc s S e).bind ?_; rintro l _ ⟨h1, rfl⟩
    exact viewed_not dbg s h1

private theorem on_upd {τ : Type} [DecidableEq τ] {A : τ → Type} (S : Env A) (s : τ) (x : Nat) (v : A s) : (mupd S (s, x) v).on s = upd (S.on s) x v := by
  funext y
  unfold Env.on upd
  by_cases h : y = x
  · subst h; rw [if_pos rfl]; exact mupd_self S (s, y) v
  · rw [if_neg h, mupd_ne]; simpa using h

private theorem on_frame {τ : Type} [DecidableEq τ] {A : τ → Type} (dflt : (s : τ) → A s) (S : Env A) (s : τ) (args : List Nat) :
    (mframe dflt S (args.map (s, ·))).on s = frame (dflt s) (args.map (S.on s)) := by
  funext y
  unfold Env.on frame mframe
  simp only [List.getElem?_map]
  cases args[y]? <;> simp

private theorem run_multi (dbg : Bool) (disc : σ → Bool) (s : σ) : ∀ (p : Prog (Ty s)) (S : Env (Dm Ty vals)) (K : List (HCond Ty)) (K' : List (Cond (Ty s))),
    List.Forall₂ (Viewed s) K K' → Lifts (fun a b => a.1.ivls.on s = b.1 ∧ a.2 = b.2) (runMI dbg disc (progMulti s p) S K) (runI dbg (disc s) p (S.ivls.on s) K') := by
  intro p
  induction p with
  | skip => intro S K K' hK; exact ⟨rfl, rfl⟩
  | seq p q ihp ihq =>
    intro S K K' hK
    refine (ihp S K K' hK).bind ?_; rintro ⟨S1, b1⟩ ⟨_, _⟩ ⟨rfl, rfl⟩
    refine (ihq S1 K K' hK).bind ?_; rintro ⟨S2, b2⟩ ⟨_, _⟩ ⟨rfl, rfl⟩
    exact ⟨rfl, rfl⟩
  | decl x => intro S K K' hK; exact ⟨on_upd S (.ivl s) x _, rfl⟩
  | letF x f args =>
    intro S K K' hK
    have e : List.ofFn (fun i : Fin args.length => S (.ivl s, args.get i)) = args.map (S.ivls.on s) := by
      apply List.ext_getElem <;> simp [Env.on]
    simp only [progMulti, runMI, runI, MFn.ofFn]
    rw [e]
    refine Lifts.refl.bind ?_; rintro R _ rfl
    exact ⟨on_upd S (.ivl s) x _, rfl⟩
  | constrain x y k =>
    intro S K K' hK
    simp only [progMulti, runMI, runI]
    have hl := hK.length_eq
    by_cases hk : k < K.length
    · have hk' : k < K'.length := hl ▸ hk
      have h := (List.forall₂_iff_get.1 hK).2 k hk hk'
      simp only [List.get_eq_getElem] at h
      rw [List.getElem?_eq_getElem hk, List.getElem?_eq_getElem hk']
      simp only [constrainH]
      rw [h.2]
      refine Lifts.refl.bind ?_; rintro R _ rfl
      exact ⟨on_upd S (.ivl s) x _, rfl⟩
    · rw [List.getElem?_eq_none (by omega), List.getElem?_eq_none (by omega)]; rfl
  | assignPartial x y =>
    intro S K K' hK
    refine Lifts.bind (R := Eq) Lifts.refl ?_; rintro R _ rfl
    exact ⟨on_upd S (.ivl s) x _, rfl⟩
  | assign x y =>
    intro S K K' hK
    refine Lifts.bind (R := Eq) Lifts.refl ?_; rintro R _ rfl
    exact ⟨on_upd S (.ivl s) x _, rfl⟩
  | reset x y => intro S K K' hK; exact ⟨on_upd S (.ivl s) x _, rfl⟩
  | block p ih => intro S K K' hK; exact ih S K K' hK
  | call x p args r ih =>
    intro S K K' hK
    have h := ih (mframe (A := Dm Ty vals) Dm.unassigned S (args.map (.ivl s, ·))) [] [] .nil
    have e := on_frame (A := Dm Ty vals) Dm.unassigned S (.ivl s) args
    change (mframe (A := Dm Ty vals) Dm.unassigned S (args.map (.ivl s, ·))).ivls.on s = _ at e
    rw [e] at h
    refine h.bind ?_; rintro ⟨S1, b1⟩ ⟨_, _⟩ ⟨rfl, rfl⟩
    exact ⟨on_upd S (.ivl s) x _, rfl⟩
  | branch e p q ihp ihq =>
    intro S K K' hK
    simp only [progMulti, runMI, runI]
    refine (viewed_build dbg disc s S e).bind ?_; rintro c _ ⟨hc, rfl⟩
    rw [view_truth]
    have step : ∀ (S : Env (Dm Ty vals)) (b : Bool), Lifts (fun a b => a.1.ivls.on s = b.1 ∧ a.2 = b.2)
        (do let nc ← HCond.mkNot dbg c
            let (S2, b2) ← if BoolSet.possibly nc.truth then runMI dbg disc (progMulti s q) S (nc :: K) else pure (S, true)
            return (S2, b && b2))
        (do let nc ← Cond.mkNot dbg (c.view s)
            let (S2, b2) ← if BoolSet.possibly nc.truth then runI dbg (disc s) q (S.ivls.on s) (nc :: K') else pure (S.ivls.on s, true)
            return (S2, b && b2)) := by
      intro S b
      refine (viewed_not dbg s hc).bind ?_; rintro nc _ ⟨hnc, rfl⟩
      rw [view_truth]
      by_cases h : BoolSet.possibly nc.truth = true
      · simp only [h, if_true]
        refine (ihq S _ _ (.cons ⟨hnc, rfl⟩ hK)).bind ?_; rintro ⟨S1, b1⟩ ⟨_, _⟩ ⟨rfl, rfl⟩
        exact ⟨rfl, rfl⟩
      · simp only [h, if_false, Bool.false_eq_true]
        exact ⟨rfl, rfl⟩
    by_cases h : BoolSet.possibly c.truth = true
    · simp only [h, if_true]
      refine (ihp S _ _ (.cons ⟨hc, rfl⟩ hK)).bind ?_; rintro ⟨S1, b1⟩ ⟨_, _⟩ ⟨rfl, rfl⟩
      exact step S1 b1
    · simp only [h, if_false, Bool.false_eq_true]
      exact step S true

private theorem eval_multi (s : σ) (ρ : Env (Sc Ty En)) : ∀ e : PCond (Ty s), (pcondMulti (vals := vals) s e).eval ρ = e.eval (ρ.pts.on s)
  | .cmp _ _ _ => rfl
  | .and e f => by simp only [pcondMulti, MCond.eval, PCond.eval, eval_multi s ρ e, eval_multi s ρ f]
  | .or e f => by simp only [pcondMulti, MCond.eval, PCond.eval, eval_multi s ρ e, eval_multi s ρ f]
  | .not e => by simp only [pcondMulti, MCond.eval, PCond.eval, eval_multi s ρ e]

private theorem runS_multi (zero : (t : VSort σ κ) → Sc Ty En t) (s : σ) : ∀ (p : Prog (Ty s)) (S : Env (Sc Ty En)) (K : List Bool),
    Lifts (fun a b => a.pts.on s = b) (runMS zero (progMulti (vals := vals) s p) S K) (runS (zero (.ivl s)) p (S.pts.on s) K) := by
  intro p
  induction p with
  | skip => intro S K; rfl
  | seq p q ihp ihq =>
    intro S K
    refine (ihp S K).bind ?_; rintro S1 _ rfl
    exact ihq S1 K
  | decl x => intro S K; exact on_upd S (.ivl s) x _
  | letF x f args =>
    intro S K
    have e : List.ofFn (fun i : Fin args.length => S (.ivl s, args.get i)) = args.map (S.pts.on s) := by
      apply List.ext_getElem <;> simp [Env.on]
    simp only [progMulti, runMS, runS, MFn.ofFn]
    rw [e]
    refine Lifts.refl.bind ?_; rintro R _ rfl
    exact on_upd S (.ivl s) x _
  | constrain x y k =>
    intro S K
    simp only [progMulti, runMS, runS]
    cases K[k]? with
    | none => rfl
    | some c =>
      refine Lifts.bind (R := Eq) Lifts.refl ?_; rintro R _ rfl
      exact on_upd S (.ivl s) x _
  | assignPartial x y => intro S K; exact on_upd S (.ivl s) x _
  | assign x y => intro S K; exact on_upd S (.ivl s) x _
  | reset x y => intro S K; exact on_upd S (.ivl s) x _
  | block p ih => intro S K; exact ih S K
  | call x p args r ih =>
    intro S K
    have h := ih (mframe zero S (args.map (.ivl s, ·))) []
    have e := on_frame (A := Sc Ty En) zero S (.ivl s) args
    change (mframe (A := Sc Ty En) zero S (args.map (.ivl s, ·))).pts.on s = _ at e
    rw [e] at h
    refine h.bind ?_; rintro S1 _ rfl
    exact on_upd S (.ivl s) x _
  | branch e p q ihp ihq =>
    intro S K
    simp only [progMulti, runMS, runS, eval_multi]
    cases e.eval (S.pts.on s) with
    | true =>
      simp only [if_true, Bool.not_true, Bool.false_eq_true, if_false]
      refine (ihp S _).bind ?_; rintro S1 _ rfl
      rfl
    | false =>
      simp only [if_true, Bool.not_false, Bool.false_eq_true, if_false]
      exact ihq S _

/-- C95: on programs over one type, the two languages agree: the runs of a program of C62, on intervals and on scalars, are its runs in the language of C95. -/
theorem C95_single (dbg : Bool) (disc : σ → Bool) (zero : (t : VSort σ κ) → Sc Ty En t) (t : σ) (p : Prog (Ty t)) (S : Env (Dm Ty vals)) (s : Env (Sc Ty En)) :
    (do let r ← runMI dbg disc (progMulti (vals := vals) t p) S []; return (r.1.ivls.on t, r.2)) = runI dbg (disc t) p (S.ivls.on t) [] ∧
    (do let r ← runMS zero (progMulti (vals := vals) t p) s []; return r.pts.on t) = runS (zero (.ivl t)) p (s.pts.on t) [] := by
  constructor
  · have h := run_multi dbg disc t p S [] [] .nil
    revert h
    cases runMI dbg disc (progMulti (vals := vals) t p) S [] <;> cases runI dbg (disc t) p (S.ivls.on t) [] <;> intro h
    · cases h; rfl
    · exact h.elim
    · exact h.elim
    · obtain ⟨h1, h2⟩ := h
      exact congrArg Except.ok (Prod.ext h1 h2)
  · have h := runS_multi (vals := vals) zero t p s []
    revert h
    cases runMS zero (progMulti (vals := vals) t p) s [] <;> cases runS (zero (.ivl t)) p (s.pts.on t) [] <;> intro h
    · cases h; rfl
    · exact h.elim
    · exact h.elim
    · exact congrArg Except.ok h
end generic

/-! ## enumeration and indexed access -/

/-- the values that `for (auto j : enumerate(x))` visits for an interval of integers -/
def enumVisit {l h : Int} (X : Ivl (BInt l h)) : Outcome (List (BInt l h)) := do visits (← enumerateI X)

/-- C95: `enumerate` of an integer interval visits exactly its points. -/
theorem C95_enumerate (l h : Int) : VisitsAll (enumVisit (l := l) (h := h)) := by
  intro X hX
  have hx : X.lo.val ≤ X.hi.val := by simpa [Proper, bint_le] using hX
  obtain ⟨it, vs, h1, h2, h3⟩ := C53_interval X hx
  refine ⟨vs, by simp only [enumVisit, h1, ok_bind, h2], fun v => ?_⟩
  have hm : v ∈ vs ↔ v.val ∈ vs.map (·.val) := by
    rw [List.mem_map]
    refine ⟨fun h => ⟨v, h, rfl⟩, ?_⟩
    rintro ⟨w, hw, e⟩
    cases v; cases w; cases e; exact hw
  rw [hm, h3, List.mem_map]
  simp only [List.mem_range, Pt, bint_le, decide_eq_true_eq]
  constructor
  · rintro ⟨i, hi, e⟩; omega
  · rintro ⟨h1, h2⟩; exact ⟨(v.val - X.lo.val).toNat, by omega, by omega⟩

section generic
variable {σ κ : Type} [DecidableEq σ] [DecidableEq κ] {Ty : σ → Type} {En : κ → Type} [∀ k, DecidableEq (En k)] {vals : (k : κ) → List (En k)} [∀ s, CppVal (Ty s)] [∀ s, CppOrder (Ty s)]
/-- `for (auto j : enumerate(x))` for a variable `x`, visiting the values `en x` -/
def Each.ofVisit (s : σ) (en : Ivl (Ty s) → Outcome (List (Ty s))) : Each Ty vals where
  arity := 1
  sig _ := .ivl s
  V := Ty s
  visit _ Xs := en (Xs 0)
  pt vs := .ok (vs 0)
/-- `for (auto v : enumerate(f(x, y)))` for a function with values in `set<V>`, and for its overload for scalars with values in `V` -/
def Each.ofSet {V : Type} [DecidableEq V] {L : List V} (n : Nat) (sig : Fin n → VSort σ κ) (ivl : Bool → ((i : Fin n) → Dm Ty vals (sig i)) → Outcome (CSet L))
    (pt : ((i : Fin n) → Sc Ty En (sig i)) → Outcome V) : Each Ty vals where
  arity := n
  sig := sig
  V := V
  visit dbg Xs := do visits (← enumerateSet (← ivl dbg Xs))
  pt := pt

/-- C95: loops over the points of an interval may be used. -/
theorem C95_visit (s : σ) (en : Ivl (Ty s) → Outcome (List (Ty s))) (h : VisitsAll en) : (Each.ofVisit (vals := vals) s en).Encl ∧ (Each.ofVisit (vals := vals) s en).Total := by
  constructor
  · intro dbg (Xs : Fin 1 → Ivl (Ty s)) (vs : Fin 1 → Ty s) ws (hv : ∀ i, vs i ∈ᵢ Xs i) (hr : en (Xs 0) = .ok ws)
    obtain ⟨ws', h1, h2⟩ := h (Xs 0) (cle_trans (hv 0).1 (hv 0).2)
    rw [hr] at h1; cases h1
    exact ⟨vs 0, rfl, (h2 _).2 (hv 0)⟩
  · intro dbg (Xs : Fin 1 → Ivl (Ty s)) (hX : ∀ i, Proper (Xs i))
    obtain ⟨ws, h1, h2⟩ := h (Xs 0) (hX 0)
    refine ⟨ws, h1, fun h0 => ?_⟩
    have := (h2 _).2 ⟨cle_left (hX 0), hX 0⟩
    rw [h0] at this; cases this

/-- C95: loops over the members of a set-valued function may be used if the set contains the scalar values of the function; they run if the set has a member. -/
theorem C95_set {V : Type} [DecidableEq V] {L : List V} (hn : L.Nodup) (n : Nat) (sig : Fin n → VSort σ κ)
    (ivl : Bool → ((i : Fin n) → Dm Ty vals (sig i)) → Outcome (CSet L)) (pt : ((i : Fin n) → Sc Ty En (sig i)) → Outcome V) :
    ((∀ dbg Xs vs R, (∀ i, vs i ∈ₘ Xs i) → ivl dbg Xs = .ok R → ∃ v, pt vs = .ok v ∧ SMem v R) → (Each.ofSet n sig ivl pt).Encl) ∧
    ((∀ dbg Xs, (∀ i, DProper (Xs i)) → ∃ R, ivl dbg Xs = .ok R ∧ ∃ v, SMem v R) → (Each.ofSet n sig ivl pt).Total) := by
  constructor
  · intro h dbg Xs vs ws hv hr
    obtain ⟨R, h1, hr⟩ := bind_eq_ok.1 (show (ivl dbg Xs >>= fun R => enumerateSet R >>= fun it => visits it) = .ok ws from hr)
    obtain ⟨it, h2, h3⟩ := bind_eq_ok.1 hr
    obtain ⟨v, p1, p2⟩ := h dbg Xs vs R hv h1
    obtain ⟨it', ws', q1, q2, _, q4⟩ := C53_set hn R ⟨v, p2⟩
    rw [h2] at q1; cases q1
    rw [h3] at q2; cases q2
    exact ⟨v, p1, (q4 v).2 p2⟩
  · intro h dbg Xs hX
    obtain ⟨R, h1, v, hv⟩ := h dbg Xs hX
    obtain ⟨it, ws, q1, q2, _, q4⟩ := C53_set hn R ⟨v, hv⟩
    refine ⟨ws, by simp only [Each.ofSet, h1, q1, q2, ok_bind], fun h0 => ?_⟩
    have := (q4 v).2 hv
    rw [h0] at this; cases this

/-- `sgn(x)` -/
def sgnEach (s : σ) [CppNum (Ty s)] : Each Ty vals := Each.ofSet (L := Sign.vals) 1 (fun _ => .ivl s) (fun dbg Xs => sgnI dbg (Xs 0)) (fun vs => sgnScalar false CppNum.zero (vs 0))

/-- C95: `for (auto v : enumerate(sgn(x)))` may be used, for every value type with a zero that is not a NaN. -/
theorem C95_sgn (s : σ) [CppNum (Ty s)] (hz : NotNan (CppNum.zero : Ty s)) : (sgnEach (Ty := Ty) (vals := vals) s).Encl ∧ (sgnEach (Ty := Ty) (vals := vals) s).Total := by
  have key : ∀ dbg (X : Ivl (Ty s)), Proper X → ∃ R, sgnI dbg X = .ok R ∧ ∀ x, x ∈ᵢ X → ∃ v, sgnScalar false CppNum.zero x = .ok v ∧ SMem v R := by
    intro dbg X hX
    obtain ⟨R, h1, h2, h3, h4⟩ := sgnI_spec dbg X (assigned_of_proper hX)
    refine ⟨R, h1, fun x hx => ?_⟩
    obtain ⟨v, q1, q2, q3, q4⟩ := C08_sgn false (CppNum.zero : Ty s) x hz (cle_left hx.2)
    refine ⟨v, q1, ?_⟩
    cases v with
    | pos =>
      obtain ⟨a1, a2, a3⟩ := (CppOrder.lt_iff _ _).1 (q2.1 rfl)
      refine h2.2 ((CppOrder.lt_iff _ _).2 ⟨a1, cle_right hx.2, ?_⟩)
      rw [Bool.eq_false_iff]; intro hc; rw [cle_trans hx.2 hc] at a3; cases a3
    | neg =>
      obtain ⟨a1, a2, a3⟩ := (CppOrder.lt_iff _ _).1 (q3.1 rfl)
      refine h3.2 ((CppOrder.lt_iff _ _).2 ⟨cle_left hx.1, a2, ?_⟩)
      rw [Bool.eq_false_iff]; intro hc; rw [cle_trans hc hx.1] at a3; cases a3
    | zero =>
      obtain ⟨a1, a2⟩ := (CppOrder.eq_iff _ _).1 (q4.1 rfl)
      exact h4.2 (by rw [Bool.and_eq_true]; exact ⟨cle_trans hx.1 a1, cle_trans a2 hx.2⟩)
  constructor
  · refine (C95_set (by decide) 1 _ _ _).1 ?_
    intro dbg (Xs : Fin 1 → Ivl (Ty s)) (vs : Fin 1 → Ty s) R (hv : ∀ i, vs i ∈ᵢ Xs i) (hr : sgnI dbg (Xs 0) = .ok R)
    obtain ⟨R', h1, h2⟩ := key dbg (Xs 0) (cle_trans (hv 0).1 (hv 0).2)
    rw [hr] at h1; cases h1
    exact h2 _ (hv 0)
  · refine (C95_set (by decide) 1 _ _ _).2 ?_
    intro dbg (Xs : Fin 1 → Ivl (Ty s)) (hX : ∀ i, Proper (Xs i))
    obtain ⟨R, h1, h2⟩ := key dbg (Xs 0) (hX 0)
    obtain ⟨v, _, hv⟩ := h2 _ ⟨cle_left (hX 0), hX 0⟩
    exact ⟨R, h1, v, hv⟩
end generic

private theorem loopM_fold {V A : Type _} (f : V → A → Outcome (A × Bool)) : ∀ (vs : List V) (a : A),
    (do let r ← loopM f vs a; return r.1) = vs.foldlM (fun a v => do let r ← f v a; return r.1) a := by
  intro vs
  induction vs with
  | nil => intro a; rfl
  | cons v vs ih =>
    intro a
    simp only [loopM, List.foldlM_cons]
    cases f v a with
    | error e => rfl
    | ok r =>
      simp only [ok_bind, pure, Except.pure] at ih ⊢
      rw [← ih]
      cases loopM f vs r.1 <;> rfl

private theorem forEach_collect {It V : Type} [EnumIt It V] : ∀ (n : Nat) (it : It) (acc r : List V), EnumIt.fuel it ≤ n →
    forEach (fun v l => .ok (l ++ [v])) it acc = .ok r →
    ∃ vs, r = acc ++ vs ∧ ∀ {A : Type} (f : V → A → Outcome A) (a : A), forEach f it a = vs.foldlM (fun a v => f v a) a := by
  intro n
  induction n with
  | zero =>
    intro it acc r hn h
    by_cases hd : EnumIt.done it = true
    · rw [forEach_done _ _ _ hd] at h; cases h
      exact ⟨[], by simp, fun f a => by rw [forEach_done _ _ _ hd]; rfl⟩
    · rw [forEach, if_neg hd] at h
      cases hv : EnumIt.deref it with
      | error e => rw [hv] at h; cases h
      | ok v =>
        rw [hv] at h
        simp only at h
        split at h
        · cases h
        · next it' hi => have := EnumIt.inc_fuel _ _ hi; omega
  | succ n ih =>
    intro it acc r hn h
    by_cases hd : EnumIt.done it = true
    · rw [forEach_done _ _ _ hd] at h; cases h
      exact ⟨[], by simp, fun f a => by rw [forEach_done _ _ _ hd]; rfl⟩
    · rw [forEach, if_neg hd] at h
      cases hv : EnumIt.deref it with
      | error e => rw [hv] at h; cases h
      | ok v =>
        rw [hv] at h
        simp only at h
        split at h
        · cases h
        · next it' hi =>
          have := EnumIt.inc_fuel _ _ hi
          obtain ⟨vs, rfl, hvs⟩ := ih it' (acc ++ [v]) r (by omega) h
          refine ⟨v :: vs, by simp, fun f a => ?_⟩
          rw [forEach_step f it it' a v (by simpa using hd) hv hi, List.foldlM_cons]
          congr 1; funext a'; exact hvs f a'

/-- C95: the loop of the language is the loop over the iterators of the library, for intervals and for sets: running the body for the values visited by
`r = enumerate(x)` is `for (auto it = r.begin(); it != r.end(); ++it)`. -/
theorem C95_loop {It V : Type} [EnumIt It V] {A : Type} (f : V → A → Outcome (A × Bool)) (it : It) (vs : List V) (h : visits it = .ok vs) (a : A) :
    (do let r ← loopM f vs a; return r.1) = forEach (fun v a => do let r ← f v a; return r.1) it a := by
  obtain ⟨vs', rfl, h'⟩ := forEach_collect _ it [] _ (le_refl _) h
  rw [h', loopM_fold]

/-- programs with indices and values -/
inductive Srt | idx | val
  deriving DecidableEq
/-- indices are `gsl::index`, values are of type `T` -/
def STy (T : Type) : Srt → Type
  | .idx => Index
  | .val => T
/-- variables that are signs, variables that are truth values -/
inductive Knd | sign | bool
  deriving DecidableEq
def KEn : Knd → Type
  | .sign => Sign
  | .bool => Bool
/-- their values -/
def KVals : (k : Knd) → List (KEn k)
  | .sign => Sign.vals
  | .bool => [false, true]
instance : ∀ k, DecidableEq (KEn k) | .sign => inferInstanceAs (DecidableEq Sign) | .bool => inferInstanceAs (DecidableEq Bool)
theorem KVals_nodup : ∀ k, (KVals k).Nodup | .sign => by decide | .bool => by decide

section srt
variable {T : Type} [CppVal T] [CppOrder T] [CppLimits T] [CppLawfulLimits T] [CppStep T]
instance : ∀ s, CppVal (STy T s) | .idx => inferInstanceAs (CppVal Index) | .val => inferInstanceAs (CppVal T)
instance : {t : VSort Srt Knd} → (v : Sc (STy T) KEn t) → (X : Dm (STy T) KVals t) → Decidable (v ∈ₘ X)
  | .ivl _, v, X => inferInstanceAs (Decidable (v ∈ᵢ X))
  | .set _, v, X => inferInstanceAs (Decidable (SMem v X))
instance : ∀ s, CppOrder (STy T s) | .idx => inferInstanceAs (CppOrder Index) | .val => inferInstanceAs (CppOrder T)
instance : ∀ s, CppLimits (STy T s) | .idx => inferInstanceAs (CppLimits Index) | .val => inferInstanceAs (CppLimits T)
instance : ∀ s, CppLawfulLimits (STy T s) | .idx => inferInstanceAs (CppLawfulLimits Index) | .val => inferInstanceAs (CppLawfulLimits T)
instance : ∀ s, CppStep (STy T s) | .idx => inferInstanceAs (CppStep Index) | .val => inferInstanceAs (CppStep T)

/-- `at(a, i)` -/
def atFn (a : List T) : MFn (STy T) KVals where
  arity := 1
  sig _ := .ivl .idx
  res := .ivl .val
  ivl _ Xs := atI a (Xs 0)
  pt vs := atS a (vs 0)
/-- the constant `v`, as the interval that holds only it -/
def constFn (v : T) : MFn (STy T) KVals where
  arity := 0
  sig i := i.elim0
  res := .ivl .val
  ivl _ _ := .ok (Ivl.ofVal v)
  pt _ := .ok v
/-- `a[j]` for a scalar `j` -/
def elemFn (a : List T) (j : Index) : MFn (STy T) KVals where
  arity := 0
  sig i := i.elim0
  res := .ivl .val
  ivl _ _ := do return Ivl.ofVal (← atS a j)
  pt _ := atS a j

/-- C95: indexed access into a table without NaNs, by an interval of indices or by a scalar index, and constants may be used. -/
theorem C95_at (a : List T) (ha : (a.length : Int) < 2^63) (hn : ∀ v ∈ a, NotNan v) : (atFn a).Encl ∧ (∀ j, (elemFn a j).Encl) ∧
    ∀ v : T, NotNan v → (constFn v).Encl ∧ (constFn v).Total := by
  refine ⟨?_, ?_, fun v hv => ⟨?_, ?_⟩⟩
  · intro dbg (Xs : Fin 1 → Ivl Index) (vs : Fin 1 → Index) (R : Ivl T) (hv : ∀ i, vs i ∈ᵢ Xs i) (hr : atI a (Xs 0) = .ok R) _
    have h0 := hv 0
    change ∃ v, atS a (vs 0) = .ok v ∧ v ∈ᵢ R
    generalize Xs 0 = X at *
    generalize vs 0 = i at *
    have h1 : X.lo.val ≤ i.val ∧ i.val ≤ X.hi.val := by simpa [Pt, bint_le] using h0
    have h2 : 0 ≤ X.lo.val ∧ X.hi.val < a.length := by
      by_contra hc
      simp only [atI, atGen, bind_eq_ok] at hr
      obtain ⟨_, _, _, h, _⟩ := hr
      rw [show (decide (0 ≤ X.lo.val) && decide (X.hi.val < (a.length : Int))) = false by
        rw [Bool.eq_false_iff]; intro h; simp at h; exact hc h] at h
      cases h
    obtain ⟨R', g1, g2, _⟩ := C54_scalars a ha X (le_trans h1.1 h1.2) h2.1 h2.2 (fun k _ _ v hv => hn v (List.mem_of_getElem? hv))
    rw [hr] at g1; cases g1
    have hk : i.val.toNat < a.length := by omega
    refine ⟨a[i.val.toNat], ?_, g2 i.val h1.1 h1.2 _ (List.getElem?_eq_getElem hk)⟩
    rw [C54_scalar_index, if_pos (by omega), List.getElem?_eq_getElem hk]
  · intro j dbg Xs vs R _ hr hp
    change ((do return Ivl.ofVal (← atS a j)) : Outcome (Ivl T)) = Except.ok R at hr
    change ∃ v, atS a j = .ok v ∧ v ∈ᵢ R
    cases h1 : atS a j with
    | error e => rw [h1] at hr; cases hr
    | ok v => rw [h1] at hr; cases hr; exact ⟨v, rfl, hp, hp⟩
  · intro dbg Xs vs R _ hr hp
    cases hr
    exact ⟨v, rfl, hp, hp⟩
  · intro dbg Xs _
    exact ⟨_, rfl, hv⟩

/-- `at(kinds, i)` for a table of enumerators or `bool`s -/
def kindEach {V : Type} [DecidableEq V] (L kinds : List V) : Each (STy T) KVals :=
  Each.ofSet (L := L) 1 (fun _ => .ivl .idx) (fun dbg Xs => atSet dbg kinds (Xs 0)) (fun vs => atS kinds (vs 0))

/-- C95: `for (auto v : enumerate(at(kinds, i)))` may be used. -/
theorem C95_kinds {V : Type} [DecidableEq V] (L kinds : List V) (hn : L.Nodup) (ha : (kinds.length : Int) < 2^63) (hk : ∀ v ∈ kinds, v ∈ L) :
    (kindEach (T := T) L kinds).Encl := by
  refine (C95_set hn 1 _ _ _).1 ?_
  intro dbg (Xs : Fin 1 → Ivl Index) (vs : Fin 1 → Index) R (hv : ∀ i, vs i ∈ᵢ Xs i) (hr : atSet dbg kinds (Xs 0) = .ok R)
  have h0 := hv 0
  change ∃ v, atS kinds (vs 0) = .ok v ∧ SMem v R
  generalize Xs 0 = X at *
  generalize vs 0 = i at *
  have h1 : X.lo.val ≤ i.val ∧ i.val ≤ X.hi.val := by simpa [Pt, bint_le] using h0
  have h2 : 0 ≤ X.lo.val ∧ X.hi.val < kinds.length := by
    by_contra hc
    have := C54_fail_fast (CSet.empty L) (fun r v => do CSet.assignSet dbg r (← CSet.ofVal L v)) kinds X (by omega)
    rw [show atSet dbg kinds X = _ from this] at hr; cases hr
  obtain ⟨R', g1, g2⟩ := C54_enumerators dbg kinds ha X (by omega) h2.1 h2.2 hk
  rw [hr] at g1; cases g1
  have hl : i.val.toNat < kinds.length := by omega
  refine ⟨kinds[i.val.toNat], ?_, (g2 _).2 ⟨i.val, h1.1, h1.2, List.getElem?_eq_getElem hl⟩⟩
  rw [C54_scalar_index, if_pos (by omega), List.getElem?_eq_getElem hl]
end srt

/-! ## the rules are needed -/

/-- default values -/
def zeros {T : Type} (i : Index) (v : T) : (t : VSort Srt Knd) → Sc (STy T) KEn t
  | .ivl .idx => i
  | .ivl .val => v
  | .set .sign => Sign.zero
  | .set .bool => false
/-- the variables: indices, values, signs, truth values -/
def varsI {T : Type} (i : Nat → Ivl Index) (v : Nat → Ivl T) (g : Nat → CSet Sign.vals := fun _ => CSet.empty _) (b : Nat → CSet [false, true] := fun _ => CSet.empty _) :
    Env (Dm (STy T) KVals)
  | (.ivl .idx, n) => i n
  | (.ivl .val, n) => v n
  | (.set .sign, n) => g n
  | (.set .bool, n) => b n
/-- likewise -/
def varsS {T : Type} (i : Nat → Index) (v : Nat → T) (g : Nat → Sign := fun _ => .zero) (b : Nat → Bool := fun _ => false) : Env (Sc (STy T) KEn)
  | (.ivl .idx, n) => i n
  | (.ivl .val, n) => v n
  | (.set .sign, n) => g n
  | (.set .bool, n) => b n
/-- a variable's interval at the end of a run -/
def valOf {T : Type} (n : Nat) (r : Env (Dm (STy T) KVals) × Bool) : Ivl T := r.1 (.ivl .val, n)
/-- a variable's value at the end of a run -/
def valOfS {T : Type} (n : Nat) (r : Env (Sc (STy T) KEn)) : T := r (.ivl .val, n)
/-- likewise, for a sign -/
def signOf {T : Type} (n : Nat) (r : Env (Dm (STy T) KVals) × Bool) : CSet Sign.vals := r.1 (.set .sign, n)
/-- likewise -/
def signOfS {T : Type} (n : Nat) (r : Env (Sc (STy T) KEn)) : Sign := r (.set .sign, n)

/-- `for (auto k : enumerate(i)) { auto v = a[k]; reset(r, v); }` — the loop resets a variable from outside -/
def resetLoop (a : List (SInt 31)) : MProg (STy (SInt 31)) KVals := .each (Each.ofVisit .idx enumVisit) (fun _ => 0) fun k => .seq (.letF 1 (elemFn a k) fun i => i.elim0) (.reset (.ivl .val) 0 1)

private abbrev ix (v : Int) (h : -(2:Int)^63 ≤ v ∧ v ≤ (2:Int)^63 - 1 := by decide) : Index := ⟨v, h.1, h.2⟩

/-- C95, why a loop body must not `reset` a variable from outside: with `a = {10, 20, 5}`, `i = [0,2]`, `r = [0,0]` the run on intervals ends with `r = [5,5]`, while
on the scalars `i = 1`, `r = 0` it ends with `r = 20`.  The rules reject the program. -/
theorem C95_reset_in_loop : (∀ Γ, ¬ (resetLoop [i32 10, i32 20, i32 5]).Wf (MCtx.start [(.ivl .idx, 0), (.ivl .val, 0)]) Γ) ∧
    (do let r ← runMI true (fun _ => true) (resetLoop [i32 10, i32 20, i32 5]) (varsI (T := (SInt 31)) (fun _ => ⟨ix 0, ix 2⟩) (fun _ => ⟨i32 0, i32 0⟩)) []
        return valOf 0 r) = .ok ⟨i32 5, i32 5⟩ ∧
    (do let r ← runMS (zeros (ix 0) (i32 0)) (resetLoop [i32 10, i32 20, i32 5]) (varsS (T := (SInt 31)) (fun _ => ix 1) (fun _ => i32 0)) []
        return valOfS 0 r) = .ok (i32 20) := by
  refine ⟨?_, by decide +kernel, by decide +kernel⟩
  rintro Γ ⟨-, E, -, h, -⟩
  obtain ⟨Γv, ⟨Γ1, ⟨-, -, rfl⟩, h2⟩, -⟩ := h (ix 0)
  exact h2.2.2.1 (by simp [MCtx.bind, MCtx.start])

/-! Non-vacuity: a program with indices and floating-point numbers, a condition that compares both, indexed access and a loop. -/

/-- `max` -/
def maxFn {T : Type} [CppVal T] [CppLimits T] : MFn (STy T) KVals := MFn.ofFn .val (fn2 (T := T) maxI (fun a b => .ok (cmax a b))) 2

/-- `auto r = T{ }; auto c = (i < j) & (x <= y);
if (possibly(c)) { auto ic = constrain(i, c); auto v = at(a, ic); auto xc = constrain(x, c); auto w = max(v, xc); assign_partial(r, w); }
if (possibly(!c)) { for (auto k : enumerate(j)) { auto e = a[k]; assign_partial(r, e); } }` -/
def lookProg (a : List (Fl ℚ)) : MProg (STy (Fl ℚ)) KVals :=
  .seq (.decl (.ivl .val, 2)) <| .branch (.and (.cmp .idx .lt (.var 0) (.var 1)) (.cmp .val .le (.var 0) (.var 1)))
    (.seq (.constrain .idx 2 0 0) <| .seq (.letF 3 (atFn a) fun _ => 2) <| .seq (.constrain .val 4 0 0) <|
      .seq (.letF 5 maxFn (fun i => 3 + i.val)) (.assignPartial (.ivl .val) 2 5))
    (.each (Each.ofVisit .idx enumVisit) (fun _ => 1) fun k => .seq (.letF 3 (elemFn a k) fun i => i.elim0) (.assignPartial (.ivl .val) 2 3))

private abbrev tab : List (Fl ℚ) := [.num 10, .num 20, .num 5]
private def look0 : Env (Dm (STy (Fl ℚ)) KVals) := varsI (fun n => if n = 0 then (⟨ix 0, ix 2⟩ : Ivl Index) else (⟨ix 1, ix 2⟩ : Ivl Index))
  (fun n => if n = 0 then (⟨.num 0, .num 15⟩ : Ivl (Fl ℚ)) else (⟨.num 3, .num 12⟩ : Ivl (Fl ℚ)))
private def lookS : Env (Sc (STy (Fl ℚ)) KEn) := varsS (fun _ => ix 2) (fun n => if n = 0 then (.num 1 : Fl ℚ) else (.num 4 : Fl ℚ))

local macro "wf" : tactic => `(tactic| first | decide | simp [MCtx.bind, MCtx.start, atFn, elemFn, constFn, maxFn, MFn.ofFn, Each.ofVisit, MCond.uses, PTerm.uses])
/-- the rules accept it -/
theorem C95_look_wf (a : List (Fl ℚ)) : ∃ Γ, (lookProg a).Wf (MCtx.start [(.ivl .idx, 0), (.ivl .idx, 1), (.ivl .val, 0), (.ivl .val, 1)]) Γ ∧ (.ivl .val, 2) ∈ Γ.asgd := by
  have h : ∀ (Γ : MCtx (STy (Fl ℚ)) KVals) (e : MCond (STy (Fl ℚ)) KVals) (p q : MProg (STy (Fl ℚ)) KVals) (x : MVar Srt Knd), x ∈ Γ.scope → e.ok Γ.asgd →
      (∃ Δ, p.Wf { Γ with conds := (e, true) :: Γ.conds, outer := Γ.scope } Δ ∧ x ∈ Δ.asgd) →
      (∃ Δ, q.Wf { Γ with conds := (e, false) :: Γ.conds, outer := Γ.scope } Δ ∧ x ∈ Δ.asgd) → ∃ Δ, (MProg.branch e p q).Wf Γ Δ ∧ x ∈ Δ.asgd := by
    rintro Γ e p q x hx he ⟨Γp, hp, ap⟩ ⟨Γq, hq, aq⟩
    exact ⟨_, ⟨he, Γp, Γq, hp, hq, rfl⟩, List.mem_append_right _ (by simp [hx, ap, aq])⟩
  obtain ⟨Δ, h1, h2⟩ := h ⟨[(.ivl .val, 2), (.ivl .idx, 0), (.ivl .idx, 1), (.ivl .val, 0), (.ivl .val, 1)], [(.ivl .idx, 0), (.ivl .idx, 1), (.ivl .val, 0), (.ivl .val, 1)], [], []⟩ _ _ _ (.ivl .val, 2) (by decide)
    (show MCond.ok _ (.and (.cmp .idx .lt (.var 0) (.var 1)) (.cmp .val .le (.var 0) (.var 1))) by simp [MCond.ok, MCond.ok.term])
    ⟨_, (show (MProg.seq (.constrain .idx 2 0 0) <| .seq (.letF 3 (atFn a) fun _ => 2) <| .seq (.constrain .val 4 0 0) <|
        .seq (.letF 5 maxFn (fun i => 3 + i.val)) (.assignPartial (.ivl .val) 2 5)).Wf _ _ from
      ⟨_, ⟨_, _, rfl, by wf, by wf, by wf, by wf, rfl⟩, _, ⟨by wf, fun _ => by wf, rfl⟩, _,
      ⟨_, _, rfl, by wf, by wf, by wf, by wf, rfl⟩, _, ⟨by wf, fun (i : Fin 2) => by obtain rfl | rfl := (show i = 0 ∨ i = 1 by omega) <;> wf, rfl⟩, by wf, by wf, by wf, rfl⟩), by wf⟩
    ⟨_, (show (MProg.each (Ty := STy (Fl ℚ)) (vals := KVals) (Each.ofVisit .idx enumVisit) (fun _ => 1) fun k => .seq (.letF 3 (elemFn a k) fun i => i.elim0) (.assignPartial (.ivl .val) 2 3)).Wf _ _ from
      ⟨fun _ => by wf, [(.ivl .val, 2)], by wf, fun v => ⟨_, ⟨_, ⟨by wf, fun i => i.elim0, rfl⟩, by wf, by wf, by wf, rfl⟩, by wf⟩, rfl⟩), by wf⟩
  exact ⟨Δ, ⟨_, ⟨by decide, rfl⟩, h1⟩, h2⟩

example : (do let r ← runMI true (fun s => s == Srt.idx) (lookProg tab) look0 []; return (valOf 2 r, r.2)) = .ok (⟨.num 5, .num 20⟩, true) ∧
    (do let r ← runMS (zeros (ix 0) (.num 0 : Fl ℚ)) (lookProg tab) lookS []; return valOfS 2 r) = .ok (.num 5) := by
  refine ⟨by decide +kernel, by decide +kernel⟩

/-- all hypotheses of `C95_encloses` hold for it -/
example (S' : Env (Dm (STy (Fl ℚ)) KVals)) (hr : runMI true (fun s => s == Srt.idx) (lookProg tab) look0 [] = .ok (S', true)) :
    ∃ s', runMS (zeros (ix 0) (.num 0 : Fl ℚ)) (lookProg tab) lookS [] = .ok s' ∧ valOfS (T := Fl ℚ) 2 s' ∈ᵢ valOf (T := Fl ℚ) 2 (S', true) := by
  obtain ⟨Γ, h1, h2⟩ := C95_look_wf tab
  have ha := C95_at tab (by decide) (by unfold NotNan; decide)
  have hm : (maxFn : MFn (STy (Fl ℚ)) KVals).Encl := (C95_functions (Ty := STy (Fl ℚ)) (vals := KVals) .val (fn2 (T := Fl ℚ) maxI (fun a b => .ok (cmax a b)))).1 C62_minmax.2.2.1
  obtain ⟨s', g1, g2⟩ := C95_encloses KVals_nodup true (fun s => s == Srt.idx) (zeros (ix 0) (.num 0 : Fl ℚ))
    (fun s h => by cases s; exacts [lawfulStep_bint _ _, absurd h (by decide)]) (lookProg tab) _ Γ look0 S' lookS
    ⟨trivial, ⟨trivial, ha.1, trivial, hm, trivial⟩, (C95_visit (Ty := STy (Fl ℚ)) (vals := KVals) .idx _ (C95_enumerate _ _)).1, fun v => ⟨ha.2.1 v, trivial⟩⟩ h1 (by
      intro x hx
      simp only [List.mem_cons, List.not_mem_nil, or_false] at hx
      rcases hx with rfl | rfl | rfl | rfl <;> exact (by decide)) hr
  exact ⟨s', g1, g2 _ h2⟩

/-- `for (auto k : enumerate(i)) { auto v = T{ k }; assign_partial(x, v); }` -/
def spread : MProg (STy (Fl ℚ)) KVals := .each (Each.ofVisit .idx enumVisit) (fun _ => 0) fun (k : Index) => .seq (.letF 1 (constFn (.num k.val : Fl ℚ)) fun i => i.elim0) (.assignPartial (.ivl .val) 0 1)

/-- all hypotheses of `C95_total` hold for it, whatever the inputs -/
example (S : Env (Dm (STy (Fl ℚ)) KVals)) (h0 : DProper (S (.ivl .idx, 0))) (h1 : DProper (S (.ivl .val, 0))) : ∃ S', runMI false (fun s => s == Srt.idx) spread S [] = .ok (S', true) ∧ DProper (S' (.ivl .val, 0)) := by
  obtain ⟨S', h, h'⟩ := C95_total KVals_nodup false (fun s => s == Srt.idx) (fun s h => by cases s; exacts [lawfulStep_bint _ _, absurd h (by decide)]) spread [(.ivl .idx, 0), (.ivl .val, 0)]
    { MCtx.start [(.ivl .idx, 0), (.ivl .val, 0)] with asgd := [(.ivl .idx, 0), (.ivl .val, 0)] ++ [] } S
    ⟨(C95_visit (Ty := STy (Fl ℚ)) (vals := KVals) .idx _ (C95_enumerate _ _)).2, fun v => ⟨((C95_at (T := Fl ℚ) [] (by decide) (by simp)).2.2 _ (show NotNan (Fl.num _) by simp [NotNan, CppVal.le, Fl.ext])).2, trivial⟩⟩ (fun _ => ⟨trivial, trivial⟩)
    ⟨fun _ => by wf, [], by decide, fun v => ⟨_, ⟨_, ⟨by wf, fun i => i.elim0, rfl⟩, by wf, by wf, by wf, rfl⟩, by simp⟩, rfl⟩
    (fun x hx => by simp only [List.mem_cons, List.not_mem_nil, or_false] at hx; rcases hx with rfl | rfl <;> assumption)
  exact ⟨S', h, h' _ (by decide)⟩

section sgnLoop
attribute [local instance] exactFmt
local instance : CppNum (STy (Fl ℚ) .val) := inferInstanceAs (CppNum (Fl ℚ))

/-- `auto r = T{ }; for (auto s : enumerate(sgn(x))) switch (s) { case negative: { auto v = -x; assign_partial(r, v); } default: assign_partial(r, x); }` -/
def absBySign : MProg (STy (Fl ℚ)) KVals :=
  .seq (.decl (.ivl .val, 1)) <| .each (sgnEach (Ty := STy (Fl ℚ)) (vals := KVals) .val) (fun _ => 0) fun (s : Sign) =>
    if s = .neg then .seq (.letF 2 (MFn.ofFn .val (fn1 (T := Fl ℚ) UnOp.neg.ivl (fun a => .ok (UnOp.neg.pt a))) 1) fun _ => 0) (.assignPartial (.ivl .val) 1 2)
    else .assignPartial (.ivl .val) 1 0

example : (do let r ← runMI true (fun s => s == Srt.idx) absBySign (varsI (T := (Fl ℚ)) (fun _ => ⟨ix 0, ix 0⟩) (fun _ => ⟨.num (-1), .num 3⟩)) []
              return (valOf 1 r, r.2)) = .ok (⟨.num (-3), .num 3⟩, true) ∧
    (do let r ← runMS (zeros (ix 0) (.num 0 : Fl ℚ)) absBySign (varsS (T := (Fl ℚ)) (fun _ => ix 0) (fun _ => .num (-1))) []
        return valOfS 1 r) = .ok (.num 1) := by
  refine ⟨by decide +kernel, by decide +kernel⟩

/-- all hypotheses of `C95_encloses` hold for it, whatever the inputs -/
example (S S' : Env (Dm (STy (Fl ℚ)) KVals)) (s : Env (Sc (STy (Fl ℚ)) KEn)) (h0 : s (.ivl .val, 0) ∈ₘ S (.ivl .val, 0)) (hr : runMI false (fun s => s == Srt.idx) absBySign S [] = .ok (S', true)) :
    ∃ s', runMS (zeros (ix 0) (.num 0 : Fl ℚ)) absBySign s [] = .ok s' ∧ s' (.ivl .val, 1) ∈ₘ S' (.ivl .val, 1) := by
  have hn : (MFn.ofFn (Ty := STy (Fl ℚ)) (vals := KVals) .val (fn1 (T := Fl ℚ) UnOp.neg.ivl (fun a => .ok (UnOp.neg.pt a))) 1).Encl :=
    (C95_functions (Ty := STy (Fl ℚ)) (vals := KVals) .val (fn1 (T := Fl ℚ) UnOp.neg.ivl (fun a => .ok (UnOp.neg.pt a)))).1 (C62_float_unary .neg)
  obtain ⟨s', g1, g2⟩ := C95_encloses KVals_nodup false (fun s => s == Srt.idx) (zeros (ix 0) (.num 0 : Fl ℚ))
    (fun s h => by cases s; exacts [lawfulStep_bint _ _, absurd h (by decide)]) absBySign [(.ivl .val, 0)]
    ⟨[(.ivl .val, 1), (.ivl .val, 0)], [(.ivl .val, 0)] ++ [(.ivl .val, 1)], [], []⟩ S S' s
    ⟨trivial, (C95_sgn (Ty := STy (Fl ℚ)) (vals := KVals) .val (by decide)).1, fun (v : Sign) => by
      cases v
      exacts [⟨hn, trivial⟩, trivial, trivial]⟩
    ⟨_, ⟨by decide, rfl⟩, fun _ => by simp [MCtx.start, sgnEach, Each.ofSet], [(.ivl .val, 1)], by simp, fun (v : Sign) => by
      cases v
      exacts [⟨_, ⟨_, ⟨by wf, fun _ => by wf, rfl⟩, by wf, by wf, by wf, rfl⟩, by simp⟩, ⟨_, ⟨by wf, by wf, by wf, rfl⟩, by simp⟩,
        ⟨_, ⟨by wf, by wf, by wf, rfl⟩, by simp⟩], rfl⟩
    (fun x hx => by simp only [List.mem_cons, List.not_mem_nil, or_false] at hx; subst hx; exact h0) hr
  exact ⟨s', g1, g2 _ (by decide)⟩

end sgnLoop

/-- a table of signs, indexed by an interval -/
example : (kindEach (T := Fl ℚ) (Sign.vals) [.pos, .neg, .pos, .zero]).Encl := C95_kinds _ _ (by decide) (by decide) (by decide)
example : (do let r ← (kindEach (T := Fl ℚ) (Sign.vals) [.pos, .neg, .pos, .zero]).visit true (fun _ => (⟨ix 0, ix 2⟩ : Ivl Index))
              return (show List Sign from r)) = .ok [.neg, .pos] := by decide +kernel

/-- `constrain(x, i < j)` with numbers `x` and indices `i`, `j` -/
example : (do let c ← (MCond.cmp (Ty := STy (Fl ℚ)) (vals := KVals) .idx .lt (.var 0) (.var 1)).build true (fun s => s == Srt.idx) look0
              let r ← constrainH true false Srt.val 0 (look0 (.ivl .val, 0)) c
              return (show Ivl (Fl ℚ) from r)) = .error .contract ∧
    (MCond.cmp (Ty := STy (Fl ℚ)) (vals := KVals) .idx .lt (.var 0) (.var 1)).seenUses (.val, 0) true = false := by
  refine ⟨by decide +kernel, by decide⟩

end Intervals.Props
