import Verif.Model.Natvis
import Verif.Model.Stream
import Verif.Model.IntVal
import Verif.Props.Stream
import Verif.Spec.Natvis
import Verif.Spec.Interval
import Verif.Spec.Set
import Verif.Lemmas.Enumerate
import Verif.Props.Basic
import Mathlib.Data.List.Basic
import Mathlib.Tactic.ByContra
/-!
# C87: what the debugger shows
-/
namespace Intervals.Props
open Intervals CppVal Spec Natvis

section
variable {T : Type _} [CppVal T] (shw : T → List Char) (raw : BoolSet → List Char)

/-- C87: in the debugger an interval of numbers has the same text as in a stream, if it is assigned, and "uninitialized" otherwise. -/
theorem C87_interval (dbg : Bool) (X : Ivl T) :
    (X.assigned = true → streamIvl dbg shw [] X = .ok (ivlText shw X)) ∧ (X.assigned = false → ivlText shw X = "uninitialized".toList) := by
  constructor
  · intro h
    have h' : gt X.lo X.hi = false := by simpa [Ivl.assigned] using h
    unfold streamIvl ivlText
    rw [h]
    by_cases e : eq X.lo X.hi = true <;> simp [e, h', expectsDebug, expects, bind, Except.bind, pure, Except.pure]
  · intro h
    have h' : gt X.lo X.hi = true := by simpa [Ivl.assigned] using h
    simp [ivlText, h']

theorem sepBy_append (sep : List Char) : ∀ (a b : List (List Char)), a ≠ [] → b ≠ [] → sepBy sep (a ++ b) = sepBy sep a ++ sep ++ sepBy sep b := by
  intro a
  induction a with
  | nil => intro b h; exact absurd rfl h
  | cons x a ih =>
    intro b _ hb
    cases a with
    | nil =>
      cases b with
      | nil => exact absurd rfl hb
      | cons y b => simp [sepBy]
    | cons y a =>
      have := ih b (by simp) hb
      simp only [List.cons_append] at this
      simp only [List.cons_append, sepBy, this, List.append_assoc]

/-- a conjunction of atoms is shown as such -/
theorem natvis_conj (c : Cond T) : Cond.NoEq c → Cond.NoDisj c →
    ∃ d : List (Atom T), d ≠ [] ∧ memberText shw raw c = sepBy " ∧ ".toList (d.map (Atom.text (opText shw) raw)) ∧
      ∀ ρ κ, d.all (Atom.means ρ κ) = Cond.means ρ κ c := by
  induction c with
  | plain s => intro _ _; exact ⟨[.const s], by simp, rfl, by simp [Atom.means, Cond.means]⟩
  | leq s l r => intro _ _; exact ⟨[.rel .le l r], by simp, rfl, by simp [Atom.means, Cond.means]⟩
  | less s l r => intro _ _; exact ⟨[.rel .lt l r], by simp, rfl, by simp [Atom.means, Cond.means]⟩
  | equal s l r => intro h; exact h.elim
  | notEqual s l r => intro h; exact h.elim
  | disj s l r => intro _ h; exact h.elim
  | conj s l r ihl ihr =>
    intro h h'
    obtain ⟨d, n, e, m⟩ := ihl h.1 h'.1
    obtain ⟨d', n', e', m'⟩ := ihr h.2 h'.2
    refine ⟨d ++ d', by simp [n], ?_, fun ρ κ => by rw [List.all_append, m, m']; rfl⟩
    rw [List.map_append, sepBy_append _ _ _ (by simpa using n) (by simpa using n'), ← e, ← e']
    rfl

/-- C87, the part that holds (`member` view): the text of a condition without `==` and `!=` and without a disjunction inside a conjunction is a formula
for it. -/
theorem C87_member_partial (c : Cond T) : Cond.NoEq c → Cond.Dnf c → Reads (opText shw) raw c (memberText shw raw c) := by
  have at1 : ∀ c : Cond T, Cond.NoEq c → Cond.NoDisj c → Reads (opText shw) raw c (memberText shw raw c) := fun c h h' => by
    obtain ⟨d, n, e, m⟩ := natvis_conj shw raw c h h'
    exact ⟨[d], by simpa using n, by simp, by simp [flatText, sepBy, e], fun ρ κ => by simp [flatMeans, m]⟩
  induction c with
  | disj s l r ihl ihr =>
    intro h h'
    obtain ⟨f, a, n, e, m⟩ := ihl h.1 h'.1
    obtain ⟨f', a', n', e', m'⟩ := ihr h.2 h'.2
    refine ⟨f ++ f', ?_, by simp [n], ?_, fun ρ κ => by
      have := m ρ κ; have := m' ρ κ
      unfold flatMeans at *; rw [List.any_append, m, m']; rfl⟩
    · intro d hd
      rcases List.mem_append.mp hd with hd | hd
      exacts [a d hd, a' d hd]
    · rw [flatText, List.map_append, sepBy_append _ _ _ (by simpa using n) (by simpa using n'), ← flatText, ← flatText, ← e, ← e']
      rfl
  | conj s l r _ _ => intro h h'; exact at1 _ h h'
  | _ => intro h h'; exact at1 _ h trivial

/-- C87, the part that holds: a comparison with `<` or `<=` is shown as its truth values and its two sides, a conjunction or disjunction as its truth
values and the formulas of its two operands in parentheses, if these contain no `==` or `!=` and no disjunction inside a conjunction.  Missing: the other
conditions (`C87_violated_eq`, `C87_violated_nested`). -/
theorem C87_cond_partial (s : BoolSet) :
    (∀ l r : Operand T, condText shw raw (.leq s l r) = raw s ++ " ⇔ ".toList ++ (Atom.rel .le l r).text (opText shw) raw ∧
      condText shw raw (.less s l r) = raw s ++ " ⇔ ".toList ++ (Atom.rel .lt l r).text (opText shw) raw) ∧
    ∀ l r : Cond T, Cond.NoEq l → Cond.NoEq r → Cond.Dnf l → Cond.Dnf r → ∃ t u, Reads (opText shw) raw l t ∧ Reads (opText shw) raw r u ∧
      condText shw raw (.conj s l r) = raw s ++ " ⇔ (".toList ++ t ++ ") ∧ (".toList ++ u ++ ")".toList ∧
      condText shw raw (.disj s l r) = raw s ++ " ⇔ (".toList ++ t ++ ") ∨ (".toList ++ u ++ ")".toList := by
  refine ⟨fun l r => ⟨?_, ?_⟩, fun l r h1 h2 h3 h4 => ⟨_, _, C87_member_partial shw raw l h1 h3, C87_member_partial shw raw r h2 h4, rfl, rfl⟩⟩
  · have : condText shw raw (.leq s l r) = raw s ++ " ⇔ ".toList ++ opText shw l ++ " ≤ ".toList ++ opText shw r := rfl
    rw [this]; simp only [Atom.text, Rel.sign, List.append_assoc]
  · have : condText shw raw (.less s l r) = raw s ++ " ⇔ ".toList ++ opText shw l ++ " < ".toList ++ opText shw r := rfl
    rw [this]; simp only [Atom.text, Rel.sign, List.append_assoc]

/-- C87 fails for `==` and `!=`: the rules for them name classes that do not exist (`equality_constraint`, `inequality_constraint`), so the rule of the
base class applies, and the text does not depend on what is compared. -/
theorem C87_violated_eq (s : BoolSet) (l r : Operand T) :
    condText shw raw (.equal s l r) = raw s ∧ condText shw raw (.notEqual s l r) = raw s ∧
    memberText shw raw (.equal s l r) = raw s ∧ memberText shw raw (.notEqual s l r) = raw s :=
  ⟨rfl, rfl, rfl, rfl⟩

/-- an interval operand is shown with or without identity in the same way, and a number as an interval of one point -/
theorem C87_operand [CppOrder T] (d d' : Bool) (id : Nat) (X : Ivl T) (v : T) (hv : NotNan v) :
    opText shw (.ident d id X) = opText shw (.anon d' X) ∧ opText shw (.scalar d v) = opText shw (.anon d' (Ivl.ofVal v)) := by
  have hv' : le v v = true := hv
  have h1 : gt v v = false := by unfold gt; grind
  have h2 : eq v v = true := by grind
  refine ⟨rfl, ?_⟩
  change shw v = if gt v v = true then _ else if eq v v = true then shw v else _
  rw [h1, h2]; rfl

/-! `(x < 1 & 1 < x) | x <= 1` meets the hypotheses of `C87_member_partial` and `C87_cond_partial`. -/
example : let x : Operand (SInt 31) := .ident true 0 ⟨i32 0, i32 9⟩
    let k : Operand (SInt 31) := .scalar true (i32 1)
    let c : Cond (SInt 31) := .disj 3#2 (.conj 3#2 (.less 3#2 x k) (.less 3#2 k x)) (.leq 3#2 x k)
    Cond.NoEq c ∧ Cond.Dnf c ∧ memberText (fun v => (toString v.val).toList) (fun _ => []) c = "[0, 9] < 1 ∧ 1 < [0, 9] ∨ [0, 9] ≤ 1".toList :=
  ⟨by simp [Cond.NoEq], by simp [Cond.Dnf, Cond.NoDisj], by decide +kernel⟩

/-- C87: intervals of numbers with the same text have the same points, if the texts of numbers differ and contain no comma; so have intervals of iterators. -/
theorem C87_interval_faithful [CppOrder T] (hinj : ∀ v w, NotNan v → NotNan w → shw v = shw w → eq v w = true) (hne : ∀ v, ',' ∉ shw v)
    (X Y : Ivl T) (pX : Proper X) (pY : Proper Y) (h : ivlText shw X = ivlText shw Y ∨ iterText shw X = iterText shw Y) (p : T) : p ∈ᵢ X ↔ p ∈ᵢ Y := by
  have a : ∀ {X : Ivl T}, Proper X → gt X.lo X.hi = false := fun h => by simpa [Ivl.assigned] using assigned_of_proper h
  rcases h with h | h
  · refine ivlText_inj shw [] (by simp) hinj hne X Y pX pY ?_ p
    unfold ivlText at h
    simp only [a pX, a pY] at h
    by_cases e : eq X.lo X.hi = true <;> by_cases e' : eq Y.lo Y.hi = true <;> simp [e, e'] at h ⊢ <;> exact h
  · refine ivlText_inj shw "→".toList (by decide) hinj hne X Y pX pY ?_ p
    unfold iterText at h
    by_cases e : eq X.lo X.hi = true <;> by_cases e' : eq Y.lo Y.hi = true <;> simp [e, e'] at h ⊢ <;> exact h
end

section set
variable {V : Type _} [DecidableEq V] {vals : List V}
theorem setItems_eq (x : CSet vals) : ∀ (k i : Nat), i + k = vals.length → ((setItems x i).Pairwise (fun a b => a.1 < b.1)) ∧
    ∀ j v, (j, v) ∈ setItems x i ↔ i ≤ j ∧ x.getLsbD j = true ∧ vals[j]? = some v := by
  intro k
  induction k with
  | zero =>
    intro i hi
    rw [setItems, dif_neg (by omega)]
    refine ⟨List.Pairwise.nil, fun j v => ⟨fun h => by simp at h, fun ⟨h1, _, h2⟩ => ?_⟩⟩
    rw [List.getElem?_eq_none (by omega)] at h2; cases h2
  | succ k ih =>
    intro i hi
    have hl : i < vals.length := by omega
    obtain ⟨p, m⟩ := ih (i + 1) (by omega)
    rw [setItems, dif_pos hl]
    by_cases hb : x.getLsbD i = true
    · rw [if_pos hb]
      refine ⟨List.Pairwise.cons (fun a ha => ?_) p, fun j v => ?_⟩
      · have := ((m a.1 a.2).mp ha).1; simp only; omega
      · rw [List.mem_cons, m]
        constructor
        · rintro (h | ⟨h1, h2, h3⟩)
          · cases h; exact ⟨Nat.le_refl _, hb, List.getElem?_eq_getElem hl⟩
          · exact ⟨by omega, h2, h3⟩
        · rintro ⟨h1, h2, h3⟩
          rcases Nat.lt_or_ge i j with h | h
          · exact .inr ⟨h, h2, h3⟩
          · have : i = j := by omega
            subst this
            rw [List.getElem?_eq_getElem hl] at h3
            cases h3; exact .inl rfl
    · rw [if_neg hb]
      refine ⟨p, fun j v => ?_⟩
      rw [m]
      constructor
      · rintro ⟨h1, h2, h3⟩; exact ⟨by omega, h2, h3⟩
      · rintro ⟨h1, h2, h3⟩
        refine ⟨?_, h2, h3⟩
        rcases Nat.lt_or_ge i j with h | h
        · exact h
        · have : i = j := by omega
          subst this; exact absurd h2 hb

/-- C87: the expanded view of a set lists exactly its members, each with its index, in the order of the indices. -/
theorem C87_set (hn : vals.Nodup) (x : CSet vals) : (setItems x 0).Pairwise (fun a b => a.1 < b.1) ∧
    ∀ j v, (j, v) ∈ setItems x 0 ↔ vals[j]? = some v ∧ SMem v x := by
  obtain ⟨p, m⟩ := setItems_eq x vals.length 0 (by omega)
  refine ⟨p, fun j v => ?_⟩
  rw [m]
  constructor
  · rintro ⟨-, h1, h2⟩
    obtain ⟨hj, rfl⟩ := List.getElem?_eq_some_iff.mp h2
    exact ⟨h2, (SMem_getElem hn hj).mpr h1⟩
  · rintro ⟨h1, h2⟩
    obtain ⟨hj, rfl⟩ := List.getElem?_eq_some_iff.mp h1
    exact ⟨Nat.zero_le _, (SMem_getElem hn hj).mp h2, h1⟩
end set

/-- C87 fails for nested conditions: the view of an operand has no parentheses.  With `x` in `[0, 9]`, the conditions
`((x < 5 | x < 3) & 6 < x) | 8 < x` and `(x < 5 | (x < 3 & 6 < x)) | 8 < x` have the same truth values and the same text, but for `x = 4` only the second one
holds. -/
theorem C87_violated_nested (raw : BoolSet → List Char) (shw : SInt 31 → List Char) :
    let x : Operand (SInt 31) := .ident true 0 ⟨i32 0, i32 9⟩
    let k (v : SInt 31) : Operand (SInt 31) := .scalar true v
    let at4 : Operand (SInt 31) → SInt 31 := fun o => match o with | .scalar _ v => v | _ => i32 4
    let ρ : Rel → Operand (SInt 31) → Operand (SInt 31) → Bool := fun o l r => match o with
      | .le => CppVal.le (at4 l) (at4 r) | .lt => CppVal.lt (at4 l) (at4 r) | .eq => CppVal.eq (at4 l) (at4 r) | .ne => CppVal.ne (at4 l) (at4 r)
    ∃ c c', (do let a ← condLt true x (k (i32 5)); let b ← condLt true x (k (i32 3)); let c ← condLt true (k (i32 6)) x; let d ← condLt true (k (i32 8)) x
                return (((a.mkOr b).mkAnd c).mkOr d, (a.mkOr (b.mkAnd c)).mkOr d)) = .ok (c, c') ∧
      c.truth = c'.truth ∧ condText shw raw c = condText shw raw c' ∧ ∀ κ, Cond.means ρ κ c = false ∧ Cond.means ρ κ c' = true := by
  intro x k at4 ρ
  have h1 : opLt true x.arg (k (i32 5)).arg = .ok BoolSet.both := by decide +kernel
  have h2 : opLt true x.arg (k (i32 3)).arg = .ok BoolSet.both := by decide +kernel
  have h3 : opLt true (k (i32 6)).arg x.arg = .ok BoolSet.both := by decide +kernel
  have h4 : opLt true (k (i32 8)).arg x.arg = .ok BoolSet.both := by decide +kernel
  let c1 : Cond (SInt 31) := .less BoolSet.both x (k (i32 5))
  let c2 : Cond (SInt 31) := .less BoolSet.both x (k (i32 3))
  let c3 : Cond (SInt 31) := .less BoolSet.both (k (i32 6)) x
  let c4 : Cond (SInt 31) := .less BoolSet.both (k (i32 8)) x
  have ht : (((c1.mkOr c2).mkAnd c3).mkOr c4).truth = ((c1.mkOr (c2.mkAnd c3)).mkOr c4).truth := by decide +kernel
  refine ⟨((c1.mkOr c2).mkAnd c3).mkOr c4, (c1.mkOr (c2.mkAnd c3)).mkOr c4, ?_, ht, ?_, ?_⟩
  · simp only [condLt, h1, h2, h3, h4, ok_bind, pure_bind]; rfl
  · have e : ∀ {a b : Cond (SInt 31)}, a.isCond = true → a.mkOr b = .disj (BoolSet.or a.truth b.truth) a b := fun h => by simp [Cond.mkOr, h]
    have e' : ∀ {a b : Cond (SInt 31)}, a.isCond = true → a.mkAnd b = .conj (BoolSet.and a.truth b.truth) a b := fun h => by simp [Cond.mkAnd, h]
    have t : ∀ (s : BoolSet) (a b : Cond (SInt 31)), condText shw raw (.disj s a b) =
      raw s ++ " ⇔ (".toList ++ memberText shw raw a ++ ") ∨ (".toList ++ memberText shw raw b ++ ")".toList := fun _ _ _ => rfl
    have m : ∀ (s : BoolSet) (a b : Cond (SInt 31)), memberText shw raw (.disj s a b) = memberText shw raw a ++ " ∨ ".toList ++ memberText shw raw b := fun _ _ _ => rfl
    have m' : ∀ (s : BoolSet) (a b : Cond (SInt 31)), memberText shw raw (.conj s a b) = memberText shw raw a ++ " ∧ ".toList ++ memberText shw raw b := fun _ _ _ => rfl
    rw [e (a := c1) rfl, e' (a := c2) rfl, e (a := c1) rfl, e' rfl, e rfl, e rfl, t, t, m', m, m, m']
    simp only [List.append_assoc]
    congr 1
    exact congrArg raw ht
  · intro κ
    exact ⟨rfl, rfl⟩
end Intervals.Props
