import Verif.Spec.Constraint
import Verif.Lemmas.Val
/-! Lemmas about conditions and `constrain`. -/
set_option linter.unusedSectionVars false
namespace Intervals
open Intervals.Spec CppVal
variable {T : Type _} [CppVal T] [CppOrder T]

theorem properA_le {A : Arg T} (h : ProperA A) : le A.lo A.hi = true := by cases A <;> exact h
theorem ptA_iff {A : Arg T} {v : T} : v ∈ₐ A ↔ le A.lo v = true ∧ le v A.hi = true := by cases A <;> exact Iff.rfl
theorem properA_assigned {A : Arg T} (h : ProperA A) : A.assigned = true := by
  have := properA_le h
  cases A with
  | scalar v => rfl
  | ivl X => simp only [Arg.assigned, Ivl.assigned, Arg.lo, Arg.hi] at *; grind

theorem val_pt {ρ : Nat → T} {o : Operand T} {v : T} (hp : ProperA o.arg) (h : Val ρ o v) :
    le o.arg.lo v = true ∧ le v o.arg.hi = true := by
  cases o with
  | scalar d s => cases h; exact ⟨hp, hp⟩
  | anon d X => exact h
  | ident d i X => exact h.2
theorem val_match {ρ : Nat → T} {d : Bool} {id : Nat} {o : Operand T} {v : T} (hm : o.matchesId d id = true) (h : Val ρ o v) :
    v = ρ id := by
  cases o with
  | scalar d s => simp [Operand.matchesId] at hm
  | anon d X => simp [Operand.matchesId] at hm
  | ident d i X => simp only [Operand.matchesId, Bool.and_eq_true, beq_iff_eq] at hm; rw [hm.2]; exact h.1
theorem match_disc {d : Bool} {id : Nat} {o : Operand T} (hm : o.matchesId d id = true) : o.disc = d := by
  cases o with
  | scalar d s => simp [Operand.matchesId] at hm
  | anon d X => simp [Operand.matchesId] at hm
  | ident d i X => simp only [Operand.matchesId, Bool.and_eq_true, beq_iff_eq] at hm; exact hm.1.symm

/-! Truth sets by membership. -/
theorem contains_pq (p q : Bool) (b : Bool) :
    BoolSet.contains (if q then BoolSet.assign (if p then BoolSet.assign BoolSet.empty true else BoolSet.empty) false
      else (if p then BoolSet.assign BoolSet.empty true else BoolSet.empty)) b = (if b then p else q) := by
  revert p q b; decide
theorem contains_pq' (p q : Bool) (b : Bool) :
    BoolSet.contains (if q then BoolSet.assign (if p then BoolSet.assign BoolSet.empty false else BoolSet.empty) true
      else (if p then BoolSet.assign BoolSet.empty false else BoolSet.empty)) b = (if b then q else p) := by
  revert p q b; decide
theorem contains_leq (l r : Arg T) (b : Bool) : BoolSet.contains (compareLeq l r) b = if b then le l.lo r.hi else gt l.hi r.lo :=
  contains_pq _ _ b
theorem contains_lt (l r : Arg T) (b : Bool) : BoolSet.contains (compareLt l r) b = if b then lt l.lo r.hi else ge l.hi r.lo :=
  contains_pq _ _ b
theorem contains_eq (l r : Arg T) (b : Bool) : BoolSet.contains (compareEq l r) b =
    if b then (ge r.hi l.lo && le r.lo l.hi) else (ne l.lo r.hi || ne l.hi r.lo) := contains_pq _ _ b
theorem contains_neq (l r : Arg T) (b : Bool) : BoolSet.contains (compareNeq l r) b =
    if b then (ne l.lo r.hi || ne l.hi r.lo) else (ge r.hi l.lo && le r.lo l.hi) := contains_pq' _ _ b
theorem contains_and_true (x y : BoolSet) (hx : x ≠ BoolSet.empty) (hy : y ≠ BoolSet.empty) :
    BoolSet.contains (BoolSet.and x y) true = (BoolSet.contains x true && BoolSet.contains y true) := by
  revert x y; decide
theorem contains_and_false (x y : BoolSet) (hx : x ≠ BoolSet.empty) (hy : y ≠ BoolSet.empty) :
    BoolSet.contains (BoolSet.and x y) false = (BoolSet.contains x false || BoolSet.contains y false) := by
  revert x y; decide
theorem contains_or_true (x y : BoolSet) (hx : x ≠ BoolSet.empty) (hy : y ≠ BoolSet.empty) :
    BoolSet.contains (BoolSet.or x y) true = (BoolSet.contains x true || BoolSet.contains y true) := by
  revert x y; decide
theorem contains_or_false (x y : BoolSet) (hx : x ≠ BoolSet.empty) (hy : y ≠ BoolSet.empty) :
    BoolSet.contains (BoolSet.or x y) false = (BoolSet.contains x false && BoolSet.contains y false) := by
  revert x y; decide
theorem contains_not (x : BoolSet) (b : Bool) : BoolSet.contains (BoolSet.notCore x) b = BoolSet.contains x (!b) := by
  revert x b; decide
theorem boolSet_ext {x y : BoolSet} (h : ∀ b, BoolSet.contains x b = BoolSet.contains y b) : x = y := by
  revert x y; decide
theorem not_ne_empty {x : BoolSet} (h : x ≠ BoolSet.empty) : BoolSet.notCore x ≠ BoolSet.empty := by revert x; decide
theorem and_ne_empty {x y : BoolSet} (hx : x ≠ BoolSet.empty) (hy : y ≠ BoolSet.empty) : BoolSet.and x y ≠ BoolSet.empty := by
  revert x y; decide
theorem or_ne_empty {x y : BoolSet} (hx : x ≠ BoolSet.empty) (hy : y ≠ BoolSet.empty) : BoolSet.or x y ≠ BoolSet.empty := by
  revert x y; decide
theorem ne_empty_of {x : BoolSet} (h : BoolSet.contains x true = true ∨ BoolSet.contains x false = true) : x ≠ BoolSet.empty := by
  revert x; decide
theorem notM_ok {dbg : Bool} {x : BoolSet} (h : x ≠ BoolSet.empty) : BoolSet.not dbg x = .ok (BoolSet.notCore x) := by
  revert dbg x; decide
theorem not_not_core (x : BoolSet) : BoolSet.notCore (BoolSet.notCore x) = x := by revert x; decide

/-- A condition whose operands are proper and whose truth sets are those the operators compute. -/
def WF : Cond T → Prop
  | .plain s => s ≠ BoolSet.empty
  | .leq s l r => ProperA l.arg ∧ ProperA r.arg ∧ s = compareLeq l.arg r.arg
  | .less s l r => ProperA l.arg ∧ ProperA r.arg ∧ s = compareLt l.arg r.arg
  | .equal s l r => ProperA l.arg ∧ ProperA r.arg ∧ s = compareEq l.arg r.arg
  | .notEqual s l r => ProperA l.arg ∧ ProperA r.arg ∧ s = compareNeq l.arg r.arg
  | .conj s l r => WF l ∧ WF r ∧ s = BoolSet.and l.truth r.truth
  | .disj s l r => WF l ∧ WF r ∧ s = BoolSet.or l.truth r.truth

theorem WF.truth_ne {c : Cond T} (h : WF c) : c.truth ≠ BoolSet.empty := by
  induction c with
  | plain s => exact h
  | leq s l r => obtain ⟨h1, h2, rfl⟩ := h; have := properA_le h1; have := properA_le h2; apply ne_empty_of; simp only [Cond.truth, contains_leq]; grind
  | less s l r => obtain ⟨h1, h2, rfl⟩ := h; have := properA_le h1; have := properA_le h2; apply ne_empty_of; simp only [Cond.truth, contains_lt]; grind
  | equal s l r => obtain ⟨h1, h2, rfl⟩ := h; have := properA_le h1; have := properA_le h2; apply ne_empty_of; simp only [Cond.truth, contains_eq]; grind
  | notEqual s l r => obtain ⟨h1, h2, rfl⟩ := h; have := properA_le h1; have := properA_le h2; apply ne_empty_of; simp only [Cond.truth, contains_neq]; grind
  | conj s l r ihl ihr => obtain ⟨h1, h2, rfl⟩ := h; exact and_ne_empty (ihl h1) (ihr h2)
  | disj s l r ihl ihr => obtain ⟨h1, h2, rfl⟩ := h; exact or_ne_empty (ihl h1) (ihr h2)

theorem not_compareLt {l r : Arg T} (hl : ProperA l) (hr : ProperA r) : BoolSet.notCore (compareLt l r) = compareLeq r l := by
  have := properA_le hl; have := properA_le hr
  apply boolSet_ext; intro b; rw [contains_not, contains_lt, contains_leq]; cases b <;> simp <;> grind
theorem not_compareLeq {l r : Arg T} (hl : ProperA l) (hr : ProperA r) : BoolSet.notCore (compareLeq l r) = compareLt r l := by
  have := properA_le hl; have := properA_le hr
  apply boolSet_ext; intro b; rw [contains_not, contains_lt, contains_leq]; cases b <;> simp <;> grind
theorem not_compareEq (l r : Arg T) : BoolSet.notCore (compareEq l r) = compareNeq l r := by
  apply boolSet_ext; intro b; rw [contains_not, contains_eq, contains_neq]; cases b <;> simp
theorem not_compareNeq (l r : Arg T) : BoolSet.notCore (compareNeq l r) = compareEq l r := by
  apply boolSet_ext; intro b; rw [contains_not, contains_eq, contains_neq]; cases b <;> simp
theorem bset_not_and (x y : BoolSet) (hx : x ≠ BoolSet.empty) (hy : y ≠ BoolSet.empty) :
    BoolSet.notCore (BoolSet.and x y) = BoolSet.or (BoolSet.notCore x) (BoolSet.notCore y) := by revert x y; decide
theorem bset_not_or (x y : BoolSet) (hx : x ≠ BoolSet.empty) (hy : y ≠ BoolSet.empty) :
    BoolSet.notCore (BoolSet.or x y) = BoolSet.and (BoolSet.notCore x) (BoolSet.notCore y) := by revert x y; decide

/-- every point evaluation of a well-formed condition is in its truth set -/
theorem ev_truth {ρ : Nat → T} : ∀ (c : Cond T), WF c → ∀ b, Ev ρ c b → BoolSet.contains c.truth b = true := by
  intro c
  induction c with
  | plain s => intro _ b hb; exact hb
  | leq s l r => rintro ⟨h1, h2, rfl⟩ b ⟨u, v, hu, hv, e⟩; have := val_pt h1 hu; have := val_pt h2 hv; simp only [Cond.truth, contains_leq]; cases b <;> simp <;> grind
  | less s l r => rintro ⟨h1, h2, rfl⟩ b ⟨u, v, hu, hv, e⟩; have := val_pt h1 hu; have := val_pt h2 hv; simp only [Cond.truth, contains_lt]; cases b <;> simp <;> grind
  | equal s l r => rintro ⟨h1, h2, rfl⟩ b ⟨u, v, hu, hv, e⟩; have := val_pt h1 hu; have := val_pt h2 hv; simp only [Cond.truth, contains_eq]; cases b <;> simp <;> grind
  | notEqual s l r => rintro ⟨h1, h2, rfl⟩ b ⟨u, v, hu, hv, e⟩; have := val_pt h1 hu; have := val_pt h2 hv; simp only [Cond.truth, contains_neq]; cases b <;> simp <;> grind
  | conj s l r ihl ihr =>
    rintro ⟨h1, h2, rfl⟩ b ⟨p, q, hp, hq, e⟩
    have i1 := ihl h1 p hp; have i2 := ihr h2 q hq
    have n1 := h1.truth_ne; have n2 := h2.truth_ne
    change BoolSet.contains (BoolSet.and l.truth r.truth) b = true
    cases b
    · rw [contains_and_false _ _ n1 n2]; clear n1 n2; cases p <;> cases q <;> simp_all
    · rw [contains_and_true _ _ n1 n2]; clear n1 n2; cases p <;> cases q <;> simp_all
  | disj s l r ihl ihr =>
    rintro ⟨h1, h2, rfl⟩ b ⟨p, q, hp, hq, e⟩
    have i1 := ihl h1 p hp; have i2 := ihr h2 q hq
    have n1 := h1.truth_ne; have n2 := h2.truth_ne
    change BoolSet.contains (BoolSet.or l.truth r.truth) b = true
    cases b
    · rw [contains_or_false _ _ n1 n2]; clear n1 n2; cases p <;> cases q <;> simp_all
    · rw [contains_or_true _ _ n1 n2]; clear n1 n2; cases p <;> cases q <;> simp_all

/-- `!` succeeds on well-formed conditions and keeps them well-formed. -/
theorem mkNot_wf (dbg : Bool) {c : Cond T} (h : WF c) :
    ∃ c', Cond.mkNot dbg c = .ok c' ∧ WF c' ∧ c'.truth = BoolSet.notCore c.truth ∧ (∀ ρ b, Ev ρ c (!b) → Ev ρ c' b) := by
  have hne := h.truth_ne
  induction c with
  | plain s => exact ⟨.plain (BoolSet.notCore s), by simp [Cond.mkNot, notM_ok h, pure, Except.pure], not_ne_empty h, rfl,
      fun ρ b hb => by simpa [Ev, contains_not] using hb⟩
  | leq s l r =>
    obtain ⟨h1, h2, h3⟩ := h
    refine ⟨.less (BoolSet.notCore s) r l, by simp [Cond.mkNot, notM_ok (x := s) hne, pure, Except.pure],
      ⟨h2, h1, by rw [h3, not_compareLeq h1 h2]⟩, rfl, fun ρ b hb => ?_⟩
    obtain ⟨u, v, hu, hv, e⟩ := hb
    refine ⟨v, u, hv, hu, ?_⟩
    have := val_pt h1 hu; have := val_pt h2 hv
    grind
  | less s l r =>
    obtain ⟨h1, h2, h3⟩ := h
    refine ⟨.leq (BoolSet.notCore s) r l, by simp [Cond.mkNot, notM_ok (x := s) hne, pure, Except.pure],
      ⟨h2, h1, by rw [h3, not_compareLt h1 h2]⟩, rfl, fun ρ b hb => ?_⟩
    obtain ⟨u, v, hu, hv, e⟩ := hb
    refine ⟨v, u, hv, hu, ?_⟩
    have := val_pt h1 hu; have := val_pt h2 hv
    grind
  | equal s l r =>
    obtain ⟨h1, h2, h3⟩ := h
    refine ⟨.notEqual (BoolSet.notCore s) l r, by simp [Cond.mkNot, notM_ok (x := s) hne, pure, Except.pure],
      ⟨h1, h2, by rw [h3, not_compareEq]⟩, rfl, fun ρ b hb => ?_⟩
    obtain ⟨u, v, hu, hv, e⟩ := hb
    exact ⟨u, v, hu, hv, by simp [CppVal.ne, e]⟩
  | notEqual s l r =>
    obtain ⟨h1, h2, h3⟩ := h
    refine ⟨.equal (BoolSet.notCore s) l r, by simp [Cond.mkNot, notM_ok (x := s) hne, pure, Except.pure],
      ⟨h1, h2, by rw [h3, not_compareNeq]⟩, rfl, fun ρ b hb => ?_⟩
    obtain ⟨u, v, hu, hv, e⟩ := hb
    exact ⟨u, v, hu, hv, by simpa [CppVal.ne] using e⟩
  | conj s l r ihl ihr =>
    have hw := h
    obtain ⟨h1, h2, h3⟩ := h
    by_cases hc : (l.isCond && r.isCond) = true
    · obtain ⟨cl, e1, w1, t1, v1⟩ := ihl h1 h1.truth_ne
      obtain ⟨cr, e2, w2, t2, v2⟩ := ihr h2 h2.truth_ne
      refine ⟨.disj (BoolSet.notCore s) cl cr, by simp [Cond.mkNot, notM_ok (x := s) hne, pure, Except.pure, hc, e1, e2],
        ⟨w1, w2, by rw [h3, t1, t2, bset_not_and _ _ h1.truth_ne h2.truth_ne]⟩, rfl, fun ρ b hb => ?_⟩
      obtain ⟨p, q, hp, hq, e⟩ := hb
      exact ⟨!p, !q, v1 ρ _ (by simpa using hp), v2 ρ _ (by simpa using hq), by rw [← Bool.not_and, e]; simp⟩
    · rw [Bool.not_eq_true] at hc
      refine ⟨.plain (BoolSet.notCore s), by simp [Cond.mkNot, notM_ok (x := s) hne, pure, Except.pure, hc], not_ne_empty hne, rfl, fun ρ b hb => ?_⟩
      have := ev_truth _ hw _ hb
      change BoolSet.contains s (!b) = true at this
      simpa [Ev, contains_not] using this
  | disj s l r ihl ihr =>
    have hw := h
    obtain ⟨h1, h2, h3⟩ := h
    by_cases hc : (l.isCond && r.isCond) = true
    · obtain ⟨cl, e1, w1, t1, v1⟩ := ihl h1 h1.truth_ne
      obtain ⟨cr, e2, w2, t2, v2⟩ := ihr h2 h2.truth_ne
      refine ⟨.conj (BoolSet.notCore s) cl cr, by simp [Cond.mkNot, notM_ok (x := s) hne, pure, Except.pure, hc, e1, e2],
        ⟨w1, w2, by rw [h3, t1, t2, bset_not_or _ _ h1.truth_ne h2.truth_ne]⟩, rfl, fun ρ b hb => ?_⟩
      obtain ⟨p, q, hp, hq, e⟩ := hb
      exact ⟨!p, !q, v1 ρ _ (by simpa using hp), v2 ρ _ (by simpa using hq), by rw [← Bool.not_or, e]; simp⟩
    · rw [Bool.not_eq_true] at hc
      refine ⟨.plain (BoolSet.notCore s), by simp [Cond.mkNot, notM_ok (x := s) hne, pure, Except.pure, hc], not_ne_empty hne, rfl, fun ρ b hb => ?_⟩
      have := ev_truth _ hw _ hb
      change BoolSet.contains s (!b) = true at this
      simpa [Ev, contains_not] using this

/-- what the operators build is well-formed, and can evaluate to whatever the expression can -/
theorem build_wf {dbg : Bool} (e : CExpr T) (hp : e.Proper) :
    ∃ c, e.build dbg = .ok c ∧ WF c ∧ ∀ ρ b, EvE ρ e b → Ev ρ c b := by
  induction e with
  | plain s => exact ⟨.plain s, rfl, hp, fun ρ b h => h⟩
  | cmp op l r =>
    obtain ⟨h1, h2⟩ := hp
    have a1 := properA_assigned h1
    have a2 := properA_assigned h2
    cases op
    · exact ⟨.equal (compareEq l.arg r.arg) l r, by simp [CExpr.build, buildCmp, condEq, opEq, a1, a2, pure, Except.pure], ⟨h1, h2, rfl⟩, fun ρ b h => h⟩
    · exact ⟨.notEqual (compareNeq l.arg r.arg) l r, by simp [CExpr.build, buildCmp, condNe, opNe, a1, a2, pure, Except.pure], ⟨h1, h2, rfl⟩, fun ρ b h => h⟩
    · exact ⟨.less (compareLt l.arg r.arg) l r, by simp [CExpr.build, buildCmp, condLt, opLt, a1, a2, pure, Except.pure], ⟨h1, h2, rfl⟩, fun ρ b h => h⟩
    · exact ⟨.leq (compareLeq l.arg r.arg) l r, by simp [CExpr.build, buildCmp, condLe, opLe, a1, a2, pure, Except.pure], ⟨h1, h2, rfl⟩, fun ρ b h => h⟩
    · refine ⟨.less (compareLt r.arg l.arg) r l, by simp [CExpr.build, buildCmp, condGt, opGt, a1, a2, pure, Except.pure], ⟨h2, h1, rfl⟩, ?_⟩
      rintro ρ b ⟨u, v, hu, hv, e⟩; exact ⟨v, u, hv, hu, e⟩
    · refine ⟨.leq (compareLeq r.arg l.arg) r l, by simp [CExpr.build, buildCmp, condGe, opGe, a1, a2, pure, Except.pure], ⟨h2, h1, rfl⟩, ?_⟩
      rintro ρ b ⟨u, v, hu, hv, e⟩; exact ⟨v, u, hv, hu, e⟩
  | and e f ihe ihf =>
    obtain ⟨c1, e1, w1, v1⟩ := ihe hp.1
    obtain ⟨c2, e2, w2, v2⟩ := ihf hp.2
    refine ⟨Cond.mkAnd c1 c2, by simp [CExpr.build, e1, e2, pure, Except.pure], ?_, ?_⟩
    · unfold Cond.mkAnd; simp only; split
      · exact ⟨w1, w2, rfl⟩
      · exact and_ne_empty w1.truth_ne w2.truth_ne
    · rintro ρ b ⟨p, q, hp, hq, e⟩
      have hb : Ev ρ (.conj (BoolSet.and c1.truth c2.truth) c1 c2) b := ⟨p, q, v1 ρ p hp, v2 ρ q hq, e⟩
      unfold Cond.mkAnd; simp only; split
      · exact hb
      · exact ev_truth (.conj (BoolSet.and c1.truth c2.truth) c1 c2) ⟨w1, w2, rfl⟩ b hb
  | or e f ihe ihf =>
    obtain ⟨c1, e1, w1, v1⟩ := ihe hp.1
    obtain ⟨c2, e2, w2, v2⟩ := ihf hp.2
    refine ⟨Cond.mkOr c1 c2, by simp [CExpr.build, e1, e2, pure, Except.pure], ?_, ?_⟩
    · unfold Cond.mkOr; simp only; split
      · exact ⟨w1, w2, rfl⟩
      · exact or_ne_empty w1.truth_ne w2.truth_ne
    · rintro ρ b ⟨p, q, hp, hq, e⟩
      have hb : Ev ρ (.disj (BoolSet.or c1.truth c2.truth) c1 c2) b := ⟨p, q, v1 ρ p hp, v2 ρ q hq, e⟩
      unfold Cond.mkOr; simp only; split
      · exact hb
      · exact ev_truth (.disj (BoolSet.or c1.truth c2.truth) c1 c2) ⟨w1, w2, rfl⟩ b hb
  | not e ih =>
    obtain ⟨c, e1, w, v⟩ := ih hp
    obtain ⟨c', e2, w', _, v'⟩ := mkNot_wf dbg w
    exact ⟨c', by simp [CExpr.build, e1, e2], w', fun ρ b h => v' ρ b (v ρ _ h)⟩

/-! ## `constrain` -/
section
variable [CppStep T]

theorem make_eq_ok {a b : T} {R : Ivl T} : Ivl.make a b = .ok R ↔ gt a b = false ∧ R = ⟨a, b⟩ := by
  unfold Ivl.make
  cases h : gt a b <;> simp [pure, Except.pure, eq_comm]

/-- a comparison -/
def Cond.isLeaf : Cond T → Bool
  | .leq .. | .less .. | .equal .. | .notEqual .. => true
  | _ => false

/-- the narrowing applied by a possible comparison that mentions the interval -/
def narrow (dbg d : Bool) (id : Nat) (x : Ivl T) : Cond T → Outcome (Ivl T)
  | .leq _ l r =>
    if l.matchesId d id then do expectsDebug dbg (le x.lo r.arg.hi); Ivl.make x.lo (cmin x.hi r.arg.hi)
    else do expectsDebug dbg (le l.arg.lo x.hi); Ivl.make (cmax l.arg.lo x.lo) x.hi
  | .less _ l r =>
    if l.matchesId d id then do expectsDebug dbg (lt x.lo r.arg.hi); Ivl.make x.lo (cmin x.hi (← predStep r.disc r.arg.hi))
    else do expectsDebug dbg (lt l.arg.lo x.hi); Ivl.make (cmax (← succStep l.disc l.arg.lo) x.lo) x.hi
  | .equal _ l r => do
    expectsDebug dbg (ge r.arg.hi l.arg.lo && le r.arg.lo l.arg.hi)
    Ivl.make (cmax l.arg.lo r.arg.lo) (cmin l.arg.hi r.arg.hi)
  | .notEqual _ l r => do
    expectsDebug dbg (ne l.arg.lo r.arg.hi || ne l.arg.hi r.arg.lo)
    if d && l.matchesId d id && ne l.arg.lo l.arg.hi && eq r.arg.lo r.arg.hi && eq l.arg.lo r.arg.lo then
      Ivl.make (← succStep l.disc l.arg.lo) l.arg.hi
    else if d && l.matchesId d id && ne l.arg.lo l.arg.hi && eq r.arg.lo r.arg.hi && eq l.arg.hi r.arg.lo then
      Ivl.make l.arg.lo (← predStep l.disc l.arg.hi)
    else if d && r.matchesId d id && ne r.arg.lo r.arg.hi && eq l.arg.lo l.arg.hi && eq r.arg.lo l.arg.lo then
      Ivl.make (← succStep r.disc r.arg.lo) r.arg.hi
    else if d && r.matchesId d id && ne r.arg.lo r.arg.hi && eq l.arg.lo l.arg.hi && eq r.arg.hi l.arg.lo then
      Ivl.make r.arg.lo (← predStep r.disc r.arg.hi)
    else return x
  | _ => .ok x

instance mentionsDec (d : Bool) (id : Nat) : ∀ c : Cond T, Decidable (Mentions d id c)
  | .plain _ => inferInstanceAs (Decidable False)
  | .leq _ l r => inferInstanceAs (Decidable (_ ∨ _))
  | .less _ l r => inferInstanceAs (Decidable (_ ∨ _))
  | .equal _ l r => inferInstanceAs (Decidable (_ ∨ _))
  | .notEqual _ l r => inferInstanceAs (Decidable (_ ∨ _))
  | .conj _ l r => by unfold Mentions; have := mentionsDec d id l; have := mentionsDec d id r; infer_instance
  | .disj _ l r => by unfold Mentions; have := mentionsDec d id l; have := mentionsDec d id r; infer_instance

theorem leaf_eq {dbg d : Bool} {id : Nat} {x : Ivl T} {c : Cond T} (hc : c.isLeaf = true) (f o : Bool) :
    detailConstrain dbg d id x c f o =
      if Mentions d id c then
        if BoolSet.contains c.truth true then (do return (← narrow dbg d id x c, true))
        else if o then .ok (x, true) else .error .contract
      else .ok (x, f) := by
  cases c with
  | plain s => simp [Cond.isLeaf] at hc
  | conj s l r => simp [Cond.isLeaf] at hc
  | disj s l r => simp [Cond.isLeaf] at hc
  | leq s l r =>
    simp only [detailConstrain, Mentions, narrow, Cond.truth]
    rcases Bool.eq_false_or_eq_true (l.matchesId d id) with h1 | h1 <;>
      rcases Bool.eq_false_or_eq_true (r.matchesId d id) with h2 | h2 <;>
      rcases Bool.eq_false_or_eq_true (BoolSet.contains s true) with h3 | h3 <;> cases o <;> simp [h1, h2, h3, pure, Except.pure]
  | less s l r =>
    simp only [detailConstrain, Mentions, narrow, Cond.truth]
    rcases Bool.eq_false_or_eq_true (l.matchesId d id) with h1 | h1 <;>
      rcases Bool.eq_false_or_eq_true (r.matchesId d id) with h2 | h2 <;>
      rcases Bool.eq_false_or_eq_true (BoolSet.contains s true) with h3 | h3 <;> cases o <;> simp [h1, h2, h3, pure, Except.pure]
  | equal s l r =>
    simp only [detailConstrain, Mentions, narrow, Cond.truth]
    rcases Bool.eq_false_or_eq_true (l.matchesId d id) with h1 | h1 <;>
      rcases Bool.eq_false_or_eq_true (r.matchesId d id) with h2 | h2 <;>
      rcases Bool.eq_false_or_eq_true (BoolSet.contains s true) with h3 | h3 <;> cases o <;> simp [h1, h2, h3, pure, Except.pure]
  | notEqual s l r =>
    simp only [detailConstrain, Mentions, narrow, Cond.truth]
    by_cases hm : l.matchesId d id = true ∨ r.matchesId d id = true
    · simp only [Bool.or_eq_true, hm, if_true]
      rcases Bool.eq_false_or_eq_true (BoolSet.contains s true) with h3 | h3
      rotate_left
      · cases o <;> simp [h3, pure, Except.pure]
      · simp only [h3, if_true]
        cases expectsDebug dbg (ne l.arg.lo r.arg.hi || ne l.arg.hi r.arg.lo) with
        | error e => rfl
        | ok u =>
          simp only [ok_bind]
          split <;> (try split) <;> (try split) <;> (try split) <;> simp [pure, Except.pure]
    · simp only [Bool.or_eq_true, hm, if_false]

theorem predStep_spec {d : Bool} (hs : d = true → LawfulStep T) {a b : T} (h : lt a b = true) :
    ∃ p, predStep d b = .ok p ∧ le a p = true ∧ le p b = true ∧ (∀ v, lt v b = true → le v p = true) ∧ (d = true → lt p b = true) ∧
      (d = false → p = b) := by
  cases d with
  | false => exact ⟨b, rfl, by grind, by grind, by grind, by simp, by simp⟩
  | true =>
    obtain ⟨p, h1, h2, h3⟩ := (hs rfl).pred_of_lt a b h
    refine ⟨p, by simp [predStep, h1], h2, by grind, fun v hv => ?_, fun _ => h3, by simp⟩
    obtain ⟨p', h1', h2', _⟩ := (hs rfl).pred_of_lt v b hv
    rw [h1] at h1'; cases h1'; exact h2'
theorem succStep_spec {d : Bool} (hs : d = true → LawfulStep T) {a b : T} (h : lt a b = true) :
    ∃ p, succStep d a = .ok p ∧ le p b = true ∧ le a p = true ∧ (∀ v, lt a v = true → le p v = true) ∧ (d = true → lt a p = true) ∧
      (d = false → p = a) := by
  cases d with
  | false => exact ⟨a, rfl, by grind, by grind, by grind, by simp, by simp⟩
  | true =>
    obtain ⟨p, h1, h2, h3⟩ := (hs rfl).succ_of_lt a b h
    refine ⟨p, by simp [succStep, h1], h2, by grind, fun v hv => ?_, fun _ => h3, by simp⟩
    obtain ⟨p', h1', h2', _⟩ := (hs rfl).succ_of_lt a v hv
    rw [h1] at h1'; cases h1'; exact h2'

theorem make_of_le {a b : T} (h : le a b = true) : Ivl.make a b = .ok ⟨a, b⟩ := make_eq_ok.mpr ⟨by grind, rfl⟩

/-- the integral and the identical step, when the adjacent value exists -/
theorem predStep_some {d : Bool} {b : T} (h : d = true → ∃ p, CppStep.pred b = some p ∧ le p p = true) :
    ∃ p, predStep d b = .ok p ∧ (le b b = true → le p p = true) := by
  cases d with
  | false => exact ⟨b, rfl, id⟩
  | true => obtain ⟨p, h1, h2⟩ := h rfl; exact ⟨p, by simp [predStep, h1], fun _ => h2⟩
theorem succStep_some {d : Bool} {b : T} (h : d = true → ∃ p, CppStep.succ b = some p ∧ le p p = true) :
    ∃ p, succStep d b = .ok p ∧ (le b b = true → le p p = true) := by
  cases d with
  | false => exact ⟨b, rfl, id⟩
  | true => obtain ⟨p, h1, h2⟩ := h rfl; exact ⟨p, by simp [succStep, h1], fun _ => h2⟩

/-- operands that step like the interval's values give adjacent values -/
theorem Spec.StrictHom.steps {d : Bool} (hs : d = true → LawfulStep T) {c : Cond T} (h : StrictHom d c) : Steps d c := by
  induction c with
  | less s l r =>
    obtain ⟨d1, d2⟩ := h
    intro hlt
    refine ⟨fun hd => ?_, fun hd => ?_⟩
    · obtain ⟨p, h1, h2, h3⟩ := (hs (d2 ▸ hd)).pred_of_lt _ _ hlt
      exact ⟨p, h1, by grind⟩
    · obtain ⟨p, h1, h2, h3⟩ := (hs (d1 ▸ hd)).succ_of_lt _ _ hlt
      exact ⟨p, h1, by grind⟩
  | notEqual s l r =>
    intro hd
    have key : ∀ a b : T, lt a b = true → (∃ s, CppStep.succ a = some s ∧ le s s = true) ∧ ∃ p, CppStep.pred b = some p ∧ le p p = true := by
      intro a b hlt
      obtain ⟨p, h1, h2, h3⟩ := (hs hd).pred_of_lt _ _ hlt
      obtain ⟨q, h1', h2', h3'⟩ := (hs hd).succ_of_lt _ _ hlt
      exact ⟨⟨q, h1', by grind⟩, p, h1, by grind⟩
    exact ⟨key _ _, key _ _⟩
  | conj s l r ihl ihr => exact ⟨ihl h.1, ihr h.2⟩
  | disj s l r ihl ihr => exact ⟨ihl h.1, ihr h.2⟩
  | plain s => trivial
  | leq s l r => trivial
  | equal s l r => trivial

/-- A comparison never causes undefined behaviour. -/
theorem narrow_no_ub {dbg d : Bool} {id : Nat} {x : Ivl T} {c : Cond T} (hw : WF c)
    (hh : Steps d c) (ht : BoolSet.contains c.truth true = true) :
    (∃ R, narrow dbg d id x c = .ok R) ∨ narrow dbg d id x c = .error .contract := by
  have mk : ∀ a b : T, (∃ R, Ivl.make a b = .ok R) ∨ Ivl.make a b = .error .contract := by
    intro a b; unfold Ivl.make; cases gt a b <;> simp [pure, Except.pure]
  have dbgc : ∀ (p : Bool), expectsDebug dbg p = .ok () ∨ expectsDebug dbg p = .error .contract := by
    intro p; cases dbg <;> cases p <;> simp
  cases c with
  | plain s => exact Or.inl ⟨x, rfl⟩
  | conj s l r => exact Or.inl ⟨x, rfl⟩
  | disj s l r => exact Or.inl ⟨x, rfl⟩
  | leq s l r =>
    simp only [narrow]
    split
    · rcases dbgc (le x.lo r.arg.hi) with h | h <;> rw [h] <;> simp [mk]
    · rcases dbgc (le l.arg.lo x.hi) with h | h <;> rw [h] <;> simp [mk]
  | less s l r =>
    obtain ⟨h1, h2, h3⟩ := hw
    simp only [narrow]
    simp only [Cond.truth, h3, contains_lt, if_true] at ht
    obtain ⟨p, e1, _⟩ := predStep_some (hh ht).1
    obtain ⟨q, e2, _⟩ := succStep_some (hh ht).2
    split
    · rcases dbgc (lt x.lo r.arg.hi) with h | h <;> rw [h] <;> simp [mk, e1]
    · rcases dbgc (lt l.arg.lo x.hi) with h | h <;> rw [h] <;> simp [mk, e2]
  | equal s l r =>
    simp only [narrow]
    rcases dbgc (ge r.arg.hi l.arg.lo && le r.arg.lo l.arg.hi) with h | h <;> rw [h] <;> simp [mk]
  | notEqual s l r =>
    obtain ⟨h1, h2, h3⟩ := hw
    have p1 := properA_le h1
    have p2 := properA_le h2
    simp only [narrow]
    rcases dbgc (ne l.arg.lo r.arg.hi || ne l.arg.hi r.arg.lo) with h | h <;> rw [h]
    · simp only [ok_bind]
      split
      · rename_i hc
        simp only [Bool.and_eq_true] at hc
        obtain ⟨⟨⟨⟨c1, c2⟩, c3⟩, c4⟩, c5⟩ := hc
        have hd := match_disc c2
        have : lt l.arg.lo l.arg.hi = true := by grind
        obtain ⟨q, e2, _⟩ := succStep_some (d := l.disc) (fun _ => ((hh c1).1 this).1)
        simp [e2, mk]
      · split
        · rename_i hc
          simp only [Bool.and_eq_true] at hc
          obtain ⟨⟨⟨⟨c1, c2⟩, c3⟩, c4⟩, c5⟩ := hc
          have : lt l.arg.lo l.arg.hi = true := by grind
          obtain ⟨q, e2, _⟩ := predStep_some (d := l.disc) (fun _ => ((hh c1).1 this).2)
          simp [e2, mk]
        · split
          · rename_i hc
            simp only [Bool.and_eq_true] at hc
            obtain ⟨⟨⟨⟨c1, c2⟩, c3⟩, c4⟩, c5⟩ := hc
            have : lt r.arg.lo r.arg.hi = true := by grind
            obtain ⟨q, e2, _⟩ := succStep_some (d := r.disc) (fun _ => ((hh c1).2 this).1)
            simp [e2, mk]
          · split
            · rename_i hc
              simp only [Bool.and_eq_true] at hc
              obtain ⟨⟨⟨⟨c1, c2⟩, c3⟩, c4⟩, c5⟩ := hc
              have : lt r.arg.lo r.arg.hi = true := by grind
              obtain ⟨q, e2, _⟩ := predStep_some (d := r.disc) (fun _ => ((hh c1).2 this).2)
              simp [e2, mk]
            · exact Or.inl ⟨x, rfl⟩
    · simp

/-- The narrowing keeps every value that can satisfy the comparison. -/
theorem narrow_sound {dbg d : Bool} {id : Nat} {x R : Ivl T} (hs : d = true → LawfulStep T) {c : Cond T} (hw : WF c)
    (hh : StrictHom d c) (hm : Mentions d id c) (ht : BoolSet.contains c.truth true = true)
    (h : narrow dbg d id x c = .ok R) {ρ : Nat → T} (hx : ρ id ∈ᵢ x) (he : Ev ρ c true) : ρ id ∈ᵢ R := by
  unfold Pt at *
  cases c with
  | plain s => simp [narrow] at h; subst h; exact hx
  | conj s l r => simp [narrow] at h; subst h; exact hx
  | disj s l r => simp [narrow] at h; subst h; exact hx
  | leq s l r =>
    obtain ⟨h1, h2, h3⟩ := hw
    obtain ⟨u, v, hu, hv, e⟩ := he
    have pu := val_pt h1 hu
    have pv := val_pt h2 hv
    simp only [narrow] at h
    split at h
    · rename_i hm
      cases val_match hm hu
      simp only [bind_eq_ok, make_eq_ok] at h
      obtain ⟨_, _, _, rfl⟩ := h
      simp only; grind
    · rename_i hm'
      have hm' : r.matchesId d id = true := by simpa [Mentions, hm'] using hm
      cases val_match hm' hv
      simp only [bind_eq_ok, make_eq_ok] at h
      obtain ⟨_, _, _, rfl⟩ := h
      simp only; grind
  | less s l r =>
    obtain ⟨h1, h2, h3⟩ := hw
    obtain ⟨d1, d2⟩ := hh
    obtain ⟨u, v, hu, hv, e⟩ := he
    have pu := val_pt h1 hu
    have pv := val_pt h2 hv
    simp only [narrow, d1, d2] at h
    simp only [Cond.truth, h3, contains_lt, if_true] at ht
    obtain ⟨p, e1, _, _, k1, _⟩ := predStep_spec hs ht
    obtain ⟨q, e2, _, _, k2, _⟩ := succStep_spec hs ht
    split at h
    · rename_i hm
      cases val_match hm hu
      simp only [bind_eq_ok, make_eq_ok, e1] at h
      obtain ⟨_, _, _, ⟨rfl⟩, _, rfl⟩ := h
      have := k1 (ρ id) (by grind)
      simp only; grind
    · rename_i hm'
      have hm' : r.matchesId d id = true := by simpa [Mentions, hm'] using hm
      cases val_match hm' hv
      simp only [bind_eq_ok, make_eq_ok, e2] at h
      obtain ⟨_, _, _, ⟨rfl⟩, _, rfl⟩ := h
      have := k2 (ρ id) (by grind)
      simp only; grind
  | equal s l r =>
    obtain ⟨h1, h2, h3⟩ := hw
    obtain ⟨u, v, hu, hv, e⟩ := he
    have pu := val_pt h1 hu
    have pv := val_pt h2 hv
    have hid : u = ρ id ∨ v = ρ id := by
      rcases hm with hm | hm
      · exact Or.inl (val_match hm hu)
      · exact Or.inr (val_match hm hv)
    simp only [narrow, bind_eq_ok, make_eq_ok] at h
    obtain ⟨_, _, _, rfl⟩ := h
    simp only; rcases hid with rfl | rfl <;> grind
  | notEqual s l r =>
    obtain ⟨h1, h2, h3⟩ := hw
    obtain ⟨u, v, hu, hv, e⟩ := he
    have pu := val_pt h1 hu
    have pv := val_pt h2 hv
    simp only [narrow, bind_eq_ok] at h
    obtain ⟨_, _, h⟩ := h
    split at h
    · rename_i hc
      simp only [Bool.and_eq_true] at hc
      obtain ⟨⟨⟨⟨c1, c2⟩, c3⟩, c4⟩, c5⟩ := hc
      have : lt l.arg.lo l.arg.hi = true := by grind
      obtain ⟨q, e2, _, _, k, _⟩ := succStep_spec (d := l.disc) (fun e => hs c1) this
      simp only [bind_eq_ok, make_eq_ok, e2] at h
      obtain ⟨_, ⟨rfl⟩, _, rfl⟩ := h
      cases val_match c2 hu
      exact ⟨k _ (by grind), by grind⟩
    · split at h
      · rename_i hc
        simp only [Bool.and_eq_true] at hc
        obtain ⟨⟨⟨⟨c1, c2⟩, c3⟩, c4⟩, c5⟩ := hc
        have : lt l.arg.lo l.arg.hi = true := by grind
        obtain ⟨q, e2, _, _, k, _⟩ := predStep_spec (d := l.disc) (fun e => hs c1) this
        simp only [bind_eq_ok, make_eq_ok, e2] at h
        obtain ⟨_, ⟨rfl⟩, _, rfl⟩ := h
        cases val_match c2 hu
        exact ⟨by grind, k _ (by grind)⟩
      · split at h
        · rename_i hc
          simp only [Bool.and_eq_true] at hc
          obtain ⟨⟨⟨⟨c1, c2⟩, c3⟩, c4⟩, c5⟩ := hc
          have : lt r.arg.lo r.arg.hi = true := by grind
          obtain ⟨q, e2, _, _, k, _⟩ := succStep_spec (d := r.disc) (fun e => hs c1) this
          simp only [bind_eq_ok, make_eq_ok, e2] at h
          obtain ⟨_, ⟨rfl⟩, _, rfl⟩ := h
          cases val_match c2 hv
          exact ⟨k _ (by grind), by grind⟩
        · split at h
          · rename_i hc
            simp only [Bool.and_eq_true] at hc
            obtain ⟨⟨⟨⟨c1, c2⟩, c3⟩, c4⟩, c5⟩ := hc
            have : lt r.arg.lo r.arg.hi = true := by grind
            obtain ⟨q, e2, _, _, k, _⟩ := predStep_spec (d := r.disc) (fun e => hs c1) this
            simp only [bind_eq_ok, make_eq_ok, e2] at h
            obtain ⟨_, ⟨rfl⟩, _, rfl⟩ := h
            cases val_match c2 hv
            exact ⟨by grind, k _ (by grind)⟩
          · cases h; exact hx

/-- The narrowing stays within the current bounds and the bounds the operand referring to the interval had in a `==`/`!=`
comparison. -/
theorem narrow_sub {dbg d : Bool} {id : Nat} {x R : Ivl T} (hs : d = true → LawfulStep T) {c : Cond T} (hw : WF c)
    (hh : StrictHom d c) (hm : Mentions d id c) (ht : BoolSet.contains c.truth true = true)
    (hself : EqOperands d id (fun o => le x.lo o.arg.lo = true ∧ le o.arg.hi x.hi = true) c)
    (hx : Proper x) (h : narrow dbg d id x c = .ok R) : Proper R ∧ le x.lo R.lo = true ∧ le R.hi x.hi = true := by
  unfold Proper at *
  cases c with
  | plain s => simp [narrow] at h; subst h; grind
  | conj s l r => simp [narrow] at h; subst h; grind
  | disj s l r => simp [narrow] at h; subst h; grind
  | leq s l r =>
    obtain ⟨h1, h2, h3⟩ := hw
    have p1 := properA_le h1
    have p2 := properA_le h2
    simp only [narrow] at h
    split at h
    · simp only [bind_eq_ok, make_eq_ok] at h
      obtain ⟨_, _, _, rfl⟩ := h
      simp only; grind
    · simp only [bind_eq_ok, make_eq_ok] at h
      obtain ⟨_, _, _, rfl⟩ := h
      simp only; grind
  | less s l r =>
    obtain ⟨h1, h2, h3⟩ := hw
    obtain ⟨d1, d2⟩ := hh
    simp only [narrow, d1, d2] at h
    simp only [Cond.truth, h3, contains_lt, if_true] at ht
    obtain ⟨p, e1, _, _, k1, _⟩ := predStep_spec hs ht
    obtain ⟨q, e2, _, _, k2, _⟩ := succStep_spec hs ht
    split at h
    · simp only [bind_eq_ok, make_eq_ok, e1] at h
      obtain ⟨_, _, _, ⟨rfl⟩, _, rfl⟩ := h
      simp only; grind
    · simp only [bind_eq_ok, make_eq_ok, e2] at h
      obtain ⟨_, _, _, ⟨rfl⟩, _, rfl⟩ := h
      simp only; grind
  | equal s l r =>
    obtain ⟨h1, h2, h3⟩ := hw
    have p1 := properA_le h1
    have p2 := properA_le h2
    simp only [narrow, bind_eq_ok, make_eq_ok] at h
    obtain ⟨_, _, _, rfl⟩ := h
    rcases hm with hm | hm
    · have := hself.1 hm; simp only; grind
    · have := hself.2 hm; simp only; grind
  | notEqual s l r =>
    obtain ⟨h1, h2, h3⟩ := hw
    have p1 := properA_le h1
    have p2 := properA_le h2
    simp only [narrow, bind_eq_ok] at h
    obtain ⟨_, _, h⟩ := h
    split at h
    · rename_i hc
      simp only [Bool.and_eq_true] at hc
      obtain ⟨⟨⟨⟨c1, c2⟩, c3⟩, c4⟩, c5⟩ := hc
      have : lt l.arg.lo l.arg.hi = true := by grind
      obtain ⟨q, e2, _, _, k, _⟩ := succStep_spec (d := l.disc) (fun e => hs c1) this
      simp only [bind_eq_ok, make_eq_ok, e2] at h
      obtain ⟨_, ⟨rfl⟩, _, rfl⟩ := h
      have := hself.1 c2; simp only; grind
    · split at h
      · rename_i hc
        simp only [Bool.and_eq_true] at hc
        obtain ⟨⟨⟨⟨c1, c2⟩, c3⟩, c4⟩, c5⟩ := hc
        have : lt l.arg.lo l.arg.hi = true := by grind
        obtain ⟨q, e2, _, _, k, _⟩ := predStep_spec (d := l.disc) (fun e => hs c1) this
        simp only [bind_eq_ok, make_eq_ok, e2] at h
        obtain ⟨_, ⟨rfl⟩, _, rfl⟩ := h
        have := hself.1 c2; simp only; grind
      · split at h
        · rename_i hc
          simp only [Bool.and_eq_true] at hc
          obtain ⟨⟨⟨⟨c1, c2⟩, c3⟩, c4⟩, c5⟩ := hc
          have : lt r.arg.lo r.arg.hi = true := by grind
          obtain ⟨q, e2, _, _, k, _⟩ := succStep_spec (d := r.disc) (fun e => hs c1) this
          simp only [bind_eq_ok, make_eq_ok, e2] at h
          obtain ⟨_, ⟨rfl⟩, _, rfl⟩ := h
          have := hself.2 c2; simp only; grind
        · split at h
          · rename_i hc
            simp only [Bool.and_eq_true] at hc
            obtain ⟨⟨⟨⟨c1, c2⟩, c3⟩, c4⟩, c5⟩ := hc
            have : lt r.arg.lo r.arg.hi = true := by grind
            obtain ⟨q, e2, _, _, k, _⟩ := predStep_spec (d := r.disc) (fun e => hs c1) this
            simp only [bind_eq_ok, make_eq_ok, e2] at h
            obtain ⟨_, ⟨rfl⟩, _, rfl⟩ := h
            have := hself.2 c2; simp only; grind
          · cases h; grind


/-- The narrowing gives an assigned NaN-free interval. -/
theorem narrow_proper {dbg d : Bool} {id : Nat} {x R : Ivl T} {c : Cond T} (hw : WF c)
    (hh : Steps d c) (hm : Mentions d id c) (ht : BoolSet.contains c.truth true = true)
    (hx : Proper x) (h : narrow dbg d id x c = .ok R) : Proper R := by
  unfold Proper at *
  cases c with
  | plain s => simp [narrow] at h; subst h; grind
  | conj s l r => simp [narrow] at h; subst h; grind
  | disj s l r => simp [narrow] at h; subst h; grind
  | leq s l r =>
    obtain ⟨h1, h2, h3⟩ := hw
    have p1 := properA_le h1
    have p2 := properA_le h2
    simp only [narrow] at h
    split at h
    · simp only [bind_eq_ok, make_eq_ok] at h
      obtain ⟨_, _, _, rfl⟩ := h
      simp only; grind
    · simp only [bind_eq_ok, make_eq_ok] at h
      obtain ⟨_, _, _, rfl⟩ := h
      simp only; grind
  | less s l r =>
    obtain ⟨h1, h2, h3⟩ := hw
    simp only [narrow] at h
    simp only [Cond.truth, h3, contains_lt, if_true] at ht
    obtain ⟨p, e1, k1⟩ := predStep_some (hh ht).1
    obtain ⟨q, e2, k2⟩ := succStep_some (hh ht).2
    split at h
    · simp only [bind_eq_ok, make_eq_ok, e1] at h
      obtain ⟨_, _, _, ⟨rfl⟩, _, rfl⟩ := h
      simp only; grind
    · simp only [bind_eq_ok, make_eq_ok, e2] at h
      obtain ⟨_, _, _, ⟨rfl⟩, _, rfl⟩ := h
      simp only; grind
  | equal s l r =>
    obtain ⟨h1, h2, h3⟩ := hw
    have p1 := properA_le h1
    have p2 := properA_le h2
    simp only [narrow, bind_eq_ok, make_eq_ok] at h
    obtain ⟨_, _, _, rfl⟩ := h
    simp only; grind
  | notEqual s l r =>
    obtain ⟨h1, h2, h3⟩ := hw
    have p1 := properA_le h1
    have p2 := properA_le h2
    simp only [narrow, bind_eq_ok] at h
    obtain ⟨_, _, h⟩ := h
    split at h
    · rename_i hc
      simp only [Bool.and_eq_true] at hc
      obtain ⟨⟨⟨⟨c1, c2⟩, c3⟩, c4⟩, c5⟩ := hc
      have : lt l.arg.lo l.arg.hi = true := by grind
      obtain ⟨q, e2, k⟩ := succStep_some (d := l.disc) (fun _ => ((hh c1).1 this).1)
      simp only [bind_eq_ok, make_eq_ok, e2] at h
      obtain ⟨_, ⟨rfl⟩, _, rfl⟩ := h
      simp only; grind
    · split at h
      · rename_i hc
        simp only [Bool.and_eq_true] at hc
        obtain ⟨⟨⟨⟨c1, c2⟩, c3⟩, c4⟩, c5⟩ := hc
        have : lt l.arg.lo l.arg.hi = true := by grind
        obtain ⟨q, e2, k⟩ := predStep_some (d := l.disc) (fun _ => ((hh c1).1 this).2)
        simp only [bind_eq_ok, make_eq_ok, e2] at h
        obtain ⟨_, ⟨rfl⟩, _, rfl⟩ := h
        simp only; grind
      · split at h
        · rename_i hc
          simp only [Bool.and_eq_true] at hc
          obtain ⟨⟨⟨⟨c1, c2⟩, c3⟩, c4⟩, c5⟩ := hc
          have : lt r.arg.lo r.arg.hi = true := by grind
          obtain ⟨q, e2, k⟩ := succStep_some (d := r.disc) (fun _ => ((hh c1).2 this).1)
          simp only [bind_eq_ok, make_eq_ok, e2] at h
          obtain ⟨_, ⟨rfl⟩, _, rfl⟩ := h
          simp only; grind
        · split at h
          · rename_i hc
            simp only [Bool.and_eq_true] at hc
            obtain ⟨⟨⟨⟨c1, c2⟩, c3⟩, c4⟩, c5⟩ := hc
            have : lt r.arg.lo r.arg.hi = true := by grind
            obtain ⟨q, e2, k⟩ := predStep_some (d := r.disc) (fun _ => ((hh c1).2 this).2)
            simp only [bind_eq_ok, make_eq_ok, e2] at h
            obtain ⟨_, ⟨rfl⟩, _, rfl⟩ := h
            simp only; grind
          · cases h; grind


/-- If the operands that refer to the interval have its current bounds, a possible comparison succeeds. -/
theorem narrow_ok {dbg d : Bool} {id : Nat} {x : Ivl T} (hs : d = true → LawfulStep T) {c : Cond T} (hw : WF c)
    (hh : StrictHom d c) (hm : Mentions d id c) (ht : BoolSet.contains c.truth true = true)
    (hself : SelfOperands d id (fun o => o.arg = .ivl x) c) (hx : Proper x) : ∃ R, narrow dbg d id x c = .ok R := by
  unfold Proper at *
  cases c with
  | plain s => exact ⟨x, rfl⟩
  | conj s l r => exact ⟨x, rfl⟩
  | disj s l r => exact ⟨x, rfl⟩
  | leq s l r =>
    obtain ⟨h1, h2, h3⟩ := hw
    simp only [Cond.truth, h3, contains_leq, if_true] at ht
    simp only [narrow]
    split
    · rename_i hm; rw [hself.1 hm] at ht
      simp only [Arg.lo] at ht
      rw [ht]; simp only [expectsDebug_true, ok_bind]; exact ⟨_, make_of_le (by grind)⟩
    · rename_i hm'
      have hm' : r.matchesId d id = true := by simpa [Mentions, hm'] using hm
      rw [hself.2 hm'] at ht
      simp only [Arg.hi] at ht
      rw [ht]; simp only [expectsDebug_true, ok_bind]; exact ⟨_, make_of_le (by grind)⟩
  | less s l r =>
    obtain ⟨h1, h2, h3⟩ := hw
    obtain ⟨d1, d2⟩ := hh
    simp only [narrow, d1, d2]
    simp only [Cond.truth, h3, contains_lt, if_true] at ht
    obtain ⟨p, e1, _⟩ := predStep_spec hs ht
    obtain ⟨q, e2, _⟩ := succStep_spec hs ht
    split
    · rename_i hm; rw [hself.1 hm] at ht
      simp only [Arg.lo] at ht
      obtain ⟨p, e1, _⟩ := predStep_spec hs ht
      rw [ht, e1]; simp only [expectsDebug_true, ok_bind]; exact ⟨_, make_of_le (by grind)⟩
    · rename_i hm'
      have hm' : r.matchesId d id = true := by simpa [Mentions, hm'] using hm
      rw [hself.2 hm'] at ht
      simp only [Arg.hi] at ht
      obtain ⟨p, e1, _⟩ := succStep_spec hs ht
      rw [ht, e1]; simp only [expectsDebug_true, ok_bind]; exact ⟨_, make_of_le (by grind)⟩
  | equal s l r =>
    obtain ⟨h1, h2, h3⟩ := hw
    have p1 := properA_le h1
    have p2 := properA_le h2
    simp only [Cond.truth, h3, contains_eq, if_true] at ht
    simp only [narrow]
    rw [ht]; simp only [expectsDebug_true, ok_bind]
    exact ⟨_, make_of_le (by grind)⟩
  | notEqual s l r =>
    obtain ⟨h1, h2, h3⟩ := hw
    have p1 := properA_le h1
    have p2 := properA_le h2
    simp only [Cond.truth, h3, contains_neq, if_true] at ht
    simp only [narrow]
    rw [ht]
    simp only [expectsDebug_true, ok_bind]
    split
    · rename_i hc
      simp only [Bool.and_eq_true] at hc
      obtain ⟨⟨⟨⟨c1, c2⟩, c3⟩, c4⟩, c5⟩ := hc
      have : lt l.arg.lo l.arg.hi = true := by grind
      obtain ⟨q, e2, k, _⟩ := succStep_spec (d := l.disc) (fun e => hs c1) this
      exact ⟨_, by rw [e2]; exact make_of_le k⟩
    · split
      · rename_i hc
        simp only [Bool.and_eq_true] at hc
        obtain ⟨⟨⟨⟨c1, c2⟩, c3⟩, c4⟩, c5⟩ := hc
        have : lt l.arg.lo l.arg.hi = true := by grind
        obtain ⟨q, e2, k, _⟩ := predStep_spec (d := l.disc) (fun e => hs c1) this
        exact ⟨_, by rw [e2]; exact make_of_le k⟩
      · split
        · rename_i hc
          simp only [Bool.and_eq_true] at hc
          obtain ⟨⟨⟨⟨c1, c2⟩, c3⟩, c4⟩, c5⟩ := hc
          have : lt r.arg.lo r.arg.hi = true := by grind
          obtain ⟨q, e2, k, _⟩ := succStep_spec (d := r.disc) (fun e => hs c1) this
          exact ⟨_, by rw [e2]; exact make_of_le k⟩
        · split
          · rename_i hc
            simp only [Bool.and_eq_true] at hc
            obtain ⟨⟨⟨⟨c1, c2⟩, c3⟩, c4⟩, c5⟩ := hc
            have : lt r.arg.lo r.arg.hi = true := by grind
            obtain ⟨q, e2, k, _⟩ := predStep_spec (d := r.disc) (fun e => hs c1) this
            exact ⟨_, by rw [e2]; exact make_of_le k⟩
          · exact ⟨x, rfl⟩

/-! ### trees -/

theorem isLeaf_cases (c : Cond T) : c.isLeaf = true ∨ (∃ s, c = .plain s) ∨ (∃ s l r, c = .conj s l r) ∨ (∃ s l r, c = .disj s l r) := by
  cases c <;> simp [Cond.isLeaf]

theorem make_contract (a b : T) : (∃ R, Ivl.make a b = .ok R) ∨ Ivl.make a b = .error .contract := by
  unfold Ivl.make; cases gt a b <;> simp [pure, Except.pure]

/-- an operand of a conjunction as `constrain` treats it -/
def Cond.flat : Cond T → Cond T
  | .disj s _ _ => .plain s
  | c => c

omit [CppOrder T] [CppStep T] in
theorem flat_truth (c : Cond T) : c.flat.truth = c.truth := by cases c <;> rfl
omit [CppOrder T] [CppStep T] in
theorem flat_isDisj (c : Cond T) : c.flat.isDisj = false := by cases c <;> rfl
omit [CppOrder T] [CppStep T] in
theorem flat_of {c : Cond T} (h : c.isDisj = false) : c.flat = c := by cases c <;> first | rfl | simp [Cond.isDisj] at h
omit [CppOrder T] [CppStep T] in
theorem seen_conj (s : BoolSet) (l r : Cond T) : seen (.conj s l r) = .conj s (seen l.flat) (seen r.flat) := by
  have h : ∀ c : Cond T, (if c.isDisj then Cond.plain c.truth else seen c) = seen c.flat := by intro c; cases c <;> rfl
  simp only [seen, h]
omit [CppOrder T] [CppStep T] in
theorem seen_leaf {c : Cond T} (h : c.isLeaf = true) : seen c = c := by cases c <;> first | rfl | simp [Cond.isLeaf] at h
omit [CppOrder T] [CppStep T] in
theorem seen_truth (c : Cond T) : (seen c).truth = c.truth := by cases c <;> rfl
omit [CppOrder T] [CppStep T] in
theorem seen_isDisj (c : Cond T) : (seen c).isDisj = c.isDisj := by cases c <;> rfl

omit [CppOrder T] [CppStep T] in
theorem tree_induction {P : Cond T → Prop} (hp : ∀ s, P (.plain s)) (hl : ∀ c : Cond T, c.isLeaf = true → P c)
    (hc : ∀ s l r, P l.flat → P r.flat → P (.conj s l r)) (hd : ∀ s l r, P l → P r → P (.disj s l r)) (c : Cond T) : P c := by
  have hf : ∀ c : Cond T, P c → P c.flat := by
    intro c h
    cases c with
    | disj s l r => exact hp s
    | _ => exact h
  induction c with
  | plain s => exact hp s
  | leq s l r => exact hl _ rfl
  | less s l r => exact hl _ rfl
  | equal s l r => exact hl _ rfl
  | notEqual s l r => exact hl _ rfl
  | conj s l r h1 h2 => exact hc s l r (hf l h1) (hf r h2)
  | disj s l r h1 h2 => exact hd s l r h1 h2

omit [CppStep T] in
theorem WF.flat {c : Cond T} (h : WF c) : WF c.flat := by
  cases c with
  | disj s l r => exact h.truth_ne
  | _ => exact h

omit [CppStep T] in
theorem WF.seen {c : Cond T} (h : WF c) : WF (seen c) := by
  induction c using tree_induction with
  | hp s => exact h
  | hl c hl => rw [seen_leaf hl]; exact h
  | hc s l r ihl ihr =>
    rw [seen_conj]
    exact ⟨ihl h.1.flat, ihr h.2.1.flat, by rw [seen_truth, seen_truth, flat_truth, flat_truth]; exact h.2.2⟩
  | hd s l r ihl ihr => exact ⟨ihl h.1, ihr h.2.1, by rw [seen_truth, seen_truth]; exact h.2.2⟩

omit [CppStep T] in
/-- whatever a condition can evaluate to, the part that `constrain` looks at can evaluate to -/
theorem ev_seen {ρ : Nat → T} {c : Cond T} : ∀ {b : Bool}, WF c → Ev ρ c b → Ev ρ (seen c) b := by
  have hf : ∀ {c : Cond T} {b : Bool}, WF c → Ev ρ c b → Ev ρ c.flat b := by
    intro c b hw h
    cases c with
    | disj s l r => exact ev_truth _ hw b h
    | _ => exact h
  induction c using tree_induction with
  | hp s => exact fun _ h => h
  | hl c hl => intro b _ h; rw [seen_leaf hl]; exact h
  | hc s l r ihl ihr =>
    rintro b hw ⟨p, q, h1, h2, h3⟩
    rw [seen_conj]
    exact ⟨p, q, ihl hw.1.flat (hf hw.1 h1), ihr hw.2.1.flat (hf hw.2.1 h2), h3⟩
  | hd s l r ihl ihr => rintro b hw ⟨p, q, h1, h2, h3⟩; exact ⟨p, q, ihl hw.1 h1, ihr hw.2.1 h2, h3⟩

omit [CppOrder T] [CppStep T] in
theorem Spec.StrictHom.seen {d : Bool} {c : Cond T} (h : StrictHom d c) : StrictHom d (Spec.seen c) := by
  induction c using tree_induction with
  | hp s => exact h
  | hl c hl => rw [seen_leaf hl]; exact h
  | hc s l r ihl ihr =>
    have hf : ∀ c : Cond T, StrictHom d c → StrictHom d c.flat := by
      intro c h
      cases c with
      | disj s l r => trivial
      | _ => exact h
    rw [seen_conj]
    exact ⟨ihl (hf _ h.1), ihr (hf _ h.2)⟩
  | hd s l r ihl ihr => exact ⟨ihl h.1, ihr h.2⟩

omit [CppOrder T] [CppStep T] in
theorem Spec.SelfOperands.seen {d : Bool} {id : Nat} {P : Operand T → Prop} {c : Cond T} (h : SelfOperands d id P c) :
    SelfOperands d id P (Spec.seen c) := by
  induction c using tree_induction with
  | hp s => exact h
  | hl c hl => rw [seen_leaf hl]; exact h
  | hc s l r ihl ihr =>
    have hf : ∀ c : Cond T, SelfOperands d id P c → SelfOperands d id P c.flat := by
      intro c h
      cases c with
      | disj s l r => trivial
      | _ => exact h
    rw [seen_conj]
    exact ⟨ihl (hf _ h.1), ihr (hf _ h.2)⟩
  | hd s l r ihl ihr => exact ⟨ihl h.1, ihr h.2⟩

theorem detail_conj {dbg d : Bool} {id : Nat} {x : Ivl T} (s : BoolSet) (l r : Cond T) (f o : Bool) :
    detailConstrain dbg d id x (.conj s l r) f o = (do
      let (xl, f) ← detailConstrain dbg d id x l.flat f o
      let (xr, f) ← detailConstrain dbg d id x r.flat f o
      if BoolSet.contains s true then do
        expectsDebug dbg (ge xl.hi xr.lo && le xl.lo xr.hi)
        return (← Ivl.make (cmax xl.lo xr.lo) (cmin xl.hi xr.hi), f)
      else return (x, f)) := by
  have h : ∀ (c : Cond T) f, (if c.isDisj then (.ok (x, f) : Outcome (Ivl T × Bool)) else detailConstrain dbg d id x c f o) =
      detailConstrain dbg d id x c.flat f o := by
    intro c f
    cases c with
    | disj s l r => rfl
    | _ => rfl
  rw [detailConstrain]
  simp only [h]

/-- the flag after the call: a disjunction overwrites it, everything else only sets it -/
theorem flag_val {dbg d : Bool} {id : Nat} {x : Ivl T} : ∀ (c : Cond T) (f o : Bool) (R : Ivl T) (f' : Bool),
    detailConstrain dbg d id x c f o = .ok (R, f') → f' = ((f && !c.isDisj) || decide (Mentions d id (seen c))) := by
  intro c
  induction c using tree_induction with
  | hp s => intro f o R f' h; cases h; simp [Cond.isDisj, seen, Mentions]
  | hl c hl =>
    intro f o R f' h
    rw [leaf_eq hl] at h
    rw [seen_leaf hl]
    have hd : c.isDisj = false := by cases c <;> first | rfl | simp [Cond.isLeaf] at hl
    split at h
    · rename_i hm
      simp only [hm, decide_true, Bool.or_true]
      split at h
      · simp only [bind_eq_ok, pure, Except.pure] at h
        obtain ⟨a, _, h⟩ := h; cases h; rfl
      · split at h
        · cases h; rfl
        · cases h
    · rename_i hm; cases h; simp [hm, hd]
  | hc s l r ihl ihr =>
    intro f o R f' h
    have hm : decide (Mentions d id (seen (.conj s l r))) = (decide (Mentions d id (seen l.flat)) || decide (Mentions d id (seen r.flat))) := by
      rw [Bool.eq_iff_iff, seen_conj]; simp only [decide_eq_true_eq, Bool.or_eq_true]; rfl
    rw [hm]
    simp only [detail_conj, bind_eq_ok] at h
    obtain ⟨⟨xl, f1⟩, h1, ⟨xr, f2⟩, h2, h3⟩ := h
    have e1 := ihl _ _ _ _ h1
    have e2 := ihr _ _ _ _ h2
    rw [flat_isDisj] at e1 e2
    have e3 : f' = f2 := by
      split at h3
      · simp only [bind_eq_ok, pure, Except.pure] at h3
        obtain ⟨_, _, a, _, h3⟩ := h3; cases h3; rfl
      · cases h3; rfl
    rw [e3, e2, e1]
    simp [Cond.isDisj, Bool.or_assoc]
  | hd s l r ihl ihr =>
    intro f o R f' h
    have hm : decide (Mentions d id (seen (.disj s l r))) = (decide (Mentions d id (seen l)) || decide (Mentions d id (seen r))) := by
      rw [Bool.eq_iff_iff]; simp only [decide_eq_true_eq, Bool.or_eq_true]; rfl
    rw [hm]
    simp only [detailConstrain, bind_eq_ok] at h
    obtain ⟨⟨xl, f1⟩, h1, ⟨xr, f2⟩, h2, _, _, h3⟩ := h
    have e1 := ihl _ _ _ _ h1
    have e2 := ihr _ _ _ _ h2
    have e3 : f' = (f1 || f2) := by
      split at h3
      · simp only [bind_eq_ok, pure, Except.pure] at h3
        obtain ⟨a, _, h3⟩ := h3; cases h3; rfl
      · split at h3
        · cases h3; rfl
        · split at h3 <;> (cases h3; rfl)
    rw [e3, e1, e2]
    simp [Cond.isDisj]

theorem detail_no_ub {dbg d : Bool} {id : Nat} {x : Ivl T} (c : Cond T) : WF c → Steps d (seen c) →
    ∀ f o, (∃ R, detailConstrain dbg d id x c f o = .ok R) ∨ detailConstrain dbg d id x c f o = .error .contract := by
  induction c using tree_induction with
  | hp s => intro _ _ f o; exact Or.inl ⟨_, rfl⟩
  | hl c hl =>
    intro hw hh f o
    rw [seen_leaf hl] at hh
    rw [leaf_eq hl]
    split
    · split
      · rename_i ht
        rcases narrow_no_ub (dbg := dbg) (id := id) (x := x) hw hh ht with ⟨R, h⟩ | h <;> simp [h, pure, Except.pure]
      · cases o <;> simp
    · simp
  | hc s l r ihl ihr =>
    intro hw hh f o
    rw [seen_conj] at hh
    simp only [detail_conj]
    rcases ihl hw.1.flat hh.1 f o with ⟨⟨xl, f1⟩, h1⟩ | h1
    · rcases ihr hw.2.1.flat hh.2 f1 o with ⟨⟨xr, f2⟩, h2⟩ | h2
      · rw [h1]; simp only [ok_bind]; rw [h2]; simp only [ok_bind]
        split
        · cases hb : expectsDebug dbg (ge xl.hi xr.lo && le xl.lo xr.hi) with
          | ok u => rcases make_contract (cmax xl.lo xr.lo) (cmin xl.hi xr.hi) with ⟨R, h⟩ | h <;> simp [h, pure, Except.pure]
          | error e =>
            right
            revert hb; cases dbg <;> cases (ge xl.hi xr.lo && le xl.lo xr.hi) <;> simp
            rintro rfl; rfl
        · exact Or.inl ⟨_, rfl⟩
      · rw [h1]; simp only [ok_bind]; rw [h2]; exact Or.inr rfl
    · rw [h1]; exact Or.inr rfl
  | hd s l r ihl ihr =>
    intro hw hh f o
    simp only [detailConstrain]
    rcases ihl hw.1 hh.1 false true with ⟨⟨xl, f1⟩, h1⟩ | h1
    · rcases ihr hw.2.1 hh.2 false true with ⟨⟨xr, f2⟩, h2⟩ | h2
      · rw [h1]; simp only [ok_bind]; rw [h2]; simp only [ok_bind]
        cases (BoolSet.contains s true || o)
        · exact Or.inr rfl
        · simp only [expects_true, ok_bind]
          split
          · rcases make_contract (cmin xl.lo xr.lo) (cmax xl.hi xr.hi) with ⟨R, h⟩ | h <;> simp [h, pure, Except.pure]
          · split
            · exact Or.inl ⟨_, rfl⟩
            · split <;> exact Or.inl ⟨_, rfl⟩
      · rw [h1]; simp only [ok_bind]; rw [h2]; exact Or.inr rfl
    · rw [h1]; exact Or.inr rfl

theorem detail_proper {dbg d : Bool} {id : Nat} {x : Ivl T} (hx : Proper x)
    (c : Cond T) : WF c → Steps d (seen c) → ∀ f o R f', detailConstrain dbg d id x c f o = .ok (R, f') → Proper R := by
  induction c using tree_induction with
  | hp s => intro _ _ f o R f' h; simp only [detailConstrain] at h; cases h; exact hx
  | hl c hl =>
    intro hw hh f o R f' h
    rw [seen_leaf hl] at hh
    rw [leaf_eq hl] at h
    split at h
    · rename_i hm
      split at h
      · rename_i ht
        simp only [bind_eq_ok, pure, Except.pure] at h
        obtain ⟨R', h1, h2⟩ := h
        cases h2
        exact narrow_proper hw hh hm ht hx h1
      · split at h
        · cases h; exact hx
        · cases h
    · cases h; exact hx
  | hc s l r ihl ihr =>
    intro hw hh f o R f' h
    rw [seen_conj] at hh
    simp only [detail_conj, bind_eq_ok] at h
    obtain ⟨⟨xl, f1⟩, h1, ⟨xr, f2⟩, h2, h3⟩ := h
    have k1 := ihl hw.1.flat hh.1 _ _ _ _ h1
    have k2 := ihr hw.2.1.flat hh.2 _ _ _ _ h2
    split at h3
    · simp only [bind_eq_ok, make_eq_ok, pure, Except.pure] at h3
      obtain ⟨_, _, _, ⟨_, rfl⟩, h3⟩ := h3
      cases h3
      unfold Proper at *; simp only; grind
    · cases h3; exact hx
  | hd s l r ihl ihr =>
    intro hw hh f o R f' h
    simp only [detailConstrain, bind_eq_ok] at h
    obtain ⟨⟨xl, f1⟩, h1, ⟨xr, f2⟩, h2, _, _, h3⟩ := h
    have k1 := ihl hw.1 hh.1 _ _ _ _ h1
    have k2 := ihr hw.2.1 hh.2 _ _ _ _ h2
    split at h3
    · simp only [bind_eq_ok, make_eq_ok, pure, Except.pure] at h3
      obtain ⟨_, ⟨hgt, rfl⟩, h3⟩ := h3
      cases h3
      unfold Proper at *; simp only; grind
    · split at h3
      · cases h3; exact k1
      · split at h3
        · cases h3; exact k2
        · cases h3; exact hx

theorem detail_sound {dbg d : Bool} {id : Nat} {x : Ivl T} (hs : d = true → LawfulStep T) {ρ : Nat → T} (hx : ρ id ∈ᵢ x)
    (c : Cond T) : WF c → StrictHom d (seen c) → DisjEven d id (seen c) → ∀ f o R f', detailConstrain dbg d id x c f o = .ok (R, f') →
    Ev ρ (seen c) true → ρ id ∈ᵢ R := by
  have even_flat : ∀ c : Cond T, DisjEven d id (seen c.flat) := by intro c; cases c <;> exact trivial
  induction c using tree_induction with
  | hp s => intro _ _ _ f o R f' h _; simp only [detailConstrain] at h; cases h; exact hx
  | hl c hl =>
    intro hw hh _ f o R f' h he
    rw [seen_leaf hl] at hh he
    rw [leaf_eq hl] at h
    split at h
    · rename_i hm
      split at h
      · rename_i ht
        simp only [bind_eq_ok, pure, Except.pure] at h
        obtain ⟨R', h1, h2⟩ := h
        cases h2
        exact narrow_sound hs hw hh hm ht h1 hx he
      · split at h
        · cases h; exact hx
        · cases h
    · cases h; exact hx
  | hc s l r ihl ihr =>
    intro hw hh _ f o R f' h he
    rw [seen_conj] at hh he
    obtain ⟨p, q, hp, hq, e⟩ := he
    simp only [Bool.and_eq_true] at e
    obtain ⟨rfl, rfl⟩ := e
    simp only [detail_conj, bind_eq_ok] at h
    obtain ⟨⟨xl, f1⟩, h1, ⟨xr, f2⟩, h2, h3⟩ := h
    have k1 := ihl hw.1.flat hh.1 (even_flat l) _ _ _ _ h1 hp
    have k2 := ihr hw.2.1.flat hh.2 (even_flat r) _ _ _ _ h2 hq
    split at h3
    · simp only [bind_eq_ok, make_eq_ok, pure, Except.pure] at h3
      obtain ⟨_, _, _, ⟨_, rfl⟩, h3⟩ := h3
      cases h3
      unfold Pt at *; simp only; grind
    · cases h3; exact hx
  | hd s l r ihl ihr =>
    intro hw hh hd f o R f' h he
    obtain ⟨p, q, hp, hq, e⟩ := he
    simp only [detailConstrain, bind_eq_ok] at h
    obtain ⟨⟨xl, f1⟩, h1, ⟨xr, f2⟩, h2, _, _, h3⟩ := h
    have hxp : Proper x := by unfold Pt Proper at *; grind
    have p1 := detail_proper hxp l hw.1 (Spec.StrictHom.steps hs hh.1) _ _ _ _ h1
    have p2 := detail_proper hxp r hw.2.1 (Spec.StrictHom.steps hs hh.2) _ _ _ _ h2
    have e1 := flag_val l _ _ _ _ h1
    have e2 := flag_val r _ _ _ _ h2
    simp only [Bool.false_and, Bool.false_or] at e1 e2
    have hv : ((f1 && BoolSet.possibly l.truth) = true ∧ ρ id ∈ᵢ xl) ∨ ((f2 && BoolSet.possibly r.truth) = true ∧ ρ id ∈ᵢ xr) := by
      rw [Bool.or_eq_true] at e
      rcases e with rfl | rfl
      · have t := ev_truth _ hw.1.seen _ hp
        rcases hd.1 with g | g
        · rw [t] at g; cases g
        · rw [seen_truth] at t
          exact Or.inl ⟨by rw [e1]; simp [g.1, BoolSet.possibly, t], ihl hw.1 hh.1 g.2 _ _ _ _ h1 hp⟩
      · have t := ev_truth _ hw.2.1.seen _ hq
        rcases hd.2 with g | g
        · rw [t] at g; cases g
        · rw [seen_truth] at t
          exact Or.inr ⟨by rw [e2]; simp [g.1, BoolSet.possibly, t], ihr hw.2.1 hh.2 g.2 _ _ _ _ h2 hq⟩
    generalize (f1 && BoolSet.possibly l.truth) = b1 at h3 hv
    generalize (f2 && BoolSet.possibly r.truth) = b2 at h3 hv
    cases b1 <;> cases b2 <;> simp only [Bool.false_eq_true, false_and, true_and, or_false, false_or, or_self, Bool.and_self, Bool.and_false,
      if_true, if_false, Bool.and_true] at h3 hv
    · cases h3; exact hv
    · cases h3; exact hv
    · simp only [bind_eq_ok, make_eq_ok, pure, Except.pure] at h3
      obtain ⟨_, ⟨_, rfl⟩, h3⟩ := h3
      cases h3
      unfold Pt Proper at *; simp only; grind

theorem Spec.SelfOperands.eqOperands {d : Bool} {id : Nat} {P : Operand T → Prop} : ∀ {c : Cond T}, SelfOperands d id P c → EqOperands d id P c
  | .plain _, _ | .leq .., _ | .less .., _ => trivial
  | .equal .., h | .notEqual .., h => h
  | .conj .., h | .disj .., h => ⟨eqOperands h.1, eqOperands h.2⟩

theorem detail_sub {dbg d : Bool} {id : Nat} {x : Ivl T} (hs : d = true → LawfulStep T) (hx : Proper x)
    (c : Cond T) : WF c → StrictHom d (seen c) → EqOperands d id (fun o => le x.lo o.arg.lo = true ∧ le o.arg.hi x.hi = true) (seen c) →
    ∀ f o R f', detailConstrain dbg d id x c f o = .ok (R, f') → Proper R ∧ le x.lo R.lo = true ∧ le R.hi x.hi = true := by
  have hxx : Proper x ∧ le x.lo x.lo = true ∧ le x.hi x.hi = true := by unfold Proper at *; grind
  induction c using tree_induction with
  | hp s => intro _ _ _ f o R f' h; simp only [detailConstrain] at h; cases h; exact hxx
  | hl c hl =>
    intro hw hh hself f o R f' h
    rw [seen_leaf hl] at hh hself
    rw [leaf_eq hl] at h
    split at h
    · rename_i hm
      split at h
      · rename_i ht
        simp only [bind_eq_ok, pure, Except.pure] at h
        obtain ⟨R', h1, h2⟩ := h
        cases h2
        exact narrow_sub hs hw hh hm ht hself hx h1
      · split at h
        · cases h; exact hxx
        · cases h
    · cases h; exact hxx
  | hc s l r ihl ihr =>
    intro hw hh hself f o R f' h
    rw [seen_conj] at hh hself
    simp only [detail_conj, bind_eq_ok] at h
    obtain ⟨⟨xl, f1⟩, h1, ⟨xr, f2⟩, h2, h3⟩ := h
    have k1 := ihl hw.1.flat hh.1 hself.1 _ _ _ _ h1
    have k2 := ihr hw.2.1.flat hh.2 hself.2 _ _ _ _ h2
    split at h3
    · simp only [bind_eq_ok, make_eq_ok, pure, Except.pure] at h3
      obtain ⟨_, _, _, ⟨_, rfl⟩, h3⟩ := h3
      cases h3
      unfold Proper at *; simp only; grind
    · cases h3; exact hxx
  | hd s l r ihl ihr =>
    intro hw hh hself f o R f' h
    simp only [detailConstrain, bind_eq_ok] at h
    obtain ⟨⟨xl, f1⟩, h1, ⟨xr, f2⟩, h2, _, _, h3⟩ := h
    have k1 := ihl hw.1 hh.1 hself.1 _ _ _ _ h1
    have k2 := ihr hw.2.1 hh.2 hself.2 _ _ _ _ h2
    split at h3
    · simp only [bind_eq_ok, make_eq_ok, pure, Except.pure] at h3
      obtain ⟨_, ⟨hgt, rfl⟩, h3⟩ := h3
      cases h3
      unfold Proper at *; simp only; grind
    · split at h3
      · cases h3; exact k1
      · split at h3
        · cases h3; exact k2
        · cases h3; exact hxx

/-- A condition that does not mention the interval does not count as considered. -/
theorem detail_unmentioned {dbg d : Bool} {id : Nat} {x : Ivl T} (c : Cond T) (hm : ¬ Mentions d id (seen c)) :
    ∀ f o R f', detailConstrain dbg d id x c f o = .ok (R, f') → f = false → f' = false := by
  intro f o R f' h hf
  rw [flag_val c _ _ _ _ h]; simp [hm, hf]

theorem detail_impossible {dbg d : Bool} {id : Nat} {x : Ivl T} (c : Cond T) : ImpossibleMention d id c →
    ∀ f R, detailConstrain dbg d id x c f false ≠ .ok R := by
  have leaf : ∀ c : Cond T, c.isLeaf = true → Mentions d id c → BoolSet.contains c.truth true = false →
      ∀ f R, detailConstrain dbg d id x c f false ≠ .ok R := by
    intro c hl hm ht f R h
    rw [leaf_eq hl, if_pos hm, ht] at h
    simp at h
  induction c with
  | plain s => intro h; exact absurd h (by simp [ImpossibleMention])
  | disj s l r => intro h; exact absurd h (by simp [ImpossibleMention])
  | leq s l r => intro h; exact leaf _ rfl h.1 h.2
  | less s l r => intro h; exact leaf _ rfl h.1 h.2
  | equal s l r => intro h; exact leaf _ rfl h.1 h.2
  | notEqual s l r => intro h; exact leaf _ rfl h.1 h.2
  | conj s l r ihl ihr =>
    intro hi f R h
    have hf : ∀ {c : Cond T}, ImpossibleMention d id c → c.flat = c := by
      intro c h; cases c <;> first | rfl | exact h.elim
    simp only [detail_conj, bind_eq_ok] at h
    obtain ⟨⟨xl, f1⟩, h1, ⟨xr, f2⟩, h2, h3⟩ := h
    rcases hi with hi | hi
    · rw [hf hi] at h1; exact ihl hi _ _ h1
    · rw [hf hi] at h2; exact ihr hi _ _ h2


/-- The flag does not influence the bounds. -/
theorem detail_flag_eq {dbg d : Bool} {id : Nat} {x : Ivl T} (c : Cond T) : ∀ f o,
    detailConstrain dbg d id x c f o =
      (do let p ← detailConstrain dbg d id x c false o; .ok (p.1, (f && !c.isDisj) || decide (Mentions d id (seen c)))) := by
  have key : ∀ f g o, (do let p ← detailConstrain dbg d id x c f o; .ok p.1 : Outcome (Ivl T)) = (do let p ← detailConstrain dbg d id x c g o; .ok p.1) := by
    induction c using tree_induction with
    | hp s => intro f g o; rfl
    | hl c hl =>
      intro f g o
      rw [leaf_eq hl, leaf_eq hl]
      split
      · rfl
      · rfl
    | hc s l r ihl ihr =>
      intro f g o
      simp only [detail_conj]
      have h1 := ihl f g o
      cases e1 : detailConstrain dbg d id x l.flat f o <;> cases e1' : detailConstrain dbg d id x l.flat g o <;> rw [e1, e1'] at h1 <;>
        simp only [ok_bind, error_bind, Except.ok.injEq, Except.error.injEq, reduceCtorEq] at h1
      · simp only [error_bind, h1]
      · rename_i p p'
        obtain ⟨xl, f1⟩ := p
        obtain ⟨xl', g1⟩ := p'
        change xl = xl' at h1
        subst h1
        simp only [ok_bind]
        have h2 := ihr f1 g1 o
        cases e2 : detailConstrain dbg d id x r.flat f1 o <;> cases e2' : detailConstrain dbg d id x r.flat g1 o <;> rw [e2, e2'] at h2 <;>
          simp only [ok_bind, error_bind, Except.ok.injEq, Except.error.injEq, reduceCtorEq] at h2
        · simp only [error_bind, h2]
        · rename_i q q'
          obtain ⟨xr, f2⟩ := q
          obtain ⟨xr', g2⟩ := q'
          change xr = xr' at h2
          subst h2
          simp only [ok_bind]
          split
          · cases expectsDebug dbg (ge xl.hi xr.lo && le xl.lo xr.hi) with
            | error e => rfl
            | ok u => simp only [ok_bind]; cases Ivl.make (cmax xl.lo xr.lo) (cmin xl.hi xr.hi) <;> rfl
          · rfl
    | hd s l r ihl ihr => intro f g o; simp only [detailConstrain]
  intro f o
  have k := key f false o
  cases e : detailConstrain dbg d id x c f o with
  | error a =>
    rw [e] at k
    cases e' : detailConstrain dbg d id x c false o with
    | error b => rw [e'] at k; simp only [error_bind, Except.error.injEq] at k ⊢; exact k
    | ok p => rw [e'] at k; simp at k
  | ok p =>
    rw [e] at k
    cases e' : detailConstrain dbg d id x c false o with
    | error b => rw [e'] at k; simp at k
    | ok q =>
      rw [e'] at k
      simp only [ok_bind, Except.ok.injEq] at k ⊢
      obtain ⟨R, f'⟩ := p
      rw [← flag_val c _ _ _ _ e, ← k]

/-- A condition that does not mention the interval has no undefined behaviour. -/
theorem unmentioned_no_ub {dbg d : Bool} {id : Nat} {x : Ivl T} (c : Cond T) : ¬ Mentions d id (seen c) →
    ∀ f o, (∃ R, detailConstrain dbg d id x c f o = .ok R) ∨ detailConstrain dbg d id x c f o = .error .contract := by
  induction c using tree_induction with
  | hp s => intro _ f o; exact Or.inl ⟨_, rfl⟩
  | hl c hl => intro hm f o; rw [seen_leaf hl] at hm; rw [leaf_eq hl, if_neg hm]; exact Or.inl ⟨_, rfl⟩
  | hc s l r ihl ihr =>
    intro hm f o
    rw [seen_conj] at hm
    have hm : ¬ Mentions d id (seen l.flat) ∧ ¬ Mentions d id (seen r.flat) := not_or.mp hm
    simp only [detail_conj]
    rcases ihl hm.1 f o with ⟨⟨R1, f1⟩, h1⟩ | h1 <;> rw [h1]
    · simp only [ok_bind]
      rcases ihr hm.2 f1 o with ⟨⟨R2, f2⟩, h2⟩ | h2 <;> rw [h2]
      · simp only [ok_bind]
        split
        · cases hE : expectsDebug dbg (ge R1.hi R2.lo && le R1.lo R2.hi) with
          | error e => right; unfold expectsDebug at hE; split at hE <;> simp_all
          | ok u =>
            simp only [ok_bind]
            rcases make_contract (cmax R1.lo R2.lo) (cmin R1.hi R2.hi) with ⟨R, h⟩ | h <;> rw [h]
            · exact Or.inl ⟨_, rfl⟩
            · exact Or.inr rfl
        · exact Or.inl ⟨_, rfl⟩
      · exact Or.inr rfl
    · exact Or.inr rfl
  | hd s l r ihl ihr =>
    intro hm f o
    have hm : ¬ Mentions d id (seen l) ∧ ¬ Mentions d id (seen r) := not_or.mp hm
    simp only [detailConstrain]
    rcases ihl hm.1 false true with ⟨⟨R1, f1⟩, h1⟩ | h1 <;> rw [h1]
    · simp only [ok_bind]
      rcases ihr hm.2 false true with ⟨⟨R2, f2⟩, h2⟩ | h2 <;> rw [h2]
      · simp only [ok_bind]
        cases BoolSet.contains s true || o
        · exact Or.inr rfl
        · simp only [expects_true, ok_bind]
          split
          · rcases make_contract (cmin R1.lo R2.lo) (cmax R1.hi R2.hi) with ⟨R, h⟩ | h <;> rw [h]
            · exact Or.inl ⟨_, rfl⟩
            · exact Or.inr rfl
          · split
            · exact Or.inl ⟨_, rfl⟩
            · split <;> exact Or.inl ⟨_, rfl⟩
      · exact Or.inr rfl
    · exact Or.inr rfl

theorem constrain_no_ub {dbg d : Bool} {id : Nat} {x : Ivl T} {c : Cond T}
    (h : (∃ R, detailConstrain dbg d id x c false false = .ok R) ∨ detailConstrain dbg d id x c false false = .error .contract) :
    (∃ R, constrain dbg d id x c = .ok R) ∨ constrain dbg d id x c = .error .contract := by
  unfold constrain
  rcases h with ⟨⟨R, f⟩, h⟩ | h <;> rw [h]
  · cases f
    · exact Or.inr rfl
    · exact Or.inl ⟨_, rfl⟩
  · exact Or.inr rfl

omit [CppStep T] in
/-- `!` on a condition without plain parts, exactly. -/
theorem mkNot_noPlain (dbg : Bool) {c : Cond T} (h : WF c) (hn : NoPlain c) :
    ∃ c', Cond.mkNot dbg c = .ok c' ∧ Cond.mkNot dbg c' = .ok c ∧ NoPlain c' ∧ WF c' ∧
      (∀ ρ b, Ev ρ c' b ↔ Ev ρ c (!b)) := by
  obtain ⟨c', h1, h2, h3, h4⟩ := mkNot_wf dbg h
  have hnn : ∀ {c : Cond T}, NoPlain c → c.isCond = true := by intro c; cases c <;> simp [NoPlain, Cond.isCond]
  suffices hs : Cond.mkNot dbg c' = .ok c ∧ NoPlain c' by
    refine ⟨c', h1, hs.1, hs.2, h2, fun ρ b => ⟨fun hb => ?_, h4 ρ b⟩⟩
    obtain ⟨c'', g1, _, _, g4⟩ := mkNot_wf dbg h2
    rw [hs.1] at g1; cases g1
    exact g4 ρ _ (by simpa using hb)
  clear h2 h3 h4
  induction c generalizing c' with
  | plain s => exact absurd hn id
  | leq s l r =>
    have hne := h.truth_ne; change s ≠ _ at hne
    have := notM_ok (dbg := dbg) hne; have h5 := notM_ok (dbg := dbg) (not_ne_empty hne)
    simp only [Cond.mkNot, this, ok_bind, pure, Except.pure, Except.ok.injEq] at h1; subst h1
    simp [Cond.mkNot, h5, pure, Except.pure, not_not_core, NoPlain]
  | less s l r =>
    have hne := h.truth_ne; change s ≠ _ at hne
    have := notM_ok (dbg := dbg) hne; have h5 := notM_ok (dbg := dbg) (not_ne_empty hne)
    simp only [Cond.mkNot, this, ok_bind, pure, Except.pure, Except.ok.injEq] at h1; subst h1
    simp [Cond.mkNot, h5, pure, Except.pure, not_not_core, NoPlain]
  | equal s l r =>
    have hne := h.truth_ne; change s ≠ _ at hne
    have := notM_ok (dbg := dbg) hne; have h5 := notM_ok (dbg := dbg) (not_ne_empty hne)
    simp only [Cond.mkNot, this, ok_bind, pure, Except.pure, Except.ok.injEq] at h1; subst h1
    simp [Cond.mkNot, h5, pure, Except.pure, not_not_core, NoPlain]
  | notEqual s l r =>
    have hne := h.truth_ne; change s ≠ _ at hne
    have := notM_ok (dbg := dbg) hne; have h5 := notM_ok (dbg := dbg) (not_ne_empty hne)
    simp only [Cond.mkNot, this, ok_bind, pure, Except.pure, Except.ok.injEq] at h1; subst h1
    simp [Cond.mkNot, h5, pure, Except.pure, not_not_core, NoPlain]
  | conj s l r ihl ihr =>
    have hne := h.truth_ne; change s ≠ _ at hne
    have h4 := notM_ok (dbg := dbg) hne; have h5 := notM_ok (dbg := dbg) (not_ne_empty hne)
    obtain ⟨cl, e1, _⟩ := mkNot_wf dbg h.1
    obtain ⟨cr, e2, _⟩ := mkNot_wf dbg h.2.1
    obtain ⟨i1, i2⟩ := ihl h.1 hn.1 cl e1
    obtain ⟨j1, j2⟩ := ihr h.2.1 hn.2 cr e2
    simp only [Cond.mkNot, h4, ok_bind, pure, Except.pure, hnn hn.1, hnn hn.2, Bool.and_self, if_true, e1, e2, Except.ok.injEq] at h1
    subst h1
    simp [Cond.mkNot, h5, pure, Except.pure, not_not_core, NoPlain, hnn i2, hnn j2, i1, j1, i2, j2]
  | disj s l r ihl ihr =>
    have hne := h.truth_ne; change s ≠ _ at hne
    have h4 := notM_ok (dbg := dbg) hne; have h5 := notM_ok (dbg := dbg) (not_ne_empty hne)
    obtain ⟨cl, e1, _⟩ := mkNot_wf dbg h.1
    obtain ⟨cr, e2, _⟩ := mkNot_wf dbg h.2.1
    obtain ⟨i1, i2⟩ := ihl h.1 hn.1 cl e1
    obtain ⟨j1, j2⟩ := ihr h.2.1 hn.2 cr e2
    simp only [Cond.mkNot, h4, ok_bind, pure, Except.pure, hnn hn.1, hnn hn.2, Bool.and_self, if_true, e1, e2, Except.ok.injEq] at h1
    subst h1
    simp [Cond.mkNot, h5, pure, Except.pure, not_not_core, NoPlain, hnn i2, hnn j2, i1, j1, i2, j2]

end
end Intervals
