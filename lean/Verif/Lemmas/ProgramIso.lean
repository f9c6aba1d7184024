import Verif.Lemmas.Propagate
import Verif.Props.Isotone
/-! # Lemmas about interval-aware programs run on nested inputs -/
set_option linter.unusedSectionVars false
namespace Intervals
open Spec CppVal Props
variable {T : Type} [CppVal T] [CppOrder T] [CppStep T]

/-! ## conditions over nested operands -/

/-- the second operand encloses the first; the interval itself is an operand only with its current bounds -/
structure OpW (d : Bool) (id : Nat) (x x' : Ivl T) (o o' : Operand T) : Prop where
  same : o'.matchesId d id = o.matchesId d id
  disc : o.disc = d
  disc' : o'.disc = d
  lo : le o'.arg.lo o.arg.lo = true
  hi : le o.arg.hi o'.arg.hi = true
  self : o.matchesId d id = true → o.arg = .ivl x ∧ o'.arg = .ivl x'

/-- the same condition over wider operands -/
def CW (d : Bool) (id : Nat) (x x' : Ivl T) : Cond T → Cond T → Prop
  | .leq _ l r, .leq _ l' r' | .less _ l r, .less _ l' r' | .equal _ l r, .equal _ l' r' | .notEqual _ l r, .notEqual _ l' r' =>
    OpW d id x x' l l' ∧ OpW d id x x' r r'
  | .conj _ l r, .conj _ l' r' | .disj _ l r, .disj _ l' r' => CW d id x x' l l' ∧ CW d id x x' r r'
  | _, _ => False

theorem CW.mentions {d : Bool} {id : Nat} {x x' : Ivl T} : ∀ {c c' : Cond T}, CW d id x x' c c' → (Mentions d id c ↔ Mentions d id c') := by
  intro c
  induction c with
  | plain s => intro c' h; cases c' <;> exact h.elim
  | conj s l r ihl ihr => intro c' h; cases c' <;> first | exact h.elim | simp only [Mentions, ihl h.1, ihr h.2]
  | disj s l r ihl ihr => intro c' h; cases c' <;> first | exact h.elim | simp only [Mentions, ihl h.1, ihr h.2]
  | leq s l r => intro c' h; cases c' <;> first | exact h.elim | simp only [Mentions, h.1.same, h.2.same]
  | less s l r => intro c' h; cases c' <;> first | exact h.elim | simp only [Mentions, h.1.same, h.2.same]
  | equal s l r => intro c' h; cases c' <;> first | exact h.elim | simp only [Mentions, h.1.same, h.2.same]
  | notEqual s l r => intro c' h; cases c' <;> first | exact h.elim | simp only [Mentions, h.1.same, h.2.same]

/-- wider operands allow more truth values -/
theorem CW.truth {d : Bool} {id : Nat} {x x' : Ivl T} : ∀ {c c' : Cond T}, CW d id x x' c c' → WF c → WF c' → ∀ b,
    BoolSet.contains c.truth b = true → BoolSet.contains c'.truth b = true := by
  intro c
  induction c with
  | plain s => intro c' h; cases c' <;> exact h.elim
  | conj s l r ihl ihr =>
    intro c' h hw hw' b hb; cases c' <;> first | exact h.elim | skip
    obtain ⟨w1, w2, rfl⟩ := hw
    obtain ⟨v1, v2, rfl⟩ := hw'
    change BoolSet.contains (BoolSet.and _ _) b = true at hb
    change BoolSet.contains (BoolSet.and _ _) b = true
    have g1 := ihl h.1 w1 v1 b
    have g2 := ihr h.2 w2 v2 b
    cases b
    · rw [contains_and_false _ _ w1.truth_ne w2.truth_ne] at hb; rw [contains_and_false _ _ v1.truth_ne v2.truth_ne]; grind
    · rw [contains_and_true _ _ w1.truth_ne w2.truth_ne] at hb; rw [contains_and_true _ _ v1.truth_ne v2.truth_ne]; grind
  | disj s l r ihl ihr =>
    intro c' h hw hw' b hb; cases c' <;> first | exact h.elim | skip
    obtain ⟨w1, w2, rfl⟩ := hw
    obtain ⟨v1, v2, rfl⟩ := hw'
    change BoolSet.contains (BoolSet.or _ _) b = true at hb
    change BoolSet.contains (BoolSet.or _ _) b = true
    have g1 := ihl h.1 w1 v1 b
    have g2 := ihr h.2 w2 v2 b
    cases b
    · rw [contains_or_false _ _ w1.truth_ne w2.truth_ne] at hb; rw [contains_or_false _ _ v1.truth_ne v2.truth_ne]; grind
    · rw [contains_or_true _ _ w1.truth_ne w2.truth_ne] at hb; rw [contains_or_true _ _ v1.truth_ne v2.truth_ne]; grind
  | leq s l r =>
    intro c' h hw hw' b hb; cases c' <;> first | exact h.elim | skip
    obtain ⟨w1, w2, rfl⟩ := hw
    obtain ⟨v1, v2, rfl⟩ := hw'
    obtain ⟨⟨_, _, _, a1, a2, _⟩, ⟨_, _, _, a3, a4, _⟩⟩ := h
    simp only [Cond.truth, contains_leq] at *
    cases b <;> simp at * <;> grind
  | less s l r =>
    intro c' h hw hw' b hb; cases c' <;> first | exact h.elim | skip
    obtain ⟨w1, w2, rfl⟩ := hw
    obtain ⟨v1, v2, rfl⟩ := hw'
    obtain ⟨⟨_, _, _, a1, a2, _⟩, ⟨_, _, _, a3, a4, _⟩⟩ := h
    simp only [Cond.truth, contains_lt] at *
    cases b <;> simp at * <;> grind
  | equal s l r =>
    intro c' h hw hw' b hb; cases c' <;> first | exact h.elim | skip
    obtain ⟨w1, w2, rfl⟩ := hw
    obtain ⟨v1, v2, rfl⟩ := hw'
    obtain ⟨⟨_, _, _, a1, a2, _⟩, ⟨_, _, _, a3, a4, _⟩⟩ := h
    have := properA_le w1; have := properA_le w2; have := properA_le v1; have := properA_le v2
    simp only [Cond.truth, contains_eq] at *
    cases b <;> simp at * <;> grind
  | notEqual s l r =>
    intro c' h hw hw' b hb; cases c' <;> first | exact h.elim | skip
    obtain ⟨w1, w2, rfl⟩ := hw
    obtain ⟨v1, v2, rfl⟩ := hw'
    obtain ⟨⟨_, _, _, a1, a2, _⟩, ⟨_, _, _, a3, a4, _⟩⟩ := h
    have := properA_le w1; have := properA_le w2; have := properA_le v1; have := properA_le v2
    simp only [Cond.truth, contains_neq] at *
    cases b <;> simp at * <;> grind

theorem CW.mkNot {dbg d : Bool} {id : Nat} {x x' : Ivl T} : ∀ {c c' n n' : Cond T}, CW d id x x' c c' → Cond.mkNot dbg c = .ok n → Cond.mkNot dbg c' = .ok n' →
    CW d id x x' n n' := by
  have hcond : ∀ {c c' : Cond T}, CW d id x x' c c' → c.isCond = true ∧ c'.isCond = true := by
    intro c c' h; cases c <;> cases c' <;> first | exact h.elim | exact ⟨rfl, rfl⟩
  intro c
  induction c with
  | plain s => intro c' n n' h; cases c' <;> exact h.elim
  | conj s l r ihl ihr =>
    intro c' n n' h hn hn'; cases c' <;> first | exact h.elim | skip
    simp only [Cond.mkNot, hcond h.1, hcond h.2, Bool.and_self, if_true, bind_eq_ok, pure, Except.pure, Except.ok.injEq] at hn hn'
    obtain ⟨s1, _, l1, k1, r1, k2, rfl⟩ := hn
    obtain ⟨s2, _, l2, m1, r2, m2, rfl⟩ := hn'
    exact ⟨ihl h.1 k1 m1, ihr h.2 k2 m2⟩
  | disj s l r ihl ihr =>
    intro c' n n' h hn hn'; cases c' <;> first | exact h.elim | skip
    simp only [Cond.mkNot, hcond h.1, hcond h.2, Bool.and_self, if_true, bind_eq_ok, pure, Except.pure, Except.ok.injEq] at hn hn'
    obtain ⟨s1, _, l1, k1, r1, k2, rfl⟩ := hn
    obtain ⟨s2, _, l2, m1, r2, m2, rfl⟩ := hn'
    exact ⟨ihl h.1 k1 m1, ihr h.2 k2 m2⟩
  | _ =>
    intro c' n n' h hn hn'; cases c' <;> first | exact h.elim | skip
    simp only [Cond.mkNot, bind_eq_ok, pure, Except.pure, Except.ok.injEq] at hn hn'
    obtain ⟨s1, _, rfl⟩ := hn
    obtain ⟨s2, _, rfl⟩ := hn'
    first | exact ⟨h.1, h.2⟩ | exact ⟨h.2, h.1⟩

theorem sub_within {D : List Nat} {S S' : Nat → Ivl T} (hS : AllProper D S) (h : ∀ x ∈ D, SubI (S x) (S' x)) : Within D S S' := by
  intro x hx
  have hp := hS x hx
  exact ⟨(h x hx _ ⟨cle_left hp, hp⟩).1, (h x hx _ ⟨hp, cle_right hp⟩).2⟩

theorem term_opW {d : Bool} {D : List Nat} {S S' : Nat → Ivl T} (hw : Within D S S') (y : Nat) {t : PTerm T} (h : t.ok D = true) :
    OpW d y (S y) (S' y) (t.inst d S) (t.inst d S') :=
  ⟨by rw [term_matches, term_matches], term_disc t, term_disc t, (term_within hw h).1, (term_within hw h).2,
    fun hm => ⟨term_self t (by rwa [term_matches] at hm), term_self t (by rwa [term_matches] at hm)⟩⟩

theorem build_CW {dbg d : Bool} {D : List Nat} {S S' : Nat → Ivl T} (hw : Within D S S') (y : Nat) : ∀ {e : PCond T} {c c' : Cond T}, e.ok D = true →
    (e.inst d S).build dbg = .ok c → (e.inst d S').build dbg = .ok c' → CW d y (S y) (S' y) c c' := by
  intro e
  induction e with
  | cmp op l r =>
    intro c c' he h h'
    simp only [PCond.ok, Bool.and_eq_true] at he
    have ol := term_opW (d := d) hw y he.1
    have or := term_opW (d := d) hw y he.2
    cases op <;>
    · simp only [PCond.inst, CExpr.build, buildCmp, condEq, condNe, condLt, condLe, condGt, condGe, bind_eq_ok, pure, Except.pure, Except.ok.injEq] at h h'
      obtain ⟨s, _, rfl⟩ := h
      obtain ⟨s', _, rfl⟩ := h'
      first | exact ⟨ol, or⟩ | exact ⟨or, ol⟩
  | and e f ihe ihf =>
    intro c c' he h h'
    simp only [PCond.ok, Bool.and_eq_true] at he
    simp only [PCond.inst, CExpr.build, bind_eq_ok, pure, Except.pure, Except.ok.injEq] at h h'
    obtain ⟨l, h1, r, h2, rfl⟩ := h
    obtain ⟨l', h1', r', h2', rfl⟩ := h'
    simp only [Cond.mkAnd, sh_isCond (sh_build h1), sh_isCond (sh_build h1'), Bool.true_or, if_true]
    exact ⟨ihe he.1 h1 h1', ihf he.2 h2 h2'⟩
  | or e f ihe ihf =>
    intro c c' he h h'
    simp only [PCond.ok, Bool.and_eq_true] at he
    simp only [PCond.inst, CExpr.build, bind_eq_ok, pure, Except.pure, Except.ok.injEq] at h h'
    obtain ⟨l, h1, r, h2, rfl⟩ := h
    obtain ⟨l', h1', r', h2', rfl⟩ := h'
    simp only [Cond.mkOr, sh_isCond (sh_build h1), sh_isCond (sh_build h1'), Bool.true_or, if_true]
    exact ⟨ihe he.1 h1 h1', ihf he.2 h2 h2'⟩
  | not e ih =>
    intro c c' he h h'
    simp only [PCond.inst, CExpr.build, bind_eq_ok] at h h'
    obtain ⟨c1, h1, h2⟩ := h
    obtain ⟨c1', h1', h2'⟩ := h'
    exact (ih he h1 h1').mkNot h2 h2'

theorem sgn_CW {dbg d : Bool} {D : List Nat} {S S' : Nat → Ivl T} (hw : Within D S S') (y : Nat) {e : PCond T} {pol : Bool} {c c' : Cond T} (he : e.ok D = true)
    (h : (sgnInst d S (e, pol)).build dbg = .ok c) (h' : (sgnInst d S' (e, pol)).build dbg = .ok c') : CW d y (S y) (S' y) c c' := by
  cases pol
  · exact build_CW hw y (e := .not e) he (by simpa [sgnInst, PCond.inst] using h) (by simpa [sgnInst, PCond.inst] using h')
  · exact build_CW hw y he h h'

/-! ## narrowing by nested operands -/

theorem pred_mono {d : Bool} (hs : d = true → LawfulStep T) {m a a' b b' : T} (hm : lt m a = true) (h : le a a' = true) (hb : predStep d a = .ok b)
    (hb' : predStep d a' = .ok b') : le b b' = true := by
  cases d
  · simp [predStep] at hb hb'; subst hb; subst hb'; exact h
  · obtain ⟨p, p1, p2, p3⟩ := (hs rfl).pred_of_lt m a hm
    obtain ⟨q, q1, q2, q3⟩ := (hs rfl).pred_of_lt p a' (by grind)
    simp only [predStep, p1, q1, if_true, Except.ok.injEq] at hb hb'
    subst hb; subst hb'; exact q2
theorem succ_mono {d : Bool} (hs : d = true → LawfulStep T) {m a a' b b' : T} (hm : lt a m = true) (h : le a' a = true) (hb : succStep d a = .ok b)
    (hb' : succStep d a' = .ok b') : le b' b = true := by
  cases d
  · simp [succStep] at hb hb'; subst hb; subst hb'; exact h
  · obtain ⟨p, p1, p2, p3⟩ := (hs rfl).succ_of_lt a m hm
    obtain ⟨q, q1, q2, q3⟩ := (hs rfl).succ_of_lt a' p (by grind)
    simp only [succStep, p1, q1, if_true, Except.ok.injEq] at hb hb'
    subst hb; subst hb'; exact q2

/-- the narrowing by `!=` of `x` and an operand with bounds `lo`, `hi` -/
def ne1 (d : Bool) (x : Ivl T) (lo hi : T) : Outcome (Ivl T) :=
  if d && ne x.lo x.hi && eq lo hi && eq x.lo lo then do Ivl.make (← succStep d x.lo) x.hi
  else if d && ne x.lo x.hi && eq lo hi && eq x.hi lo then do Ivl.make x.lo (← predStep d x.hi)
  else return x

theorem ne1_mono {d : Bool} (hs : d = true → LawfulStep T) {x x' R R' : Ivl T} {lo hi lo' hi' : T} (hx : le x.lo x.hi = true) (hx' : le x'.lo x'.hi = true)
    (hy : le lo hi = true) (hy' : le lo' hi' = true) (kx : le x'.lo x.lo = true ∧ le x.hi x'.hi = true) (ky : le lo' lo = true ∧ le hi hi' = true)
    (hp : (ne x.lo hi || ne x.hi lo) = true) (h : ne1 d x lo hi = .ok R) (h' : ne1 d x' lo' hi' = .ok R') :
    le R'.lo R.lo = true ∧ le R.hi R'.hi = true := by
  have stepS : ∀ {a b m : T}, d = true → lt a m = true → succStep d a = .ok b → le b m = true ∧ lt a b = true := by
    intro a b m hd hm hb
    obtain ⟨p, p1, p2, p3⟩ := (hs hd).succ_of_lt a m hm
    simp only [succStep, p1, hd, if_true, Except.ok.injEq] at hb
    subst hb; exact ⟨p2, p3⟩
  have stepP : ∀ {a b m : T}, d = true → lt m a = true → predStep d a = .ok b → le m b = true ∧ lt b a = true := by
    intro a b m hd hm hb
    obtain ⟨p, p1, p2, p3⟩ := (hs hd).pred_of_lt m a hm
    simp only [predStep, p1, hd, if_true, Except.ok.injEq] at hb
    subst hb; exact ⟨p2, p3⟩
  unfold ne1 at h h'
  split at h'
  · next g' =>
    simp only [Bool.and_eq_true] at g'
    simp only [bind_eq_ok, make_eq_ok] at h'
    obtain ⟨b', e1, e2, rfl⟩ := h'
    split at h
    · next g =>
      simp only [Bool.and_eq_true] at g
      simp only [bind_eq_ok, make_eq_ok] at h
      obtain ⟨b, f1, f2, rfl⟩ := h
      exact ⟨succ_mono hs (m := x.hi) (by grind) kx.1 f1 e1, kx.2⟩
    · next g =>
      simp only [Bool.and_eq_true] at g
      have hlt : lt x'.lo x.lo = true := by grind
      have k := (stepS g'.1.1.1 hlt e1).1
      split at h
      · next gg =>
        simp only [Bool.and_eq_true] at gg
        simp only [bind_eq_ok, make_eq_ok] at h
        obtain ⟨b, f1, f2, rfl⟩ := h
        have := stepP (m := x.lo) gg.1.1.1 (by grind) f1
        exact ⟨k, by grind⟩
      · simp only [pure, Except.pure, Except.ok.injEq] at h; subst h
        exact ⟨k, kx.2⟩
  · split at h'
    · next g' =>
      simp only [Bool.and_eq_true] at g'
      simp only [bind_eq_ok, make_eq_ok] at h'
      obtain ⟨b', e1, e2, rfl⟩ := h'
      split at h
      · next g =>
        simp only [Bool.and_eq_true] at g
        simp only [bind_eq_ok, make_eq_ok] at h
        obtain ⟨b, f1, f2, rfl⟩ := h
        exfalso
        obtain ⟨⟨⟨_, a1⟩, a2⟩, a3⟩ := g
        obtain ⟨⟨⟨_, b1⟩, b2⟩, b3⟩ := g'
        have c0 : le x'.hi lo' = true := by clear * - b3; grind
        have c3 : le lo x.lo = true := by clear * - a3; grind
        have c1 : le x.hi x.lo = true := cle_trans kx.2 (cle_trans c0 (cle_trans ky.1 c3))
        have c2 : eq x.lo x.hi = true := by grind
        clear * - c2 a1; grind
      · next g =>
        simp only [Bool.and_eq_true] at g
        split at h
        · next gg =>
          simp only [Bool.and_eq_true] at gg
          simp only [bind_eq_ok, make_eq_ok] at h
          obtain ⟨b, f1, f2, rfl⟩ := h
          exact ⟨kx.1, pred_mono hs (m := x.lo) (by grind) kx.2 f1 e1⟩
        · next gg =>
          simp only [Bool.and_eq_true] at gg
          simp only [pure, Except.pure, Except.ok.injEq] at h; subst h
          have hlt : lt x.hi x'.hi = true := by
            obtain ⟨⟨⟨hd, b1⟩, b2⟩, b3⟩ := g'
            have c0 : le x'.hi lo' = true := by clear * - b3; grind
            have c1 : le hi' lo' = true := by clear * - b2; grind
            have c2 : le hi lo = true := cle_trans ky.2 (cle_trans c1 ky.1)
            have c3 : eq lo hi = true := by clear * - c2 hy; grind
            have c4 : le x.hi lo = true := cle_trans kx.2 (cle_trans c0 ky.1)
            have c5 : le lo x'.hi = true := cle_trans hy (cle_trans ky.2 (by clear * - c1 b3; grind))
            by_contra hn
            have c6 : le lo x.hi = true := by clear * - hn c5 kx; grind
            have c7 : eq x.hi lo = true := by clear * - c6 c4; grind
            simp only [hd, c3, c7, and_true, true_and] at gg
            clear * - gg hp c7 c3; grind
          exact ⟨kx.1, (stepP g'.1.1.1 hlt e1).1⟩
    · simp only [pure, Except.pure, Except.ok.injEq] at h'; subst h'
      split at h
      · next g =>
        simp only [Bool.and_eq_true] at g
        simp only [bind_eq_ok, make_eq_ok] at h
        obtain ⟨b, f1, f2, rfl⟩ := h
        have := stepS (m := x.hi) g.1.1.1 (by grind) f1
        exact ⟨by grind, kx.2⟩
      · split at h
        · next gg =>
          simp only [Bool.and_eq_true] at gg
          simp only [bind_eq_ok, make_eq_ok] at h
          obtain ⟨b, f1, f2, rfl⟩ := h
          have := stepP (m := x.lo) gg.1.1.1 (by grind) f1
          exact ⟨kx.1, by grind⟩
        · simp only [pure, Except.pure, Except.ok.injEq] at h; subst h
          exact kx

/-- `!=` narrows the mentioned side -/
theorem narrow_ne {dbg d : Bool} {id : Nat} {x R : Ivl T} {s : BoolSet} {l r : Operand T} (hl : l.disc = d) (hr : r.disc = d)
    (sl : l.matchesId d id = true → l.arg = .ivl x) (sr : r.matchesId d id = true → r.arg = .ivl x)
    (h : narrow dbg d id x (.notEqual s l r) = .ok R) :
    (l.matchesId d id = true → ne1 d x r.arg.lo r.arg.hi = .ok R) ∧
    (l.matchesId d id = false → r.matchesId d id = true → ne1 d x l.arg.lo l.arg.hi = .ok R) := by
  simp only [narrow, bind_eq_ok, hl, hr] at h
  obtain ⟨_, _, h⟩ := h
  constructor
  · intro m
    have e1 := sl m
    cases mr : r.matchesId d id
    · simpa only [m, mr, e1, ivl_lo, ivl_hi, Bool.and_true, Bool.and_false, Bool.false_and, Bool.false_eq_true, if_false, ne1] using h
    · have e2 := sr mr
      rw [e1, e2] at h
      simp only [ivl_lo, ivl_hi] at h
      have hf : (ne x.lo x.hi && eq x.lo x.hi) = false := by clear * -; grind
      rw [e2]
      simp only [m, mr, ivl_lo, ivl_hi, Bool.and_true, Bool.and_assoc, ne1] at h ⊢
      have k : ∀ b : Bool, (ne x.lo x.hi && (eq x.lo x.hi && b)) = false := by intro b; rw [← Bool.and_assoc, hf]; rfl
      simp only [k, Bool.and_false, Bool.false_eq_true, if_false] at h ⊢
      exact h
  · intro m mr
    have e2 := sr mr
    simpa only [m, mr, e2, ivl_lo, ivl_hi, Bool.and_true, Bool.and_false, Bool.false_and, Bool.false_eq_true, if_false, ne1] using h

theorem narrow_mono {dbg d : Bool} {id : Nat} {x x' R R' : Ivl T} (hs : d = true → LawfulStep T) (hx : Proper x) (hx' : Proper x')
    (kx : le x'.lo x.lo = true ∧ le x.hi x'.hi = true) {c c' : Cond T} (hw : CW d id x x' c c') (hm : Mentions d id c) (wf : WF c) (wf' : WF c')
    (ht : BoolSet.contains c.truth true = true) (h : narrow dbg d id x c = .ok R) (h' : narrow dbg d id x' c' = .ok R') :
    le R'.lo R.lo = true ∧ le R.hi R'.hi = true := by
  unfold Proper at hx hx'
  cases c with
  | plain s => cases c' <;> exact hw.elim
  | conj s l r => cases c' <;> first | exact hw.elim | skip
                  simp only [narrow, Except.ok.injEq] at h h'; subst h; subst h'; exact kx
  | disj s l r => cases c' <;> first | exact hw.elim | skip
                  simp only [narrow, Except.ok.injEq] at h h'; subst h; subst h'; exact kx
  | leq s l r =>
    cases c' <;> first | exact hw.elim | skip
    obtain ⟨⟨l1, l2, l3, l4, l5, l6⟩, ⟨r1, r2, r3, r4, r5, r6⟩⟩ := hw
    simp only [narrow, l1] at h h'
    split at h
    · next g =>
      rw [if_pos g] at h'
      simp only [bind_eq_ok, make_eq_ok] at h h'
      obtain ⟨_, _, _, rfl⟩ := h
      obtain ⟨_, _, _, rfl⟩ := h'
      simp only; grind
    · next g =>
      rw [if_neg g] at h'
      simp only [bind_eq_ok, make_eq_ok] at h h'
      obtain ⟨_, _, _, rfl⟩ := h
      obtain ⟨_, _, _, rfl⟩ := h'
      simp only; grind
  | less s l r =>
    cases c' <;> first | exact hw.elim | skip
    obtain ⟨⟨l1, l2, l3, l4, l5, l6⟩, ⟨r1, r2, r3, r4, r5, r6⟩⟩ := hw
    obtain ⟨_, _, rfl⟩ := wf
    simp only [Cond.truth, contains_lt, if_true] at ht
    simp only [narrow, l1, l2, l3, r2, r3] at h h'
    split at h
    · next g =>
      rw [if_pos g] at h'
      simp only [bind_eq_ok, make_eq_ok] at h h'
      obtain ⟨_, _, b, e1, _, rfl⟩ := h
      obtain ⟨_, _, b', e1', _, rfl⟩ := h'
      have := pred_mono hs ht r5 e1 e1'
      simp only; grind
    · next g =>
      rw [if_neg g] at h'
      simp only [bind_eq_ok, make_eq_ok] at h h'
      obtain ⟨_, _, b, e1, _, rfl⟩ := h
      obtain ⟨_, _, b', e1', _, rfl⟩ := h'
      have := succ_mono hs ht l4 e1 e1'
      simp only; grind
  | equal s l r =>
    cases c' <;> first | exact hw.elim | skip
    obtain ⟨⟨l1, l2, l3, l4, l5, l6⟩, ⟨r1, r2, r3, r4, r5, r6⟩⟩ := hw
    simp only [narrow, bind_eq_ok, make_eq_ok] at h h'
    obtain ⟨_, _, _, rfl⟩ := h
    obtain ⟨_, _, _, rfl⟩ := h'
    simp only; grind
  | notEqual s l r =>
    cases c' <;> first | exact hw.elim | skip
    next s' l' r' =>
    obtain ⟨⟨l1, l2, l3, l4, l5, l6⟩, ⟨r1, r2, r3, r4, r5, r6⟩⟩ := hw
    obtain ⟨p1, p2, rfl⟩ := wf
    obtain ⟨q1, q2, rfl⟩ := wf'
    simp only [Cond.truth, contains_neq, if_true] at ht
    obtain ⟨a1, a2⟩ := narrow_ne l2 r2 (fun m => (l6 m).1) (fun m => (r6 m).1) h
    obtain ⟨b1, b2⟩ := narrow_ne l3 r3 (fun m => (l6 (l1 ▸ m)).2) (fun m => (r6 (r1 ▸ m)).2) h'
    cases ml : l.matchesId d id
    · have mr : r.matchesId d id = true := by simpa [Mentions, ml] using hm
      refine ne1_mono hs hx hx' (properA_le p1) (properA_le q1) kx ⟨l4, l5⟩ ?_ (a2 ml mr) (b2 (l1.trans ml) (r1.trans mr))
      have e := (r6 mr).1
      rw [e, ivl_lo, ivl_hi] at ht
      have := properA_le p1
      grind
    · refine ne1_mono hs hx hx' (properA_le p2) (properA_le q2) kx ⟨r4, r5⟩ ?_ (a1 ml) (b1 (l1.trans ml))
      have e := (l6 ml).1
      rwa [e, ivl_lo, ivl_hi] at ht

/-- … and with parts that do not depend on the interval (`set<bool>`) -/
def CV (d : Bool) (id : Nat) (x x' : Ivl T) : Cond T → Cond T → Prop
  | .plain s, .plain s' => ∀ b, BoolSet.contains s b = true → BoolSet.contains s' b = true
  | .conj _ l r, .conj _ l' r' | .disj _ l r, .disj _ l' r' => CV d id x x' l l' ∧ CV d id x x' r r'
  | .leq s l r, .leq s' l' r' => CW d id x x' (.leq s l r) (.leq s' l' r')
  | .less s l r, .less s' l' r' => CW d id x x' (.less s l r) (.less s' l' r')
  | .equal s l r, .equal s' l' r' => CW d id x x' (.equal s l r) (.equal s' l' r')
  | .notEqual s l r, .notEqual s' l' r' => CW d id x x' (.notEqual s l r) (.notEqual s' l' r')
  | _, _ => False

theorem CW.toCV {d : Bool} {id : Nat} {x x' : Ivl T} : ∀ {c c' : Cond T}, CW d id x x' c c' → CV d id x x' c c' := by
  intro c
  induction c with
  | conj s l r ihl ihr => intro c' h; cases c' <;> first | exact h.elim | exact ⟨ihl h.1, ihr h.2⟩
  | disj s l r ihl ihr => intro c' h; cases c' <;> first | exact h.elim | exact ⟨ihl h.1, ihr h.2⟩
  | _ => intro c' h; cases c' <;> first | exact h.elim | exact h

theorem CV.truth {d : Bool} {id : Nat} {x x' : Ivl T} : ∀ {c c' : Cond T}, CV d id x x' c c' → WF c → WF c' → ∀ b,
    BoolSet.contains c.truth b = true → BoolSet.contains c'.truth b = true := by
  intro c
  induction c with
  | plain s => intro c' h hw hw' b hb; cases c' <;> first | exact h.elim | exact h b hb
  | conj s l r ihl ihr =>
    intro c' h hw hw' b hb; cases c' <;> first | exact h.elim | skip
    obtain ⟨w1, w2, rfl⟩ := hw
    obtain ⟨v1, v2, rfl⟩ := hw'
    change BoolSet.contains (BoolSet.and _ _) b = true at hb
    change BoolSet.contains (BoolSet.and _ _) b = true
    have g1 := ihl h.1 w1 v1 b
    have g2 := ihr h.2 w2 v2 b
    cases b
    · rw [contains_and_false _ _ w1.truth_ne w2.truth_ne] at hb; rw [contains_and_false _ _ v1.truth_ne v2.truth_ne]; grind
    · rw [contains_and_true _ _ w1.truth_ne w2.truth_ne] at hb; rw [contains_and_true _ _ v1.truth_ne v2.truth_ne]; grind
  | disj s l r ihl ihr =>
    intro c' h hw hw' b hb; cases c' <;> first | exact h.elim | skip
    obtain ⟨w1, w2, rfl⟩ := hw
    obtain ⟨v1, v2, rfl⟩ := hw'
    change BoolSet.contains (BoolSet.or _ _) b = true at hb
    change BoolSet.contains (BoolSet.or _ _) b = true
    have g1 := ihl h.1 w1 v1 b
    have g2 := ihr h.2 w2 v2 b
    cases b
    · rw [contains_or_false _ _ w1.truth_ne w2.truth_ne] at hb; rw [contains_or_false _ _ v1.truth_ne v2.truth_ne]; grind
    · rw [contains_or_true _ _ w1.truth_ne w2.truth_ne] at hb; rw [contains_or_true _ _ v1.truth_ne v2.truth_ne]; grind
  | leq s l r => intro c' h hw hw' b hb; cases c' <;> first | exact h.elim | exact CW.truth h hw hw' b hb
  | less s l r => intro c' h hw hw' b hb; cases c' <;> first | exact h.elim | exact CW.truth h hw hw' b hb
  | equal s l r => intro c' h hw hw' b hb; cases c' <;> first | exact h.elim | exact CW.truth h hw hw' b hb
  | notEqual s l r => intro c' h hw hw' b hb; cases c' <;> first | exact h.elim | exact CW.truth h hw hw' b hb

theorem CV.isDisj {d : Bool} {id : Nat} {x x' : Ivl T} {c c' : Cond T} (h : CV d id x x' c c') : c'.isDisj = c.isDisj := by
  cases c <;> cases c' <;> first | exact h.elim | rfl

theorem disjBoth_of {d : Bool} {id : Nat} {c : Cond T} (h : c.isDisj = false) : DisjBoth d id (Spec.seen c) := by
  cases c <;> first | trivial | simp [Cond.isDisj] at h

/-- narrowing by a condition tree over wider operands -/
theorem detail_mono {dbg d : Bool} {id : Nat} {x x' : Ivl T} (hs : d = true → LawfulStep T) (hx : Proper x) (hx' : Proper x')
    (kx : le x'.lo x.lo = true ∧ le x.hi x'.hi = true) : ∀ (c c' : Cond T), CV d id x x' c c' → WF c → WF c' → StrictHom d (Spec.seen c') →
    DisjBoth d id (Spec.seen c) → DisjBoth d id (Spec.seen c') →
    BoolSet.contains c.truth true = true → ∀ {f f' o o' R R' g g'}, detailConstrain dbg d id x c f o = .ok (R, g) →
    detailConstrain dbg d id x' c' f' o' = .ok (R', g') → le R'.lo R.lo = true ∧ le R.hi R'.hi = true := by
  have leaf : ∀ (c c' : Cond T), c.isLeaf = true → c'.isLeaf = true → CW d id x x' c c' → WF c → WF c' →
      BoolSet.contains c.truth true = true → ∀ {f f' o o' R R' g g'}, detailConstrain dbg d id x c f o = .ok (R, g) →
      detailConstrain dbg d id x' c' f' o' = .ok (R', g') → le R'.lo R.lo = true ∧ le R.hi R'.hi = true := by
    intro c c' hl hl' hw wf wf' ht f f' o o' R R' g g' h h'
    have ht' := hw.truth wf wf' true ht
    rw [leaf_eq hl] at h
    rw [leaf_eq hl'] at h'
    by_cases hm : Mentions d id c
    · rw [if_pos hm, if_pos ht] at h
      rw [if_pos (hw.mentions.1 hm), if_pos ht'] at h'
      simp only [bind_eq_ok, pure, Except.pure, Except.ok.injEq, Prod.mk.injEq] at h h'
      obtain ⟨_, h1, rfl, _⟩ := h
      obtain ⟨_, h1', rfl, _⟩ := h'
      exact narrow_mono hs hx hx' kx hw hm wf wf' ht h1 h1'
    · rw [if_neg hm] at h
      rw [if_neg (fun h => hm (hw.mentions.2 h))] at h'
      cases h; cases h'; exact kx
  intro c
  induction c with
  | plain s =>
    intro c' hw wf wf' _ _ _ ht f f' o o' R R' g g' h h'
    cases c' <;> first | exact hw.elim | skip
    simp only [detailConstrain, Except.ok.injEq, Prod.mk.injEq] at h h'
    obtain ⟨rfl, _⟩ := h; obtain ⟨rfl, _⟩ := h'; exact kx
  | leq s l r => intro c' hw wf wf' _ _ _ ht; cases c' <;> first | exact hw.elim | exact leaf _ _ rfl rfl hw wf wf' ht
  | less s l r => intro c' hw wf wf' _ _ _ ht; cases c' <;> first | exact hw.elim | exact leaf _ _ rfl rfl hw wf wf' ht
  | equal s l r => intro c' hw wf wf' _ _ _ ht; cases c' <;> first | exact hw.elim | exact leaf _ _ rfl rfl hw wf wf' ht
  | notEqual s l r => intro c' hw wf wf' _ _ _ ht; cases c' <;> first | exact hw.elim | exact leaf _ _ rfl rfl hw wf wf' ht
  | conj s l r ihl ihr =>
    intro c' hw wf wf' sh' dm dm' ht f f' o o' R R' g g' h h'
    have ht' := hw.truth wf wf' true ht
    cases c' <;> first | exact hw.elim | skip
    obtain ⟨w1, w2, rfl⟩ := wf
    obtain ⟨v1, v2, rfl⟩ := wf'
    change BoolSet.contains (BoolSet.and _ _) true = true at ht
    change BoolSet.contains (BoolSet.and _ _) true = true at ht'
    have ht2 := ht
    rw [contains_and_true _ _ w1.truth_ne w2.truth_ne, Bool.and_eq_true] at ht2
    next s' l' r' =>
    have D1 := hw.1.isDisj
    have D2 := hw.2.isDisj
    simp only [detailConstrain, D1, D2, ht, ht', if_true, bind_eq_ok, make_eq_ok, pure, Except.pure, Except.ok.injEq, Prod.mk.injEq, Prod.exists] at h h'
    obtain ⟨xl, f1, h1, xr, f2, h2, _, _, _, ⟨_, rfl⟩, rfl, _⟩ := h
    obtain ⟨xl', f1', h1', xr', f2', h2', _, _, _, ⟨_, rfl⟩, rfl, _⟩ := h'
    have a : le xl'.lo xl.lo = true ∧ le xl.hi xl'.hi = true := by
      cases e : l.isDisj <;> rw [e] at D1 <;> simp only [e, if_true, Bool.false_eq_true, if_false] at h1 h1'
      · have sl : StrictHom d (Spec.seen l') := by have := sh'.1; rwa [D1] at this
        exact ihl _ hw.1 w1 v1 sl (disjBoth_of e) (disjBoth_of D1) ht2.1 h1 h1'
      · cases h1; cases h1'; exact kx
    have b : le xr'.lo xr.lo = true ∧ le xr.hi xr'.hi = true := by
      cases e : r.isDisj <;> rw [e] at D2 <;> simp only [e, if_true, Bool.false_eq_true, if_false] at h2 h2'
      · have sl : StrictHom d (Spec.seen r') := by have := sh'.2; rwa [D2] at this
        exact ihr _ hw.2 w2 v2 sl (disjBoth_of e) (disjBoth_of D2) ht2.2 h2 h2'
      · cases h2; cases h2'; exact kx
    simp only; grind
  | disj s l r ihl ihr =>
    intro c' hw wf wf' sh' dm dm' ht f f' o o' R R' g g' h h'
    cases c' <;> first | exact hw.elim | skip
    next s' l' r' =>
    obtain ⟨w1, w2, rfl⟩ := wf
    obtain ⟨v1, v2, rfl⟩ := wf'
    change BoolSet.contains (BoolSet.or _ _) true = true at ht
    rw [contains_or_true _ _ w1.truth_ne w2.truth_ne, Bool.or_eq_true] at ht
    simp only [detailConstrain, bind_eq_ok, Prod.exists] at h h'
    obtain ⟨xl, f1, h1, xr, f2, h2, _, _, h⟩ := h
    obtain ⟨xl', f1', h1', xr', f2', h2', _, _, h'⟩ := h'
    have e1 := flag_val _ _ _ _ _ h1
    have e2 := flag_val _ _ _ _ _ h2
    have e1' := flag_val _ _ _ _ _ h1'
    have e2' := flag_val _ _ _ _ _ h2'
    simp only [dm.1.1, dm.1.2, dm'.1.1, dm'.1.2, decide_true, Bool.or_true] at e1 e2 e1' e2'
    subst e1; subst e2; subst e1'; subst e2'
    have ml := hw.1.truth w1 v1 true
    have mr := hw.2.truth w2 v2 true
    have A : BoolSet.contains l.truth true = true → le xl'.lo xl.lo = true ∧ le xl.hi xl'.hi = true := fun t => ihl _ hw.1 w1 v1 sh'.1 dm.2.1 dm'.2.1 t h1 h1'
    have B : BoolSet.contains r.truth true = true → le xr'.lo xr.lo = true ∧ le xr.hi xr'.hi = true := fun t => ihr _ hw.2 w2 v2 sh'.2 dm.2.2 dm'.2.2 t h2 h2'
    have pl : le xl'.lo xl'.hi = true := detail_proper hx' _ v1 (Spec.StrictHom.steps hs sh'.1) _ _ _ _ h1'
    have pr : le xr'.lo xr'.hi = true := detail_proper hx' _ v2 (Spec.StrictHom.steps hs sh'.2) _ _ _ _ h2'
    simp only [Bool.true_and, BoolSet.possibly] at h h'
    cases tl : BoolSet.contains l.truth true <;> cases tr : BoolSet.contains r.truth true <;>
      simp only [tl, tr, Bool.false_eq_true, or_self, or_false, or_true, forall_true_left, false_implies, if_true, if_false, Bool.and_true, Bool.and_false, Bool.true_and, Bool.and_self] at ht ml mr A B h
    · simp only [mr, Bool.and_true] at h'
      cases h
      cases tl' : BoolSet.contains l'.truth true <;> simp only [tl', if_true, if_false, Bool.false_eq_true] at h'
      · cases h'; exact B
      · simp only [bind_eq_ok, make_eq_ok, pure, Except.pure, Except.ok.injEq, Prod.mk.injEq] at h'
        obtain ⟨_, ⟨_, rfl⟩, rfl, _⟩ := h'
        simp only; grind
    · simp only [ml, Bool.true_and] at h'
      cases h
      cases tr' : BoolSet.contains r'.truth true <;> simp only [tr', if_true, if_false, Bool.false_eq_true] at h'
      · cases h'; exact A
      · simp only [bind_eq_ok, make_eq_ok, pure, Except.pure, Except.ok.injEq, Prod.mk.injEq] at h'
        obtain ⟨_, ⟨_, rfl⟩, rfl, _⟩ := h'
        simp only; grind
    · simp only [ml, mr, Bool.true_and, if_true] at h'
      simp only [bind_eq_ok, make_eq_ok, pure, Except.pure, Except.ok.injEq, Prod.mk.injEq] at h h'
      obtain ⟨_, ⟨_, rfl⟩, rfl, _⟩ := h
      obtain ⟨_, ⟨_, rfl⟩, rfl, _⟩ := h'
      simp only; grind

theorem sgn_wf {dbg d : Bool} {D : List Nat} {S : Nat → Ivl T} {e : PCond T} {pol : Bool} {c : Cond T} (he : e.ok D = true) (hS : AllProper D S)
    (hb : (sgnInst d S (e, pol)).build dbg = .ok c) : WF c := by
  obtain ⟨c1, g1, g2, _⟩ := build_wf (dbg := dbg) _ (sgnInst_proper (d := d) (ep := (e, pol)) hS he)
  rw [hb] at g1; cases g1; exact g2

/-- a condition that is possible for the narrower operands is possible for the wider ones -/
theorem possible_mono {dbg d : Bool} {D : List Nat} {S S' : Nat → Ivl T} {e : PCond T} {pol : Bool} {c c' : Cond T} (he : e.ok D = true)
    (hS : AllProper D S) (hS' : AllProper D S') (hw : Within D S S') (hb : (sgnInst d S (e, pol)).build dbg = .ok c)
    (hb' : (sgnInst d S' (e, pol)).build dbg = .ok c') (ht : BoolSet.contains c.truth true = true) : BoolSet.contains c'.truth true = true :=
  (sgn_CW hw 0 he hb hb').truth (sgn_wf he hS hb) (sgn_wf he hS' hb') true ht

/-- constraining with the same condition is isotone -/
theorem constrain_iso {dbg d : Bool} {D : List Nat} {S S' : Nat → Ivl T} {e : PCond T} {pol : Bool} {c c' : Cond T} {y : Nat} {R R' : Ivl T}
    (hd : d = true → LawfulStep T) (he : e.ok D = true) (hy : y ∈ D) (hu : e.disjUses y pol = true)
    (hS : AllProper D S) (hS' : AllProper D S') (hw : Within D S S') (hb : (sgnInst d S (e, pol)).build dbg = .ok c)
    (hb' : (sgnInst d S' (e, pol)).build dbg = .ok c') (ht : BoolSet.contains c.truth true = true) (hR : constrain dbg d y (S y) c = .ok R)
    (hR' : constrain dbg d y (S' y) c' = .ok R') : SubI R R' := by
  simp only [constrain, bind_eq_ok, pure, Except.pure, Except.ok.injEq, Prod.exists] at hR hR'
  obtain ⟨_, _, h1, _, _, rfl⟩ := hR
  obtain ⟨_, _, h1', _, _, rfl⟩ := hR'
  have := detail_mono hd (hS y hy) (hS' y hy) (hw y hy) c c' (sgn_CW hw y he hb hb').toCV (sgn_wf he hS hb) (sgn_wf he hS' hb') (sh_strict (sgn_sh hb')).seen (sh_disj (sgn_sh hb) hu) (sh_disj (sgn_sh hb') hu)
    ht h1 h1'
  intro v hv
  exact ⟨cle_trans this.1 hv.1, cle_trans hv.2 this.2⟩

variable [CppLimits T] [CppLawfulLimits T]

theorem assignPartial_iso {X Y X' Y' R R' : Ivl T} (hX : Proper X ∨ X = Ivl.unassigned) (hY : Proper Y) (hX' : Proper X' ∨ X' = Ivl.unassigned)
    (hY' : Proper Y') (sX : SubI X X') (sY : SubI Y Y') (h : Ivl.assignPartial X Y = .ok R) (h' : Ivl.assignPartial X' Y' = .ok R') : SubI R R' := by
  obtain ⟨R1, e1, e2, e3, e4⟩ := assignPartial_grow hX' hY'
  rw [h'] at e1; cases e1
  have hlo := e4 _ (sY _ (lo_pt hY))
  have hhi := e4 _ (sY _ (⟨hY, cle_right hY⟩ : Y.hi ∈ᵢ Y))
  have a1 : Y.assigned = true := by unfold Proper at hY; unfold Ivl.assigned; grind
  simp only [Ivl.assignPartial, Ivl.assign, a1, expects_true, ok_bind, pure, Except.pure, Ivl.assignCore, Except.ok.injEq] at h
  subst h
  rcases hX with hX | rfl
  · have hl := e3 _ (sX _ (lo_pt hX))
    have hh := e3 _ (sX _ (⟨hX, cle_right hX⟩ : X.hi ∈ᵢ X))
    apply subI_of_bounds <;> unfold Pt at * <;> unfold Proper at * <;> grind
  · have h1 := CppLawfulLimits.le_top Y.lo (cle_left hY)
    have h2 := CppLawfulLimits.bot_le Y.hi (cle_right hY)
    simp only [Ivl.unassigned]
    apply subI_of_bounds <;> unfold Pt at * <;> unfold Proper at * <;> grind

theorem stack_get {dbg d : Bool} {Γ : Ctx T} {S : Nat → Ivl T} {K : List (Cond T)} (h : Inv dbg d Γ S K) {k : Nat} {ep : PCond T × Bool} {c : Cond T}
    (hk : Γ.conds[k]? = some ep) (hK : K[k]? = some c) : (sgnInst d S ep).build dbg = .ok c ∧ BoolSet.contains c.truth true = true := by
  have := List.forall₂_iff_get.1 h.stack
  obtain ⟨k1, e1⟩ := List.getElem?_eq_some_iff.1 hk
  obtain ⟨k2, e2⟩ := List.getElem?_eq_some_iff.1 hK
  have h3 := this.2 k k1 k2
  simp only [List.get_eq_getElem, e1, e2] at h3
  exact h3

def SubS (Γ : Ctx T) (S S' : Nat → Ivl T) : Prop := ∀ x ∈ Γ.scope, SubI (S x) (S' x)

theorem SubS.upd {Γ : Ctx T} {S S' : Nat → Ivl T} (h : SubS Γ S S') {x : Nat} {R R' : Ivl T} (hR : SubI R R') {sc : List Nat} {E : List Nat} {cs o}
    (hsc : ∀ y ∈ sc, y = x ∨ y ∈ Γ.scope) : SubS ⟨sc, E, cs, o⟩ (upd S x R) (upd S' x R') := by
  intro y hy
  unfold Spec.upd
  split
  · exact hR
  · next hne => exact h y ((hsc y hy).resolve_left hne)

/-- Two runs of a program on nested inputs end in nested states. -/
theorem run_iso {dbg d : Bool} (hs : d = true → LawfulStep T) : ∀ {p : Prog T} {Γ Γ' : Ctx T} {S S' Q Q' : Nat → Ivl T} {K L : List (Cond T)},
    p.AllFn Fn.Iso → p.check Γ = some Γ' → Inv dbg d Γ S K → Inv dbg d Γ Q L → SubS Γ S Q →
    runI dbg d p S K = .ok (S', true) → runI dbg d p Q L = .ok (Q', true) → SubS Γ' S' Q' := by
  intro p
  induction p with
  | skip =>
    intro Γ Γ' S S' Q Q' K L hf h hi hj hw hr hq
    simp only [Prog.check, Option.some.injEq] at h; subst h
    simp only [runI, Except.ok.injEq, Prod.mk.injEq] at hr hq; obtain ⟨rfl, _⟩ := hr; obtain ⟨rfl, _⟩ := hq
    exact hw
  | seq p q ihp ihq =>
    intro Γ Γ' S S' Q Q' K L hf h hi hj hw hr hq
    simp only [Prog.check, Option.bind_eq_some_iff] at h
    obtain ⟨Γ1, h1, h2⟩ := h
    simp only [runI, bind_eq_ok, pure, Except.pure, Except.ok.injEq, Prod.mk.injEq, Bool.and_eq_true, Prod.exists] at hr hq
    obtain ⟨S1, b1, r1, S2, b2, r2, rfl, rfl, rfl⟩ := hr
    obtain ⟨Q1, b1, q1, Q2, b2, q2, rfl, rfl, rfl⟩ := hq
    have w1 := ihp hf.1 h1 hi hj hw r1 q1
    exact ihq hf.2 h2 (run_step hs h1 hi r1).1 (run_step hs h1 hj q1).1 w1 r2 q2
  | decl x =>
    intro Γ Γ' S S' Q Q' K L hf h hi hj hw hr hq
    simp only [Prog.check] at h
    split at h
    · cases h
    · cases h
      simp only [runI, Except.ok.injEq, Prod.mk.injEq] at hr hq; obtain ⟨rfl, _⟩ := hr; obtain ⟨rfl, _⟩ := hq
      exact hw.upd (fun v hv => hv) (fun y hy => List.mem_cons.1 hy)
  | letF x f args =>
    intro Γ Γ' S S' Q Q' K L hf h hi hj hw hr hq
    simp only [Prog.check] at h
    split at h
    · next hx =>
      cases h
      simp only [runI, bind_eq_ok, pure, Except.pure, Except.ok.injEq, Prod.mk.injEq] at hr hq
      obtain ⟨R, hR, rfl, hpr⟩ := hr
      obtain ⟨R', hR', rfl, hpr'⟩ := hq
      simp only [Bool.and_eq_true, List.all_eq_true, List.contains_iff_mem, beq_iff_eq] at hx
      refine hw.upd (hf dbg _ _ R R' (by simpa using hx.2) ?_ ?_ hR hR' hpr hpr') (fun y hy => List.mem_cons.1 hy)
      · rw [List.forall₂_map_left_iff, List.forall₂_map_right_iff, List.forall₂_same]
        exact fun y hy => hw y (hi.sub y (hx.1.2 y hy))
      · intro X hX
        obtain ⟨y, hy, rfl⟩ := List.mem_map.1 hX
        exact hi.prop y (hx.1.2 y hy)
    · cases h
  | constrain x y k =>
    intro Γ Γ' S S' Q Q' K L hf h hi hj hw hr hq
    simp only [Prog.check] at h
    split at h
    · cases h
    · next e pol hk =>
      split at h
      · next hx =>
        cases h
        simp only [Bool.and_eq_true, List.contains_iff_mem] at hx
        obtain ⟨⟨⟨hx1, hx2⟩, hx3⟩, hx4⟩ := hx
        simp only [runI] at hr hq
        split at hr
        · cases hr
        · next c hK =>
          split at hq
          · cases hq
          · next c' hL =>
            simp only [bind_eq_ok, pure, Except.pure, Except.ok.injEq, Prod.mk.injEq] at hr hq
            obtain ⟨R, hR, rfl, _⟩ := hr
            obtain ⟨R', hR', rfl, _⟩ := hq
            have hm := List.mem_of_getElem? hk
            exact hw.upd (constrain_iso hs (hi.used _ hm) hx2 hx4 hi.prop hj.prop (sub_within hi.prop fun x hx => hw x (hi.sub x hx))
              (stack_get hi hk hK).1 (stack_get hj hk hL).1 (stack_get hi hk hK).2 hR hR') (fun y hy => List.mem_cons.1 hy)
      · cases h
  | assignPartial x y =>
    intro Γ Γ' S S' Q Q' K L hf h hi hj hw hr hq
    simp only [Prog.check] at h
    split at h
    · next hx =>
      cases h
      simp only [Bool.and_eq_true, List.contains_iff_mem, List.all_eq_true, Bool.not_eq_true'] at hx
      obtain ⟨⟨hx1, hx2⟩, hx3⟩ := hx
      simp only [runI, bind_eq_ok, pure, Except.pure, Except.ok.injEq, Prod.mk.injEq] at hr hq
      obtain ⟨R, hR, rfl, _⟩ := hr
      obtain ⟨R', hR', rfl, _⟩ := hq
      exact hw.upd (assignPartial_iso (hi.clean x hx1) (hi.prop y hx2) (hj.clean x hx1) (hj.prop y hx2) (hw x hx1) (hw y (hi.sub y hx2)) hR hR')
        (fun y hy => Or.inr hy)
    · cases h
  | assign x y =>
    intro Γ Γ' S S' Q Q' K L hf h hi hj hw hr hq
    simp only [Prog.check] at h
    split at h
    · next hx =>
      cases h
      simp only [Bool.and_eq_true, List.contains_iff_mem, List.all_eq_true, Bool.not_eq_true'] at hx
      obtain ⟨⟨hx1, hx2⟩, hx3⟩ := hx
      simp only [runI, bind_eq_ok, pure, Except.pure, Except.ok.injEq, Prod.mk.injEq] at hr hq
      obtain ⟨R, hR, rfl, _⟩ := hr
      obtain ⟨R', hR', rfl, _⟩ := hq
      obtain ⟨_, rfl⟩ := assignFree_ok (hi.clean x hx1) hR
      obtain ⟨_, rfl⟩ := assignFree_ok (hj.clean x hx1) hR'
      exact hw.upd (hw y (hi.sub y hx2)) (fun y hy => Or.inr hy)
    · cases h
  | reset x y =>
    intro Γ Γ' S S' Q Q' K L hf h hi hj hw hr hq
    simp only [Prog.check] at h
    split at h
    · next hx =>
      cases h
      simp only [Bool.and_eq_true, List.contains_iff_mem] at hx
      obtain ⟨⟨hx1, hx2⟩, hx3⟩ := hx
      simp only [runI, Except.ok.injEq, Prod.mk.injEq] at hr hq
      obtain ⟨rfl, _⟩ := hr
      obtain ⟨rfl, _⟩ := hq
      exact hw.upd (hw y (hi.sub y hx2)) (fun y hy => Or.inr hy)
    · cases h
  | block p ih =>
    intro Γ Γ' S S' Q Q' K L hf h hi hj hw hr hq
    simp only [Prog.check, Option.bind_eq_some_iff, Option.some.injEq] at h
    obtain ⟨Γp, hp, rfl⟩ := h
    exact fun x hx => ih hf hp hi hj hw hr hq x ((check_ctx hp).2.1 x hx)
  | call x p args r ih =>
    intro Γ Γ' S S' Q Q' K L hf h hi hj hw hr hq
    simp only [Prog.check, Option.bind_eq_some_iff] at h
    obtain ⟨Γp, hp, h⟩ := h
    split at h
    · next hx =>
      cases h
      simp only [Bool.and_eq_true, List.all_eq_true, List.contains_iff_mem] at hx
      obtain ⟨⟨hx, ha⟩, hr'⟩ := hx
      simp only [runI, bind_eq_ok, pure, Except.pure, Except.ok.injEq, Prod.mk.injEq, Prod.exists] at hr hq
      obtain ⟨S1, b, r1, rfl, rfl⟩ := hr
      obtain ⟨Q1, b, q1, rfl, rfl⟩ := hq
      have iS := inv_start (dbg := dbg) (d := d) (S := frame Ivl.unassigned (args.map S)) (fun i hi' => by
        obtain ⟨y, hy, e⟩ := frame_get hi'
        rw [e]; exact hi.prop y (ha y hy))
      have iQ := inv_start (dbg := dbg) (d := d) (S := frame Ivl.unassigned (args.map Q)) (fun i hi' => by
        obtain ⟨y, hy, e⟩ := frame_get hi'
        rw [e]; exact hj.prop y (ha y hy))
      have w := ih hf hp iS iQ (fun i hi' => by
        obtain ⟨y, hy, e⟩ := frame_get hi'
        rw [e, e]; exact hw y (hi.sub y (ha y hy))) r1 q1
      exact hw.upd (w r ((run_step hs hp iS r1).1.sub r hr')) (fun y hy => List.mem_cons.1 hy)
    · cases h
  | branch e p q ihp ihq =>
    intro Γ Γ' S S' Q Q' K L hf h hi hj hw hr hq
    simp only [Prog.check] at h
    split at h
    · next he =>
      simp only [Option.bind_eq_some_iff, Option.some.injEq] at h
      obtain ⟨Γp, hp, Γq, hq', rfl⟩ := h
      obtain ⟨c, hcS, S1, r1, nc, hncS, r2⟩ := runI_branch hr
      obtain ⟨c', hcQ, Q1, q1, nc', hncQ, q2⟩ := runI_branch hq
      have hwi : Within Γ.asgd S Q := sub_within hi.prop fun x hx => hw x (hi.sub x hx)
      -- what one branch does to one state
      have step : ∀ {A B : Nat → Ivl T} {M : List (Cond T)} {b : Cond T} {pol : Bool} {r : Prog T} {Γr : Ctx T}, Inv dbg d Γ A M →
          (sgnInst d A (e, pol)).build dbg = .ok b → r.check { Γ with conds := (e, pol) :: Γ.conds, outer := Γ.scope } = some Γr →
          (if BoolSet.possibly b.truth then runI dbg d r A (b :: M) else .ok (A, true)) = .ok (B, true) →
          Inv dbg d Γ B M ∧ Grow { Γ with outer := Γ.scope } A B ∧ (∀ x, e.uses x = true → B x = A x) := by
        intro A B M b pol r Γr hA hb hck hrun
        split at hrun
        · next ht =>
          obtain ⟨i1, g1⟩ := run_step hs hck (inv_push hA he hb ht) hrun
          obtain ⟨i2, g2⟩ := inv_pop hA g1 i1 (check_ctx hck).2.1
          exact ⟨i2, g2, fun x hx => g1.keep x ⟨_, List.mem_cons_self, hx⟩⟩
        · simp only [Except.ok.injEq, Prod.mk.injEq] at hrun; obtain ⟨rfl, _⟩ := hrun
          exact ⟨hA, Grow.refl _ _, fun _ _ => rfl⟩
      have bstep : ∀ {A B A' B' : Nat → Ivl T} {M M' : List (Cond T)} {b b' : Cond T} {pol : Bool} {r : Prog T} {Γr : Ctx T},
          (∀ {Γ Γ' : Ctx T} {S S' Q Q' : Nat → Ivl T} {K L : List (Cond T)}, r.AllFn Fn.Iso →
            r.check Γ = some Γ' → Inv dbg d Γ S K → Inv dbg d Γ Q L → SubS Γ S Q →
            runI dbg d r S K = .ok (S', true) → runI dbg d r Q L = .ok (Q', true) → SubS Γ' S' Q') → r.AllFn Fn.Iso →
          Inv dbg d Γ A M → Inv dbg d Γ A' M' → SubS Γ A A' →
          (sgnInst d A (e, pol)).build dbg = .ok b → (sgnInst d A' (e, pol)).build dbg = .ok b' →
          r.check { Γ with conds := (e, pol) :: Γ.conds, outer := Γ.scope } = some Γr →
          (if BoolSet.possibly b.truth then runI dbg d r A (b :: M) else .ok (A, true)) = .ok (B, true) →
          (if BoolSet.possibly b'.truth then runI dbg d r A' (b' :: M') else .ok (A', true)) = .ok (B', true) → SubS Γ B B' := by
        intro A B A' B' M M' b b' pol r Γr ih hfr hA hA' hww hb hb' hck h1 h2
        have hg := step hA' hb' hck h2
        split at h1
        · next ht =>
          have ht' := possible_mono he hA.prop hA'.prop (sub_within hA.prop fun x hx => hww x (hA.sub x hx)) hb hb' ht
          rw [if_pos (show BoolSet.possibly b'.truth = true from ht')] at h2
          have := ih hfr hck (inv_push hA he hb ht) (inv_push hA' he hb' ht') hww h1 h2
          exact fun x hx => this x ((check_ctx hck).2.1 x hx)
        · simp only [Except.ok.injEq, Prod.mk.injEq] at h1; obtain ⟨rfl, _⟩ := h1
          exact fun x hx v hv => hg.2.1.grow x hx v (hww x hx v hv)
      have hcS' : (sgnInst d S (e, true)).build dbg = .ok c := hcS
      have hcQ' : (sgnInst d Q (e, true)).build dbg = .ok c' := hcQ
      obtain ⟨i1, g1, k1⟩ := step hi hcS' hp r1
      obtain ⟨j1, l1, m1⟩ := step hj hcQ' hp q1
      have w1 := bstep ihp hf.1 hi hj hw hcS' hcQ' hp r1 q1
      have hcS1 : (e.inst d S1).build dbg = .ok c := by rw [inst_congr k1]; exact hcS
      have hcQ1 : (e.inst d Q1).build dbg = .ok c' := by rw [inst_congr m1]; exact hcQ
      exact bstep ihq hf.2 i1 j1 w1 ((not_build hcS1).1 hncS) ((not_build hcQ1).1 hncQ) hq' r2 q2
    · cases h

theorem Fn.IsoDef.iso {f : Fn T} (h : f.IsoDef) : f.Iso := by
  intro dbg Xs Ys R Q hl hs hp hR hQ _ pQ
  obtain ⟨R1, e1, _, e3⟩ := h dbg Xs Ys Q hl hs hp hQ pQ
  rw [hR] at e1; cases e1; exact e3

theorem allFn_mono {P P' : Fn T → Prop} (h : ∀ f, P f → P' f) : ∀ {p : Prog T}, p.AllFn P → p.AllFn P' := by
  intro p
  induction p with
  | seq p q ihp ihq => exact fun hp => ⟨ihp hp.1, ihq hp.2⟩
  | letF x f args => exact fun hp => h f hp
  | branch e p q ihp ihq => exact fun hp => ⟨ihp hp.1, ihq hp.2⟩
  | block p ih => exact ih
  | call x p args r ih => exact ih
  | _ => exact fun _ => trivial

/-- A program whose conditions are single comparisons does not fail on the narrower inputs if it does not fail on the wider ones. -/
theorem run_defined {dbg d : Bool} (hs : d = true → LawfulStep T) : ∀ {p : Prog T} {Γ Γ' : Ctx T} {S Q Q' : Nat → Ivl T} {K L : List (Cond T)},
    p.AllFn Fn.IsoDef → p.Single → (∀ c ∈ Γ.conds, c.1.single = true) → p.check Γ = some Γ' → Inv dbg d Γ S K → Inv dbg d Γ Q L → SubS Γ S Q →
    runI dbg d p Q L = .ok (Q', true) → ∃ S', runI dbg d p S K = .ok (S', true) := by
  intro p
  induction p with
  | skip => intro Γ Γ' S Q Q' K L _ _ _ _ _ _ _ _; exact ⟨S, rfl⟩
  | seq p q ihp ihq =>
    intro Γ Γ' S Q Q' K L hf hsg hc h hi hj hw hq
    simp only [Prog.check, Option.bind_eq_some_iff] at h
    obtain ⟨Γ1, h1, h2⟩ := h
    simp only [runI, bind_eq_ok, pure, Except.pure, Except.ok.injEq, Prod.mk.injEq, Bool.and_eq_true, Prod.exists] at hq
    obtain ⟨Q1, b1, q1, Q2, b2, q2, rfl, rfl, rfl⟩ := hq
    obtain ⟨S1, r1⟩ := ihp hf.1 hsg.1 hc h1 hi hj hw q1
    have w1 := run_iso hs (allFn_mono (fun _ => Fn.IsoDef.iso) hf.1) h1 hi hj hw r1 q1
    obtain ⟨S2, r2⟩ := ihq hf.2 hsg.2 (by rw [(check_ctx h1).1]; exact hc) h2 (run_step hs h1 hi r1).1 (run_step hs h1 hj q1).1 w1 q2
    exact ⟨S2, by simp only [runI, r1, r2, ok_bind, pure, Except.pure, Bool.and_self]⟩
  | decl x => intro Γ Γ' S Q Q' K L _ _ _ _ _ _ _ _; exact ⟨_, rfl⟩
  | letF x f args =>
    intro Γ Γ' S Q Q' K L hf hsg hc h hi hj hw hq
    simp only [Prog.check] at h
    split at h
    · next hx =>
      cases h
      simp only [runI, bind_eq_ok, pure, Except.pure, Except.ok.injEq, Prod.mk.injEq] at hq
      obtain ⟨R', hR', rfl, hpr'⟩ := hq
      simp only [Bool.and_eq_true, List.all_eq_true, List.contains_iff_mem, beq_iff_eq] at hx
      obtain ⟨R, h1, h2, _⟩ := hf dbg (args.map S) (args.map Q) R' (by simpa using hx.2) (by
        rw [List.forall₂_map_left_iff, List.forall₂_map_right_iff, List.forall₂_same]
        exact fun y hy => hw y (hi.sub y (hx.1.2 y hy))) (by
        intro X hX
        obtain ⟨y, hy, rfl⟩ := List.mem_map.1 hX
        exact hi.prop y (hx.1.2 y hy)) hR' hpr'
      unfold Proper at h2
      exact ⟨upd S x R, by simp only [runI, h1, h2, ok_bind, pure, Except.pure]⟩
    · cases h
  | constrain x y k => intro Γ Γ' S Q Q' K L hf hsg hc h hi hj hw hq; exact run_total (p := .constrain x y k) hs trivial trivial trivial hc h hi
  | assignPartial x y => intro Γ Γ' S Q Q' K L hf hsg hc h hi hj hw hq; exact run_total (p := .assignPartial x y) hs trivial trivial trivial hc h hi
  | assign x y =>
    intro Γ Γ' S Q Q' K L hf hsg hc h hi hj hw hq
    simp only [Prog.check] at h
    split at h
    · next hx =>
      cases h
      simp only [Bool.and_eq_true, List.contains_iff_mem, List.all_eq_true, Bool.not_eq_true'] at hx
      obtain ⟨⟨hx1, hx2⟩, hx3⟩ := hx
      simp only [runI, bind_eq_ok, pure, Except.pure, Except.ok.injEq, Prod.mk.injEq] at hq
      obtain ⟨R', hR', rfl, _⟩ := hq
      obtain ⟨e, rfl⟩ := assignFree_ok (hj.clean x hx1) hR'
      have e' : S x = Ivl.unassigned := (hi.clean x hx1).resolve_left fun hp => unassigned_empty _ (e ▸ hw x hx1 _ (lo_pt hp))
      rw [e] at hR'
      have ha : Ivl.assigned (Ivl.unassigned : Ivl T) = false := by
        cases hh : Ivl.assigned (Ivl.unassigned : Ivl T) with
        | false => rfl
        | true => simp only [Ivl.assignFree, hh] at hR'; cases hR'
      exact ⟨upd S x (S y), by simp only [runI, Ivl.assignFree, e', ha, Bool.not_false, expects_true, ok_bind, pure, Except.pure, Ivl.resetIvl]⟩
    · cases h
  | reset x y => intro Γ Γ' S Q Q' K L hf hsg hc h hi hj hw hq; exact ⟨_, rfl⟩
  | block p ih =>
    intro Γ Γ' S Q Q' K L hf hsg hc h hi hj hw hq
    simp only [Prog.check, Option.bind_eq_some_iff, Option.some.injEq] at h
    obtain ⟨Γp, hp, rfl⟩ := h
    exact ih hf hsg hc hp hi hj hw hq
  | call x p args r ih =>
    intro Γ Γ' S Q Q' K L hf hsg hc h hi hj hw hq
    simp only [Prog.check, Option.bind_eq_some_iff] at h
    obtain ⟨Γp, hp, h⟩ := h
    split at h
    · next hx =>
      cases h
      simp only [Bool.and_eq_true, List.all_eq_true, List.contains_iff_mem] at hx
      obtain ⟨⟨hx, ha⟩, hr'⟩ := hx
      simp only [runI, bind_eq_ok, pure, Except.pure, Except.ok.injEq, Prod.mk.injEq, Prod.exists] at hq
      obtain ⟨Q1, b, q1, rfl, rfl⟩ := hq
      obtain ⟨S1, r1⟩ := ih hf hsg (fun _ h => absurd h List.not_mem_nil) hp
        (inv_start (S := frame Ivl.unassigned (args.map S)) (fun i hi' => by
          obtain ⟨y, hy, e⟩ := frame_get hi'
          rw [e]; exact hi.prop y (ha y hy)))
        (inv_start (S := frame Ivl.unassigned (args.map Q)) (fun i hi' => by
          obtain ⟨y, hy, e⟩ := frame_get hi'
          rw [e]; exact hj.prop y (ha y hy)))
        (fun i hi' => by
          obtain ⟨y, hy, e⟩ := frame_get hi'
          rw [e, e]; exact hw y (hi.sub y (ha y hy))) q1
      exact ⟨upd S x (S1 r), by simp only [runI, r1, ok_bind, pure, Except.pure]⟩
    · cases h
  | branch e p q ihp ihq =>
    intro Γ Γ' S Q Q' K L hf hsg hc h hi hj hw hq
    simp only [Prog.check] at h
    split at h
    · next he =>
      simp only [Option.bind_eq_some_iff, Option.some.injEq] at h
      obtain ⟨Γp, hp, Γq, hq', rfl⟩ := h
      obtain ⟨c', hcQ, Q1, q1, nc', hncQ, q2⟩ := runI_branch hq
      obtain ⟨c, hb, w2, _⟩ := build_wf (dbg := dbg) _ (inst_proper (d := d) hi.prop he)
      obtain ⟨nc, hnc, _⟩ := mkNot_wf dbg w2
      have hcs : ∀ pol, ∀ c ∈ (e, pol) :: Γ.conds, c.1.single = true := by
        intro pol c hc'
        rcases List.mem_cons.1 hc' with rfl | hc'
        exacts [hsg.1, hc c hc']
      -- one branch
      have step : ∀ {A A' B' : Nat → Ivl T} {b b' : Cond T} {pol : Bool} {r : Prog T} {Γr : Ctx T},
          (∀ {Γ Γ' : Ctx T} {S Q Q' : Nat → Ivl T} {K L : List (Cond T)}, r.AllFn Fn.IsoDef → r.Single → (∀ c ∈ Γ.conds, c.1.single = true) →
            r.check Γ = some Γ' → Inv dbg d Γ S K → Inv dbg d Γ Q L → SubS Γ S Q → runI dbg d r Q L = .ok (Q', true) →
            ∃ S', runI dbg d r S K = .ok (S', true)) → r.AllFn Fn.IsoDef → r.Single →
          Inv dbg d Γ A K → Inv dbg d Γ A' L → SubS Γ A A' →
          (sgnInst d A (e, pol)).build dbg = .ok b → (sgnInst d A' (e, pol)).build dbg = .ok b' →
          r.check { Γ with conds := (e, pol) :: Γ.conds, outer := Γ.scope } = some Γr →
          (if BoolSet.possibly b'.truth then runI dbg d r A' (b' :: L) else .ok (A', true)) = .ok (B', true) →
          ∃ B, (if BoolSet.possibly b.truth then runI dbg d r A (b :: K) else .ok (A, true)) = .ok (B, true) ∧ Inv dbg d Γ B K ∧ Inv dbg d Γ B' L ∧
            (∀ x, e.uses x = true → B x = A x) ∧ (∀ x, e.uses x = true → B' x = A' x) ∧ SubS Γ B B' := by
        intro A A' B' b b' pol r Γr ih hfr hsr hA hA' hww hb hb' hck h2
        have hg : Inv dbg d Γ B' L ∧ Grow { Γ with outer := Γ.scope } A' B' ∧ ∀ x, e.uses x = true → B' x = A' x := by
          split at h2
          · next ht =>
            obtain ⟨i1, g1⟩ := run_step hs hck (inv_push hA' he hb' ht) h2
            obtain ⟨i2, g2⟩ := inv_pop hA' g1 i1 (check_ctx hck).2.1
            exact ⟨i2, g2, fun x hx => g1.keep x ⟨_, List.mem_cons_self, hx⟩⟩
          · simp only [Except.ok.injEq, Prod.mk.injEq] at h2; obtain ⟨rfl, _⟩ := h2
            exact ⟨hA', Grow.refl _ _, fun _ _ => rfl⟩
        by_cases ht : BoolSet.possibly b.truth = true
        · have ht' := possible_mono he hA.prop hA'.prop (sub_within hA.prop fun x hx => hww x (hA.sub x hx)) hb hb' ht
          rw [if_pos (show BoolSet.possibly b'.truth = true from ht')] at h2
          have i0 := inv_push hA he hb ht
          have j0 := inv_push hA' he hb' ht'
          obtain ⟨B, hB⟩ := ih hfr hsr (hcs pol) hck i0 j0 hww h2
          obtain ⟨i1, g1⟩ := run_step hs hck i0 hB
          have w := run_iso hs (allFn_mono (fun _ => Fn.IsoDef.iso) hfr) hck i0 j0 hww hB h2
          exact ⟨B, by rw [if_pos ht]; exact hB, (inv_pop hA g1 i1 (check_ctx hck).2.1).1, hg.1, fun x hx => g1.keep x ⟨_, List.mem_cons_self, hx⟩, hg.2.2,
            fun x hx => w x ((check_ctx hck).2.1 x hx)⟩
        · exact ⟨A, by rw [if_neg ht], hA, hg.1, fun _ _ => rfl, hg.2.2, fun x hx v hv => hg.2.1.grow x hx v (hww x hx v hv)⟩
      have hb' : (sgnInst d S (e, true)).build dbg = .ok c := hb
      have hcQ' : (sgnInst d Q (e, true)).build dbg = .ok c' := hcQ
      obtain ⟨S1, r1, i1, j1, k1, m1, w1⟩ := step ihp hf.1 hsg.2.1 hi hj hw hb' hcQ' hp q1
      have hb1 : (e.inst d S1).build dbg = .ok c := by rw [inst_congr k1]; exact hb
      have hcQ1 : (e.inst d Q1).build dbg = .ok c' := by rw [inst_congr m1]; exact hcQ
      obtain ⟨S2, r2, _⟩ := step ihq hf.2 hsg.2.2 i1 j1 w1 ((not_build hb1).1 hnc) ((not_build hcQ1).1 hncQ) hq' q2
      refine ⟨S2, ?_⟩
      simp only [runI, hb, ok_bind]
      by_cases h1 : BoolSet.possibly c.truth = true <;> by_cases h2 : BoolSet.possibly nc.truth = true <;>
      · simp only [h1, h2, if_true, if_false, Bool.false_eq_true, Except.ok.injEq, Prod.mk.injEq, and_true] at r1 r2 ⊢
        first
        | (subst r1; subst r2; simp only [hnc, h2, if_false, Bool.false_eq_true, ok_bind, pure, Except.pure, Bool.and_self])
        | (subst r1; simp only [hnc, h2, r2, if_true, ok_bind, pure, Except.pure, Bool.and_self])
        | (subst r2; simp only [r1, hnc, h2, if_false, Bool.false_eq_true, ok_bind, pure, Except.pure, Bool.and_self])
        | simp only [r1, hnc, h2, r2, if_true, ok_bind, pure, Except.pure, Bool.and_self]
    · cases h

end Intervals
