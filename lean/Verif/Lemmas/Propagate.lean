import Verif.Spec.Propagate
import Verif.Lemmas.Program
import Verif.Lemmas.ConstraintDisj
import Verif.Props.Compare
/-! # Lemmas about repeated constraining -/
set_option linter.unusedSectionVars false
namespace Intervals
open Spec CppVal Props
variable {T : Type} [CppVal T] [CppOrder T] [CppStep T]

theorem exec_eq_ok {dbg d : Bool} {a : Narrowing T} {S S' : Nat → Ivl T} : a.exec dbg d S = .ok S' ↔
    ∃ c R, (a.e.inst d S).build dbg = .ok c ∧ constrain dbg d a.x (S a.x) c = .ok R ∧ S' = upd S a.x R := by
  simp only [Narrowing.exec, bind_eq_ok, pure, Except.pure, Except.ok.injEq]
  constructor
  · rintro ⟨c, h1, R, h2, rfl⟩; exact ⟨c, R, h1, h2, rfl⟩
  · rintro ⟨c, R, h1, h2, rfl⟩; exact ⟨c, h1, R, h2, rfl⟩

theorem execAll_cons_ok {dbg d : Bool} {a : Narrowing T} {as : List (Narrowing T)} {S S' : Nat → Ivl T} :
    execAll dbg d (a :: as) S = .ok S' ↔ ∃ S1, a.exec dbg d S = .ok S1 ∧ execAll dbg d as S1 = .ok S' := by
  simp only [execAll, bind_eq_ok]

theorem ok_mem {D : List Nat} {a : Narrowing T} (h : a.Ok D) : a.x ∈ D := ok_uses h.1 _ h.2

theorem within_refl {D : List Nat} {S : Nat → Ivl T} (h : AllProper D S) : Within D S S :=
  fun x hx => ⟨cle_left (h x hx), cle_right (h x hx)⟩
theorem within_trans {D : List Nat} {S S' S'' : Nat → Ivl T} (h : Within D S S') (h' : Within D S' S'') : Within D S S'' :=
  fun x hx => ⟨cle_trans (h' x hx).1 (h x hx).1, cle_trans (h x hx).2 (h' x hx).2⟩

/-- one statement narrows -/
theorem exec_narrows {dbg d : Bool} {D : List Nat} {a : Narrowing T} {S S' : Nat → Ivl T} (hs : d = true → LawfulStep T) (hS : AllProper D S)
    (ha : a.Ok D) (h : a.exec dbg d S = .ok S') : AllProper D S' ∧ Within D S' S := by
  obtain ⟨c, R, hb, hR, rfl⟩ := exec_eq_ok.mp h
  have hx := hS _ (ok_mem ha)
  have hsh := sh_build hb
  have hself := selfOperands_mono (Q := fun o => le (S a.x).lo o.arg.lo = true ∧ le o.arg.hi (S a.x).hi = true)
    (fun o ho => by rw [ho]; exact ⟨cle_left hx, cle_right hx⟩) c (sh_self (y := a.x) hsh)
  obtain ⟨g1, g2⟩ := C19_narrows_partial dbg d a.x (S a.x) R _ c hs hx (inst_proper hS ha.1) hb (sh_strict hsh).seen hself.seen.eqOperands hR
  have e1 := (g2 R.lo ⟨cle_left g1, g1⟩).1
  have e2 := (g2 R.hi ⟨g1, cle_right g1⟩).2
  constructor
  · intro y hy
    by_cases hyx : y = a.x
    · simp [upd, hyx, g1]
    · simp [upd, hyx, hS y hy]
  · intro y hy
    by_cases hyx : y = a.x
    · simp [upd, hyx, e1, e2]
    · simp [upd, hyx, cle_left (hS y hy), cle_right (hS y hy)]

/-- one statement keeps every valuation that satisfies its condition -/
theorem exec_keeps {dbg d : Bool} {D : List Nat} {a : Narrowing T} {S S' : Nat → Ivl T} {s : Nat → T} (hs : d = true → LawfulStep T)
    (ha : a.Ok D) (hd : a.e.disjUses a.x true = true) (h : a.exec dbg d S = .ok S') (hx : ∀ x ∈ D, s x ∈ᵢ S x)
    (he : a.e.eval s = true) : ∀ x ∈ D, s x ∈ᵢ S' x := by
  obtain ⟨c, R, hb, hR, rfl⟩ := exec_eq_ok.mp h
  have hS : AllProper D S := fun x h => cle_trans (hx x h).1 (hx x h).2
  have hsh := sh_build hb
  have hev := evE_eval (d := d) (S := S) (s := s) (e := a.e) (fun x hu => hx x (ok_uses ha.1 x hu))
  rw [he] at hev
  have hm := C18_sound_partial dbg d a.x (S a.x) R _ c s hs (inst_proper hS ha.1) hb (sh_strict hsh).seen (hx _ (ok_mem ha)) hev
    (sh_disj hsh hd).even hR
  intro y hy
  by_cases hyx : y = a.x
  · simp only [upd, hyx, if_true]; exact hm
  · simp only [upd, hyx, if_false]; exact hx y hy

theorem simple_single {a : Narrowing T} (h : a.Simple) : a.e.single = true := by
  obtain ⟨op, left, y, hy, he⟩ := h
  rw [he]
  cases left <;> cases y with
  | lit v => rfl
  | var z =>
    have : a.x ≠ z := by simpa [PTerm.uses] using hy
    first | simpa [PCond.single] using this | simpa [PCond.single] using this.symm

theorem simple_disjUses {a : Narrowing T} (h : a.Simple) : a.e.disjUses a.x true = true := by
  obtain ⟨op, left, y, hy, he⟩ := h
  rw [he]
  cases left <;> rfl

/-- a simple statement does not fail if its condition can be satisfied -/
theorem exec_ok {dbg d : Bool} {D : List Nat} {a : Narrowing T} {S : Nat → Ivl T} {s : Nat → T} (hs : d = true → LawfulStep T)
    (ha : a.Ok D) (hsm : a.Simple) (hx : ∀ x ∈ D, s x ∈ᵢ S x) (he : a.e.eval s = true) : ∃ S', a.exec dbg d S = .ok S' := by
  have hS : AllProper D S := fun x h => cle_trans (hx x h).1 (hx x h).2
  have hp := inst_proper (d := d) hS ha.1
  obtain ⟨c, hb, hw, _⟩ := build_wf (dbg := dbg) _ hp
  have hsh := sh_build hb
  have hev := evE_eval (d := d) (S := S) (s := s) (e := a.e) (fun x hu => hx x (ok_uses ha.1 x hu))
  rw [he] at hev
  have hl := single_flat (simple_single hsm) hsh
  have hc : ConjSat a.x (S a.x) (Spec.seen c) := by
    rw [seen_leaf hl]
    cases c <;> first | trivial | simp [Cond.isLeaf] at hl
  obtain ⟨R, hR⟩ := C21_success_partial dbg d a.x (S a.x) _ c s hs hp hb (sh_strict hsh).seen (by rw [seen_leaf hl]; exact (sh_mentions hsh).mpr ha.2)
    (sh_self hsh).seen (hx _ (ok_mem ha)) hev hc
  exact ⟨_, exec_eq_ok.mpr ⟨c, R, hb, hR, rfl⟩⟩

/-! ## a single comparison is monotone -/

theorem buildCmp_exact {dbg : Bool} {op : CmpOp} {l r : Operand T} {c : Cond T} (hl : ProperA l.arg) (hr : ProperA r.arg)
    (h : buildCmp dbg op l r = .ok c) : ExactCmp op.eval l.arg r.arg c.truth := by
  cases op <;> simp only [buildCmp, condEq, condNe, condLt, condLe, condGt, condGe, bind_eq_ok, pure, Except.pure, Except.ok.injEq] at h <;>
    obtain ⟨R, h1, rfl⟩ := h
  · obtain ⟨R', g1, g2⟩ := C09_eq dbg l.arg r.arg hl hr; rw [h1] at g1; cases g1; exact g2
  · obtain ⟨R', g1, g2⟩ := C09_ne dbg l.arg r.arg hl hr; rw [h1] at g1; cases g1; exact g2
  · obtain ⟨R', g1, g2⟩ := C09_lt dbg l.arg r.arg hl hr; rw [h1] at g1; cases g1; exact g2
  · obtain ⟨R', g1, g2⟩ := C09_le dbg l.arg r.arg hl hr; rw [h1] at g1; cases g1; exact g2
  · obtain ⟨R', g1, g2⟩ := C09_gt dbg l.arg r.arg hl hr; rw [h1] at g1; cases g1; exact g2
  · obtain ⟨R', g1, g2⟩ := C09_ge dbg l.arg r.arg hl hr; rw [h1] at g1; cases g1; exact g2

/-- `constrain` with a comparison succeeds only if the comparison can be true -/
theorem single_possible {dbg d left : Bool} {id : Nat} {op : CmpOp} {x R : Ivl T} {y : Operand T} {c : Cond T}
    (hb : (single op left d id x y).build dbg = .ok c) (hR : constrain dbg d id x c = .ok R) : BoolSet.contains c.truth true = true := by
  by_contra ht
  have hm : c.isLeaf = true ∧ Mentions d id c := by
    cases left <;> cases op <;> simp only [single, Bool.false_eq_true, if_false, if_true, CExpr.build, buildCmp, condEq, condNe, condLt, condLe, condGt, condGe, bind_eq_ok, pure, Except.pure, Except.ok.injEq] at hb <;>
    obtain ⟨R, h1, rfl⟩ := hb <;> simp [Cond.isLeaf, Mentions, self_match]
  simp only [constrain, leaf_eq hm.1, hm.2, ht, if_true] at hR
  simp at hR

theorem single_satisfiable {dbg d left : Bool} {id : Nat} {op : CmpOp} {x R : Ivl T} {y : Operand T} {c : Cond T} (hx : Proper x)
    (hy : ProperA y.arg) (hb : (single op left d id x y).build dbg = .ok c) (hR : constrain dbg d id x c = .ok R) :
    ∃ u, Satisfies op left x y.arg u := by
  have ht := single_possible hb hR
  cases left
  · obtain ⟨a, b, h1, h2, h3⟩ := (buildCmp_exact (l := y) (r := .ident d id x) hy hx hb true).mp ht
    exact ⟨b, h2, a, h1, by simpa using h3⟩
  · obtain ⟨a, b, h1, h2, h3⟩ := (buildCmp_exact (l := .ident d id x) (r := y) hx hy hb true).mp ht
    exact ⟨a, h1, b, h2, by simpa using h3⟩

/-- the bounds after a strict comparison or `!=` on a type that does not step -/
theorem single_continuous {dbg left : Bool} {id : Nat} {op : CmpOp} {x : Ivl T} {y : Operand T} (hx : Proper x) (hy : ProperA y.arg)
    (hn : y.matchesId false id = false) (hyd : y.disc = false) (hk : op = .lt ∨ op = .gt ∨ op = .ne) (hsat : ∃ u, Satisfies op left x y.arg u) :
    ∃ c R, (single op left false id x y).build dbg = .ok c ∧ constrain dbg false id x c = .ok R ∧
      R = if op = .ne then x else if (op = .lt) = (left = true) then ⟨x.lo, cmin x.hi y.arg.hi⟩ else ⟨cmax y.arg.lo x.lo, x.hi⟩ := by
  have a1 : (Operand.ident false id x).arg.assigned = true := properA_assigned (A := .ivl x) hx
  have a2 := properA_assigned hy
  have hyy := properA_le hy
  obtain ⟨u, hu, v, hv, h⟩ := hsat
  rw [ptA_iff] at hv
  unfold Pt at hu; unfold Proper at hx
  have e3 : (Operand.ident false id x).disc = false := rfl
  cases left <;> rcases hk with rfl | rfl | rfl <;>
    simp only [Bool.false_eq_true, if_false, if_true, CmpOp.eval, single, reduceCtorEq, CExpr.build, buildCmp] at h ⊢
  · have h1 : lt y.arg.lo x.hi = true := by grind
    refine ⟨.less (compareLt y.arg (.ivl x)) y (.ident false id x), _, by simp [condLt, opLt, a1, a2, pure, Except.pure]; rfl, ?_, rfl⟩
    rw [leaf_constrain (.less (compareLt y.arg (.ivl x)) y (.ident false id x)) rfl (Or.inr (self_match false id x)) (by simp only [Cond.truth, contains_lt, ivl_hi, if_true]; exact h1)]
    simp only [narrow, hn, Bool.false_eq_true, if_false, hyd, succStep, ok_bind]
    rw [h1, expectsDebug_true, ok_bind, make_of_le (by grind)]; simp
  · have h1 : lt x.lo y.arg.hi = true := by grind
    refine ⟨.less (compareLt (.ivl x) y.arg) (.ident false id x) y, _, by simp [condGt, opGt, a1, a2, pure, Except.pure]; rfl, ?_, rfl⟩
    rw [leaf_constrain (.less (compareLt (.ivl x) y.arg) (.ident false id x) y) rfl (Or.inl (self_match ..)) (by simp only [Cond.truth, contains_lt, ivl_lo, if_true]; exact h1)]
    simp only [narrow, self_match, if_true, hyd, predStep, Bool.false_eq_true, if_false, ok_bind]
    rw [h1, expectsDebug_true, ok_bind, make_of_le (by grind)]
  · have h1 : (ne y.arg.lo x.hi || ne y.arg.hi x.lo) = true := by grind
    refine ⟨.notEqual (compareNeq y.arg (.ivl x)) y (.ident false id x), _, by simp [condNe, opNe, a1, a2, pure, Except.pure]; rfl, ?_, rfl⟩
    rw [leaf_constrain (.notEqual (compareNeq y.arg (.ivl x)) y (.ident false id x)) rfl (Or.inr (self_match false id x)) (by simp only [Cond.truth, contains_neq, ivl_lo, ivl_hi, if_true]; exact h1)]
    simp only [narrow, self_lo, self_hi, Bool.false_and, Bool.false_eq_true, if_false]
    rw [h1, expectsDebug_true, ok_bind]; rfl
  · have h1 : lt x.lo y.arg.hi = true := by grind
    refine ⟨.less (compareLt (.ivl x) y.arg) (.ident false id x) y, _, by simp [condLt, opLt, a1, a2, pure, Except.pure]; rfl, ?_, rfl⟩
    rw [leaf_constrain (.less (compareLt (.ivl x) y.arg) (.ident false id x) y) rfl (Or.inl (self_match ..)) (by simp only [Cond.truth, contains_lt, ivl_lo, if_true]; exact h1)]
    simp only [narrow, self_match, if_true, hyd, predStep, Bool.false_eq_true, if_false, ok_bind]
    rw [h1, expectsDebug_true, ok_bind, make_of_le (by grind)]
  · have h1 : lt y.arg.lo x.hi = true := by grind
    refine ⟨.less (compareLt y.arg (.ivl x)) y (.ident false id x), _, by simp [condGt, opGt, a1, a2, pure, Except.pure]; rfl, ?_, rfl⟩
    rw [leaf_constrain (.less (compareLt y.arg (.ivl x)) y (.ident false id x)) rfl (Or.inr (self_match false id x)) (by simp only [Cond.truth, contains_lt, ivl_hi, if_true]; exact h1)]
    simp only [narrow, hn, Bool.false_eq_true, if_false, hyd, succStep, ok_bind]
    rw [h1, expectsDebug_true, ok_bind, make_of_le (by grind)]; simp
  · have h1 : (ne x.lo y.arg.hi || ne x.hi y.arg.lo) = true := by grind
    refine ⟨.notEqual (compareNeq (.ivl x) y.arg) (.ident false id x) y, _, by simp [condNe, opNe, a1, a2, pure, Except.pure]; rfl, ?_, rfl⟩
    rw [leaf_constrain (.notEqual (compareNeq (.ivl x) y.arg) (.ident false id x) y) rfl (Or.inl (self_match ..)) (by simp only [Cond.truth, contains_neq, ivl_lo, ivl_hi, if_true]; exact h1)]
    simp only [narrow, self_lo, self_hi, Bool.false_and, Bool.false_eq_true, if_false]
    rw [h1, expectsDebug_true, ok_bind]; rfl

/-- narrower operands give a narrower result -/
theorem single_mono {dbg d left : Bool} {id : Nat} {op : CmpOp} {x x' R' : Ivl T} {y y' : Operand T} {c' : Cond T} (hs : d = true → LawfulStep T)
    (hx' : Proper x') (hy' : ProperA y'.arg) (hx : Proper x) (hy : ProperA y.arg)
    (hn : y.matchesId d id = false) (hn' : y'.matchesId d id = false) (hd : y.disc = d) (hd' : y'.disc = d)
    (kx : le x.lo x'.lo = true ∧ le x'.hi x.hi = true) (ky : le y.arg.lo y'.arg.lo = true ∧ le y'.arg.hi y.arg.hi = true)
    (hb : (single op left d id x' y').build dbg = .ok c') (hR : constrain dbg d id x' c' = .ok R') :
    ∃ c R, (single op left d id x y).build dbg = .ok c ∧ constrain dbg d id x c = .ok R ∧ le R.lo R'.lo = true ∧ le R'.hi R.hi = true := by
  have hsat' := single_satisfiable hx' hy' hb hR
  have hsub : ∀ u, Satisfies op left x' y'.arg u → Satisfies op left x y.arg u := by
    rintro u ⟨h1, v, h2, h3⟩
    rw [ptA_iff] at h2
    refine ⟨⟨cle_trans kx.1 h1.1, cle_trans h1.2 kx.2⟩, v, ?_, h3⟩
    rw [ptA_iff]; exact ⟨cle_trans ky.1 h2.1, cle_trans h2.2 ky.2⟩
  have hsat : ∃ u, Satisfies op left x y.arg u := hsat'.imp hsub
  by_cases hk : (LawfulStep T ∧ d = true) ∨ op = .le ∨ op = .ge ∨ op = .eq
  · have hk1 : (LawfulStep T ∧ d = true ∧ y.disc = true) ∨ op = .le ∨ op = .ge ∨ op = .eq :=
      hk.imp_left (fun h => ⟨h.1, h.2, hd.trans h.2⟩)
    have hk2 : (LawfulStep T ∧ d = true ∧ y'.disc = true) ∨ op = .le ∨ op = .ge ∨ op = .eq :=
      hk.imp_left (fun h => ⟨h.1, h.2, hd'.trans h.2⟩)
    obtain ⟨c, R, g1, g2, g3⟩ := C20_tight_attained dbg d left id op x y hx hy hn hk1 hsat
    obtain ⟨c2, R2, f1, f2, f3⟩ := C20_tight_attained dbg d left id op x' y' hx' hy' hn' hk2 hsat'
    rw [hb] at f1; cases f1
    rw [hR] at f2; cases f2
    exact ⟨c, R, g1, g2, (g3.2.2 _ (hsub _ f3.1)).1, (g3.2.2 _ (hsub _ f3.2.1)).2⟩
  · have hdf : d = false := by
      cases d
      · rfl
      · exact absurd (Or.inl ⟨hs rfl, rfl⟩) hk
    subst hdf
    have hk' : op = .lt ∨ op = .gt ∨ op = .ne := by cases op <;> simp at hk ⊢
    obtain ⟨c, R, g1, g2, g3⟩ := single_continuous (dbg := dbg) hx hy hn hd hk' hsat
    obtain ⟨c2, R2, f1, f2, f3⟩ := single_continuous (dbg := dbg) hx' hy' hn' hd' hk' hsat'
    rw [hb] at f1; cases f1
    rw [hR] at f2; cases f2
    refine ⟨c, R, g1, g2, ?_⟩
    have hyy := properA_le hy
    have hyy' := properA_le hy'
    unfold Proper at hx hx'
    rw [g3, f3]
    rcases hk' with rfl | rfl | rfl <;> cases left <;> simp <;> grind

theorem simple_inst {d : Bool} {x : Nat} {op : CmpOp} {left : Bool} {y : PTerm T} {S : Nat → Ivl T} :
    PCond.inst d S (if left then .cmp op (.var x) y else .cmp op y (.var x)) = single op left d x (S x) (y.inst d S) := by
  cases left <;> rfl

theorem term_proper {d : Bool} {D : List Nat} {S : Nat → Ivl T} (hS : AllProper D S) {y : PTerm T} (h : y.ok D = true) : ProperA (y.inst d S).arg := by
  cases y with
  | var z => exact hS z (by simpa [PTerm.ok] using h)
  | lit v => exact h

theorem term_within {d : Bool} {D : List Nat} {S S' : Nat → Ivl T} (hw : Within D S' S) {y : PTerm T} (h : y.ok D = true) :
    le (y.inst d S).arg.lo (y.inst d S').arg.lo = true ∧ le (y.inst d S').arg.hi (y.inst d S).arg.hi = true := by
  cases y with
  | var z => exact hw z (by simpa [PTerm.ok] using h)
  | lit v => exact ⟨h, h⟩

theorem simple_ok {D : List Nat} {a : Narrowing T} {op : CmpOp} {left : Bool} {y : PTerm T} (ha : a.Ok D)
    (he : a.e = if left then .cmp op (.var a.x) y else .cmp op y (.var a.x)) : y.ok D = true := by
  have := ha.1
  rw [he] at this
  cases left <;> simp only [Bool.false_eq_true, if_false, if_true, PCond.ok, Bool.and_eq_true] at this
  · exact this.1
  · exact this.2

/-- a simple statement is monotone -/
theorem exec_mono {dbg d : Bool} {D : List Nat} {a : Narrowing T} {S S' F' : Nat → Ivl T} (hs : d = true → LawfulStep T) (hS : AllProper D S)
    (hS' : AllProper D S') (hw : Within D S' S) (ha : a.Ok D) (hsm : a.Simple) (h : a.exec dbg d S' = .ok F') :
    ∃ F, a.exec dbg d S = .ok F ∧ Within D F' F := by
  obtain ⟨c', R', hb, hR, rfl⟩ := exec_eq_ok.mp h
  obtain ⟨op, left, y, hy, he⟩ := hsm
  have hyo := simple_ok ha he
  have hax := ok_mem ha
  rw [he, simple_inst] at hb
  obtain ⟨c, R, g1, g2, g3⟩ := single_mono (y := y.inst d S) hs (hS' _ hax) (term_proper hS' hyo) (hS _ hax) (term_proper hS hyo)
    ((term_matches y).trans hy) ((term_matches y).trans hy) (term_disc y) (term_disc y) (hw _ hax) (term_within hw hyo) hb hR
  refine ⟨_, exec_eq_ok.mpr ⟨c, R, by rw [he, simple_inst]; exact g1, g2, rfl⟩, fun z hz => ?_⟩
  by_cases hzx : z = a.x
  · simp [upd, hzx, g3]
  · simpa [upd, hzx] using hw z hz

/-- a statement returns or violates a contract -/
theorem exec_no_ub {dbg d : Bool} {D : List Nat} {a : Narrowing T} {S : Nat → Ivl T} (hs : d = true → LawfulStep T) (hS : AllProper D S)
    (ha : a.Ok D) : (∃ S', a.exec dbg d S = .ok S') ∨ a.exec dbg d S = .error .contract := by
  have hp := inst_proper (d := d) hS ha.1
  obtain ⟨c, hb, _⟩ := build_wf (dbg := dbg) _ hp
  rcases C21_no_ub dbg d a.x (S a.x) _ c hs hp hb (sh_strict (sh_build hb)).seen with ⟨R, hR⟩ | h
  · exact Or.inl ⟨_, exec_eq_ok.mpr ⟨c, R, hb, hR, rfl⟩⟩
  · right; simp only [Narrowing.exec, hb, ok_bind, h]; rfl

end Intervals
