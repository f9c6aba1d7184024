import Verif.Lemmas.Algorithm
/-! Lemmas on constraining by a partition. -/
set_option linter.unusedSectionVars false
namespace Intervals
open CppVal Spec
section
variable {T : Type _} [CppVal T] [CppOrder T] [CppStep T]

theorem constrain_less_right {dbg d : Bool} (id : Nat) {x : Ivl T} {s : BoolSet} {e : T} (hs : d = true → LawfulStep T) (hx : Proper x)
    (hc : BoolSet.contains s true = true) (h : lt e x.hi = true) :
    ∃ p, succStep d e = .ok p ∧ constrain dbg d id x (.less s (.scalar d e) (.ident d id x)) = .ok ⟨cmax p x.lo, x.hi⟩ := by
  obtain ⟨p, h1, h2, h3, _⟩ := succStep_spec hs h
  refine ⟨p, h1, ?_⟩
  have hm : Ivl.make (cmax p x.lo) x.hi = .ok ⟨cmax p x.lo, x.hi⟩ := make_of_le (by unfold Proper at hx; grind)
  simp [constrain, detailConstrain, Operand.matchesId, hc, Operand.arg, Operand.disc, Arg.lo, h, h1, hm, pure, Except.pure]
theorem constrain_leq_left {dbg d dE : Bool} (id : Nat) {x : Ivl T} {s : BoolSet} {e : T} (hx : Proper x)
    (hc : BoolSet.contains s true = true) (h : le x.lo e = true) :
    constrain dbg d id x (.leq s (.ident d id x) (.scalar dE e)) = .ok ⟨x.lo, cmin x.hi e⟩ := by
  have hm : Ivl.make x.lo (cmin x.hi e) = .ok ⟨x.lo, cmin x.hi e⟩ := make_of_le (by unfold Proper at hx; grind)
  simp [constrain, detailConstrain, Operand.matchesId, hc, Operand.arg, Arg.hi, h, hm, pure, Except.pure]
theorem constrain_leq_right {dbg d dE : Bool} (id : Nat) {x : Ivl T} {s : BoolSet} {e : T} (hx : Proper x)
    (hc : BoolSet.contains s true = true) (h : le e x.hi = true) :
    constrain dbg d id x (.leq s (.scalar dE e) (.ident d id x)) = .ok ⟨cmax e x.lo, x.hi⟩ := by
  have hm : Ivl.make (cmax e x.lo) x.hi = .ok ⟨cmax e x.lo, x.hi⟩ := make_of_le (by unfold Proper at hx; grind)
  simp [constrain, detailConstrain, Operand.matchesId, hc, Operand.arg, Arg.lo, h, hm, pure, Except.pure]
theorem constrain_less_left {dbg d : Bool} (id : Nat) {x : Ivl T} {s : BoolSet} {e : T} (hs : d = true → LawfulStep T) (hx : Proper x)
    (hc : BoolSet.contains s true = true) (h : lt x.lo e = true) :
    ∃ p, predStep d e = .ok p ∧ constrain dbg d id x (.less s (.ident d id x) (.scalar d e)) = .ok ⟨x.lo, cmin x.hi p⟩ := by
  obtain ⟨p, h1, h2, h3, _⟩ := predStep_spec hs h
  refine ⟨p, h1, ?_⟩
  have hm : Ivl.make x.lo (cmin x.hi p) = .ok ⟨x.lo, cmin x.hi p⟩ := make_of_le (by unfold Proper at hx; grind)
  simp [constrain, detailConstrain, Operand.matchesId, hc, Operand.arg, Operand.disc, Arg.hi, h, h1, hm, pure, Except.pure]

/-- What constraining `x` by the predicate (`sat e v`: it holds for the element `e` and the value `v`) does. -/
structure PredSpec (dbg d : Bool) (id : Nat) (x : Ivl T) (pred : T → Outcome (Cond T)) (sat : T → T → Bool) : Prop where
  lo_ok : ∀ e, NotNan e → sat e x.hi = true → ∃ s, (pred e >>= fun c => constrain dbg d id x c) = .ok ⟨s, x.hi⟩ ∧
    le x.lo s = true ∧ le s x.hi = true ∧ le e s = true ∧ (∀ v, sat e v = true → le s (cmax v x.lo) = true) ∧
    (d = true → sat e s = true) ∧ (d = false → le s (cmax e x.lo) = true)
  lo_err : ∀ e, NotNan e → sat e x.hi = false → (pred e >>= fun c => constrain dbg d id x c) = .error .contract
  hi_ok : ∀ e, NotNan e → sat e x.lo = false → ∃ t, (pred e >>= fun c => Cond.mkNot dbg c >>= fun c' => constrain dbg d id x c') = .ok ⟨x.lo, t⟩ ∧
    le x.lo t = true ∧ le t x.hi = true ∧ le t e = true ∧ (∀ v, NotNan v → sat e v = false → le (cmin v x.hi) t = true) ∧
    (d = true → sat e t = false) ∧ (d = false → le (cmin e x.hi) t = true)
  hi_err : ∀ e, NotNan e → sat e x.lo = true → (pred e >>= fun c => Cond.mkNot dbg c >>= fun c' => constrain dbg d id x c') = .error .contract

theorem predSpec_lower (dbg d : Bool) (id : Nat) (x : Ivl T) (hs : d = true → LawfulStep T) (hx : Proper x) :
    PredSpec dbg d id x (lowerPredI dbg d (.ident d id x)) (fun e v => lt e v) where
  lo_ok e he h := by
    obtain ⟨p, h1, h2⟩ := constrain_less_right (dbg := dbg) id (s := compareLt (.scalar e) (.ivl x)) hs hx (by rw [contains_lt]; exact h) h
    obtain ⟨p', g1, g2, g3, g4, g5, g6⟩ := succStep_spec hs h
    rw [h1] at g1; cases g1
    rw [lowerPredI_ok dbg d (.ident d id x) hx e he]
    refine ⟨cmax p x.lo, h2, ?_, ?_, ?_, ?_, ?_, ?_⟩
    · unfold Proper at hx; grind
    · unfold Proper at hx; grind
    · unfold Proper at hx; grind
    · intro v hv; unfold Proper at hx; have := g4 v hv; grind
    · intro hd; have := g5 hd; unfold Proper at hx; grind
    · intro hd; have := g6 hd; unfold Proper NotNan at *; grind
  lo_err e he h := by
    rw [lowerPredI_ok dbg d (.ident d id x) hx e he]
    have hc : BoolSet.contains (compareLt (.scalar e) (.ivl x)) true = false := by rw [contains_lt]; exact h
    simp [constrain, detailConstrain, Operand.matchesId, Operand.arg, hc]
  hi_ok e he h := by
    have hle : le x.lo e = true := by unfold Proper NotNan at *; grind
    have hn := compareLt_ne (.scalar e) (.ivl x) he hx
    rw [lowerPredI_ok dbg d (.ident d id x) hx e he]
    simp only [ok_bind, Cond.mkNot, Operand.arg, notM_ok hn, pure, Except.pure]
    rw [constrain_leq_left id hx (by rw [contains_not, contains_lt]; exact hle) hle]
    refine ⟨_, rfl, ?_, ?_, ?_, ?_, ?_, ?_⟩
    · unfold Proper at hx; grind
    · unfold Proper at hx; grind
    · unfold Proper at hx; grind
    · intro v hv h'; unfold Proper NotNan at *; grind
    · intro hd; unfold Proper NotNan at *; grind
    · intro hd; unfold Proper NotNan at *; grind
  hi_err e he h := by
    have hn := compareLt_ne (.scalar e) (.ivl x) he hx
    rw [lowerPredI_ok dbg d (.ident d id x) hx e he]
    have hc : BoolSet.contains (BoolSet.notCore (compareLt (.scalar e) (.ivl x))) true = false := by
      rw [contains_not, contains_lt]; simp [Arg.lo, Arg.hi]; grind
    simp [constrain, detailConstrain, Operand.matchesId, Operand.arg, hc, Cond.mkNot, notM_ok hn, pure, Except.pure]

theorem predSpec_upper (dbg d : Bool) (id : Nat) (x : Ivl T) (hs : d = true → LawfulStep T) (hx : Proper x) :
    PredSpec dbg d id x (upperPredI dbg d (.ident d id x)) (fun e v => le e v) where
  lo_ok e he h := by
    rw [upperPredI_ok dbg d (.ident d id x) hx e he]
    simp only [ok_bind, Operand.arg]
    rw [constrain_leq_right id hx (by rw [contains_not, contains_lt]; exact h) h]
    refine ⟨_, rfl, ?_, ?_, ?_, ?_, ?_, ?_⟩
    · unfold Proper NotNan at *; grind
    · unfold Proper NotNan at *; grind
    · unfold Proper NotNan at *; grind
    · intro v hv; unfold Proper NotNan at *; grind
    · intro hd; unfold Proper NotNan at *; grind
    · intro hd; unfold Proper NotNan at *; grind
  lo_err e he h := by
    rw [upperPredI_ok dbg d (.ident d id x) hx e he]
    have hc : BoolSet.contains (BoolSet.notCore (compareLt (.ivl x) (.scalar e))) true = false := by
      rw [contains_not, contains_lt]; exact h
    simp [constrain, detailConstrain, Operand.matchesId, Operand.arg, hc]
  hi_ok e he h := by
    have hlt : lt x.lo e = true := by unfold Proper NotNan at *; grind
    have hn := not_ne_empty (compareLt_ne (.ivl x) (.scalar e) hx he)
    obtain ⟨p, h1, h2⟩ := constrain_less_left (dbg := dbg) id (s := BoolSet.notCore (BoolSet.notCore (compareLt (.ivl x) (.scalar e)))) hs hx
      (by rw [not_not_core, contains_lt]; exact hlt) hlt
    obtain ⟨p', g1, g2, g3, g4, g5, g6⟩ := predStep_spec hs hlt
    rw [h1] at g1; cases g1
    rw [upperPredI_ok dbg d (.ident d id x) hx e he]
    simp only [ok_bind, Cond.mkNot, Operand.arg, notM_ok hn, pure, Except.pure]
    refine ⟨_, h2, ?_, ?_, ?_, ?_, ?_, ?_⟩
    · unfold Proper at hx; grind
    · unfold Proper at hx; grind
    · unfold Proper at hx; grind
    · intro v hv h'
      have := g4 v (by unfold NotNan at *; grind)
      unfold Proper NotNan at *; grind
    · intro hd; have := g5 hd; unfold Proper NotNan at *; grind
    · intro hd; have := g6 hd; unfold Proper NotNan at *; grind
  hi_err e he h := by
    have hn := not_ne_empty (compareLt_ne (.ivl x) (.scalar e) hx he)
    rw [upperPredI_ok dbg d (.ident d id x) hx e he]
    have hc : BoolSet.contains (BoolSet.notCore (BoolSet.notCore (compareLt (.ivl x) (.scalar e)))) true = false := by
      rw [not_not_core, contains_lt]; simp [Arg.lo, Arg.hi]; grind
    simp [constrain, detailConstrain, Operand.matchesId, Operand.arg, hc, Cond.mkNot, notM_ok hn, pure, Except.pure]

theorem rangeAt_ok {V : Type _} {a : List V} {i : Int} (h0 : 0 ≤ i) (h1 : i < a.length) :
    ∃ v, rangeAt a i = .ok v ∧ a[i.toNat]? = some v := by
  have hi : i.toNat < a.length := by omega
  refine ⟨a[i.toNat], ?_, List.getElem?_eq_getElem hi⟩
  unfold rangeAt
  rw [if_neg (by omega), List.getElem?_eq_getElem hi]

/-- the two halves of the constraint, and what the result is made of -/
theorem constrainPart_cases {dbg d : Bool} {id : Nat} {x : Ivl T} {a : List T} {pred : T → Outcome (Cond T)} {sat : T → T → Bool}
    (ps : PredSpec dbg d id x pred sat) (hx : Proper x) (ha : ∀ e ∈ a, NotNan e) (hne : a ≠ []) (J : Arg Index) (h0 : 0 ≤ J.lo.val)
    (h1 : J.hi.val ≤ a.length) (hlh : J.lo.val ≤ J.hi.val) :
    (constrainPart dbg d id x a pred J = .error .contract ∧
      ((∃ e, 0 < J.lo.val ∧ a[(J.lo.val - 1).toNat]? = some e ∧ sat e x.hi = false) ∨
       (∃ e, J.hi.val < a.length ∧ a[J.hi.val.toNat]? = some e ∧ sat e x.lo = true))) ∨
    ∃ s t, constrainPart dbg d id x a pred J = (do expectsDebug dbg (ge x.hi x.lo && le s t); Ivl.make (cmax s x.lo) (cmin x.hi t)) ∧
      le x.lo s = true ∧ le s x.hi = true ∧ le x.lo t = true ∧ le t x.hi = true ∧
      ((J.lo.val ≤ 0 ∧ s = x.lo) ∨ ∃ e, 0 < J.lo.val ∧ a[(J.lo.val - 1).toNat]? = some e ∧ sat e x.hi = true ∧ le e s = true ∧
        (∀ v, sat e v = true → le s (cmax v x.lo) = true) ∧ (d = true → sat e s = true) ∧ (d = false → le s (cmax e x.lo) = true)) ∧
      (((a.length : Int) ≤ J.hi.val ∧ t = x.hi) ∨ ∃ e, J.hi.val < a.length ∧ a[J.hi.val.toNat]? = some e ∧ sat e x.lo = false ∧ le t e = true ∧
        (∀ v, NotNan v → sat e v = false → le (cmin v x.hi) t = true) ∧ (d = true → sat e t = false) ∧
        (d = false → le (cmin e x.hi) t = true)) := by
  have hx' : le x.lo x.hi = true := hx
  have hemp : a.isEmpty = false := by cases a <;> simp_all
  -- lower half
  have lower : ∀ k : Ivl T → Outcome (Ivl T), ((if 0 < J.lo.val then (rangeAt a (J.lo.val - 1) >>= fun e => pred e >>= fun c => constrain dbg d id x c)
        else pure x) >>= k) = .error .contract ∧ (∃ e, 0 < J.lo.val ∧ a[(J.lo.val - 1).toNat]? = some e ∧ sat e x.hi = false) ∨
      ∃ s, ((if 0 < J.lo.val then (rangeAt a (J.lo.val - 1) >>= fun e => pred e >>= fun c => constrain dbg d id x c) else pure x) >>= k) =
        k ⟨s, x.hi⟩ ∧ le x.lo s = true ∧ le s x.hi = true ∧
        ((J.lo.val ≤ 0 ∧ s = x.lo) ∨ ∃ e, 0 < J.lo.val ∧ a[(J.lo.val - 1).toNat]? = some e ∧ sat e x.hi = true ∧ le e s = true ∧
          (∀ v, sat e v = true → le s (cmax v x.lo) = true) ∧ (d = true → sat e s = true) ∧ (d = false → le s (cmax e x.lo) = true)) := by
    intro k
    by_cases hj : 0 < J.lo.val
    · obtain ⟨e, he, he'⟩ := rangeAt_ok (a := a) (i := J.lo.val - 1) (by omega) (by omega)
      have hn := ha e (List.mem_of_getElem? he')
      rw [if_pos hj, he, ok_bind]
      cases hsat : sat e x.hi with
      | false => exact .inl ⟨by rw [ps.lo_err e hn hsat]; rfl, e, hj, he', hsat⟩
      | true =>
        obtain ⟨s, g1, g2, g3, g4, g5, g6, g7⟩ := ps.lo_ok e hn hsat
        exact .inr ⟨s, by rw [g1]; rfl, g2, g3, .inr ⟨e, hj, he', hsat, g4, g5, g6, g7⟩⟩
    · rw [if_neg hj]
      exact .inr ⟨x.lo, rfl, by grind, by grind, .inl ⟨by omega, rfl⟩⟩
  have upper : ∀ k : Ivl T → Outcome (Ivl T), ((if J.hi.val < a.length then (rangeAt a J.hi.val >>= fun e => pred e >>= fun c => Cond.mkNot dbg c >>= fun c' => constrain dbg d id x c')
        else pure x) >>= k) = .error .contract ∧ (∃ e, J.hi.val < a.length ∧ a[J.hi.val.toNat]? = some e ∧ sat e x.lo = true) ∨
      ∃ t, ((if J.hi.val < a.length then (rangeAt a J.hi.val >>= fun e => pred e >>= fun c => Cond.mkNot dbg c >>= fun c' => constrain dbg d id x c') else pure x) >>= k) =
        k ⟨x.lo, t⟩ ∧ le x.lo t = true ∧ le t x.hi = true ∧
        (((a.length : Int) ≤ J.hi.val ∧ t = x.hi) ∨ ∃ e, J.hi.val < a.length ∧ a[J.hi.val.toNat]? = some e ∧ sat e x.lo = false ∧ le t e = true ∧
          (∀ v, NotNan v → sat e v = false → le (cmin v x.hi) t = true) ∧ (d = true → sat e t = false) ∧
          (d = false → le (cmin e x.hi) t = true)) := by
    intro k
    by_cases hj : J.hi.val < a.length
    · obtain ⟨e, he, he'⟩ := rangeAt_ok (a := a) (i := J.hi.val) (by omega) (by omega)
      have hn := ha e (List.mem_of_getElem? he')
      rw [if_pos hj, he, ok_bind]
      cases hsat : sat e x.lo with
      | true => exact .inl ⟨by rw [ps.hi_err e hn hsat]; rfl, e, hj, he', hsat⟩
      | false =>
        obtain ⟨t, g1, g2, g3, g4, g5, g6, g7⟩ := ps.hi_ok e hn hsat
        exact .inr ⟨t, by rw [g1]; rfl, g2, g3, .inr ⟨e, hj, he', hsat, g4, g5, g6, g7⟩⟩
    · rw [if_neg hj]
      exact .inr ⟨x.hi, rfl, by grind, by grind, .inl ⟨by omega, rfl⟩⟩
  have unf : constrainPart dbg d id x a pred J =
      ((if 0 < J.lo.val then (rangeAt a (J.lo.val - 1) >>= fun e => pred e >>= fun c => constrain dbg d id x c) else pure x) >>= fun xlo =>
       (if J.hi.val < a.length then (rangeAt a J.hi.val >>= fun e => pred e >>= fun c => Cond.mkNot dbg c >>= fun c' => constrain dbg d id x c') else pure x) >>= fun xhi =>
       expectsDebug dbg (ge xlo.hi xhi.lo && le xlo.lo xhi.hi) >>= fun _ => Ivl.make (cmax xlo.lo xhi.lo) (cmin xlo.hi xhi.hi)) := by
    unfold constrainPart
    rw [hemp]
    by_cases c1 : 0 < J.lo.val <;> by_cases c2 : J.hi.val < (a.length : Int) <;>
      simp only [c1, c2, if_true, if_false, Bool.false_eq_true, bind_assoc]
  rw [unf]
  rcases lower _ with ⟨g, hg⟩ | ⟨s, g, g1, g2, g3⟩
  · exact .inl ⟨g, .inl hg⟩
  · rw [g]
    rcases upper _ with ⟨g', hg⟩ | ⟨t, g', g4, g5, g6⟩
    · exact .inl ⟨g', .inr hg⟩
    · rw [g']
      exact .inr ⟨s, t, rfl, g1, g2, g4, g5, g3, g6⟩
end
end Intervals
