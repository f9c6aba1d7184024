import Verif.Lemmas.Constraint
/-! Tightness of `constrain` for a single comparison. -/
set_option linter.unusedSectionVars false
namespace Intervals
open Intervals.Spec CppVal
variable {T : Type _} [CppVal T] [CppOrder T] [CppStep T]

theorem leaf_constrain {dbg d : Bool} {id : Nat} {x : Ivl T} (c : Cond T) (hc : c.isLeaf = true) (hm : Mentions d id c)
    (ht : BoolSet.contains c.truth true = true) : constrain dbg d id x c = narrow dbg d id x c := by
  simp only [constrain, leaf_eq hc, hm, ht, if_true]
  cases narrow dbg d id x c <;> simp [pure, Except.pure]

theorem self_match (d : Bool) (id : Nat) (x : Ivl T) : (Operand.ident d id x).matchesId d id = true := by
  simp [Operand.matchesId]
theorem self_lo (d : Bool) (id : Nat) (x : Ivl T) : (Operand.ident d id x).arg.lo = x.lo := rfl
theorem self_hi (d : Bool) (id : Nat) (x : Ivl T) : (Operand.ident d id x).arg.hi = x.hi := rfl
theorem ivl_lo (x : Ivl T) : (Arg.ivl x).lo = x.lo := rfl
theorem ivl_hi (x : Ivl T) : (Arg.ivl x).hi = x.hi := rfl
theorem self_disc (d : Bool) (id : Nat) (x : Ivl T) : (Operand.ident d id x).disc = d := rfl

section
variable {dbg d : Bool} {id : Nat} {x : Ivl T} {y : Operand T} (hx : Proper x) (hy : ProperA y.arg)
  (hn : y.matchesId d id = false)
include hx hy hn

theorem tight_leq_left (s) (hs : s = compareLeq (.ivl x) y.arg) (hsat : ∃ u, u ∈ᵢ x ∧ ∃ v, v ∈ₐ y.arg ∧ le u v = true) :
    ∃ R, constrain dbg d id x (.leq s (.ident d id x) y) = .ok R ∧
      AttainedBounds (fun u => u ∈ᵢ x ∧ ∃ v, v ∈ₐ y.arg ∧ le u v = true) R := by
  have hyy := properA_le hy
  obtain ⟨u, hu, v, hv, h⟩ := hsat
  rw [ptA_iff] at hv
  unfold Pt at hu; unfold Proper at hx
  have ht : BoolSet.contains s true = true := by rw [hs, contains_leq]; simp only [ivl_lo]; grind
  rw [leaf_constrain (.leq s (.ident d id x) y) rfl (Or.inl (self_match ..)) ht]
  simp only [narrow, self_match, if_true]
  have h1 : le x.lo y.arg.hi = true := by grind
  rw [h1, expectsDebug_true, ok_bind, make_of_le (by grind)]
  refine ⟨_, rfl, ⟨?_, y.arg.hi, ?_, ?_⟩, ⟨?_, y.arg.hi, ?_, ?_⟩, ?_⟩
  all_goals try rw [ptA_iff]
  all_goals try unfold Pt
  all_goals try simp only
  any_goals grind
  rintro u ⟨hu, v, hv, h⟩
  rw [ptA_iff] at hv
  grind

theorem tight_leq_right (s) (hs : s = compareLeq y.arg (.ivl x)) (hsat : ∃ u, u ∈ᵢ x ∧ ∃ v, v ∈ₐ y.arg ∧ le v u = true) :
    ∃ R, constrain dbg d id x (.leq s y (.ident d id x)) = .ok R ∧
      AttainedBounds (fun u => u ∈ᵢ x ∧ ∃ v, v ∈ₐ y.arg ∧ le v u = true) R := by
  have hyy := properA_le hy
  obtain ⟨u, hu, v, hv, h⟩ := hsat
  rw [ptA_iff] at hv
  unfold Pt at hu; unfold Proper at hx
  have ht : BoolSet.contains s true = true := by rw [hs, contains_leq]; simp only [ivl_hi]; grind
  rw [leaf_constrain (.leq s y (.ident d id x)) rfl (Or.inr (self_match ..)) ht]
  simp only [narrow, hn, Bool.false_eq_true, if_false]
  have h1 : le y.arg.lo x.hi = true := by grind
  rw [h1, expectsDebug_true, ok_bind, make_of_le (by grind)]
  refine ⟨_, rfl, ⟨?_, y.arg.lo, ?_, ?_⟩, ⟨?_, y.arg.lo, ?_, ?_⟩, ?_⟩
  all_goals try rw [ptA_iff]
  all_goals try unfold Pt
  all_goals try simp only
  any_goals grind
  rintro u ⟨hu, v, hv, h⟩
  rw [ptA_iff] at hv
  grind

theorem tight_eq_left (s) (hs : s = compareEq (.ivl x) y.arg) (hsat : ∃ u, u ∈ᵢ x ∧ ∃ v, v ∈ₐ y.arg ∧ eq u v = true) :
    ∃ R, constrain dbg d id x (.equal s (.ident d id x) y) = .ok R ∧
      AttainedBounds (fun u => u ∈ᵢ x ∧ ∃ v, v ∈ₐ y.arg ∧ eq u v = true) R := by
  have hyy := properA_le hy
  obtain ⟨u, hu, v, hv, h⟩ := hsat
  rw [ptA_iff] at hv
  unfold Pt at hu; unfold Proper at hx
  have ht : BoolSet.contains s true = true := by rw [hs, contains_eq]; simp only [ivl_lo, ivl_hi]; grind
  rw [leaf_constrain (.equal s (.ident d id x) y) rfl (Or.inl (self_match ..)) ht]
  simp only [narrow, self_lo, self_hi]
  have h1 : (ge y.arg.hi x.lo && le y.arg.lo x.hi) = true := by grind
  rw [h1, expectsDebug_true, ok_bind, make_of_le (by grind)]
  refine ⟨_, rfl, ⟨?_, cmax x.lo y.arg.lo, ?_, ?_⟩, ⟨?_, cmin x.hi y.arg.hi, ?_, ?_⟩, ?_⟩
  all_goals try rw [ptA_iff]
  all_goals try unfold Pt
  all_goals try simp only
  any_goals grind
  rintro u ⟨hu, v, hv, h⟩
  rw [ptA_iff] at hv
  grind

theorem tight_eq_right (s) (hs : s = compareEq y.arg (.ivl x)) (hsat : ∃ u, u ∈ᵢ x ∧ ∃ v, v ∈ₐ y.arg ∧ eq v u = true) :
    ∃ R, constrain dbg d id x (.equal s y (.ident d id x)) = .ok R ∧
      AttainedBounds (fun u => u ∈ᵢ x ∧ ∃ v, v ∈ₐ y.arg ∧ eq v u = true) R := by
  have hyy := properA_le hy
  obtain ⟨u, hu, v, hv, h⟩ := hsat
  rw [ptA_iff] at hv
  unfold Pt at hu; unfold Proper at hx
  have ht : BoolSet.contains s true = true := by rw [hs, contains_eq]; simp only [ivl_lo, ivl_hi]; grind
  rw [leaf_constrain (.equal s y (.ident d id x)) rfl (Or.inr (self_match ..)) ht]
  simp only [narrow, self_lo, self_hi]
  have h1 : (ge x.hi y.arg.lo && le x.lo y.arg.hi) = true := by grind
  rw [h1, expectsDebug_true, ok_bind, make_of_le (by grind)]
  refine ⟨_, rfl, ⟨?_, cmax y.arg.lo x.lo, ?_, ?_⟩, ⟨?_, cmin y.arg.hi x.hi, ?_, ?_⟩, ?_⟩
  all_goals try rw [ptA_iff]
  all_goals try unfold Pt
  all_goals try simp only
  any_goals grind
  rintro u ⟨hu, v, hv, h⟩
  rw [ptA_iff] at hv
  grind

theorem tight_lt_left (hs : LawfulStep T) (hyd : y.disc = true) (s) (hs' : s = compareLt (.ivl x) y.arg)
    (hsat : ∃ u, u ∈ᵢ x ∧ ∃ v, v ∈ₐ y.arg ∧ lt u v = true) :
    ∃ R, constrain dbg d id x (.less s (.ident d id x) y) = .ok R ∧
      AttainedBounds (fun u => u ∈ᵢ x ∧ ∃ v, v ∈ₐ y.arg ∧ lt u v = true) R := by
  have hyy := properA_le hy
  obtain ⟨u, hu, v, hv, h⟩ := hsat
  rw [ptA_iff] at hv
  unfold Pt at hu; unfold Proper at hx
  have ht : BoolSet.contains s true = true := by rw [hs', contains_lt]; simp only [ivl_lo]; grind
  rw [leaf_constrain (.less s (.ident d id x) y) rfl (Or.inl (self_match ..)) ht]
  have h1 : lt x.lo y.arg.hi = true := by grind
  obtain ⟨p, e1, e2, e3, e4, e5, _⟩ := predStep_spec (d := true) (fun _ => hs) h1
  have e5 := e5 rfl
  simp only [narrow, self_match, if_true, hyd, e1, ok_bind]
  rw [h1, expectsDebug_true, ok_bind, make_of_le (by grind)]
  refine ⟨_, rfl, ⟨?_, y.arg.hi, ?_, ?_⟩, ⟨?_, y.arg.hi, ?_, ?_⟩, ?_⟩
  all_goals try rw [ptA_iff]
  all_goals try unfold Pt
  all_goals try simp only
  any_goals grind
  rintro u ⟨hu, v, hv, h⟩
  rw [ptA_iff] at hv
  have := e4 u
  grind

theorem tight_lt_right (hs : LawfulStep T) (hyd : y.disc = true) (s) (hs' : s = compareLt y.arg (.ivl x))
    (hsat : ∃ u, u ∈ᵢ x ∧ ∃ v, v ∈ₐ y.arg ∧ lt v u = true) :
    ∃ R, constrain dbg d id x (.less s y (.ident d id x)) = .ok R ∧
      AttainedBounds (fun u => u ∈ᵢ x ∧ ∃ v, v ∈ₐ y.arg ∧ lt v u = true) R := by
  have hyy := properA_le hy
  obtain ⟨u, hu, v, hv, h⟩ := hsat
  rw [ptA_iff] at hv
  unfold Pt at hu; unfold Proper at hx
  have ht : BoolSet.contains s true = true := by rw [hs', contains_lt]; simp only [ivl_hi]; grind
  rw [leaf_constrain (.less s y (.ident d id x)) rfl (Or.inr (self_match ..)) ht]
  have h1 : lt y.arg.lo x.hi = true := by grind
  obtain ⟨p, e1, e2, e3, e4, e5, _⟩ := succStep_spec (d := true) (fun _ => hs) h1
  have e5 := e5 rfl
  simp only [narrow, hn, Bool.false_eq_true, if_false, hyd, e1, ok_bind]
  rw [h1, expectsDebug_true, ok_bind, make_of_le (by grind)]
  refine ⟨_, rfl, ⟨?_, y.arg.lo, ?_, ?_⟩, ⟨?_, y.arg.lo, ?_, ?_⟩, ?_⟩
  all_goals try rw [ptA_iff]
  all_goals try unfold Pt
  all_goals try simp only
  any_goals grind
  rintro u ⟨hu, v, hv, h⟩
  rw [ptA_iff] at hv
  have := e4 u
  grind

theorem dense_lt_left (hden : DenseVal T) (hyd : y.disc = false) (s) (hs' : s = compareLt (.ivl x) y.arg)
    (hsat : ∃ u, u ∈ᵢ x ∧ ∃ v, v ∈ₐ y.arg ∧ lt u v = true) :
    ∃ R, constrain dbg d id x (.less s (.ident d id x) y) = .ok R ∧
      LimitBounds (fun u => u ∈ᵢ x ∧ ∃ v, v ∈ₐ y.arg ∧ lt u v = true) R := by
  have hyy := properA_le hy
  obtain ⟨u, hu, v, hv, h⟩ := hsat
  rw [ptA_iff] at hv
  unfold Pt at hu; unfold Proper at hx
  have ht : BoolSet.contains s true = true := by rw [hs', contains_lt]; simp only [ivl_lo]; grind
  rw [leaf_constrain (.less s (.ident d id x) y) rfl (Or.inl (self_match ..)) ht]
  have h1 : lt x.lo y.arg.hi = true := by grind
  simp only [narrow, self_match, if_true, hyd, predStep, Bool.false_eq_true, if_false, ok_bind]
  rw [h1, expectsDebug_true, ok_bind, make_of_le (by grind)]
  refine ⟨_, rfl, ?_, ?_, ?_⟩
  · rintro u ⟨hu, v, hv, h⟩
    rw [ptA_iff] at hv
    unfold Pt at *
    simp only
    grind
  · intro w hw
    simp only at hw
    refine ⟨x.lo, ⟨?_, y.arg.hi, ?_, h1⟩, hw⟩
    · unfold Pt; grind
    · rw [ptA_iff]; grind
  · intro w hw
    simp only at hw
    by_cases hc : lt (cmax w x.lo) (cmin x.hi y.arg.hi) = true
    · obtain ⟨c, hc1, hc2⟩ := hden _ _ hc
      refine ⟨c, ⟨?_, y.arg.hi, ?_, ?_⟩, ?_⟩
      · unfold Pt; grind
      · rw [ptA_iff]; grind
      · grind
      · grind
    · refine ⟨x.lo, ⟨?_, y.arg.hi, ?_, h1⟩, ?_⟩
      · unfold Pt; grind
      · rw [ptA_iff]; grind
      · grind

theorem dense_lt_right (hden : DenseVal T) (hyd : y.disc = false) (s) (hs' : s = compareLt y.arg (.ivl x))
    (hsat : ∃ u, u ∈ᵢ x ∧ ∃ v, v ∈ₐ y.arg ∧ lt v u = true) :
    ∃ R, constrain dbg d id x (.less s y (.ident d id x)) = .ok R ∧
      LimitBounds (fun u => u ∈ᵢ x ∧ ∃ v, v ∈ₐ y.arg ∧ lt v u = true) R := by
  have hyy := properA_le hy
  obtain ⟨u, hu, v, hv, h⟩ := hsat
  rw [ptA_iff] at hv
  unfold Pt at hu; unfold Proper at hx
  have ht : BoolSet.contains s true = true := by rw [hs', contains_lt]; simp only [ivl_hi]; grind
  rw [leaf_constrain (.less s y (.ident d id x)) rfl (Or.inr (self_match ..)) ht]
  have h1 : lt y.arg.lo x.hi = true := by grind
  simp only [narrow, hn, hyd, succStep, Bool.false_eq_true, if_false, ok_bind]
  rw [h1, expectsDebug_true, ok_bind, make_of_le (by grind)]
  refine ⟨_, rfl, ?_, ?_, ?_⟩
  · rintro u ⟨hu, v, hv, h⟩
    rw [ptA_iff] at hv
    unfold Pt at *
    simp only
    grind
  · intro w hw
    simp only at hw
    by_cases hc : lt (cmax y.arg.lo x.lo) (cmin w x.hi) = true
    · obtain ⟨c, hc1, hc2⟩ := hden _ _ hc
      refine ⟨c, ⟨?_, y.arg.lo, ?_, ?_⟩, ?_⟩
      · unfold Pt; grind
      · rw [ptA_iff]; grind
      · grind
      · grind
    · refine ⟨x.hi, ⟨?_, y.arg.lo, ?_, h1⟩, ?_⟩
      · unfold Pt; grind
      · rw [ptA_iff]; grind
      · grind
  · intro w hw
    simp only at hw
    refine ⟨x.hi, ⟨?_, y.arg.lo, ?_, h1⟩, hw⟩
    · unfold Pt; grind
    · rw [ptA_iff]; grind


theorem ne_pick_left {w : T} (_hw : le w w = true) (h : eq w y.arg.lo = false ∨ eq w y.arg.hi = false) :
    ∃ v, v ∈ₐ y.arg ∧ ne w v = true := by
  have hyy := properA_le hy
  rcases h with h | h
  · exact ⟨y.arg.lo, by rw [ptA_iff]; grind, by grind⟩
  · exact ⟨y.arg.hi, by rw [ptA_iff]; grind, by grind⟩

theorem tight_ne_left (hs : LawfulStep T) (hd : d = true) (s) (hs' : s = compareNeq (.ivl x) y.arg)
    (hsat : ∃ u, u ∈ᵢ x ∧ ∃ v, v ∈ₐ y.arg ∧ ne u v = true) :
    ∃ R, constrain dbg d id x (.notEqual s (.ident d id x) y) = .ok R ∧
      AttainedBounds (fun u => u ∈ᵢ x ∧ ∃ v, v ∈ₐ y.arg ∧ ne u v = true) R := by
  have hyy := properA_le hy
  obtain ⟨u, hu, v, hv, h⟩ := hsat
  rw [ptA_iff] at hv
  unfold Pt at hu; unfold Proper at hx
  have h1 : (ne x.lo y.arg.hi || ne x.hi y.arg.lo) = true := by grind
  have ht : BoolSet.contains s true = true := by rw [hs', contains_neq]; simp only [ivl_lo, ivl_hi, if_true]; grind
  rw [leaf_constrain (.notEqual s (.ident d id x) y) rfl (Or.inl (self_match ..)) ht]
  subst hd
  simp only [narrow, self_lo, self_hi, hn, self_match, self_disc, Bool.true_and, Bool.false_and, Bool.false_eq_true, if_false]
  rw [h1, expectsDebug_true, ok_bind]
  have hin : ∀ R : Ivl T, (∀ w, le x.lo w = true → le w x.hi = true → (eq w y.arg.lo = false ∨ eq w y.arg.hi = false) → w ∈ᵢ R) →
      ∀ u, (u ∈ᵢ x ∧ ∃ v, v ∈ₐ y.arg ∧ ne u v = true) → u ∈ᵢ R := by
    rintro R hR u ⟨hu, v, hv, h⟩
    unfold Pt at hu; rw [ptA_iff] at hv
    exact hR u hu.1 hu.2 (by grind)
  split
  · rename_i hc
    have hlt : lt x.lo x.hi = true := by grind
    obtain ⟨p, e1, e2, e3, e4, e5, _⟩ := succStep_spec (d := true) (fun _ => hs) hlt
    have e5 := e5 rfl
    simp only [e1, ok_bind]
    rw [make_of_le (by grind)]
    refine ⟨_, rfl, ⟨?_, ne_pick_left hx hy hn ?_ ?_⟩, ⟨?_, ne_pick_left hx hy hn ?_ ?_⟩, hin _ ?_⟩
    · unfold Pt; grind
    · grind
    · grind
    · unfold Pt; grind
    · grind
    · grind
    · intro w h1 h2 h3
      have := e4 w
      unfold Pt; grind
  · split
    · rename_i hc0 hc
      have hlt : lt x.lo x.hi = true := by grind
      obtain ⟨p, e1, e2, e3, e4, e5, _⟩ := predStep_spec (d := true) (fun _ => hs) hlt
      have e5 := e5 rfl
      simp only [e1, ok_bind]
      rw [make_of_le (by grind)]
      refine ⟨_, rfl, ⟨?_, ne_pick_left hx hy hn ?_ ?_⟩, ⟨?_, ne_pick_left hx hy hn ?_ ?_⟩, hin _ ?_⟩
      · unfold Pt; grind
      · grind
      · grind
      · unfold Pt; grind
      · grind
      · grind
      · intro w h1 h2 h3
        have := e4 w
        unfold Pt; grind
    · rename_i hc0 hc
      refine ⟨_, rfl, ⟨?_, ne_pick_left hx hy hn ?_ ?_⟩, ⟨?_, ne_pick_left hx hy hn ?_ ?_⟩, hin _ ?_⟩
      · unfold Pt; grind
      · grind
      · grind
      · unfold Pt; grind
      · grind
      · grind
      · intro w h1 h2 h3
        unfold Pt; grind

theorem dense_ne_left (hden : DenseVal T) (hd : d = false) (s) (hs' : s = compareNeq (.ivl x) y.arg)
    (hsat : ∃ u, u ∈ᵢ x ∧ ∃ v, v ∈ₐ y.arg ∧ ne u v = true) :
    ∃ R, constrain dbg d id x (.notEqual s (.ident d id x) y) = .ok R ∧
      LimitBounds (fun u => u ∈ᵢ x ∧ ∃ v, v ∈ₐ y.arg ∧ ne u v = true) R := by
  have hyy := properA_le hy
  obtain ⟨u, hu, v, hv, h⟩ := hsat
  rw [ptA_iff] at hv
  unfold Pt at hu; unfold Proper at hx
  have h1 : (ne x.lo y.arg.hi || ne x.hi y.arg.lo) = true := by grind
  have ht : BoolSet.contains s true = true := by rw [hs', contains_neq]; simp only [ivl_lo, ivl_hi, if_true]; grind
  rw [leaf_constrain (.notEqual s (.ident d id x) y) rfl (Or.inl (self_match ..)) ht]
  simp only [narrow, self_lo, self_hi, hd, Bool.false_and, Bool.false_eq_true, if_false]
  rw [h1, expectsDebug_true, ok_bind]
  refine ⟨_, rfl, fun u hu => hu.1, ?_, ?_⟩
  · intro w hw
    by_cases hc : lt x.lo x.hi = true
    · obtain ⟨a, ha1, ha2⟩ := hden x.lo (cmin w x.hi) (by grind)
      obtain ⟨b, hb1, hb2⟩ := hden x.lo a ha1
      by_cases hab : eq a y.arg.lo = true
      · exact ⟨b, ⟨by unfold Pt; grind, ne_pick_left hx hy hn (by grind) (by grind)⟩, by grind⟩
      · exact ⟨a, ⟨by unfold Pt; grind, ne_pick_left hx hy hn (by grind) (by grind)⟩, by grind⟩
    · exact ⟨x.lo, ⟨by unfold Pt; grind, ne_pick_left hx hy hn (by grind) (by grind)⟩, by grind⟩
  · intro w hw
    by_cases hc : lt x.lo x.hi = true
    · obtain ⟨a, ha1, ha2⟩ := hden (cmax w x.lo) x.hi (by grind)
      obtain ⟨b, hb1, hb2⟩ := hden a x.hi ha2
      by_cases hab : eq a y.arg.lo = true
      · exact ⟨b, ⟨by unfold Pt; grind, ne_pick_left hx hy hn (by grind) (by grind)⟩, by grind⟩
      · exact ⟨a, ⟨by unfold Pt; grind, ne_pick_left hx hy hn (by grind) (by grind)⟩, by grind⟩
    · exact ⟨x.lo, ⟨by unfold Pt; grind, ne_pick_left hx hy hn (by grind) (by grind)⟩, by grind⟩

theorem ne_pick_right {w : T} (_hw : le w w = true) (h : eq w y.arg.lo = false ∨ eq w y.arg.hi = false) :
    ∃ v, v ∈ₐ y.arg ∧ ne v w = true := by
  have hyy := properA_le hy
  rcases h with h | h
  · exact ⟨y.arg.lo, by rw [ptA_iff]; grind, by grind⟩
  · exact ⟨y.arg.hi, by rw [ptA_iff]; grind, by grind⟩

theorem tight_ne_right (hs : LawfulStep T) (hd : d = true) (s) (hs' : s = compareNeq y.arg (.ivl x))
    (hsat : ∃ u, u ∈ᵢ x ∧ ∃ v, v ∈ₐ y.arg ∧ ne v u = true) :
    ∃ R, constrain dbg d id x (.notEqual s y (.ident d id x)) = .ok R ∧
      AttainedBounds (fun u => u ∈ᵢ x ∧ ∃ v, v ∈ₐ y.arg ∧ ne v u = true) R := by
  have hyy := properA_le hy
  obtain ⟨u, hu, v, hv, h⟩ := hsat
  rw [ptA_iff] at hv
  unfold Pt at hu; unfold Proper at hx
  have h1 : (ne y.arg.lo x.hi || ne y.arg.hi x.lo) = true := by grind
  have ht : BoolSet.contains s true = true := by rw [hs', contains_neq]; simp only [ivl_lo, ivl_hi, if_true]; grind
  rw [leaf_constrain (.notEqual s y (.ident d id x)) rfl (Or.inr (self_match ..)) ht]
  subst hd
  simp only [narrow, self_lo, self_hi, hn, self_match, self_disc, Bool.true_and, Bool.false_and, Bool.false_eq_true, if_false]
  rw [h1, expectsDebug_true, ok_bind]
  have hin : ∀ R : Ivl T, (∀ w, le x.lo w = true → le w x.hi = true → (eq w y.arg.lo = false ∨ eq w y.arg.hi = false) → w ∈ᵢ R) →
      ∀ u, (u ∈ᵢ x ∧ ∃ v, v ∈ₐ y.arg ∧ ne v u = true) → u ∈ᵢ R := by
    rintro R hR u ⟨hu, v, hv, h⟩
    unfold Pt at hu; rw [ptA_iff] at hv
    exact hR u hu.1 hu.2 (by grind)
  split
  · rename_i hc
    have hlt : lt x.lo x.hi = true := by grind
    obtain ⟨p, e1, e2, e3, e4, e5, _⟩ := succStep_spec (d := true) (fun _ => hs) hlt
    have e5 := e5 rfl
    simp only [e1, ok_bind]
    rw [make_of_le (by grind)]
    refine ⟨_, rfl, ⟨?_, ne_pick_right hx hy hn ?_ ?_⟩, ⟨?_, ne_pick_right hx hy hn ?_ ?_⟩, hin _ ?_⟩
    · unfold Pt; grind
    · grind
    · grind
    · unfold Pt; grind
    · grind
    · grind
    · intro w h1 h2 h3
      have := e4 w
      unfold Pt; grind
  · split
    · rename_i hc0 hc
      have hlt : lt x.lo x.hi = true := by grind
      obtain ⟨p, e1, e2, e3, e4, e5, _⟩ := predStep_spec (d := true) (fun _ => hs) hlt
      have e5 := e5 rfl
      simp only [e1, ok_bind]
      rw [make_of_le (by grind)]
      refine ⟨_, rfl, ⟨?_, ne_pick_right hx hy hn ?_ ?_⟩, ⟨?_, ne_pick_right hx hy hn ?_ ?_⟩, hin _ ?_⟩
      · unfold Pt; grind
      · grind
      · grind
      · unfold Pt; grind
      · grind
      · grind
      · intro w h1 h2 h3
        have := e4 w
        unfold Pt; grind
    · rename_i hc0 hc
      refine ⟨_, rfl, ⟨?_, ne_pick_right hx hy hn ?_ ?_⟩, ⟨?_, ne_pick_right hx hy hn ?_ ?_⟩, hin _ ?_⟩
      · unfold Pt; grind
      · grind
      · grind
      · unfold Pt; grind
      · grind
      · grind
      · intro w h1 h2 h3
        unfold Pt; grind

theorem dense_ne_right (hden : DenseVal T) (hd : d = false) (s) (hs' : s = compareNeq y.arg (.ivl x))
    (hsat : ∃ u, u ∈ᵢ x ∧ ∃ v, v ∈ₐ y.arg ∧ ne v u = true) :
    ∃ R, constrain dbg d id x (.notEqual s y (.ident d id x)) = .ok R ∧
      LimitBounds (fun u => u ∈ᵢ x ∧ ∃ v, v ∈ₐ y.arg ∧ ne v u = true) R := by
  have hyy := properA_le hy
  obtain ⟨u, hu, v, hv, h⟩ := hsat
  rw [ptA_iff] at hv
  unfold Pt at hu; unfold Proper at hx
  have h1 : (ne y.arg.lo x.hi || ne y.arg.hi x.lo) = true := by grind
  have ht : BoolSet.contains s true = true := by rw [hs', contains_neq]; simp only [ivl_lo, ivl_hi, if_true]; grind
  rw [leaf_constrain (.notEqual s y (.ident d id x)) rfl (Or.inr (self_match ..)) ht]
  simp only [narrow, self_lo, self_hi, hd, Bool.false_and, Bool.false_eq_true, if_false]
  rw [h1, expectsDebug_true, ok_bind]
  refine ⟨_, rfl, fun u hu => hu.1, ?_, ?_⟩
  · intro w hw
    by_cases hc : lt x.lo x.hi = true
    · obtain ⟨a, ha1, ha2⟩ := hden x.lo (cmin w x.hi) (by grind)
      obtain ⟨b, hb1, hb2⟩ := hden x.lo a ha1
      by_cases hab : eq a y.arg.lo = true
      · exact ⟨b, ⟨by unfold Pt; grind, ne_pick_right hx hy hn (by grind) (by grind)⟩, by grind⟩
      · exact ⟨a, ⟨by unfold Pt; grind, ne_pick_right hx hy hn (by grind) (by grind)⟩, by grind⟩
    · exact ⟨x.lo, ⟨by unfold Pt; grind, ne_pick_right hx hy hn (by grind) (by grind)⟩, by grind⟩
  · intro w hw
    by_cases hc : lt x.lo x.hi = true
    · obtain ⟨a, ha1, ha2⟩ := hden (cmax w x.lo) x.hi (by grind)
      obtain ⟨b, hb1, hb2⟩ := hden a x.hi ha2
      by_cases hab : eq a y.arg.lo = true
      · exact ⟨b, ⟨by unfold Pt; grind, ne_pick_right hx hy hn (by grind) (by grind)⟩, by grind⟩
      · exact ⟨a, ⟨by unfold Pt; grind, ne_pick_right hx hy hn (by grind) (by grind)⟩, by grind⟩
    · exact ⟨x.lo, ⟨by unfold Pt; grind, ne_pick_right hx hy hn (by grind) (by grind)⟩, by grind⟩

end
end Intervals
