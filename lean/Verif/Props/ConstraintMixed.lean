import Verif.Spec.ConstraintMixed
import Verif.Spec.Mixed
import Verif.Lemmas.Constraint
import Verif.Lemmas.Corner
import Verif.Props.Unsigned
/-!
# C101: constraining by comparisons with operands of another value type
-/
set_option linter.unusedSectionVars false
set_option linter.unusedVariables false
namespace Intervals.Props
open Intervals Spec CppVal
section
variable {V T : Type} [CppVal V] [CppNum V] [CppOrder V] [CppVal T] [CppNum T] [CppOrder T] [CppStep T]
variable {cv : V → T} {pr su : V → Outcome V} {d dbg : Bool} {x : Ivl T} {r : Arg V}

omit [CppVal T] [CppNum T] [CppOrder T] [CppStep T] in
theorem ivl_lo (x : Ivl T) : (Arg.ivl x).lo = x.lo := rfl
omit [CppVal T] [CppNum T] [CppOrder T] [CppStep T] in
theorem ivl_hi (x : Ivl T) : (Arg.ivl x).hi = x.hi := rfl

theorem possible_x (_hx : Proper x) (mono : MonoCast cv) (k : XRel) {u : T} (h : SatX cv x r k u) :
    BoolSet.contains (k.compare cv x r) true = true := by
  obtain ⟨⟨h1, h2⟩, v, hv, hk⟩ := h
  obtain ⟨h3, h4⟩ := mem_bounds.mp hv
  have m1 := mono _ _ h3; have m2 := mono _ _ h4
  clear hv h3 h4 mono
  cases k <;> simp only [XRel.compare, contains_ltM, contains_leM, contains_eqM, contains_neM, if_true, ivl_lo, ivl_hi, holdsX, CppVal.ge, Bool.and_eq_true, Bool.or_eq_true] at hk ⊢ <;> grind

theorem constrainM_eq (hx : Proper x) (hr : ProperA r) (k : XRel) (h : BoolSet.contains (k.compare cv x r) true = true) :
    constrainM cv pr su d dbg x r k = constrainRel cv pr su d dbg (k.compare cv x r) x r k ∧
    ∀ b, constrainRel cv pr su d dbg (k.compare cv x r) x r k = constrainRel cv pr su d b (k.compare cv x r) x r k := by
  have a1 : x.assigned = true := assigned_of_proper (X := .ivl x) hx
  have a2 := Intervals.assigned_of_proper hr
  refine ⟨by unfold constrainM; rw [a1, a2]; simp, fun b => ?_⟩
  unfold constrainRel
  rw [if_pos h, if_pos h]
  cases k <;> simp only [XRel.compare, contains_ltM, contains_leM, contains_eqM, contains_neM, if_true, ivl_lo, ivl_hi] at h <;> simp [h]


/-- what `constrain` returns if the comparison is possible, without the debug checks -/
def bodyX (cv : V → T) (pr su : V → Outcome V) (d : Bool) (x : Ivl T) (r : Arg V) : XRel → Outcome (Ivl T)
  | .xLess => do Ivl.make x.lo (cmin x.hi (cv (← pr r.hi)))
  | .lessX => do Ivl.make (cmax (cv (← su r.lo)) x.lo) x.hi
  | .xLeq => Ivl.make x.lo (cmin x.hi (cv r.hi))
  | .leqX => Ivl.make (cmax (cv r.lo) x.lo) x.hi
  | .xEq => Ivl.make (cmax x.lo (cv r.lo)) (cmin x.hi (cv r.hi))
  | .eqX => Ivl.make (cmax (cv r.lo) x.lo) (cmin (cv r.hi) x.hi)
  | .xNe | .neX =>
    if d && ne x.lo x.hi && eq r.lo r.hi && eq x.lo (cv r.lo) then do Ivl.make (← succStep d x.lo) x.hi
    else if d && ne x.lo x.hi && eq r.lo r.hi && eq x.hi (cv r.lo) then do Ivl.make x.lo (← predStep d x.hi)
    else return x

theorem constrainM_body (hx : Proper x) (hr : ProperA r) (k : XRel) (h : BoolSet.contains (k.compare cv x r) true = true) :
    constrainM cv pr su d dbg x r k = bodyX cv pr su d x r k := by
  obtain ⟨e1, e2⟩ := constrainM_eq (pr := pr) (su := su) (d := d) (dbg := dbg) hx hr k h
  rw [e1, e2 false]
  unfold constrainRel
  rw [if_pos h]
  cases k <;> rfl
theorem constrainM_impossible (hx : Proper x) (hr : ProperA r) (k : XRel) (h : BoolSet.contains (k.compare cv x r) true = false) :
    constrainM cv pr su d dbg x r k = .error .contract := by
  have a1 : x.assigned = true := assigned_of_proper (X := .ivl x) hx
  have a2 := Intervals.assigned_of_proper hr
  unfold constrainM; rw [a1, a2]; simp [constrainRel, h]

/-- the comparison is possible exactly if some pair of points satisfies it, except for `==` -/
theorem possible_iff (hx : Proper x) (hr : ProperA r) (mono : MonoCast cv) (k : XRel) (hk : equalX k = false) :
    BoolSet.contains (k.compare cv x r) true = true ↔ ∃ u, SatX cv x r k u := by
  refine ⟨fun h => ?_, fun ⟨u, h⟩ => possible_x hx mono k h⟩
  have l1 : x.lo ∈ᵢ x := ⟨CppOrder.le_left _ _ hx, hx⟩
  have l2 : x.hi ∈ᵢ x := ⟨hx, CppOrder.le_right _ _ hx⟩
  have r1 := lo_mem hr; have r2 := hi_mem hr
  cases k <;> simp only [XRel.compare, contains_ltM, contains_leM, contains_eqM, contains_neM, if_true, ivl_lo, ivl_hi, Bool.or_eq_true, equalX, Bool.true_eq_false] at h hk
  · exact ⟨_, l1, _, r2, h⟩
  · exact ⟨_, l2, _, r1, h⟩
  · exact ⟨_, l1, _, r2, h⟩
  · exact ⟨_, l2, _, r1, h⟩
  · rcases h with h | h
    · exact ⟨_, l1, _, r2, h⟩
    · exact ⟨_, l2, _, r1, h⟩
  · rcases h with h | h
    · exact ⟨_, l2, _, r1, h⟩
    · exact ⟨_, l1, _, r2, h⟩

/-- C101: if no value of `x` satisfies the comparison with any value of `r`, `constrain` is a contract violation (for `==` see `C101_equal`). -/
theorem C101_impossible (hx : Proper x) (hr : ProperA r) (mono : MonoCast cv) (k : XRel) (hk : equalX k = false) (h : ¬ ∃ u, SatX cv x r k u) :
    constrainM cv pr su d dbg x r k = .error .contract :=
  constrainM_impossible hx hr k (by rw [← possible_iff hx hr mono k hk] at h; simpa using h)

/-- C101: `constrain(x, x <= r)` and `constrain(x, r <= x)` keep exactly the values of `x` that satisfy the comparison with some value of `r`. -/
theorem C101_exact (hx : Proper x) (hr : ProperA r) (mono : MonoCast cv) (k : XRel) (hk : k = .xLeq ∨ k = .leqX) (h : ∃ u, SatX cv x r k u) :
    ∃ R, constrainM cv pr su d dbg x r k = .ok R ∧ Proper R ∧ ∀ u, u ∈ᵢ R ↔ SatX cv x r k u := by
  obtain ⟨u, hu⟩ := h
  rw [constrainM_body hx hr k (possible_x hx mono k hu)]
  have r1 := lo_mem hr; have r2 := hi_mem hr
  obtain ⟨⟨h1, h2⟩, v, hv, hk'⟩ := hu
  obtain ⟨h3, h4⟩ := mem_bounds.mp hv
  have m1 := mono _ _ h3; have m2 := mono _ _ h4
  unfold Proper at hx
  rcases hk with rfl | rfl
  · simp only [holdsX] at hk'
    have e : le x.lo (cmin x.hi (cv r.hi)) = true := by clear mono; unfold cmin; grind
    refine ⟨_, make_ok_of_le e, e, fun w => ⟨fun ⟨q1, q2⟩ => ⟨⟨q1, ?_⟩, _, r2, ?_⟩, fun ⟨⟨q1, q2⟩, v', hv', q3⟩ => ⟨q1, ?_⟩⟩⟩
    · dsimp only at q2; clear mono; unfold cmin at q2; grind
    · simp only [holdsX]; dsimp only at q2; clear mono; unfold cmin at q2; grind
    · have m3 := mono _ _ (mem_bounds.mp hv').2
      simp only [holdsX] at q3
      dsimp only; clear mono; unfold cmin; grind
  · simp only [holdsX] at hk'
    have e : le (cmax (cv r.lo) x.lo) x.hi = true := by clear mono; unfold cmax; grind
    refine ⟨_, make_ok_of_le e, e, fun w => ⟨fun ⟨q1, q2⟩ => ⟨⟨?_, q2⟩, _, r1, ?_⟩, fun ⟨⟨q1, q2⟩, v', hv', q3⟩ => ⟨?_, q2⟩⟩⟩
    · dsimp only at q1; clear mono; unfold cmax at q1; grind
    · simp only [holdsX]; dsimp only at q1; clear mono; unfold cmax at q1; grind
    · have m3 := mono _ _ (mem_bounds.mp hv').1
      simp only [holdsX] at q3
      dsimp only; clear mono; unfold cmax; grind

/-- C101: `constrain(x, x == r)` keeps exactly the values of `x` between the converted bounds of `r`, in particular every value equal to a value of `r`;
it is a contract violation if there are none. -/
theorem C101_equal (hx : Proper x) (hr : ProperA r) (mono : MonoCast cv) (k : XRel) (hk : equalX k = true) :
    (lt (cv r.hi) x.lo = true ∨ lt x.hi (cv r.lo) = true → constrainM cv pr su d dbg x r k = .error .contract) ∧
    (le x.lo (cv r.hi) = true ∧ le (cv r.lo) x.hi = true → ∃ R, constrainM cv pr su d dbg x r k = .ok R ∧ Proper R ∧
      (∀ u, u ∈ᵢ R ↔ u ∈ᵢ x ∧ le (cv r.lo) u = true ∧ le u (cv r.hi) = true)) := by
  have hl := mono _ _ (proper_le hr)
  have hx' := hx
  unfold Proper at hx
  have hc : BoolSet.contains (k.compare cv x r) true = (le x.lo (cv r.hi) && le (cv r.lo) x.hi) := by
    clear mono
    cases k <;> simp only [equalX, Bool.false_eq_true] at hk <;>
      simp only [XRel.compare, contains_eqM, if_true, ivl_lo, ivl_hi, CppVal.ge] <;> first | rfl | exact Bool.and_comm _ _
  refine ⟨fun h => constrainM_impossible hx' hr k ?_, fun ⟨h1, h2⟩ => ?_⟩
  · rw [hc]; clear mono; grind
  · rw [constrainM_body hx' hr k (by rw [hc, h1, h2]; rfl)]
    clear mono hc
    cases k <;> simp only [equalX, Bool.false_eq_true] at hk
    · have e : le (cmax x.lo (cv r.lo)) (cmin x.hi (cv r.hi)) = true := by unfold cmin cmax; grind
      refine ⟨_, make_ok_of_le e, e, fun w => ⟨fun ⟨q1, q2⟩ => ?_, fun ⟨⟨q1, q2⟩, q3, q4⟩ => ?_⟩⟩
      · dsimp only at q1 q2; unfold cmax at q1; unfold cmin at q2; exact ⟨⟨by grind, by grind⟩, by grind, by grind⟩
      · refine ⟨?_, ?_⟩ <;> dsimp only [cmin, cmax] <;> grind
    · have e : le (cmax (cv r.lo) x.lo) (cmin (cv r.hi) x.hi) = true := by unfold cmin cmax; grind
      refine ⟨_, make_ok_of_le e, e, fun w => ⟨fun ⟨q1, q2⟩ => ?_, fun ⟨⟨q1, q2⟩, q3, q4⟩ => ?_⟩⟩
      · dsimp only at q1 q2; unfold cmax at q1; unfold cmin at q2; exact ⟨⟨by grind, by grind⟩, by grind, by grind⟩
      · refine ⟨?_, ?_⟩ <;> dsimp only [cmin, cmax] <;> grind

theorem body_ne (hx : Proper x) (hr : ProperA r) (mono : MonoCast cv) (step : d = true → LawfulStep T) :
    ∃ R, (if d && ne x.lo x.hi && eq r.lo r.hi && eq x.lo (cv r.lo) then do Ivl.make (← succStep d x.lo) x.hi
        else if d && ne x.lo x.hi && eq r.lo r.hi && eq x.hi (cv r.lo) then do Ivl.make x.lo (← predStep d x.hi)
        else return x : Outcome (Ivl T)) = .ok R ∧ (∀ u, u ∈ᵢ R → u ∈ᵢ x) ∧ ∀ u, SatX cv x r .xNe u → u ∈ᵢ R := by
  unfold Proper at hx
  split
  · rename_i c
    simp only [Bool.and_eq_true] at c
    obtain ⟨⟨⟨rfl, c2⟩, c3⟩, c4⟩ := c
    have hlt : lt x.lo x.hi = true := by clear mono; grind
    obtain ⟨s, e1, e2, e3⟩ := (step rfl).succ_of_lt _ _ hlt
    refine ⟨⟨s, x.hi⟩, ?_, fun u ⟨q1, q2⟩ => ⟨by dsimp only at q1; clear mono; grind, q2⟩, ?_⟩
    · simp only [succStep, e1, if_true]; exact make_ok_of_le e2
    · rintro u ⟨⟨q1, q2⟩, v, hv, q3⟩
      obtain ⟨h3, h4⟩ := mem_bounds.mp hv
      have m1 := mono _ _ h3
      have m2 := mono v r.lo (by clear mono; grind)
      simp only [holdsX] at q3
      have : lt x.lo u = true := by clear mono; grind
      obtain ⟨s', e1', e2', -⟩ := (step rfl).succ_of_lt _ _ this
      rw [e1] at e1'
      obtain rfl := Option.some.inj e1'
      exact ⟨e2', q2⟩
  · split
    · rename_i c
      simp only [Bool.and_eq_true] at c
      obtain ⟨⟨⟨rfl, c2⟩, c3⟩, c4⟩ := c
      have hlt : lt x.lo x.hi = true := by clear mono; grind
      obtain ⟨s, e1, e2, e3⟩ := (step rfl).pred_of_lt _ _ hlt
      refine ⟨⟨x.lo, s⟩, ?_, fun u ⟨q1, q2⟩ => ⟨q1, by dsimp only at q2; clear mono; grind⟩, ?_⟩
      · simp only [predStep, e1, if_true]; exact make_ok_of_le e2
      · rintro u ⟨⟨q1, q2⟩, v, hv, q3⟩
        obtain ⟨h3, h4⟩ := mem_bounds.mp hv
        have m1 := mono _ _ h3
        have m2 := mono v r.lo (by clear mono; grind)
        simp only [holdsX] at q3
        have : lt u x.hi = true := by clear mono; grind
        obtain ⟨s', e1', e2', -⟩ := (step rfl).pred_of_lt _ _ this
        rw [e1] at e1'
        obtain rfl := Option.some.inj e1'
        exact ⟨q1, e2'⟩
    · exact ⟨x, rfl, fun _ h => h, fun _ h => h.1⟩

/-- C101: whatever `constrain` returns is part of `x`. -/
theorem C101_narrows (hx : Proper x) (hr : ProperA r) (mono : MonoCast cv) (step : d = true → LawfulStep T) (k : XRel) {R : Ivl T}
    (h : constrainM cv pr su d dbg x r k = .ok R) : ∀ u, u ∈ᵢ R → u ∈ᵢ x := by
  cases hc : BoolSet.contains (k.compare cv x r) true with
  | false => rw [constrainM_impossible hx hr k hc] at h; exact absurd h (by simp)
  | true =>
    rw [constrainM_body hx hr k hc] at h
    clear hc
    unfold Proper at hx
    have mk : ∀ {a b : T}, Ivl.make a b = .ok R → R = ⟨a, b⟩ := fun {a b} e => by
      unfold Ivl.make at e
      cases g : !CppVal.gt a b with
      | true => rw [g] at e; exact (Except.ok.inj e).symm
      | false => rw [g] at e; exact absurd e (by simp)
    cases k
    · simp only [bodyX] at h
      cases hp : pr r.hi with
      | error e => rw [hp] at h; exact absurd h (by simp)
      | ok p =>
        rw [hp] at h
        rw [mk h]
        rintro u ⟨q1, q2⟩
        refine ⟨q1, ?_⟩
        dsimp only [cmin] at q2; grind
    · simp only [bodyX] at h
      cases hp : su r.lo with
      | error e => rw [hp] at h; exact absurd h (by simp)
      | ok p =>
        rw [hp] at h
        rw [mk h]
        rintro u ⟨q1, q2⟩
        refine ⟨?_, q2⟩
        dsimp only [cmax] at q1; grind
    · rw [mk h]; rintro u ⟨q1, q2⟩; refine ⟨q1, ?_⟩; dsimp only [cmin] at q2; grind
    · rw [mk h]; rintro u ⟨q1, q2⟩; refine ⟨?_, q2⟩; dsimp only [cmax] at q1; grind
    · rw [mk h]; rintro u ⟨q1, q2⟩; dsimp only [cmax, cmin] at q1 q2; exact ⟨by grind, by grind⟩
    · rw [mk h]; rintro u ⟨q1, q2⟩; dsimp only [cmax, cmin] at q1 q2; exact ⟨by grind, by grind⟩
    · obtain ⟨R', e, g, -⟩ := body_ne hx hr mono step
      obtain rfl : R' = R := Except.ok.inj (e.symm.trans h)
      exact g
    · obtain ⟨R', e, g, -⟩ := body_ne hx hr mono step
      obtain rfl : R' = R := Except.ok.inj (e.symm.trans h)
      exact g

/-- C101: `constrain` by `<=`, `>=`, `==` or `!=`, and by `<` or `>` if the operand is of a floating-point type (which is not stepped), returns whenever a value satisfies the
comparison, and keeps every such value.  Missing: `<` and `>` with an integral operand, where `C101_lt_iff`, `C101_gt_iff`, `C101_ub` and `C101_int_partial` say what happens. -/
theorem C101_keeps_partial (hx : Proper x) (hr : ProperA r) (mono : MonoCast cv) (step : d = true → LawfulStep T) (k : XRel)
    (hk : strictX k = true → (∀ v, pr v = .ok v) ∧ ∀ v, su v = .ok v) : Keeps cv x r k (constrainM cv pr su d dbg x r k) := by
  intro u hu
  have hp := possible_x hx mono k hu
  rw [constrainM_body hx hr k hp]
  have hu' := hu
  obtain ⟨⟨h1, h2⟩, v, hv, hk'⟩ := hu
  obtain ⟨h3, h4⟩ := mem_bounds.mp hv
  have m1 := mono _ _ h3; have m2 := mono _ _ h4
  have hx' := hx
  unfold Proper at hx
  cases k
  · simp only [bodyX, (hk rfl).1, ok_bind]
    simp only [holdsX] at hk'
    have e : le x.lo (cmin x.hi (cv r.hi)) = true := by clear mono; unfold cmin; grind
    exact ⟨_, make_ok_of_le e, h1, by clear mono; dsimp only [cmin]; grind⟩
  · simp only [bodyX, (hk rfl).2, ok_bind]
    simp only [holdsX] at hk'
    have e : le (cmax (cv r.lo) x.lo) x.hi = true := by clear mono; unfold cmax; grind
    exact ⟨_, make_ok_of_le e, by clear mono; dsimp only [cmax]; grind, h2⟩
  · obtain ⟨R, e, -, g⟩ := C101_exact (pr := pr) (su := su) (d := d) (dbg := dbg) hx' hr mono .xLeq (.inl rfl) ⟨u, hu'⟩
    exact ⟨R, by rw [← constrainM_body hx' hr _ hp]; exact e, (g u).mpr hu'⟩
  · obtain ⟨R, e, -, g⟩ := C101_exact (pr := pr) (su := su) (d := d) (dbg := dbg) hx' hr mono .leqX (.inr rfl) ⟨u, hu'⟩
    exact ⟨R, by rw [← constrainM_body hx' hr _ hp]; exact e, (g u).mpr hu'⟩
  · simp only [holdsX] at hk'
    obtain ⟨R, e, -, g⟩ := (C101_equal (pr := pr) (su := su) (d := d) (dbg := dbg) hx' hr mono .xEq rfl).2 ⟨by clear mono; grind, by clear mono; grind⟩
    exact ⟨R, by rw [← constrainM_body hx' hr _ hp]; exact e, (g u).mpr ⟨⟨h1, h2⟩, by clear mono; grind, by clear mono; grind⟩⟩
  · simp only [holdsX] at hk'
    obtain ⟨R, e, -, g⟩ := (C101_equal (pr := pr) (su := su) (d := d) (dbg := dbg) hx' hr mono .eqX rfl).2 ⟨by clear mono; grind, by clear mono; grind⟩
    exact ⟨R, by rw [← constrainM_body hx' hr _ hp]; exact e, (g u).mpr ⟨⟨h1, h2⟩, by clear mono; grind, by clear mono; grind⟩⟩
  · obtain ⟨R, e, -, g⟩ := body_ne hx hr mono step
    exact ⟨R, e, g u hu'⟩
  · obtain ⟨R, e, -, g⟩ := body_ne hx hr mono step
    exact ⟨R, e, g u ⟨⟨h1, h2⟩, v, hv, by simp only [holdsX] at hk' ⊢; clear mono; grind⟩⟩

/-- C101: `constrain(x, x < r)` and `constrain(x, r > x)` where the upper bound of `r` steps down to `p`: every value that satisfies the comparison is kept
exactly if `x` has no value strictly between the converted `p` and the converted upper bound. -/
theorem C101_lt_iff (hx : Proper x) (hr : ProperA r) (mono : MonoCast cv) {p : V} (hp : pr r.hi = .ok p) (np : NotNan p) :
    Keeps cv x r .xLess (constrainM cv pr su d dbg x r .xLess) ↔ ¬ ∃ u, u ∈ᵢ x ∧ lt (cv p) u = true ∧ lt u (cv r.hi) = true := by
  have np' := mono _ _ np
  have r2 := hi_mem hr
  constructor
  · rintro h ⟨u, hu, h1, h2⟩
    have hs : SatX cv x r .xLess u := ⟨hu, _, r2, h2⟩
    obtain ⟨R, e, q1, q2⟩ := h u hs
    rw [constrainM_body hx hr _ (possible_x hx mono _ hs)] at e
    simp only [bodyX, hp, ok_bind] at e
    unfold Ivl.make at e
    unfold Proper at hx
    cases g : !CppVal.gt x.lo (cmin x.hi (cv p)) with
    | false => rw [g] at e; exact absurd e (by simp)
    | true =>
      rw [g] at e
      obtain rfl := Except.ok.inj e
      obtain ⟨h3, h4⟩ := hu
      dsimp only [cmin] at q2
      clear mono hs e g; grind
  · rintro h u hu
    rw [constrainM_body hx hr _ (possible_x hx mono _ hu)]
    simp only [bodyX, hp, ok_bind]
    obtain ⟨⟨h1, h2⟩, v, hv, hk'⟩ := hu
    have m2 := mono _ _ (mem_bounds.mp hv).2
    simp only [holdsX] at hk'
    have h3 : ¬ (lt (cv p) u = true ∧ lt u (cv r.hi) = true) := fun h' => h ⟨u, ⟨h1, h2⟩, h'⟩
    unfold Proper at hx
    have h4 : le u (cv p) = true := by clear mono h; grind
    have e : le x.lo (cmin x.hi (cv p)) = true := by clear mono h; unfold cmin; grind
    exact ⟨_, make_ok_of_le e, h1, by clear mono h; dsimp only [cmin]; grind⟩

/-- C101: the same for `constrain(x, x > r)` and `constrain(x, r < x)`. -/
theorem C101_gt_iff (hx : Proper x) (hr : ProperA r) (mono : MonoCast cv) {p : V} (hp : su r.lo = .ok p) (np : NotNan p) :
    Keeps cv x r .lessX (constrainM cv pr su d dbg x r .lessX) ↔ ¬ ∃ u, u ∈ᵢ x ∧ lt (cv r.lo) u = true ∧ lt u (cv p) = true := by
  have np' := mono _ _ np
  have r2 := lo_mem hr
  constructor
  · rintro h ⟨u, hu, h1, h2⟩
    have hs : SatX cv x r .lessX u := ⟨hu, _, r2, h1⟩
    obtain ⟨R, e, q1, q2⟩ := h u hs
    rw [constrainM_body hx hr _ (possible_x hx mono _ hs)] at e
    simp only [bodyX, hp, ok_bind] at e
    unfold Ivl.make at e
    unfold Proper at hx
    cases g : !CppVal.gt (cmax (cv p) x.lo) x.hi with
    | false => rw [g] at e; exact absurd e (by simp)
    | true =>
      rw [g] at e
      obtain rfl := Except.ok.inj e
      obtain ⟨h3, h4⟩ := hu
      dsimp only [cmax] at q1
      clear mono hs e g; grind
  · rintro h u hu
    rw [constrainM_body hx hr _ (possible_x hx mono _ hu)]
    simp only [bodyX, hp, ok_bind]
    obtain ⟨⟨h1, h2⟩, v, hv, hk'⟩ := hu
    have m2 := mono _ _ (mem_bounds.mp hv).1
    simp only [holdsX] at hk'
    have h3 : ¬ (lt (cv r.lo) u = true ∧ lt u (cv p) = true) := fun h' => h ⟨u, ⟨h1, h2⟩, h'⟩
    unfold Proper at hx
    have h4 : le (cv p) u = true := by clear mono h; grind
    have e : le (cmax (cv p) x.lo) x.hi = true := by clear mono h; unfold cmax; grind
    exact ⟨_, make_ok_of_le e, by clear mono h; dsimp only [cmax]; grind, h2⟩

/-- C101: if the comparison is possible and the bound of `r` that is stepped has no neighbour in its type, `constrain` has undefined behaviour. -/
theorem C101_ub (hx : Proper x) (hr : ProperA r) (mono : MonoCast cv) (k : XRel) (hs : ∃ u, SatX cv x r k u)
    (hk : (k = .xLess ∧ pr r.hi = .error .ub) ∨ (k = .lessX ∧ su r.lo = .error .ub)) : constrainM cv pr su d dbg x r k = .error .ub := by
  obtain ⟨u, hu⟩ := hs
  rw [constrainM_body hx hr k (possible_x hx mono k hu)]
  rcases hk with ⟨rfl, h⟩ | ⟨rfl, h⟩ <;> simp [bodyX, h]

/-- C101: in a debug build, a comparison with an unassigned interval is a contract violation. -/
theorem C101_unassigned (h : x.assigned = false ∨ r.assigned = false) (k : XRel) :
    constrainM cv pr su d true x r k = .error .contract ∧ constrainNotM cv pr su d true x r k = .error .contract := by
  rcases h with h | h <;> simp [constrainM, constrainNotM, h, expectsDebug, expects]

/-- C101: the negation of a condition constrains like the opposite comparison. -/
theorem C101_not (hx : Proper x) (hr : ProperA r) (mono : MonoCast cv) (k : XRel) :
    constrainNotM cv pr su d dbg x r k = constrainM cv pr su d dbg x r k.neg := by
  have hl := mono _ _ (proper_le hr)
  have a1 : x.assigned = true := assigned_of_proper (X := .ivl x) hx
  have a2 := Intervals.assigned_of_proper hr
  unfold Proper at hx
  have key : BoolSet.notCore (k.compare cv x r) = k.neg.compare cv x r ∧ k.compare cv x r ≠ BoolSet.empty := by
    have ext : ∀ a b : BoolSet, (∀ v, BoolSet.contains a v = BoolSet.contains b v) → a = b := by decide
    have ne : ∀ a : BoolSet, (BoolSet.contains a true = true ∨ BoolSet.contains a false = true) → a ≠ BoolSet.empty := by decide
    clear mono
    refine ⟨ext _ _ fun v => ?_, ne _ ?_⟩
    · rw [contains_not]
      cases k <;> cases v <;> simp only [XRel.neg, XRel.compare, contains_ltM, contains_leM, contains_eqM, contains_neM, if_true, ivl_lo, ivl_hi, CppVal.ge, CppVal.gt,
        Bool.not_true, Bool.not_false, Bool.false_eq_true, if_false]
    · cases k <;> simp only [XRel.compare, contains_ltM, contains_leM, contains_eqM, contains_neM, if_true, ivl_lo, ivl_hi, CppVal.ge, CppVal.gt, Bool.false_eq_true, if_false,
        Bool.or_eq_true, Bool.and_eq_true] <;> grind
  unfold constrainNotM constrainM
  rw [a1, a2, notM_ok key.2, key.1]
  simp

/-- the condition that compares the interval `x` at address `i` with the operand `o` -/
def condX (dbg d : Bool) (i : Nat) (x : Ivl T) (o : Operand T) : XRel → Outcome (Cond T)
  | .xLess => condLt dbg (.ident d i x) o
  | .lessX => condLt dbg o (.ident d i x)
  | .xLeq => condLe dbg (.ident d i x) o
  | .leqX => condLe dbg o (.ident d i x)
  | .xEq => condEq dbg (.ident d i x) o
  | .eqX => condEq dbg o (.ident d i x)
  | .xNe => condNe dbg (.ident d i x) o
  | .neX => condNe dbg o (.ident d i x)

/-- C101: on operands of one type this is `constrain` as in C18–C23, for every interval and operand. -/
theorem C101_same (d dbg : Bool) (i : Nat) (x : Ivl T) (o : Operand T) (ho : o.disc = d) (hn : o.matchesId d i = false) (k : XRel) :
    (do constrain dbg d i x (← condX dbg d i x o k) : Outcome (Ivl T)) =
      constrainM (fun v : T => v) (predStep d) (succStep d) d dbg x o.arg k := by
  have hm : (Operand.ident d i x).matchesId d i = true := by simp [Operand.matchesId]
  have a : (Arg.ivl x).assigned = x.assigned := rfl
  have b1 : (do constrain dbg d i x (← condX dbg d i x o k) : Outcome (Ivl T)) =
      (do expectsDebug dbg (x.assigned && o.arg.assigned); constrain dbg d i x (match k with
        | .xLess => .less (compareLt (.ivl x) o.arg) (.ident d i x) o
        | .lessX => .less (compareLt o.arg (.ivl x)) o (.ident d i x)
        | .xLeq => .leq (compareLeq (.ivl x) o.arg) (.ident d i x) o
        | .leqX => .leq (compareLeq o.arg (.ivl x)) o (.ident d i x)
        | .xEq => .equal (compareEq (.ivl x) o.arg) (.ident d i x) o
        | .eqX => .equal (compareEq o.arg (.ivl x)) o (.ident d i x)
        | .xNe => .notEqual (compareNeq (.ivl x) o.arg) (.ident d i x) o
        | .neX => .notEqual (compareNeq o.arg (.ivl x)) o (.ident d i x))) := by
    cases k <;> simp only [condX, condLt, condLe, condEq, condNe, opLt, opLe, opEq, opNe, Operand.arg, a] <;>
      cases dbg <;> cases h1 : x.assigned <;> cases h2 : o.arg.assigned <;> simp [expectsDebug, expects]
  rw [b1]
  unfold constrainM
  congr 1
  funext _
  unfold constrain
  have ia : (Operand.ident d i x).arg = .ivl x := rfl
  have id' : (Operand.ident d i x).disc = d := rfl
  have m1 : ∀ l r : Arg T, compareLtM (fun v : T => v) (fun v : T => v) l r = compareLt l r := fun _ _ => rfl
  have m2 : ∀ l r : Arg T, compareLeqM (fun v : T => v) (fun v : T => v) l r = compareLeq l r := fun _ _ => rfl
  have m3 : ∀ l r : Arg T, compareEqM (fun v : T => v) (fun v : T => v) l r = compareEq l r := fun _ _ => rfl
  have m4 : ∀ l r : Arg T, compareNeqM (fun v : T => v) (fun v : T => v) l r = compareNeq l r := fun _ _ => rfl
  cases k <;> simp only [detailConstrain, hm, hn, constrainRel, XRel.compare, if_true, Bool.or_true, Bool.true_or, Bool.false_eq_true, if_false, ia, id', ho, ivl_lo, ivl_hi,
    Bool.and_true, Bool.and_false, Bool.false_and, m1, m2, m3, m4]
  all_goals split
  all_goals first
    | rfl
    | simp only [bind_assoc, pure_bind, expects_true, ok_bind, bind_pure]
    | skip
  all_goals
    congr 1; funext _
    split
    · simp only [bind_assoc, pure_bind, expects_true, ok_bind, bind_pure]
    · split <;> simp only [bind_assoc, pure_bind, expects_true, ok_bind, bind_pure]
end

/-! ## The conversions between arithmetic types -/
section casts
variable {K : Type} [Field K] [LinearOrder K] [IsStrictOrderedRing K]

/-- C101: the conversions to wider integer types, from signed and unsigned integer types to any floating-point format, and between floating-point formats are
monotone, so the theorems apply to them. -/
theorem C101_casts : (∀ {m n : Nat} (h : m ≤ n), MonoCast (widenV h)) ∧ (∀ {m k : Nat} (h : m ≤ k), MonoCast (ofUnsignedV h)) ∧
    (∀ (F : Fmt K) (n : Nat), MonoCast (toFloatV (K := K) (n := n))) ∧ (∀ (F : Fmt K) (m : Nat), MonoCast (unsignedToFloatV (K := K) (m := m))) ∧
    (∀ F : Fmt K, MonoCast (toFormatV F)) := by
  refine ⟨fun _ _ _ h => h, fun _ _ _ h => h, fun F n a b h => F.rnd_mono _ _ ?_, fun F m a b h => F.rnd_mono _ _ ?_, fun F a b h => ?_⟩
  · exact_mod_cast of_decide_eq_true h
  · exact_mod_cast of_decide_eq_true h
  · have nn := F.rnd_ne_nan
    rcases a with _ | _ | _ | _ | a <;> rcases b with _ | _ | _ | _ | b <;> simp only [toFormatV] <;> first | exact h | skip
    all_goals first
      | exact Fl.ninf_le (nn _)
      | exact Fl.le_pinf (nn _)
      | exact F.rnd_mono _ _ (by simpa using h)
      | exact Fl.nzero_le_rnd (by simpa using h)
      | exact Fl.rnd_le_nzero (by simpa using h)
      | (exfalso; revert h; simp; done)
      | (exfalso; exact absurd h (by simp [CppVal.le, Fl.le]))
end casts

/-! ## Integers -/
section ints
variable {m n : Nat}

theorem pred_sint (v : SInt m) : (∃ p : SInt m, predStep true v = .ok p ∧ p.val = v.val - 1 ∧ v.val ≠ -2^m) ∨ (predStep true v = .error .ub ∧ v.val = -2^m) := by
  have h1 := v.ge; have h2 := v.le
  by_cases h : v.val = -2^m
  · right
    refine ⟨?_, h⟩
    simp only [predStep, CppStep.pred, BInt.ofInt, if_true]
    rw [dif_neg (by omega)]
  · left
    refine ⟨⟨v.val - 1, by omega, by omega⟩, ?_, rfl, h⟩
    simp only [predStep, CppStep.pred, BInt.ofInt, if_true]
    rw [dif_pos ⟨by omega, by omega⟩]
theorem succ_sint (v : SInt m) : (∃ p : SInt m, succStep true v = .ok p ∧ p.val = v.val + 1 ∧ v.val ≠ 2^m - 1) ∨ (succStep true v = .error .ub ∧ v.val = 2^m - 1) := by
  have h1 := v.ge; have h2 := v.le
  by_cases h : v.val = 2^m - 1
  · right
    refine ⟨?_, h⟩
    simp only [succStep, CppStep.succ, BInt.ofInt, if_true]
    rw [dif_neg (by omega)]
  · left
    refine ⟨⟨v.val + 1, by omega, by omega⟩, ?_, rfl, h⟩
    simp only [succStep, CppStep.succ, BInt.ofInt, if_true]
    rw [dif_pos ⟨by omega, by omega⟩]

/-- C101 for two signed integer types: `constrain(x, x < r)` and `constrain(x, x > r)` keep exactly the values that satisfy the comparison with some value of `r`.
Partial: except if the bound of `r` that is stepped is the limit of its type, where the behaviour is undefined (`C101_int_ub`). -/
theorem C101_int_partial (h : m ≤ n) (dbg : Bool) (x : Ivl (SInt n)) (r : Arg (SInt m)) (hx : Proper x) (hr : ProperA r) (k : XRel) (hk : strictX k = true)
    (hl : k = .xLess → r.hi.val ≠ -2^m) (hu : k = .lessX → r.lo.val ≠ 2^m - 1) (hs : ∃ u, SatX (widenV h) x r k u) :
    ∃ R, constrainM (widenV h) (predStep true) (succStep true) true dbg x r k = .ok R ∧ Proper R ∧ ∀ u, u ∈ᵢ R ↔ SatX (widenV h) x r k u := by
  have mono : MonoCast (widenV h) := C101_casts (K := ℚ).1 h
  obtain ⟨w, hw⟩ := hs
  rw [constrainM_body hx hr k (possible_x hx mono k hw)]
  have lx : x.lo.val ≤ x.hi.val := of_decide_eq_true hx
  obtain ⟨⟨w1, w2⟩, v, hv, w3⟩ := hw
  have w1 : x.lo.val ≤ w.val := of_decide_eq_true w1
  have w2 : w.val ≤ x.hi.val := of_decide_eq_true w2
  have v1 : r.lo.val ≤ v.val := of_decide_eq_true (mem_bounds.mp hv).1
  have v2 : v.val ≤ r.hi.val := of_decide_eq_true (mem_bounds.mp hv).2
  cases k <;> simp only [strictX, Bool.false_eq_true] at hk
  · obtain ⟨p, e, hp, -⟩ | ⟨-, e⟩ := pred_sint r.hi
    · have w3 : w.val < v.val := of_decide_eq_true w3
      have ev : (cmin x.hi (widenV h p)).val = min x.hi.val (r.hi.val - 1) := by
        unfold cmin
        simp only [CppVal.lt, decide_eq_true_eq]
        have : (widenV h p).val = r.hi.val - 1 := hp
        split <;> omega
      have el : CppVal.le x.lo (cmin x.hi (widenV h p)) = true := by simp only [CppVal.le, decide_eq_true_eq, ev]; omega
      refine ⟨⟨x.lo, cmin x.hi (widenV h p)⟩, by simp only [bodyX, e, ok_bind]; exact make_ok_of_le el, el, fun u => ?_⟩
      simp only [SatX, holdsX, Pt, CppVal.le, CppVal.lt, decide_eq_true_eq, ev]
      constructor
      · rintro ⟨q1, q2⟩
        exact ⟨⟨q1, by omega⟩, r.hi, hi_mem hr, by show u.val < r.hi.val; omega⟩
      · rintro ⟨⟨q1, q2⟩, v', hv', q3⟩
        have : v'.val ≤ r.hi.val := of_decide_eq_true (mem_bounds.mp hv').2
        have q3 : u.val < v'.val := q3
        exact ⟨q1, by omega⟩
    · exact absurd e (hl rfl)
  · obtain ⟨p, e, hp, -⟩ | ⟨-, e⟩ := succ_sint r.lo
    · have w3 : v.val < w.val := of_decide_eq_true w3
      have ev : (cmax (widenV h p) x.lo).val = max x.lo.val (r.lo.val + 1) := by
        unfold cmax
        simp only [CppVal.lt, decide_eq_true_eq]
        have : (widenV h p).val = r.lo.val + 1 := hp
        split <;> omega
      have el : CppVal.le (cmax (widenV h p) x.lo) x.hi = true := by simp only [CppVal.le, decide_eq_true_eq, ev]; omega
      refine ⟨⟨cmax (widenV h p) x.lo, x.hi⟩, by simp only [bodyX, e, ok_bind]; exact make_ok_of_le el, el, fun u => ?_⟩
      simp only [SatX, holdsX, Pt, CppVal.le, CppVal.lt, decide_eq_true_eq, ev]
      constructor
      · rintro ⟨q1, q2⟩
        exact ⟨⟨by omega, q2⟩, r.lo, lo_mem hr, by show r.lo.val < u.val; omega⟩
      · rintro ⟨⟨q1, q2⟩, v', hv', q3⟩
        have : r.lo.val ≤ v'.val := of_decide_eq_true (mem_bounds.mp hv').1
        have q3 : v'.val < u.val := q3
        exact ⟨by omega, q2⟩
    · exact absurd e (hu rfl)

/-- C101 fails for two signed integer types: constraining by a comparison is undefined behaviour exactly if it is `x < r` where `r` is at most the smallest number of its type and `x` may
be smaller still, or `x > r` where `r` is at least the largest number of its type and `x` may be larger still. -/
theorem C101_int_ub (h : m ≤ n) (dbg : Bool) (x : Ivl (SInt n)) (r : Arg (SInt m)) (hx : Proper x) (hr : ProperA r) (k : XRel) :
    constrainM (widenV h) (predStep true) (succStep true) true dbg x r k = .error .ub ↔
      (k = .xLess ∧ r.hi.val = -2^m ∧ x.lo.val < -2^m) ∨ (k = .lessX ∧ r.lo.val = 2^m - 1 ∧ 2^m - 1 < x.hi.val) := by
  have mono : MonoCast (widenV h) := C101_casts (K := ℚ).1 h
  have lx : x.lo ∈ᵢ x := ⟨CppOrder.le_left _ _ hx, hx⟩
  have hx' : x.hi ∈ᵢ x := ⟨hx, CppOrder.le_right _ _ hx⟩
  constructor
  · intro e
    by_cases hs : ∃ u, SatX (widenV h) x r k u
    · by_cases hk : strictX k = true
      · by_contra hn
        have key : ∃ R, constrainM (widenV h) (predStep true) (succStep true) true dbg x r k = .ok R := by
          obtain ⟨w, ⟨w1, w2⟩, v, hv, w3⟩ := hs
          have w1' : x.lo.val ≤ w.val := of_decide_eq_true w1
          have w2' : w.val ≤ x.hi.val := of_decide_eq_true w2
          have v1 : r.lo.val ≤ v.val := of_decide_eq_true (mem_bounds.mp hv).1
          have v2 : v.val ≤ r.hi.val := of_decide_eq_true (mem_bounds.mp hv).2
          obtain ⟨R, e, -⟩ := C101_int_partial h dbg x r hx hr k hk
            (fun hk' h' => hn (Or.inl ⟨hk', h', by subst hk'; have w3 : w.val < v.val := of_decide_eq_true w3; omega⟩))
            (fun hk' h' => hn (Or.inr ⟨hk', h', by subst hk'; have w3 : v.val < w.val := of_decide_eq_true w3; omega⟩)) ⟨w, ⟨w1, w2⟩, v, hv, w3⟩
          exact ⟨R, e⟩
        obtain ⟨R, e'⟩ := key
        rw [e] at e'; exact absurd e' (by simp)
      · obtain ⟨w, hw⟩ := hs
        obtain ⟨R, e', -⟩ := C101_keeps_partial (pr := predStep true) (su := succStep true) (d := true) (dbg := dbg) hx hr mono (fun _ => lawfulStep_bint _ _) k
          (fun h' => absurd h' hk) w hw
        rw [e] at e'; exact absurd e' (by simp)
    · by_cases hk : equalX k = true
      · obtain ⟨g1, g2⟩ := C101_equal (pr := predStep true) (su := succStep true) (d := true) (dbg := dbg) hx hr mono k hk
        by_cases c : CppVal.le x.lo (widenV h r.hi) = true ∧ CppVal.le (widenV h r.lo) x.hi = true
        · obtain ⟨R, e', -⟩ := g2 c
          rw [e] at e'; exact absurd e' (by simp)
        · rw [g1 (by simp only [CppVal.le, CppVal.lt, decide_eq_true_eq] at c ⊢; omega)] at e
          exact absurd e (by simp)
      · rw [C101_impossible hx hr mono k (by simpa using hk) hs] at e
        exact absurd e (by simp)
  · rintro (⟨rfl, h1, h2⟩ | ⟨rfl, h1, h2⟩)
    · refine C101_ub hx hr mono _ ⟨x.lo, lx, _, hi_mem hr, ?_⟩ (Or.inl ⟨rfl, ?_⟩)
      · show decide (x.lo.val < r.hi.val) = true; simp; omega
      · obtain ⟨p, -, -, e⟩ | ⟨e, -⟩ := pred_sint r.hi
        · exact absurd h1 e
        · exact e
    · refine C101_ub hx hr mono _ ⟨x.hi, hx', _, lo_mem hr, ?_⟩ (Or.inr ⟨rfl, ?_⟩)
      · show decide (r.lo.val < x.hi.val) = true; simp; omega
      · obtain ⟨p, -, -, e⟩ | ⟨e, -⟩ := succ_sint r.lo
        · exact absurd h1 e
        · exact e
end ints

/-! ## Unsigned scalars -/
section unsigned
variable {T : Type} [CppVal T] [CppNum T] [CppStep T] {m : Nat}
/-- C101: the functions of C98 are the special case of an unsigned scalar, which steps modulo `2^m`. -/
theorem C101_unsigned (cv : UInt m → T) (d dbg : Bool) (x : Ivl T) (c : UInt m) :
    constrainLtU cv dbg x c = constrainM cv (fun v => .ok (predU v)) (fun v => .ok (succU v)) d dbg x (.scalar c) .xLess ∧
    constrainGtU cv dbg x c = constrainM cv (fun v => .ok (predU v)) (fun v => .ok (succU v)) d dbg x (.scalar c) .lessX := by
  constructor
  · simp only [constrainLtU, opLt, constrainM, constrainRel, bind_assoc, pure_bind]; rfl
  · simp only [constrainGtU, opGt, constrainM, constrainRel, bind_assoc, pure_bind]; rfl
end unsigned

/-! ## Witnesses -/
/-- C101 is violated (detail/interval.hpp:257–269, 502–511): for `x = interval<long long>{ -2^40, 0 }`, `constrain(x, x < INT_MIN)` decrements `INT_MIN` as an `int`, although
values of `x` satisfy the comparison.  With `(long long) INT_MIN` the result is `[-2^40, -2^31 - 1]`. -/
theorem C101_violated :
    constrainM (widenV (show 31 ≤ 63 by decide)) (predStep true) (succStep true) true false ⟨i64 (-2^40), i64 0⟩ (.scalar (i32 (-2^31))) .xLess = .error .ub ∧
    SatX (widenV (show 31 ≤ 63 by decide)) ⟨i64 (-2^40), i64 0⟩ (.scalar (i32 (-2^31))) .xLess (i64 (-2^39)) ∧
    constrainM (fun v => v) (predStep true) (succStep true) true false ⟨i64 (-2^40), i64 0⟩ (.scalar (i64 (-2^31))) .xLess = .ok ⟨i64 (-2^40), i64 (-2^31 - 1)⟩ := by
  refine ⟨by decide, ⟨⟨by decide, by decide⟩, i32 (-2^31), ⟨by decide, by decide⟩, by decide⟩, by decide⟩

/-- C101 is violated for floating-point intervals and intervals of integers: for `x = interval<double>{ 0., 2. }` and `r = interval<int>{ 0, 1 }`, `constrain(x, x < r)` is `[0, 0]`:
`0.5 < 1` is lost (disagreement b with an interval in place of a number). -/
theorem C101_violated_step : letI := binary64Fmt
    constrainM (toFloatV (K := ℚ) (n := 31)) (predStep true) (succStep true) false true ⟨.num 0, .num 2⟩ (.ivl ⟨i32 0, i32 1⟩) .xLess = .ok ⟨.num 0, .num 0⟩ := by
  decide +kernel

/-! ## Non-triviality -/
/-- `constrain(x, x > r)` for `x = interval<long long>{ -5, 2^40 }` and `r = interval<int>{ 3, 7 }` is `[4, 2^40]` -/
example : constrainM (widenV (show 31 ≤ 63 by decide)) (predStep true) (succStep true) true true ⟨i64 (-5), i64 (2^40)⟩ (.ivl ⟨i32 3, i32 7⟩) .lessX =
    .ok ⟨i64 4, i64 (2^40)⟩ := by decide
/-- `constrain(x, x != 3)` removes an end point; `constrain(x, x == r)` intersects -/
example : constrainM (widenV (show 31 ≤ 63 by decide)) (predStep true) (succStep true) true true ⟨i64 3, i64 9⟩ (.scalar (i32 3)) .xNe = .ok ⟨i64 4, i64 9⟩ ∧
    constrainM (widenV (show 31 ≤ 63 by decide)) (predStep true) (succStep true) true true ⟨i64 3, i64 9⟩ (.ivl ⟨i32 0, i32 5⟩) .eqX = .ok ⟨i64 3, i64 5⟩ := by decide
/-- the operands of the examples satisfy the hypotheses, and `x <= r` is satisfiable for them -/
example : Proper (⟨i64 (-5), i64 (2^40)⟩ : Ivl (SInt 63)) ∧ ProperA (.ivl ⟨i32 3, i32 7⟩ : Arg (SInt 31)) ∧
    SatX (widenV (show 31 ≤ 63 by decide)) ⟨i64 (-5), i64 (2^40)⟩ (.ivl ⟨i32 3, i32 7⟩) .xLeq (i64 6) :=
  ⟨by decide, by decide, ⟨by decide, by decide⟩, i32 7, ⟨by decide, by decide⟩, by decide⟩
/-- nothing of `[5, 9]` is below an `int` in `[0, 5]` -/
example : ¬ ∃ u, SatX (widenV (show 31 ≤ 63 by decide)) ⟨i64 5, i64 9⟩ (.ivl ⟨i32 0, i32 5⟩) .xLess u := by
  rintro ⟨u, ⟨h1, -⟩, v, hv, h3⟩
  have h1 : 5 ≤ u.val := of_decide_eq_true h1
  have h2 : v.val ≤ 5 := of_decide_eq_true (mem_bounds.mp hv).2
  have h3 : u.val < v.val := of_decide_eq_true h3
  omega
/-- an unassigned operand -/
example : (Arg.ivl ⟨i32 7, i32 3⟩ : Arg (SInt 31)).assigned = false ∧
    constrainM (widenV (show 31 ≤ 63 by decide)) (predStep true) (succStep true) true true ⟨i64 5, i64 9⟩ (.ivl ⟨i32 7, i32 3⟩) .xLeq = .error .contract := by decide
end Intervals.Props
