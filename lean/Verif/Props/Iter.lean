import Verif.Model.Iter
import Verif.Spec.Iter
import Verif.Spec.Interval
import Verif.Lemmas.Val
/-!
# C29: iterator intervals
-/
namespace Intervals.Props
open Intervals CppVal Spec

section arith
variable {l1 h1 l2 h2 l h : Int}

theorem InB.lo {X : Arg (BInt l h)} (hX : InhabB X) : InB X.lo.val X := by
  cases X
  · rfl
  · exact ⟨Int.le_refl _, hX⟩
theorem InB.hi {X : Arg (BInt l h)} (hX : InhabB X) : InB X.hi.val X := by
  cases X
  · rfl
  · exact ⟨hX, Int.le_refl _⟩
theorem InB.bounds {X : Arg (BInt l h)} {a : Int} (ha : InB a X) : X.lo.val ≤ a ∧ a ≤ X.hi.val := by
  cases X
  · cases ha; exact ⟨Int.le_refl _, Int.le_refl _⟩
  · exact ha
theorem InB.of_bounds {X : Arg (BInt l h)} {a : Int} (h1 : X.lo.val ≤ a) (h2 : a ≤ X.hi.val) : InB a X := by
  cases X with
  | scalar s => change s.val ≤ a at h1; change a ≤ s.val at h2; change a = s.val; omega
  | ivl x => exact ⟨h1, h2⟩
theorem assigned_of_inhabB {X : Arg (BInt l h)} (hX : InhabB X) : X.assigned = true := by
  cases X with
  | scalar s => rfl
  | ivl x =>
    change x.lo.val ≤ x.hi.val at hX
    have : decide (x.hi.val < x.lo.val) = false := decide_eq_false (by omega)
    simp only [Arg.assigned, Ivl.assigned, CppVal.gt, CppVal.lt, this]; rfl

theorem ofInt_ok {v : Int} (hv : l ≤ v ∧ v ≤ h) : BInt.ofInt l h v = .ok ⟨v, hv.1, hv.2⟩ := by
  unfold BInt.ofInt; rw [dif_pos hv]
theorem ofInt_ub {v : Int} (hv : ¬ (l ≤ v ∧ v ≤ h)) : BInt.ofInt l h v = .error .ub := by
  unfold BInt.ofInt; rw [dif_neg hv]

theorem boundsProg {v1 v2 : Int} (hv : v1 ≤ v2) :
    ((¬ (l ≤ v1 ∧ v1 ≤ h) ∨ ¬ (l ≤ v2 ∧ v2 ≤ h)) ∧ (do Ivl.make (← BInt.ofInt l h v1) (← BInt.ofInt l h v2)) = .error .ub) ∨
    ((l ≤ v1 ∧ v1 ≤ h) ∧ (l ≤ v2 ∧ v2 ≤ h) ∧ ∃ R, (do Ivl.make (← BInt.ofInt l h v1) (← BInt.ofInt l h v2)) = .ok R ∧
      R.lo.val = v1 ∧ R.hi.val = v2) := by
  by_cases a : l ≤ v1 ∧ v1 ≤ h
  · by_cases b : l ≤ v2 ∧ v2 ≤ h
    · right; refine ⟨a, b, ?_⟩
      rw [ofInt_ok a, ofInt_ok b]
      refine ⟨⟨⟨v1, a.1, a.2⟩, ⟨v2, b.1, b.2⟩⟩, ?_, rfl, rfl⟩
      have : decide (v2 < v1) = false := decide_eq_false (by omega)
      simp only [ok_bind, Ivl.make, CppVal.gt, CppVal.lt, this]; rfl
    · left; refine ⟨Or.inr b, ?_⟩
      rw [ofInt_ok a, ofInt_ub b]; rfl
  · left; refine ⟨Or.inl a, ?_⟩
    rw [ofInt_ub a]; rfl

/-- a point function that is extremal at two corners -/
theorem exactB_of {g : Int → Int → Int} {X : Arg (BInt l1 h1)} {Y : Arg (BInt l2 h2)} {a b c d : Int}
    (ha : InB a X) (hb : InB b Y) (hc : InB c X) (hd : InB d Y)
    (hg : ∀ x y, InB x X → InB y Y → g a b ≤ g x y ∧ g x y ≤ g c d) {res : Outcome (Ivl (BInt l h))}
    (hres : res = (do Ivl.make (← BInt.ofInt l h (g a b)) (← BInt.ofInt l h (g c d)))) : ExactB g X Y res := by
  subst hres
  rcases boundsProg (l := l) (h := h) (hg c d hc hd).1 with ⟨h, he⟩ | ⟨p, q, R, he, e1, e2⟩
  · left; refine ⟨?_, he⟩
    rcases h with h | h
    · exact ⟨a, b, ha, hb, h⟩
    · exact ⟨c, d, hc, hd, h⟩
  · right
    refine ⟨fun x y hx hy => ?_, R, he, fun x y hx hy => ?_, ⟨a, b, ha, hb, e1.symm⟩, ⟨c, d, hc, hd, e2.symm⟩⟩
    · have := hg x y hx hy; omega
    · have := hg x y hx hy; omega
end arith

variable {n m : Nat}

/-- C29: `it + d` -/
theorem C29_iter_add (dbg : Bool) (X : Arg (Iter n)) (D : Arg (SInt m)) (hX : InhabB X) (hD : InhabB D) :
    ExactB (fun a d => a + d) X D (iterAddI dbg X D) := by
  refine exactB_of (InB.lo hX) (InB.lo hD) (InB.hi hX) (InB.hi hD) (fun x y hx hy => ?_) ?_
  · have := InB.bounds hx; have := InB.bounds hy; omega
  · unfold iterAddI
    rw [assigned_of_inhabB hX, assigned_of_inhabB hD, Bool.and_self, expectsDebug_true]; rfl
/-- C29: `d + it` -/
theorem C29_add_iter (dbg : Bool) (D : Arg (SInt m)) (X : Arg (Iter n)) (hD : InhabB D) (hX : InhabB X) :
    ExactB (fun d a => d + a) D X (addIterI dbg D X) := by
  refine exactB_of (InB.lo hD) (InB.lo hX) (InB.hi hD) (InB.hi hX) (fun x y hx hy => ?_) ?_
  · have := InB.bounds hx; have := InB.bounds hy; omega
  · unfold addIterI Iter.add
    rw [assigned_of_inhabB hX, assigned_of_inhabB hD, Bool.and_self, expectsDebug_true,
      Int.add_comm X.lo.val, Int.add_comm X.hi.val]; rfl
/-- C29: `it - d` -/
theorem C29_iter_sub (dbg : Bool) (X : Arg (Iter n)) (D : Arg (SInt m)) (hX : InhabB X) (hD : InhabB D) :
    ExactB (fun a d => a - d) X D (iterSubI dbg X D) := by
  refine exactB_of (InB.lo hX) (InB.hi hD) (InB.hi hX) (InB.lo hD) (fun x y hx hy => ?_) ?_
  · have := InB.bounds hx; have := InB.bounds hy; omega
  · unfold iterSubI
    rw [assigned_of_inhabB hX, assigned_of_inhabB hD, Bool.and_self, expectsDebug_true]; rfl
/-- C29: `it1 - it2` -/
theorem C29_iter_diff (m : Nat) (dbg : Bool) (X Y : Arg (Iter n)) (hX : InhabB X) (hY : InhabB Y) :
    ExactB (fun a b => a - b) X Y (iterDiffI m dbg X Y) := by
  refine exactB_of (InB.lo hX) (InB.hi hY) (InB.hi hX) (InB.lo hY) (fun x y hx hy => ?_) ?_
  · have := InB.bounds hx; have := InB.bounds hy; omega
  · unfold iterDiffI
    rw [assigned_of_inhabB hX, assigned_of_inhabB hY, Bool.and_self, expectsDebug_true]; rfl
/-- C29: a range that fits into the difference type has no undefined differences. -/
theorem C29_iter_diff_defined (m : Nat) (dbg : Bool) (X Y : Arg (Iter n)) (hX : InhabB X) (hY : InhabB Y) (hn : (n : Int) < 2^m) :
    ∃ R, iterDiffI m dbg X Y = .ok R := by
  rcases C29_iter_diff m dbg X Y hX hY with ⟨⟨a, b, ha, hb, h⟩, _⟩ | ⟨_, R, hR, _⟩
  · exfalso; apply h
    have := InB.bounds ha; have := InB.bounds hb
    have := X.lo.ge; have := X.hi.le; have := Y.lo.ge; have := Y.hi.le
    simp only; omega
  · exact ⟨R, hR⟩
/-- C29: `next`, `prev` -/
theorem C29_next (X : Ivl (Iter n)) (hX : InhabB (.ivl X)) : ExactB (fun a _ => a + 1) (.ivl X) (.ivl X) (nextI X) :=
  exactB_of (InB.lo hX) (InB.lo hX) (InB.hi hX) (InB.lo hX) (fun x y hx _ => by have := InB.bounds hx; omega) rfl
theorem C29_prev (X : Ivl (Iter n)) (hX : InhabB (.ivl X)) : ExactB (fun a _ => a - 1) (.ivl X) (.ivl X) (prevI X) :=
  exactB_of (InB.lo hX) (InB.lo hX) (InB.hi hX) (InB.lo hX) (fun x y hx _ => by have := InB.bounds hx; omega) rfl

section deref
variable {V : Type} [CppVal V]

theorem derefLoop_reads (r1 r2 : Iter n → Outcome V) (last : Iter n) : ∀ (k : Nat) (pos : Iter n) (acc : Ivl V),
    last.val + 1 - pos.val ≤ k → (∀ p : Iter n, pos.val ≤ p.val → p.val ≤ last.val → r1 p = r2 p) →
    derefLoop r1 last pos acc = derefLoop r2 last pos acc := by
  intro k
  induction k with
  | zero =>
    intro pos acc hk _
    rw [derefLoop, derefLoop, if_neg (by omega), if_neg (by omega)]
  | succ k ih =>
    intro pos acc hk hr
    rw [derefLoop, derefLoop]
    split
    · next hp =>
      rw [hr pos (Int.le_refl _) hp]
      split
      · rfl
      · split
        · rfl
        · next p' hp' =>
          have : p'.val = pos.val + 1 := by
            unfold BInt.ofInt at hp'
            split at hp'
            · cases hp'; rfl
            · cases hp'
          exact ih p' _ (by omega) (fun p a b => hr p (by omega) b)
    · rfl

/-- C29: dereferencing reads only positions inside the interval: the outcome does not depend on what a read at any other position
would do. -/
theorem C29_deref_reads [CppLimits V] (X : Ivl (Iter n)) (r1 r2 : Iter n → Outcome V)
    (h : ∀ p : Iter n, InB p.val (.ivl X) → r1 p = r2 p) : derefI r1 X = derefI r2 X :=
  derefLoop_reads r1 r2 X.hi (X.hi.val + 1 - X.lo.val).toNat X.lo _ (by omega) (fun p a b => h p ⟨a, b⟩)

/-- loop invariant -/
theorem derefLoop_spec [CppOrder V] (a : List V) (last : Iter a.length) (hl : last.val < a.length) :
    ∀ (k : Nat) (pos : Iter a.length) (acc : Ivl V), last.val + 1 - pos.val ≤ k →
    ∃ R, derefLoop (readAt a) last pos acc = .ok R ∧
      ((last.val < pos.val ∧ R = acc) ∨
       (pos.val ≤ last.val ∧ ∃ items : List V, R = items.foldl Ivl.assignVal acc ∧
          ∀ v, v ∈ items ↔ ∃ i : Nat, pos.val ≤ i ∧ i ≤ last.val ∧ a[i]? = some v)) := by
  intro k
  induction k with
  | zero =>
    intro pos acc hk
    rw [derefLoop, if_neg (by omega)]
    exact ⟨acc, rfl, Or.inl ⟨by omega, rfl⟩⟩
  | succ k ih =>
    intro pos acc hk
    rw [derefLoop]
    by_cases hp : pos.val ≤ last.val
    · rw [if_pos hp]
      have hpos := pos.ge
      have hlt : pos.val.toNat < a.length := by omega
      have hread : readAt a pos = .ok a[pos.val.toNat] := by
        unfold readAt; rw [List.getElem?_eq_getElem hlt]
      have hstep := ofInt_ok (l := 0) (h := a.length) (v := pos.val + 1) ⟨by omega, by omega⟩
      obtain ⟨R, hR, hcase⟩ := ih ⟨pos.val + 1, by omega, by omega⟩ (Ivl.assignVal acc a[pos.val.toNat]) (by simp only; omega)
      refine ⟨R, ?_, Or.inr ⟨hp, ?_⟩⟩
      · rw [hread]
        split
        · next h => cases h
        · next v h =>
          cases h
          split
          · next e h => rw [hstep] at h; cases h
          · next p' h => rw [hstep] at h; cases h; exact hR
      · rcases hcase with ⟨hgt, hRe⟩ | ⟨hle, items, hRe, hmem⟩
        · simp only at hgt
          refine ⟨[a[pos.val.toNat]], hRe, fun v => ?_⟩
          constructor
          · intro h
            simp only [List.mem_singleton] at h
            refine ⟨pos.val.toNat, by omega, by omega, ?_⟩
            rw [List.getElem?_eq_getElem hlt, h]
          · rintro ⟨i, h1, h2, h3⟩
            have : i = pos.val.toNat := by omega
            subst this
            rw [List.getElem?_eq_getElem hlt] at h3
            simp only [Option.some.injEq] at h3
            simp [h3]
        · simp only at hle
          refine ⟨a[pos.val.toNat] :: items, hRe, fun v => ?_⟩
          simp only [List.mem_cons, hmem]
          constructor
          · rintro (h | ⟨i, h1, h2, h3⟩)
            · refine ⟨pos.val.toNat, by omega, by omega, ?_⟩
              rw [List.getElem?_eq_getElem hlt, h]
            · exact ⟨i, by omega, h2, h3⟩
          · rintro ⟨i, h1, h2, h3⟩
            by_cases he : i = pos.val.toNat
            · subst he
              rw [List.getElem?_eq_getElem hlt] at h3
              simp only [Option.some.injEq] at h3
              exact Or.inl h3.symm
            · exact Or.inr ⟨i, by omega, h2, h3⟩
    · rw [if_neg hp]
      exact ⟨acc, rfl, Or.inl ⟨by omega, rfl⟩⟩

theorem derefLoop_ub (a : List V) (last : Iter a.length) (hl : last.val = a.length) :
    ∀ (k : Nat) (pos : Iter a.length) (acc : Ivl V), last.val - pos.val ≤ k → pos.val ≤ last.val →
    derefLoop (readAt a) last pos acc = .error .ub := by
  have hend : ∀ (pos : Iter a.length) (acc : Ivl V), pos.val = last.val → derefLoop (readAt a) last pos acc = .error .ub := by
    intro pos acc hp
    rw [derefLoop, if_pos (by omega)]
    have : readAt a pos = .error .ub := by
      unfold readAt
      rw [List.getElem?_eq_none (by omega)]
    rw [this]
  intro k
  induction k with
  | zero => intro pos acc hk hp; exact hend pos acc (by omega)
  | succ k ih =>
    intro pos acc hk hp
    by_cases he : pos.val = last.val
    · exact hend pos acc he
    · rw [derefLoop, if_pos hp]
      have hpos := pos.ge
      have hlt : pos.val.toNat < a.length := by omega
      have hread : readAt a pos = .ok a[pos.val.toNat] := by
        unfold readAt; rw [List.getElem?_eq_getElem hlt]
      have hstep := ofInt_ok (l := 0) (h := a.length) (v := pos.val + 1) ⟨by omega, by omega⟩
      rw [hread]
      split
      · next h => cases h
      · next v h =>
        split
        · next e h => rw [hstep] at h; cases h
        · next p' h =>
          rw [hstep] at h; cases h
          exact ih _ _ (by simp only; omega) (by simp only; omega)

/-- accumulating NaN-free values from scratch yields their hull -/
theorem foldl_assign_hull [CppOrder V] (items : List V) (acc : Ivl V)
    (hn : ∀ v ∈ items, NotNan v) (ha : NotNan acc.lo ∧ NotNan acc.hi) :
    let R := items.foldl Ivl.assignVal acc
    (le R.lo acc.lo = true ∧ le acc.hi R.hi = true) ∧ (∀ v ∈ items, v ∈ᵢ R) ∧
    (R.lo = acc.lo ∨ R.lo ∈ items) ∧ (R.hi = acc.hi ∨ R.hi ∈ items) := by
  induction items generalizing acc with
  | nil => exact ⟨⟨ha.1, ha.2⟩, by simp, Or.inl rfl, Or.inl rfl⟩
  | cons v vs ih =>
    have hv := hn v (by simp)
    obtain ⟨⟨a1, a2⟩, h2, h3, h4⟩ := ih (Ivl.assignVal acc v) (fun w hw => hn w (by simp [hw])) (by
      simp only [Ivl.assignVal, Ivl.assignCore]
      constructor
      · rcases cmin_cases acc.lo v with h | h <;> rw [h]
        · exact ha.1
        · exact hv
      · rcases cmax_cases acc.hi v with h | h <;> rw [h]
        · exact ha.2
        · exact hv)
    have b1 : le (cmin acc.lo v) acc.lo = true ∧ le (cmin acc.lo v) v = true := by
      have h := ha.1; unfold NotNan at h hv; grind
    have b2 : le acc.hi (cmax acc.hi v) = true ∧ le v (cmax acc.hi v) = true := by
      have h := ha.2; unfold NotNan at h hv; grind
    simp only [Ivl.assignVal, Ivl.assignCore] at a1 a2 h3 h4
    simp only [List.foldl_cons]
    refine ⟨⟨cle_trans a1 b1.1, cle_trans b2.1 a2⟩, ?_, ?_, ?_⟩
    · intro w hw
      rcases List.mem_cons.mp hw with rfl | hw
      · exact ⟨cle_trans a1 b1.2, cle_trans b2.2 a2⟩
      · exact h2 w hw
    · rcases h3 with h | h
      · rcases cmin_cases acc.lo v with h' | h'
        · exact Or.inl (by rw [← h']; exact h)
        · exact Or.inr (List.mem_cons.mpr (Or.inl (h.trans h')))
      · exact Or.inr (List.mem_cons_of_mem _ h)
    · rcases h4 with h | h
      · rcases cmax_cases acc.hi v with h' | h'
        · exact Or.inl (by rw [← h']; exact h)
        · exact Or.inr (List.mem_cons.mpr (Or.inl (h.trans h')))
      · exact Or.inr (List.mem_cons_of_mem _ h)

/-- C29: dereferencing an iterator interval that reaches the past-the-end position is undefined behaviour, otherwise it yields the
smallest interval containing every element at a position in the interval.  (Elements must not be NaN.) -/
theorem C29_deref [CppOrder V] [CppLimits V] [CppLawfulLimits V] (a : List V) (hn : ∀ v ∈ a, NotNan v)
    (X : Ivl (Iter a.length)) (hX : InhabB (.ivl X)) :
    (X.hi.val = a.length ∧ derefI (readAt a) X = .error .ub) ∨
    (X.hi.val < a.length ∧ ∃ R, derefI (readAt a) X = .ok R ∧
      (∀ (i : Nat) v, InB i (.ivl X) → a[i]? = some v → v ∈ᵢ R) ∧
      (∃ (i : Nat) (v : V), InB i (.ivl X) ∧ a[i]? = some v ∧ eq R.lo v = true) ∧
      (∃ (i : Nat) (v : V), InB i (.ivl X) ∧ a[i]? = some v ∧ eq R.hi v = true)) := by
  have hX' : X.lo.val ≤ X.hi.val := hX
  have h1 := X.hi.le
  have h0 := X.lo.ge
  by_cases he : X.hi.val = a.length
  · left
    exact ⟨he, derefLoop_ub a X.hi he (X.hi.val - X.lo.val).toNat X.lo _ (by omega) hX'⟩
  · right
    refine ⟨by omega, ?_⟩
    obtain ⟨R, hR, hc⟩ := derefLoop_spec a X.hi (by omega) (X.hi.val + 1 - X.lo.val).toNat X.lo Ivl.unassigned (by omega)
    refine ⟨R, hR, ?_⟩
    rcases hc with ⟨h, _⟩ | ⟨_, items, hRe, hmem⟩
    · omega
    · have hb : NotNan (CppLimits.bot : V) := by
        have := CppLawfulLimits.bot_lt_top (T := V); unfold NotNan; grind
      have ht : NotNan (CppLimits.top : V) := by
        have := CppLawfulLimits.bot_lt_top (T := V); unfold NotNan; grind
      have hnn : ∀ v ∈ items, NotNan v := by
        intro v hv
        obtain ⟨i, _, _, h⟩ := (hmem v).mp hv
        exact hn v (List.mem_of_getElem? h)
      obtain ⟨_, hin, hlo, hhi⟩ := foldl_assign_hull items Ivl.unassigned hnn ⟨ht, hb⟩
      rw [← hRe] at hin hlo hhi
      have hlt : X.lo.val.toNat < a.length := by omega
      have hv0 : a[X.lo.val.toNat]? = some a[X.lo.val.toNat] := List.getElem?_eq_getElem hlt
      have hm0 : a[X.lo.val.toNat] ∈ items := (hmem _).mpr ⟨X.lo.val.toNat, by omega, by omega, hv0⟩
      refine ⟨fun i v hi hv => hin v ((hmem v).mpr ⟨i, hi.1, hi.2, hv⟩), ?_, ?_⟩
      · rcases hlo with h | h
        · refine ⟨X.lo.val.toNat, _, ⟨by omega, by omega⟩, hv0, ?_⟩
          have e1 := (hin _ hm0).1
          have e2 := CppLawfulLimits.le_top (a[X.lo.val.toNat]) (hnn _ hm0)
          rw [h] at e1 ⊢
          rw [ceq_def]
          change (le CppLimits.top _ && le _ CppLimits.top) = true
          rw [e2, Bool.and_true]; exact e1
        · obtain ⟨i, a1, a2, a3⟩ := (hmem _).mp h
          refine ⟨i, _, ⟨a1, a2⟩, a3, ?_⟩
          have := hnn _ h
          rw [ceq_def, Bool.and_self]; exact this
      · rcases hhi with h | h
        · refine ⟨X.lo.val.toNat, _, ⟨by omega, by omega⟩, hv0, ?_⟩
          have e1 := (hin _ hm0).2
          have e2 := CppLawfulLimits.bot_le (a[X.lo.val.toNat]) (hnn _ hm0)
          rw [h] at e1 ⊢
          rw [ceq_def]
          change (le CppLimits.bot _ && le _ CppLimits.bot) = true
          rw [e2, Bool.true_and]; exact e1
        · obtain ⟨i, a1, a2, a3⟩ := (hmem _).mp h
          refine ⟨i, _, ⟨a1, a2⟩, a3, ?_⟩
          have := hnn _ h
          rw [ceq_def, Bool.and_self]; exact this

/-- C29: indexing an iterator interval by an offset (scalar or interval) yields the smallest interval containing every element at a
position `p + d`; it is undefined iff some such position is not the position of an element. -/
theorem C29_index [CppOrder V] [CppLimits V] [CppLawfulLimits V] (dbg : Bool) (a : List V) (hn : ∀ v ∈ a, NotNan v)
    (X : Ivl (Iter a.length)) (D : Arg (SInt m)) (hX : InhabB (.ivl X)) (hD : InhabB D) :
    ((∃ p d, InB p (.ivl X) ∧ InB d D ∧ ¬ (0 ≤ p + d ∧ p + d < a.length)) ∧ indexI dbg (readAt a) X D = .error .ub) ∨
    ((∀ p d, InB p (.ivl X) → InB d D → 0 ≤ p + d ∧ p + d < a.length) ∧ ∃ R, indexI dbg (readAt a) X D = .ok R ∧
      (∀ p d (i : Nat) v, InB p (.ivl X) → InB d D → (i : Int) = p + d → a[i]? = some v → v ∈ᵢ R) ∧
      (∃ p d, ∃ (i : Nat) (v : V), InB p (.ivl X) ∧ InB d D ∧ (i : Int) = p + d ∧ a[i]? = some v ∧ eq R.lo v = true) ∧
      (∃ p d, ∃ (i : Nat) (v : V), InB p (.ivl X) ∧ InB d D ∧ (i : Int) = p + d ∧ a[i]? = some v ∧ eq R.hi v = true)) := by
  unfold indexI
  rcases C29_iter_add dbg (.ivl X) D hX hD with ⟨⟨p, d, hp, hd, h⟩, he⟩ | ⟨hr, Y, hY, hin, ⟨p, d, hp, hd, hlo⟩, ⟨p', d', hp', hd', hhi⟩⟩
  · left; refine ⟨⟨p, d, hp, hd, fun h' => h ⟨h'.1, by simp only; omega⟩⟩, ?_⟩
    rw [he]; rfl
  · rw [hY]; simp only [ok_bind]
    have hYp : InhabB (.ivl Y) := by have := (hin p d hp hd).1; have := (hin p d hp hd).2; change Y.lo.val ≤ Y.hi.val; omega
    rcases C29_deref a hn Y hYp with ⟨h, he⟩ | ⟨h, R, hR, hR1, ⟨i1, v1, a1, a2, a3⟩, ⟨i2, v2, b1, b2, b3⟩⟩
    · left; exact ⟨⟨p', d', hp', hd', by simp only at hhi; omega⟩, he⟩
    · right
      have split : ∀ i : Int, InB i (.ivl Y) → ∃ p d, InB p (.ivl X) ∧ InB d D ∧ i = p + d := by
        rintro i ⟨hi1, hi2⟩
        have hX' : X.lo.val ≤ X.hi.val := hX
        obtain ⟨_, _⟩ := id hp
        obtain ⟨_, _⟩ := id hp'
        have := InB.bounds hd; have := InB.bounds hd'
        simp only at hlo hhi
        have e1 := hin X.lo.val D.lo.val (InB.lo hX) (InB.lo hD)
        have e2 := hin X.hi.val D.hi.val (InB.hi hX) (InB.hi hD)
        simp only at e1 e2
        by_cases hc : i - D.lo.val ≤ X.hi.val
        · exact ⟨i - D.lo.val, D.lo.val, ⟨by omega, hc⟩, InB.lo hD, by omega⟩
        · exact ⟨X.hi.val, i - X.hi.val, InB.hi hX, InB.of_bounds (by omega) (by omega), by omega⟩
      obtain ⟨p1, d1, c1, c2, c3⟩ := split i1 a1
      obtain ⟨p2, d2, c4, c5, c6⟩ := split i2 b1
      refine ⟨fun p d hp hd => ?_, R, hR, fun p d i v hp hd hi hv => ?_, ⟨p1, d1, i1, v1, c1, c2, c3, a2, a3⟩,
        ⟨p2, d2, i2, v2, c4, c5, c6, b2, b3⟩⟩
      · have := hin p d hp hd; have := hr p d hp hd; simp only at *; omega
      · apply hR1 i v _ hv
        have := hin p d hp hd; simp only at this
        exact ⟨by omega, by omega⟩

/-! Examples -/
def exA : List (SInt 31) := [i32 4, i32 (-7), i32 9, i32 2]
def exP : Ivl (Iter exA.length) := ⟨⟨1, by decide, by decide⟩, ⟨3, by decide, by decide⟩⟩
example : InhabB (.ivl exP) := by unfold InhabB exP; decide
example : ∀ v ∈ exA, NotNan v := by decide
example : derefI (readAt exA) exP = .ok ⟨i32 (-7), i32 9⟩ := by
  simp [derefI, derefLoop, readAt, exP, exA, BInt.ofInt, Ivl.assignVal, Ivl.assignCore]; decide
end deref
end Intervals.Props
