import Verif.Model.Stream
import Verif.Spec.Stream
import Verif.Spec.Interval
import Verif.Lemmas.Enumerate
import Verif.Props.Basic
import Mathlib.Data.List.Basic
/-!
# C58: streamed text
-/
namespace Intervals.Props
open Intervals CppVal Spec

section set
variable {V : Type _} [DecidableEq V] {vals : List V}

private def tailText (shw : V → List Char) (l : List V) : List Char := (l.map (fun v => [',', ' '] ++ shw v)).flatten

private theorem commaList_cons (shw : V → List Char) (v : V) (l : List V) : commaList ((v :: l).map shw) = shw v ++ tailText shw l := by
  induction l generalizing v with
  | nil => simp [commaList, tailText]
  | cons w l ih =>
    simp only [List.map_cons] at ih ⊢
    rw [commaList, ih w]
    simp [tailText]

private theorem loop_false (shw : V → List Char) (x : CSet vals) : ∀ (k i : Nat) (st : List Char), i + k = vals.length →
    streamSetLoop shw x i false st = .ok (st ++ tailText shw (membersFrom x i)) := by
  intro k
  induction k with
  | zero => intro i st hi; rw [streamSetLoop, membersFrom, dif_neg (by omega), dif_neg (by omega)]; simp [tailText]
  | succ k ih =>
    intro i st hi
    have hlt : i < vals.length := by omega
    rw [streamSetLoop, membersFrom, dif_pos hlt, dif_pos hlt]
    have hc : CSet.containsIndex x (i : Int) = .ok (x.getLsbD i) := by simp [CSet.containsIndex, hlt, pure, Except.pure]
    rw [hc]
    cases hb : x.getLsbD i with
    | false => simp only; rw [ih (i + 1) st (by omega)]; simp
    | true => simp only; rw [ih (i + 1) _ (by omega)]; simp [tailText]

private theorem loop_true (shw : V → List Char) (x : CSet vals) : ∀ (k i : Nat) (st : List Char), i + k = vals.length →
    streamSetLoop shw x i true st = .ok (st ++ commaList ((membersFrom x i).map shw)) := by
  intro k
  induction k with
  | zero => intro i st hi; rw [streamSetLoop, membersFrom, dif_neg (by omega), dif_neg (by omega)]; simp [commaList]
  | succ k ih =>
    intro i st hi
    have hlt : i < vals.length := by omega
    rw [streamSetLoop, membersFrom, dif_pos hlt, dif_pos hlt]
    have hc : CSet.containsIndex x (i : Int) = .ok (x.getLsbD i) := by simp [CSet.containsIndex, hlt, pure, Except.pure]
    rw [hc]
    cases hb : x.getLsbD i with
    | false => simp only; rw [ih (i + 1) st (by omega)]; simp
    | true =>
      simp only [if_true]; rw [loop_false shw x k (i + 1) _ (by omega)]
      simp only [List.singleton_append]
      rw [commaList_cons]; simp

/-- C58 for sets: what is appended to the stream is the comma-separated list of exactly the members, in index order, between braces. -/
theorem C58_set (hn : vals.Nodup) (shw : V → List Char) (stream : List Char) (x : CSet vals) :
    ∃ t, streamSet shw stream x = .ok (stream ++ t) ∧ SetText shw x t := by
  refine ⟨"{ ".toList ++ commaList ((membersFrom x 0).map shw) ++ " }".toList, ?_, membersFrom x 0, ?_, fun v => ?_, rfl⟩
  · unfold streamSet
    rw [loop_true shw x vals.length 0 _ (by omega), ok_bind]
    simp [pure, Except.pure]
  · simpa using membersFrom_sublist x vals.length 0 (by omega)
  · rw [mem_membersFrom x v vals.length 0 (by omega)]
    constructor
    · rintro ⟨j, _, hj, hb, rfl⟩
      exact (SMem_getElem hn hj).mpr hb
    · intro h
      obtain ⟨i, hi, hb⟩ := SMem_iff.mp h
      obtain ⟨hi1, hi2, _⟩ := findValueIndex_ok hi
      exact ⟨i, by omega, hi1, hb, hi2⟩

private theorem sublist_ext : ∀ (vals ms ms' : List V), vals.Nodup → ms.Sublist vals → ms'.Sublist vals → (∀ v, v ∈ ms ↔ v ∈ ms') → ms = ms' := by
  intro vals
  induction vals with
  | nil => intro ms ms' _ h h' _; rw [List.sublist_nil.mp h, List.sublist_nil.mp h']
  | cons a vals ih =>
    intro ms ms' hn h h' he
    rw [List.nodup_cons] at hn
    rcases List.sublist_cons_iff.mp h with h1 | ⟨r, rfl, h1⟩ <;> rcases List.sublist_cons_iff.mp h' with h2 | ⟨r', rfl, h2⟩
    · exact ih ms ms' hn.2 h1 h2 he
    · exact absurd (h1.subset ((he a).mpr (by simp))) hn.1
    · exact absurd (h2.subset ((he a).mp (by simp))) hn.1
    · rw [ih r r' hn.2 h1 h2 (fun v => ?_)]
      have := he v
      simp only [List.mem_cons] at this
      by_cases hv : v = a
      · subst hv; exact ⟨fun h => absurd (h1.subset h) hn.1, fun h => absurd (h2.subset h) hn.1⟩
      · simpa [hv] using this

/-- C58: a set has exactly one text -/
theorem C58_set_unique (hn : vals.Nodup) (shw : V → List Char) (x : CSet vals) (t t' : List Char) (h : SetText shw x t) (h' : SetText shw x t') :
    t = t' := by
  obtain ⟨ms, s1, m1, rfl⟩ := h
  obtain ⟨ms', s2, m2, rfl⟩ := h'
  rw [sublist_ext vals ms ms' hn s1 s2 (fun v => (m1 v).trans (m2 v).symm)]

theorem split_comma : ∀ (a b r r' : List Char), ',' ∉ a → ',' ∉ b → a ++ ',' :: r = b ++ ',' :: r' → a = b ∧ r = r' := by
  intro a
  induction a with
  | nil =>
    intro b r r' _ hb h
    cases b with
    | nil => simpa using h
    | cons c b => simp at h; simp [← h.1] at hb
  | cons d a ih =>
    intro b r r' ha hb h
    cases b with
    | nil => simp at h; simp [h.1] at ha
    | cons c b =>
      simp only [List.cons_append, List.cons.injEq] at h
      simp only [List.mem_cons, not_or] at ha hb
      obtain ⟨e, e'⟩ := ih b r r' ha.2 hb.2 h.2
      exact ⟨by rw [h.1, e], e'⟩

private theorem commaList_inj : ∀ (l l' : List (List Char)), (∀ a ∈ l, ',' ∉ a ∧ a ≠ []) → (∀ a ∈ l', ',' ∉ a ∧ a ≠ []) → commaList l = commaList l' → l = l' := by
  intro l
  induction l with
  | nil =>
    intro l' _ h' h
    match l' with
    | [] => rfl
    | [a] => simp only [commaList] at h; exact absurd h.symm (h' a (by simp)).2
    | a :: b :: l' => simp [commaList] at h
  | cons a l ih =>
    intro l' h1 h2 h
    match l, l' with
    | [], [] => simp only [commaList] at h; exact absurd h (h1 a (by simp)).2
    | [], [b] => simpa [commaList] using h
    | [], b :: c :: l' =>
      simp only [commaList] at h
      have : ',' ∈ a := by rw [h]; simp
      exact absurd this (h1 a (by simp)).1
    | b :: l, [] => simp [commaList] at h
    | b :: l, [c] =>
      simp only [commaList] at h
      have : ',' ∈ c := by rw [← h]; simp
      exact absurd this (h2 c (by simp)).1
    | b :: l, c :: d :: l' =>
      simp only [commaList] at h
      obtain ⟨e1, e2⟩ := split_comma a c (' ' :: commaList (b :: l)) (' ' :: commaList (d :: l')) (h1 a (by simp)).1 (h2 c (by simp)).1 (by simpa using h)
      have e3 := ih (d :: l') (fun x hx => h1 x (by simp [hx])) (fun x hx => h2 x (by simp [hx])) (by simpa using e2)
      rw [e1, e3]

/-- C58: the text shows the content: if the texts of the values are distinct, not empty and free of commas, then different sets have different
texts. -/
theorem C58_set_faithful (hn : vals.Nodup) (shw : V → List Char) (hinj : ∀ v w, shw v = shw w → v = w) (hne : ∀ v, ',' ∉ shw v ∧ shw v ≠ [])
    (x y : CSet vals) (stream : List Char) (h : streamSet shw stream x = streamSet shw stream y) : x = y := by
  obtain ⟨t, ht, ms, s1, m1, rfl⟩ := C58_set hn shw stream x
  obtain ⟨t', ht', ms', s2, m2, rfl⟩ := C58_set hn shw stream y
  rw [ht, ht'] at h
  have e : commaList (ms.map shw) = commaList (ms'.map shw) := by
    have := Except.ok.inj h
    simpa using this
  have e2 := commaList_inj _ _ (fun a ha => by obtain ⟨v, _, rfl⟩ := List.mem_map.mp ha; exact hne v)
    (fun a ha => by obtain ⟨v, _, rfl⟩ := List.mem_map.mp ha; exact hne v) e
  have e3 : ms = ms' := List.map_injective_iff.mpr (fun v w => hinj v w) e2
  exact ext_SMem hn (fun v => by rw [← m1, ← m2, e3])
end set

section ivl
variable {T : Type _} [CppVal T] [CppOrder T]
/-- C58 for intervals: the single value if all points are equal, `[lower, upper]` otherwise. -/
theorem C58_interval (dbg : Bool) (shw : T → List Char) (stream : List Char) (x : Ivl T) (hx : Proper x) :
    ((∀ p q, p ∈ᵢ x → q ∈ᵢ x → eq p q = true) → streamIvl dbg shw stream x = .ok (stream ++ shw x.lo)) ∧
    ((∃ p q, p ∈ᵢ x ∧ q ∈ᵢ x ∧ eq p q = false) →
      streamIvl dbg shw stream x = .ok (stream ++ "[".toList ++ shw x.lo ++ ", ".toList ++ shw x.hi ++ "]".toList)) := by
  have hx' : le x.lo x.hi = true := hx
  have has : x.assigned = true := assigned_of_proper hx
  constructor
  · intro h
    have : eq x.lo x.hi = true := h _ _ ⟨by grind, hx'⟩ ⟨hx', by grind⟩
    simp [streamIvl, has, this, pure, Except.pure]
  · rintro ⟨p, q, hp, hq, hne⟩
    have : eq x.lo x.hi = false := by unfold Pt at hp hq; grind
    simp [streamIvl, has, this, pure, Except.pure]

/-- two texts of the form of an interval's text agree only if the intervals have the same points -/
theorem ivlText_inj (shw : T → List Char) (pre : List Char) (hpre : ',' ∉ pre) (hinj : ∀ v w, NotNan v → NotNan w → shw v = shw w → eq v w = true)
    (hne : ∀ v, ',' ∉ shw v) (X Y : Ivl T) (pX : Proper X) (pY : Proper Y)
    (h : (if eq X.lo X.hi then pre ++ shw X.lo else '[' :: pre ++ shw X.lo ++ ", ".toList ++ pre ++ shw X.hi ++ "]".toList) =
      (if eq Y.lo Y.hi then pre ++ shw Y.lo else '[' :: pre ++ shw Y.lo ++ ", ".toList ++ pre ++ shw Y.hi ++ "]".toList)) (p : T) :
    p ∈ᵢ X ↔ p ∈ᵢ Y := by
  have pX' : le X.lo X.hi = true := pX
  have pY' : le Y.lo Y.hi = true := pY
  have n1 := CppOrder.le_left _ _ pX'; have n2 := CppOrder.le_right _ _ pX'; have n3 := CppOrder.le_left _ _ pY'; have n4 := CppOrder.le_right _ _ pY'
  have key : eq X.lo Y.lo = true ∧ eq X.hi Y.hi = true := by
    by_cases e : eq X.lo X.hi = true <;> by_cases e' : eq Y.lo Y.hi = true
    · rw [if_pos e, if_pos e'] at h
      have h1 := hinj _ _ n1 n3 (List.append_cancel_left h)
      exact ⟨h1, by grind⟩
    · rw [if_pos e, if_neg e'] at h
      have : ',' ∈ pre ++ shw X.lo := by rw [h]; simp
      exact absurd this (by simp [hpre, hne])
    · rw [if_neg e, if_pos e'] at h
      have : ',' ∈ pre ++ shw Y.lo := by rw [← h]; simp
      exact absurd this (by simp [hpre, hne])
    · rw [if_neg e, if_neg e'] at h
      have h' : ('[' :: pre ++ shw X.lo) ++ ',' :: (' ' :: (pre ++ shw X.hi ++ "]".toList)) =
          ('[' :: pre ++ shw Y.lo) ++ ',' :: (' ' :: (pre ++ shw Y.hi ++ "]".toList)) := by simpa using h
      obtain ⟨h1, h2⟩ := split_comma _ _ _ _ (by simp [hpre, hne]) (by simp [hpre, hne]) h'
      have h1' : shw X.lo = shw Y.lo := List.append_cancel_left h1
      have h2' : shw X.hi = shw Y.hi := by simpa using h2
      exact ⟨hinj _ _ n1 n3 h1', hinj _ _ n2 n4 h2'⟩
  unfold Pt
  grind

/-- C58: an interval can be recovered from its text, if its bounds can: intervals with the same text have the same points. -/
theorem C58_interval_faithful (dbg : Bool) (shw : T → List Char) (hinj : ∀ v w, NotNan v → NotNan w → shw v = shw w → eq v w = true) (hne : ∀ v, ',' ∉ shw v)
    (stream : List Char) (X Y : Ivl T) (pX : Proper X) (pY : Proper Y) (h : streamIvl dbg shw stream X = streamIvl dbg shw stream Y) (p : T) :
    p ∈ᵢ X ↔ p ∈ᵢ Y := by
  refine ivlText_inj shw [] (by simp) hinj hne X Y pX pY ?_ p
  unfold streamIvl at h
  simp only [assigned_of_proper pX, assigned_of_proper pY, expectsDebug_true, ok_bind, bind_pure_comp] at h
  by_cases e : eq X.lo X.hi = true <;> by_cases e' : eq Y.lo Y.hi = true <;> simp [e, e', pure, Except.pure] at h ⊢ <;> exact h

/-- In debug mode an unassigned interval is a contract violation. -/
theorem C58_interval_unassigned (shw : T → List Char) (stream : List Char) (x : Ivl T) (hx : x.assigned = false) :
    streamIvl true shw stream x = .error .contract := by
  simp [streamIvl, hx]
end ivl

/-- the texts of 32-bit numbers meet the assumptions of `C58_interval_faithful` -/
example (v w : SInt 31) : let shw : SInt 31 → List Char := fun v => List.replicate (v.val + 2^31).toNat '|'
    (NotNan v → NotNan w → shw v = shw w → eq v w = true) ∧ ',' ∉ shw v := by
  have := v.ge; have := w.ge
  refine ⟨fun _ _ h => ?_, by simp [List.mem_replicate]⟩
  have h' := congrArg List.length h
  simp only [List.length_replicate] at h'
  simp only [CppVal.eq, decide_eq_true_eq]
  omega

/-- `{ 0, 1 }`, the text of the full set of `bool` -/
example : streamSet (vals := [false, true]) (fun b => if b then "1".toList else "0".toList) [] 3#2 = .ok "{ 0, 1 }".toList := by decide +kernel
/-- `{  }`, the text of the empty set -/
example : streamSet (vals := [false, true]) (fun b => if b then "1".toList else "0".toList) [] 0#2 = .ok "{  }".toList := by decide +kernel
end Intervals.Props
