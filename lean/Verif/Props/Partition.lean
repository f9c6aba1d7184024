import Verif.Lemmas.Partition
import Verif.Props.Search
import Verif.Props.Constraint
/-!
# C52: constraining an interval by a partition of a sorted range
-/
set_option linter.unusedSectionVars false
namespace Intervals.Props
open Intervals CppVal Spec
variable {T : Type _} [CppVal T] [CppOrder T]

private def sat : Search → T → T → Bool
  | .lower => fun e v => lt e v
  | .upper => fun e v => le e v

private theorem findS_point (k : Search) (a : List T) (ha : SortedR a) (v : T) (hv : NotNan v) (r : Iter a.length) (h : k.findS a v = .ok r) :
    IsPoint (fun e => sat k e v) a r.val.toNat := by
  obtain ⟨⟨r1, h1, h2⟩, ⟨r2, h3, h4⟩⟩ := C51_scalar a ha v hv
  cases k with
  | lower => simp only [Search.findS] at h; rw [h1] at h; cases h; exact h2
  | upper => simp only [Search.findS] at h; rw [h3] at h; cases h; exact h4

private theorem sat_mono (k : Search) {e v w : T} (h : sat k e v = true) (hvw : le v w = true) : sat k e w = true := by
  cases k <;> simp only [sat] at * <;> grind
private theorem sorted_get {a : List T} (ha : SortedR a) {i j : Nat} {u v : T} (hij : i ≤ j) (hu : a[i]? = some u) (hv : a[j]? = some v) :
    le u v = true := by
  rcases Nat.lt_or_ge i j with h | h
  · exact (List.pairwise_iff_getElem.mp ha.1 i j (by grind) (by grind) h) |> fun h => by grind
  · have : i = j := by omega
    subst this; rw [hu] at hv; cases hv
    exact ha.2 u (List.mem_of_getElem? hu)
private theorem strict_get {a : List T} (ha : StrictR a) {i j : Nat} {u v : T} (hij : i < j) (hu : a[i]? = some u) (hv : a[j]? = some v) :
    lt u v = true := (List.pairwise_iff_getElem.mp ha.1 i j (by grind) (by grind) hij) |> fun h => by grind

private theorem le_of_cmax {s v l : T} (h : le s (cmax v l) = true) (h' : le l v = true) : le s v = true := by grind
private theorem le_of_cmin {t v u : T} (h : le (cmin v u) t = true) (h' : le v u = true) : le v t = true := by grind
private theorem cmax_eq_left {s l : T} (h : le l s = true) : cmax s l = s ∨ (cmax s l = l ∧ eq l s = true) := by grind
private theorem le_cmax {e s l : T} (h : le e s = true) (h' : le l s = true) : le e (cmax s l) = true := by grind
private theorem cmin_le {e t u : T} (h : le t e = true) (h' : le t u = true) : le (cmin u t) e = true := by grind

private theorem meet_of {s t e e' l u : T} (h : le s (cmax e l) = true) (h' : le (cmin e' u) t = true) (he : le e e' = true)
    (hlt : le l t = true) (hsu : le s u = true) : le s t = true := by grind
private theorem lt_nan {e e' : T} (h : lt e e' = true) : NotNan e ∧ NotNan e' ∧ lt e' e' = false ∧ le e e = true ∧ le e' e = false ∧ le e' e' = true := by
  unfold NotNan; grind

private theorem res_le {s t l u : T} (hst : le s t = true) (hlt : le l t = true) (hsu : le s u = true) (hlu : le l u = true) :
    le (cmax s l) (cmin u t) = true := by grind
private theorem le_of_cmax' {s v l : T} (h : le (cmax s l) v = true) (h' : le l s = true) : le s v = true := by grind
private theorem le_of_cmin' {t v u : T} (h : le v (cmin u t) = true) (h' : le t u = true) : le v t = true := by grind

private theorem sat_split (k : Search) {e e' s t : T} (hee : eq e e' = true) (h1 : sat k e s = true) (h2 : sat k e' t = false) (ns : le s s = true)
    (nt : le t t = true) : lt t s = true := by
  cases k <;> simp only [sat] at h1 h2 <;> grind
private theorem not_le_of_lt {s t : T} (h : lt t s = true) : le s t = false := by grind
private theorem split_gt {s t l u : T} (h : lt t s = true) (hl : le l s = true) (hu : le t u = true) : gt (cmax s l) (cmin u t) = true := by
  simp only [gt]; grind

section
variable [CppStep T]
private theorem predSpec (k : Search) (dbg d : Bool) (id : Nat) (x : Ivl T) (hs : d = true → LawfulStep T) (hx : Proper x) :
    PredSpec dbg d id x (k.predI dbg d (.ident d id x)) (sat k) := by
  cases k
  · exact predSpec_lower dbg d id x hs hx
  · exact predSpec_upper dbg d id x hs hx

/-- what the index checks guarantee -/
private theorem constrainAt_eq (dbg d : Bool) (id : Nat) (x : Ivl T) (a : List T) (pred : T → Outcome (Cond T)) (J : Arg Index)
    (h0 : 0 ≤ J.lo.val) (h1 : J.hi.val ≤ a.length) (hlh : J.lo.val ≤ J.hi.val) :
    constrainAt dbg d id x a pred J = constrainPart dbg d id x a pred J := by
  have has : J.assigned = true := by
    cases J with
    | scalar v => rfl
    | ivl X => simp only [Arg.lo, Arg.hi] at hlh; simp [Arg.assigned, Ivl.assigned, gt, lt]; omega
  simp [constrainAt, partitionAt, has, h0, h1, pure, Except.pure]

/-- C52, the result keeps every value that belongs to the partition: a value `v` of `x` whose scalar search result lies in `J`.  `J` is a
position or an interval of positions of the range. -/
theorem C52_keeps (k : Search) (dbg d : Bool) (id : Nat) (hs : d = true → LawfulStep T) (a : List T) (ha : SortedR a) (x : Ivl T)
    (hx : Proper x) (J : Arg Index) (h0 : 0 ≤ J.lo.val) (h1 : J.hi.val ≤ a.length) (hlh : J.lo.val ≤ J.hi.val) (R : Ivl T)
    (h : constrainAt dbg d id x a (k.predI dbg d (.ident d id x)) J = .ok R) (v : T) (hv : v ∈ᵢ x) (r : Iter a.length)
    (hr : k.findS a v = .ok r) (hJ : J.lo.val ≤ r.val ∧ r.val ≤ J.hi.val) : v ∈ᵢ R := by
  rw [constrainAt_eq _ _ _ _ _ _ _ h0 h1 hlh] at h
  have nv : NotNan v := by unfold Pt NotNan at *; grind
  have hp := findS_point k a ha v nv r hr
  have hr0 := r.ge
  unfold Pt at hv
  by_cases hne : a = []
  · subst hne
    simp [constrainPart, pure, Except.pure] at h
    subst h; exact hv
  rcases constrainPart_cases (predSpec k dbg d id x hs hx) hx ha.2 hne J h0 h1 hlh with ⟨g, _⟩ | ⟨s, t, g, g1, g2, g3, g4, gs, gt'⟩
  · rw [g] at h; cases h
  · rw [g] at h
    simp only [bind_eq_ok, make_eq_ok] at h
    obtain ⟨_, _, _, rfl⟩ := h
    have hsv : le s v = true := by
      rcases gs with ⟨_, rfl⟩ | ⟨e, j0, he, _, _, hmin, _⟩
      · exact hv.1
      · exact le_of_cmax (hmin v ((hp.2 _ _ he).mpr (by omega))) hv.1
    have hvt : le v t = true := by
      rcases gt' with ⟨_, rfl⟩ | ⟨e, jn, he, _, _, hmax, _⟩
      · exact hv.2
      · exact le_of_cmin (hmax v nv (by
          have := (hp.2 _ _ he).mp.mt (by omega)
          simpa using this)) hv.2
    unfold Pt
    constructor <;> simp only <;> grind

/-- C52, the result lies within `x` and between the neighbouring elements `range[jlo-1]` and `range[jhi]`. -/
theorem C52_within (k : Search) (dbg d : Bool) (id : Nat) (hs : d = true → LawfulStep T) (a : List T) (ha : SortedR a) (x : Ivl T)
    (hx : Proper x) (J : Arg Index) (h0 : 0 ≤ J.lo.val) (h1 : J.hi.val ≤ a.length) (hlh : J.lo.val ≤ J.hi.val) (R : Ivl T)
    (h : constrainAt dbg d id x a (k.predI dbg d (.ident d id x)) J = .ok R) :
    Proper R ∧ le x.lo R.lo = true ∧ le R.hi x.hi = true ∧ (∀ e, 0 < J.lo.val → a[(J.lo.val - 1).toNat]? = some e → le e R.lo = true) ∧
    (∀ e, a[J.hi.val.toNat]? = some e → le R.hi e = true) := by
  rw [constrainAt_eq _ _ _ _ _ _ _ h0 h1 hlh] at h
  have hx' : le x.lo x.hi = true := hx
  by_cases hne : a = []
  · subst hne
    simp [constrainPart, pure, Except.pure] at h
    subst h
    refine ⟨hx, by grind, by grind, by simp, by simp⟩
  rcases constrainPart_cases (predSpec k dbg d id x hs hx) hx ha.2 hne J h0 h1 hlh with ⟨g, _⟩ | ⟨s, t, g, g1, g2, g3, g4, gs, gt'⟩
  · rw [g] at h; cases h
  · rw [g] at h
    simp only [bind_eq_ok, make_eq_ok] at h
    obtain ⟨_, _, hm, rfl⟩ := h
    refine ⟨?_, ?_, ?_, ?_, ?_⟩
    · unfold Proper; simp only; grind
    · simp only; grind
    · simp only; grind
    · intro e hj he
      rcases gs with ⟨hj', _⟩ | ⟨e', _, he', _, hle, _⟩
      · omega
      · rw [he] at he'; cases he'; exact le_cmax hle g1
    · intro e he
      rcases gt' with ⟨hj', _⟩ | ⟨e', _, he', _, hle, _⟩
      · rw [List.getElem?_eq_none (by omega)] at he; cases he
      · rw [he] at he'; cases he'; exact cmin_le hle g4

/-- C52, the call does not fail if some value of `x` belongs to the partition. -/
theorem C52_no_failure (k : Search) (dbg d : Bool) (id : Nat) (hs : d = true → LawfulStep T) (a : List T) (ha : SortedR a) (x : Ivl T)
    (hx : Proper x) (J : Arg Index) (h0 : 0 ≤ J.lo.val) (h1 : J.hi.val ≤ a.length) (hlh : J.lo.val ≤ J.hi.val)
    (v : T) (hv : v ∈ᵢ x) (r : Iter a.length) (hr : k.findS a v = .ok r) (hJ : J.lo.val ≤ r.val ∧ r.val ≤ J.hi.val) :
    ∃ R, constrainAt dbg d id x a (k.predI dbg d (.ident d id x)) J = .ok R := by
  rw [constrainAt_eq _ _ _ _ _ _ _ h0 h1 hlh]
  have nv : NotNan v := by unfold Pt NotNan at *; grind
  have hp := findS_point k a ha v nv r hr
  have hr0 := r.ge
  unfold Pt at hv
  by_cases hne : a = []
  · subst hne; exact ⟨x, by simp [constrainPart, pure, Except.pure]⟩
  rcases constrainPart_cases (predSpec k dbg d id x hs hx) hx ha.2 hne J h0 h1 hlh with ⟨_, g⟩ | ⟨s, t, g, g1, g2, g3, g4, gs, gt'⟩
  · exfalso
    rcases g with ⟨e, j0, he, hf⟩ | ⟨e, jn, he, hf⟩
    · have := sat_mono k ((hp.2 _ _ he).mpr (by omega)) hv.2
      rw [hf] at this; cases this
    · have := (hp.2 _ _ he).mp (sat_mono k hf hv.1)
      omega
  · have hsv : le s v = true := by
      rcases gs with ⟨_, rfl⟩ | ⟨e, j0, he, _, _, hmin, _⟩
      · exact hv.1
      · exact le_of_cmax (hmin v ((hp.2 _ _ he).mpr (by omega))) hv.1
    have hvt : le v t = true := by
      rcases gt' with ⟨_, rfl⟩ | ⟨e, jn, he, _, _, hmax, _⟩
      · exact hv.2
      · exact le_of_cmin (hmax v nv (by
          have := (hp.2 _ _ he).mp.mt (by omega)
          simpa using this)) hv.2
    have hst : (ge x.hi x.lo && le s t) = true := by grind
    rw [g, hst, expectsDebug_true, ok_bind, make_of_le (by grind)]
    exact ⟨_, rfl⟩

/-- C52, the call does not fail for any position (or interval of positions) in the position interval returned by the search.  Full
statement: without the last hypothesis, which says for a discrete value type that the neighbouring elements `range[jlo-1]` and `range[jhi]`
differ.  Without it the call always fails (`C52_positions_fail`, `C52_violated`). -/
theorem C52_positions_partial (k : Search) (dbg d : Bool) (id : Nat) (hs : d = true → LawfulStep T) (a : List T) (ha : SortedR a) (x : Ivl T)
    (hx : Proper x) (P : Ivl (Iter a.length)) (hP : k.findI dbg d a (.ident d id x) = .ok P) (J : Arg Index)
    (h0 : P.lo.val ≤ J.lo.val) (h1 : J.hi.val ≤ P.hi.val) (hlh : J.lo.val ≤ J.hi.val)
    (hd : d = true → ∀ e e', 0 < J.lo.val → a[(J.lo.val - 1).toNat]? = some e → a[J.hi.val.toNat]? = some e' → lt e e' = true) :
    ∃ R, constrainAt dbg d id x a (k.predI dbg d (.ident d id x)) J = .ok R := by
  have hx' : le x.lo x.hi = true := hx
  have p0 := P.lo.ge
  have p1 := P.hi.le
  have hb : k.findS a x.lo = .ok P.lo ∧ k.findS a x.hi = .ok P.hi := by
    cases k with
    | lower =>
      obtain ⟨R, q1, q2, q3, _⟩ := C51_lower_bound dbg d a ha (.ident d id x) x rfl hx
      simp only [Search.findI] at hP; rw [q1] at hP; cases hP; exact ⟨q2, q3⟩
    | upper =>
      obtain ⟨R, q1, q2, q3, _⟩ := C51_upper_bound dbg d a ha (.ident d id x) x rfl hx
      simp only [Search.findI] at hP; rw [q1] at hP; cases hP; exact ⟨q2, q3⟩
  have hpl := findS_point k a ha x.lo (by unfold NotNan; grind) _ hb.1
  have hph := findS_point k a ha x.hi (by unfold NotNan; grind) _ hb.2
  rw [constrainAt_eq _ _ _ _ _ _ _ (by omega) (by omega) hlh]
  by_cases hne : a = []
  · subst hne; exact ⟨x, by simp [constrainPart, pure, Except.pure]⟩
  rcases constrainPart_cases (predSpec k dbg d id x hs hx) hx ha.2 hne J (by omega) (by omega) hlh with ⟨_, g⟩ | ⟨s, t, g, g1, g2, g3, g4, gs, gt'⟩
  · exfalso
    rcases g with ⟨e, j0, he, hf⟩ | ⟨e, jn, he, hf⟩
    · have := (hph.2 _ _ he).mpr (by omega)
      rw [show sat k e x.hi = true from this] at hf; cases hf
    · have := (hpl.2 _ _ he).mp hf
      omega
  · have hle : le s t = true := by
      rcases gs with ⟨_, rfl⟩ | ⟨e, j0, he, hse, hes, hmin, _, hdf⟩
      · exact g3
      rcases gt' with ⟨_, rfl⟩ | ⟨e', jn, he', hse', hte, hmax, _, hdf'⟩
      · exact g2
      have hee' := sorted_get ha (by omega : (J.lo.val - 1).toNat ≤ J.hi.val.toNat) he he'
      cases hdc : d with
      | false => exact meet_of (hdf hdc) (hdf' hdc) hee' g3 g2
      | true =>
        have hst := hd hdc e e' j0 he he'
        obtain ⟨n1, n2, n3, n4, n5, n6⟩ := lt_nan hst
        cases k with
        | lower => exact meet_of (hmin e' hst) (hmax e' n2 n3) n6 g3 g2
        | upper => exact meet_of (hmin e n4) (hmax e n1 n5) n4 g3 g2
    have hst : (ge x.hi x.lo && le s t) = true := by rw [hle]; simpa [ge] using hx'
    rw [g, hst, expectsDebug_true, ok_bind, make_of_le (res_le hle g3 g2 hx')]
    exact ⟨_, rfl⟩

/-- C52 for a strictly sorted range: no position returned by the search fails. -/
theorem C52_positions_strict (k : Search) (dbg d : Bool) (id : Nat) (hs : d = true → LawfulStep T) (a : List T) (ha : SortedR a) (x : Ivl T)
    (hx : Proper x) (P : Ivl (Iter a.length)) (hP : k.findI dbg d a (.ident d id x) = .ok P) (J : Arg Index)
    (h0 : P.lo.val ≤ J.lo.val) (h1 : J.hi.val ≤ P.hi.val) (hlh : J.lo.val ≤ J.hi.val) (hd : StrictR a) :
    ∃ R, constrainAt dbg d id x a (k.predI dbg d (.ident d id x)) J = .ok R :=
  C52_positions_partial k dbg d id hs a ha x hx P hP J h0 h1 hlh
    fun _ _ _ j0 he he' => strict_get hd (by omega : (J.lo.val - 1).toNat < J.hi.val.toNat) he he'

/-- C52, the missing part of `C52_positions_partial` is false throughout: for a discrete value type, if the neighbouring elements `range[jlo-1]`
and `range[jhi]` are equal, the call is a contract violation in every build, for every interval. -/
theorem C52_positions_fail (k : Search) (dbg : Bool) (id : Nat) (hs : LawfulStep T) (a : List T) (ha : SortedR a) (x : Ivl T)
    (hx : Proper x) (J : Arg Index) (j0 : 0 < J.lo.val) (h1 : J.hi.val ≤ a.length) (hlh : J.lo.val ≤ J.hi.val) (e e' : T)
    (he : a[(J.lo.val - 1).toNat]? = some e) (he' : a[J.hi.val.toNat]? = some e') (hee : eq e e' = true) :
    constrainAt dbg true id x a (k.predI dbg true (.ident true id x)) J = .error .contract := by
  rw [constrainAt_eq _ _ _ _ _ _ _ (by omega) h1 hlh]
  have hx' : le x.lo x.hi = true := hx
  have hne : a ≠ [] := by rintro rfl; simp at he
  rcases constrainPart_cases (predSpec k dbg true id x (fun _ => hs) hx) hx ha.2 hne J (by omega) h1 hlh with ⟨g, _⟩ | ⟨s, t, g, g1, g2, g3, g4, gs, gt'⟩
  · exact g
  · have jn : J.hi.val < a.length := by
      have := (List.getElem?_eq_some_iff.mp he').1; omega
    rcases gs with ⟨h, _⟩ | ⟨f, _, hf, _, _, _, hsat, _⟩
    · omega
    rw [he] at hf; cases hf
    rcases gt' with ⟨h, _⟩ | ⟨f, _, hf, _, _, _, hsat', _⟩
    · omega
    rw [he'] at hf; cases hf
    have h1 := hsat rfl
    have h2 := hsat' rfl
    have hts : lt t s = true := sat_split k hee h1 h2 (CppOrder.le_left _ _ g2) (CppOrder.le_left _ _ g4)
    rw [g]
    have n1 : le s t = false := not_le_of_lt hts
    have n2 : gt (cmax s x.lo) (cmin x.hi t) = true := split_gt hts g1 g4
    rw [n1, Bool.and_false]
    unfold Ivl.make
    rw [n2]
    cases dbg <;> rfl

/-- C52 for discrete value types: the result contains nothing but values of the partition. -/
theorem C52_exact_discrete (k : Search) (dbg : Bool) (id : Nat) (hs : LawfulStep T) (a : List T) (ha : SortedR a) (x : Ivl T)
    (hx : Proper x) (J : Arg Index) (h0 : 0 ≤ J.lo.val) (h1 : J.hi.val ≤ a.length) (hlh : J.lo.val ≤ J.hi.val) (R : Ivl T)
    (h : constrainAt dbg true id x a (k.predI dbg true (.ident true id x)) J = .ok R) (v : T) (hv : v ∈ᵢ R) :
    ∃ r, k.findS a v = .ok r ∧ J.lo.val ≤ r.val ∧ r.val ≤ J.hi.val := by
  rw [constrainAt_eq _ _ _ _ _ _ _ h0 h1 hlh] at h
  have nv : NotNan v := by unfold Pt NotNan at *; grind
  have hfind : ∃ r, k.findS a v = .ok r := by
    obtain ⟨⟨r1, q1, _⟩, ⟨r2, q3, _⟩⟩ := C51_scalar a ha v nv
    cases k
    · exact ⟨r1, q1⟩
    · exact ⟨r2, q3⟩
  obtain ⟨r, hr⟩ := hfind
  have hp := findS_point k a ha v nv r hr
  have hr0 := r.ge
  have hr1 := r.le
  refine ⟨r, hr, ?_⟩
  by_cases hne : a = []
  · subst hne
    simp only [List.length_nil] at *
    omega
  rcases constrainPart_cases (predSpec k dbg true id x (fun _ => hs) hx) hx ha.2 hne J h0 h1 hlh with ⟨g, _⟩ | ⟨s, t, g, g1, g2, g3, g4, gs, gt'⟩
  · rw [g] at h; cases h
  · rw [g] at h
    simp only [bind_eq_ok, make_eq_ok] at h
    obtain ⟨_, _, hm, rfl⟩ := h
    unfold Pt at hv
    simp only at hv
    constructor
    · rcases gs with ⟨_, rfl⟩ | ⟨e, j0, he, _, _, _, hsat, _⟩
      · omega
      · have := (hp.2 _ _ he).mp (sat_mono k (hsat rfl) (le_of_cmax' hv.1 g1))
        omega
    · rcases gt' with ⟨_, rfl⟩ | ⟨e, jn, he, _, _, _, hsat, _⟩
      · omega
      · by_contra hc
        have := (hp.2 _ _ he).mpr (by omega)
        have := sat_mono k this (w := t) (le_of_cmin' hv.2 g4)
        rw [hsat rfl] at this; cases this

private theorem grow_lo {e e' l l' s s' r : T} (h1 : le s' (cmax e' l') = true) (h2 : le l' s' = true) (h3 : le e' e = true) (h4 : le l' l = true)
    (h5 : le e s = true) (h6 : le l s = true) (h7 : le (cmax s l) r = true) : le (cmax s' l') r = true := by grind
private theorem grow_hi {e e' u u' t t' r : T} (h1 : le (cmin e' u') t' = true) (h2 : le t' u' = true) (h3 : le e e' = true) (h4 : le u u' = true)
    (h5 : le t e = true) (h6 : le t u = true) (h7 : le r (cmin u t) = true) : le r (cmin u' t') = true := by grind
private theorem keep_lo {l l' s r : T} (h4 : le l' l = true) (h6 : le l s = true) (h7 : le (cmax s l) r = true) : le (cmax l' l') r = true := by grind
private theorem keep_hi {u u' t r : T} (h4 : le u u' = true) (h6 : le t u = true) (h7 : le r (cmin u t) = true) : le r (cmin u' u') = true := by grind

/-- constraining by a partition is isotone in the interval and in the partition -/
theorem constrainAt_mono (k : Search) (dbg d : Bool) (id : Nat) (hs : d = true → LawfulStep T) (a : List T) (ha : SortedR a) (x x' : Ivl T)
    (hx : Proper x) (hsub : ∀ v, v ∈ᵢ x → v ∈ᵢ x') (J J' : Arg Index) (h0 : 0 ≤ J'.lo.val) (hl : J'.lo.val ≤ J.lo.val) (hlh : J.lo.val ≤ J.hi.val)
    (hh : J.hi.val ≤ J'.hi.val) (h1 : J'.hi.val ≤ a.length) (R R' : Ivl T)
    (h : constrainAt dbg d id x a (k.predI dbg d (.ident d id x)) J = .ok R)
    (h' : constrainAt dbg d id x' a (k.predI dbg d (.ident d id x')) J' = .ok R') : ∀ v, v ∈ᵢ R → v ∈ᵢ R' := by
  intro v hv
  have hxx : le x.lo x.hi = true := hx
  have sl := hsub x.lo ⟨CppOrder.le_left _ _ hxx, hxx⟩
  have sh := hsub x.hi ⟨hxx, CppOrder.le_right _ _ hxx⟩
  have hx' : Proper x' := CppOrder.le_trans _ _ _ sl.1 sl.2
  cases d with
  | true =>
    obtain ⟨w0, w1, w2, _⟩ := C52_within k dbg true id hs a ha x hx J (by omega) (by omega) hlh R h
    obtain ⟨r, hr, hr1, hr2⟩ := C52_exact_discrete k dbg id (hs rfl) a ha x hx J (by omega) (by omega) hlh R h v hv
    exact C52_keeps k dbg true id hs a ha x' hx' J' h0 h1 (by omega) R' h' v
      (hsub v ⟨CppOrder.le_trans _ _ _ w1 hv.1, CppOrder.le_trans _ _ _ hv.2 w2⟩) r hr (by omega)
  | false =>
    rw [constrainAt_eq _ _ _ _ _ _ _ (by omega) (by omega) hlh] at h
    rw [constrainAt_eq _ _ _ _ _ _ _ h0 h1 (by omega)] at h'
    by_cases hne : a = []
    · subst hne
      simp [constrainPart, pure, Except.pure] at h h'
      subst h; subst h'; exact hsub v hv
    rcases constrainPart_cases (predSpec k dbg false id x hs hx) hx ha.2 hne J (by omega) (by omega) hlh with ⟨g, _⟩ | ⟨s, t, g, g1, g2, g3, g4, gs, gt'⟩
    · rw [g] at h; cases h
    rcases constrainPart_cases (predSpec k dbg false id x' hs hx') hx' ha.2 hne J' h0 h1 (by omega) with ⟨q, _⟩ | ⟨s', t', q, q1, q2, q3, q4, qs, qt⟩
    · rw [q] at h'; cases h'
    rw [g] at h; rw [q] at h'
    simp only [bind_eq_ok, make_eq_ok] at h h'
    obtain ⟨_, _, hm, rfl⟩ := h
    obtain ⟨_, _, hm', rfl⟩ := h'
    unfold Pt at hv ⊢
    simp only at hv ⊢
    constructor
    · rcases qs with ⟨_, rfl⟩ | ⟨e', j0, he', _, _, _, _, hb⟩
      · exact keep_lo sl.1 g1 hv.1
      · rcases gs with ⟨c, _⟩ | ⟨e, _, he, _, hes, _⟩
        · omega
        · exact grow_lo (hb rfl) q1 (sorted_get ha (by omega) he' he) sl.1 hes g1 hv.1
    · rcases qt with ⟨_, rfl⟩ | ⟨e', j0, he', _, _, _, _, hb⟩
      · exact keep_hi sh.2 g4 hv.2
      · rcases gt' with ⟨c, _⟩ | ⟨e, _, he, _, hes, _⟩
        · omega
        · exact grow_hi (hb rfl) q4 (sorted_get ha (by omega) he he') sh.2 hes g4 hv.2

/-- An rvalue leaves no identity in the predicate: the partitioning cannot constrain anything, and the call fails unless the partition is the
whole range. -/
theorem C52_rvalue (dbg d : Bool) (id : Nat) (a : List T) (ha : SortedR a) (x : Ivl T) (hx : Proper x) (J : Arg Index)
    (h0 : 0 < J.lo.val) (h1 : J.hi.val ≤ a.length) (hlh : J.lo.val ≤ J.hi.val) :
    constrainAt dbg d id x a (lowerPredI dbg d (.anon d x)) J = .error .contract := by
  rw [constrainAt_eq _ _ _ _ _ _ _ (by omega) h1 hlh]
  obtain ⟨e, he, he'⟩ := rangeAt_ok (a := a) (i := J.lo.val - 1) (by omega) (by omega)
  have hemp : a.isEmpty = false := by cases a <;> simp_all
  unfold constrainPart
  rw [hemp]
  simp only [h0, if_true, Bool.false_eq_true, if_false, he, ok_bind]
  rw [lowerPredI_ok dbg d (.anon d x) hx e (ha.2 e (List.mem_of_getElem? he'))]
  simp [constrain, detailConstrain, Operand.matchesId]

/-- C52 for scalars: with the position of `x` itself the call returns `x`. -/
theorem C52_scalar (k : Search) (dbg : Bool) (a : List T) (ha : SortedR a) (x : T) (hx : NotNan x) (r : Iter a.length)
    (hr : k.findS a x = .ok r) (J : Arg Index) (h1 : J.hi.val ≤ a.length) (h0 : 0 ≤ J.lo.val)
    (hJ : J.lo.val ≤ r.val ∧ r.val ≤ J.hi.val) : constrainAtS dbg x a (k.predS x) J = .ok x := by
  have has : J.assigned = true := by
    cases J with
    | scalar v => rfl
    | ivl X => simp only [Arg.lo, Arg.hi] at hJ; simp [Arg.assigned, Ivl.assigned, gt, lt]; omega
  have hp := findS_point k a ha x hx r hr
  have hr0 := r.ge
  have hpred : ∀ e ∈ a, k.predS x e = .ok (sat k e x) := by
    intro e he
    have := ha.2 e he
    cases k with
    | lower => rfl
    | upper => simp only [Search.predS, upperPredS, sat, Except.ok.injEq]; unfold NotNan at *; grind
  unfold constrainAtS
  simp only [partitionAt, has, h0, h1, expects_true, decide_true, Bool.and_true, expectsDebug_true, ok_bind, pure, Except.pure]
  unfold constrainPartS
  by_cases hne : a = []
  · subst hne; rfl
  have hemp : a.isEmpty = false := by cases a <;> simp_all
  rw [hemp]
  have c1 : 0 < J.lo.val → ∃ e, rangeAt a (J.lo.val - 1) = .ok e ∧ k.predS x e = .ok true := fun hj => by
    obtain ⟨e, he, he'⟩ := rangeAt_ok (a := a) (i := J.lo.val - 1) (by omega) (by have := r.le; omega)
    exact ⟨e, he, by rw [hpred e (List.mem_of_getElem? he'), show sat k e x = true from (hp.2 _ _ he').mpr (by omega)]⟩
  have c2 : J.hi.val < a.length → ∃ e, rangeAt a J.hi.val = .ok e ∧ k.predS x e = .ok false := fun hj => by
    obtain ⟨e, he, he'⟩ := rangeAt_ok (a := a) (i := J.hi.val) (by omega) (by omega)
    refine ⟨e, he, ?_⟩
    rw [hpred e (List.mem_of_getElem? he')]
    have := (hp.2 _ _ he').mp.mt (by omega)
    simp at this; rw [this]
  cases dbg with
  | false => simp [pure, Except.pure]
  | true =>
    by_cases j0 : 0 < J.lo.val
    · obtain ⟨e, q1, q2⟩ := c1 j0
      by_cases jn : J.hi.val < (a.length : Int)
      · obtain ⟨e', q3, q4⟩ := c2 jn
        simp [j0, jn, q1, q2, q3, q4, pure, Except.pure]
      · simp [j0, jn, q1, q2, pure, Except.pure]
    · by_cases jn : J.hi.val < (a.length : Int)
      · obtain ⟨e', q3, q4⟩ := c2 jn
        simp [j0, jn, q3, q4, pure, Except.pure]
      · simp [j0, jn, pure, Except.pure]

/-- C52 for scalars: with positions not including that of `x`, the call is a contract violation in debug builds; in release builds the
positions are not checked. -/
theorem C52_scalar_rejects (k : Search) (a : List T) (ha : SortedR a) (x : T) (hx : NotNan x) (r : Iter a.length)
    (hr : k.findS a x = .ok r) (J : Arg Index) (h1 : J.hi.val ≤ a.length) (h0 : 0 ≤ J.lo.val) (hlh : J.lo.val ≤ J.hi.val)
    (hJ : ¬ (J.lo.val ≤ r.val ∧ r.val ≤ J.hi.val)) :
    constrainAtS true x a (k.predS x) J = .error .contract ∧ constrainAtS false x a (k.predS x) J = .ok x := by
  have has : J.assigned = true := by
    cases J with
    | scalar v => rfl
    | ivl X => simp only [Arg.lo, Arg.hi] at hlh; simp [Arg.assigned, Ivl.assigned, gt, lt]; omega
  have hp := findS_point k a ha x hx r hr
  have hr0 := r.ge
  have hr1 := r.le
  have hpred : ∀ e ∈ a, k.predS x e = .ok (sat k e x) := by
    intro e he
    have := ha.2 e he
    cases k with
    | lower => rfl
    | upper => simp only [Search.predS, upperPredS, sat, Except.ok.injEq]; unfold NotNan at *; grind
  unfold constrainAtS
  simp only [partitionAt, has, h0, h1, expects_true, decide_true, Bool.and_true, expectsDebug_true, ok_bind, pure, Except.pure]
  unfold constrainPartS
  have hne : a ≠ [] := by rintro rfl; simp at *; omega
  have hemp : a.isEmpty = false := by cases a <;> simp_all
  rw [hemp]
  refine ⟨?_, by simp [pure, Except.pure]⟩
  have c1 : 0 < J.lo.val → ∃ e, rangeAt a (J.lo.val - 1) = .ok e ∧ k.predS x e = .ok (decide (J.lo.val ≤ r.val)) := fun hj => by
    obtain ⟨e, he, he'⟩ := rangeAt_ok (a := a) (i := J.lo.val - 1) (by omega) (by omega)
    refine ⟨e, he, ?_⟩
    rw [hpred e (List.mem_of_getElem? he'), Except.ok.injEq, Bool.eq_iff_iff, hp.2 _ _ he', decide_eq_true_iff]
    omega
  have c2 : J.hi.val < a.length → ∃ e, rangeAt a J.hi.val = .ok e ∧ k.predS x e = .ok (decide (J.hi.val < r.val)) := fun hj => by
    obtain ⟨e, he, he'⟩ := rangeAt_ok (a := a) (i := J.hi.val) (by omega) (by omega)
    refine ⟨e, he, ?_⟩
    rw [hpred e (List.mem_of_getElem? he'), Except.ok.injEq, Bool.eq_iff_iff, hp.2 _ _ he', decide_eq_true_iff]
    omega
  by_cases l : J.lo.val ≤ r.val
  · have u : J.hi.val < r.val := by omega
    obtain ⟨e', q3, q4⟩ := c2 (by omega)
    have jn : J.hi.val < (a.length : Int) := by omega
    by_cases j0 : 0 < J.lo.val
    · obtain ⟨e, q1, q2⟩ := c1 j0
      simp [j0, jn, q1, q2, q3, q4, l, u]
    · simp [j0, jn, q3, q4, u]
  · have j0 : 0 < J.lo.val := by omega
    obtain ⟨e, q1, q2⟩ := c1 j0
    simp [j0, q1, q2, l]
end

/-- C52 (no failure for every returned position) in full. -/
def C52_positions_full (T : Type) [CppVal T] [CppStep T] (d : Bool) : Prop :=
  ∀ (k : Search) (dbg : Bool) (id : Nat) (a : List T) (x : Ivl T) (P : Ivl (Iter a.length)) (J : Arg Index), SortedR a → Proper x →
    k.findI dbg d a (.ident d id x) = .ok P → P.lo.val ≤ J.lo.val → J.lo.val ≤ J.hi.val → J.hi.val ≤ P.hi.val →
    ∃ R, constrainAt dbg d id x a (k.predI dbg d (.ident d id x)) J = .ok R

private def ix (v : Int) (h : -(2:Int)^63 ≤ v ∧ v ≤ 2^63 - 1 := by decide) : Index := ⟨v, h.1, h.2⟩

/-- C52 is violated for integers when the range has equal elements: `lower_bound({1,1}, [0,5])` returns the positions `[0,2]`, but
`constrain([0,5], preds[1])` fails in every build. -/
theorem C52_violated : ¬ C52_positions_full (SInt 31) true := by
  intro h
  obtain ⟨R, hR⟩ := h .lower false 0 [i32 1, i32 1] ⟨i32 0, i32 5⟩ ⟨⟨0, by decide, by decide⟩, ⟨2, by decide, by decide⟩⟩ (.scalar (ix 1))
    (by decide) (by decide) (by decide +kernel) (by decide) (by decide) (by decide)
  have : constrainAt false true 0 (⟨i32 0, i32 5⟩ : Ivl (SInt 31)) [i32 1, i32 1] (lowerPredI false true (.ident true 0 ⟨i32 0, i32 5⟩)) (.scalar (ix 1))
      = .error .contract := by decide +kernel
  rw [show Search.predI false true Search.lower = lowerPredI (T := SInt 31) false true from rfl, this] at hR
  cases hR

/-- The mixed-type defect of C24 shows here too: a range of integers and an `interval<double>`.  `lower_bound({0,1}, [0.2,0.8])` returns
position 1, but `constrain(x, preds[1])` fails in every build. -/
theorem C52_violated_mixed : lowerBoundI false true [Fl.num (0:ℚ), Fl.num 1] (.ident false 0 ⟨.num (1/5), .num (4/5)⟩) =
      .ok ⟨⟨1, by decide, by decide⟩, ⟨1, by decide, by decide⟩⟩ ∧
    constrainAt false false 0 (⟨.num (1/5), .num (4/5)⟩ : Ivl (Fl ℚ)) [Fl.num (0:ℚ), Fl.num 1]
      (lowerPredI false true (.ident false 0 ⟨.num (1/5), .num (4/5)⟩)) (.scalar (ix 1)) = .error .contract := by
  constructor <;> decide +kernel

/-! Examples: the middle partition of a range of integers, and an interval of positions. -/
example : constrainAt true true 0 ⟨i32 0, i32 9⟩ [i32 1, i32 4, i32 6] (lowerPredI true true (.ident true 0 ⟨i32 0, i32 9⟩)) (.scalar (ix 1)) =
    .ok ⟨i32 2, i32 4⟩ := by decide +kernel
example : constrainAt true true 0 ⟨i32 0, i32 9⟩ [i32 1, i32 4, i32 6] (upperPredI true true (.ident true 0 ⟨i32 0, i32 9⟩)) (.ivl ⟨ix 1, ix 2⟩) =
    .ok ⟨i32 1, i32 5⟩ := by decide +kernel
example : Search.findS .lower [i32 1, i32 4, i32 6] (i32 5) = .ok ⟨2, by decide, by decide⟩ ∧
    constrainAtS true (i32 5) [i32 1, i32 4, i32 6] (Search.predS .lower (i32 5)) (.scalar (ix 2)) = .ok (i32 5) ∧
    constrainAtS true (i32 5) [i32 1, i32 4, i32 6] (Search.predS .lower (i32 5)) (.scalar (ix 1)) = .error .contract := by decide +kernel
example : SortedR [i32 1, i32 1, i32 4] ∧ ([i32 1, i32 1, i32 4] : List (SInt 31))[(0 : Nat)]? = some (i32 1) ∧ eq (i32 1) (i32 1) = true ∧
    constrainAt true true 0 ⟨i32 0, i32 9⟩ [i32 1, i32 1, i32 4] (lowerPredI true true (.ident true 0 ⟨i32 0, i32 9⟩)) (.scalar (ix 1)) =
      .error .contract := by decide +kernel
example : StrictR [i32 1, i32 4, i32 6] ∧ Proper (⟨i32 0, i32 9⟩ : Ivl (SInt 31)) := by decide
end Intervals.Props
