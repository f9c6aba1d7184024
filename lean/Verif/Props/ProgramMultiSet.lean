import Verif.Props.ProgramMultiPred
import Verif.Props.Logic
import Verif.Props.Compare
/-!
# C95, C96: variables that are sets in interval-aware programs
-/
set_option linter.unusedSectionVars false
namespace Intervals.Props
open Intervals Intervals.Spec CppVal

section generic
variable {σ κ : Type} [DecidableEq σ] [DecidableEq κ] {Ty : σ → Type} {En : κ → Type} [∀ k, DecidableEq (En k)] {vals : (k : κ) → List (En k)} [∀ s, CppVal (Ty s)] [∀ s, CppOrder (Ty s)] [∀ s, CppLimits (Ty s)] [∀ s, CppLawfulLimits (Ty s)] [∀ s, CppStep (Ty s)]

/-- C95, C96: a function that returns exactly the values of its scalar overload may be called. -/
theorem C95_exact (hn : ∀ k, (vals k).Nodup) (f : MFn Ty vals) (hv : ∀ (Xs : (i : Fin f.arity) → Dm Ty vals (f.sig i)) vs, (∀ i, vs i ∈ₘ Xs i) → ∃ v, f.pt vs = .ok v)
    (h : ∀ dbg Xs, (∀ i, DProper (Xs i)) → ∃ R, f.ivl dbg Xs = .ok R ∧ ∀ v, v ∈ₘ R ↔ ∃ vs, (∀ i, vs i ∈ₘ Xs i) ∧ f.pt vs = .ok v) : f.Encl ∧ f.Total ∧ f.IsoDef := by
  have := fun k => Fact.mk (hn k)
  have tot : ∀ dbg Xs, (∀ i, DProper (Xs i)) → ∃ R, f.ivl dbg Xs = .ok R ∧ DProper R ∧ ∀ v, v ∈ₘ R ↔ ∃ vs, (∀ i, vs i ∈ₘ Xs i) ∧ f.pt vs = .ok v := by
    intro dbg Xs hX
    obtain ⟨R, h1, h2⟩ := h dbg Xs hX
    choose vs hvs using fun i => exists_dmem (hX i)
    obtain ⟨v, hp⟩ := hv Xs vs hvs
    exact ⟨R, h1, dmem_proper ((h2 v).2 ⟨vs, hvs, hp⟩), h2⟩
  refine ⟨fun dbg Xs vs R hm hr _ => ?_, fun dbg Xs hX => ?_, fun dbg Xs Ys Q hX hs hq _ => ?_⟩
  · obtain ⟨R', h1, -, h2⟩ := tot dbg Xs (fun i => dmem_proper (hm i))
    rw [hr] at h1; cases h1
    obtain ⟨v, hp⟩ := hv Xs vs hm
    exact ⟨v, hp, (h2 v).2 ⟨vs, hm, hp⟩⟩
  · obtain ⟨R, h1, h2, -⟩ := tot dbg Xs hX
    exact ⟨R, h1, h2⟩
  · obtain ⟨R, h1, h2, h3⟩ := tot dbg Xs hX
    obtain ⟨Q', h4, -, h5⟩ := tot dbg Ys (fun i => dproper_mono (hs i) (hX i))
    rw [hq] at h4; cases h4
    refine ⟨R, h1, h2, fun v hv => ?_⟩
    obtain ⟨vs, m1, m2⟩ := (h3 v).1 hv
    exact (h5 v).2 ⟨vs, fun i => hs i _ (m1 i), m2⟩

/-- a function of one argument -/
def MFn.of1 (t r : VSort σ κ) (ivl : Bool → Dm Ty vals t → Outcome (Dm Ty vals r)) (pt : Sc Ty En t → Outcome (Sc Ty En r)) : MFn Ty vals where
  arity := 1
  sig _ := t
  res := r
  ivl dbg Xs := ivl dbg (Xs 0)
  pt vs := pt (vs 0)
/-- the types of two arguments -/
def sig2 (t u : VSort σ κ) : Fin 2 → VSort σ κ
  | 0 => t
  | 1 => u
/-- two arguments -/
def pair {A : VSort σ κ → Type} {t u : VSort σ κ} (a : A t) (b : A u) : (i : Fin 2) → A (sig2 t u i)
  | 0 => a
  | 1 => b
/-- a function of two arguments -/
def MFn.of2 (t u r : VSort σ κ) (ivl : Bool → Dm Ty vals t → Dm Ty vals u → Outcome (Dm Ty vals r)) (pt : Sc Ty En t → Sc Ty En u → Outcome (Sc Ty En r)) : MFn Ty vals where
  arity := 2
  sig := sig2 t u
  res := r
  ivl dbg Xs := ivl dbg (Xs 0) (Xs 1)
  pt vs := pt (vs 0) (vs 1)

theorem MFn.of1_exact (hn : ∀ k, (vals k).Nodup) (t r : VSort σ κ) (ivl : Bool → Dm Ty vals t → Outcome (Dm Ty vals r)) (pt : Sc Ty En t → Outcome (Sc Ty En r))
    (hv : ∀ (X : Dm Ty vals t) a, a ∈ₘ X → ∃ v, pt a = .ok v)
    (h : ∀ dbg X, DProper X → ∃ R, ivl dbg X = .ok R ∧ ∀ v, v ∈ₘ R ↔ ∃ a, a ∈ₘ X ∧ pt a = .ok v) :
    (MFn.of1 t r ivl pt).Encl ∧ (MFn.of1 t r ivl pt).Total ∧ (MFn.of1 t r ivl pt).IsoDef := by
  refine C95_exact hn _ (fun (Xs : Fin 1 → Dm Ty vals t) (vs : Fin 1 → Sc Ty En t) (hm : ∀ i, vs i ∈ₘ Xs i) => hv _ _ (hm 0)) fun dbg (Xs : Fin 1 → Dm Ty vals t) (hX : ∀ i, DProper (Xs i)) => ?_
  obtain ⟨R, h1, h2⟩ := h dbg (Xs 0) (hX 0)
  refine ⟨R, h1, fun v => (h2 v).trans ⟨?_, ?_⟩⟩
  · rintro ⟨a, ha, hr⟩
    exact ⟨fun _ => a, fun (i : Fin 1) => by obtain rfl : i = 0 := by omega
                                             exact ha, hr⟩
  · rintro ⟨(vs : Fin 1 → Sc Ty En t), hv, hr⟩
    exact ⟨vs 0, hv (0 : Fin 1), hr⟩

theorem MFn.of2_exact (hn : ∀ k, (vals k).Nodup) (t u r : VSort σ κ) (ivl : Bool → Dm Ty vals t → Dm Ty vals u → Outcome (Dm Ty vals r))
    (pt : Sc Ty En t → Sc Ty En u → Outcome (Sc Ty En r)) (hv : ∀ (X : Dm Ty vals t) (Y : Dm Ty vals u) a b, a ∈ₘ X → b ∈ₘ Y → ∃ v, pt a b = .ok v)
    (h : ∀ dbg X Y, DProper X → DProper Y → ∃ R, ivl dbg X Y = .ok R ∧ ∀ v, v ∈ₘ R ↔ ∃ a b, a ∈ₘ X ∧ b ∈ₘ Y ∧ pt a b = .ok v) :
    (MFn.of2 t u r ivl pt).Encl ∧ (MFn.of2 t u r ivl pt).Total ∧ (MFn.of2 t u r ivl pt).IsoDef := by
  refine C95_exact hn _ (fun (Xs : (i : Fin 2) → Dm Ty vals (sig2 t u i)) (vs : (i : Fin 2) → Sc Ty En (sig2 t u i)) (hm : ∀ i, vs i ∈ₘ Xs i) => hv _ _ _ _ (hm 0) (hm 1))
    fun dbg (Xs : (i : Fin 2) → Dm Ty vals (sig2 t u i)) (hX : ∀ i, DProper (Xs i)) => ?_
  obtain ⟨R, h1, h2⟩ := h dbg (Xs 0) (Xs 1) (hX 0) (hX 1)
  refine ⟨R, h1, fun v => (h2 v).trans ⟨?_, ?_⟩⟩
  · rintro ⟨a, b, ha, hb, hr⟩
    exact ⟨pair (A := Sc Ty En) a b, fun | (0 : Fin 2) => ha | (1 : Fin 2) => hb, hr⟩
  · rintro ⟨(vs : (i : Fin 2) → Sc Ty En (sig2 t u i)), hv, hr⟩
    exact ⟨vs 0, vs 1, hv (0 : Fin 2), hv (1 : Fin 2), hr⟩

/-- the members of a set variable: `for (auto v : enumerate(s))` -/
def enumSet (k : κ) : Each Ty vals := Each.ofSet (L := vals k) 1 (fun _ => .set k) (fun _ Xs => .ok (Xs 0)) (fun vs => .ok (vs 0))

/-- C95, C96: `for (auto v : enumerate(s))` with a set `s` may be used. -/
theorem C95_enumerate_set (hn : ∀ k, (vals k).Nodup) (k : κ) :
    (enumSet (Ty := Ty) (vals := vals) k).Encl ∧ (enumSet (Ty := Ty) (vals := vals) k).Total ∧ (enumSet (Ty := Ty) (vals := vals) k).IsoDef := by
  refine ⟨(C95_set (L := vals k) (hn k) 1 _ _ _).1 ?_, (C95_set (L := vals k) (hn k) 1 _ _ _).2 ?_, (C96_set (L := vals k) (hn k) 1 _ _ _).2 ?_⟩
  · intro dbg Xs vs R hv hr
    cases hr
    exact ⟨_, rfl, hv 0⟩
  · intro dbg Xs hX
    exact ⟨_, rfl, (assigned_iff (hn k)).1 (hX 0)⟩
  · intro dbg Xs Ys Q hX hs hq
    cases hq
    exact ⟨_, rfl, (assigned_iff (hn k)).1 (hX 0), hs 0⟩

/-- `s == t` or `s != t` -/
def setEq (k : κ) (neg : Bool) : MPred Ty vals where
  arity := 2
  sig _ := .set k
  ivl dbg Xs := if neg then CSet.opNe dbg (Xs 0) (Xs 1) else CSet.opEq dbg (Xs 0) (Xs 1)
  pt vs := if neg then decide (vs 0 ≠ vs 1) else decide (vs 0 = vs 1)
/-- `s == v` or `s != v` -/
def setEqVal (k : κ) (neg : Bool) (v : En k) : MPred Ty vals := MPred.of1 (.set k)
  (fun dbg X => do if neg then CSet.opNe dbg X (← CSet.ofVal (vals k) v) else CSet.opEq dbg X (← CSet.ofVal (vals k) v))
  (fun a => if neg then decide (a ≠ v) else decide (a = v))

/-- C95, C96: comparisons of sets may be used in conditions. -/
theorem C95_set_eq (hn : ∀ k, (vals k).Nodup) (k : κ) (neg : Bool) :
    (setEq (Ty := Ty) (vals := vals) k neg).Lawful ∧ ∀ v ∈ vals k, (setEqVal (Ty := Ty) (vals := vals) k neg v).Lawful := by
  have key : ∀ dbg (X Y : CSet (vals k)), CSet.assigned X = true → CSet.assigned Y = true →
      ∃ R, (if neg then CSet.opNe dbg X Y else CSet.opEq dbg X Y) = .ok R ∧
        ∀ r, BoolSet.contains R r = true ↔ ∃ a b, SMem a X ∧ SMem b Y ∧ (if neg then decide (a ≠ b) else decide (a = b)) = r := by
    intro dbg X Y hX hY
    cases neg
    · exact C06_eq (hn k) dbg X Y ((assigned_iff (hn k)).1 hX) ((assigned_iff (hn k)).1 hY)
    · obtain ⟨R, h1, h2, -⟩ := C06_ne (hn k) dbg X Y ((assigned_iff (hn k)).1 hX) ((assigned_iff (hn k)).1 hY)
      exact ⟨R, h1, h2⟩
  constructor
  · refine C95_predicate hn _ fun dbg (Xs : Fin 2 → CSet (vals k)) (hX : ∀ i, CSet.assigned (Xs i) = true) => ?_
    obtain ⟨R, h1, h2⟩ := key dbg (Xs 0) (Xs 1) (hX 0) (hX 1)
    refine ⟨R, h1, fun r => (h2 r).trans ⟨?_, ?_⟩⟩
    · rintro ⟨a, b, ha, hb, hr⟩
      exact ⟨fun (i : Fin 2) => if i = 0 then a else b, fun | (0 : Fin 2) => ha | (1 : Fin 2) => hb, hr⟩
    · rintro ⟨(vs : Fin 2 → En k), hv, hr⟩
      exact ⟨vs 0, vs 1, hv (0 : Fin 2), hv (1 : Fin 2), hr⟩
  · intro v hv
    obtain ⟨V, e, hV⟩ := assignVal_ok (CSet.empty (vals k)) hv
    have hV' : ∀ w, SMem w V ↔ w = v := fun w => by rw [hV]; simp [SMem_empty]
    refine MPred.of1_lawful hn (.set k) _ _ fun dbg (X : CSet (vals k)) (hX : CSet.assigned X = true) => ?_
    obtain ⟨R, h1, h2⟩ := key dbg X V hX (assigned_of_SMem ((hV' v).2 rfl))
    refine ⟨R, by simp only [CSet.ofVal, e, ok_bind]; exact h1, fun r => (h2 r).trans ⟨?_, ?_⟩⟩
    · rintro ⟨a, b, ha, hb, hr⟩
      obtain rfl := (hV' b).1 hb
      exact ⟨a, ha, hr⟩
    · rintro ⟨a, ha, hr⟩
      exact ⟨a, v, ha, (hV' v).2 rfl, hr⟩
end generic

theorem smem_bool : ∀ (v : Bool) (R : BoolSet), SMem (vals := [false, true]) v R ↔ BMem v R := by
  have h : ∀ (v : Bool) (R : BitVec 2), CSet.containsVal (vals := [false, true]) R v = .ok true ↔ BoolSet.contains R v = true := by decide
  exact h
theorem assigned_bool : ∀ R : BoolSet, CSet.assigned (vals := [false, true]) R = true → R ≠ BoolSet.empty := by decide

section srt
variable {T : Type} [CppVal T] [CppOrder T] [CppLimits T] [CppLawfulLimits T] [CppStep T]

/-- `sgn(x)`, a set of signs -/
def sgnFn [CppNum T] : MFn (STy T) KVals := MFn.of1 (.ivl .val) (.set .sign) (fun dbg (X : Ivl T) => sgnI dbg X) (fun (a : T) => sgnScalar false CppNum.zero a)
/-- C95, C96: `auto s = sgn(x)` may be used. -/
theorem C95_sgn_fn [CppNum T] (hz : NotNan (CppNum.zero : T)) : (sgnFn (T := T)).Encl ∧ (sgnFn (T := T)).Total ∧ (sgnFn (T := T)).IsoDef := by
  refine MFn.of1_exact KVals_nodup _ _ _ _ (fun (X : Ivl T) (a : T) (ha : a ∈ᵢ X) => ?_) fun dbg (X : Ivl T) (hX : Proper X) => ?_
  · obtain ⟨s, h, _⟩ := C08_sgn false CppNum.zero a hz (cle_left ha.2)
    exact ⟨s, h⟩
  · exact sgn_exact (Ty := fun _ : Unit => T) () hz dbg X hX

/-- `-s` -/
def signNeg : MFn (STy T) KVals := MFn.of1 (.set .sign) (.set .sign) (fun _ (A : SignSet) => SignSet.minus A) (fun (a : Sign) => .ok (Sign.minus a))
/-- `s * t` -/
def signMul : MFn (STy T) KVals := MFn.of2 (.set .sign) (.set .sign) (.set .sign) (fun _ (A B : SignSet) => SignSet.mul A B) (fun (a b : Sign) => .ok (Sign.mul a b))
/-- C95, C96: `-s` and `s * t` with sets of signs may be used. -/
theorem C95_sign_arith : ((signNeg (T := T)).Encl ∧ (signNeg (T := T)).Total ∧ (signNeg (T := T)).IsoDef) ∧
    (signMul (T := T)).Encl ∧ (signMul (T := T)).Total ∧ (signMul (T := T)).IsoDef := by
  constructor
  · refine MFn.of1_exact KVals_nodup _ _ _ _ (fun _ _ _ => ⟨_, rfl⟩) fun dbg (A : SignSet) _ => ?_
    obtain ⟨R, h1, h2⟩ := C08_neg A
    exact ⟨R, h1, fun (v : Sign) => (h2 v).trans (exists_congr fun a => and_congr_right fun _ => (Except.ok.injEq _ _).symm ▸ Iff.rfl)⟩
  · refine MFn.of2_exact KVals_nodup _ _ _ _ _ (fun _ _ _ _ _ _ => ⟨_, rfl⟩) fun dbg (A B : SignSet) (hA : CSet.assigned A = true) (hB : CSet.assigned B = true) => ?_
    obtain ⟨R, h1, h2⟩ := C08_mul_partial A B (.inl ⟨(assigned_iff (by decide)).1 hA, (assigned_iff (by decide)).1 hB⟩)
    exact ⟨R, h1, fun (v : Sign) => (h2 v).trans (exists_congr fun a => exists_congr fun b => and_congr_right fun _ => and_congr_right fun _ => (Except.ok.injEq _ _).symm ▸ Iff.rfl)⟩

/-- `!b` -/
def boolNot : MFn (STy T) KVals := MFn.of1 (.set .bool) (.set .bool) (fun dbg (A : BoolSet) => BoolSet.not dbg A) (fun (a : Bool) => .ok !a)
/-- a connective of two sets of truth values -/
def boolFn (op : BoolSet → BoolSet → BoolSet) (f : Bool → Bool → Bool) : MFn (STy T) KVals :=
  MFn.of2 (.set .bool) (.set .bool) (.set .bool) (fun _ (A B : BoolSet) => .ok (op A B)) (fun (a b : Bool) => .ok (f a b))
/-- C95, C96: the connectives of sets of truth values may be used. -/
theorem C95_bool_fns : ((boolNot (T := T)).Encl ∧ (boolNot (T := T)).Total ∧ (boolNot (T := T)).IsoDef) ∧
    ∀ p ∈ [(BoolSet.and, fun a b => a && b), (BoolSet.or, fun a b => a || b), (BoolSet.xor, fun a b => a != b)],
      (boolFn (T := T) p.1 p.2).Encl ∧ (boolFn (T := T) p.1 p.2).Total ∧ (boolFn (T := T) p.1 p.2).IsoDef := by
  have key : ∀ op f, (∀ A B : BoolSet, IsExt2 f A B (op A B)) → (boolFn (T := T) op f).Encl ∧ (boolFn (T := T) op f).Total ∧ (boolFn (T := T) op f).IsoDef := by
    intro op f h
    refine MFn.of2_exact KVals_nodup _ _ _ _ _ (fun _ _ _ _ _ _ => ⟨_, rfl⟩) fun dbg (A B : BoolSet) _ _ => ⟨_, rfl, fun (v : Bool) => ?_⟩
    change SMem (vals := [false, true]) v (op A B) ↔ ∃ a b : Bool, SMem (vals := [false, true]) a A ∧ SMem (vals := [false, true]) b B ∧ (.ok (f a b) : Outcome Bool) = .ok v
    simp only [smem_bool, Except.ok.injEq]
    exact h A B v
  constructor
  · refine MFn.of1_exact KVals_nodup _ _ _ _ (fun _ _ _ => ⟨_, rfl⟩) fun dbg (A : BoolSet) (hA : CSet.assigned (vals := [false, true]) A = true) => ?_
    obtain ⟨R, h1, h2⟩ := C01_not dbg A (fun _ => hA)
    refine ⟨R, h1, fun (v : Bool) => ?_⟩
    change SMem (vals := [false, true]) v R ↔ ∃ a : Bool, SMem (vals := [false, true]) a A ∧ (.ok (!a) : Outcome Bool) = .ok v
    simp only [smem_bool, Except.ok.injEq]
    exact h2 v
  · intro p hp
    simp only [List.mem_cons, List.not_mem_nil, or_false] at hp
    rcases hp with rfl | rfl | rfl
    exacts [key _ _ C01_and, key _ _ C01_or, key _ _ C01_xor]

/-- a comparison, e.g. `set<bool> b = x < y` -/
def cmpFn (s : Srt) (op : Bool → Arg (STy T s) → Arg (STy T s) → Outcome BoolSet) (f : STy T s → STy T s → Bool) : MFn (STy T) KVals :=
  MFn.of2 (.ivl s) (.ivl s) (.set .bool) (fun dbg X Y => op dbg (.ivl X) (.ivl Y)) (fun a b => .ok (f a b))
/-- C95, C96: the results of comparisons may be stored in variables. -/
theorem C95_cmp_fns (s : Srt) : ∀ p ∈ [(opEq, eq), (opNe, ne), (opLt, lt), (opLe, le), (opGt, gt), (opGe, ge)],
    (cmpFn (T := T) s p.1 p.2).Encl ∧ (cmpFn (T := T) s p.1 p.2).Total ∧ (cmpFn (T := T) s p.1 p.2).IsoDef := by
  have key : ∀ (op : Bool → Arg (STy T s) → Arg (STy T s) → Outcome BoolSet) (f : STy T s → STy T s → Bool),
      (∀ dbg A B, ProperA A → ProperA B → ∃ R, op dbg A B = .ok R ∧ ExactCmp f A B R) →
      (cmpFn (T := T) s op f).Encl ∧ (cmpFn (T := T) s op f).Total ∧ (cmpFn (T := T) s op f).IsoDef := by
    intro op f h
    refine MFn.of2_exact KVals_nodup _ _ _ _ _ (fun _ _ _ _ _ _ => ⟨_, rfl⟩) fun dbg (X Y : Ivl (STy T s)) (hX : Proper X) (hY : Proper Y) => ?_
    obtain ⟨R, h1, h2⟩ := h dbg (.ivl X) (.ivl Y) hX hY
    refine ⟨R, h1, fun (v : Bool) => ?_⟩
    change SMem (vals := [false, true]) v R ↔ ∃ a b : STy T s, a ∈ᵢ X ∧ b ∈ᵢ Y ∧ (.ok (f a b) : Outcome Bool) = .ok v
    simp only [smem_bool, Except.ok.injEq]
    exact h2 v
  intro p hp
  simp only [List.mem_cons, List.not_mem_nil, or_false] at hp
  rcases hp with rfl | rfl | rfl | rfl | rfl | rfl
  exacts [key _ _ C09_eq, key _ _ C09_ne, key _ _ C09_lt, key _ _ C09_le, key _ _ C09_gt, key _ _ C09_ge]

/-- a set of truth values in a variable, as a condition -/
def boolVar : MPred (STy T) KVals := MPred.of1 (.set .bool) (fun _ (A : BoolSet) => .ok A) (fun (a : Bool) => a)
/-- C95, C96: a set of truth values may be used as a condition. -/
theorem C95_bool_var : (boolVar (T := T)).Lawful := by
  refine MPred.of1_lawful KVals_nodup _ _ _ fun dbg (A : BoolSet) _ => ⟨A, rfl, fun r => ?_⟩
  change BMem r A ↔ ∃ a : Bool, SMem (vals := [false, true]) a A ∧ a = r
  simp [smem_bool]

/-- `if_else(b, x, y)` for intervals and for sets -/
def dIfElse (dbg : Bool) : {t : VSort Srt Knd} → BoolSet → Dm (STy T) KVals t → Dm (STy T) KVals t → Outcome (Dm (STy T) KVals t)
  | .ivl _, C, X, Y => Ivl.ifElse C X Y
  | .set _, C, X, Y => CSet.ifElse dbg C X Y
/-- the types of the arguments -/
def sigIf (t : VSort Srt Knd) : Fin 3 → VSort Srt Knd
  | 0 => .set .bool
  | 1 => t
  | 2 => t
/-- three arguments -/
def triple {A : VSort Srt Knd → Type} {t : VSort Srt Knd} (a : A (.set .bool)) (b c : A t) : (i : Fin 3) → A (sigIf t i)
  | 0 => a
  | 1 => b
  | 2 => c
/-- `if_else(b, x, y)` -/
def ifElseFn (t : VSort Srt Knd) : MFn (STy T) KVals where
  arity := 3
  sig := sigIf t
  res := t
  ivl dbg Xs := dIfElse dbg (Xs 0) (Xs 1) (Xs 2)
  pt vs := .ok (Scalar.ifElse (vs 0) (vs 1) (vs 2))

private theorem if_else_mono {s : Srt} {C C' : BoolSet} {X Y X' Y' R Q : Ivl (STy T s)} (hC : ∀ b, BMem b C → BMem b C') (hne : ∃ b, BMem b C) (hX : Proper X) (hY : Proper Y)
    (hX' : ∀ v, v ∈ᵢ X → v ∈ᵢ X') (hY' : ∀ v, v ∈ᵢ Y → v ∈ᵢ Y') (hR : Ivl.ifElse C X Y = .ok R) (hQ : Ivl.ifElse C' X' Y' = .ok Q) : ∀ v, v ∈ᵢ R → v ∈ᵢ Q := by
  have pX' : Proper X' := proper_of_pt (hX' _ (lo_pt hX))
  have pY' : Proper Y' := proper_of_pt (hY' _ (lo_pt hY))
  obtain ⟨R', r1, -, r2⟩ := C15_if_else C X Y (fun _ => hX) (fun _ => hY)
  rw [hR] at r1; cases r1
  obtain ⟨Q', q1, -, q2⟩ := C15_if_else C' X' Y' (fun _ => pX') (fun _ => pY')
  rw [hQ] at q1; cases q1
  have mem : ∀ {C : BoolSet} {X Y Z : Ivl (STy T s)}, Z ∈ branches C X Y ↔ (BMem true C ∧ Z = X) ∨ (BMem false C ∧ Z = Y) := by
    intro C X Y Z
    unfold branches BMem
    cases BoolSet.contains C true <;> cases BoolSet.contains C false <;> simp
  have up : ∀ Z ∈ branches C X Y, ∃ Z' ∈ branches C' X' Y', ∀ v, v ∈ᵢ Z → v ∈ᵢ Z' := by
    intro Z hZ
    rcases mem.1 hZ with ⟨h, rfl⟩ | ⟨h, rfl⟩
    · exact ⟨X', mem.2 (.inl ⟨hC _ h, rfl⟩), hX'⟩
    · exact ⟨Y', mem.2 (.inr ⟨hC _ h, rfl⟩), hY'⟩
  have ne : branches C X Y ≠ [] := by
    obtain ⟨b, hb⟩ := hne
    cases b
    · exact List.ne_nil_of_mem (mem.2 (.inr ⟨hb, rfl⟩))
    · exact List.ne_nil_of_mem (mem.2 (.inl ⟨hb, rfl⟩))
  have prop : ∀ Z ∈ branches C X Y, Proper Z := by
    intro Z hZ
    rcases mem.1 hZ with ⟨_, rfl⟩ | ⟨_, rfl⟩ <;> assumption
  obtain ⟨-, -, ⟨A, a1, a2⟩, ⟨B, b1, b2⟩⟩ := r2 ne
  obtain ⟨A', c1, c2⟩ := up A a1
  obtain ⟨B', d1, d2⟩ := up B b1
  obtain ⟨-, q3, -, -⟩ := q2 (List.ne_nil_of_mem c1)
  intro v hv
  have hl := c2 _ (lo_pt (prop A a1))
  have hh := d2 B.hi ⟨prop B b1, cle_right (prop B b1)⟩
  exact ⟨cle_trans (q3 A' c1).1 (cle_trans hl.1 (cle_trans ((CppOrder.eq_iff _ _).1 a2).2 hv.1)),
    cle_trans hv.2 (cle_trans ((CppOrder.eq_iff _ _).1 b2).1 (cle_trans hh.2 (q3 B' d1).2))⟩

/-- C95, C96: `if_else(b, x, y)` with intervals or sets `x`, `y` may be used. -/
theorem C95_if_else (t : VSort Srt Knd) : (ifElseFn (T := T) t).Encl ∧ (ifElseFn (T := T) t).Total ∧ (ifElseFn (T := T) t).IsoDef := by
  have ne : ∀ {C : BoolSet}, CSet.assigned (vals := [false, true]) C = true → ∃ b, BMem b C := by decide
  cases t with
  | set k =>
    refine C95_exact KVals_nodup _ (fun _ _ _ => ⟨_, rfl⟩) fun dbg (Xs : (i : Fin 3) → Dm (STy T) KVals (sigIf (.set k) i)) (hX : ∀ i, DProper (Xs i)) => ?_
    obtain ⟨a, ha⟩ := (assigned_iff (KVals_nodup k)).1 (hX 1)
    obtain ⟨b, hb⟩ := (assigned_iff (KVals_nodup k)).1 (hX 2)
    obtain ⟨R, h1, h2⟩ := C15_set (vals := KVals k) dbg (Xs 0) (Xs 1) (Xs 2) (fun _ => ⟨a, ha⟩) (fun _ => ⟨b, hb⟩)
    refine ⟨R, h1, fun (v : KEn k) => (h2 v).trans ⟨?_, ?_⟩⟩
    · rintro (⟨h, hv⟩ | ⟨h, hv⟩)
      · exact ⟨triple (A := Sc (STy T) KEn) true v b, fun | (0 : Fin 3) => (smem_bool _ _).2 h | (1 : Fin 3) => hv | (2 : Fin 3) => hb, rfl⟩
      · exact ⟨triple (A := Sc (STy T) KEn) false a v, fun | (0 : Fin 3) => (smem_bool _ _).2 h | (1 : Fin 3) => ha | (2 : Fin 3) => hv, rfl⟩
    · rintro ⟨(vs : (i : Fin 3) → Sc (STy T) KEn (sigIf (.set k) i)), hv, hr⟩
      have h0 := (smem_bool _ _).1 (hv (0 : Fin 3))
      have h1 := hv (1 : Fin 3)
      have h2 := hv (2 : Fin 3)
      change (.ok (Scalar.ifElse (vs 0 : Bool) (vs 1 : KEn k) (vs 2 : KEn k)) : Outcome (KEn k)) = .ok v at hr
      revert h0 hr
      change BMem (vs 0 : Bool) (Xs 0) → _
      generalize (vs 0 : Bool) = c
      intro h0 hr
      cases hr
      cases c
      · exact .inr ⟨h0, h2⟩
      · exact .inl ⟨h0, h1⟩
  | ivl s =>
    refine ⟨?_, ?_, ?_⟩
    · intro dbg (Xs : (i : Fin 3) → Dm (STy T) KVals (sigIf (.ivl s) i)) (vs : (i : Fin 3) → Sc (STy T) KEn (sigIf (.ivl s) i)) (R : Ivl (STy T s)) (hv : ∀ i, vs i ∈ₘ Xs i) hr _
      obtain ⟨R', h1, h2⟩ := C15_points (T := STy T s) (Xs 0) (Xs 1) (Xs 2) (vs 0) (vs 1) (vs 2) (fun _ => proper_of_pt (hv 1)) (fun _ => proper_of_pt (hv 2)) ((smem_bool _ _).1 (hv 0)) (hv 1) (hv 2)
      rw [show Ivl.ifElse (T := STy T s) (Xs 0) (Xs 1) (Xs 2) = .ok R from hr] at h1; cases h1
      exact ⟨_, rfl, h2⟩
    · intro dbg (Xs : (i : Fin 3) → Dm (STy T) KVals (sigIf (.ivl s) i)) (hX : ∀ i, DProper (Xs i))
      obtain ⟨b, hb⟩ := ne (hX 0)
      obtain ⟨R, h1, h2⟩ := C15_points (T := STy T s) (Xs 0) (Xs 1) (Xs 2) b _ _ (fun _ => hX 1) (fun _ => hX 2) hb (lo_pt (hX 1)) (lo_pt (hX 2))
      exact ⟨R, h1, proper_of_pt h2⟩
    · intro dbg (Xs : (i : Fin 3) → Dm (STy T) KVals (sigIf (.ivl s) i)) (Ys : (i : Fin 3) → Dm (STy T) KVals (sigIf (.ivl s) i)) (Q : Ivl (STy T s)) (hX : ∀ i, DProper (Xs i))
        (hs : ∀ i v, v ∈ₘ Xs i → v ∈ₘ Ys i) hq _
      obtain ⟨b, hb⟩ := ne (hX 0)
      obtain ⟨R, h1, h2⟩ := C15_points (T := STy T s) (Xs 0) (Xs 1) (Xs 2) b _ _ (fun _ => hX 1) (fun _ => hX 2) hb (lo_pt (hX 1)) (lo_pt (hX 2))
      exact ⟨R, h1, proper_of_pt h2, if_else_mono (C := Xs 0) (C' := Ys 0) (fun b hb => (smem_bool _ _).1 (hs 0 b ((smem_bool _ _).2 hb))) ⟨b, hb⟩ (hX 1) (hX 2) (hs 1) (hs 2) h1 hq⟩
end srt

section float
variable {K : Type} [Field K] [LinearOrder K] [IsStrictOrderedRing K] [Fmt K]

/-- a classification, e.g. `auto b = isfinite(x)` -/
def classFn (ivl : Bool → Ivl (Fl K) → Outcome BoolSet) (pt : Fl K → Bool) : MFn (STy (Fl K)) KVals :=
  MFn.of1 (.ivl .val) (.set .bool) (fun dbg (X : Ivl (Fl K)) => ivl dbg X) (fun (a : Fl K) => .ok (pt a))
/-- C95, C96: the results of `isinf` and `isfinite` may be stored in variables. -/
theorem C95_classify_fns : ∀ p ∈ [(isInfI (K := K), Fl.isInf (K := K)), (isFiniteI, Fl.isFinite)], (classFn p.1 p.2).Encl ∧ (classFn p.1 p.2).Total ∧ (classFn p.1 p.2).IsoDef := by
  have key : ∀ (ivl : Bool → Ivl (Fl K) → Outcome BoolSet) (pt : Fl K → Bool),
      (∀ dbg X, Proper X → ∃ R, ivl dbg X = .ok R ∧ ∀ r, BMem r R ↔ ∃ a, a ∈ᵢ X ∧ pt a = r) → (classFn ivl pt).Encl ∧ (classFn ivl pt).Total ∧ (classFn ivl pt).IsoDef := by
    intro ivl pt h
    refine MFn.of1_exact KVals_nodup _ _ _ _ (fun _ _ _ => ⟨_, rfl⟩) fun dbg (X : Ivl (Fl K)) (hX : Proper X) => ?_
    obtain ⟨R, h1, h2⟩ := h dbg X hX
    refine ⟨R, h1, fun (v : Bool) => ?_⟩
    change SMem (vals := [false, true]) v R ↔ ∃ a : Fl K, a ∈ᵢ X ∧ (.ok (pt a) : Outcome Bool) = .ok v
    simp only [smem_bool, Except.ok.injEq]
    exact h2 v
  intro p hp
  simp only [List.mem_cons, List.not_mem_nil, or_false] at hp
  rcases hp with rfl | rfl
  exacts [key _ _ C35_isinf, key _ _ C35_isfinite_partial]
end float

/-! Non-vacuity, and the rule for `assign`. -/
section examples
attribute [local instance] exactFmt

private abbrev zi : Index := ⟨0, by decide, by decide⟩
private theorem stepI : ∀ s : Srt, (s == Srt.idx) = true → LawfulStep (STy (Fl ℚ) s) := fun s h => by
  cases s; exacts [lawfulStep_bint _ _, absurd h (by decide)]

/-- `set<bool> b = x < y; auto s = sgn(x); auto t = -s; auto u = if_else(b, s, t); set<sign> w;
auto c = u == positive;
if (possibly(c)) { assign_partial(w, s); }
if (possibly(!c)) { assign_partial(w, u); }
T r; for (auto v : enumerate(w)) switch (v) { case negative: assign_partial(r, y); default: assign_partial(r, x); }` -/
def setProg : MProg (STy (Fl ℚ)) KVals :=
  .seq (.letF 0 (cmpFn (T := Fl ℚ) .val opLt lt) (fun (i : Fin 2) => i.val)) <|
  .seq (.letF 0 (sgnFn (T := Fl ℚ)) (fun _ => 0)) <|
  .seq (.letF 1 signNeg (fun _ => 0)) <|
  .seq (.letF 2 (ifElseFn (.set .sign)) (fun | (0 : Fin 3) => 0 | (1 : Fin 3) => 0 | (2 : Fin 3) => 1)) <|
  .seq (.decl (.set .sign, 3)) <|
  .seq (.branch (.pred (setEqVal .sign false Sign.pos) (fun _ => 2)) (.assignPartial (.set .sign) 3 0) (.assignPartial (.set .sign) 3 2)) <|
  .seq (.decl (.ivl .val, 2)) <|
  .each (enumSet .sign) (fun _ => 3) fun (v : Sign) => match v with
    | .neg => .assignPartial (.ivl .val) 2 1
    | .zero => .assignPartial (.ivl .val) 2 0
    | .pos => .assignPartial (.ivl .val) 2 0

private def setI : Env (Dm (STy (Fl ℚ)) KVals) := varsI (T := Fl ℚ) (fun _ => ⟨zi, zi⟩) (fun n => if n = 0 then ⟨.num 1, .num 3⟩ else ⟨.num 2, .num 12⟩)

example : (do let r ← runMI true (fun s => s == Srt.idx) setProg setI []; return (signOf 2 r, signOf 3 r, valOf 2 r, r.2)) = .ok (5#3, 5#3, ⟨.num 1, .num 12⟩, true) := by decide +kernel
example : (do let r ← runMS (zeros zi (.num 0 : Fl ℚ)) setProg (varsS (T := Fl ℚ) (fun _ => zi) (fun n => if n = 0 then .num 3 else .num 2)) []
              return (signOfS 3 r, valOfS 2 r)) = .ok (Sign.neg, .num 2) := by decide +kernel

/-- the rules admit it -/
theorem set_wf : ∃ Γ, setProg.Wf (MCtx.start [(.ivl .val, 0), (.ivl .val, 1)]) Γ ∧ (.ivl .val, 2) ∈ Γ.asgd ∧ (.set .sign, 3) ∈ Γ.asgd := by
  refine ⟨_, ⟨_, ⟨by decide, fun (i : Fin 2) => ?_, rfl⟩, _, ⟨by decide, fun (i : Fin 1) => ?_, rfl⟩, _, ⟨by decide, fun (i : Fin 1) => ?_, rfl⟩,
    _, ⟨by decide, fun (i : Fin 3) => ?_, rfl⟩, _, ⟨by decide, rfl⟩, _, ⟨⟨(C95_set_eq KVals_nodup .sign false).2 _ (by change Sign.pos ∈ Sign.vals; decide), fun (i : Fin 1) => ?_⟩, _, _,
      ⟨by decide, by decide, by decide, rfl⟩, ⟨by decide, by decide, by decide, rfl⟩, rfl⟩, _, ⟨by decide, rfl⟩,
    fun (i : Fin 1) => ?_, [(.ivl .val, 2)], by decide, fun (v : Sign) => ?_, rfl⟩, by decide, by decide⟩
  any_goals (revert i; decide)
  cases v
  exacts [⟨_, ⟨by decide, by decide, by decide, rfl⟩, by decide⟩, ⟨_, ⟨by decide, by decide, by decide, rfl⟩, by decide⟩, ⟨_, ⟨by decide, by decide, by decide, rfl⟩, by decide⟩]

private theorem set_all {P : MFn (STy (Fl ℚ)) KVals → Prop} {Q : Each (STy (Fl ℚ)) KVals → Prop} (h1 : P (cmpFn (T := Fl ℚ) .val opLt lt)) (h2 : P (sgnFn (T := Fl ℚ))) (h3 : P signNeg)
    (h4 : P (ifElseFn (.set .sign))) (h5 : Q (enumSet .sign)) : setProg.All P Q :=
  ⟨h1, h2, h3, h4, trivial, ⟨trivial, trivial⟩, trivial, h5, fun (v : Sign) => by cases v <;> exact trivial⟩
private theorem cmp_ok : (cmpFn (T := Fl ℚ) .val opLt lt).Encl ∧ (cmpFn (T := Fl ℚ) .val opLt lt).Total ∧ (cmpFn (T := Fl ℚ) .val opLt lt).IsoDef := C95_cmp_fns (T := Fl ℚ) .val (opLt, lt) (by simp)
private theorem sgn_ok : (sgnFn (T := Fl ℚ)).Encl ∧ (sgnFn (T := Fl ℚ)).Total ∧ (sgnFn (T := Fl ℚ)).IsoDef := C95_sgn_fn (T := Fl ℚ) (by decide)

/-- all hypotheses of `C95_encloses` and `C95_total` hold for it, whatever the inputs -/
example (dbg : Bool) (S : Env (Dm (STy (Fl ℚ)) KVals)) (s : Env (Sc (STy (Fl ℚ)) KEn)) (h0 : s (.ivl .val, 0) ∈ₘ S (.ivl .val, 0)) (h1 : s (.ivl .val, 1) ∈ₘ S (.ivl .val, 1)) :
    ∃ S' s', runMI dbg (fun s => s == Srt.idx) setProg S [] = .ok (S', true) ∧ runMS (zeros zi (.num 0 : Fl ℚ)) setProg s [] = .ok s' ∧ s' (.ivl .val, 2) ∈ₘ S' (.ivl .val, 2) ∧
      s' (.set .sign, 3) ∈ₘ S' (.set .sign, 3) := by
  obtain ⟨Γ, w1, w2, w3⟩ := set_wf
  have hin : ∀ x ∈ ([(.ivl .val, 0), (.ivl .val, 1)] : List (MVar Srt Knd)), s x ∈ₘ S x := fun x hx => by
    simp only [List.mem_cons, List.not_mem_nil, or_false] at hx; rcases hx with rfl | rfl <;> assumption
  obtain ⟨S', r1, -⟩ := C95_total KVals_nodup dbg (fun s => s == Srt.idx) stepI setProg _ Γ S
    (set_all cmp_ok.2.1 sgn_ok.2.1 C95_sign_arith.1.2.1 (C95_if_else _).2.1 (C95_enumerate_set KVals_nodup .sign).2.1) ⟨trivial, trivial, trivial, trivial, trivial, ⟨rfl, trivial, trivial⟩, trivial, fun (v : Sign) => by cases v <;> exact trivial⟩ w1 (fun x hx => dmem_proper (hin x hx))
  obtain ⟨s', g1, g2⟩ := C95_encloses KVals_nodup dbg (fun s => s == Srt.idx) (zeros zi (.num 0 : Fl ℚ)) stepI setProg _ Γ S S' s
    (set_all cmp_ok.1 sgn_ok.1 C95_sign_arith.1.1 (C95_if_else _).1 (C95_enumerate_set KVals_nodup .sign).1) w1 hin r1
  exact ⟨S', s', r1, g1, g2 _ w2, g2 _ w3⟩

/-- `set<sign> t; auto c = x < y; if (possibly(c)) { assign(t, s); } if (possibly(!c)) { assign(t, u); }` -/
def assignSets : MProg (STy (Fl ℚ)) KVals :=
  .seq (.decl (.set .sign, 2)) <| .branch (.cmp .val .lt (.var 0) (.var 1)) (.assign (.set .sign) 2 0) (.assign (.set .sign) 2 1)
/-- the same with a pair of intervals -/
def assignIvls : MProg (STy (Fl ℚ)) KVals :=
  .seq (.decl (.ivl .val, 2)) <| .branch (.cmp .val .lt (.var 0) (.var 1)) (.assign (.ivl .val) 2 0) (.assign (.ivl .val) 2 1)

private def asgI : Env (Dm (STy (Fl ℚ)) KVals) := varsI (T := Fl ℚ) (fun _ => ⟨zi, zi⟩) (fun n => if n = 0 then ⟨.num 1, .num 3⟩ else ⟨.num 2, .num 12⟩) (fun n => if n = 0 then 4#3 else 1#3)
private def asgS : Env (Sc (STy (Fl ℚ)) KEn) := varsS (T := Fl ℚ) (fun _ => zi) (fun n => if n = 0 then .num 1 else .num 5) (fun n => if n = 0 then .pos else .neg)

/-- C95: `assign` overwrites a set that has a value (for intervals it is a contract violation): with `assign` in both branches the set holds only what the second branch
assigned, and the scalar program's value, from the first branch, is not in it.  The rules reject the program. -/
theorem C95_assign_set : (∀ x ∈ ([(.ivl .val, 0), (.ivl .val, 1), (.set .sign, 0), (.set .sign, 1)] : List (MVar Srt Knd)), asgS x ∈ₘ asgI x) ∧
    (do let r ← runMI true (fun s => s == Srt.idx) assignSets asgI []; return (signOf 2 r, r.2)) = .ok (1#3, true) ∧
    (do let r ← runMS (zeros zi (.num 0 : Fl ℚ)) assignSets asgS []; return signOfS 2 r) = .ok Sign.pos ∧ ¬ SMem Sign.pos (show SignSet from 1#3) ∧
    (∀ Γ, ¬ assignSets.Wf (MCtx.start [(.ivl .val, 0), (.ivl .val, 1), (.set .sign, 0), (.set .sign, 1)]) Γ) ∧
    (do let r ← runMI true (fun s => s == Srt.idx) assignIvls asgI []; return (valOf 2 r, r.2)) = .error .contract := by
  refine ⟨by decide, by decide +kernel, by decide +kernel, by decide, ?_, by decide +kernel⟩
  rintro Γ ⟨Γ1, ⟨-, rfl⟩, -, Γp, Γq, ⟨-, -, -, h, -⟩, -⟩
  exact h rfl (by decide)
end examples
end Intervals.Props
