import Verif.Props.IntArith
import Verif.Lemmas.Hull
/-!
# C72: laws of interval arithmetic, integer value types
-/
set_option linter.unusedSectionVars false
namespace Intervals.Props
open Intervals CppVal Spec

variable {n : Nat}

theorem rep_between {a b c : Int} (ha : Rep n a) (hc : Rep n c) (h1 : a ≤ b) (h2 : b ≤ c) : Rep n b := by
  unfold Rep at *; omega
theorem ivl_ext {X Y : Ivl (SInt n)} (h1 : X.lo.val = Y.lo.val) (h2 : X.hi.val = Y.hi.val) : X = Y := by
  cases X; cases Y; simp only [Ivl.mk.injEq]; exact ⟨BInt.ext h1, BInt.ext h2⟩

theorem exactInt2_ok {g : Int → Int → Int} {X Y : Arg (SInt n)} {P : Ivl (SInt n)}
    (h : ExactInt2 (fun a b => some (g a b)) X Y (.ok P)) :
    (∀ a b, InI a X → InI b Y → Rep n (g a b)) ∧ Hull (fun v => ∃ a b, InI a X ∧ InI b Y ∧ v = g a b) P.lo.val P.hi.val := by
  rcases h with ⟨-, h⟩ | ⟨hd, R, hR, hin, ⟨a, b, ha, hb, hl⟩, ⟨c, d, hc, hd', hh⟩⟩
  · exact absurd h (by simp)
  · cases hR
    refine ⟨fun a b ha hb => ?_, fun v ⟨a, b, ha, hb, hv⟩ => hin a b v ha hb (by rw [hv]), ?_, ?_⟩
    · obtain ⟨v, hv, hr⟩ := hd a b ha hb
      cases hv; exact hr
    · exact ⟨a, b, ha, hb, by simpa using hl.symm⟩
    · exact ⟨c, d, hc, hd', by simpa using hh.symm⟩
theorem exactInt2_cases {g : Int → Int → Int} {X Y : Arg (SInt n)} {res : Outcome (Ivl (SInt n))}
    (h : ExactInt2 (fun a b => some (g a b)) X Y res) :
    (∃ R, res = .ok R) ∨ (res = .error .ub ∧ ∃ a b, InI a X ∧ InI b Y ∧ ¬ Rep n (g a b)) := by
  rcases h with ⟨⟨a, b, ha, hb, hn⟩, h⟩ | ⟨_, R, hR, _⟩
  · exact Or.inr ⟨h, a, b, ha, hb, fun hr => hn ⟨_, rfl, hr⟩⟩
  · exact Or.inl ⟨R, hR⟩
theorem exactInt2_swap {g : Int → Int → Int} (hc : ∀ a b, g a b = g b a) {X Y : Arg (SInt n)} {res : Outcome (Ivl (SInt n))}
    (h : ExactInt2 (fun a b => some (g a b)) X Y res) : ExactInt2 (fun a b => some (g a b)) Y X res := by
  rcases h with ⟨⟨a, b, ha, hb, hn⟩, h⟩ | ⟨hd, R, hR, hin, ⟨a, b, ha, hb, hl⟩, ⟨c, d, hc', hd', hh⟩⟩
  · exact Or.inl ⟨⟨b, a, hb, ha, by simpa only [Def2, hc b a] using hn⟩, h⟩
  · exact Or.inr ⟨fun a b ha hb => by simpa only [Def2, hc a b] using hd b a hb ha, R, hR,
      fun a b v ha hb e => hin b a v hb ha ((congrArg some (hc b a)).trans e), ⟨b, a, hb, ha, (congrArg some (hc b a)).trans hl⟩,
      ⟨d, c, hd', hc', (congrArg some (hc d c)).trans hh⟩⟩
theorem inhab_of_hull {g : Int → Int → Int} {X Y : Arg (SInt n)} {P : Ivl (SInt n)}
    (h : ExactInt2 (fun a b => some (g a b)) X Y (.ok P)) : Inhab (.ivl P) := (exactInt2_ok h).2.le

section assoc
variable {g : Int → Int → Int} {op : Arg (SInt n) → Arg (SInt n) → Outcome (Ivl (SInt n))}

/-- the result on the result of the first two operands is the exact result on the three operands -/
theorem hull3 (hg : Bet g) {X Y Z : Arg (SInt n)} {P R : Ivl (SInt n)}
    (h1 : ExactInt2 (fun a b => some (g a b)) X Y (.ok P)) (h2 : ExactInt2 (fun a b => some (g a b)) (.ivl P) Z (.ok R)) :
    Hull (fun v => ∃ a b c, InI a X ∧ InI b Y ∧ InI c Z ∧ v = g (g a b) c) R.lo.val R.hi.val :=
  (((exactInt2_ok h1).2).step hg (exactInt2_ok h2).2).congr fun v =>
    ⟨fun ⟨_, c, ⟨a, b, ha, hb, e⟩, hc, hv⟩ => ⟨a, b, c, ha, hb, hc, e ▸ hv⟩, fun ⟨a, b, c, ha, hb, hc, hv⟩ => ⟨_, c, ⟨a, b, ha, hb, rfl⟩, hc, hv⟩⟩

/-- if the three-operand results are representable, so is every result on the hull -/
theorem rep3 (hg : Bet g) {X Y Z : Arg (SInt n)} {P : Ivl (SInt n)} (h1 : ExactInt2 (fun a b => some (g a b)) X Y (.ok P))
    (h : ∀ a b c, InI a X → InI b Y → InI c Z → Rep n (g (g a b) c)) (p c : Int) (hp : InI p (.ivl P)) (hc : InI c Z) : Rep n (g p c) := by
  obtain ⟨-, -, ⟨a, b, ha, hb, e⟩, ⟨a', b', ha', hb', e'⟩⟩ := exactInt2_ok h1
  obtain ⟨l, u⟩ := hg c p _ _ hp.1 hp.2
  have r1 := h a b c ha hb hc; have r2 := h a' b' c ha' hb' hc
  rw [← e] at r1; rw [← e'] at r2
  rcases l with l | l <;> rcases u with u | u
  · exact rep_between r1 r1 l u
  · exact rep_between r1 r2 l u
  · exact rep_between r2 r1 l u
  · exact rep_between r2 r2 l u

theorem assoc_ok (hg : Bet g) (hc : ∀ a b, g a b = g b a) (ha : ∀ a b c, g (g a b) c = g a (g b c))
    (hop : ∀ X Y, Inhab X → Inhab Y → ExactInt2 (fun a b => some (g a b)) X Y (op X Y)) {X Y Z : Arg (SInt n)} {P Q R : Ivl (SInt n)}
    (hX : Inhab X) (hY : Inhab Y) (hZ : Inhab Z) (hP : op X Y = .ok P) (hQ : op Y Z = .ok Q) (hR : op (.ivl P) Z = .ok R) :
    op X (.ivl Q) = .ok R := by
  have eP := hop X Y hX hY; rw [hP] at eP
  have eQ := hop Y Z hY hZ; rw [hQ] at eQ
  have eR := hop (.ivl P) Z (inhab_of_hull eP) hZ; rw [hR] at eR
  have eS := exactInt2_swap hc (hop X (.ivl Q) hX (inhab_of_hull eQ))
  have perm : ∀ a b c, g (g b c) a = g (g a b) c := fun a b c => (hc _ _).trans (ha a b c).symm
  have rep : ∀ b c a, InI b Y → InI c Z → InI a X → Rep n (g (g b c) a) := by
    intro b c a hb hc' ha'
    rw [perm]
    exact (exactInt2_ok eR).1 _ c ((exactInt2_ok eP).2.1 _ ⟨a, b, ha', hb, rfl⟩) hc'
  rcases exactInt2_cases eS with ⟨S, hS⟩ | ⟨-, q, a, hq, ha', hn⟩
  · rw [hS] at eS ⊢
    have u := (hull3 hg eP eR).unique ((hull3 hg eQ eS).congr (V' := fun v => ∃ a b c, InI a X ∧ InI b Y ∧ InI c Z ∧ v = g (g a b) c) fun v =>
      ⟨fun ⟨b, c, a, hb, hc', ha', hv⟩ => ⟨a, b, c, ha', hb, hc', hv.trans (perm a b c)⟩,
       fun ⟨a, b, c, ha', hb, hc', hv⟩ => ⟨b, c, a, hb, hc', ha', hv.trans (perm a b c).symm⟩⟩)
    rw [ivl_ext u.1 u.2]
  · exact absurd (rep3 hg eQ rep q a hq ha') hn

theorem comm_of (hc : ∀ a b, g a b = g b a)
    (hop : ∀ X Y, Inhab X → Inhab Y → ExactInt2 (fun a b => some (g a b)) X Y (op X Y)) {X Y : Arg (SInt n)} (hX : Inhab X) (hY : Inhab Y) :
    op X Y = op Y X := exactInt2_unique (hop X Y hX hY) (exactInt2_swap hc (hop Y X hY hX))

theorem assoc_of (hg : Bet g) (hc : ∀ a b, g a b = g b a) (ha : ∀ a b c, g (g a b) c = g a (g b c))
    (hop : ∀ X Y, Inhab X → Inhab Y → ExactInt2 (fun a b => some (g a b)) X Y (op X Y)) {X Y Z : Arg (SInt n)} {P Q : Ivl (SInt n)}
    (hX : Inhab X) (hY : Inhab Y) (hZ : Inhab Z) (hP : op X Y = .ok P) (hQ : op Y Z = .ok Q) : op (.ivl P) Z = op X (.ivl Q) := by
  have eP := hop X Y hX hY; rw [hP] at eP
  have eQ := hop Y Z hY hZ; rw [hQ] at eQ
  have iP := inhab_of_hull eP; have iQ := inhab_of_hull eQ
  rcases exactInt2_cases (hop (.ivl P) Z iP hZ) with ⟨R, hR⟩ | ⟨hR, -⟩
  · rw [hR, assoc_ok hg hc ha hop hX hY hZ hP hQ hR]
  · rcases exactInt2_cases (hop X (.ivl Q) hX iQ) with ⟨S, hS⟩ | ⟨hS, -⟩
    · -- associate in the other direction
      have e := assoc_ok (X := Z) (Y := Y) (Z := X) hg hc ha hop hZ hY hX (by rw [comm_of hc hop hZ hY]; exact hQ)
        (by rw [comm_of hc hop hY hX]; exact hP) (by rw [comm_of hc hop iQ hX]; exact hS)
      rw [comm_of hc hop iP hZ, e, hS]
    · rw [hR, hS]
end assoc

/-- C72: addition commutes (also in being undefined). -/
theorem C72_int_add_comm (dbg : Bool) (X Y : Arg (SInt n)) (hX : Inhab X) (hY : Inhab Y) : addI dbg X Y = addI dbg Y X :=
  comm_of (g := fun a b => a + b) (op := addI dbg) (fun a b => Int.add_comm a b) (C25_add dbg) hX hY

/-- C72: multiplication commutes. -/
theorem C72_int_mul_comm (dbg : Bool) (X Y : Arg (SInt n)) (hX : Inhab X) (hY : Inhab Y) : mulI dbg X Y = mulI dbg Y X :=
  comm_of (g := fun a b => a * b) (op := mulI dbg) (fun a b => Int.mul_comm a b) (C26_mul dbg) hX hY

/-- C72: addition associates if both inner sums are defined (the outer sums are then both defined or both undefined). -/
theorem C72_int_add_assoc (dbg : Bool) (X Y Z : Arg (SInt n)) (P Q : Ivl (SInt n)) (hX : Inhab X) (hY : Inhab Y) (hZ : Inhab Z)
    (hP : addI dbg X Y = .ok P) (hQ : addI dbg Y Z = .ok Q) : addI dbg (.ivl P) Z = addI dbg X (.ivl Q) :=
  assoc_of (g := fun a b => a + b) (op := addI dbg) bet_add (fun a b => Int.add_comm a b) (fun a b c => Int.add_assoc a b c) (C25_add dbg)
    hX hY hZ hP hQ

/-- C72: multiplication associates if both inner products are defined. -/
theorem C72_int_mul_assoc (dbg : Bool) (X Y Z : Arg (SInt n)) (P Q : Ivl (SInt n)) (hX : Inhab X) (hY : Inhab Y) (hZ : Inhab Z)
    (hP : mulI dbg X Y = .ok P) (hQ : mulI dbg Y Z = .ok Q) : mulI dbg (.ivl P) Z = mulI dbg X (.ivl Q) :=
  assoc_of (g := fun a b => a * b) (op := mulI dbg) bet_mul (fun a b => Int.mul_comm a b) (fun a b c => Int.mul_assoc a b c) (C26_mul dbg)
    hX hY hZ hP hQ

/-- C72: subdistributivity: `x*(y+z)` is contained in `x*y + x*z`, and defined if that is and `y+z` is. -/
theorem C72_int_subdistrib (dbg : Bool) (X Y Z : Arg (SInt n)) (S P Q R : Ivl (SInt n)) (hX : Inhab X) (hY : Inhab Y) (hZ : Inhab Z)
    (hS : addI dbg Y Z = .ok S) (hP : mulI dbg X Y = .ok P) (hQ : mulI dbg X Z = .ok Q) (hR : addI dbg (.ivl P) (.ivl Q) = .ok R) :
    ∃ T, mulI dbg X (.ivl S) = .ok T ∧ R.lo.val ≤ T.lo.val ∧ T.hi.val ≤ R.hi.val := by
  have eS := C25_add dbg Y Z hY hZ; rw [hS] at eS
  have eP := C26_mul dbg X Y hX hY; rw [hP] at eP
  have eQ := C26_mul dbg X Z hX hZ; rw [hQ] at eQ
  have eR := C25_add dbg (.ivl P) (.ivl Q) (inhab_of_hull eP) (inhab_of_hull eQ); rw [hR] at eR
  have eT := exactInt2_swap (fun a b => Int.mul_comm a b) (C26_mul dbg X (.ivl S) hX (inhab_of_hull eS))
  have key : ∀ a b c, InI a X → InI b Y → InI c Z → R.lo.val ≤ (b + c) * a ∧ (b + c) * a ≤ R.hi.val := by
    intro a b c ha hb hc
    have h := (exactInt2_ok eR).2.1 (a * b + a * c) ⟨a * b, a * c, (exactInt2_ok eP).2.1 _ ⟨a, b, ha, hb, rfl⟩, (exactInt2_ok eQ).2.1 _ ⟨a, c, ha, hc, rfl⟩, rfl⟩
    rwa [show a * b + a * c = (b + c) * a by ring] at h
  rcases exactInt2_cases eT with ⟨T, hT⟩ | ⟨-, s, a, hs, ha, hn⟩
  · rw [hT] at eT
    obtain ⟨-, ⟨s, a, ⟨b, c, hb, hc, rfl⟩, ha, e⟩, ⟨s', a', ⟨b', c', hb', hc', rfl⟩, ha', e'⟩⟩ := (exactInt2_ok eS).2.step bet_mul (exactInt2_ok eT).2
    refine ⟨T, hT, ?_, ?_⟩
    · rw [e]; exact (key a b c ha hb hc).1
    · rw [e']; exact (key a' b' c' ha' hb' hc').2
  · exfalso
    apply hn
    obtain ⟨-, ⟨b, c, hb, hc, e⟩, ⟨b', c', hb', hc', e'⟩⟩ := (exactInt2_ok eS).2
    obtain ⟨l, u⟩ := bet_mul a s _ _ hs.1 hs.2
    have k1 := key a b c ha hb hc; have k2 := key a b' c' ha hb' hc'
    rw [← e] at k1; rw [← e'] at k2
    have r1 := SInt.rep R.lo; have r2 := SInt.rep R.hi
    exact rep_between r1 r2 (by rcases l with l | l <;> [exact k1.1.trans l; exact k2.1.trans l])
      (by rcases u with u | u <;> [exact u.trans k1.2; exact u.trans k2.2])

/-- C72: multiplication by a scalar distributes. -/
theorem C72_int_distrib_scalar (dbg : Bool) (s : SInt n) (Y Z : Arg (SInt n)) (S P Q R : Ivl (SInt n)) (hY : Inhab Y) (hZ : Inhab Z)
    (hS : addI dbg Y Z = .ok S) (hP : mulI dbg (.scalar s) Y = .ok P) (hQ : mulI dbg (.scalar s) Z = .ok Q)
    (hR : addI dbg (.ivl P) (.ivl Q) = .ok R) : mulI dbg (.scalar s) (.ivl S) = .ok R := by
  obtain ⟨T, hT, h1, h2⟩ := C72_int_subdistrib dbg (.scalar s) Y Z S P Q R trivial hY hZ hS hP hQ hR
  have eS := C25_add dbg Y Z hY hZ; rw [hS] at eS
  have eP := C26_mul dbg (.scalar s) Y trivial hY; rw [hP] at eP
  have eQ := C26_mul dbg (.scalar s) Z trivial hZ; rw [hQ] at eQ
  have eR := C25_add dbg (.ivl P) (.ivl Q) (inhab_of_hull eP) (inhab_of_hull eQ); rw [hR] at eR
  have eT := C26_mul dbg (.scalar s) (.ivl S) trivial (inhab_of_hull eS); rw [hT] at eT
  have key : ∀ b c, InI b Y → InI c Z → T.lo.val ≤ s.val * b + s.val * c ∧ s.val * b + s.val * c ≤ T.hi.val := by
    intro b c hb hc
    have := (exactInt2_ok eT).2.1 (s.val * (b + c)) ⟨s.val, b + c, rfl, (exactInt2_ok eS).2.1 _ ⟨b, c, hb, hc, rfl⟩, rfl⟩
    rwa [mul_add] at this
  have hb := (exactInt2_ok eR).2
  obtain ⟨-, ⟨p, q, hp, hq, e⟩, ⟨p', q', hp', hq', e'⟩⟩ := hb
  -- the extreme sums are sums of extreme products
  obtain ⟨-, ⟨_, b1, rfl, hb1, e1⟩, ⟨_, b2, rfl, hb2, e2⟩⟩ := (exactInt2_ok eP).2
  obtain ⟨-, ⟨_, c1, rfl, hc1, e3⟩, ⟨_, c2, rfl, hc2, e4⟩⟩ := (exactInt2_ok eQ).2
  have k1 := key b1 c1 hb1 hc1; have k2 := key b2 c2 hb2 hc2
  simp only [InI] at hp hq hp' hq'
  have : T = R := ivl_ext (by omega) (by omega)
  rw [hT, this]

/-- the interval of the points of an operand -/
def toIvl : Arg (SInt n) → Ivl (SInt n)
  | .scalar s => ⟨s, s⟩
  | .ivl X => X

theorem toIvl_mem (X : Arg (SInt n)) (a : Int) : InI a X ↔ InI a (.ivl (toIvl X)) := by cases X <;> simp only [toIvl, InI] <;> omega

/-- a hull determines the result -/
theorem ok_of_hull {g : Int → Int → Int} {X Y : Arg (SInt n)} {res : Outcome (Ivl (SInt n))} {R : Ivl (SInt n)}
    (h : ExactInt2 (fun a b => some (g a b)) X Y res) (hR : Hull (fun v => ∃ a b, InI a X ∧ InI b Y ∧ v = g a b) R.lo.val R.hi.val) :
    res = .ok R := by
  rcases exactInt2_cases h with ⟨S, hS⟩ | ⟨-, a, b, ha, hb, hn⟩
  · rw [hS] at h ⊢
    have u := (exactInt2_ok h).2.unique hR
    rw [ivl_ext u.1 u.2]
  · have := hR.1 _ ⟨a, b, ha, hb, rfl⟩
    exact absurd (rep_between (SInt.rep R.lo) (SInt.rep R.hi) this.1 this.2) hn

theorem hull_id (X : Arg (SInt n)) (hX : Inhab X) : Hull (fun v => InI v X) (toIvl X).lo.val (toIvl X).hi.val := by
  cases X with
  | scalar s => exact ⟨fun v hv => by cases hv; exact ⟨le_rfl, le_rfl⟩, rfl, rfl⟩
  | ivl x => exact ⟨fun v hv => hv, ⟨le_rfl, hX⟩, ⟨hX, le_rfl⟩⟩

theorem inI_exists {X : Arg (SInt n)} (hX : Inhab X) : ∃ a, InI a X := ⟨_, (hull_id X hX).2.1⟩

/-- point operations that agree on the operands have the same exact result -/
theorem exactInt2_pt {g g' : Int → Int → Option Int} {X Y : Arg (SInt n)} {r : Outcome (Ivl (SInt n))}
    (e : ∀ a b, InI a X → InI b Y → g a b = g' a b) (h : ExactInt2 g X Y r) : ExactInt2 g' X Y r := by
  rcases h with ⟨⟨a, b, ha, hb, hn⟩, h⟩ | ⟨hd, R, hR, hin, ⟨a, b, ha, hb, hl⟩, ⟨c, d, hc, hd', hh⟩⟩
  · exact Or.inl ⟨⟨a, b, ha, hb, by simpa only [Def2, e a b ha hb] using hn⟩, h⟩
  · exact Or.inr ⟨fun a b ha hb => by simpa only [Def2, e a b ha hb] using hd a b ha hb, R, hR,
      fun a b v ha hb hv => hin a b v ha hb ((e a b ha hb).trans hv), ⟨a, b, ha, hb, (e a b ha hb).symm.trans hl⟩,
      ⟨c, d, hc, hd', (e c d hc hd').symm.trans hh⟩⟩

/-- C72: zero is neutral for addition and subtraction, one for multiplication. -/
theorem C72_int_neutral (dbg : Bool) (X : Arg (SInt n)) (hX : Inhab X) (z e : SInt n) (hz : z.val = 0) (he : e.val = 1) :
    addI dbg X (.scalar z) = .ok (toIvl X) ∧ subI dbg X (.scalar z) = .ok (toIvl X) ∧ mulI dbg X (.scalar e) = .ok (toIvl X) ∧
    divI dbg X (.scalar e) = .ok (toIvl X) := by
  refine ⟨ok_of_hull (C25_add dbg X _ hX trivial) ((hull_id X hX).congr fun v => ?_), ok_of_hull (C25_sub dbg X _ hX trivial) ((hull_id X hX).congr fun v => ?_),
    ok_of_hull (C26_mul dbg X _ hX trivial) ((hull_id X hX).congr fun v => ?_), ?_⟩
  · simp [InI, hz]
  · simp [InI, hz]
  · simp [InI, he]
  · refine ok_of_hull (g := fun a _ => a) (X := X) (Y := .scalar e) ?_ ((hull_id X hX).congr fun v => ⟨fun h => ⟨v, _, h, rfl, rfl⟩, fun ⟨a, _, h, _, e⟩ => e ▸ h⟩)
    exact exactInt2_pt (fun a b _ hb => by rw [show b = 1 from hb.trans he]; simp [divInt]) (C27_div dbg X (.scalar e) hX trivial)

/-- C72: a product with the scalar zero is zero. -/
theorem C72_int_zero (dbg : Bool) (X : Arg (SInt n)) (hX : Inhab X) (z : SInt n) (hz : z.val = 0) :
    mulI dbg X (.scalar z) = .ok ⟨z, z⟩ := by
  obtain ⟨a, ha⟩ := inI_exists hX
  refine ok_of_hull (C26_mul dbg X _ hX trivial) ⟨?_, ⟨a, z.val, ha, rfl, ?_⟩, ⟨a, z.val, ha, rfl, ?_⟩⟩
  · rintro v ⟨a, b, -, rfl, rfl⟩
    simp [hz]
  all_goals simp [hz]

/-- C72: subtraction is addition of the negative, if that is defined. -/
theorem C72_int_sub_neg (dbg : Bool) (X : Arg (SInt n)) (Y N : Ivl (SInt n)) (hX : Inhab X) (hY : Inhab (.ivl Y))
    (hN : negI dbg Y = .ok N) : subI dbg X (.ivl Y) = addI dbg X (.ivl N) := by
  have eN := C25_neg dbg Y hY
  rw [hN] at eN
  rcases eN with ⟨-, h⟩ | ⟨hd, R, hR, hin, ⟨a, ha, hl⟩, ⟨c, hc, hh⟩⟩
  · exact absurd h (by simp)
  cases hR
  simp only [InI, Option.some.injEq, forall_eq'] at hin ha hc hl hh
  have e : ∀ b, InI b (.ivl N) ↔ InI (-b) (.ivl Y) := by
    intro b
    simp only [InI]
    have h1 := hin Y.lo.val Y.lo.val ⟨le_rfl, hY⟩
    have h2 := hin Y.hi.val Y.hi.val ⟨hY, le_rfl⟩
    simp only [InI, Inhab] at *
    have k1 := hin Y.lo.val _ ⟨le_rfl, hY⟩ rfl
    have k2 := hin Y.hi.val _ ⟨hY, le_rfl⟩ rfl
    omega
  have hNi : Inhab (.ivl N) := by
    have := (e N.lo.val); have := (e N.hi.val)
    simp only [InI, Inhab] at *; omega
  refine exactInt2_unique (g := fun a b => some (a - b)) (C25_sub dbg X (.ivl Y) hX hY) ?_
  rcases C25_add dbg X (.ivl N) hX hNi with ⟨⟨a, b, ha, hb, hn⟩, h⟩ | ⟨hd', R, hR, hin', ⟨a, b, ha, hb, hl'⟩, ⟨c, d, hc, hd'', hh'⟩⟩
  · refine Or.inl ⟨⟨a, -b, ha, (e b).mp hb, ?_⟩, h⟩
    simpa [Def2] using hn
  · refine Or.inr ⟨fun a b ha hb => ?_, R, hR, fun a b v ha hb hv => ?_, ⟨a, -b, ha, (e b).mp hb, ?_⟩, ⟨c, -d, hc, (e d).mp hd'', ?_⟩⟩
    · have := hd' a (-b) ha ((e (-b)).mpr (by simpa using hb))
      simpa [Def2, sub_eq_add_neg] using this
    · exact hin' a (-b) v ha ((e (-b)).mpr (by simpa using hb)) (by simpa [sub_eq_add_neg] using hv)
    · simpa using hl'
    · simpa using hh'

/-- C72: `x - x`, if defined, is centred at zero and has twice the width of `x`; in particular it contains zero and is zero only for a single point. -/
theorem C72_int_sub_self (dbg : Bool) (X : Arg (SInt n)) (hX : Inhab X) (R : Ivl (SInt n)) (hR : subI dbg X X = .ok R) :
    R.hi.val = (toIvl X).hi.val - (toIvl X).lo.val ∧ R.lo.val = -R.hi.val ∧ InI 0 (.ivl R) := by
  have e := C25_sub dbg X X hX hX
  rw [hR] at e
  obtain ⟨h1, h2, h3⟩ := (exactInt2_ok e).2
  obtain ⟨i1, i2, i3⟩ := hull_id X hX
  have k1 := h1 _ ⟨_, _, i2, i3, rfl⟩
  have k2 := h1 _ ⟨_, _, i3, i2, rfl⟩
  obtain ⟨a, b, ha, hb, e1⟩ := h2
  obtain ⟨c, d, hc, hd, e2⟩ := h3
  have := i1 a ha; have := i1 b hb; have := i1 c hc; have := i1 d hd
  simp only [InI] at *
  refine ⟨by omega, by omega, by omega, by omega⟩

/-! Examples (`int`) -/
example : addI true (.ivl ⟨i32 (-1), i32 12⟩) (.ivl exX) = .ok ⟨i32 (-4), i32 17⟩ ∧ mulI true (.ivl exX) (.ivl exY) = .ok ⟨i32 (-21), i32 35⟩ ∧
    mulI true (.ivl ⟨i32 (-21), i32 35⟩) (.ivl exX) = .ok ⟨i32 (-105), i32 175⟩ := by decide
/-- subdistributivity is strict in general: `x*(1 + -1)` and `x*1 + x*-1` for `x = [-3,5]` -/
example : subI true (.ivl exX) (.ivl exX) = .ok ⟨i32 (-8), i32 8⟩ ∧
    addI true (.scalar (i32 1)) (.scalar (i32 (-1))) = .ok ⟨i32 0, i32 0⟩ ∧ mulI true (.ivl exX) (.ivl ⟨i32 0, i32 0⟩) = .ok ⟨i32 0, i32 0⟩ ∧
    mulI true (.ivl exX) (.scalar (i32 1)) = .ok exX ∧ mulI true (.ivl exX) (.scalar (i32 (-1))) = .ok ⟨i32 (-5), i32 3⟩ ∧
    addI true (.ivl exX) (.ivl ⟨i32 (-5), i32 3⟩) = .ok ⟨i32 (-8), i32 8⟩ := by decide
example : negI true exX = .ok ⟨i32 (-5), i32 3⟩ ∧ subI true (.ivl exY) (.ivl exX) = addI true (.ivl exY) (.ivl ⟨i32 (-5), i32 3⟩) := by decide
/-- without the hypothesis on the negative the law fails: `-1 - INT_MIN` is defined -/
example : subI true (.scalar (i32 (-1))) (.ivl ⟨i32 (-2147483648), i32 (-2147483648)⟩) = .ok ⟨i32 2147483647, i32 2147483647⟩ ∧
    negI true ⟨i32 (-2147483648), i32 (-2147483648)⟩ = .error .ub := by decide
end Intervals.Props
