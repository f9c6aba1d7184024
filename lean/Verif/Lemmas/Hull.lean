import Mathlib.Algebra.Order.Ring.Defs
import Mathlib.Tactic.Linarith
import Mathlib.Tactic.Ring
/-! Least and greatest elements of sets of results of nested operations. -/
namespace Intervals
variable {K : Type} [CommRing K] [LinearOrder K] [IsStrictOrderedRing K]

/-- `l` and `h` are the least and the greatest element of `V` -/
def Hull (V : K → Prop) (l h : K) : Prop := (∀ v, V v → l ≤ v ∧ v ≤ h) ∧ V l ∧ V h

theorem Hull.unique {V : K → Prop} {l h l' h' : K} (H : Hull V l h) (H' : Hull V l' h') : l = l' ∧ h = h' :=
  ⟨le_antisymm (H.1 _ H'.2.1).1 (H'.1 _ H.2.1).1, le_antisymm (H'.1 _ H.2.2).2 (H.1 _ H'.2.2).2⟩
theorem Hull.congr {V V' : K → Prop} {l h : K} (e : ∀ v, V v ↔ V' v) (H : Hull V l h) : Hull V' l h :=
  ⟨fun v hv => H.1 v ((e v).mpr hv), (e _).mp H.2.1, (e _).mp H.2.2⟩
theorem Hull.le {V : K → Prop} {l h : K} (H : Hull V l h) : l ≤ h := (H.1 _ H.2.1).2

/-- between two points of the first operand the operation takes no value outside of the values at the two points -/
def Bet (g : K → K → K) : Prop := ∀ c p l h, l ≤ p → p ≤ h → (g l c ≤ g p c ∨ g h c ≤ g p c) ∧ (g p c ≤ g l c ∨ g p c ≤ g h c)

theorem bet_add : Bet (K := K) (fun a b => a + b) := fun c p l h h1 h2 => ⟨Or.inl (by simpa), Or.inr (by simpa)⟩
theorem bet_mul : Bet (K := K) (fun a b => a * b) := by
  intro c p l h h1 h2
  rcases le_total 0 c with hc | hc
  · exact ⟨Or.inl (mul_le_mul_of_nonneg_right h1 hc), Or.inr (mul_le_mul_of_nonneg_right h2 hc)⟩
  · exact ⟨Or.inr (mul_le_mul_of_nonpos_right h2 hc), Or.inl (mul_le_mul_of_nonpos_right h1 hc)⟩

/-- applying an operation to the hull of a set gives the hull of the results on the set -/
theorem Hull.step {A C : K → Prop} {g : K → K → K} {l h r s : K} (hg : Bet g) (hA : Hull A l h)
    (hR : Hull (fun v => ∃ p c, (l ≤ p ∧ p ≤ h) ∧ C c ∧ v = g p c) r s) : Hull (fun v => ∃ a c, A a ∧ C c ∧ v = g a c) r s := by
  obtain ⟨h1, ⟨p, c, hp, hc, er⟩, ⟨q, d, hq, hd, es⟩⟩ := hR
  have hlh : l ≤ h := hA.le
  refine ⟨fun v ⟨a, c, ha, hc, hv⟩ => h1 v ⟨a, c, hA.1 a ha, hc, hv⟩, ?_, ?_⟩
  · rcases (hg c p l h hp.1 hp.2).1 with e | e
    · exact ⟨l, c, hA.2.1, hc, le_antisymm (h1 _ ⟨l, c, ⟨le_rfl, hlh⟩, hc, rfl⟩).1 (er ▸ e)⟩
    · exact ⟨h, c, hA.2.2, hc, le_antisymm (h1 _ ⟨h, c, ⟨hlh, le_rfl⟩, hc, rfl⟩).1 (er ▸ e)⟩
  · rcases (hg d q l h hq.1 hq.2).2 with e | e
    · exact ⟨l, d, hA.2.1, hd, le_antisymm (es ▸ e) (h1 _ ⟨l, d, ⟨le_rfl, hlh⟩, hd, rfl⟩).2⟩
    · exact ⟨h, d, hA.2.2, hd, le_antisymm (es ▸ e) (h1 _ ⟨h, d, ⟨hlh, le_rfl⟩, hd, rfl⟩).2⟩
end Intervals
