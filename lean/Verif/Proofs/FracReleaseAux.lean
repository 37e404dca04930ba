import Verif.Proofs.ReleaseScalar
import Verif.Props.Frac
import Verif.Props.FracText
import Verif.Props.FracLinear
import Verif.Props.MatElim
import Verif.Props.Safe
import Verif.Props.Transfer
import Verif.Proofs.Witness
/-!
# Auxiliary facts for `Verif/Props/FracRelease.lean`
-/

namespace CppMaths
open BigInt Frac

/-- The sum, difference, product or quotient of rational numbers is the quotient of the parts that the code computes. -/
theorem redQR_yields {op : FOp} {p q v : ℚ} {r : Res Frac} (h : RedQR r (op.parts p q)) (hv : op.sem p q = some v) :
    YieldsOrThrows r v (op.parts p q).1 (op.parts p q).2 := by
  rw [FOp.sem_parts] at hv
  by_cases h0 : (op.parts p q).2 = 0
  · rw [if_pos h0] at hv; cases hv
  · rw [if_neg h0] at hv; cases hv
    exact ⟨h.2.1 h0, h.2.2 h0⟩

theorem redQR_throws {op : FOp} {p q : ℚ} {r : Res Frac} (h : RedQR r (op.parts p q)) (hv : op.sem p q = none) :
    r = .error .divideByZero := by
  rw [FOp.sem_parts] at hv
  by_cases h0 : (op.parts p q).2 = 0
  · exact h.1 h0
  · rw [if_neg h0] at hv; cases hv

theorem mredQU_yields {op : FOp} {p q v : ℚ} {r : MRes Frac Frac} (h : MRedQU r (op.parts p q)) (hv : op.sem p q = some v) :
    YieldsOrThrows (drop r) v (op.parts p q).1 (op.parts p q).2 := by
  rw [FOp.sem_parts] at hv
  by_cases h0 : (op.parts p q).2 = 0
  · rw [if_pos h0] at hv; cases hv
  · rw [if_neg h0] at hv; cases hv
    obtain ⟨h1, h2⟩ := h h0
    refine ⟨fun ha => ?_, fun ha => ?_⟩
    · obtain ⟨f, f1, f2⟩ := h1 ha
      exact ⟨f, by rw [f1]; rfl, f2⟩
    · obtain ⟨s, s1, _⟩ := h2 ha
      rw [s1]; rfl

theorem red_same {r r' : Res Frac} {t b : Int} (h : Red r t b) (h' : RedR r' t b) : r' = .error .outOfRange ↔ r = .error .assertion := by
  obtain ⟨a1, a2, a3⟩ := h
  obtain ⟨b1, b2, b3⟩ := h'
  by_cases h0 : b = 0
  · rw [a1 h0, b1 h0]; simp
  · by_cases ha : ReduceAborts t b
    · rw [a3 h0 ha, b3 h0 ha]; simp
    · obtain ⟨f, f1, _⟩ := a2 h0 ha
      obtain ⟨g, g1, _⟩ := b2 h0 ha
      rw [f1, g1]; simp

theorem madeR_right {r : Res Frac} {t b : Int} {v : ℚ} (h : MadeR r t b) (h0 : b ≠ 0) (hv : (t : ℚ) / b = v) : Frac.RightOrThrows r v := by
  rcases h with h | ⟨_, h⟩
  · exact .inr h
  · rw [← hv]; exact h h0

theorem madeR_zero {r : Res Frac} {t b : Int} (h : MadeR r t b) (h0 : b = 0) : r = .error .divideByZero ∨ r = .error .outOfRange := by
  rcases h with h | ⟨h, _⟩
  · exact .inr h
  · exact .inl (h h0)

theorem madeU_right {r : MRes Frac Frac} {t b : Int} {v : ℚ} (h : MadeU r t b) (h0 : b ≠ 0) (hv : (t : ℚ) / b = v) :
    Frac.RightOrThrowsU r v := by
  rw [← hv]; exact h.2 h0

end CppMaths
