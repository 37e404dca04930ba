import Verif.Spec.Machine
/-!
# Specification of rounding to `double`
-/

namespace CppMaths

/-- `d` is what IEEE 754 prescribes for a result whose exact value is `x` (roundTiesToEven): an infinity if `x` is beyond the
largest number by half a unit or more, otherwise the `double` nearest to `x`, and of two nearest ones the one with the
even significand. The sign of a zero is left open. -/
def Double.Rounded (d : Double) (x : ℚ) : Prop :=
  if 2 ^ (1024 : Int) - 2 ^ (970 : Int) ≤ |x| then d = .inf (decide (x < 0))
  else ∃ r, d.Denotes r ∧ ∀ (d' : Double) (r' : ℚ), d'.Denotes r' →
    |r - x| < |r' - x| ∨ r' = r ∨ (|r - x| = |r' - x| ∧ ∃ s m e, d = .fin s m e ∧ m % 2 = 0)

end CppMaths
