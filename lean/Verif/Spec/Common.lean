import Verif.Model.Double
/-!
# Specification vocabulary for `double`
-/

namespace CppMaths

/-- `d` is a finite `double` with the value `q`. -/
def Double.Denotes (d : Double) (q : ℚ) : Prop := d.WF ∧ ∃ m e, (d = .fin false m e ∧ q = m * 2 ^ e) ∨ (d = .fin true m e ∧ q = -(m * 2 ^ e))

/-- The value of `EPSILON`. -/
def eps : ℚ := 5902958103587057 / 2 ^ 69

/-- Half a unit in the last place of `EPSILON`. -/
def halfUlp : ℚ := 1 / 2 ^ 70

/-- Half the smallest positive `double`: the largest rounding error of a result near zero. -/
def Double.eta : ℚ := 2 ^ (-1075 : Int)

end CppMaths
