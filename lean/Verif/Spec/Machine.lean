import Verif.Spec.Common
import Verif.Spec.Linear
import Mathlib.Analysis.Real.Sqrt
/-!
# Specification vocabulary for machine scalars
-/

namespace CppMaths

/-- `z` is a value of the signed type with the largest value `lim`. -/
def Fits (lim z : Int) : Prop := -lim - 1 ≤ z ∧ z ≤ lim

instance (lim z : Int) : Decidable (Fits lim z) := inferInstanceAs (Decidable (_ ∧ _))

/-- A machine integer stands for itself. -/
def MachRel (lim : Int) (t k : Int) : Prop := t = k ∧ Fits lim k

/-- Only undefined behaviour is allowed (overflow, for machine integers). -/
def Overflows : Err → Prop := fun e => e = .ub

/-- `d` is the `double` nearest to the real number `x`. -/
def Double.IsNearest (d : Double) (x : ℝ) : Prop :=
  ∃ r : ℚ, d.Denotes r ∧ ∀ (d' : Double) (r' : ℚ), d'.Denotes r' → |(r : ℝ) - x| ≤ |(r' : ℝ) - x|

/-- Row `i` of a matrix as a list. -/
def Mat.rowList {T : Type} {r c : Nat} (M : Matrix (Fin r) (Fin c) T) (i : Fin r) : List T := List.ofFn (fun k => M i k)
/-- Column `j` of a matrix as a list. -/
def Mat.colList {T : Type} {r c : Nat} (M : Matrix (Fin r) (Fin c) T) (j : Fin c) : List T := List.ofFn (fun k => M k j)

end CppMaths
