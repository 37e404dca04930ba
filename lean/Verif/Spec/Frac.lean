import Verif.Model.Frac
import Verif.Spec.Int
import Verif.Spec.Text
import Mathlib.Algebra.Field.Rat
import Mathlib.Data.Int.GCD
/-!
# Specification vocabulary for `Frac`

The rational number an object stands for and what it means to be in lowest terms. Nothing here mentions an operation of
the model.
-/

namespace CppMaths
open BigInt

/-- The rational number a fraction stands for (meaningful if the denominator is not zero). -/
def Frac.value (f : Frac) : ℚ := (f.tt.val : ℚ) / (f.bb.val : ℚ)

/-- In lowest terms: canonical parts, positive denominator, no common factor. -/
def Frac.Valid (f : Frac) : Prop :=
  Canon f.tt ∧ Canon f.bb ∧ 0 < f.bb.val ∧ Int.gcd f.tt.val f.bb.val = 1

instance (f : Frac) : Decidable f.Valid := by unfold Frac.Valid; infer_instance

/-- Euclid's algorithm on `a`, `b` meets a pair of numbers on which the division of `Int` aborts (see `DivAborts`). -/
inductive EuclidAborts : Int → Int → Prop
  | here {a b : Int} : b ≠ 0 → DivAborts a b → EuclidAborts a b
  | next {a b : Int} : b ≠ 0 → EuclidAborts b (a % b) → EuclidAborts a b

/-- Reducing `t / b` to lowest terms meets a pair of numbers on which the division of `Int` aborts: in Euclid's algorithm
(larger number first) or when the parts are divided by their greatest common divisor. -/
def ReduceAborts (t b : Int) : Prop :=
  EuclidAborts (max |t| |b|) (min |t| |b|) ∨ DivAborts t (Int.gcd t b) ∨ DivAborts b (Int.gcd t b)

/-- `r` is the fraction `q` in lowest terms, except that it is an abort exactly if reducing `t / b` to lowest terms
aborts. -/
def Yields (r : Res Frac) (q : ℚ) (t b : Int) : Prop :=
  (¬ReduceAborts t b → ∃ f, r = .ok f ∧ f.Valid ∧ f.value = q) ∧ (ReduceAborts t b → r = .error .assertion)

/-- The forms that `operator>>` accepts: the consumed characters `pre`, what must not follow, and the ratio. -/
def Frac.Body (pre rest : List Char) (t b : Int) : Prop :=
  (IntText pre t ∧ b = 1 ∧ NoDigitAhead rest ∧ ∀ l, rest ≠ '/' :: l) ∨
  (∃ ps qs, pre = ps ++ '/' :: qs ∧ IntText ps t ∧ IntText qs b ∧ NoDigitAhead rest)

/-- What `/=` by zero leaves of a number: `1/0` or `-1/0`. -/
def OverZero (f : Frac) (q : ℚ) : Prop := f.bb.val = 0 ∧ (0 < q → f.tt.val = 1) ∧ (q < 0 → f.tt.val = -1)

end CppMaths
