import Verif.Model.Int
import Mathlib.Algebra.Order.Ring.Int
/-!
# Specification vocabulary for `Int`

The integer that an object of `class Int` stands for (src/Int.hpp:20-26 and :102-109) and what it means for
its representation to be well formed or canonical. Nothing here mentions an operation of the model.
-/

namespace CppMaths.BigInt

/-- The natural number stored in a list of base-10^9 digits, least significant first. -/
def mag : List Int → Int
  | [] => 0
  | b :: bs => b + 1000000000 * mag bs

/-- The integer an `Int` object stands for. -/
def val (a : BigInt) : Int := if a.negative then -mag a.bins else mag a.bins

/-- Every bin lies in `[0, 10^9)`. -/
def BinsOK (l : List Int) : Prop := ∀ b ∈ l, 0 ≤ b ∧ b < 1000000000

instance (l : List Int) : Decidable (BinsOK l) := by unfold BinsOK; infer_instance

/-- Well formed: at least one bin, every bin in range. Leading zero bins and a negative zero are allowed. -/
def WF (a : BigInt) : Prop := a.bins ≠ [] ∧ BinsOK a.bins

instance (a : BigInt) : Decidable (WF a) := by unfold WF; infer_instance

/-- No superfluous zero bin at the most significant end. -/
def NoLead (l : List Int) : Prop := l.length ≤ 1 ∨ l.getLast? ≠ some 0

instance (l : List Int) : Decidable (NoLead l) := by unfold NoLead; infer_instance

/-- Canonical: well formed, no leading zero bins, zero is not negative. -/
def Canon (a : BigInt) : Prop := WF a ∧ NoLead a.bins ∧ (a.negative = true → mag a.bins ≠ 0)

instance (a : BigInt) : Decidable (Canon a) := by unfold Canon; infer_instance

/-- The pairs of integers on which the division of the code aborts: the magnitude of `x` is at least that of `y`, and
some base-10^9 digit of `x` that is neither its lowest nor its highest one is zero although the quotient does not
reach up to beyond that digit. -/
def DivAborts (x y : Int) : Prop :=
  |y| ≤ |x| ∧ ∃ j : Nat, 1 ≤ j ∧ 1000000000 ^ (j + 1) ≤ |x| ∧ |x| / 1000000000 ^ j % 1000000000 = 0 ∧
    |x| / |y| < 1000000000 ^ (j + 1)

/-- The numbers and negative powers for which `times_power_ten` aborts: whole groups of nine digits are cut off first; after that
the number is divided by ten up to eight times, and one of these divisions aborts. -/
def TenAborts (a p : Int) : Prop := ∃ i < (-p).toNat % 9, DivAborts (a.tdiv (10 ^ (9 * ((-p).toNat / 9) + i))) 10

/-- Even numbers from which repeated halving does not lead to 1 in the code. `2^m` with `m ≥ 30` occupies several bins, its
halves keep their number, and the final 1 with leading zero bins is not recognised as a 1. `10^(9k) * 2^m` with `k ≥ 1` and
`m < 30` leads to `10^(9k)`, which is taken for a 1. -/
def BadStart (c : Int) : Prop :=
  (∃ m : Nat, 30 ≤ m ∧ c = 2 ^ m) ∨ ∃ k m : Nat, 1 ≤ k ∧ m < 30 ∧ c = 1000000000 ^ k * 2 ^ m

/-- Exponents for which the code computes the right power: neither the exponent itself nor any of the numbers to which the
binary method comes by halving and subtracting 1 from an odd number is a bad start. -/
def GoodExp (e : Int) : Prop :=
  ¬BadStart e ∧ ∀ j : Nat, e / 2 ^ j % 2 = 1 → ¬BadStart (e / 2 ^ j - 1)

/-- The same for a negative exponent, whose magnitude is first made even by adding 1 if it is odd and then halved without
looking for a 1. -/
def GoodNegExp (e : Int) : Prop :=
  (¬BadStart e ∨ ∃ k : Nat, 1 ≤ k ∧ e = 1000000000 ^ k) ∧ ∀ j : Nat, e / 2 ^ j % 2 = 1 → ¬BadStart (e / 2 ^ j - 1)

end CppMaths.BigInt
