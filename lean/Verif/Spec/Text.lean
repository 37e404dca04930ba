/-!
# Decimal numerals

What it means for a text to be an integer numeral. Independent of the model: only Lean's own decimal notation
(`Nat.toDigits`, `Nat.ofDigitChars`) is used.
-/

namespace CppMaths

/-- The decimal numeral of an integer: '-' for negative numbers, no leading zeros. -/
def numeral (z : Int) : List Char :=
  if z < 0 then '-' :: Nat.toDigits 10 z.natAbs else Nat.toDigits 10 z.natAbs

/-- A nonempty string of decimal digits. -/
def AllDigits (ds : List Char) : Prop := ds ≠ [] ∧ ∀ c ∈ ds, c.isDigit = true

/-- `cs` has the form `-?[0-9]+` and denotes `z`. -/
def IntText (cs : List Char) (z : Int) : Prop :=
  ∃ ds, AllDigits ds ∧
    ((cs = ds ∧ z = Nat.ofDigitChars 10 ds 0) ∨ (cs = '-' :: ds ∧ z = -(Nat.ofDigitChars 10 ds 0 : Int)))

/-- `l` does not begin with a digit. -/
def NoDigitAhead (l : List Char) : Prop := ∀ c r, l = c :: r → c.isDigit = false

end CppMaths
