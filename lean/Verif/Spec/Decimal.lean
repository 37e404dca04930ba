import Verif.Spec.Text
import Mathlib.Algebra.Field.Rat
import Mathlib.Algebra.Order.Field.Rat
import Mathlib.Algebra.Order.Group.Abs
/-!
# Decimal fractions

What it means for a text to denote a rational number in decimal notation, and when a number is the nearest one with few digits.
-/

namespace CppMaths

/-- An exponent: nothing, or `e+` or `e-` and digits. -/
def ExponentText (cs : List Char) (x : Int) : Prop :=
  (cs = [] ∧ x = 0) ∨ ∃ ds, AllDigits ds ∧
    ((cs = 'e' :: '+' :: ds ∧ x = Nat.ofDigitChars 10 ds 0) ∨ (cs = 'e' :: '-' :: ds ∧ x = -(Nat.ofDigitChars 10 ds 0 : Int)))

/-- `cs` has the form `-?[0-9]+(\.[0-9]+)?(e[+-][0-9]+)?` and denotes `q`. -/
def DecimalText (cs : List Char) (q : ℚ) : Prop :=
  ∃ (neg : Bool) (ip fp ex : List Char) (x : Int), AllDigits ip ∧ (∀ c ∈ fp, c.isDigit = true) ∧ ExponentText ex x ∧
    cs = (if neg then ['-'] else []) ++ ip ++ (if fp = [] then [] else '.' :: fp) ++ ex ∧
    q = (if neg then -1 else 1) * Nat.ofDigitChars 10 (ip ++ fp) 0 * 10 ^ (x - fp.length)

/-- `cs` shows `q` in the form that `%g` prescribes for the precision `p`: in plain notation, without superfluous leading zeros, if
`10^-4 ≤ |q| < 10^p` or `q = 0`, otherwise with one digit other than zero before the point and an exponent of two digits or as many as
it needs; and in both cases no zeros at the end of the fraction. -/
def ShortForm (p : Nat) (cs : List Char) (q : ℚ) : Prop :=
  ∃ (neg : Bool) (ip fp ex : List Char), AllDigits ip ∧ (∀ c ∈ fp, c.isDigit = true) ∧
    cs = (if neg then ['-'] else []) ++ ip ++ (if fp = [] then [] else '.' :: fp) ++ ex ∧ fp.getLast? ≠ some '0' ∧
    ((q = 0 ∨ (10 : ℚ) ^ (-4 : Int) ≤ |q| ∧ |q| < 10 ^ p) → ex = [] ∧ (ip = ['0'] ∨ ip.head? ≠ some '0')) ∧
    (¬ (q = 0 ∨ (10 : ℚ) ^ (-4 : Int) ≤ |q| ∧ |q| < 10 ^ p) → ip.length = 1 ∧ ip ≠ ['0'] ∧
      ∃ sign ds, ex = 'e' :: sign :: ds ∧ AllDigits ds ∧ 2 ≤ ds.length ∧ (3 ≤ ds.length → ds.head? ≠ some '0'))

/-- `q` is `a` rounded to `p` significant digits: an integral multiple `n` of the unit of the `p`th digit of `a`, at most half a unit
away, and `n` even if it is exactly half a unit. -/
def RoundedTo (p : Nat) (q a : ℚ) : Prop :=
  (a = 0 ∧ q = 0) ∨ ∃ n k : Int, (10 : ℚ) ^ (k + p - 1) ≤ |a| ∧ |a| < 10 ^ (k + p) ∧ q = n * 10 ^ k ∧ |q - a| ≤ 10 ^ k / 2 ∧
    (|q - a| = 10 ^ k / 2 → n % 2 = 0)

end CppMaths
