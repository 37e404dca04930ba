import Verif.Model.Basic
import Mathlib.Data.Int.Log
import Mathlib.Data.Rat.Floor
/-!
# Model of `double` and of the tolerance comparison

IEEE 754 binary64 in round-to-nearest-even mode, as far as `src/common.cpp`, `src/common.hpp` and `Frac::from_double` use it.
-/

namespace CppMaths

/-- A `double`: not a number, an infinity, or `(-1)^neg * m * 2^e`. The payload of a NaN is left out, since the code cannot
observe it. -/
inductive Double where
  | nan
  | inf (neg : Bool)
  | fin (neg : Bool) (m : Nat) (e : Int)
deriving DecidableEq, Repr

namespace Double

/-- The bit patterns that exist: 53 bits of precision, the exponent range of binary64, one representation per number. -/
def WF : Double → Prop
  | fin _ m e => m < 2 ^ 53 ∧ -1074 ≤ e ∧ e ≤ 971 ∧ (2 ^ 52 ≤ m ∨ e = -1074)
  | _ => True

instance (d : Double) : Decidable d.WF := by
  cases d <;> unfold WF <;> infer_instance

/-- The number denoted by a finite `double`. -/
def real (neg : Bool) (m : Nat) (e : Int) : ℚ := (if neg then -1 else 1) * m * 2 ^ e

/-- The nearest integer, the even one of two. -/
def halfEven (q : ℚ) : Nat :=
  let f := ⌊q⌋₊
  if q - f < 1 / 2 then f else if 1 / 2 < q - f then f + 1 else if f % 2 = 0 then f else f + 1

/-- The exponent that the number `a` gets. -/
def expOf (a : ℚ) : Int := max (-1074) (Int.log 2 a - 52)

/-- The `double` nearest to `a`, with the given sign (IEEE 754, roundTiesToEven, with overflow to infinity). -/
def roundAbs (neg : Bool) (a : ℚ) : Double :=
  let e := expOf a
  let m := halfEven (a / 2 ^ e)
  let e' := if m = 2 ^ 53 then e + 1 else e
  let m' := if m = 2 ^ 53 then 2 ^ 52 else m
  if 971 < e' then inf neg else fin neg m' e'

/-- Unary minus. -/
def neg : Double → Double
  | nan => nan
  | inf s => inf (!s)
  | fin s m e => fin (!s) m e

/-- Subtraction: the exact difference, rounded; the sign of a zero result as in round-to-nearest mode. -/
def sub : Double → Double → Double
  | nan, _ => nan
  | _, nan => nan
  | inf a, inf b => if a = b then nan else inf a
  | inf a, fin .. => inf a
  | fin .., inf b => inf (!b)
  | fin s m e, fin s' m' e' =>
    let q := real s m e - real s' m' e'
    if q = 0 then fin (s && !s') 0 (-1074) else roundAbs (decide (q < 0)) |q|

/-- `x < y`. -/
def lt : Double → Double → Bool
  | nan, _ => false
  | _, nan => false
  | inf a, inf b => a && !b
  | inf a, fin .. => a
  | fin .., inf b => !b
  | fin s m e, fin s' m' e' => decide (real s m e < real s' m' e')

/-- `x == y`. -/
def eq : Double → Double → Bool
  | nan, _ => false
  | _, nan => false
  | inf a, inf b => a == b
  | inf _, fin .. => false
  | fin .., inf _ => false
  | fin s m e, fin s' m' e' => decide (real s m e = real s' m' e')

/-- The value 0. -/
def zero : Double := fin false 0 (-1074)

end Double

open Double

/-- `EPSILON` (src/common.hpp:33): the `double` nearest to 0.00001 (`EPSILON_nearest` in `Verif/Props/Common.lean`). -/
def EPSILON : Double := fin false 5902958103587057 (-69)

/-- `isFinite` (src/common.cpp:3-7). -/
def isFinite (d : Double) : Bool := Double.eq d d && !Double.eq d (inf false) && !Double.eq d (neg (inf false))

/-- `abs` (src/common.hpp:41-44), for `double`. -/
def absDouble (a : Double) : Double := if Double.lt a zero then neg a else a

/-- `float_cmp` (src/common.cpp:9-16). -/
def floatCmp (x y : Double) : Int :=
  let d := sub y x
  if Double.lt d (neg EPSILON) then -1 else if Double.lt EPSILON d then 1 else 0

/-- `float_equals` (src/common.hpp:46-48). -/
def floatEquals (x y : Double) : Bool := Double.lt (absDouble (sub x y)) EPSILON

end CppMaths
