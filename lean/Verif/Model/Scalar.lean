import Verif.Model.Int
import Verif.Model.Frac
import Mathlib.Algebra.Field.Basic
/-!
# Scalar types and loops

`Vec<T>` and `Mat<T>` are templates. A template argument is modelled by the table of the operators that the templates
apply to `T` values. The tables of three kinds of argument are given: any exact ring or field type, `Int` and `Frac`.
-/

namespace CppMaths

/-- The operations that src/Vec.hpp and src/Mat.hpp apply to values of the template parameter `T`. Every operation can
fail. The compound operators return the new value of their left operand. What the left operand of a compound operator
holds after a failure is not recorded. -/
structure Scalar (T : Type) where
  /-- `T(n)`, and the implicit conversion of the literals `0`, `1` and `-1` -/
  ofInt : Int → Res T
  /-- `x + y` -/
  add : T → T → Res T
  /-- `x - y` -/
  sub : T → T → Res T
  /-- `x * y` -/
  mul : T → T → Res T
  /-- `x / y` -/
  div : T → T → Res T
  /-- `-x` -/
  neg : T → Res T
  /-- `x += y` -/
  addA : T → T → Res T
  /-- `x -= y` -/
  subA : T → T → Res T
  /-- `x *= y` -/
  mulA : T → T → Res T
  /-- `x /= y` -/
  divA : T → T → Res T
  /-- `x == y` -/
  eq : T → T → Res Bool
  /-- `x != y` -/
  ne : T → T → Res Bool

namespace Scalar

/-- An exact arithmetic type given by a commutative ring with decidable equality. Its division is left out: it raises
the error `ub`. -/
def ring (K : Type) [CommRing K] [DecidableEq K] : Scalar K where
  ofInt n := .ok (n : K)
  add x y := .ok (x + y)
  sub x y := .ok (x - y)
  mul x y := .ok (x * y)
  div _ _ := .error .ub
  neg x := .ok (-x)
  addA x y := .ok (x + y)
  subA x y := .ok (x - y)
  mulA x y := .ok (x * y)
  divA _ _ := .error .ub
  eq x y := .ok (decide (x = y))
  ne x y := .ok (decide (x ≠ y))

/-- An exact arithmetic type given by a field with decidable equality. Division by zero throws. -/
def field (K : Type) [Field K] [DecidableEq K] : Scalar K where
  ofInt n := .ok (n : K)
  add x y := .ok (x + y)
  sub x y := .ok (x - y)
  mul x y := .ok (x * y)
  div x y := if y = 0 then .error .divideByZero else .ok (x / y)
  neg x := .ok (-x)
  addA x y := .ok (x + y)
  subA x y := .ok (x - y)
  mulA x y := .ok (x * y)
  divA x y := if y = 0 then .error .divideByZero else .ok (x / y)
  eq x y := .ok (decide (x = y))
  ne x y := .ok (decide (x ≠ y))

/-- `T = Int` (src/Int.hpp:38-79): the operators of the model in `Verif/Model/Int.lean`. -/
def int : Scalar BigInt where
  ofInt n := BigInt.ofInt64 n
  add := BigInt.opAdd
  sub := BigInt.opSub
  mul := BigInt.opMul
  div := BigInt.opDiv
  neg := BigInt.neg
  addA := BigInt.addAssign
  subA := BigInt.subAssign
  mulA := BigInt.mulAssign
  divA := BigInt.divAssign
  eq := BigInt.eq
  ne := BigInt.ne

/-- `T = Frac` (src/Frac.hpp:18-66): the operators of the model in `Verif/Model/Frac.lean`. `Frac` has no unary minus and
its constructor from `int` is explicit, so the template members that use `-x`, compare with the literal `0` or fill with it do not
compile for `T = Frac`: unary minus, `Vec(size)`, `constantVec`, `concatenate`, `diagonalMatrix`, `identityMatrix`,
`cofactor`, the determinants, `rref` and `inverse`. Nothing is claimed of these; `neg` is a placeholder that raises `ub`. -/
def frac : Scalar Frac where
  ofInt n := Frac.ofI32 n
  add := Frac.opAdd
  sub := Frac.opSub
  mul := Frac.opMul
  div := Frac.opDiv
  neg _ := .error .ub
  addA x y := Frac.drop (Frac.addAssign x y)
  subA x y := Frac.drop (Frac.subAssign x y)
  mulA x y := Frac.drop (Frac.mulAssign x y)
  divA x y := Frac.drop (Frac.divAssign x y)
  eq := Frac.eq
  ne := Frac.ne

end Scalar

/-- `for (size_t i = lo; i < lo + n; ++i) body(i)` acting on a state. Every counting loop of src/Vec.hpp and src/Mat.hpp
has bounds that its body leaves alone, so the number of rounds is known beforehand. -/
def forUp {ε σ : Type} (lo : Nat) : Nat → (Nat → σ → Except ε σ) → σ → Except ε σ
  | 0, _, s => .ok s
  | n + 1, body, s => do
    let s' ← body lo s
    forUp (lo + 1) n body s'

end CppMaths
