import Verif.Model.Vec
import Verif.Model.Double
/-!
# Machine scalar types, and the length of a vector

`Vec<int>`, `Vec<long>` and `Vec<double>`: the built-in types as template arguments, and the members of `Vec` that only
compile for them.
-/

namespace CppMaths

/-- A result of signed arithmetic: undefined behaviour outside `-lim-1 .. lim` (C++11 [expr] 5/4). -/
def signed (lim z : Int) : Res Int := if -lim - 1 ≤ z ∧ z ≤ lim then .ok z else .error .ub

/-- Signed division: truncates; division by zero and a quotient that does not fit are undefined behaviour
(C++11 [expr.mul] 5.6/4). -/
def signedDiv (lim x y : Int) : Res Int := if y = 0 then .error .ub else signed lim (x.tdiv y)

/-- A built-in signed integer type with the values `-lim-1 .. lim`: `T = int` for `lim = 2^31 - 1`, `T = long` for
`lim = 2^63 - 1` on the usual platforms. -/
def Scalar.machine (lim : Int) : Scalar Int where
  ofInt n := signed lim n
  add x y := signed lim (x + y)
  sub x y := signed lim (x - y)
  mul x y := signed lim (x * y)
  div x y := signedDiv lim x y
  neg x := signed lim (-x)
  addA x y := signed lim (x + y)
  subA x y := signed lim (x - y)
  mulA x y := signed lim (x * y)
  divA x y := signedDiv lim x y
  eq x y := .ok (decide (x = y))
  ne x y := .ok (decide (x ≠ y))

/-- The largest `int`. -/
def intMax : Int := 2 ^ 31 - 1

/-- `T = int`. -/
def Scalar.i32 : Scalar Int := Scalar.machine intMax

namespace Double

/-- The exact number `q`, rounded; `z` is the sign of a zero. -/
def round (z : Bool) (q : ℚ) : Double := if q = 0 then fin z 0 (-1074) else roundAbs (decide (q < 0)) |q|

/-- `(double) k` for an integer. -/
def ofInt (k : Int) : Double := round false k

/-- Addition. -/
def add : Double → Double → Double
  | nan, _ => nan
  | _, nan => nan
  | inf a, inf b => if a = b then inf a else nan
  | inf a, fin .. => inf a
  | fin .., inf b => inf b
  | fin s m e, fin s' m' e' => round (s && s') (real s m e + real s' m' e')

/-- Multiplication. -/
def mul : Double → Double → Double
  | nan, _ => nan
  | _, nan => nan
  | inf a, inf b => inf (a ^^ b)
  | inf a, fin s m _ => if m = 0 then nan else inf (a ^^ s)
  | fin s m _, inf b => if m = 0 then nan else inf (s ^^ b)
  | fin s m e, fin s' m' e' => round (s ^^ s') (real s m e * real s' m' e')

/-- Division (IEEE 754: a nonzero number divided by zero is an infinity, zero by zero is NaN). -/
def div : Double → Double → Double
  | nan, _ => nan
  | _, nan => nan
  | inf _, inf _ => nan
  | inf a, fin s _ _ => inf (a ^^ s)
  | fin s _ _, inf b => fin (s ^^ b) 0 (-1074)
  | fin s m e, fin s' m' e' =>
    if m' = 0 then (if m = 0 then nan else inf (s ^^ s'))
    else round (s ^^ s') (real s m e / real s' m' e')

/-- The `double` nearest to the square root of a positive number `a`. With `e` as below, the root lies between `2^52 * 2^e`
and `2^53 * 2^e`; the nearest multiple of `2^e` is found by comparing squares. -/
def sqrtAbs (a : ℚ) : Double :=
  let e := Int.log 2 a / 2 - 52
  let q := a / 4 ^ e
  let f := Nat.sqrt ⌊q⌋₊
  let m := if q < (f + 1 / 2 : ℚ) ^ 2 then f else if (f + 1 / 2 : ℚ) ^ 2 < q then f + 1 else if f % 2 = 0 then f else f + 1
  if m = 2 ^ 53 then fin false (2 ^ 52) (e + 1) else fin false m e

/-- `sqrt` of `<cmath>`, correctly rounded as IEEE 754 demands. -/
def sqrt : Double → Double
  | nan => nan
  | inf s => if s then nan else inf false
  | fin s m e => if m = 0 then fin s m e else if s then nan else sqrtAbs (real s m e)

/-- `(int) d`, or `(long) d` for another `lim`: truncates; undefined behaviour if the result does not fit (C++11 [conv.fpint] 4.9/1). -/
def toSigned (lim : Int) : Double → Res Int
  | nan => .error .ub
  | inf _ => .error .ub
  | fin s m e => let q := real s m e; signed lim (if q < 0 then ⌈q⌉ else ⌊q⌋)

end Double

/-- `T = double`. -/
def Scalar.double : Scalar Double where
  ofInt n := .ok (Double.ofInt n)
  add x y := .ok (Double.add x y)
  sub x y := .ok (Double.sub x y)
  mul x y := .ok (Double.mul x y)
  div x y := .ok (Double.div x y)
  neg x := .ok (Double.neg x)
  addA x y := .ok (Double.add x y)
  subA x y := .ok (Double.sub x y)
  mulA x y := .ok (Double.mul x y)
  divA x y := .ok (Double.div x y)
  eq x y := .ok (Double.eq x y)
  ne x y := .ok (!Double.eq x y)

namespace Vec
variable {T R : Type}

/-- `norm()` and `norm<S>()` (src/Vec.hpp:225-233): `toD` is the cast `(double)` of a `T`, `ofD` the conversion of a
`double` to the type returned. -/
def norm (S : Scalar T) (toD : T → Double) (ofD : Double → Res R) (x : List T) : Res R := do
  let d ← dot S x x
  ofD (Double.sqrt (toD d))

/-- `unit_vector()` (src/Vec.hpp:235-239). -/
def unitVector (S : Scalar T) (toD : T → Double) (ofD : Double → Res T) (x : List T) : Res (List T) := do
  let len ← norm S toD ofD x
  divScalar S x len

/-- `unit_vector<S>()` (src/Vec.hpp:241-245); `conv` converts an entry to the type returned. -/
def unitVectorAs (S : Scalar T) (S' : Scalar R) (toD : T → Double) (ofD : Double → Res R) (conv : T → Res R) (x : List T) :
    Res (List R) := do
  let len ← norm S toD ofD x
  let y ← ofArray conv x x.length
  divScalar S' y len

/-- `Vec<int>::norm()`. -/
def normInt (x : List Int) : Res Int := norm Scalar.i32 Double.ofInt (Double.toSigned intMax) x
/-- `Vec<int>::norm<double>()`. -/
def normIntDouble (x : List Int) : Res Double := norm Scalar.i32 Double.ofInt .ok x
/-- `Vec<double>::norm()`. -/
def normDouble (x : List Double) : Res Double := norm Scalar.double id .ok x
/-- `Vec<int>::unit_vector()`. -/
def unitInt (x : List Int) : Res (List Int) := unitVector Scalar.i32 Double.ofInt (Double.toSigned intMax) x
/-- `Vec<int>::unit_vector<double>()`. -/
def unitIntDouble (x : List Int) : Res (List Double) :=
  unitVectorAs Scalar.i32 Scalar.double Double.ofInt .ok (fun k => .ok (Double.ofInt k)) x
/-- `Vec<double>::unit_vector()`. -/
def unitDouble (x : List Double) : Res (List Double) := unitVector Scalar.double id .ok x

end Vec
end CppMaths
