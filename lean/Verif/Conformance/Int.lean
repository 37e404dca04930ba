import Verif.Model.Int
import Verif.Conformance.IntTables
/-!
# The model against the tests of the project: `Int`

Every check of test/int_test.hpp, evaluated on the model when this file is compiled (`#guard` adds nothing to the
environment). These are tests of the *model*, and no property rests on them: they show that the model does what the authors
of the code say the code does.
-/

namespace CppMaths.Conformance
open BigInt

/-- The text of an integer. -/
def text (z : Int) : List Char := if z < 0 then '-' :: Nat.toDigits 10 z.natAbs else Nat.toDigits 10 z.natAbs

/-- `Int("...")`. -/
def num (z : Int) : Res BigInt := BigInt.ofString (text z)

/-- The check succeeds. -/
def passes : Res Bool → Bool
  | .ok b => b
  | .error _ => false

/-- `CHECK_THROW`. -/
def throws {α : Type} (e : Err) : Res α → Bool
  | .ok _ => false
  | .error e' => e == e'

/-- `testOutput(y, expected)` (src/common.hpp:62-70). -/
def prints (x : Res BigInt) (expected : List Char) : Bool :=
  passes (do let x ← x; return BigInt.print x == expected)

/-- `runAddition` and the like (test/int_test.hpp:23-152): a binary and a compound operator. -/
def runTwo (op opA : BigInt → BigInt → Res BigInt) : Int × Int × Int → Bool
  | (x, y, expected) => passes (do
    let x ← num x
    let y ← num y
    let expected ← num expected
    let r1 ← op x y
    let b1 ← eq r1 expected
    let r2 ← opA x y
    let b2 ← eq r2 expected
    return b1 && b2)

def range (lo hi step : Int) : List Int :=
  (List.range ((hi - lo + step - 1) / step).toNat).map fun (k : Nat) => lo + step * (k : Int)

def pairs (as bs : List Int) : List (Int × Int) := as.flatMap fun a => bs.map fun b => (a, b)

/-! test/int_test.hpp:178-225 -/

def runQuotRem : Int × Int × Int × Int → Bool
  | (y, x, q, r) => passes (do
    let y ← num y
    let x ← num x
    let r ← num r
    let (q', r') ← quotientAndRemainder y x
    let b ← eq r' r
    return q' == q && b)

#guard ((range 1 10 1).all fun i => runQuotRem (i, 1, i, 0))
#guard quotRemTable.all runQuotRem

/-! test/int_test.hpp:227-274 -/

#guard ((List.range 36).all fun i =>
    let y := "123456789123456789123456789123456789".toList.take (i + 1)
    prints (BigInt.ofString y) y && prints (BigInt.ofString ('-' :: y)) ('-' :: y))
#guard ((List.range 21).all fun i =>
    let y := List.replicate (i + 1) '0'
    prints (BigInt.ofString y) ['0'] && prints (BigInt.ofString ('-' :: y)) ['0'])
#guard ((List.range 17).all fun i =>
    let x := "000000000123456789123456789".toList
    let y := x.take (i + 10)
    let z := (x.drop 9).take (i + 1)
    prints (BigInt.ofString y) z && prints (BigInt.ofString ('-' :: y)) ('-' :: z))
#guard ((List.range 9).all fun i =>
    let x := "000000000123456789123456789".toList
    prints (BigInt.ofString (x.drop i)) (x.drop 9))
#guard throws .invalidArgument (BigInt.ofString "abcdefghij".toList)
#guard throws .invalidArgument (BigInt.ofString "1234567a9".toList)
#guard throws .invalidArgument (BigInt.ofString "".toList)
#guard prints (ofInt64 9999 2) "9999000000000000000000".toList
#guard prints (ofInt64 1234567891234567) "1234567891234567".toList
#guard prints (ofInt64 1234567891234567 2) "1234567891234567000000000000000000".toList
#guard prints (num 152415787806666675432666675280250887626) (text 152415787806666675432666675280250887626)

/-! test/int_test.hpp:276-324 -/

def runLess : Int × Int × Bool → Bool
  | (x, y, expected) => passes (do
    let x ← num x
    let y ← num y
    let b ← lt x y
    return b == expected)

#guard [(1, 2, true), (-1, 2, true), (-2, 1, true), (-2, -1, true), (2, 1, false), (2, -1, false), (1, -2, false),
    (-1, -2, false), (-1, -1, false), (1, 1, false), (0, 0, false), (0, 1, true), (0, -1, false),
    (123456787123456788, 123456788123456787, true),
    (123456787123456788, 123456780123456788000000000, true)].all runLess

#guard ((pairs (range (-9) 9 1) (range (-9) 9 1)).all fun (i, j) => passes (do
    let a ← ofInt64 i
    let b ← ofInt64 j
    let c1 ← lt a b
    let c2 ← le a b
    let c3 ← gt a b
    let c4 ← ge a b
    let c5 ← eq a b
    let c6 ← ne a b
    return c1 == decide (i < j) && c2 == decide (i ≤ j) && c3 == decide (i > j) && c4 == decide (i ≥ j) &&
      c5 == decide (i = j) && c6 == decide (i ≠ j)))

#guard passes (do
    let x ← ofInt64 3
    let y ← ofInt64 (-3)
    let zero ← ofInt64 0
    let nx ← neg x
    let ny ← neg y
    let c1 ← eq nx y
    let c2 ← eq ny x
    let c3 ← gt ny zero
    let c4 ← lt nx zero
    return c1 && c2 && c3 && c4)

/-! test/int_test.hpp:326-586 -/

#guard additionTable.all (runTwo opAdd addAssign)
#guard ((pairs (range (-30) 30 1) (range (-50) 50 7)).all fun (i, j) =>
    runTwo opAdd addAssign (i, j, i + j))
#guard prints (do let x ← num 111111111222222222; addAssign x x) (text 222222222444444444)
#guard prints (do let x ← num (-111111111222222222); addAssign x x) (text (-222222222444444444))

#guard subtractionTable.all (runTwo opSub subAssign)
#guard ((pairs (range (-30) 30 1) (range (-50) 50 5)).all fun (i, j) =>
    runTwo opSub subAssign (i, j, i - j))
#guard prints (do let x ← num 111111111222222222; subAssign x x) ['0']
#guard prints (do let x ← num (-111111111222222222); subAssign x x) ['0']

#guard multiplicationTable.all (runTwo opMul mulAssign)
#guard ((pairs (range (-50) 50 1) (range (-100) 100 7)).all fun (i, j) =>
    runTwo opMul mulAssign (i, j, i * j))
#guard prints (do let x ← num 111111111222222222; mulAssign x x) (text 12345679037037036999999999950617284)
#guard prints (do let x ← num (-111111111222222222); mulAssign x x) (text 12345679037037036999999999950617284)

/-! test/int_test.hpp:588-918 -/

def runDivideByInt : Int × Int × Int → Bool
  | (x, y, expected) => passes (do
    let x ← num x
    let expected ← num expected
    let r ← divideByInt x y default
    eq r expected)

#guard divideByIntTable.all runDivideByInt
#guard throws .divideByZero (do let x ← num 1; divideByInt x 0 default)
#guard throws .divideByZero (do let x ← num 1; let y ← num 0; opDiv x y)
#guard divisionTable.all (runTwo opDiv divAssign)
#guard ((pairs (range (-100000000000000) 100000000000000 7777777777777)
    (range (-100000000000000) 100000000000000 9999999999999)).all fun (i, j) =>
    runTwo opDiv divAssign (i, j, i.tdiv j))

#guard modulusTable.all (runTwo opMod modAssign)
#guard throws .divideByZero (do let x ← num 1234; let y ← num 0; opMod x y)
#guard prints (do let x ← num 111111111222222222; modAssign x x) ['0']
#guard prints (do let x ← num (-111111111222222222); modAssign x x) ['0']

/-! test/int_test.hpp:920-1087 -/

#guard exponentiationTable.all (runTwo opPow powAssign)
#guard prints (do let x ← num 123; powAssign x x) (text (123 ^ 123))

def runTimesPowerTen : Int × Int × Int → Bool
  | (x, power, expected) => passes (do
    let x ← num x
    let expected ← num expected
    let r ← timesPowerTen x power
    eq r expected)

#guard timesPowerTenTable.all runTimesPowerTen

/-! test/int_test.hpp:1094-1129: `ss.str(text); ss.clear(); ss >> x` -/

#guard (["0", "5", "-5", "1234", "-1234", "1123456789", "-1123456789", "123456789123456789",
    "-123456789123456789"].all fun t => passes (do
    let (s, x) ← BigInt.read (IStream.ofString t.toList) default
    return !s.failed && BigInt.print x == t.toList))
#guard (["-", "a", "a1234"].all fun t => passes (do
    let (s, _) ← BigInt.read (IStream.ofString t.toList) default
    return s.failed))

end CppMaths.Conformance
