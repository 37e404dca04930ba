import Verif.Model.FracDouble
import Verif.Model.Machine
import Verif.Conformance.Int
/-!
# The model against the tests of the project: `Frac`

Every check of test/frac_test.hpp, evaluated on the model when this file is compiled. As in `Conformance/Int.lean` these are
tests of the model, and no property rests on them.
-/

namespace CppMaths.Conformance
open Frac

/-- `Frac(n, d)` for two machine integers. -/
def fr (n d : Int) : Res Frac := do
  let n ← BigInt.ofInt64 n
  let d ← BigInt.ofInt64 d
  Frac.mk' n d

/-- `testOutput(y, expected)` for a `Frac`. -/
def printsF (x : Res Frac) (expected : String) : Bool := passes (do let x ← x; return Frac.print x == expected.toList)

/-- `CHECK(a == b)`. -/
def same (a b : Res Frac) : Bool := passes (do let a ← a; let b ← b; Frac.eq a b)

def opF (f : Frac → Frac → Res Frac) (a b : Res Frac) : Res Frac := do let a ← a; let b ← b; f a b
def cmpF (f : Frac → Frac → Res Bool) (a b : Res Frac) : Bool := passes (do let a ← a; let b ← b; f a b)
def dropA (f : Frac → Frac → MRes Frac Frac) : Frac → Frac → Res Frac := fun a b => Frac.drop (f a b)
def opI (f : Frac → BigInt → MRes Frac Frac) (a : Res Frac) (i : Int) : Res Frac := do
  let a ← a; let i ← BigInt.ofInt64 i; Frac.drop (f a i)

/-! test/frac_test.hpp:24-47 -/

#guard printsF (ofI32 0) "(0/1)"
#guard printsF (ofI32 1) "(1/1)"
#guard printsF (ofI32 12) "(12/1)"
#guard printsF (fr 5 2) "(5/2)"
#guard printsF (fr 10 4) "(5/2)"
#guard printsF (fr 10 100) "(1/10)"
#guard printsF (fr (-11) 44) "(-1/4)"
#guard printsF (fr 22 (-44)) "(-1/2)"
#guard printsF (fr (-33) (-44)) "(3/4)"
#guard throws .divideByZero (fr 4 0)
#guard printsF (Frac.ofString "0/1".toList) "(0/1)"
#guard printsF (Frac.ofString "-0/1".toList) "(0/1)"
#guard printsF (Frac.ofString "-12/-13".toList) "(12/13)"
#guard printsF (Frac.ofString "12/-14".toList) "(-6/7)"
#guard throws .invalidArgument (Frac.ofString "-".toList)
#guard throws .invalidArgument (Frac.ofString "-/".toList)
#guard throws .invalidArgument (Frac.ofString "1/".toList)
#guard throws .invalidArgument (Frac.ofString "  1   /   ".toList)

/-! test/frac_test.hpp:49-59 -/

/-- A floating-point literal. -/
def dbl (q : ℚ) : Double := Double.round false q
def dblMax : Double := .fin false (2 ^ 53 - 1) 971
def dblMin : Double := .fin false (2 ^ 52) (-1074)

#guard isFinite (dbl 0)
#guard isFinite (dbl (-1))
#guard isFinite (dbl 1)
#guard isFinite dblMin
#guard isFinite dblMax
#guard !isFinite (.inf false)
#guard !isFinite (.inf true)
#guard !isFinite .nan

/-! test/frac_test.hpp:61-87; the default precision is 15 (src/Frac.hpp:25) -/

#guard printsF (ofDouble (dbl 0) 15) "(0/1)"
#guard printsF (ofDouble (dbl 1) 15) "(1/1)"
#guard printsF (ofDouble (dbl (-1)) 15) "(-1/1)"
#guard printsF (ofDouble (dbl (11 / 10)) 15) "(11/10)"
#guard printsF (ofDouble (dbl (111 / 10)) 15) "(111/10)"
#guard printsF (ofDouble (dbl (111 / 100)) 15) "(111/100)"
#guard printsF (ofDouble (dbl (111 / 1000)) 15) "(111/1000)"
#guard printsF (ofDouble (dbl (1111 / 10000)) 15) "(1111/10000)"
#guard printsF (ofDouble (dbl (11111 / 100000)) 15) "(11111/100000)"
#guard printsF (ofDouble (dbl (123456789 / 1000000000)) 15) "(123456789/1000000000)"
#guard printsF (ofDouble dblMax 15)
  ("(1797693134862315708145274237317043567980705675258449965989174768031" ++
    "5726078002853876058955863276687817154045895351438246423432132688946" ++
    "4182768467546703537516986049910576551282076245490090389328944075868" ++
    "5084551339423045832369032229481658085593321233482747978262041447231" ++
    "68738177180919299881250404026184124858368/1)")
#guard printsF (ofDouble (dbl (1 + 1 / 10 ^ 29)) 15) "(1/1)"
#guard printsF (ofDouble dblMin 15) "(0/1)"
#guard throws .invalidArgument (ofDouble (.inf false) 15)
#guard throws .invalidArgument (ofDouble .nan 15)

/-! test/frac_test.hpp:89-117 -/

/-- `runInstream` (test/frac_test.hpp:12-22). -/
def runInstream (input : String) (expected : Res Frac) : Bool := passes (do
  let f ← Frac.default
  let expected ← expected
  match Frac.read (IStream.ofString input.toList) f with
  | .ok (s, f) => do
    let b ← Frac.eq f expected
    return !s.failed && b
  | .error _ => return false)

#guard ["0", "(0)", "0/1", "(0/1)", "-0", "-0/1", "-0/-1", "0/-1", "(00000/11111111)"].all fun t => runInstream t (ofI32 0)
#guard ["1/1", "(1/1)", "(-1/-1)"].all fun t => runInstream t (ofI32 1)
#guard ["(-1/1)", "(1/-1)"].all fun t => runInstream t (ofI32 (-1))
#guard runInstream "(1/2)" (fr 1 2)
#guard runInstream "1/2" (fr 1 2)
#guard runInstream "(1/23)" (fr 1 23)
#guard runInstream "(1234/5678)" (fr 1234 5678)
#guard runInstream "123456789123456789/987654321987654321"
  (do let n ← num 123456789123456789; let d ← num 987654321987654321; Frac.mk' n d)

/-! test/frac_test.hpp:119-139 -/

def x := fr 3 2
def z := fr 3 1
def a := fr 4 5
def b := fr 6 5

#guard cmpF Frac.eq x x && cmpF Frac.eq x (fr 6 4) && cmpF Frac.ne x z && cmpF Frac.ne x a && cmpF Frac.ne x b
#guard cmpF Frac.lt a z && cmpF Frac.lt a b && cmpF Frac.lt a x
#guard cmpF Frac.le x x && cmpF Frac.le x z && cmpF Frac.le x (fr 6 4)
#guard cmpF Frac.ge x x && cmpF Frac.ge x (fr 6 4) && cmpF Frac.ge z x

/-! test/frac_test.hpp:141-207 -/

def y := fr (-7) 3

#guard same (opF opAdd x x) z
#guard same (opF opAdd a b) (fr 2 1)
#guard same (opF opAdd x a) (fr 23 10)
#guard same (opF opAdd x y) (fr (-5) 6)
#guard same (opF opSub a b) (fr (-2) 5)
#guard same (opF opSub x x) (fr 0 1)
#guard same (opF opSub b x) (fr (-3) 10)
#guard same (opF (dropA addAssign) x x) z
#guard same (opF (dropA addAssign) x a) (fr 23 10)
#guard same (opF (dropA subAssign) a b) (fr (-2) 5)
#guard same (opF (dropA subAssign) x x) (ofI32 0)
#guard same (opI addAssignInt x 3) (fr 9 2)
#guard same (opI subAssignInt (opI addAssignInt x 3) 3) (fr 3 2)

#guard same (opF opMul x x) (fr 9 4)
#guard same (opF opMul x y) (fr (-7) 2)
#guard same (opF opMul x a) b
#guard same (opF opMul x (ofI32 0)) (ofI32 0)
#guard same (opF opDiv x x) (ofI32 1)
#guard same (opF opDiv x y) (fr (-9) 14)
#guard same (opF opDiv x a) (fr 15 8)
#guard same (opF opDiv a b) (fr 2 3)
#guard same (opF (dropA mulAssign) x x) (fr 9 4)
#guard same (opF (dropA divAssign) (fr 9 4) (fr 9 4)) (fr 1 1)
#guard same (opF (dropA mulAssign) x y) (fr (-7) 2)
#guard same (opF (dropA divAssign) a b) (fr 2 3)
#guard same (opI mulAssignInt x 3) (fr 9 2)
#guard same (opI divAssignInt (opI mulAssignInt x 3) 3) (fr 3 2)

/-! test/frac_test.hpp:209-214 -/

#guard same (do let x ← x; let n ← BigInt.ofInt64 3; Frac.opPow x n) (fr 27 8)
#guard same (opI powAssign x 3) (fr 27 8)

end CppMaths.Conformance
