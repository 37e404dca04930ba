import Verif.Model.Machine
import Verif.Conformance.Int
/-!
# The model against the tests of the project: `Vec`

The checks of test/vec_test.hpp, evaluated on the model when this file is compiled. As in `Conformance/Int.lean` these are tests
of the model, and no property rests on them. Where the tests compare printed `double`s (the default format is not modelled),
the numbers themselves are compared here.
-/

namespace CppMaths.Conformance.VecTest

abbrev S := Scalar.i32
def IVALS : List Int := [1, 2, 3, 4, 5, 6, 7, 8, 9]
def DVALS : List Double := IVALS.map Double.ofInt
def half : Double := Double.round false (7 / 2)
def toI : Double → Res Int := Double.toSigned intMax
def toD : Int → Res Double := fun k => .ok (Double.ofInt k)

def out (x : Res (List Int)) (expected : String) : Bool :=
  passes (do let x ← x; let s ← Vec.print BigInt.showI32 x; return s == expected.toList)
def is {α : Type} [BEq α] (x : Res α) (expected : α) : Bool := passes (do let x ← x; return x == expected)
def eqs (x y : Res (List Int)) : Bool := passes (do let x ← x; let y ← y; Vec.eq S x y)
def nes (x y : Res (List Int)) : Bool := passes (do let x ← x; let y ← y; Vec.ne S x y)
def same (x y : Res (List Double)) : Bool := passes (do let x ← x; let y ← y; Vec.eq Scalar.double x y)
def op {α β : Type} (f : List Int → α → Res β) (x : Res (List Int)) (y : Res α) : Res β := do let x ← x; let y ← y; f x y
def ints (n : Nat) : Res (List Int) := Vec.ofArray .ok IVALS n
def dbls (n : Nat) : Res (List Double) := Vec.ofArray toD IVALS n

/-! test/vec_test.hpp:23-68 -/
#guard out (Vec.ofSize S 0) "()"
#guard out (Vec.ofSize S 5) "(0, 0, 0, 0, 0)"
#guard out (ints 0) "()"
#guard out (ints 1) "(1)"
#guard out (ints 2) "(1, 2)"
#guard out (ints 3) "(1, 2, 3)"
#guard out (ints 9) "(1, 2, 3, 4, 5, 6, 7, 8, 9)"
#guard out (Vec.constantVec S 4 3) "(3, 3, 3, 3)"
#guard out (do let k ← toI half; Vec.constantVec S 4 k) "(3, 3, 3, 3)"
#guard [0, 1, 2, 3, 9].all fun n => is (dbls n) (DVALS.take n)
#guard out (Vec.ofArray .ok [1, 2, 3, 4] 4) "(1, 2, 3, 4)"
#guard is (Vec.ofArray toD [1, 2, 3, 4] 4) (DVALS.take 4)
def w : Res (List Double) := do let w ← Vec.ofSize Scalar.double 5; Vec.setEntries .ok w DVALS 5
#guard is w (DVALS.take 5)
#guard is (do let w ← w; Vec.ofArray .ok w w.length) (DVALS.take 5)
def w' : Res (List Double) := do let w ← w; Vec.setAll .ok w half
#guard is w' (List.replicate 5 half)
def u : Res (List Int) := do let w ← w'; Vec.ofArray toI w w.length
#guard out u "(3, 3, 3, 3, 3)"
#guard is (do let u ← u; Vec.ofArray toD u u.length) (List.replicate 5 (Double.ofInt 3))
#guard throws .invalidArgument (do let w ← w'; Vec.setEntries .ok w DVALS 1)

/-! test/vec_test.hpp:70-83 -/
#guard eqs (Vec.ofSize S 0) (Vec.ofSize S 0)
#guard eqs (ints 5) (ints 5)
#guard nes (ints 5) (ints 6)
#guard nes (ints 6) (ints 5)
#guard nes (ints 5) (do let w ← ints 5; Vec.set w 4 (-5))

/-! test/vec_test.hpp:85-100 -/
def evens : Res (List Int) := .ok [2, 4, 6, 8, 10]
#guard eqs (do let v ← ints 5; Vec.smul S 2 v) evens
#guard eqs (do let v ← ints 5; Vec.mulScalar S v 2) evens
#guard eqs (do let w ← evens; Vec.divScalar S w 2) (ints 5)
#guard eqs (do let v ← ints 5; Vec.mulAssign S v 2) evens
#guard eqs (do let v ← ints 5; let r ← Vec.mulAssign S v 2; Vec.divAssign S r 2) (ints 5)

/-! test/vec_test.hpp:102-128; the array that `z` is read from has only five entries, which is undefined behaviour -/
def threes : Res (List Int) := .ok [3, 6, 9, 12, 15]
#guard throws .ub (Vec.ofArray (T := Int) .ok [3, 6, 9, 12, 15] 6)
#guard eqs (op (Vec.sub S) (ints 5) (ints 5)) (Vec.ofSize S 5)
#guard eqs (op (Vec.add S) (ints 5) (ints 5)) evens
#guard eqs (op (Vec.add S) (ints 5) evens) threes
#guard eqs (op (Vec.add S) evens (ints 5)) threes
#guard eqs (op (Vec.sub S) threes evens) (ints 5)
#guard throws .invalidArgument (op (Vec.add S) (ints 5) (ints 6))
#guard throws .invalidArgument (op (Vec.add S) (ints 6) (ints 5))
#guard eqs (op (Vec.addAssign S) (ints 5) evens) threes
#guard eqs (op (Vec.subAssign S) (op (Vec.addAssign S) (ints 5) evens) evens) (ints 5)

/-! test/vec_test.hpp:130-142 -/
#guard is (op (Vec.dot S) (ints 5) (ints 5)) 55
#guard is (op (Vec.dot S) (ints 5) evens) 110
#guard is (op (Vec.dot S) evens (ints 5)) 110
#guard is (op (Vec.dot S) (ints 5) (Vec.ofSize S 5)) 0
#guard throws .invalidArgument (op (Vec.dot S) (ints 6) (ints 5))
#guard throws .invalidArgument (op (Vec.dot S) evens (ints 6))

/-! test/vec_test.hpp:144-156 -/
def ones : Res (List Int) := op (Vec.add S) (ints 3) (Vec.constantVec S 3 1)
#guard eqs (op (Vec.cross S) (ints 3) ones) (.ok [-1, 2, -1])
#guard eqs (op (Vec.cross S) ones (ints 3)) (Vec.smul S (-1) [-1, 2, -1])
#guard throws .invalidArgument (op (Vec.cross S) ones (Vec.constantVec S 4 4))
#guard throws .invalidArgument (op (Vec.cross S) (Vec.constantVec S 4 4) ones)

/-! test/vec_test.hpp:158-179 -/
def root : Double := Double.sqrt (Double.ofInt 30)
def floatEq (x : Res Double) (y : Double) : Bool := passes (do let x ← x; return floatEquals x y)
#guard floatEq (do let v ← ints 4; Vec.normIntDouble v) root
#guard floatEq (do let v ← dbls 4; Vec.normDouble v) root
#guard is (do let v ← ints 4; Vec.normInt v) 5
#guard is (toI root) 5
#guard is (do let v ← dbls 4; Vec.norm Scalar.double id toI v) 5
def unit : Res (List Double) := .ok ((DVALS.take 4).map fun d => Double.div d root)
#guard same (do let v ← dbls 4; Vec.unitDouble v) unit
#guard floatEq (do let v ← dbls 4; let v ← Vec.unitDouble v; Vec.normDouble v) (Double.ofInt 1)
#guard eqs (do let v ← ints 4; Vec.unitInt v) (Vec.ofSize S 4)
#guard same (do let v ← ints 4; Vec.unitIntDouble v) unit
#guard floatEq (do let v ← ints 4; let v ← Vec.unitIntDouble v; Vec.normDouble v) (Double.ofInt 1)

/-! test/vec_test.hpp:181-193 -/
#guard is (Vec.scalarTriple S [1, -3, 2] [3, 7, -5] [4, 1, 6]) 111
#guard eqs (Vec.vectorTriple S [1, -3, 2] [3, 7, -5] [4, 1, 6]) (.ok [151, 119, 103])

end CppMaths.Conformance.VecTest
