import Verif.Model.Machine
import Verif.Model.Mat
import Verif.Conformance.Int
/-!
# The model against the tests of the project: `Mat`

The checks of test/mat_test.hpp, evaluated on the model when this file is compiled. As in `Conformance/Int.lean` these are tests
of the model, and no property rests on them.
-/

namespace CppMaths.Conformance.MatTest

abbrev S := Scalar.double
abbrev M := Res (Mat Double)
def d (k : Int) : Double := Double.ofInt k
def rat (q : ℚ) : Double := Double.round false q
/-- `Mat<double>(r, c, k)`. -/
def const (r c : Nat) (k : Int) : M := Mat.filled r c (d k)
/-- `Mat<double>(vals, r, c)`. -/
def vals (v : List Int) (r c : Nat) : M := Mat.ofArray (v.map d) r c
def op {α : Type} (f : Mat Double → Mat Double → Res α) (x y : M) : Res α := do let x ← x; let y ← y; f x y
def on {α : Type} (x : M) (f : Mat Double → Res α) : Res α := do let x ← x; f x

/-- `matrixFloatEquals` (test/mat_test.hpp:11-21). -/
def near (x y : M) : Bool := passes (do
  let x ← x
  let y ← y
  if x.rows ≠ y.rows ∨ x.cols ≠ y.cols then return false
  else Mat.forEach x.rows x.cols (fun i j b => do
    let s ← x.get i j
    let t ← y.get i j
    return b && floatEquals s t) true)

def isNear (x : Res Double) (k : Int) : Bool := passes (do let x ← x; return floatEquals x (d k))
def is (x : Res Double) (k : Int) : Bool := passes (do let x ← x; return Double.eq x (d k))

/-! test/mat_test.hpp:23-49 -/
def set (x : M) (k : Int) : M := on x (fun m => m.setAll (d k))
def new (r c : Nat) : M := .ok (Mat.alloc r c)
#guard passes (op (Mat.eq S) (set (new 10 10) 1) (set (new 10 10) 1))
#guard passes (op (Mat.ne S) (set (new 10 10) 2) (set (new 10 10) 3))
#guard passes (op (Mat.ne S) (set (new 10 10) 3) (set (new 10 10) 2))
#guard passes (op (Mat.ne S) (set (new 10 10) 4) (on (set (new 10 10) 4) fun b => b.set 9 9 (d 5)))
#guard passes (op (Mat.ne S) (set (new 10 10) 5) (set (new 10 9) 5))
#guard passes (op (Mat.ne S) (set (new 10 10) 5) (set (new 9 10) 5))
#guard passes (op (Mat.ne S) (set (new 10 9) 5) (set (new 9 10) 5))

/-! test/mat_test.hpp:51-83 -/
#guard near (on (const 10 10 5) (Mat.neg S)) (const 10 10 (-5))
#guard near (on (const 10 10 (-5)) (Mat.neg S)) (const 10 10 5)
#guard near (op (Mat.add S) (const 10 10 1) (const 10 10 2)) (const 10 10 3)
#guard throws .domainError (op (Mat.add S) (const 10 10 1) (const 9 9 3))
#guard near (op (Mat.addAssign S) (const 10 10 1) (const 10 10 2)) (const 10 10 3)
#guard throws .domainError (op (Mat.addAssign S) (const 10 10 1) (const 9 9 3))
#guard near (op (Mat.sub S) (const 10 10 5) (const 10 10 2)) (const 10 10 3)
#guard near (op (Mat.sub S) (const 10 10 2) (const 10 10 5)) (on (const 10 10 3) (Mat.neg S))
#guard throws .domainError (op (Mat.sub S) (const 10 10 5) (const 9 9 3))
#guard near (op (Mat.subAssign S) (const 10 10 5) (const 10 10 2)) (const 10 10 3)
#guard throws .domainError (op (Mat.subAssign S) (const 10 10 5) (const 9 9 3))

/-! test/mat_test.hpp:85-98 -/
#guard near (on (const 5 10 4) (Mat.smul S (d 6))) (const 5 10 24)
#guard near (on (const 5 10 4) fun m => Mat.mulScalar S m (d 6)) (const 5 10 24)
#guard near (on (const 5 10 24) fun m => Mat.divScalar S m (d 6)) (const 5 10 4)
#guard near (on (const 5 10 24) fun m => Mat.divAssignScalar S m (d 6)) (const 5 10 4)
#guard near (on (const 5 10 4) fun m => Mat.mulAssignScalar S m (d 6)) (const 5 10 24)

/-! test/mat_test.hpp:100-124 -/
#guard near (op (Mat.mul S) (const 2 2 1) (const 2 2 1)) (const 2 2 2)
#guard near (op (Mat.mul S) (const 3 2 2) (const 2 2 1)) (const 3 2 4)
#guard near (op (Mat.mul S) (const 3 2 2) (const 2 3 4)) (const 3 3 16)
#guard near (op (Mat.mul S) (const 2 3 4) (const 3 2 2)) (const 2 2 24)
#guard throws .domainError (op (Mat.mul S) (const 2 2 1) (const 3 2 2))
#guard near (op (Mat.mulAssign S) (const 3 2 2) (const 2 2 1)) (const 3 2 4)
#guard near (on (const 2 2 1) fun a => Mat.mulAssign S a a) (const 2 2 2)
#guard throws .domainError (op (Mat.mulAssign S) (const 2 2 2) (const 3 2 4))

/-! test/mat_test.hpp:126-158 -/
#guard (List.range 5).all fun i => (List.range 5).all fun j => near (on (const 5 5 2) fun a => a.firstMinor i j) (const 4 4 2)
def c3 : M := vals [9, 2, 3, 1, 7, 6, 6, 8, 5] 3 3
#guard near (on c3 fun c => c.firstMinor 0 0) (vals [7, 6, 8, 5] 2 2)
#guard near (on c3 fun c => c.firstMinor 0 1) (vals [1, 6, 6, 5] 2 2)
#guard near (on c3 fun c => c.firstMinor 0 2) (vals [1, 7, 6, 8] 2 2)

/-! test/mat_test.hpp:160-219 -/
def b2 : M := vals [1, 3, 2, 4] 2 2
def d3 : M := vals [0, 6, 0, 3, 0, 5, 0, 7, 0] 3 3
def e4 : M := vals [3, 7, -1, 6, 4, 7, 2, 4, 9, 9, 2, 3, 6, 7, 2, 3] 4 4
#guard isNear (on (const 1 1 3) (Mat.determinant S)) 3
#guard isNear (on b2 (Mat.determinant S)) (-2)
#guard isNear (on c3 (Mat.determinant S)) (-157)
#guard isNear (on d3 (Mat.determinant S)) 0
#guard is (on (const 1 1 3) (Mat.rowCofactor S)) 3
#guard is (on b2 (Mat.rowCofactor S)) (-2)
#guard is (on c3 (Mat.rowCofactor S)) (-157)
#guard is (on d3 (Mat.rowCofactor S)) 0
#guard is (on e4 (Mat.rowCofactor S)) 21
#guard is (on (const 1 1 3) (Mat.colCofactor S)) 3
#guard is (on b2 (Mat.colCofactor S)) (-2)
#guard is (on c3 (Mat.colCofactor S)) (-157)
#guard is (on d3 (Mat.colCofactor S)) 0
#guard is (on e4 (Mat.colCofactor S)) 21

/-! test/mat_test.hpp:221-243 -/
#guard near (on (const 3 3 5) (Mat.rref S)) (vals [1, 1, 1, 0, 0, 0, 0, 0, 0] 3 3)
#guard near (on (vals [1, 2, -1, -4, 2, 3, -1, -11, -2, 0, -3, 22] 3 4) (Mat.rref S))
  (vals [1, 0, 0, -8, 0, 1, 0, 1, 0, 0, 1, -2] 3 4)

/-! test/mat_test.hpp:245-297 -/
#guard near (on (const 1 1 5) (Mat.inverse S)) (Mat.filled 1 1 (rat (1 / 5)))
#guard near (on (vals [4, 3, 3, 2] 2 2) (Mat.inverse S)) (vals [-2, 3, 3, -4] 2 2)
#guard near (on (vals [1, 2, 3, 0, 1, 4, 5, 6, 0] 3 3) (Mat.inverse S)) (vals [-24, 18, 5, 20, -15, -4, -5, 4, 1] 3 3)
#guard throws .domainError (on (const 3 3 3) (Mat.inverse S))
def z3 : M := vals [1, 2, 3, 4, 3, 4, 5, 6, 5] 3 3
#guard near (on z3 (Mat.inverse S))
  (Mat.ofArray ([-1 / 2, 4 / 9, -1 / 18, 0, -5 / 9, 4 / 9, 1 / 2, 2 / 9, -5 / 18].map rat) 3 3)

/-! test/mat_test.hpp:299-330 -/
def x25 : M := vals [1, 2, 3, 4, 5, 6, 5, 4, 3, 2] 2 5
def y52 : M := vals [1, 6, 2, 5, 3, 4, 4, 3, 5, 2] 5 2
#guard near (on x25 Mat.transpose) y52
#guard near (on y52 Mat.transpose) x25
#guard is (on (const 3 3 3) (Mat.trace S)) 9
#guard is (on (Mat.identityMatrix S 10) (Mat.trace S)) 10
#guard is (on z3 (Mat.trace S)) 9

end CppMaths.Conformance.MatTest
