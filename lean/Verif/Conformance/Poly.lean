import Verif.Model.Poly
import Verif.Conformance.Int
/-!
# The model against the tests of the project: `Poly`

The checks of test/poly_test.hpp, evaluated on the model when this file is compiled. As in `Conformance/Int.lean` these are tests
of the model, and no property rests on them. One test, `PolyOutput`, has undefined behaviour: it builds a `Poly` from a
vector of terms, and `appendTerm` dereferences the end iterator of the list (src/Poly.hpp:245).
-/

namespace CppMaths.Conformance.PolyTest

def factor (id : String) (power : Int) : Res Factor := do let p ← BigInt.ofInt64 power; return ⟨id.toList, p⟩
def term (c : Int) (f : Res Factor) : Res Term := do let c ← Frac.ofI32 c; let f ← f; Term.ofCoeff c f

/-! test/poly_test.hpp:10-25 -/
def factorX := factor "x" 3
def factorY := factor "y" 2
def factorZ := factor "z" 1
def termAX := term 2 factorX
def termBY := term 3 factorY
def termCZ := term 4 factorZ

/-- `testOutput`. -/
def out {α : Type} (pr : α → Res (List Char)) (t : Res α) (expected : String) : Bool :=
  passes (do let t ← t; let s ← pr t; return s == expected.toList)

def op {α β γ : Type} (f : α → β → Res γ) (x : Res α) (y : Res β) : Res γ := do let x ← x; let y ← y; f x y

/-! test/poly_test.hpp:50-53 -/
#guard out Factor.print (factor "x" 1) "x"
#guard out Factor.print (factor "x" 2) "x^2"

/-! test/poly_test.hpp:69-78 -/
#guard throws .ub (do let a ← termAX; let b ← termBY; let c ← termCZ; Poly.ofTerms [a, b, c])

/-! test/poly_test.hpp:80-111 -/
#guard out Term.print (op Term.mulFactors factorX factorY) "x^3 * y^2"
#guard out Term.print (op Term.mulFactors factorY factorX) "x^3 * y^2"
#guard out Term.print (op Term.mulFactors factorX factorX) "x^6"
#guard out Term.print (op Term.mulFactors factorY factorY) "y^4"
#guard out Term.print (op Term.mulFactor termAX factorX) "(2/1) * x^6"
#guard out Term.print (op Term.factorMul factorX termAX) "(2/1) * x^6"
#guard out Term.print (op Term.mulFactor termAX factorY) "(2/1) * x^3 * y^2"
#guard out Term.print (op Term.factorMul factorY termAX) "(2/1) * x^3 * y^2"
#guard out Term.print (op Term.mulFactor termBY factorX) "(3/1) * x^3 * y^2"
#guard out Term.print (op Term.factorMul factorX termBY) "(3/1) * x^3 * y^2"
#guard out Term.print (op Term.mul termAX termBY) "(6/1) * x^3 * y^2"
#guard out Term.print (op Term.mul termBY termAX) "(6/1) * x^3 * y^2"
#guard out Term.print (op Term.mul termAX termAX) "(4/1) * x^6"
#guard out Term.print (op Term.mul termBY termBY) "(9/1) * y^4"
#guard out Term.print (op Term.mul (op Term.mul termBY termAX) termCZ) "(24/1) * x^3 * y^2 * z"
#guard out Term.print (op Term.mul (op Term.mul termCZ termBY) termAX) "(24/1) * x^3 * y^2 * z"
#guard out Term.print (op Term.mul (op Term.mul termAX termCZ) termBY) "(24/1) * x^3 * y^2 * z"

/-! test/poly_test.hpp:113-119 -/
#guard passes (op Term.lt termAX termBY)
#guard passes (op Term.lt termBY termCZ)
#guard passes (op Term.lt termAX termCZ)
#guard passes (op Term.lt termAX (op Term.mul termAX termAX))
#guard passes (op Term.lt termBY (op Term.mul termBY termBY))

/-! test/poly_test.hpp:121-127 -/
#guard out Poly.print (do let x ← factorX; Poly.ofFactor x) "x^3"
#guard out Poly.print (do let y ← factorY; Poly.ofFactor y) "y^2"
#guard out Poly.print (do let z ← factorZ; Poly.ofFactor z) "z"
#guard out Poly.print (do let t ← termAX; return Poly.ofTerm t) "(2/1) * x^3"
#guard out Poly.print (do let t ← termBY; return Poly.ofTerm t) "(3/1) * y^2"
#guard out Poly.print (do let t ← termCZ; return Poly.ofTerm t) "(4/1) * z"

end CppMaths.Conformance.PolyTest
