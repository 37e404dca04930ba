import Verif.Model.FracDouble
import Verif.Model.DoubleText
import Verif.Model.Machine
import Verif.Model.Mat
import Verif.Conformance.Frac
/-!
# The model against the demonstration programs

The programs in demo/ end with a comment that records their output. Here the model is run on the same input and its output compared with
the recorded text, line by line. As in `Conformance/Int.lean` these are tests of the model, and no property rests on them.
-/

namespace CppMaths.Conformance.Demo

/-- `cout << d` in the default format. -/
def six (d : Double) : List Char := d.print 6

#guard (six (Double.round false (1 / 18))) == "0.0555556".toList
#guard (six (Double.round false 1234567)) == "1.23457e+06".toList
#guard (six (Double.round false (1 / 32768))) == "3.05176e-05".toList
#guard (six (Double.round false (-25 / 10))) == "-2.5".toList
#guard (six (Double.round false (9999999 / 10))) == "1e+06".toList

def writes (x : Res (List Char)) (expected : String) : Bool := passes (do let x ← x; return x == expected.toList)

/-! demo/int_demo.cpp:7-33 -/

def x := num 123456789012345678901234567890
def y := num 987654321098765432109876543210
def z := num (-12345678901234567890)
def op (f : BigInt → BigInt → Res BigInt) (a b : Res BigInt) : Res (List Char) := do let a ← a; let b ← b; let r ← f a b; return r.print
#guard writes (do let x ← x; return x.print) "123456789012345678901234567890"
#guard writes (do let y ← y; return y.print) "987654321098765432109876543210"
#guard writes (do let z ← z; return z.print) "-12345678901234567890"
#guard writes (op BigInt.opAdd x y) "1111111110111111111011111111100"
#guard writes (op BigInt.opAdd x z) "123456789000000000000000000000"
#guard writes (op BigInt.opSub x y) "-864197532086419753208641975320"
#guard writes (op BigInt.opDiv x y) "0"
#guard writes (op BigInt.opDiv y x) "8"
#guard writes (op BigInt.opMod x z) "-12345678900000000000"
#guard writes (op BigInt.opPow x (BigInt.ofInt64 5))
  "28679718617337040378138162708415496392486976564513250475184790028886798337811616713594453748240629383657483209495862454267363852838672048294900000"

/-! demo/frac_demo.cpp:8-40 -/

def fx := fr 5 20
def fy := Frac.ofString "-21/63".toList
#guard printsF fx "(1/4)"
#guard printsF fy "(-1/3)"
#guard printsF (opF Frac.opAdd fx fy) "(-1/12)"
#guard printsF (opF Frac.opSub fx fy) "(7/12)"
#guard printsF (opF Frac.opMul fx fy) "(-1/12)"
#guard printsF (opF Frac.opDiv fx fy) "(-3/4)"
#guard printsF (do let x ← fx; let n ← BigInt.ofInt64 2; Frac.opPow x n) "(1/16)"
#guard printsF (do let x ← fx; x.reciprocal) "(4/1)"
#guard writes (op Frac.gcd (BigInt.ofInt64 45) (BigInt.ofInt64 40)) "5"
#guard printsF (Frac.ofDouble (Double.round false (1 / 5)) 15) "(1/5)"
#guard runInstream "(41/189)" (fr 41 189)

/-! demo/mat_demo.cpp:7-60 -/

abbrev S := Scalar.double
def d (k : Int) : Double := Double.ofInt k
def xVals : List Double := [1, 2, 3, 4, 3, 4, 5, 6, 5, 6, 7, 8].map d
def mx : Res (Mat Double) := (Mat.alloc 3 4).setEntries xVals 12
def my : Res (Mat Double) := Mat.filled 4 3 (d 5)
def mz : Res (Mat Double) := (Mat.alloc 3 3).setEntries xVals 12
def out (m : Res (Mat Double)) : Res (List Char) := do let m ← m; m.print six
#guard writes (out mx) "1 2 3 4 \n3 4 5 6 \n5 6 7 8 "
#guard writes (out my) "5 5 5 \n5 5 5 \n5 5 5 \n5 5 5 "
#guard writes (out mz) "1 2 3 \n4 3 4 \n5 6 5 "
#guard writes (out (do let x ← mx; let y ← my; Mat.mul S x y)) "50 50 50 \n90 90 90 \n130 130 130 "
#guard writes (out (do let y ← my; Mat.smul S (d 3) y)) "15 15 15 \n15 15 15 \n15 15 15 \n15 15 15 "
#guard writes (do let z ← mz; let t ← Mat.trace S z; return six t) "9"
#guard writes (do let z ← mz; let t ← Mat.determinant S z; return six t) "18"
#guard writes (out (do let z ← mz; Mat.inverse S z)) "-0.5 0.444444 -0.0555556 \n0 -0.555556 0.444444 \n0.5 0.222222 -0.277778 "
#guard writes (out (do let x ← mx; Mat.rref S x)) "1 0 -1 -2 \n-0 1 2 3 \n0 0 0 0 "

/-! demo/vec_demo.cpp:7-60 -/

def vx : Res (List Double) := Vec.constantVec S 3 (Double.round false (5 / 2))
def vy : Res (List Double) := Vec.ofArray .ok [Double.round false (-3 / 2), d 2, Double.round false (-5 / 2)] 3
def vz : Res (List Double) := do let z ← Vec.ofSize S 3; Vec.setEntries .ok z [d 3, d (-2), d 1] 3
def ix : Res (List Int) := do let x ← vx; Vec.ofArray (Double.toSigned intMax) x x.length
def vout (v : Res (List Double)) : Res (List Char) := do let v ← v; Vec.print six v
def vop {α : Type} (f : List Double → List Double → Res α) (a b : Res (List Double)) : Res α := do let a ← a; let b ← b; f a b
def s72 : Double := Double.round false (7 / 2)
#guard writes (vout (Vec.ofSize S 3)) "(0, 0, 0)"
#guard writes (vout vx) "(2.5, 2.5, 2.5)"
#guard writes (vout vy) "(-1.5, 2, -2.5)"
#guard writes (vout vz) "(3, -2, 1)"
#guard writes (do let x ← ix; Vec.print BigInt.showI32 x) "(2, 2, 2)"
#guard writes (do let z ← vz; let t ← Vec.get z 1; return six t) "-2"
#guard writes (vout (do let x ← vx; Vec.smul S s72 x)) "(8.75, 8.75, 8.75)"
#guard writes (vout (do let x ← vx; Vec.divScalar S x s72)) "(0.714286, 0.714286, 0.714286)"
#guard writes (vout (vop (Vec.add S) vx vy)) "(1, 4.5, 0)"
#guard writes (vout (vop (Vec.sub S) vx vy)) "(4, 0.5, 5)"
#guard writes (vout (vop (Vec.concatenate S) vx vy)) "(2.5, 2.5, 2.5, -1.5, 2, -2.5)"
#guard writes (do let t ← vop (Vec.dot S) vx vy; return six t) "-5"
#guard writes (vout (vop (Vec.cross S) vx vy)) "(-11.25, 2.5, 8.75)"
#guard writes (do let x ← vx; let t ← Vec.normDouble x; return six t) "4.33013"
#guard writes (vout (do let x ← vx; Vec.unitDouble x)) "(0.57735, 0.57735, 0.57735)"
#guard writes (do let x ← ix; let t ← Vec.normInt x; return BigInt.showI32 t) "3"
#guard writes (do let x ← ix; let t ← Vec.normIntDouble x; return six t) "3.4641"
#guard writes (vout (do let x ← ix; Vec.unitIntDouble x)) "(0.57735, 0.57735, 0.57735)"
#guard writes (do let x ← vx; let y ← vy; let z ← vz; let t ← Vec.scalarTriple S x y z; return six t) "-30"
#guard writes (vout (do let x ← vx; let y ← vy; let z ← vz; Vec.vectorTriple S x y z)) "(7.5, 0, -7.5)"

end CppMaths.Conformance.Demo
