import Verif.Model.Poly
import Mathlib.Logic.Function.Basic
/-!
# Programs that use `Factor`, `Term` and `Poly` (src/Poly.hpp)

A program is a sequence of statements over numbered variables of each of the three classes; variables with different numbers
are different objects, and the two operands of a statement may be the same one. Only the public interface is used. Branches
and loops of the user's program are unfolded: what is modelled is a history of calls. A failing statement ends the program.
-/

namespace CppMaths

/-- The variables of a program. -/
structure PStore where
  factor : Nat → Factor
  term : Nat → Term
  poly : Nat → Poly

/-- One statement; the first argument is the number of the variable that is assigned or changed. -/
inductive PStmt where
  /-- `f = Factor(id, n)` (src/Poly.hpp:17). -/
  | factor (i : Nat) (id : List Char) (n : BigInt)
  /-- `f.getId() = id` (src/Poly.hpp:18). -/
  | setId (i : Nat) (id : List Char)
  /-- `f.getPower() = n` (src/Poly.hpp:20). -/
  | setPower (i : Nat) (n : BigInt)
  /-- `f = g`. -/
  | copyFactor (i j : Nat)
  /-- `t = Term(f)` (src/Poly.hpp:59). -/
  | term (i j : Nat)
  /-- `t = Term(c, f)` (src/Poly.hpp:60). -/
  | termCoeff (i : Nat) (c : Frac) (j : Nat)
  /-- `t = Term(c, {f, g, ...})` (src/Poly.hpp:61, 85-89). -/
  | termFactors (i : Nat) (c : Frac) (js : List Nat)
  /-- `t.coefficient() = c` (src/Poly.hpp:64). -/
  | setCoeff (i : Nat) (c : Frac)
  /-- `t.negate()` (src/Poly.hpp:65). -/
  | negate (i : Nat)
  /-- `t.appendFactor(f)` (src/Poly.hpp:66, 92-101). -/
  | appendFactor (i j : Nat)
  /-- `t = u`. -/
  | copyTerm (i j : Nat)
  /-- `t = f * g` (src/Poly.hpp:159-163). -/
  | mulFactors (i j k : Nat)
  /-- `t = u * f` (src/Poly.hpp:165-169). -/
  | mulFactor (i j k : Nat)
  /-- `t = f * u` (src/Poly.hpp:71). -/
  | factorMul (i j k : Nat)
  /-- `t = u * v` (src/Poly.hpp:171-178). -/
  | mul (i j k : Nat)
  /-- `t *= f` (src/Poly.hpp:180-182). -/
  | mulAssignFactor (i j : Nat)
  /-- `t *= u` (src/Poly.hpp:184-189). -/
  | mulAssign (i j : Nat)
  /-- `p = Poly(f)` (src/Poly.hpp:197). -/
  | poly (i j : Nat)
  /-- `p = Poly(t)` (src/Poly.hpp:198). -/
  | polyTerm (i j : Nat)
  /-- `p = Poly({f, g, ...})` (src/Poly.hpp:199, 219-222). -/
  | polyFactors (i : Nat) (js : List Nat)
  /-- `p = Poly({t, u, ...})` (src/Poly.hpp:200, 224-227). -/
  | polyTerms (i : Nat) (js : List Nat)
  /-- `p.appendTerm(t)` (src/Poly.hpp:202, 241-249). -/
  | appendTerm (i j : Nat)
  /-- `p.appendTerms({t, u, ...})` (src/Poly.hpp:203, 251-254). -/
  | appendTerms (i : Nat) (js : List Nat)
  /-- `p = q`. -/
  | copyPoly (i j : Nat)
  /-- `p = f + g` (src/Poly.hpp:256-261). -/
  | addFactors (i j k : Nat)
  /-- `p = f - g` (src/Poly.hpp:273-277). -/
  | subFactors (i j k : Nat)
  /-- `p = t + u` (src/Poly.hpp:263-267). -/
  | addTerms (i j k : Nat)
  /-- `p = t - u` (src/Poly.hpp:279-285). -/
  | subTerms (i j k : Nat)
  /-- `p += f` (src/Poly.hpp:269-271). -/
  | addAssign (i j : Nat)
  /-- `p -= f` (src/Poly.hpp:287-289). -/
  | subAssign (i j : Nat)

namespace PStore

/-- Assignment to a `Factor` variable (implicit copy assignment of src/Poly.hpp:15-29). -/
def setF (σ : PStore) (i : Nat) (f : Factor) : PStore := { σ with factor := Function.update σ.factor i f }

/-- Assignment to a `Term` variable (implicit copy assignment of src/Poly.hpp:54-83). -/
def setT (σ : PStore) (i : Nat) (t : Term) : PStore := { σ with term := Function.update σ.term i t }

/-- Assignment to a `Poly` variable (implicit copy assignment of src/Poly.hpp:192-216). -/
def setP (σ : PStore) (i : Nat) (p : Poly) : PStore := { σ with poly := Function.update σ.poly i p }

/-- `t = e` where computing `e` may fail. -/
def getsT (σ : PStore) (i : Nat) (r : Res Term) : Res PStore := do let t ← r; return σ.setT i t

/-- `p = e` where computing `e` may fail. -/
def getsP (σ : PStore) (i : Nat) (r : Res Poly) : Res PStore := do let p ← r; return σ.setP i p

end PStore

/-- One statement (the lines of src/Poly.hpp cited at the constructors of `PStmt`). `t *= t` runs the function on one object
(src/Poly.hpp:184-189). -/
def PStmt.exec (σ : PStore) : PStmt → Res PStore
  | .factor i id n => return σ.setF i ⟨id, n⟩
  | .setId i id => return σ.setF i { σ.factor i with id := id }
  | .setPower i n => return σ.setF i { σ.factor i with power := n }
  | .copyFactor i j => return σ.setF i (σ.factor j)
  | .term i j => σ.getsT i (Term.ofFactor (σ.factor j))
  | .termCoeff i c j => σ.getsT i (Term.ofCoeff c (σ.factor j))
  | .termFactors i c js => σ.getsT i (Term.ofFactors c (js.map σ.factor))
  | .setCoeff i c => return σ.setT i { σ.term i with coeff := c }
  | .negate i => σ.getsT i (σ.term i).negate
  | .appendFactor i j => σ.getsT i ((σ.term i).appendFactor (σ.factor j))
  | .copyTerm i j => return σ.setT i (σ.term j)
  | .mulFactors i j k => σ.getsT i (Term.mulFactors (σ.factor j) (σ.factor k))
  | .mulFactor i j k => σ.getsT i ((σ.term j).mulFactor (σ.factor k))
  | .factorMul i j k => σ.getsT i (Term.factorMul (σ.factor j) (σ.term k))
  | .mul i j k => σ.getsT i ((σ.term j).mul (σ.term k))
  | .mulAssignFactor i j => σ.getsT i ((σ.term i).mulAssignFactor (σ.factor j))
  | .mulAssign i j => σ.getsT i (if i = j then (σ.term i).mulAssignSelf else (σ.term i).mulAssign (σ.term j))
  | .poly i j => σ.getsP i (Poly.ofFactor (σ.factor j))
  | .polyTerm i j => return σ.setP i (Poly.ofTerm (σ.term j))
  | .polyFactors i js => σ.getsP i (Poly.ofFactors (js.map σ.factor))
  | .polyTerms i js => σ.getsP i (Poly.ofTerms (js.map σ.term))
  | .appendTerm i j => σ.getsP i ((σ.poly i).appendTerm (σ.term j))
  | .appendTerms i js => σ.getsP i ((σ.poly i).appendTerms (js.map σ.term))
  | .copyPoly i j => return σ.setP i (σ.poly j)
  | .addFactors i j k => σ.getsP i (Poly.addFactors (σ.factor j) (σ.factor k))
  | .subFactors i j k => σ.getsP i (Poly.subFactors (σ.factor j) (σ.factor k))
  | .addTerms i j k => σ.getsP i (Poly.addTerms (σ.term j) (σ.term k))
  | .subTerms i j k => σ.getsP i (Poly.subTerms (σ.term j) (σ.term k))
  | .addAssign i j => σ.getsP i ((σ.poly i).addAssign (σ.factor j))
  | .subAssign i j => σ.getsP i ((σ.poly i).subAssign (σ.factor j))

/-- A history of statements. -/
def PStmt.run : List PStmt → PStore → Res PStore
  | [], σ => return σ
  | s :: r, σ => do
    let σ ← s.exec σ
    PStmt.run r σ

end CppMaths
