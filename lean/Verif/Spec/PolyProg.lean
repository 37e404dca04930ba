import Verif.Spec.Poly
import Verif.Model.PolyProg
import Mathlib.Algebra.MonoidAlgebra.Defs
/-!
# What a program with factors, terms and polynomials should compute: Laurent polynomials over ℚ

A monomial gives every variable an integer exponent; a Laurent polynomial is a finite sum of monomials with rational
coefficients (Mathlib's `AddMonoidAlgebra`).
-/

namespace CppMaths
open BigInt

/-- A monomial: the exponent of every variable, zero for all but finitely many. -/
abbrev Mono := List Char →₀ ℤ

/-- Laurent polynomials with rational coefficients. -/
abbrev Laurent := AddMonoidAlgebra ℚ Mono

/-- `v^e`. -/
noncomputable def vpow (v : List Char) (e : ℤ) : Mono := Finsupp.single v e

/-- The values of the variables of a program: a name and an exponent, a coefficient and a monomial, a Laurent polynomial. -/
structure PEnv where
  factor : Nat → List Char × ℤ
  term : Nat → ℚ × Mono
  poly : Nat → Laurent

namespace PEnv

/-- The monomial of a factor variable. -/
noncomputable def fm (E : PEnv) (i : Nat) : Mono := vpow (E.factor i).1 (E.factor i).2

/-- A factor variable as a polynomial. -/
noncomputable def fp (E : PEnv) (i : Nat) : Laurent := AddMonoidAlgebra.single (E.fm i) 1

/-- A term variable as a polynomial. -/
noncomputable def tp (E : PEnv) (i : Nat) : Laurent := AddMonoidAlgebra.single (E.term i).2 (E.term i).1

def setF (E : PEnv) (i : Nat) (x : List Char × ℤ) : PEnv := { E with factor := Function.update E.factor i x }
def setT (E : PEnv) (i : Nat) (x : ℚ × Mono) : PEnv := { E with term := Function.update E.term i x }
noncomputable def setP (E : PEnv) (i : Nat) (x : Laurent) : PEnv := { E with poly := Function.update E.poly i x }

end PEnv

/-- What one statement means. -/
noncomputable def PStmt.sem (E : PEnv) : PStmt → PEnv
  | .factor i id n => E.setF i (id, n.val)
  | .setId i id => E.setF i (id, (E.factor i).2)
  | .setPower i n => E.setF i ((E.factor i).1, n.val)
  | .copyFactor i j => E.setF i (E.factor j)
  | .term i j => E.setT i (1, E.fm j)
  | .termCoeff i c j => E.setT i (c.value, E.fm j)
  | .termFactors i c js => E.setT i (c.value, (js.map E.fm).sum)
  | .setCoeff i c => E.setT i (c.value, (E.term i).2)
  | .negate i => E.setT i (-(E.term i).1, (E.term i).2)
  | .appendFactor i j => E.setT i ((E.term i).1, (E.term i).2 + E.fm j)
  | .copyTerm i j => E.setT i (E.term j)
  | .mulFactors i j k => E.setT i (1, E.fm j + E.fm k)
  | .mulFactor i j k => E.setT i ((E.term j).1, (E.term j).2 + E.fm k)
  | .factorMul i j k => E.setT i ((E.term k).1, E.fm j + (E.term k).2)
  | .mul i j k => E.setT i ((E.term j).1 * (E.term k).1, (E.term j).2 + (E.term k).2)
  | .mulAssignFactor i j => E.setT i ((E.term i).1, (E.term i).2 + E.fm j)
  | .mulAssign i j => E.setT i ((E.term i).1 * (E.term j).1, (E.term i).2 + (E.term j).2)
  | .poly i j => E.setP i (E.fp j)
  | .polyTerm i j => E.setP i (E.tp j)
  | .polyFactors i js => E.setP i (js.map E.fp).sum
  | .polyTerms i js => E.setP i (js.map E.tp).sum
  | .appendTerm i j => E.setP i (E.poly i + E.tp j)
  | .appendTerms i js => E.setP i (E.poly i + (js.map E.tp).sum)
  | .copyPoly i j => E.setP i (E.poly j)
  | .addFactors i j k => E.setP i (E.fp j + E.fp k)
  | .subFactors i j k => E.setP i (E.fp j - E.fp k)
  | .addTerms i j k => E.setP i (E.tp j + E.tp k)
  | .subTerms i j k => E.setP i (E.tp j - E.tp k)
  | .addAssign i j => E.setP i (E.poly i + E.fp j)
  | .subAssign i j => E.setP i (E.poly i - E.fp j)

/-- What a history means. -/
noncomputable def PStmt.meaning (ss : List PStmt) (E : PEnv) : PEnv := ss.foldl PStmt.sem E

/-- The numbers a user hands to a statement are valid objects. -/
def PStmt.Legal : PStmt → Prop
  | .factor _ _ n | .setPower _ n => Canon n
  | .termCoeff _ c _ | .termFactors _ c _ | .setCoeff _ c => c.Valid
  | _ => True

/-- The statements that put a term into a polynomial that already exists, or build one from several terms. -/
def PStmt.Inserts : PStmt → Prop
  | .polyFactors .. | .polyTerms .. | .appendTerm .. | .appendTerms .. | .addFactors .. | .subFactors .. | .addTerms ..
  | .subTerms .. | .addAssign .. | .subAssign .. => True
  | _ => False

/-- The monomial of a term: the exponents of its entries added up. -/
noncomputable def Term.monomial (t : Term) : Mono := (t.factors.map fun p => vpow p.1 p.2.power.val).sum

/-- The Laurent polynomial of a polynomial: its terms added up. -/
noncomputable def Poly.laurent (p : Poly) : Laurent := (p.terms.map fun t => AddMonoidAlgebra.single t.monomial t.coeff.value).sum

/-- Every variable holds a valid object. -/
structure PStore.Good (σ : PStore) : Prop where
  factor : ∀ i, Canon (σ.factor i).power
  term : ∀ i, (σ.term i).WF
  poly : ∀ i, (σ.poly i).WF

/-- What the variables hold. -/
noncomputable def PStore.den (σ : PStore) : PEnv where
  factor i := ((σ.factor i).id, (σ.factor i).power.val)
  term i := ((σ.term i).coeff.value, (σ.term i).monomial)
  poly i := (σ.poly i).laurent

end CppMaths
