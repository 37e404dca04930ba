import Verif.Spec.IntAlloc
import Verif.Spec.PolyProg
/-!
# What programs with factors, terms and polynomials may do when memory runs out
-/

namespace CppMaths

/-- A variable of a program. -/
inductive PVar where
  | factor (i : Nat)
  | term (i : Nat)
  | poly (i : Nat)
deriving DecidableEq

/-- The variable that a statement assigns or changes. -/
def PStmt.target : PStmt → PVar
  | .factor i .. | .setId i .. | .setPower i .. | .copyFactor i .. => .factor i
  | .term i .. | .termCoeff i .. | .termFactors i .. | .setCoeff i .. | .negate i | .appendFactor i .. | .copyTerm i ..
  | .mulFactors i .. | .mulFactor i .. | .factorMul i .. | .mul i .. | .mulAssignFactor i .. | .mulAssign i .. => .term i
  | .poly i .. | .polyTerm i .. | .polyFactors i .. | .polyTerms i .. | .appendTerm i .. | .appendTerms i .. | .copyPoly i ..
  | .addFactors i .. | .subFactors i .. | .addTerms i .. | .subTerms i .. | .addAssign i .. | .subAssign i .. => .poly i

/-- All variables but `v` hold the same. -/
def PStore.SameExcept (v : PVar) (σ σ' : PStore) : Prop :=
  (∀ j, v ≠ .factor j → σ'.factor j = σ.factor j) ∧ (∀ j, v ≠ .term j → σ'.term j = σ.term j) ∧ (∀ j, v ≠ .poly j → σ'.poly j = σ.poly j)

/-- The statement builds a new value from other variables than the one it assigns; or it is `p.appendTerms(...)`. -/
def PStmt.Fresh : PStmt → Prop
  | .factor .. | .term .. | .termCoeff .. | .termFactors .. | .mulFactors .. | .poly .. | .polyTerm .. | .polyFactors .. | .polyTerms ..
  | .addFactors .. | .subFactors .. | .addTerms .. | .subTerms .. | .appendTerms .. => True
  | .copyFactor i j | .copyTerm i j | .copyPoly i j | .mulFactor i j _ | .factorMul i _ j => i ≠ j
  | .mul i j k => i ≠ j ∧ i ≠ k
  | _ => False

end CppMaths
