import Verif.Model.PolyRelease
import Verif.Spec.PolyProg
import Verif.Spec.Release
/-!
# What polynomials do without assertions
-/

namespace CppMaths

/-- The same outcome with `out_of_range` in place of a failed assertion. -/
def throwing {α : Type} : Res α → Res α
  | .error .assertion => .error .outOfRange
  | r => r

/-- The statements that change an object in place and compute with coefficients. -/
def PStmt.InPlace : PStmt → Prop
  | .negate _ | .mulAssign .. | .appendTerm .. | .addAssign .. | .subAssign .. => True
  | _ => False

/-- All variables but the term number `i` are the same. -/
def PStore.SameButTerm (i : Nat) (σ σ' : PStore) : Prop :=
  σ'.factor = σ.factor ∧ σ'.poly = σ.poly ∧ ∀ j, j ≠ i → σ'.term j = σ.term j

/-- All variables but the polynomial number `i` are the same. -/
def PStore.SameButPoly (i : Nat) (σ σ' : PStore) : Prop :=
  σ'.factor = σ.factor ∧ σ'.term = σ.term ∧ ∀ j, j ≠ i → σ'.poly j = σ.poly j

/-- The same terms but for one, whose coefficient may have changed, and whose variables and powers are those of `x`. -/
def Poly.SameButCoeff (x : Term) (p p' : Poly) : Prop :=
  ∃ a t c b, p.terms = a ++ t :: b ∧ p'.terms = a ++ { t with coeff := c } :: b ∧ c.PartsOK ∧ t.factors = x.factors

/-- `ss'` are the statements of `ss` that a program carries out which passes over exactly those that fail an assertion in the other build, each at the state that
the ones before it have led to, from `σ` to `σ'`. -/
inductive PStmt.Passes : List PStmt → List PStmt → PStore → PStore → Prop
  | nil (σ : PStore) : PStmt.Passes [] [] σ σ
  | done {s : PStmt} {ss ss' : List PStmt} {σ σ1 σ' : PStore} : s.exec σ = .ok σ1 → PStmt.Passes ss ss' σ1 σ' → PStmt.Passes (s :: ss) (s :: ss') σ σ'
  | passed {s : PStmt} {ss ss' : List PStmt} {σ σ' : PStore} : s.exec σ = .error .assertion → PStmt.Passes ss ss' σ σ' → PStmt.Passes (s :: ss) ss' σ σ'

end CppMaths
