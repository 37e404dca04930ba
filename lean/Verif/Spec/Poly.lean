import Verif.Model.Poly
import Verif.Spec.Linear
import Verif.Spec.Text
/-!
# Specification vocabulary for `Factor`, `Term` and `Poly`
-/

namespace CppMaths
open BigInt

/-- The value of `id ^ power` at a point. -/
def Factor.value (ρ : List Char → ℚ) (f : Factor) : ℚ := ρ f.id ^ f.power.val

namespace Term

/-- `t` has the variable `v` with power `e`. -/
def Has (t : Term) (v : List Char) (e : ℤ) : Prop := ∃ f, (v, f) ∈ t.factors ∧ f.power.val = e

/-- The exponent of the variable `v` in `t`, zero if it does not occur. -/
def expo (t : Term) (v : List Char) : ℤ := ((t.factors.filter (·.1 = v)).map (·.2.power.val)).sum

/-- The product of the powers of variables of `t` at a point. -/
def mono (ρ : List Char → ℚ) (t : Term) : ℚ := (t.factors.map fun p => ρ p.1 ^ p.2.power.val).prod

/-- The value of a term at a point. -/
def value (ρ : List Char → ℚ) (t : Term) : ℚ := t.coeff.value * t.mono ρ

/-- What every term satisfies: coefficient in lowest terms, one entry per variable, in ascending order. -/
structure WF (t : Term) : Prop where
  coeff : t.coeff.Valid
  sorted : t.factors.Pairwise (fun p q => p.1 < q.1)
  keys : ∀ p ∈ t.factors, p.1 = p.2.id ∧ Canon p.2.power

/-- `x < y` returns true. -/
def Less (x y : Term) : Prop := lt x y = .ok true

/-- `x == y` returns true. -/
def Same (x y : Term) : Prop := eq x y = .ok true

end Term

namespace Poly

/-- The value of a polynomial at a point. -/
def value (ρ : List Char → ℚ) (p : Poly) : ℚ := (p.terms.map (Term.value ρ)).sum

/-- Every term is well-formed. -/
def WF (p : Poly) : Prop := ∀ t ∈ p.terms, t.WF

/-- Every term is `<` every later term. -/
def Ordered (p : Poly) : Prop := p.terms.Pairwise Term.Less

/-- No two terms have the same variables and powers. -/
def OnePerMonomial (p : Poly) : Prop := p.terms.Pairwise fun t u => ¬∀ v e, t.Has v e ↔ u.Has v e

end Poly

/-- `v` or `v^e`. -/
def powerText (v : List Char) (e : ℤ) : List Char := if e = 1 then v else v ++ '^' :: numeral e

/-- `(a/b)`. -/
def ratioText (q : ℚ) : List Char := '(' :: numeral q.num ++ '/' :: numeral q.den ++ [')']

/-- The text of a term: 0 if the coefficient is 0, otherwise the coefficient (left out if it is 1 and something follows) and
the powers of variables, joined by ` * `. -/
def termText (c : ℚ) (vs : List (List Char × ℤ)) : List Char :=
  if c = 0 then ['0']
  else
    let parts := (if c = 1 then [] else [ratioText c]) ++ vs.map fun p => powerText p.1 p.2
    if parts = [] then ['1'] else List.intercalate " * ".toList parts

end CppMaths
