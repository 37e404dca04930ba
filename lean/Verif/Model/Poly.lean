import Verif.Model.FracMem
import Mathlib.Data.List.Lex
import Mathlib.Data.Char
/-!
# Model of `Factor`, `Term` and `Poly` (src/Poly.hpp)

Simplifications.
* An identifier (`std::string`) is a list of characters standing for bytes; `std::string::operator<` is the lexicographic
  order, as is `<` on `List Char`.
* A `std::map<string, Factor>` is the list of its (key, value) pairs in ascending order of keys.
* A `std::list<Term>` is a list.
* A failure inside a mutating function is modelled without the state it leaves behind.
-/

namespace CppMaths

/-- `class Factor` (src/Poly.hpp:15-29): `id ^ power`. -/
structure Factor where
  id : List Char
  power : BigInt
deriving DecidableEq, Repr

/-- `operator<(Factor, Factor)` (src/Poly.hpp:38-44). -/
def Factor.lt (x y : Factor) : Res Bool :=
  if x.id < y.id then return true
  else if x.id = y.id then BigInt.lt x.power y.power
  else return false

/-- `operator==(Factor, Factor)` (src/Poly.hpp:46-48). -/
def Factor.eq (x y : Factor) : Res Bool :=
  if x.id = y.id then BigInt.eq x.power y.power else return false

/-- `operator!=(Factor, Factor)` (src/Poly.hpp:24). -/
def Factor.ne (x y : Factor) : Res Bool := do let b ← Factor.eq x y; return !b

/-- `operator<<(ostream, Factor)` (src/Poly.hpp:31-36). -/
def Factor.print (x : Factor) : Res (List Char) := do
  let one ← x.power.equalsInt32 1
  if one then return x.id else return x.id ++ ['^'] ++ BigInt.print x.power

/-- `map<string, Factor>` (src/Poly.hpp:55-56, 82). -/
abbrev FactorMap := List (List Char × Factor)

/-- `factors.find(k)` (src/Poly.hpp:93); `none` is `end()`. -/
def FactorMap.find (k : List Char) : FactorMap → Option Factor
  | [] => none
  | (k', f) :: r => if k' = k then some f else find k r

/-- `factors.insert(value_type(k, f))` for a key that is not in the map (src/Poly.hpp:97). -/
def FactorMap.insert (k : List Char) (f : Factor) : FactorMap → FactorMap
  | [] => [(k, f)]
  | (k', f') :: r => if k < k' then (k, f) :: (k', f') :: r else (k', f') :: insert k f r

/-- `it->second.getPower() = p` for the iterator `it` at the key `k` (src/Poly.hpp:99). -/
def FactorMap.setPower (k : List Char) (p : BigInt) : FactorMap → FactorMap
  | [] => []
  | (k', f) :: r => if k' = k then (k', { f with power := p }) :: r else (k', f) :: setPower k p r

/-- `class Term` (src/Poly.hpp:53-83). -/
structure Term where
  coeff : Frac
  factors : FactorMap
deriving DecidableEq, Repr

namespace Term

/-- `Term::appendFactor` (src/Poly.hpp:92-101), for an `x` that is not an entry of this term. -/
def appendFactor (t : Term) (x : Factor) : Res Term :=
  match t.factors.find x.id with
  | none => return { t with factors := t.factors.insert x.id x }
  | some f => do
    let p ← f.power.addAssign x.power
    return { t with factors := t.factors.setPower x.id p }

/-- `appendFactor` for every element of a sequence: the loops at src/Poly.hpp:86-88, 174-175 and 186-187. -/
def appendFactors (t : Term) : List Factor → Res Term
  | [] => return t
  | x :: r => do
    let t ← t.appendFactor x
    t.appendFactors r

/-- `Term::Term(const Factor&)` (src/Poly.hpp:59). -/
def ofFactor (x : Factor) : Res Term := do
  let c ← Frac.ofI32 1
  appendFactor ⟨c, []⟩ x

/-- `Term::Term(const Frac&, const Factor&)` (src/Poly.hpp:60). -/
def ofCoeff (c : Frac) (x : Factor) : Res Term := appendFactor ⟨c, []⟩ x

/-- `Term::Term(const Frac&, const vector<Factor>&)` (src/Poly.hpp:61, 85-89). -/
def ofFactors (c : Frac) (xs : List Factor) : Res Term := appendFactors ⟨c, []⟩ xs

/-- `Term::negate` (src/Poly.hpp:65). The literal -1 becomes an `Int`: the constructor `Frac(int)` is explicit. -/
def negate (t : Term) : Res Term := do
  let m ← BigInt.ofInt64 (-1)
  let c ← Frac.drop (t.coeff.mulAssignInt m)
  return { t with coeff := c }

/-- `operator*(Factor, Factor)` (src/Poly.hpp:159-163). -/
def mulFactors (x y : Factor) : Res Term := do
  let t ← ofFactor x
  t.appendFactor y

/-- `operator*(Term, Factor)` (src/Poly.hpp:165-169). -/
def mulFactor (x : Term) (y : Factor) : Res Term := x.appendFactor y

/-- `operator*(Factor, Term)` (src/Poly.hpp:71). -/
def factorMul (x : Factor) (y : Term) : Res Term := mulFactor y x

/-- `operator*(Term, Term)` (src/Poly.hpp:171-178). -/
def mul (x y : Term) : Res Term := do
  let t ← x.appendFactors (y.factors.map (·.2))
  let c ← Frac.drop (t.coeff.mulAssign y.coeff)
  return { t with coeff := c }

/-- `operator*=(Term, Factor)` (src/Poly.hpp:180-182). -/
def mulAssignFactor (x : Term) (y : Factor) : Res Term := x.appendFactor y

/-- `operator*=(Term, Term)` for different objects (src/Poly.hpp:184-189). -/
def mulAssign (x y : Term) : Res Term := do
  let x ← x.appendFactors (y.factors.map (·.2))
  let c ← Frac.drop (x.coeff.mulAssign y.coeff)
  return { x with coeff := c }

/-- The loop of `x *= x` (src/Poly.hpp:186-187): the factor passed to `appendFactor` is the `i`-th entry of the very map that
is changed. If `find` ends at that entry then `power += power` has both operands the same object. `find` ending anywhere else
is counted as undefined behaviour, in order to prove that it does not happen. The first argument is the number of entries
not yet visited. -/
def squareLoop : Nat → Nat → Term → Res Term
  | 0, _, x => return x
  | n + 1, i, x =>
    match x.factors[i]? with
    | none => .error .ub
    | some (k, f) =>
      if k = f.id ∧ x.factors.find f.id = some f then do
        let m ← BigInt.addAssignMem (fun _ => f.power) 0 0
        squareLoop n (i + 1) { x with factors := x.factors.setPower f.id (m 0) }
      else .error .ub

/-- `x *= x` (src/Poly.hpp:184-189): both arguments are the same object. -/
def mulAssignSelf (x : Term) : Res Term := do
  let x ← squareLoop x.factors.length 0 x
  let m ← Frac.drop (Frac.mulAssignMem (fun _ => x.coeff) 0 0)
  return { x with coeff := m 0 }

/-- The loop of `operator<(Term, Term)` (src/Poly.hpp:138-141). -/
def ltLoop : FactorMap → FactorMap → Res Bool
  | (_, f) :: r, (_, g) :: s => do
    let b ← Factor.lt f g
    if b then return true else ltLoop r s
  | _, _ => return false

/-- `operator<(Term, Term)` (src/Poly.hpp:129-144). -/
def lt (x y : Term) : Res Bool :=
  if x.factors.length < y.factors.length then return true else ltLoop x.factors y.factors

/-- The loop of `operator==(Term, Term)` (src/Poly.hpp:153-156). -/
def eqLoop : FactorMap → FactorMap → Res Bool
  | (_, f) :: r, (_, g) :: s => do
    let b ← Factor.ne f g
    if b then return false else eqLoop r s
  | _, _ => return true

/-- `operator==(Term, Term)` (src/Poly.hpp:147-157). -/
def eq (x y : Term) : Res Bool :=
  if x.factors.length ≠ y.factors.length then return false else eqLoop x.factors y.factors

/-- The loops of `operator<<(ostream, Term)` (src/Poly.hpp:115-116 and 119-120). -/
def printRest : FactorMap → Res (List Char)
  | [] => return []
  | (_, f) :: r => do
    let a ← f.print
    let b ← printRest r
    return " * ".toList ++ a ++ b

/-- `operator<<(ostream, Term)` (src/Poly.hpp:103-123), with `FRAC_ZERO`, `FRAC_ONE` (src/Poly.hpp:50-51). -/
def print (t : Term) : Res (List Char) := do
  let zero ← Frac.ofI32 0
  let one ← Frac.ofI32 1
  let z ← Frac.eq t.coeff zero
  if z then return ['0']
  else
    let o ← Frac.eq t.coeff one
    match t.factors with
    | [] => if o then return ['1'] else return Frac.print t.coeff
    | (k, f) :: r =>
      if o then do
        let a ← f.print
        let b ← printRest r
        return a ++ b
      else do
        let b ← printRest ((k, f) :: r)
        return Frac.print t.coeff ++ b

end Term

/-- `class Poly` (src/Poly.hpp:192-216). -/
structure Poly where
  terms : List Term
deriving DecidableEq, Repr

namespace Poly

/-- `Poly::appendTerm` (src/Poly.hpp:241-249) on the list from the iterator `it` on. At `end()` the loop stops, and
`*it` (line 245) dereferences the end iterator, which is undefined behaviour. -/
def appendLoop (x : Term) : List Term → Res (List Term)
  | [] => .error .ub
  | t :: r => do
    let l ← Term.lt t x
    if l then do
      let r' ← appendLoop x r
      return t :: r'
    else do
      let e ← Term.eq t x
      if e then do
        let c ← Frac.drop (t.coeff.addAssign x.coeff)
        return { t with coeff := c } :: r
      else return x :: t :: r

/-- `Poly::appendTerm` (src/Poly.hpp:241-249). -/
def appendTerm (p : Poly) (x : Term) : Res Poly := do
  let l ← appendLoop x p.terms
  return ⟨l⟩

/-- `appendTerm` for every element of a vector (src/Poly.hpp:225-226). -/
def appendAll (p : Poly) : List Term → Res Poly
  | [] => return p
  | x :: r => do
    let p ← p.appendTerm x
    p.appendAll r

/-- `Poly::Poly(const Factor&)` (src/Poly.hpp:197). -/
def ofFactor (x : Factor) : Res Poly := do
  let t ← Term.ofFactor x
  return ⟨[t]⟩

/-- `Poly::Poly(const Term&)` (src/Poly.hpp:198). -/
def ofTerm (x : Term) : Poly := ⟨[x]⟩

/-- `Poly::Poly(const vector<Term>&)` (src/Poly.hpp:224-227). -/
def ofTerms (xs : List Term) : Res Poly := appendAll ⟨[]⟩ xs

/-- The loop of `Poly::Poly(const vector<Factor>&)` (src/Poly.hpp:220-221). -/
def appendFactorTerms (p : Poly) : List Factor → Res Poly
  | [] => return p
  | x :: r => do
    let t ← Term.ofFactor x
    let p ← p.appendTerm t
    p.appendFactorTerms r

/-- `Poly::Poly(const vector<Factor>&)` (src/Poly.hpp:219-222). -/
def ofFactors (xs : List Factor) : Res Poly := appendFactorTerms ⟨[]⟩ xs

/-- `Poly::numTerms` (src/Poly.hpp:204). -/
def numTerms (p : Poly) : Nat := p.terms.length

/-- Is no later term `<` an earlier one? This is what `std::list::merge` requires of both lists ([list.ops], [alg.sorting]). -/
def noneLess (t : Term) : List Term → Res Bool
  | [] => return true
  | u :: r => do
    let b ← Term.lt u t
    if b then return false else noneLess t r

/-- Sorted in the sense of `std::list::merge`. -/
def sorted : List Term → Res Bool
  | [] => return true
  | t :: r => do
    let b ← noneLess t r
    if b then sorted r else return false

/-- `std::list::merge` (used at src/Poly.hpp:253) while the front of the first list is `t`: elements of the second list that
are `<` go in front of it, then `rest` goes on with the first list behind `t`. -/
def mergeAt (t : Term) (rest : List Term → Res (List Term)) : List Term → Res (List Term)
  | [] => do
    let r ← rest []
    return t :: r
  | u :: b => do
    let l ← Term.lt u t
    if l then do
      let r ← mergeAt t rest b
      return u :: r
    else do
      let r ← rest (u :: b)
      return t :: r

/-- `std::list::merge` (used at src/Poly.hpp:253): an element of the second list goes in front of an element of the first
list exactly if it is `<`. -/
def mergeLoop : List Term → List Term → Res (List Term)
  | [], b => return b
  | t :: a, b => mergeAt t (mergeLoop a) b

/-- `Poly::appendTerms` (src/Poly.hpp:251-254). Calling `merge` on lists that are not sorted is undefined behaviour. -/
def appendTerms (p : Poly) (x : List Term) : Res Poly := do
  let s ← sorted p.terms
  let s' ← sorted x
  if s && s' then do
    let l ← mergeLoop p.terms x
    return ⟨l⟩
  else .error .ub

/-- `operator+(Factor, Factor)` (src/Poly.hpp:256-261). -/
def addFactors (x y : Factor) : Res Poly := do
  let tx ← Term.ofFactor x
  let ty ← Term.ofFactor y
  appendTerm (ofTerm tx) ty

/-- `operator+(Term, Term)` (src/Poly.hpp:263-267). -/
def addTerms (x y : Term) : Res Poly := appendTerm (ofTerm x) y

/-- `Poly::operator+=(Factor)` (src/Poly.hpp:269-271). -/
def addAssign (p : Poly) (y : Factor) : Res Poly := do
  let t ← Term.ofFactor y
  p.appendTerm t

/-- `operator-(Factor, Factor)` (src/Poly.hpp:273-277). -/
def subFactors (x y : Factor) : Res Poly := do
  let p ← ofFactor x
  let m ← Frac.ofI32 (-1)
  let ty ← Term.ofCoeff m y
  p.appendTerm ty

/-- `operator-(Term, Term)` (src/Poly.hpp:279-285). -/
def subTerms (x y : Term) : Res Poly := do
  let ty ← y.negate
  appendTerm (ofTerm x) ty

/-- `Poly::operator-=(Factor)` (src/Poly.hpp:287-289). -/
def subAssign (p : Poly) (y : Factor) : Res Poly := do
  let m ← Frac.ofI32 (-1)
  let ty ← Term.ofCoeff m y
  p.appendTerm ty

/-- The loop of `operator<<(ostream, Poly)` (src/Poly.hpp:235-236). -/
def printRest : List Term → Res (List Char)
  | [] => return []
  | t :: r => do
    let a ← t.print
    let b ← printRest r
    return " + ".toList ++ a ++ b

/-- `operator<<(ostream, Poly)` (src/Poly.hpp:229-239). -/
def print (p : Poly) : Res (List Char) :=
  match p.terms with
  | [] => return []
  | t :: r => do
    let a ← t.print
    let b ← printRest r
    return a ++ b

end Poly
end CppMaths
