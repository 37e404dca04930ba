import Verif.Model.PolyProg
import Verif.Model.FracRelease
/-!
# `Factor`, `Term` and `Poly` compiled without assertions

src/Poly.hpp has no assertions of its own, but it uses the operators of `Int` and `Frac`. These are the functions of `Verif/Model/Poly.lean` and the
programs of `Verif/Model/PolyProg.lean` on top of the `Int` of `Verif/Model/Release.lean` and the `Frac` of `Verif/Model/FracRelease.lean`. A function
that changes an object comes with the state in which an exception leaves the object. Comparing and printing reach no assertion and are those of
`Verif/Model/Poly.lean`.
-/

namespace CppMaths
open BigInt Frac

namespace Term

/-- A function that changes the coefficient of `t` in place (src/Poly.hpp:64-65, 176, 188, 246). -/
def atCoeff (t : Term) : MRes Frac Frac → MRes Term Term
  | .ok c => .ok { t with coeff := c }
  | .error (e, c) => .error (e, { t with coeff := c })

/-- `Term::appendFactor` (src/Poly.hpp:92-101), for an `x` that is not an entry of this term. -/
def appendFactorU (t : Term) (x : Factor) : MRes Term Term :=
  match t.factors.find x.id with
  | none => .ok { t with factors := t.factors.insert x.id x }
  | some f =>
    match f.power.addAssignU x.power with
    | .ok p => .ok { t with factors := t.factors.setPower x.id p }
    | .error (e, p) => .error (e, { t with factors := t.factors.setPower x.id p })

/-- `appendFactor` for every element of a sequence: the loops at src/Poly.hpp:86-88, 174-175 and 186-187. -/
def appendFactorsU (t : Term) : List Factor → MRes Term Term
  | [] => .ok t
  | x :: r => do
    let t ← t.appendFactorU x
    t.appendFactorsU r

/-- `Term::Term(const Factor&)` (src/Poly.hpp:59). -/
def ofFactorR (x : Factor) : Res Term := do
  let c ← Frac.ofI32 1
  drop (appendFactorU ⟨c, []⟩ x)

/-- `Term::Term(const Frac&, const Factor&)` (src/Poly.hpp:60). -/
def ofCoeffR (c : Frac) (x : Factor) : Res Term := drop (appendFactorU ⟨c, []⟩ x)

/-- `Term::Term(const Frac&, const vector<Factor>&)` (src/Poly.hpp:61, 85-89). -/
def ofFactorsR (c : Frac) (xs : List Factor) : Res Term := drop (appendFactorsU ⟨c, []⟩ xs)

/-- `Term::negate` (src/Poly.hpp:65); see `negate`. -/
def negateU (t : Term) : MRes Term Term := do
  let m ← at' t (BigInt.ofInt64 (-1))
  t.atCoeff (t.coeff.mulAssignIntU m)

/-- `operator*(Factor, Factor)` (src/Poly.hpp:159-163). -/
def mulFactorsR (x y : Factor) : Res Term := do
  let t ← ofFactorR x
  drop (t.appendFactorU y)

/-- `operator*(Term, Factor)` (src/Poly.hpp:165-169). -/
def mulFactorR (x : Term) (y : Factor) : Res Term := drop (x.appendFactorU y)

/-- `operator*(Factor, Term)` (src/Poly.hpp:71). -/
def factorMulR (x : Factor) (y : Term) : Res Term := mulFactorR y x

/-- `operator*=(Term, Term)` for different objects (src/Poly.hpp:184-189): the factors come before the coefficient. -/
def mulAssignU (x y : Term) : MRes Term Term := do
  let x ← x.appendFactorsU (y.factors.map (·.2))
  x.atCoeff (x.coeff.mulAssignU y.coeff)

/-- `operator*(Term, Term)` (src/Poly.hpp:171-178). The object that is changed is local. -/
def mulR (x y : Term) : Res Term := do
  let t ← drop (x.appendFactorsU (y.factors.map (·.2)))
  drop (t.atCoeff (t.coeff.mulAssignU y.coeff))

/-- `operator*=(Term, Factor)` (src/Poly.hpp:180-182). -/
def mulAssignFactorU (x : Term) (y : Factor) : MRes Term Term := x.appendFactorU y

/-- The loop of `x *= x` (src/Poly.hpp:186-187); see `squareLoop`. In `power += power` both operands have the same sign, so `Int::subtract` with its
assertions is not reached, and the function is that of `Verif/Model/IntMem.lean`. -/
def squareLoopU : Nat → Nat → Term → MRes Term Term
  | 0, _, x => .ok x
  | n + 1, i, x =>
    match x.factors[i]? with
    | none => .error (.ub, x)
    | some (k, f) =>
      if k = f.id ∧ x.factors.find f.id = some f then do
        let m ← at' x (BigInt.addAssignMem (fun _ => f.power) 0 0)
        squareLoopU n (i + 1) { x with factors := x.factors.setPower f.id (m 0) }
      else .error (.ub, x)

/-- `x *= x` (src/Poly.hpp:184-189): both arguments are the same object. -/
def mulAssignSelfU (x : Term) : MRes Term Term := do
  let x ← squareLoopU x.factors.length 0 x
  match Frac.mulAssignMemU (fun _ => x.coeff) 0 0 with
  | .ok m => .ok { x with coeff := m 0 }
  | .error (e, m) => .error (e, { x with coeff := m 0 })

end Term

namespace Poly

/-- A function that works on the rest of a list, behind the element `t`. -/
def behindTerm (t : Term) : MRes (List Term) (List Term) → MRes (List Term) (List Term)
  | .ok r => .ok (t :: r)
  | .error (e, r) => .error (e, t :: r)

/-- A function that changes the coefficient of the term at the iterator (src/Poly.hpp:246). -/
def atHead (t : Term) (r : List Term) : MRes Frac Frac → MRes (List Term) (List Term)
  | .ok c => .ok ({ t with coeff := c } :: r)
  | .error (e, c) => .error (e, { t with coeff := c } :: r)

/-- A function that changes the list of terms of a polynomial in place. -/
def withTerms : MRes (List Term) (List Term) → MRes Poly Poly
  | .ok l => .ok ⟨l⟩
  | .error (e, l) => .error (e, ⟨l⟩)

/-- `Poly::appendTerm` (src/Poly.hpp:241-249) on the list from the iterator `it` on; see `appendLoop`. -/
def appendLoopU (x : Term) : List Term → MRes (List Term) (List Term)
  | [] => .error (.ub, [])
  | t :: r => do
    let l ← at' (t :: r) (Term.lt t x)
    if l then behindTerm t (appendLoopU x r)
    else do
      let e ← at' (t :: r) (Term.eq t x)
      if e then atHead t r (t.coeff.addAssignU x.coeff)
      else .ok (x :: t :: r)

/-- `Poly::appendTerm` (src/Poly.hpp:241-249). -/
def appendTermU (p : Poly) (x : Term) : MRes Poly Poly := withTerms (appendLoopU x p.terms)

/-- `appendTerm` for every element of a vector (src/Poly.hpp:225-226). -/
def appendAllU (p : Poly) : List Term → MRes Poly Poly
  | [] => .ok p
  | x :: r => do
    let p ← p.appendTermU x
    p.appendAllU r

/-- `Poly::Poly(const Factor&)` (src/Poly.hpp:197). -/
def ofFactorR (x : Factor) : Res Poly := do
  let t ← Term.ofFactorR x
  return ⟨[t]⟩

/-- `Poly::Poly(const vector<Term>&)` (src/Poly.hpp:224-227). -/
def ofTermsR (xs : List Term) : Res Poly := drop (appendAllU ⟨[]⟩ xs)

/-- The loop of `Poly::Poly(const vector<Factor>&)` (src/Poly.hpp:220-221). -/
def appendFactorTermsR (p : Poly) : List Factor → Res Poly
  | [] => return p
  | x :: r => do
    let t ← Term.ofFactorR x
    let p ← drop (p.appendTermU t)
    p.appendFactorTermsR r

/-- `Poly::Poly(const vector<Factor>&)` (src/Poly.hpp:219-222). -/
def ofFactorsR (xs : List Factor) : Res Poly := appendFactorTermsR ⟨[]⟩ xs

/-- `operator+(Factor, Factor)` (src/Poly.hpp:256-261). -/
def addFactorsR (x y : Factor) : Res Poly := do
  let tx ← Term.ofFactorR x
  let ty ← Term.ofFactorR y
  drop (appendTermU (ofTerm tx) ty)

/-- `operator+(Term, Term)` (src/Poly.hpp:263-267). -/
def addTermsR (x y : Term) : Res Poly := drop (appendTermU (ofTerm x) y)

/-- `Poly::operator+=(Factor)` (src/Poly.hpp:269-271). -/
def addAssignU (p : Poly) (y : Factor) : MRes Poly Poly := do
  let t ← at' p (Term.ofFactorR y)
  p.appendTermU t

/-- `operator-(Factor, Factor)` (src/Poly.hpp:273-277). -/
def subFactorsR (x y : Factor) : Res Poly := do
  let p ← ofFactorR x
  let m ← Frac.ofI32 (-1)
  let ty ← Term.ofCoeffR m y
  drop (p.appendTermU ty)

/-- `operator-(Term, Term)` (src/Poly.hpp:279-285). -/
def subTermsR (x y : Term) : Res Poly := do
  let ty ← drop y.negateU
  drop (appendTermU (ofTerm x) ty)

/-- `Poly::operator-=(Factor)` (src/Poly.hpp:287-289). -/
def subAssignU (p : Poly) (y : Factor) : MRes Poly Poly := do
  let m ← at' p (Frac.ofI32 (-1))
  let ty ← at' p (Term.ofCoeffR m y)
  p.appendTermU ty

end Poly

namespace PStore

/-- A function that changes a `Term` variable in place. -/
def inT (σ : PStore) (i : Nat) : MRes Term Term → MRes PStore PStore
  | .ok t => .ok (σ.setT i t)
  | .error (e, t) => .error (e, σ.setT i t)

/-- A function that changes a `Poly` variable in place. -/
def inP (σ : PStore) (i : Nat) : MRes Poly Poly → MRes PStore PStore
  | .ok p => .ok (σ.setP i p)
  | .error (e, p) => .error (e, σ.setP i p)

end PStore

/-- One statement (the lines of src/Poly.hpp cited at the constructors of `PStmt`); see `PStmt.exec`. A statement that assigns a new value leaves the variable
alone if computing the value fails. -/
def PStmt.execU (σ : PStore) : PStmt → MRes PStore PStore
  | .factor i id n => .ok (σ.setF i ⟨id, n⟩)
  | .setId i id => .ok (σ.setF i { σ.factor i with id := id })
  | .setPower i n => .ok (σ.setF i { σ.factor i with power := n })
  | .copyFactor i j => .ok (σ.setF i (σ.factor j))
  | .term i j => at' σ (σ.getsT i (Term.ofFactorR (σ.factor j)))
  | .termCoeff i c j => at' σ (σ.getsT i (Term.ofCoeffR c (σ.factor j)))
  | .termFactors i c js => at' σ (σ.getsT i (Term.ofFactorsR c (js.map σ.factor)))
  | .setCoeff i c => .ok (σ.setT i { σ.term i with coeff := c })
  | .negate i => σ.inT i (σ.term i).negateU
  | .appendFactor i j => σ.inT i ((σ.term i).appendFactorU (σ.factor j))
  | .copyTerm i j => .ok (σ.setT i (σ.term j))
  | .mulFactors i j k => at' σ (σ.getsT i (Term.mulFactorsR (σ.factor j) (σ.factor k)))
  | .mulFactor i j k => at' σ (σ.getsT i ((σ.term j).mulFactorR (σ.factor k)))
  | .factorMul i j k => at' σ (σ.getsT i (Term.factorMulR (σ.factor j) (σ.term k)))
  | .mul i j k => at' σ (σ.getsT i ((σ.term j).mulR (σ.term k)))
  | .mulAssignFactor i j => σ.inT i ((σ.term i).mulAssignFactorU (σ.factor j))
  | .mulAssign i j => σ.inT i (if i = j then (σ.term i).mulAssignSelfU else (σ.term i).mulAssignU (σ.term j))
  | .poly i j => at' σ (σ.getsP i (Poly.ofFactorR (σ.factor j)))
  | .polyTerm i j => .ok (σ.setP i (Poly.ofTerm (σ.term j)))
  | .polyFactors i js => at' σ (σ.getsP i (Poly.ofFactorsR (js.map σ.factor)))
  | .polyTerms i js => at' σ (σ.getsP i (Poly.ofTermsR (js.map σ.term)))
  | .appendTerm i j => σ.inP i ((σ.poly i).appendTermU (σ.term j))
  | .appendTerms i js => at' σ (σ.getsP i ((σ.poly i).appendTerms (js.map σ.term)))
  | .copyPoly i j => .ok (σ.setP i (σ.poly j))
  | .addFactors i j k => at' σ (σ.getsP i (Poly.addFactorsR (σ.factor j) (σ.factor k)))
  | .subFactors i j k => at' σ (σ.getsP i (Poly.subFactorsR (σ.factor j) (σ.factor k)))
  | .addTerms i j k => at' σ (σ.getsP i (Poly.addTermsR (σ.term j) (σ.term k)))
  | .subTerms i j k => at' σ (σ.getsP i (Poly.subTermsR (σ.term j) (σ.term k)))
  | .addAssign i j => σ.inP i ((σ.poly i).addAssignU (σ.factor j))
  | .subAssign i j => σ.inP i ((σ.poly i).subAssignU (σ.factor j))

/-- A history of statements; an exception ends it. -/
def PStmt.runU : List PStmt → PStore → MRes PStore PStore
  | [], σ => .ok σ
  | s :: r, σ => do
    let σ ← s.execU σ
    PStmt.runU r σ

/-- A history in which each statement stands in `try { .. } catch (const std::out_of_range&) { }`: the program goes on with the objects as the statement has left them. -/
def PStmt.tryAllR : List PStmt → PStore → Res PStore
  | [], σ => .ok σ
  | s :: r, σ =>
    match s.execU σ with
    | .ok σ => PStmt.tryAllR r σ
    | .error (.outOfRange, σ) => PStmt.tryAllR r σ
    | .error (e, _) => .error e

end CppMaths
