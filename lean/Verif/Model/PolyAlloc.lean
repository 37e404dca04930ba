import Verif.Model.FracAlloc
import Verif.Model.PolyProg
/-!
# `Factor`, `Term` and `Poly` when memory runs out (src/Poly.hpp)

On top of the `Int` and `Frac` of `Verif/Model/IntAlloc.lean` and `Verif/Model/FracAlloc.lean`, with the same conventions: an object that is changed in place is
the state of the computation; one question stands for all the requests that a copy or an insertion makes before it has any effect.

* Comparing strings, `Int`s, factors and terms needs no memory.
* `map::insert` and `list::insert` of one element have no effect if they throw ([container.requirements.general]).
* What the copy assignment of a string, map or list leaves when it throws is not specified by the standard; it is a parameter (`leftF`, `leftT`, `leftP`).
* `FRAC_ZERO` and `FRAC_ONE` are built before the program starts. Output is not treated.
-/

namespace CppMaths
open GM

/-- The answers of the free store, and what failed copy assignments of the classes of src/Poly.hpp leave, given the old and the new value. -/
structure PLuck extends ILuck where
  leftF : Nat → Factor → Factor → Factor
  leftT : Nat → Term → Term → Term
  leftP : Nat → Poly → Poly → Poly

/-- Change a part of an object in place. -/
def GM.on {σ τ : Type} (g : σ → τ) (p : σ → τ → σ) (m : GM τ Unit) : GM σ Unit := fun s =>
  match m (g s.1, s.2) with
  | (r, (v, n)) => (r, (p s.1 v, n))

/-- A copy assignment that leaves what `left` says if it fails. -/
def GM.assignBy {σ : Type} (L : ILuck) (left : Nat → σ → σ → σ) (v : σ) : GM σ Unit := fun s =>
  if L.refuse s.2 then (.error .badAlloc, (left s.2 s.1 v, s.2 + 1)) else (.ok (), (v, s.2 + 1))

/-- A copy of an object, or a returned one (copied unless the copy is elided). -/
def GM.copyA {α : Type} (L : ILuck) (x : α) : AM α := do
  ask L
  return x

namespace Term
variable (L : ILuck)

/-- Change the coefficient in place. -/
def onCoeff (m : GM Frac Unit) : GM Term Unit := GM.on (·.coeff) (fun t c => { t with coeff := c }) m

/-- Change the power of the entry with the key `k` in place; `f` is the factor there. -/
def onPower (k : List Char) (f : Factor) (m : GM BigInt Unit) : GM Term Unit :=
  GM.on (fun _ => f.power) (fun t p => { t with factors := t.factors.setPower k p }) m

/-- `Term::appendFactor` (src/Poly.hpp:92-101). -/
def appendFactorT (x : Factor) : GM Term Unit := do
  let t ← this
  match t.factors.find x.id with
  | none => do
    ask L
    put { t with factors := t.factors.insert x.id x }
  | some f => onPower x.id f (BigInt.addAssignT L x.power)

/-- The loops over `appendFactor` (src/Poly.hpp:86-88, 174-175, 186-187). -/
def appendFactorsT : List Factor → GM Term Unit
  | [] => pure ()
  | x :: r => do
    appendFactorT L x
    appendFactorsT r

/-- `Term::Term(const Factor&)` (src/Poly.hpp:59). -/
def ofFactorA (x : Factor) : AM Term := do
  let c ← Frac.ofI32A L 1
  local' ⟨c, []⟩ (appendFactorT L x)

/-- `Term::Term(const Frac&, const Factor&)` (src/Poly.hpp:60). -/
def ofCoeffA (c : Frac) (x : Factor) : AM Term := do
  let c ← copyA L c
  local' ⟨c, []⟩ (appendFactorT L x)

/-- `Term::Term(const Frac&, const vector<Factor>&)` (src/Poly.hpp:61, 85-89). -/
def ofFactorsA (c : Frac) (xs : List Factor) : AM Term := do
  let c ← copyA L c
  local' ⟨c, []⟩ (appendFactorsT L xs)

/-- `Term::negate` (src/Poly.hpp:65). -/
def negateT : GM Term Unit := do
  let m ← other (BigInt.ofInt64A L (-1))
  onCoeff (Frac.mulAssignIntT L m)

/-- `operator*(Factor, Factor)` (src/Poly.hpp:159-163). -/
def mulFactorsA (x y : Factor) : AM Term := do
  let t ← ofFactorA L x
  let t ← local' t (appendFactorT L y)
  copyA L t

/-- `operator*(Term, Factor)` (src/Poly.hpp:165-169). -/
def mulFactorA (x : Term) (y : Factor) : AM Term := do
  let t ← copyA L x
  let t ← local' t (appendFactorT L y)
  copyA L t

/-- `operator*(Factor, Term)` (src/Poly.hpp:71). -/
def factorMulA (x : Factor) (y : Term) : AM Term := do
  let t ← mulFactorA L y x
  copyA L t

/-- `operator*=(Term, Term)` for different objects (src/Poly.hpp:184-189). -/
def mulAssignT (y : Term) : GM Term Unit := do
  appendFactorsT L (y.factors.map (·.2))
  onCoeff (Frac.mulAssignT L y.coeff)

/-- `operator*(Term, Term)` (src/Poly.hpp:171-178). -/
def mulA (x y : Term) : AM Term := do
  let t ← copyA L x
  let t ← local' t (mulAssignT L y)
  copyA L t

/-- The loop of `x *= x` (src/Poly.hpp:186-187), see `Term.squareLoop`. Simplified: what a failure leaves is that of two different operands; no theorem speaks of
it but to say that other variables do not change. -/
def squareLoopT : Nat → Nat → GM Term Unit
  | 0, _ => pure ()
  | n + 1, i => do
    let x ← this
    match x.factors[i]? with
    | none => free (.error .ub)
    | some (k, f) =>
      if k = f.id ∧ x.factors.find f.id = some f then do
        onPower f.id f (BigInt.addAssignT L f.power)
        squareLoopT n (i + 1)
      else free (.error .ub)

/-- `x *= x` (src/Poly.hpp:184-189): both arguments are the same object. -/
def mulAssignSelfT : GM Term Unit := do
  let x ← this
  squareLoopT L x.factors.length 0
  let x ← this
  onCoeff (Frac.mulAssignT L x.coeff)

end Term

namespace Poly
variable (L : ILuck)

/-- `Poly::appendTerm` (src/Poly.hpp:241-249) on the list from the iterator on, which is the argument as well as the state. -/
def appendLoopT (x : Term) : List Term → GM (List Term) Unit
  | [] => free (.error .ub)
  | t :: r => do
    let l ← free (Term.lt t x)
    if l then GM.on (fun _ => r) (fun _ r => t :: r) (appendLoopT x r)
    else do
      let e ← free (Term.eq t x)
      if e then GM.on (fun _ => t.coeff) (fun _ c => { t with coeff := c } :: r) (Frac.addAssignT L x.coeff)
      else do
        ask L
        put (x :: t :: r)

/-- `Poly::appendTerm` (src/Poly.hpp:241-249). -/
def appendTermT (x : Term) : GM Poly Unit := do
  let p ← this
  GM.on (·.terms) (fun _ l => ⟨l⟩) (appendLoopT L x p.terms)

/-- `appendTerm` for every element of a vector (src/Poly.hpp:225-226). -/
def appendAllT : List Term → GM Poly Unit
  | [] => pure ()
  | x :: r => do
    appendTermT L x
    appendAllT r

/-- The loop of `Poly::Poly(const vector<Factor>&)` (src/Poly.hpp:220-221). -/
def appendFactorTermsT : List Factor → GM Poly Unit
  | [] => pure ()
  | x :: r => do
    let t ← other (Term.ofFactorA L x)
    appendTermT L t
    appendFactorTermsT r

/-- `Poly::Poly(const Factor&)` (src/Poly.hpp:197). -/
def ofFactorA (x : Factor) : AM Poly := do
  let t ← Term.ofFactorA L x
  let t ← copyA L t
  return ⟨[t]⟩

/-- `Poly::Poly(const Term&)` (src/Poly.hpp:198). -/
def ofTermA (x : Term) : AM Poly := do
  let t ← copyA L x
  return ⟨[t]⟩

/-- `Poly::Poly(const vector<Term>&)` (src/Poly.hpp:224-227). -/
def ofTermsA (xs : List Term) : AM Poly := local' ⟨[]⟩ (appendAllT L xs)

/-- `Poly::Poly(const vector<Factor>&)` (src/Poly.hpp:219-222). -/
def ofFactorsA (xs : List Factor) : AM Poly := local' ⟨[]⟩ (appendFactorTermsT L xs)

/-- `Poly::appendTerms` (src/Poly.hpp:251-254): copying the list needs memory, merging does not. -/
def appendTermsT (x : List Term) : GM Poly Unit := do
  let x ← other (copyA L x)
  let p ← this
  let p ← free (p.appendTerms x)
  put p

/-- `operator+(Term, Term)` (src/Poly.hpp:263-267). -/
def addTermsA (x y : Term) : AM Poly := do
  let p ← ofTermA L x
  let p ← local' p (appendTermT L y)
  copyA L p

/-- `operator+(Factor, Factor)` (src/Poly.hpp:256-261). -/
def addFactorsA (x y : Factor) : AM Poly := do
  let tx ← Term.ofFactorA L x
  let p ← ofTermA L tx
  let ty ← Term.ofFactorA L y
  let p ← local' p (appendTermT L ty)
  copyA L p

/-- `Poly::operator+=(Factor)` (src/Poly.hpp:269-271). -/
def addAssignT (y : Factor) : GM Poly Unit := do
  let t ← other (Term.ofFactorA L y)
  appendTermT L t

/-- `operator-(Factor, Factor)` (src/Poly.hpp:273-277). -/
def subFactorsA (x y : Factor) : AM Poly := do
  let p ← ofFactorA L x
  let m ← Frac.ofI32A L (-1)
  let ty ← Term.ofCoeffA L m y
  let p ← local' p (appendTermT L ty)
  copyA L p

/-- `operator-(Term, Term)` (src/Poly.hpp:279-285). -/
def subTermsA (x y : Term) : AM Poly := do
  let p ← ofTermA L x
  let ty ← copyA L y
  let ty ← local' ty (Term.negateT L)
  let p ← local' p (appendTermT L ty)
  copyA L p

/-- `Poly::operator-=(Factor)` (src/Poly.hpp:287-289). -/
def subAssignT (y : Factor) : GM Poly Unit := do
  let m ← other (Frac.ofI32A L (-1))
  let ty ← other (Term.ofCoeffA L m y)
  appendTermT L ty

end Poly

namespace PStore

/-- Change a factor variable in place. -/
def onF (i : Nat) (m : GM Factor Unit) : GM PStore Unit := GM.on (·.factor i) (fun σ f => σ.setF i f) m
/-- Change a term variable in place. -/
def onT (i : Nat) (m : GM Term Unit) : GM PStore Unit := GM.on (·.term i) (fun σ t => σ.setT i t) m
/-- Change a polynomial variable in place. -/
def onP (i : Nat) (m : GM Poly Unit) : GM PStore Unit := GM.on (·.poly i) (fun σ p => σ.setP i p) m

/-- `f = e` (implicit copy assignment of src/Poly.hpp:15-29). -/
def getsFT (L : PLuck) (i : Nat) (e : AM Factor) : GM PStore Unit := do
  let f ← other e
  onF i (assignBy L.toILuck L.leftF f)
/-- `t = e` (implicit copy assignment of src/Poly.hpp:54-83). -/
def getsTT (L : PLuck) (i : Nat) (e : AM Term) : GM PStore Unit := do
  let t ← other e
  onT i (assignBy L.toILuck L.leftT t)
/-- `p = e` (implicit copy assignment of src/Poly.hpp:192-216). -/
def getsPT (L : PLuck) (i : Nat) (e : AM Poly) : GM PStore Unit := do
  let p ← other e
  onP i (assignBy L.toILuck L.leftP p)

end PStore

/-- One statement of a program (the lines of src/Poly.hpp cited at the constructors of `PStmt`). Vectors and lists in a statement are built first. -/
def PStmt.execT (L : PLuck) (s : PStmt) : GM PStore Unit := do
  let σ ← this
  match s with
  | .factor i id n => PStore.getsFT L i (copyA L.toILuck ⟨id, n⟩)
  | .setId i id => PStore.getsFT L i (pure { σ.factor i with id := id })
  | .setPower i n => PStore.onF i (GM.on (·.power) (fun f p => { f with power := p }) (BigInt.assignT L.toILuck n))
  | .copyFactor i j => PStore.getsFT L i (pure (σ.factor j))
  | .term i j => PStore.getsTT L i (Term.ofFactorA L.toILuck (σ.factor j))
  | .termCoeff i c j => PStore.getsTT L i (Term.ofCoeffA L.toILuck c (σ.factor j))
  | .termFactors i c js => PStore.getsTT L i (do let xs ← copyA L.toILuck (js.map σ.factor); Term.ofFactorsA L.toILuck c xs)
  | .setCoeff i c => PStore.onT i (Term.onCoeff (do
      Frac.onTop (BigInt.assignT L.toILuck c.tt)
      Frac.onBottom (BigInt.assignT L.toILuck c.bb)))
  | .negate i => PStore.onT i (Term.negateT L.toILuck)
  | .appendFactor i j => PStore.onT i (Term.appendFactorT L.toILuck (σ.factor j))
  | .copyTerm i j => PStore.getsTT L i (pure (σ.term j))
  | .mulFactors i j k => PStore.getsTT L i (Term.mulFactorsA L.toILuck (σ.factor j) (σ.factor k))
  | .mulFactor i j k => PStore.getsTT L i (Term.mulFactorA L.toILuck (σ.term j) (σ.factor k))
  | .factorMul i j k => PStore.getsTT L i (Term.factorMulA L.toILuck (σ.factor j) (σ.term k))
  | .mul i j k => PStore.getsTT L i (Term.mulA L.toILuck (σ.term j) (σ.term k))
  | .mulAssignFactor i j => PStore.onT i (Term.appendFactorT L.toILuck (σ.factor j))
  | .mulAssign i j => PStore.onT i (if i = j then Term.mulAssignSelfT L.toILuck else Term.mulAssignT L.toILuck (σ.term j))
  | .poly i j => PStore.getsPT L i (Poly.ofFactorA L.toILuck (σ.factor j))
  | .polyTerm i j => PStore.getsPT L i (Poly.ofTermA L.toILuck (σ.term j))
  | .polyFactors i js => PStore.getsPT L i (do let xs ← copyA L.toILuck (js.map σ.factor); Poly.ofFactorsA L.toILuck xs)
  | .polyTerms i js => PStore.getsPT L i (do let xs ← copyA L.toILuck (js.map σ.term); Poly.ofTermsA L.toILuck xs)
  | .appendTerm i j => PStore.onP i (Poly.appendTermT L.toILuck (σ.term j))
  | .appendTerms i js => do
    let xs ← other (copyA L.toILuck (js.map σ.term))
    PStore.onP i (Poly.appendTermsT L.toILuck xs)
  | .copyPoly i j => PStore.getsPT L i (pure (σ.poly j))
  | .addFactors i j k => PStore.getsPT L i (Poly.addFactorsA L.toILuck (σ.factor j) (σ.factor k))
  | .subFactors i j k => PStore.getsPT L i (Poly.subFactorsA L.toILuck (σ.factor j) (σ.factor k))
  | .addTerms i j k => PStore.getsPT L i (Poly.addTermsA L.toILuck (σ.term j) (σ.term k))
  | .subTerms i j k => PStore.getsPT L i (Poly.subTermsA L.toILuck (σ.term j) (σ.term k))
  | .addAssign i j => PStore.onP i (Poly.addAssignT L.toILuck (σ.factor j))
  | .subAssign i j => PStore.onP i (Poly.subAssignT L.toILuck (σ.factor j))

/-- A history of statements; an exception ends it. -/
def PStmt.runT (L : PLuck) : List PStmt → GM PStore Unit
  | [] => pure ()
  | s :: r => do
    s.execT L
    PStmt.runT L r

/-- Do something again as long as it throws `bad_alloc`, at most `t` times after the first. -/
def GM.retry {σ : Type} (m : GM σ Unit) : Nat → GM σ Unit
  | 0 => m
  | t + 1 => fun st =>
    match m st with
    | (.error .badAlloc, st') => GM.retry m t st'
    | r => r

/-- A history of statements each of which is tried again when it throws `bad_alloc`. -/
def PStmt.retryAll (L : PLuck) (t : Nat) : List PStmt → GM PStore Unit
  | [] => pure ()
  | s :: r => do
    GM.retry (s.execT L) t
    PStmt.retryAll L t r

end CppMaths
