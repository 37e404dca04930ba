import Verif.Model.MatHeap
/-!
# `Mat<T>` when memory runs out (src/Mat.hpp)

`Verif.Model.MatHeap` shows of the blocks that a function allocates only that of the returned object. Here every `new T[n]` and every
`delete[]` of every function is made, in the order of the code, and the requests may be refused: `new` then throws `std::bad_alloc`,
the local objects constructed so far are destroyed, and the exception goes on to the caller. An exception in the body of a constructor does
not run the destructor of the object under construction.

Who refuses what is left open: a `Luck` answers all questions, and the theorems are about every `Luck`.

* The number of entries handed to `new` is the product of the dimensions modulo 2^64, as `size_t` demands. A block that is too small for
  the dimensions of its matrix makes the loops over the entries undefined (`fill`); that an exception might come before the first access
  outside the block is not taken into account.
* The entries are computed by the functions of `Verif.Model.Mat` on the contents of the blocks. If copying or computing
  entries needs memory itself, as for `Int`, a loop over the entries may be interrupted by `bad_alloc`. A loop asks once; which entries are
  already written does not matter, because in all functions but those of `MUpd` the block belongs to a local matrix.
* Returned objects are copied or not, as the compiler likes (copy elision); there is no move constructor.
-/

namespace CppMaths

/-- The answers to the questions a computation asks; the first argument is the number of the question. -/
structure Luck (T : Type) where
  /-- Does `new T[n]` throw, the free store being as given? -/
  refuse : Nat → MHeap T → Nat → Bool
  /-- Do the scalar operations of a loop run out of memory? -/
  interrupt : Nat → Bool
  /-- Is this copy of a returned object elided? -/
  elide : Nat → Bool

/-- The free store and the number of questions asked so far. -/
structure Store (T : Type) where
  heap : MHeap T
  tick : Nat

/-- A computation on the free store. A failure leaves the free store as it is at that moment. -/
def HM (T α : Type) := Store T → Except Err α × Store T

/-- The largest value of `size_t` plus one. -/
def sizeMod : Nat := 2 ^ 64

/-- `n - 1` in `size_t`. -/
def predSize (n : Nat) : Nat := if n = 0 then sizeMod - 1 else n - 1

namespace HM
variable {T α : Type}

instance : Monad (HM T) where
  pure a := fun m => (.ok a, m)
  bind x f := fun m => match x m with
    | (.ok a, m') => f a m'
    | (.error e, m') => (.error e, m')

/-- A computation that does not touch the free store. -/
def lift (r : Res α) : HM T α := fun m => (r, m)

/-- A computation on the free store that asks no questions. -/
def onHeap (f : MHeap T → Res (MHeap T)) : HM T Unit := fun m =>
  match f m.heap with
  | .ok h => (.ok (), ⟨h, m.tick⟩)
  | .error e => (.error e, m)

/-- `x`; if it throws, `c` is run before the exception goes on. A failure that is not an exception ends the program. -/
def cleanup (x : HM T α) (c : HM T Unit) : HM T α := fun m =>
  match x m with
  | (.ok a, m') => (.ok a, m')
  | (.error e, m') => if e.isException then
      match c m' with
      | (.ok _, m'') => (.error e, m'')
      | (.error e', m'') => (.error e', m'')
    else (.error e, m')

/-- `for (i = lo; i < lo + n; ++i) s = body(i, s)`. -/
def forUp {σ : Type} (lo : Nat) : Nat → (Nat → σ → HM T σ) → σ → HM T σ
  | 0, _, s => pure s
  | n + 1, body, s => do
    let s' ← body lo s
    forUp (lo + 1) n body s'

end HM

namespace MObj
variable {T : Type}
open HM

/-- `new T[n]` (src/Mat.hpp:109, 115, 120, 126). -/
def new (L : Luck T) (n : Nat) : HM T Nat := fun m =>
  if L.refuse m.tick m.heap n then (.error .badAlloc, ⟨m.heap, m.tick + 1⟩)
  else (.ok (m.heap.new n).2, ⟨(m.heap.new n).1, m.tick + 1⟩)

/-- A loop whose scalar operations may run out of memory. -/
def interrupt (L : Luck T) : HM T Unit := fun m =>
  (if L.interrupt m.tick then .error .badAlloc else .ok (), ⟨m.heap, m.tick + 1⟩)

/-- The compiler's choice. -/
def elided (L : Luck T) : HM T Bool := fun m => (.ok (L.elide m.tick), ⟨m.heap, m.tick + 1⟩)

/-- The matrix an object stands for. -/
def load (o : MObj) : HM T (Mat T) := fun m => (m.heap.load o, m)

/-- `~Mat()` (src/Mat.hpp:130-133). -/
def destroy (o : MObj) : HM T Unit := onHeap fun h => h.destroy o

/-- A loop that gives the block of `o` new contents. -/
def fill (L : Luck T) (o : MObj) (r : Res (Mat T)) : HM T Unit := do
  onHeap fun h => match h[o.ptr]? with
    | some (some b) => if b.length = o.rows * o.cols then .ok h else .error .ub
    | _ => .error .ub
  interrupt L
  let m ← lift r
  onHeap fun h => h.store o.ptr m.data

/-- A local object: it is destroyed at the end of `body` and when `body` throws. -/
def owned {α : Type} (o : MObj) (body : HM T α) : HM T α := do
  let a ← cleanup body o.destroy
  o.destroy
  return a

/-- `Mat(rows, cols)` (src/Mat.hpp:113-116). -/
def ctor (L : Luck T) (rows cols : Nat) : HM T MObj := do
  let p ← new L (rows * cols % sizeMod)
  return ⟨rows, cols, p⟩

/-- `Mat(rows, cols, val)` (src/Mat.hpp:118-122). -/
def ctorVal (L : Luck T) (rows cols : Nat) (val : T) : HM T MObj := do
  let o ← ctor L rows cols
  o.fill L (Mat.filled rows cols val)
  return o

/-- `Mat(vals, rows, cols)` (src/Mat.hpp:124-128). -/
def ctorArray (L : Luck T) (vals : List T) (rows cols : Nat) : HM T MObj := do
  let o ← ctor L rows cols
  o.fill L (Mat.ofArray vals rows cols)
  return o

/-- `Mat(const Mat<T>&)` (src/Mat.hpp:107-111). -/
def copyCtor (L : Luck T) (x : MObj) : HM T MObj := do
  let o ← ctor L x.rows x.cols
  let m ← x.load
  o.fill L m.copy
  return o

/-- An object is handed on by value: the compiler elides the copy, or it is made and the old object destroyed. -/
def handOver (L : Luck T) (o : MObj) : HM T MObj := do
  let k ← elided L
  if k then return o else o.owned (copyCtor L o)

/-- The rest of a function that ends with `return o;` for its local matrix `o`. -/
def giveBack (L : Luck T) (o : MObj) (body : HM T Unit) : HM T MObj := do
  cleanup body o.destroy
  handOver L o

/-- `-a` (src/Mat.hpp:151-158). -/
def neg (L : Luck T) (S : Scalar T) (a : MObj) : HM T MObj := do
  let r ← ctor L a.rows a.cols
  giveBack L r (do
    let x ← a.load
    r.fill L (Mat.neg S x))

/-- `a + b` (src/Mat.hpp:160-169). -/
def add (L : Luck T) (S : Scalar T) (a b : MObj) : HM T MObj :=
  if !(a.rows == b.rows && a.cols == b.cols) then lift (.error .domainError)
  else do
    let r ← ctor L a.rows a.cols
    giveBack L r (do
      let x ← a.load
      let y ← b.load
      r.fill L (Mat.add S x y))

/-- `a - b` (src/Mat.hpp:180-189). -/
def sub (L : Luck T) (S : Scalar T) (a b : MObj) : HM T MObj :=
  if !(a.rows == b.rows && a.cols == b.cols) then lift (.error .domainError)
  else do
    let r ← ctor L a.rows a.cols
    giveBack L r (do
      let x ← a.load
      let y ← b.load
      r.fill L (Mat.sub S x y))

/-- `k * a` for a scalar `k` (src/Mat.hpp:200-207). -/
def smul (L : Luck T) (S : Scalar T) (k : T) (a : MObj) : HM T MObj := do
  let r ← ctor L a.rows a.cols
  giveBack L r (do
    let x ← a.load
    r.fill L (Mat.smul S k x))

/-- `a * k` for a scalar `k` (src/Mat.hpp:209-212): `return k * a;`. -/
def mulScalar (L : Luck T) (S : Scalar T) (a : MObj) (k : T) : HM T MObj := do
  let r ← smul L S k a
  handOver L r

/-- `a / k` for a scalar `k` (src/Mat.hpp:221-228). -/
def divScalar (L : Luck T) (S : Scalar T) (a : MObj) (k : T) : HM T MObj := do
  let r ← ctor L a.rows a.cols
  giveBack L r (do
    let x ← a.load
    r.fill L (Mat.divScalar S x k))

/-- `a * b` (src/Mat.hpp:237-248). -/
def mul (L : Luck T) (S : Scalar T) (a b : MObj) : HM T MObj :=
  if a.cols ≠ b.rows then lift (.error .domainError)
  else do
    interrupt L
    let zero ← lift (S.ofInt 0)
    let r ← ctorVal L a.rows b.cols zero
    giveBack L r (do
      let x ← a.load
      let y ← b.load
      r.fill L (Mat.mul S x y))

/-- `a *= b` (src/Mat.hpp:250-261) up to the call of `swap`: the local matrix `r`. -/
def mulAssign (L : Luck T) (S : Scalar T) (a b : MObj) : HM T MObj :=
  if a.cols ≠ b.rows then lift (.error .domainError)
  else do
    interrupt L
    let zero ← lift (S.ofInt 0)
    let r ← ctorVal L a.rows b.cols zero
    cleanup (do
      let x ← a.load
      let y ← b.load
      r.fill L (Mat.mulAssign S x y)) r.destroy
    return r

/-- `first_minor(i, j)` (src/Mat.hpp:279-291). -/
def firstMinor (L : Luck T) (a : MObj) (i j : Nat) : HM T MObj := do
  let r ← ctor L (predSize a.rows) (predSize a.cols)
  giveBack L r (do
    let x ← a.load
    r.fill L (Mat.firstMinor x i j))

/-- `cofactor(i, j)` (src/Mat.hpp:293-298). -/
def cofactor (L : Luck T) (S : Scalar T) (a : MObj) (i j : Nat) : HM T MObj :=
  if (i + j) % 2 = 1 then do
    let t ← firstMinor L a i j
    t.owned (do
      let r ← neg L S t
      handOver L r)
  else do
    let r ← firstMinor L a i j
    handOver L r

/-- `row_cofactor_expansion()` (src/Mat.hpp:300-320). `fuel` bounds the depth of the recursion. -/
def rowCofactorF (L : Luck T) (S : Scalar T) : Nat → MObj → HM T T
  | 0, _ => lift (.error .diverge)
  | fuel + 1, o =>
    if o.rows ≠ o.cols then lift (.error .domainError)
    else if o.rows = 1 then do
      let x ← o.load
      lift (x.dataAt 0)
    else if o.rows = 2 then do
      let x ← o.load
      interrupt L
      lift (Mat.det2 S x)
    else do
      interrupt L
      let z ← lift (S.ofInt 0)
      HM.forUp 0 o.cols (fun j result => do
        interrupt L
        let x ← o.load
        let e ← lift (x.get 0 j)
        let nz ← lift (Mat.neZero S e)
        if nz then do
          let e ← lift (x.get 0 j)
          let sub ← firstMinor L o 0 j
          sub.owned (do
            let d ← rowCofactorF L S fuel sub
            interrupt L
            let p ← lift (S.mul e d)
            if (0 + j) % 2 = 1 then lift (S.subA result p) else lift (S.addA result p))
        else return result) z

/-- `row_cofactor_expansion()` (src/Mat.hpp:300-320). -/
def rowCofactor (L : Luck T) (S : Scalar T) (o : MObj) : HM T T := rowCofactorF L S (o.rows + 1) o

/-- `col_cofactor_expansion()` (src/Mat.hpp:322-342). `fuel` bounds the depth of the recursion. -/
def colCofactorF (L : Luck T) (S : Scalar T) : Nat → MObj → HM T T
  | 0, _ => lift (.error .diverge)
  | fuel + 1, o =>
    if o.rows ≠ o.cols then lift (.error .domainError)
    else if o.rows = 1 then do
      let x ← o.load
      lift (x.dataAt 0)
    else if o.rows = 2 then do
      let x ← o.load
      interrupt L
      lift (Mat.det2 S x)
    else do
      interrupt L
      let z ← lift (S.ofInt 0)
      HM.forUp 0 o.rows (fun i result => do
        interrupt L
        let x ← o.load
        let e ← lift (x.get i 0)
        let nz ← lift (Mat.neZero S e)
        if nz then do
          let e ← lift (x.get i 0)
          let sub ← firstMinor L o i 0
          sub.owned (do
            let d ← colCofactorF L S fuel sub
            interrupt L
            let p ← lift (S.mul e d)
            if (i + 0) % 2 = 1 then lift (S.subA result p) else lift (S.addA result p))
        else return result) z

/-- `col_cofactor_expansion()` (src/Mat.hpp:322-342). -/
def colCofactor (L : Luck T) (S : Scalar T) (o : MObj) : HM T T := colCofactorF L S (o.rows + 1) o

end MObj

/-- `determinant()` after the copy has been made (src/Mat.hpp:366-402). -/
def Mat.detOf {T : Type} (S : Scalar T) (tmp : Mat T) : Res T := do
  let factor ← S.ofInt 1
  let s ← detLoop S tmp.rows 0 0 factor tmp
  let prod ← S.ofInt 1
  let prod ← forUp 0 s.2.rows (fun i prod => do
    let x ← s.2.get i i
    S.mulA prod x) prod
  S.div prod s.1

/-- The last loop of `inverse()` (src/Mat.hpp:464-471). -/
def Mat.rightHalf {T : Type} (S : Scalar T) (rows cols : Nat) (r identity : Mat T) : Res (Mat T) :=
  forEach rows cols (fun i j result => do
    let x ← r.get i j
    let y ← identity.get i j
    let d ← S.ne x y
    if d then .error .domainError
    else do
      let t ← r.get i (j + rows)
      result.set i j t) (alloc rows cols)

namespace MObj
variable {T : Type}
open HM

/-- `determinant()` (src/Mat.hpp:357-403). The changes to the local copy are not written back to its block, which nobody reads again. -/
def determinant (L : Luck T) (S : Scalar T) (o : MObj) : HM T T :=
  if o.rows ≠ o.cols then lift (.error .domainError)
  else if o.rows = 1 then do
    let x ← o.load
    lift (x.dataAt 0)
  else if o.rows = 2 then do
    let x ← o.load
    interrupt L
    lift (Mat.det2 S x)
  else do
    let tmp ← copyCtor L o
    tmp.owned (do
      let x ← tmp.load
      interrupt L
      lift (Mat.detOf S x))

/-- `rref()` (src/Mat.hpp:405-410). -/
def rref (L : Luck T) (S : Scalar T) (o : MObj) : HM T MObj := do
  let r ← copyCtor L o
  giveBack L r (do
    let x ← r.load
    r.fill L (Mat.inplaceRref S x))

/-- `diagonalMatrix(vals, size)` (src/Mat.hpp:475-481). -/
def diagonalMatrix (L : Luck T) (S : Scalar T) (vals : List T) (size : Nat) : HM T MObj := do
  interrupt L
  let z ← lift (S.ofInt 0)
  let r ← ctorVal L size size z
  giveBack L r (r.fill L (Mat.diagonalMatrix S vals size))

/-- `identityMatrix(size)` (src/Mat.hpp:483-489). -/
def identityMatrix (L : Luck T) (S : Scalar T) (size : Nat) : HM T MObj := do
  interrupt L
  let z ← lift (S.ofInt 0)
  let r ← ctorVal L size size z
  giveBack L r (r.fill L (Mat.identityMatrix S size))

/-- `augmentedMatrix(a, b)` (src/Mat.hpp:491-503). -/
def augmentedMatrix (L : Luck T) (a b : MObj) : HM T MObj :=
  if a.rows ≠ b.rows then lift (.error .domainError)
  else do
    let r ← ctor L a.rows ((a.cols + b.cols) % sizeMod)
    giveBack L r (do
      let x ← a.load
      let y ← b.load
      r.fill L (Mat.augmentedMatrix x y))

/-- `inverse()` (src/Mat.hpp:455-473). -/
def inverse (L : Luck T) (S : Scalar T) (o : MObj) : HM T MObj :=
  if o.rows ≠ o.cols then lift (.error .domainError)
  else do
    let t ← identityMatrix L S o.rows
    let identity ← handOver L t
    identity.owned (do
      let t ← augmentedMatrix L o identity
      let r ← handOver L t
      r.owned (do
        let result ← ctor L o.rows o.cols
        giveBack L result (do
          let x ← r.load
          r.fill L (Mat.inplaceRref S x)
          let x ← r.load
          let y ← identity.load
          result.fill L (Mat.rightHalf S o.rows o.cols x y))))

/-- `transpose()` (src/Mat.hpp:515-522). -/
def transpose (L : Luck T) (o : MObj) : HM T MObj := do
  let r ← ctor L o.cols o.rows
  giveBack L r (do
    let x ← o.load
    r.fill L (Mat.transpose x))

end MObj

section
variable {T : Type}
open HM

/-- The object in a variable. -/
def varObj (vars : Nat → Option MObj) (x : Nat) : HM T MObj :=
  match vars x with
  | some o => pure o
  | none => lift (.error .ub)

/-- The matrices in the variables. -/
def lookAll (vars : Nat → Option MObj) : HM T (Nat → Res (Mat T)) := fun m => (.ok (MState.mk m.heap vars).look, m)

/-- A variable starts to exist, gets new members, or ceases to exist. -/
def setObj (vars : Nat → Option MObj) (x : Nat) (o : Option MObj) : Nat → Option MObj := fun i => if i = x then o else vars i

/-- The object an expression makes. -/
def MExpr.make (L : Luck T) (S : Scalar T) (vars : Nat → Option MObj) : MExpr T → HM T MObj
  | .raw r c => MObj.ctor L r c
  | .filled r c v => MObj.ctorVal L r c v
  | .array vals r c => MObj.ctorArray L vals r c
  | .identity n => MObj.identityMatrix L S n
  | .diagonal vals n => MObj.diagonalMatrix L S vals n
  | .augmented a b => do
    let x ← varObj vars a
    let y ← varObj vars b
    MObj.augmentedMatrix L x y
  | .neg a => do
    let x ← varObj vars a
    MObj.neg L S x
  | .add a b => do
    let x ← varObj vars a
    let y ← varObj vars b
    MObj.add L S x y
  | .sub a b => do
    let x ← varObj vars a
    let y ← varObj vars b
    MObj.sub L S x y
  | .mul a b => do
    let x ← varObj vars a
    let y ← varObj vars b
    MObj.mul L S x y
  | .smul k a => do
    let x ← varObj vars a
    MObj.smul L S k x
  | .muls a k => do
    let x ← varObj vars a
    MObj.mulScalar L S x k
  | .divs a k => do
    let x ← varObj vars a
    MObj.divScalar L S x k
  | .minor a i j => do
    let x ← varObj vars a
    MObj.firstMinor L x i j
  | .cofactor a i j => do
    let x ← varObj vars a
    MObj.cofactor L S x i j
  | .rref a => do
    let x ← varObj vars a
    MObj.rref L S x
  | .inverse a => do
    let x ← varObj vars a
    MObj.inverse L S x
  | .transpose a => do
    let x ← varObj vars a
    MObj.transpose L x

/-- The body of `operator=(Mat<T> a)` (src/Mat.hpp:76-79) and the destruction of its parameter. -/
def assignObj (vars : Nat → Option MObj) (this : Nat) (a : MObj) : HM T (Nat → Option MObj) := do
  let o ← varObj vars this
  let p := MObj.swap o a
  p.2.destroy
  return setObj vars this (some p.1)

/-- One statement: the variables afterwards. When a statement throws, the variables are those before. The number of copies that
`declare` and `assignExpr` carry is not used; `elide` decides. -/
def MStmt.stepMem (L : Luck T) (S : Scalar T) (vars : Nat → Option MObj) : MStmt T → HM T (Nat → Option MObj)
  | .declare d e _ =>
    match vars d with
    | some _ => lift (.error .ub)
    | none => do
      let t ← e.make L S vars
      let o ← MObj.handOver L t
      return setObj vars d (some o)
  | .declareCopy d x =>
    match vars d with
    | some _ => lift (.error .ub)
    | none => do
      let y ← varObj vars x
      let o ← MObj.copyCtor L y
      return setObj vars d (some o)
  | .destroy d => do
    let o ← varObj vars d
    o.destroy
    return setObj vars d none
  | .assignExpr d e _ => do
    let t ← e.make L S vars
    let o ← MObj.handOver L t
    assignObj vars d o
  | .assign d x => do
    let y ← varObj vars x
    let o ← MObj.copyCtor L y
    assignObj vars d o
  | .swap a b => do
    let x ← varObj vars a
    let y ← varObj vars b
    let p := MObj.swap x y
    return setObj (setObj vars a (some p.1)) b (some p.2)
  | .mulAssign d x => do
    let a ← varObj vars d
    let b ← varObj vars x
    let r ← MObj.mulAssign L S a b
    assignObj vars d r
  | .update d u junk => do
    let o ← varObj vars d
    let m ← o.load
    let look ← lookAll vars
    lift (u.check look m)
    cleanup (do
      MObj.interrupt L
      let m' ← lift (u.run S look d m)
      onHeap fun h => h.store o.ptr m'.data)
      (onHeap fun h => h.store o.ptr ((List.range (o.rows * o.cols)).map junk))
    return vars
  | .print x => do
    let y ← varObj vars x
    let o ← MObj.copyCtor L y
    o.owned (MObj.interrupt L)
    return vars

/-- A program: every statement stands in `try { .. } catch (const std::exception&) {}`. -/
def MStmt.runMem (L : Luck T) (S : Scalar T) : List (MStmt T) → (Nat → Option MObj) → HM T (Nat → Option MObj)
  | [], vars => pure vars
  | c :: cs, vars => fun m =>
    match c.stepMem L S vars m with
    | (.ok vars', m') => runMem L S cs vars' m'
    | (.error e, m') => if e.isException then runMem L S cs vars m' else (.error e, m')

/-- The statements of a block up to its end or to the first failure: how they end, and the variables then. -/
def MStmt.runBlock (L : Luck T) (S : Scalar T) : List (MStmt T) → (Nat → Option MObj) → HM T (Except Err Unit × (Nat → Option MObj))
  | [], vars => pure (.ok (), vars)
  | c :: cs, vars => fun m =>
    match c.stepMem L S vars m with
    | (.ok vars', m') => runBlock L S cs vars' m'
    | (.error e, m') => (.ok (.error e, vars), m')

/-- The variables `0, ..., n - 1` cease to exist, the last first. -/
def destroyVars (vars : Nat → Option MObj) : Nat → HM T Unit
  | 0 => pure ()
  | n + 1 => do
    let _ ← (match vars n with
      | some o => o.destroy
      | none => pure ())
    destroyVars vars n

/-- `try { .. } catch (const std::exception& e) { .. }`: the variables declared in the block are among `0, ..., n - 1`; they are destroyed at
its end, or when a statement throws before the exception goes on. The result says what is caught, and gives the variables then. -/
def MStmt.scope (L : Luck T) (S : Scalar T) (n : Nat) (cs : List (MStmt T)) (vars : Nat → Option MObj) :
    HM T (Except Err Unit × (Nat → Option MObj)) := do
  let r ← runBlock L S cs vars
  match r.1 with
  | .ok _ => do
    destroyVars r.2 n
    return (.ok (), fun x => if x < n then none else r.2 x)
  | .error e =>
    if e.isException then do
      destroyVars r.2 n
      return (.error e, fun x => if x < n then none else r.2 x)
    else lift (.error e)

end
end CppMaths
