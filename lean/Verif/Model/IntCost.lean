import Verif.Model.MatCost
import Verif.Model.Int
/-!
# The running time of the operations of `Int` (src/Int.hpp, src/Int.cpp)

The functions of `Verif/Model/Int.lean` once more, counting steps: every bin that is read, written, pushed, popped or copied is one
step. What takes a bounded number of machine instructions besides (32- and 64-bit arithmetic, comparing sizes, calls, copying the
sign) is not counted. The build is the one with assertions, whose tests are counted. `class Int` declares a copy constructor
(src/Int.hpp:39) and therefore has no move constructor and no move assignment: `std::swap`, assignments and returns of
named arguments copy all bins. Local variables and temporaries that are returned are not copied (every compiler elides these copies).
`Verif/Proofs/IntCost.lean` proves that the results are those of the uncounted functions.
-/

namespace CppMaths

/-- `n` steps. -/
def Cost.tick (n : Nat) : Cost Unit := ⟨.ok (), n⟩

/-- Machine arithmetic and assertions on values at hand: no step. -/
def Cost.free {α : Type} (r : Res α) : Cost α := ⟨r, 0⟩

namespace BigInt
open Cost (step fail tick free)

/-- The copy constructor (src/Int.cpp:302-305 with `shift = 0`), also the copying in an assignment. -/
def copyC (a : BigInt) : Cost BigInt := ⟨.ok a, a.bins.length⟩

/-- See `ofShift` (src/Int.cpp:302-305). -/
def ofShiftC (x : BigInt) (shift : Nat) : Cost BigInt := ⟨.ok (ofShift x shift), shift + x.bins.length⟩

/-- See `setValue` (src/Int.cpp:337-341). -/
def setValueC (val : Int) : Cost BigInt := step (setValue val)

/-- The loop over the bins that looks for one that is not zero (src/Int.cpp:326-328, 354-356). -/
def anyC : List Int → Cost Bool
  | [] => pure false
  | b :: bs => do
    tick 1
    if b != 0 then return true else anyC bs

/-- See `equalsInt32` (src/Int.cpp:323-334). -/
def equalsInt32C (a : BigInt) (x : Int) : Cost Bool := do
  let val ← free (i32 (if x < 0 then -x else x))
  match a.bins.getLast? with
  | none => step (.error .outOfRange)
  | some top => do
    let nz ← anyC a.bins.dropLast
    if nz then return false
    else do
      tick 2
      if top == val && a.negative == decide (x < 0) then return true
      else if top == val && val == 0 then return true
      else return false

/-- See `negate` (src/Int.hpp:57). -/
def negateC (a : BigInt) : Cost BigInt := do
  let z ← equalsInt32C a 0
  return { a with negative := if z then false else !a.negative }

/-- See `neg` (src/Int.cpp:264-268). -/
def negC (a : BigInt) : Cost BigInt := do
  let y ← copyC a
  negateC y

/-- See `pushBins` (src/Int.cpp:289-294). -/
def pushBinsC : Nat → Int → Cost (List Int)
  | 0, _ => fail .diverge
  | f + 1, x =>
    if x ≥ BIN_LIMIT then do
      tick 1
      let r ← pushBinsC f (x.tdiv BIN_LIMIT)
      return toI32 (x.tmod BIN_LIMIT) :: r
    else if x > 0 then do
      tick 1
      return [toI32 x]
    else return []

/-- See `ofInt64` (src/Int.cpp:281-295): the zero bins are made first in every case. -/
def ofInt64C (x : Int) (shift : Nat := 0) : Cost BigInt := do
  tick shift
  if x < 0 then do
    let x ← free (i64 (-x))
    let r ← pushBinsC 4 x
    return ⟨List.replicate shift 0 ++ r, true⟩
  else if x == 0 then setValueC 0
  else do
    let r ← pushBinsC 4 x
    return ⟨List.replicate shift 0 ++ r, false⟩

/-- See `lexCmp` (src/Int.cpp:358-361). -/
def lexCmpC : List Int → List Int → Cost Int
  | [], _ => pure 0
  | _ :: _, [] => fail .outOfRange
  | a :: as, b :: bs => do
    tick 2
    if cmpInts a b ≠ 0 then return cmpInts a b else lexCmpC as bs

/-- See `cmpBinsGe` (src/Int.cpp:353-361). -/
def cmpBinsGeC (a x : List Int) : Cost Int := do
  let offset := x.length - a.length
  let nz ← anyC (x.reverse.take offset)
  if nz then return (-1) else lexCmpC a.reverse (x.reverse.drop offset)

/-- See `cmpBins` (src/Int.cpp:348-362). -/
def cmpBinsC (a x : BigInt) : Cost Int :=
  if x.bins.length < a.bins.length then do
    let r ← cmpBinsGeC x.bins a.bins
    return -r
  else cmpBinsGeC a.bins x.bins

/-- See `cleanRev`: every bin that is looked at (and popped, if zero) is a step. -/
def cleanRevC : List Int → Cost (List Int)
  | [] => pure []
  | [b] => pure [b]
  | b :: c :: r => do
    tick 1
    if b == 0 then cleanRevC (c :: r) else return b :: c :: r

/-- See `cleanBins` (src/Int.cpp:364-370). -/
def cleanBinsC (l : List Int) : Cost (List Int) := do
  let r ← cleanRevC l.reverse
  return r.reverse

/-- See `cmp` (src/Int.cpp:377-391). -/
def cmpC (a x : BigInt) : Cost Int := do
  let c ← cmpBinsC a x
  let z ← (if c == 0 then equalsInt32C a 0 else pure false)
  if z then return 0
  else if a.negative && x.negative then return -c
  else if !a.negative && !x.negative then return c
  else if a.negative then return -1
  else return 1

/-- `operator<` (src/Int.hpp:74). -/
def ltC (a x : BigInt) : Cost Bool := do let c ← cmpC a x; return decide (c < 0)
/-- `operator>` (src/Int.hpp:75). -/
def gtC (a x : BigInt) : Cost Bool := do let c ← cmpC a x; return decide (c > 0)
/-- `operator<=` (src/Int.hpp:76). -/
def leC (a x : BigInt) : Cost Bool := do let c ← cmpC a x; return decide (c ≤ 0)
/-- `operator>=` (src/Int.hpp:77). -/
def geC (a x : BigInt) : Cost Bool := do let c ← cmpC a x; return decide (c ≥ 0)
/-- `operator!=` (src/Int.hpp:78). -/
def neC (a x : BigInt) : Cost Bool := do let c ← cmpC a x; return decide (c ≠ 0)
/-- `operator==` (src/Int.hpp:79). -/
def eqC (a x : BigInt) : Cost Bool := do let c ← cmpC a x; return decide (c = 0)

/-- See `abs` (src/common.hpp:41-44): `(a < 0) ? -a : a` is a new object in both cases. -/
def absC (a : BigInt) : Cost BigInt := do
  let z ← ofInt64C 0
  let l ← ltC a z
  if l then negC a else copyC a

/-- See `addCarry` (src/Int.cpp:406-412). -/
def addCarryC : List Int → Int → Cost (List Int × Int)
  | [], c => pure ([], c)
  | b :: bs, c =>
    if c ≠ 0 then do
      tick 2
      let sum ← free (i32 (b + c))
      let (r, c') ← addCarryC bs (max32 0 (sum.tdiv BIN_LIMIT))
      return (sum.tmod BIN_LIMIT :: r, c')
    else pure (b :: bs, c)

/-- See `addLoop` (src/Int.cpp:400-405). -/
def addLoopC : List Int → List Int → Int → Cost (List Int × Int)
  | bs, [], c => addCarryC bs c
  | [], _ :: _, _ => step (.error .outOfRange)
  | b :: bs, x :: xs, c => do
      tick 3
      let s ← free (i32 (b + x))
      let sum ← free (i32 (s + c))
      let (r, c') ← addLoopC bs xs (max32 0 (sum.tdiv BIN_LIMIT))
      return (sum.tmod BIN_LIMIT :: r, c')

/-- See `add` (src/Int.cpp:394-415). -/
def addC (a x : BigInt) : Cost BigInt := do
  tick (x.bins.length - a.bins.length)
  let bins := a.bins ++ List.replicate (x.bins.length - a.bins.length) 0
  let (r, c) ← addLoopC bins x.bins 0
  tick 1
  return { a with bins := if c ≠ 0 then r ++ [c] else r }

/-- See `subBorrow` (src/Int.cpp:451-461). -/
def subBorrowC : List Int → Int → Cost (List Int)
  | [], _ => pure []
  | b :: bs, w =>
    if w ≠ 0 then do
      tick 2
      let diff ← free (i32 (b - w))
      if diff < 0 then do
        let d ← free (i32 (diff + BIN_LIMIT))
        let r ← subBorrowC bs 1
        return d :: r
      else do
        let r ← subBorrowC bs 0
        return diff :: r
    else pure (b :: bs)

/-- See `subLoop` (src/Int.cpp:435-450). -/
def subLoopC : List Int → List Int → Int → Cost (List Int)
  | bs, [], w => subBorrowC bs w
  | [], _ :: _, _ => step (.error .outOfRange)
  | b :: bs, x :: xs, w => do
      tick 3
      let t ← free (i32 (b - w))
      let diff ← free (i32 (t - x))
      if diff < 0 then do
        let d ← free (i32 (diff + BIN_LIMIT))
        let r ← subLoopC bs xs 1
        return d :: r
      else do
        let r ← subLoopC bs xs 0
        return diff :: r

/-- See `subtract` (src/Int.cpp:420-463). -/
def subtractC (a x : BigInt) : Cost BigInt := do
  step (assertTop a.bins)
  step (assertTop x.bins)
  let aa ← absC a
  let ax ← absC x
  let g ← geC aa ax
  free (assertR g)
  let r ← subLoopC a.bins x.bins 0
  let r ← cleanBinsC r
  return { a with bins := r }

/-- See `addNonneg` (src/Int.cpp:138-146): `Int r(x); r.add(y);`. -/
def addNonnegC (x y : BigInt) : Cost BigInt :=
  if x.bins.length > y.bins.length then do
    let r ← copyC x
    addC r y
  else do
    let r ← copyC y
    addC r x

/-- See `subNonneg` (src/Int.cpp:157-167). -/
def subNonnegC (x y : BigInt) : Cost BigInt := do
  let g ← gtC x y
  if g then do
    let r ← copyC x
    let c ← cleanBinsC r.bins
    subtractC { r with bins := c } y
  else do
    let r ← copyC y
    let c ← cleanBinsC r.bins
    let r ← subtractC { r with bins := c } x
    negC r

/-- See `opAdd` (src/Int.cpp:130-147). -/
def opAddC (x y : BigInt) : Cost BigInt :=
  if x.negative && y.negative then do
    let nx ← negC x
    let ny ← negC y
    let r ← addNonnegC nx ny
    negC r
  else if x.negative && !y.negative then do
    let nx ← negC x
    let r ← subNonnegC nx y
    negC r
  else if !x.negative && y.negative then do
    let ny ← negC y
    subNonnegC x ny
  else addNonnegC x y

/-- See `opSub` (src/Int.cpp:149-168). -/
def opSubC (x y : BigInt) : Cost BigInt :=
  if x.negative && y.negative then do
    let nx ← negC x
    let ny ← negC y
    let r ← subNonnegC nx ny
    negC r
  else if x.negative && !y.negative then do
    let nx ← negC x
    let r ← addNonnegC nx y
    negC r
  else if !x.negative && y.negative then do
    let ny ← negC y
    addNonnegC x ny
  else subNonnegC x y

/-- See `addAssignNonneg` (src/Int.cpp:213). -/
def addAssignNonnegC (x y : BigInt) : Cost BigInt := do
  let t ← ofShiftC y 0
  addC x t

/-- `std::swap(*this, r)`: three copies; the value that `*this` has afterwards. -/
def swapC (this r : BigInt) : Cost BigInt := ⟨.ok r, 2 * this.bins.length + r.bins.length⟩

/-- See `subAssignNonneg` (src/Int.cpp:230-237). -/
def subAssignNonnegC (x y : BigInt) : Cost BigInt := do
  let g ← gtC x y
  if g then subtractC x y
  else do
    let r ← copyC y
    let r ← subtractC r x
    let r ← negateC r
    swapC x r

/-- See `addAssign` (src/Int.cpp:200-215). -/
def addAssignC (x y : BigInt) : Cost BigInt :=
  if x.negative && y.negative then do
    let tmp ← negC y
    let nx ← negateC x
    let r ← addAssignNonnegC nx tmp
    negateC r
  else if x.negative && !y.negative then do
    let nx ← negateC x
    let r ← subAssignNonnegC nx y
    negateC r
  else if !x.negative && y.negative then do
    let ny ← negC y
    subAssignNonnegC x ny
  else addAssignNonnegC x y

/-- See `subAssign` (src/Int.cpp:217-239). -/
def subAssignC (x y : BigInt) : Cost BigInt :=
  if x.negative && y.negative then do
    let tmp ← negC y
    let nx ← negateC x
    let r ← subAssignNonnegC nx tmp
    negateC r
  else if x.negative && !y.negative then do
    let nx ← negateC x
    let r ← addAssignNonnegC nx y
    negateC r
  else if !x.negative && y.negative then do
    let ny ← negC y
    addAssignNonnegC x ny
  else subAssignNonnegC x y

/-- See `mulByIntLoop` (src/Int.cpp:495-498). -/
def mulByIntLoopC : List Int → Int → Nat → BigInt → Cost BigInt
  | [], _, _, r => pure r
  | b :: bs, y, i, r => do
      tick 1
      let prod ← free (i64 (y * b))
      let t ← ofInt64C prod i
      let r ← addAssignC r t
      mulByIntLoopC bs y (i + 1) r

/-- See `multiplyByInt` (src/Int.cpp:492-499). -/
def multiplyByIntC (x : BigInt) (y : Int) : Cost BigInt := do
  let r ← setValueC 0
  mulByIntLoopC x.bins y 0 r

/-- See `multiplyLoop` (src/Int.cpp:507-510). -/
def multiplyLoopC (x : BigInt) : List Int → Nat → BigInt → Cost BigInt
  | [], _, r => pure r
  | b :: bs, i, r => do
      tick 1
      let p ← multiplyByIntC x b
      let t ← ofShiftC p i
      let r ← addAssignC r t
      multiplyLoopC x bs (i + 1) r

/-- See `multiply` (src/Int.cpp:504-511). -/
def multiplyC (x y : BigInt) : Cost BigInt := do
  let r ← setValueC 0
  multiplyLoopC x y.bins 0 r

/-- See `opMul` (src/Int.cpp:170-180). -/
def opMulC (x y : BigInt) : Cost BigInt := do
  let r ← (if x.bins.length > y.bins.length then multiplyC x y else multiplyC y x)
  if x.negative != y.negative then negateC r else return r

/-- See `mulAssign` (src/Int.cpp:241-246). -/
def mulAssignC (x y : BigInt) : Cost BigInt := do
  let r ← multiplyC x y
  swapC x { r with negative := x.negative != y.negative }

/-- See `iterQuotientLoop` (src/Int.cpp:551-560). -/
def iterQuotientLoopC (y x : BigInt) (st : Int) : Nat → Int → Cost (Int × BigInt)
  | 0, _ => fail .diverge
  | f + 1, b => do
      let q := b
      let b ← free (i32 (b + st))
      let prod ← multiplyByIntC x b
      let r ← opSubC y prod
      let r ← copyC r
      if r.negative then return (q, r)
      else do
        let c ← cmpBinsC x r
        if c ≤ 0 then iterQuotientLoopC y x st f b else return (q, r)

/-- See `iterQuotient` (src/Int.cpp:543-561). -/
def iterQuotientC (y x : BigInt) (q : Int) (st : Int) : Cost (Int × BigInt) :=
  iterQuotientLoopC y x st 4294967296 q

/-- See `qrLoop` (src/Int.cpp:593-596). -/
def qrLoopC (y x : BigInt) : Nat → Int → Int → BigInt → Cost (Int × BigInt)
  | 0, _, _, _ => fail .diverge
  | f + 1, st, q, r =>
    if st > 1 then do
      let st := st.tdiv 2
      let (q, r) ← iterQuotientC y x q st
      qrLoopC y x f st q r
    else return (q, r)

/-- See `quotientAndRemainder` (src/Int.cpp:583-598). -/
def quotientAndRemainderC (y x : BigInt) (r : BigInt := default) : Cost (Int × BigInt) := do
  free (assertR (!x.negative))
  free (assertR (!y.negative))
  let l1 ← leC x y
  let ok ← (if l1 then do
      let lim ← ofInt64C BIN_LIMIT
      let bx ← opMulC lim x
      ltC y bx
    else pure false)
  free (assertR ok)
  let (q, r) ← qrLoopC y x 64 BIN_LIMIT 0 r
  let q ← free (i32 (q + 1))
  return (q, r)

/-- See `divideLoop` (src/Int.cpp:618-641). -/
def divideLoopC (xn : BigInt) : Nat → List Int → BigInt → BigInt → Cost (List Int)
  | 0, bins, _, _ => pure bins
  | i + 1, bins, current, r => do
      free (assertR (current.bins.length > 0))
      free (assertR (i < bins.length))
      let b ← step (atR bins i)
      let _ ← step (atR current.bins 0)
      let current := { current with bins := current.bins.set 0 b }
      let c ← cmpBinsC xn current
      if c ≤ 0 then do
        let (q, r) ← quotientAndRemainderC current xn r
        free (assertR (q != 0))
        tick 1
        let current ← copyC r
        tick 1
        let cb ← cleanBinsC (0 :: current.bins)
        divideLoopC xn i (bins.set i q) { current with bins := cb } r
      else do
        tick 1
        let bins' ← cleanBinsC (bins.set i 0)
        tick 1
        let cb ← cleanBinsC (0 :: current.bins)
        divideLoopC xn i bins' { current with bins := cb } r

/-- See `divide` (src/Int.cpp:603-643): `const Int& x_norm = (x.negative) ? -x : x;` makes a new object in both cases. -/
def divideC (a x : BigInt) : Cost BigInt := do
  let z ← equalsInt32C x 0
  if z then fail .divideByZero
  else do
    let c ← cmpBinsC a x
    if c < 0 then setValueC 0
    else do
      let xn ← (if x.negative then negC x else copyC x)
      let bins ← divideLoopC xn a.bins.length a.bins default default
      return ⟨bins, a.negative != x.negative⟩

/-- See `opDiv` (src/Int.cpp:182-186). -/
def opDivC (x y : BigInt) : Cost BigInt := do
  let r ← ofShiftC x 0
  divideC r y

/-- See `divAssign` (src/Int.cpp:248-250). -/
def divAssignC (x y : BigInt) : Cost BigInt := do
  let t ← ofShiftC y 0
  divideC x t

/-- See `modulo` (src/Int.cpp:648-673). -/
def moduloC (x y : BigInt) : Cost BigInt := do
  let a ← ofShiftC x 0
  let b ← ofShiftC y 0
  let a ← (if a.negative then negateC a else pure a)
  let b ← (if b.negative then negateC b else pure b)
  let q ← opDivC a b
  let p ← opMulC q b
  let t ← opSubC a p
  let result ← copyC t
  let z ← equalsInt32C result 0
  if z then return result
  else if x.negative && y.negative then negateC result
  else if !x.negative && y.negative then addAssignC result y
  else if x.negative && !y.negative then do
    let t ← opSubC y result
    copyC t
  else return result

/-- See `opMod` (src/Int.cpp:188-192). -/
def opModC (x y : BigInt) : Cost BigInt := moduloC x y

/-- See `modAssign` (src/Int.cpp:252-256). -/
def modAssignC (x y : BigInt) : Cost BigInt := do
  let r ← moduloC x y
  swapC x r

/-- See `exponentiateF` (src/Int.cpp:684-699). Here only the calls of `exponentiate` are counted: a call makes at most one further call,
so their number is also the depth of the recursion. -/
def exponentiateCallsF : Nat → BigInt → BigInt → Cost BigInt
  | 0, _, _ => fail .diverge
  | f + 1, x, y => do
    tick 1
    let z ← free (y.equalsInt32 0)
    if z then free (setValue 1)
    else do
      let o ← free (y.equalsInt32 1)
      if o then return x
      else do
        let odd ← free y.isOdd
        if odd then do
          let one ← free (ofInt64 1)
          let y1 ← free (opSub y one)
          let a ← exponentiateCallsF f x y1
          free (opMul x a)
        else do
          let half ← free (divideByInt y 2 default)
          let r ← exponentiateCallsF f x half
          free (opMul r r)

/-- See `exponentiate`, `opPow`, `powAssign` (src/Int.cpp:194-198, 258-262, 684-699). -/
def exponentiateCalls (x y : BigInt) : Cost BigInt :=
  exponentiateCallsF (2 * 1000000000 ^ y.bins.length + 4) x y

end BigInt
end CppMaths
