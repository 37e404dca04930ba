import Verif.Model.IntMem
/-!
# `Int` when memory runs out

The operations of `class Int` with every point at which the `std::deque` of an object may need memory. Whether a request is refused is
decided by `ILuck`; a refused request throws `std::bad_alloc`.

* Objects that a function creates are values here: when the function throws they are destroyed, and nobody sees what is in them. A constructor
  or a loop of insertions into such an object asks once, whichever of its requests is refused.
* The object on which a member function works in place (`*this`) is the state of the computation `TM`: it is left as it is at the moment
  of the exception.
* `std::deque` is assumed to behave as the standard says: `push_back`, `push_front` and `resize` have no effect when they throw; an assignment
  that throws leaves some contents (`ILuck.left`); `clear`, `pop_back`, `pop_front` and access do not throw `bad_alloc`.
* There is no move constructor and no move assignment, because `Int(const Int&, size_t = 0)` (src/Int.hpp:40) is a copy constructor declared by the
  user; so `std::swap` copies. Returned objects may be copied (the request is then granted if the compiler elides the copy).
* An operand that is the same object as `*this` is read before `*this` is changed, see Verif/Model/IntMem.lean; so operands are values.
* Output is not treated. For input see `Verif.Model.ReadAlloc`: the streams of the standard library have their own way with `bad_alloc`.
-/

namespace CppMaths

/-- The answers of the free store; the first argument is the number of the question. -/
structure ILuck where
  /-- Is the request refused? -/
  refuse : Nat → Bool
  /-- What an assignment to a deque that fails leaves in it, given the old and the new contents. -/
  left : Nat → List Int → List Int → List Int

/-- A computation that changes an object of type `σ` in place. The number counts the questions asked so far. -/
def GM (σ α : Type) := σ × Nat → Except Err α × (σ × Nat)

/-- A computation that changes no object. -/
abbrev AM (α : Type) := GM Unit α

/-- A computation that changes `*this`. -/
abbrev TM (α : Type) := GM BigInt α

namespace GM
variable {σ α : Type}

instance : Monad (GM σ) where
  pure a := fun s => (.ok a, s)
  bind x f := fun s => match x s with
    | (.ok a, s') => f a s'
    | (.error e, s') => (.error e, s')

/-- A computation that needs no memory. -/
def free (r : Res α) : GM σ α := fun s => (r, s)

/-- A request for memory. -/
def ask (L : ILuck) : GM σ Unit := fun s => (if L.refuse s.2 then .error .badAlloc else .ok (), (s.1, s.2 + 1))

/-- `*this`. -/
def this : GM σ σ := fun s => (.ok s.1, s)

/-- Change `*this`. -/
def put (v : σ) : GM σ Unit := fun s => (.ok (), (v, s.2))

/-- A computation with other objects. -/
def other (m : AM α) : GM σ α := fun s => match m ((), s.2) with | (r, (_, n)) => (r, (s.1, n))

/-- Change a local object in place; what is left of it after an exception nobody sees. -/
def local' {τ : Type} (v : τ) (m : GM τ Unit) : GM σ τ := fun s => match m (v, s.2) with
  | (.ok _, (v', n)) => (.ok v', (s.1, n))
  | (.error e, (_, n)) => (.error e, (s.1, n))

end GM

namespace BigInt
open GM

/-! ### Construction and copies -/

/-- `Int::Int()` (src/Int.cpp:273-274). -/
def defaultA (L : ILuck) : AM BigInt := do
  ask L
  return default

/-- `Int::Int(const Int& x, size_t shift)` (src/Int.cpp:302-305). -/
def ofShiftA (L : ILuck) (x : BigInt) (shift : Nat) : AM BigInt := do
  ask L
  return ofShift x shift

/-- `Int::Int(int64_t x, size_t shift)` (src/Int.cpp:281-295). -/
def ofInt64A (L : ILuck) (x : Int) (shift : Nat := 0) : AM BigInt := do
  ask L
  free (ofInt64 x shift)

/-- A returned object (`return r;`), copied unless the copy is elided. -/
def returned (L : ILuck) (x : BigInt) : AM BigInt := do
  ask L
  return x

/-- The implicit copy assignment of `Int`: first the deque, then the sign. -/
def assignT (L : ILuck) (v : BigInt) : TM Unit := fun s =>
  if L.refuse s.2 then (.error .badAlloc, ({ s.1 with bins := L.left s.2 s.1.bins v.bins }, s.2 + 1))
  else (.ok (), (v, s.2 + 1))

/-- `std::swap(*this, r)`: a copy of `*this`, then two assignments; the last one goes to the local object `r`. -/
def swapT (L : ILuck) (r : BigInt) : TM Unit := do
  ask L
  assignT L r
  ask L

/-- `Int::set_value` (src/Int.cpp:337-341): the deque is empty when `push_back` throws. -/
def setValueT (L : ILuck) (val : Int) : TM Unit := do
  let a ← this
  put { a with bins := [] }
  let r ← free (setValue val)
  ask L
  put r

/-- `Int::negate` (src/Int.hpp:57). -/
def negateT : TM Unit := do
  let a ← this
  let r ← free a.negate
  put r

/-- Unary `operator-` (src/Int.cpp:264-268). -/
def negA (L : ILuck) (x : BigInt) : AM BigInt := do
  let y ← ofShiftA L x 0
  let y ← local' y negateT
  returned L y

/-- `abs<Int>` (src/common.hpp:41-44). -/
def absA (L : ILuck) (a : BigInt) : AM BigInt := do
  let z ← ofInt64A L 0
  let l ← free (a.lt z)
  if l then negA L a else ofShiftA L a 0

/-! ### Sums and differences -/

/-- `Int::add` (src/Int.cpp:394-415): `resize`, the loops, `push_back` of the carry. -/
def addT (L : ILuck) (x : BigInt) : TM Unit := do
  let a ← this
  if x.bins.length > a.bins.length then do
    ask L
    put { a with bins := a.bins ++ List.replicate (x.bins.length - a.bins.length) 0 }
  else pure ()
  let a ← this
  let (r, c) ← free (addLoop a.bins x.bins 0)
  put { a with bins := r }
  if c ≠ 0 then do
    ask L
    put { a with bins := r ++ [c] }
  else pure ()

/-- `Int::subtract` (src/Int.cpp:420-463); the third assertion copies both numbers. -/
def subtractT (L : ILuck) (x : BigInt) : TM Unit := do
  let a ← this
  free (assertTop a.bins)
  free (assertTop x.bins)
  let aa ← other (absA L a)
  let ax ← other (absA L x)
  let g ← free (aa.ge ax)
  free (assertR g)
  let r ← free (subLoop a.bins x.bins 0)
  put { a with bins := cleanBins r }

/-- The last part of `operator+` (src/Int.cpp:138-146). -/
def addNonnegA (L : ILuck) (x y : BigInt) : AM BigInt :=
  if x.bins.length > y.bins.length then do
    let r ← ofShiftA L x 0
    let r ← local' r (addT L y)
    returned L r
  else do
    let r ← ofShiftA L y 0
    let r ← local' r (addT L x)
    returned L r

/-- The last part of `operator-` (src/Int.cpp:157-167). -/
def subNonnegA (L : ILuck) (x y : BigInt) : AM BigInt := do
  let g ← free (x.gt y)
  if g then do
    let r ← ofShiftA L x 0
    let r ← local' { r with bins := cleanBins r.bins } (subtractT L y)
    returned L r
  else do
    let r ← ofShiftA L y 0
    let r ← local' { r with bins := cleanBins r.bins } (subtractT L x)
    negA L r

/-- `operator+` (src/Int.cpp:130-147); recursion unfolded as in `opAdd`. -/
def opAddA (L : ILuck) (x y : BigInt) : AM BigInt :=
  if x.negative && y.negative then do
    let a ← negA L x
    let b ← negA L y
    let r ← addNonnegA L a b
    negA L r
  else if x.negative && !y.negative then do
    let a ← negA L x
    let r ← subNonnegA L a y
    negA L r
  else if !x.negative && y.negative then do
    let b ← negA L y
    subNonnegA L x b
  else addNonnegA L x y

/-- `operator-` (src/Int.cpp:149-168); recursion unfolded as in `opSub`. -/
def opSubA (L : ILuck) (x y : BigInt) : AM BigInt :=
  if x.negative && y.negative then do
    let a ← negA L x
    let b ← negA L y
    let r ← subNonnegA L a b
    negA L r
  else if x.negative && !y.negative then do
    let a ← negA L x
    let r ← addNonnegA L a y
    negA L r
  else if !x.negative && y.negative then do
    let b ← negA L y
    addNonnegA L x b
  else subNonnegA L x y

/-- The last branch of `Int::operator+=` (src/Int.cpp:213). -/
def addAssignNonnegT (L : ILuck) (y : BigInt) : TM Unit := do
  let c ← other (ofShiftA L y 0)
  addT L c

/-- The last branch of `Int::operator-=` (src/Int.cpp:230-237). -/
def subAssignNonnegT (L : ILuck) (y : BigInt) : TM Unit := do
  let x ← this
  let g ← free (x.gt y)
  if g then subtractT L y
  else do
    let r ← other (ofShiftA L y 0)
    let r ← local' r (do subtractT L x; negateT)
    swapT L r

/-- `Int::operator+=` (src/Int.cpp:200-215); recursion unfolded as in `addAssign`. -/
def addAssignT (L : ILuck) (y : BigInt) : TM Unit := do
  let x ← this
  if x.negative && y.negative then do
    let tmp ← other (negA L y)
    negateT
    addAssignNonnegT L tmp
    negateT
  else if x.negative && !y.negative then do
    negateT
    subAssignNonnegT L y
    negateT
  else if !x.negative && y.negative then do
    let t ← other (negA L y)
    subAssignNonnegT L t
  else addAssignNonnegT L y

/-- `Int::operator-=` (src/Int.cpp:217-239); recursion unfolded as in `subAssign`. -/
def subAssignT (L : ILuck) (y : BigInt) : TM Unit := do
  let x ← this
  if x.negative && y.negative then do
    let tmp ← other (negA L y)
    negateT
    subAssignNonnegT L tmp
    negateT
  else if x.negative && !y.negative then do
    negateT
    addAssignNonnegT L y
    negateT
  else if !x.negative && y.negative then do
    let t ← other (negA L y)
    addAssignNonnegT L t
  else subAssignNonnegT L y

/-! ### Products -/

/-- The loop of `multiply_by_int` (src/Int.cpp:495-498). -/
def mulByIntLoopA (L : ILuck) : List Int → Int → Nat → BigInt → AM BigInt
  | [], _, _, r => pure r
  | b :: bs, y, i, r => do
      let prod ← free (i64 (y * b))
      let t ← ofInt64A L prod i
      let r ← local' r (addAssignT L t)
      mulByIntLoopA L bs y (i + 1) r

/-- `multiply_by_int` (src/Int.cpp:492-499); `result` is a local object of all callers. -/
def multiplyByIntA (L : ILuck) (x : BigInt) (y : Int) : AM BigInt := do
  let r ← local' default (setValueT L 0)
  mulByIntLoopA L x.bins y 0 r

/-- The loop of `multiply` (src/Int.cpp:507-510). -/
def multiplyLoopA (L : ILuck) (x : BigInt) : List Int → Nat → BigInt → AM BigInt
  | [], _, r => pure r
  | b :: bs, i, r => do
      let p ← multiplyByIntA L x b
      let t ← ofShiftA L p i
      let r ← local' r (addAssignT L t)
      multiplyLoopA L x bs (i + 1) r

/-- `multiply` (src/Int.cpp:504-511); `result` is a local object of all callers. -/
def multiplyA (L : ILuck) (x y : BigInt) : AM BigInt := do
  let _ ← defaultA L
  let r ← local' default (setValueT L 0)
  multiplyLoopA L x y.bins 0 r

/-- `operator*` (src/Int.cpp:170-180). -/
def opMulA (L : ILuck) (x y : BigInt) : AM BigInt := do
  let _ ← defaultA L
  let r ← (if x.bins.length > y.bins.length then multiplyA L x y else multiplyA L y x)
  let r ← (if x.negative != y.negative then local' r negateT else pure r)
  returned L r

/-- `Int::operator*=` (src/Int.cpp:241-246). -/
def mulAssignT (L : ILuck) (y : BigInt) : TM Unit := do
  let x ← this
  let _ ← other (defaultA L)
  let r ← other (multiplyA L x y)
  swapT L { r with negative := x.negative != y.negative }

/-! ### Quotients -/

/-- `divide_by_int` (src/Int.cpp:516-530) into a local object, as in its only call (src/Int.cpp:695). -/
def divideByIntA (L : ILuck) (x : BigInt) (y : Int) (result : BigInt) : AM BigInt := do
  let r ← free (divideByInt x y result)
  ask L
  return r

/-- The loop of `iter_quotient` (src/Int.cpp:551-560); `r = y - prod` assigns to an object that is local to `divide`. -/
def iterQuotientLoopA (L : ILuck) (y x : BigInt) (step : Int) : Nat → Int → AM (Int × BigInt)
  | 0, _ => free (.error .diverge)
  | f + 1, b => do
      let q := b
      let b ← free (i32 (b + step))
      let prod ← multiplyByIntA L x b
      let r ← opSubA L y prod
      ask L
      if r.negative then return (q, r)
      else do
        let c ← free (cmpBins x r)
        if c ≤ 0 then iterQuotientLoopA L y x step f b else return (q, r)

/-- `iter_quotient` (src/Int.cpp:543-561). -/
def iterQuotientA (L : ILuck) (y x : BigInt) (q : Int) (step : Int) : AM (Int × BigInt) := do
  let _ ← defaultA L
  iterQuotientLoopA L y x step 4294967296 q

/-- The loop of `quotient_and_remainder` (src/Int.cpp:593-596). -/
def qrLoopA (L : ILuck) (y x : BigInt) : Nat → Int → Int → BigInt → AM (Int × BigInt)
  | 0, _, _, _ => free (.error .diverge)
  | f + 1, step, q, r =>
    if step > 1 then do
      let step := step.tdiv 2
      let (q, r) ← iterQuotientA L y x q step
      qrLoopA L y x f step q r
    else return (q, r)

/-- `quotient_and_remainder` (src/Int.cpp:583-598). -/
def quotientAndRemainderA (L : ILuck) (y x : BigInt) (r : BigInt) : AM (Int × BigInt) := do
  free (assertR (!x.negative))
  free (assertR (!y.negative))
  let l1 ← free (x.le y)
  let ok ← (if l1 then do
      let lim ← ofInt64A L BIN_LIMIT
      let bx ← opMulA L lim x
      free (y.lt bx)
    else pure false)
  free (assertR ok)
  let (q, r) ← qrLoopA L y x 64 BIN_LIMIT 0 r
  let q ← free (i32 (q + 1))
  return (q, r)

/-- The loop of `Int::divide` (src/Int.cpp:618-641): the bins of `*this` are replaced one by one. -/
def divideLoopT (L : ILuck) (xn : BigInt) : Nat → BigInt → BigInt → TM Unit
  | 0, _, _ => pure ()
  | i + 1, current, r => do
      let a ← this
      free (assertR (current.bins.length > 0))
      free (assertR (i < a.bins.length))
      let b ← free (atR a.bins i)
      let _ ← free (atR current.bins 0)
      let current := { current with bins := current.bins.set 0 b }
      let c ← free (cmpBins xn current)
      if c ≤ 0 then do
        let (q, r) ← other (quotientAndRemainderA L current xn r)
        free (assertR (q != 0))
        put { a with bins := a.bins.set i q }
        ask L  -- current = r; current.shift(1);
        divideLoopT L xn i { r with bins := cleanBins (0 :: r.bins) } r
      else do
        put { a with bins := cleanBins (a.bins.set i 0) }
        ask L  -- current.shift(1);
        divideLoopT L xn i { current with bins := cleanBins (0 :: current.bins) } r

/-- `Int::divide` (src/Int.cpp:603-643); `x_norm` is a copy in both cases. -/
def divideT (L : ILuck) (x : BigInt) : TM Unit := do
  let a ← this
  let z ← free (x.equalsInt32 0)
  if z then free (.error .divideByZero)
  else do
    let c ← free (cmpBins a x)
    if c < 0 then setValueT L 0
    else do
      let xn ← (if x.negative then other (negA L x) else other (ofShiftA L x 0))
      let _ ← other (defaultA L)
      let _ ← other (defaultA L)
      divideLoopT L xn a.bins.length default default
      let a ← this
      put { a with negative := a.negative != x.negative }

/-- `operator/` (src/Int.cpp:182-186). -/
def opDivA (L : ILuck) (x y : BigInt) : AM BigInt := do
  let r ← ofShiftA L x 0
  let r ← local' r (divideT L y)
  returned L r

/-- `Int::operator/=` (src/Int.cpp:248-250). -/
def divAssignT (L : ILuck) (y : BigInt) : TM Unit := do
  let c ← other (ofShiftA L y 0)
  divideT L c

/-- `modulo` (src/Int.cpp:648-673); `result` is a local object of all callers. -/
def moduloA (L : ILuck) (x y : BigInt) : AM BigInt := do
  let a ← ofShiftA L x 0
  let b ← ofShiftA L y 0
  let a ← (if a.negative then local' a negateT else pure a)
  let b ← (if b.negative then local' b negateT else pure b)
  let q ← opDivA L a b
  let p ← opMulA L q b
  let result ← opSubA L a p
  ask L
  let z ← free (result.equalsInt32 0)
  if z then return result
  else if x.negative && y.negative then local' result negateT
  else if !x.negative && y.negative then local' result (addAssignT L y)
  else if x.negative && !y.negative then do
    let r ← opSubA L y result
    ask L
    return r
  else return result

/-- `operator%` (src/Int.cpp:188-192). -/
def opModA (L : ILuck) (x y : BigInt) : AM BigInt := do
  let _ ← defaultA L
  let r ← moduloA L x y
  returned L r

/-- `Int::operator%=` (src/Int.cpp:252-256). -/
def modAssignT (L : ILuck) (y : BigInt) : TM Unit := do
  let x ← this
  let _ ← other (defaultA L)
  let r ← other (moduloA L x y)
  swapT L r

/-! ### Powers -/

/-- `exponentiate` (src/Int.cpp:684-699); `result` is a local object of all callers. -/
def exponentiateFA (L : ILuck) : Nat → BigInt → BigInt → AM BigInt
  | 0, _, _ => free (.error .diverge)
  | f + 1, x, y => do
    let z ← free (y.equalsInt32 0)
    if z then local' default (setValueT L 1)
    else do
      let o ← free (y.equalsInt32 1)
      if o then ofShiftA L x 0
      else do
        let odd ← free y.isOdd
        if odd then do
          let _ ← defaultA L
          let one ← ofInt64A L 1
          let y1 ← opSubA L y one
          let a ← exponentiateFA L f x y1
          let r ← opMulA L x a
          ask L
          return r
        else do
          let h ← defaultA L
          let half ← divideByIntA L y 2 h
          let r ← exponentiateFA L f x half
          let r ← opMulA L r r
          ask L
          return r

/-- `operator^` (src/Int.cpp:194-198). -/
def opPowA (L : ILuck) (x y : BigInt) : AM BigInt := do
  let _ ← defaultA L
  let r ← exponentiateFA L (2 * 1000000000 ^ y.bins.length + 4) x y
  returned L r

/-- `Int::operator^=` (src/Int.cpp:258-262). -/
def powAssignT (L : ILuck) (y : BigInt) : TM Unit := do
  let x ← this
  let _ ← other (defaultA L)
  let r ← other (exponentiateFA L (2 * 1000000000 ^ y.bins.length + 4) x y)
  swapT L r

/-! ### `times_power_ten` -/

/-- `for (i < n) (*this) *= 10;` (src/Int.cpp:468-469). -/
def mulTenLoopT (L : ILuck) : Nat → TM Unit
  | 0 => pure ()
  | n + 1 => do
      let ten ← other (ofInt64A L 10)
      mulAssignT L ten
      mulTenLoopT L n

/-- `for (i < n) (*this) /= 10;` (src/Int.cpp:483-484). -/
def divTenLoopT (L : ILuck) : Nat → TM Unit
  | 0 => pure ()
  | n + 1 => do
      let ten ← other (ofInt64A L 10)
      divAssignT L ten
      divTenLoopT L n

/-- `bins.push_front(0)`, `n` times (src/Int.cpp:470-473). -/
def shiftT (L : ILuck) : Nat → TM Unit
  | 0 => pure ()
  | n + 1 => do
      ask L
      let a ← this
      put { a with bins := 0 :: a.bins }
      shiftT L n

/-- `Int::times_power_ten` (src/Int.cpp:465-487); see `timesPowerTen`. -/
def timesPowerTenT (L : ILuck) (power : Int) : TM Unit :=
  if power > 0 then do
    mulTenLoopT L (power.toNat % BIN_WIDTH)
    shiftT L (power.toNat / BIN_WIDTH)
  else if power < 0 then do
    let pow ← free (i32 (-power))
    let a ← this
    put { a with bins := a.bins.drop (pow.toNat / BIN_WIDTH) }
    if (a.bins.drop (pow.toNat / BIN_WIDTH)).isEmpty then setValueT L 0
    else divTenLoopT L (pow.toNat % BIN_WIDTH)
  else pure ()

end BigInt

/-- `a op b` (src/Int.cpp:130-192). -/
def IOp.runA (L : ILuck) : IOp → BigInt → BigInt → AM BigInt
  | .add => BigInt.opAddA L
  | .sub => BigInt.opSubA L
  | .mul => BigInt.opMulA L
  | .div => BigInt.opDivA L
  | .mod => BigInt.opModA L

/-- `*this op= b` (src/Int.cpp:200-256). -/
def IOp.assignT (L : ILuck) : IOp → BigInt → TM Unit
  | .add => BigInt.addAssignT L
  | .sub => BigInt.subAssignT L
  | .mul => BigInt.mulAssignT L
  | .div => BigInt.divAssignT L
  | .mod => BigInt.modAssignT L

end CppMaths
