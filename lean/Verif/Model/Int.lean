import Verif.Model.Stream
/-!
# Model of `class Int` (src/Int.hpp, src/Int.cpp)

`bins` is the `std::deque<int32_t>`, least significant bin first. Sizes and indices are natural
numbers: deques of 2^31 or more bins, for which the `int32_t` index variables of src/Int.cpp:350
and :618 would wrap, are outside the model.
-/

namespace CppMaths

/-- `Int::BIN_WIDTH` (src/Int.hpp:35). -/
abbrev BIN_WIDTH : Nat := 9
/-- `Int::BIN_LIMIT` (src/Int.hpp:36). -/
abbrev BIN_LIMIT : Int := 1000000000

/-- The data members of `class Int` (src/Int.hpp:81-82). -/
structure BigInt where
  bins : List Int
  negative : Bool
deriving DecidableEq, Repr

namespace BigInt

/-- Default constructor `Int::Int()` (src/Int.cpp:273-274). -/
def default : BigInt := ⟨[0], false⟩

/-- `bins.at(i)` (std::deque::at). -/
def atR (l : List Int) (i : Nat) : Res Int :=
  match l[i]? with
  | some b => .ok b
  | none => .error .outOfRange

/-- `Int::set_value` (src/Int.cpp:337-341). `abs(val)` overflows for INT_MIN. The previous value of the
object is discarded entirely, so it is not an argument. Note that a `val` of 10^9 or more in magnitude
is stored in one bin. -/
def setValue (val : Int) : Res BigInt := do
  let a ← i32 (if val < 0 then -val else val)
  return ⟨[a], decide (val < 0)⟩

/-- `Int::equals_int32` (src/Int.cpp:323-334). For an empty deque `bins.size() - 1` wraps around
and `bins.at(0)` throws. The loop over `i < bins.size() - 1` is the test on all bins but the last. -/
def equalsInt32 (a : BigInt) (x : Int) : Res Bool := do
  let val ← i32 (if x < 0 then -x else x)
  match a.bins.getLast? with
  | none => .error .outOfRange
  | some top =>
    if a.bins.dropLast.any (· != 0) then return false
    else if top == val && a.negative == decide (x < 0) then return true
    else if top == val && val == 0 then return true
    else return false

/-- `Int::is_odd` (src/Int.hpp:55). -/
def isOdd (a : BigInt) : Res Bool := do
  let b ← atR a.bins 0
  return (b.tmod 2 == 1)

/-- `Int::is_negative` (src/Int.hpp:56). -/
def isNegative (a : BigInt) : Bool := a.negative

/-- `Int::negate` (src/Int.hpp:57). -/
def negate (a : BigInt) : Res BigInt := do
  let z ← a.equalsInt32 0
  return { a with negative := if z then false else !a.negative }

/-- Unary `operator-` (src/Int.cpp:264-268): copy and negate. -/
def neg (a : BigInt) : Res BigInt := a.negate

/-- The `while (x >= BIN_LIMIT)` loop of `Int::Int(int64_t, size_t)` followed by the final
`if (x > 0)` (src/Int.cpp:289-294). The first argument is an iteration budget. -/
def pushBins : Nat → Int → Res (List Int)
  | 0, _ => .error .diverge
  | f + 1, x =>
    if x ≥ BIN_LIMIT then do
      let r ← pushBins f (x.tdiv BIN_LIMIT)
      return toI32 (x.tmod BIN_LIMIT) :: r
    else if x > 0 then return [toI32 x]
    else return []

/-- `Int::Int(int64_t x, size_t shift)` (src/Int.cpp:281-295). `-x` overflows for INT64_MIN.
A 64-bit value runs through the loop fewer than 4 times. -/
def ofInt64 (x : Int) (shift : Nat := 0) : Res BigInt :=
  if x < 0 then do
    let x ← i64 (-x)
    let r ← pushBins 4 x
    return ⟨List.replicate shift 0 ++ r, true⟩
  else if x == 0 then setValue 0
  else do
    let r ← pushBins 4 x
    return ⟨List.replicate shift 0 ++ r, false⟩

/-- `Int::Int(const Int& x, size_t shift)` (src/Int.cpp:302-305). -/
def ofShift (x : BigInt) (shift : Nat := 0) : BigInt :=
  ⟨List.replicate shift 0 ++ x.bins, x.negative⟩

/-- The second loop of `Int::cmp_bins` (src/Int.cpp:358-361), on bins listed from the most significant. -/
def lexCmp : List Int → List Int → Res Int
  | [], _ => .ok 0
  | _ :: _, [] => .error .outOfRange
  | a :: as, b :: bs => if cmpInts a b ≠ 0 then .ok (cmpInts a b) else lexCmp as bs

/-- `Int::cmp_bins` in the case `offset >= 0`, i.e. `x` has at least as many bins
(src/Int.cpp:353-361). -/
def cmpBinsGe (a x : List Int) : Res Int :=
  let offset := x.length - a.length
  if (x.reverse.take offset).any (· != 0) then .ok (-1)
  else lexCmp a.reverse (x.reverse.drop offset)

/-- `Int::cmp_bins` (src/Int.cpp:348-362): compares magnitudes. When `offset < 0` it calls itself once
with the arguments exchanged. -/
def cmpBins (a x : BigInt) : Res Int :=
  if x.bins.length < a.bins.length then do
    let r ← cmpBinsGe x.bins a.bins
    return -r
  else cmpBinsGe a.bins x.bins

/-- The loop of `Int::cleanBins` on the bins listed from the most significant. -/
def cleanRev : List Int → List Int
  | [] => []
  | [b] => [b]
  | b :: c :: r => if b == 0 then cleanRev (c :: r) else b :: c :: r

/-- `Int::cleanBins` (src/Int.cpp:364-370): pops zero bins off the most significant end, keeping one. -/
def cleanBins (l : List Int) : List Int := (cleanRev l.reverse).reverse

/-- `Int::cmp` (src/Int.cpp:377-391). -/
def cmp (a x : BigInt) : Res Int := do
  let c ← cmpBins a x
  -- `bin_cmp == 0 && equals_int32(0)` evaluates `equals_int32` only when `bin_cmp == 0`
  let z ← (if c == 0 then a.equalsInt32 0 else pure false)
  if z then return 0
  else if a.negative && x.negative then return -c
  else if !a.negative && !x.negative then return c
  else if a.negative then return -1
  else return 1

/-- `operator<` (src/Int.hpp:74). -/
def lt (a x : BigInt) : Res Bool := do let c ← cmp a x; return decide (c < 0)
/-- `operator>` (src/Int.hpp:75). -/
def gt (a x : BigInt) : Res Bool := do let c ← cmp a x; return decide (c > 0)
/-- `operator<=` (src/Int.hpp:76). -/
def le (a x : BigInt) : Res Bool := do let c ← cmp a x; return decide (c ≤ 0)
/-- `operator>=` (src/Int.hpp:77). -/
def ge (a x : BigInt) : Res Bool := do let c ← cmp a x; return decide (c ≥ 0)
/-- `operator!=` (src/Int.hpp:78). -/
def ne (a x : BigInt) : Res Bool := do let c ← cmp a x; return decide (c ≠ 0)
/-- `operator==` (src/Int.hpp:79). -/
def eq (a x : BigInt) : Res Bool := do let c ← cmp a x; return decide (c = 0)

/-- `abs<Int>` (src/common.hpp:41-44): `(a < 0) ? -a : a`, where `0` converts to `Int(0)`. -/
def abs (a : BigInt) : Res BigInt := do
  let z ← ofInt64 0
  let l ← a.lt z
  if l then a.neg else return a

/-- The carry loop of `Int::add` (src/Int.cpp:406-412) on the bins from index `i` on. -/
def addCarry : List Int → Int → Res (List Int × Int)
  | [], c => .ok ([], c)
  | b :: bs, c =>
    if c ≠ 0 then do
      let sum ← i32 (b + c)
      let (r, c') ← addCarry bs (max32 0 (sum.tdiv BIN_LIMIT))
      return (sum.tmod BIN_LIMIT :: r, c')
    else .ok (b :: bs, c)

/-- The main loop of `Int::add` (src/Int.cpp:400-405) followed by the carry loop. First argument:
`bins` from index `i` on, second: `x.bins` from index `i` on. -/
def addLoop : List Int → List Int → Int → Res (List Int × Int)
  | bs, [], c => addCarry bs c
  | [], _ :: _, _ => .error .outOfRange
  | b :: bs, x :: xs, c => do
      let s ← i32 (b + x)
      let sum ← i32 (s + c)
      let (r, c') ← addLoop bs xs (max32 0 (sum.tdiv BIN_LIMIT))
      return (sum.tmod BIN_LIMIT :: r, c')

/-- `Int::add` (src/Int.cpp:394-415): adds magnitudes, keeps the sign of `*this`. -/
def add (a x : BigInt) : Res BigInt := do
  let bins := a.bins ++ List.replicate (x.bins.length - a.bins.length) 0
  let (r, c) ← addLoop bins x.bins 0
  return { a with bins := if c ≠ 0 then r ++ [c] else r }

/-- The borrow loop of `Int::subtract` (src/Int.cpp:451-461). -/
def subBorrow : List Int → Int → Res (List Int)
  | [], _ => .ok []
  | b :: bs, w =>
    if w ≠ 0 then do
      let diff ← i32 (b - w)
      if diff < 0 then do
        let d ← i32 (diff + BIN_LIMIT)
        let r ← subBorrow bs 1
        return d :: r
      else do
        let r ← subBorrow bs 0
        return diff :: r
    else .ok (b :: bs)

/-- The main loop of `Int::subtract` (src/Int.cpp:435-450) followed by the borrow loop. -/
def subLoop : List Int → List Int → Int → Res (List Int)
  | bs, [], w => subBorrow bs w
  | [], _ :: _, _ => .error .outOfRange
  | b :: bs, x :: xs, w => do
      let t ← i32 (b - w)
      let diff ← i32 (t - x)
      if diff < 0 then do
        let d ← i32 (diff + BIN_LIMIT)
        let r ← subLoop bs xs 1
        return d :: r
      else do
        let r ← subLoop bs xs 0
        return diff :: r

/-- `if (bins.size() > 1) assert(bins.back() != 0);` (src/Int.cpp:432-433). -/
def assertTop (l : List Int) : Res Unit :=
  if l.length > 1 then assertR (l.getLast? != some 0) else .ok ()

/-- `Int::subtract` (src/Int.cpp:420-463): subtracts magnitudes, keeps the sign of `*this`. -/
def subtract (a x : BigInt) : Res BigInt := do
  assertTop a.bins
  assertTop x.bins
  let aa ← a.abs
  let ax ← x.abs
  let g ← aa.ge ax
  assertR g
  let r ← subLoop a.bins x.bins 0
  return { a with bins := cleanBins r }

/-- The last part of `operator+` (src/Int.cpp:138-146), reached when neither operand is negative. -/
def addNonneg (x y : BigInt) : Res BigInt :=
  if x.bins.length > y.bins.length then x.add y else y.add x

/-- The last part of `operator-` (src/Int.cpp:157-167), reached when neither operand is negative. -/
def subNonneg (x y : BigInt) : Res BigInt := do
  let g ← x.gt y
  if g then
    BigInt.subtract { x with bins := cleanBins x.bins } y
  else do
    let r ← BigInt.subtract { y with bins := cleanBins y.bins } x
    r.neg

/-- `operator+` (src/Int.cpp:130-147). The C++ function calls `operator+`/`operator-` again on negated
operands, which are then not negative, so the calls reach the last part; the recursive equations of
the C++ text are proved as `opAdd_eq` in `Verif/Proofs/IntUnfold.lean`. -/
def opAdd (x y : BigInt) : Res BigInt :=
  if x.negative && y.negative then do
    let r ← addNonneg (← x.neg) (← y.neg)
    r.neg
  else if x.negative && !y.negative then do
    let r ← subNonneg (← x.neg) y
    r.neg
  else if !x.negative && y.negative then do
    subNonneg x (← y.neg)
  else addNonneg x y

/-- `operator-` (src/Int.cpp:149-168); recursion unfolded as in `opAdd` (`opSub_eq`). -/
def opSub (x y : BigInt) : Res BigInt :=
  if x.negative && y.negative then do
    let r ← subNonneg (← x.neg) (← y.neg)
    r.neg
  else if x.negative && !y.negative then do
    let r ← addNonneg (← x.neg) y
    r.neg
  else if !x.negative && y.negative then do
    addNonneg x (← y.neg)
  else subNonneg x y

/-- The last branch of `Int::operator+=` (src/Int.cpp:213): `add(Int(other))`. -/
def addAssignNonneg (x y : BigInt) : Res BigInt := x.add (ofShift y 0)

/-- The last branch of `Int::operator-=` (src/Int.cpp:230-237). -/
def subAssignNonneg (x y : BigInt) : Res BigInt := do
  let g ← x.gt y
  if g then x.subtract y
  else do
    let r ← y.subtract x
    r.negate

/-- `Int::operator+=` (src/Int.cpp:200-215); recursion unfolded (`addAssign_eq`). -/
def addAssign (x y : BigInt) : Res BigInt :=
  if x.negative && y.negative then do
    let tmp ← y.neg
    let r ← addAssignNonneg (← x.negate) tmp
    r.negate
  else if x.negative && !y.negative then do
    let r ← subAssignNonneg (← x.negate) y
    r.negate
  else if !x.negative && y.negative then do
    subAssignNonneg x (← y.neg)
  else addAssignNonneg x y

/-- `Int::operator-=` (src/Int.cpp:217-239); recursion unfolded (`subAssign_eq`). -/
def subAssign (x y : BigInt) : Res BigInt :=
  if x.negative && y.negative then do
    let tmp ← y.neg
    let r ← subAssignNonneg (← x.negate) tmp
    r.negate
  else if x.negative && !y.negative then do
    let r ← addAssignNonneg (← x.negate) y
    r.negate
  else if !x.negative && y.negative then do
    addAssignNonneg x (← y.neg)
  else subAssignNonneg x y

/-- The loop of `multiply_by_int` (src/Int.cpp:495-498) on the bins from index `i` on. -/
def mulByIntLoop : List Int → Int → Nat → BigInt → Res BigInt
  | [], _, _, r => .ok r
  | b :: bs, y, i, r => do
      let prod ← i64 (y * b)
      let t ← ofInt64 prod i
      let r ← r.addAssign t
      mulByIntLoop bs y (i + 1) r

/-- `multiply_by_int` (src/Int.cpp:492-499). -/
def multiplyByInt (x : BigInt) (y : Int) : Res BigInt := do
  let r ← setValue 0
  mulByIntLoop x.bins y 0 r

/-- The loop of `multiply` (src/Int.cpp:507-510) on the bins of `y` from index `i` on. -/
def multiplyLoop (x : BigInt) : List Int → Nat → BigInt → Res BigInt
  | [], _, r => .ok r
  | b :: bs, i, r => do
      let p ← multiplyByInt x b
      let r ← r.addAssign (ofShift p i)
      multiplyLoop x bs (i + 1) r

/-- `multiply` (src/Int.cpp:504-511). -/
def multiply (x y : BigInt) : Res BigInt := do
  let r ← setValue 0
  multiplyLoop x y.bins 0 r

/-- `operator*` (src/Int.cpp:170-180). -/
def opMul (x y : BigInt) : Res BigInt := do
  let r ← (if x.bins.length > y.bins.length then multiply x y else multiply y x)
  if x.negative != y.negative then r.negate else return r

/-- `Int::operator*=` (src/Int.cpp:241-246): the operands are not exchanged and the sign is stored
without a test for zero. -/
def mulAssign (x y : BigInt) : Res BigInt := do
  let r ← multiply x y
  return { r with negative := x.negative != y.negative }

/-- The loop of `divide_by_int` (src/Int.cpp:522-527), bins of `x` from the most significant; the
result is built with `push_front`, `r` is the running remainder. -/
def divByIntLoop (y : Int) : List Int → Int → List Int → Res (List Int)
  | [], _, acc => .ok acc
  | b :: bs, r, acc => do
      let m ← i64 (r * BIN_LIMIT)
      let d ← i64 (m + b)
      -- d / y overflows for d = INT64_MIN, y = -1
      let q ← i64 (d.tdiv y)
      divByIntLoop y bs (d.tmod y) (toI32 q :: acc)

/-- `divide_by_int` (src/Int.cpp:516-530). `result` keeps its sign flag: it is an argument.
(When it throws, `result.bins` has already been cleared; see `divideByIntThrown`.) -/
def divideByInt (x : BigInt) (y : Int) (result : BigInt) : Res BigInt :=
  if y == 0 then .error .divideByZero
  else do
    let r ← divByIntLoop y x.bins.reverse 0 []
    return { result with bins := if r.length == 0 then [0] else r }

/-- The state in which `divide_by_int(x, 0, result)` leaves `result` when it throws
(src/Int.cpp:517-519: `bins.clear()` comes first). -/
def divideByIntThrown (result : BigInt) : BigInt := { result with bins := [] }

/-- The `do .. while` loop of `iter_quotient` (src/Int.cpp:551-560). State: `b`. The first argument is
an iteration budget: with `step ≥ 1` the 32-bit variable `b` would overflow within 2^32 iterations,
so a larger budget is never needed. Returns `q` and `r`. -/
def iterQuotientLoop (y x : BigInt) (step : Int) : Nat → Int → Res (Int × BigInt)
  | 0, _ => .error .diverge
  | f + 1, b => do
      let q := b
      let b ← i32 (b + step)
      let prod ← multiplyByInt x b
      let r ← opSub y prod
      -- `!r.negative && x.cmp_bins(r) <= 0`: the comparison is evaluated only if `!r.negative`
      if r.negative then return (q, r)
      else do
        let c ← cmpBins x r
        if c ≤ 0 then iterQuotientLoop y x step f b else return (q, r)

/-- `iter_quotient` (src/Int.cpp:543-561). -/
def iterQuotient (y x : BigInt) (q : Int) (step : Int) : Res (Int × BigInt) :=
  iterQuotientLoop y x step 4294967296 q

/-- The `while (step > 1)` loop of `quotient_and_remainder` (src/Int.cpp:593-596). `step` is halved in
every iteration and starts at 10^9, so 64 iterations are more than enough. -/
def qrLoop (y x : BigInt) : Nat → Int → Int → BigInt → Res (Int × BigInt)
  | 0, _, _, _ => .error .diverge
  | f + 1, step, q, r =>
    if step > 1 then do
      let step := step.tdiv 2
      let (q, r) ← iterQuotient y x q step
      qrLoop y x f step q r
    else return (q, r)

/-- `quotient_and_remainder` (src/Int.cpp:583-598). The arguments are in the order of the C++
declaration: `y` is divided by `x`. `r` is the caller's remainder variable. -/
def quotientAndRemainder (y x : BigInt) (r : BigInt := default) : Res (Int × BigInt) := do
  assertR (!x.negative)
  assertR (!y.negative)
  let l1 ← x.le y
  -- `x <= y && y < BIN_LIMIT * x`: the second test is evaluated only if the first holds
  let ok ← (if l1 then do
      let lim ← ofInt64 BIN_LIMIT
      let bx ← opMul lim x
      y.lt bx
    else pure false)
  assertR ok
  let (q, r) ← qrLoop y x 64 BIN_LIMIT 0 r
  let q ← i32 (q + 1)
  return (q, r)

/-- The loop of `Int::divide` (src/Int.cpp:618-641). The first argument is `i + 1`; the state is
`bins` of `*this`, `current` and `r`. -/
def divideLoop (xn : BigInt) : Nat → List Int → BigInt → BigInt → Res (List Int)
  | 0, bins, _, _ => .ok bins
  | i + 1, bins, current, r => do
      assertR (current.bins.length > 0)
      assertR (i < bins.length)
      let b ← atR bins i
      let _ ← atR current.bins 0
      let current := { current with bins := current.bins.set 0 b }
      let c ← cmpBins xn current
      if c ≤ 0 then do
        let (q, r) ← quotientAndRemainder current xn r
        assertR (q != 0)
        let current := r
        divideLoop xn i (bins.set i q) { current with bins := cleanBins (0 :: current.bins) } r
      else
        divideLoop xn i (cleanBins (bins.set i 0)) { current with bins := cleanBins (0 :: current.bins) } r

/-- `Int::divide` (src/Int.cpp:603-643). When it throws, `*this` has not been modified. -/
def divide (a x : BigInt) : Res BigInt := do
  let z ← x.equalsInt32 0
  if z then .error .divideByZero
  else do
    let c ← cmpBins a x
    if c < 0 then setValue 0
    else do
      let xn ← (if x.negative then x.neg else pure x)
      let bins ← divideLoop xn a.bins.length a.bins default default
      return ⟨bins, a.negative != x.negative⟩

/-- `operator/` (src/Int.cpp:182-186). -/
def opDiv (x y : BigInt) : Res BigInt := (ofShift x 0).divide y

/-- `Int::operator/=` (src/Int.cpp:248-250). -/
def divAssign (x y : BigInt) : Res BigInt := x.divide (ofShift y 0)

/-- `modulo` (src/Int.cpp:648-673). -/
def modulo (x y : BigInt) : Res BigInt := do
  let a := ofShift x 0
  let b := ofShift y 0
  let a ← (if a.negative then a.negate else pure a)
  let b ← (if b.negative then b.negate else pure b)
  let q ← opDiv a b
  let p ← opMul q b
  let result ← opSub a p
  let z ← result.equalsInt32 0
  if z then return result
  else if x.negative && y.negative then result.negate
  else if !x.negative && y.negative then result.addAssign y
  else if x.negative && !y.negative then opSub y result
  else return result

/-- `operator%` (src/Int.cpp:188-192). -/
def opMod (x y : BigInt) : Res BigInt := modulo x y

/-- `Int::operator%=` (src/Int.cpp:252-256). -/
def modAssign (x y : BigInt) : Res BigInt := modulo x y

/-- `exponentiate` (src/Int.cpp:684-699). The first argument bounds the recursion depth. -/
def exponentiateF : Nat → BigInt → BigInt → Res BigInt
  | 0, _, _ => .error .diverge
  | f + 1, x, y => do
    if ← y.equalsInt32 0 then setValue 1
    else if ← y.equalsInt32 1 then return x
    else if ← y.isOdd then do
      let one ← ofInt64 1
      let y1 ← opSub y one
      let a ← exponentiateF f x y1
      opMul x a
    else do
      let half ← divideByInt y 2 default
      let r ← exponentiateF f x half
      opMul r r

/-- `exponentiate` with a recursion budget that is larger than the magnitude of the exponent. -/
def exponentiate (x y : BigInt) : Res BigInt :=
  exponentiateF (2 * 1000000000 ^ y.bins.length + 4) x y

/-- `operator^` (src/Int.cpp:194-198). -/
def opPow (x y : BigInt) : Res BigInt := exponentiate x y

/-- `Int::operator^=` (src/Int.cpp:258-262). -/
def powAssign (x y : BigInt) : Res BigInt := exponentiate x y

/-- `for (i < n) (*this) *= 10;` (src/Int.cpp:468-469). -/
def mulTenLoop : Nat → BigInt → Res BigInt
  | 0, a => .ok a
  | n + 1, a => do
      let ten ← ofInt64 10
      let a ← a.mulAssign ten
      mulTenLoop n a

/-- `for (i < n) (*this) /= 10;` (src/Int.cpp:483-484). -/
def divTenLoop : Nat → BigInt → Res BigInt
  | 0, a => .ok a
  | n + 1, a => do
      let ten ← ofInt64 10
      let a ← a.divAssign ten
      divTenLoop n a

/-- `Int::times_power_ten` (src/Int.cpp:465-487). The loops that subtract BIN_WIDTH from `pow` run
`pow / 9` times; `pow % 9` is evaluated before the first loop in the positive case, and in the negative
case after subtractions of 9, which do not change it (the early exit on an empty deque does not reach
it). -/
def timesPowerTen (a : BigInt) (power : Int) : Res BigInt :=
  if power > 0 then do
    let a ← mulTenLoop (power.toNat % BIN_WIDTH) a
    return ofShift a (power.toNat / BIN_WIDTH)
  else if power < 0 then do
    let pow ← i32 (-power)
    let bins := a.bins.drop (pow.toNat / BIN_WIDTH)
    if bins.isEmpty then setValue 0
    else divTenLoop (pow.toNat % BIN_WIDTH) { a with bins := bins }
  else .ok a

/-! ### Output -/

/-- `out << z` for a machine integer: its decimal numeral (standard library). -/
def showI32 (z : Int) : List Char :=
  if z < 0 then '-' :: Nat.toDigits 10 (-z).toNat else Nat.toDigits 10 z.toNat

/-- `out << setw(BIN_WIDTH) << setfill('0') << z` (src/Int.cpp:37): padded on the left. -/
def showPadded (z : Int) : List Char :=
  List.replicate (BIN_WIDTH - (showI32 z).length) '0' ++ showI32 z

/-- `Int::print` (src/Int.cpp:24-40). -/
def print (a : BigInt) : List Char :=
  (if a.negative then ['-'] else []) ++
  match a.bins.reverse.dropWhile (· == 0) with
  | [] => showI32 0
  | b :: bs => showI32 b ++ (bs.map showPadded).flatten

/-! ### Input -/

/-- The number denoted by a list of decimal digits: what `s_num >> val` (src/Int.cpp:58) computes. -/
def readDigits (cs : List Char) : Nat := cs.foldl (fun n c => 10 * n + (c.toNat - '0'.toNat)) 0

/-- `parse_int` (src/Int.cpp:50-62) on the remaining contents of the string stream. Extraction fails on
an empty string and on a number that does not fit 32 bits. Returns the number and what is left. -/
def parseInt (ss : List Char) (maxDigits : Nat) : Res (Int × List Char) :=
  let ds := (ss.take maxDigits).takeWhile (fun c => isDigit (some c))
  if ds.isEmpty then .error .invalidArgument
  else if readDigits ds > 2147483647 then .error .invalidArgument
  else .ok (readDigits ds, ss.drop ds.length)

/-- The loop of `Int::read` over full bins (src/Int.cpp:121-125): `n` is the number of bins still to read. -/
def readBins : Nat → List Char → List Int → Res (List Int)
  | 0, _, bins => .ok bins
  | n + 1, ss, bins => do
      let (v, ss) ← parseInt ss BIN_WIDTH
      readBins n ss (v :: bins)

/-- `while (in.peek() == '0') in.get();` (src/Int.cpp:98-100). The budget is the number of
characters left plus one. -/
def skipZeros : Nat → IStream → IStream
  | 0, s => s
  | f + 1, s =>
    let (c, s) := s.peek
    if c == some '0' then skipZeros f s.get.2 else s

/-- `while (isdigit(in.peek())) digit_ss << (char) in.get();` (src/Int.cpp:104-105). -/
def takeDigits : Nat → IStream → List Char → List Char × IStream
  | 0, s, acc => (acc, s)
  | f + 1, s, acc =>
    let (c, s) := s.peek
    if isDigit c then
      let (d, s) := s.get
      takeDigits f s (acc ++ d.toList)
    else (acc, s)

/-- The sign test of `Int::read` (src/Int.cpp:78-94). Returns `none` for the early `return in`. -/
def readSign (s : IStream) : Option Bool × IStream :=
  let (c, s) := s.peek
  if c == some '-' then
    let (_, s) := s.get
    let (c, s) := s.peek
    if isDigit c then (some true, s)
    else (none, s.unget.setFail)
  else
    let (c, s) := s.peek
    if isDigit c then (some false, s)
    else (none, s.setFail)

/-- `Int::read` (src/Int.cpp:72-128). Returns the stream and the new value of the object. -/
def read (s : IStream) (a : BigInt) : Res (IStream × BigInt) :=
  let (ok, s) := s.sentry
  if !ok then .ok (s, a)
  else
    match readSign s with
    | (none, s) => .ok (s, a)
    | (some sign, s) =>
      let s := skipZeros (s.rest.length + 1) s
      let (digits, s) := takeDigits (s.rest.length + 1) s []
      let n := digits.length
      let k := n % BIN_WIDTH
      if n == 0 then do
        let z ← setValue 0
        return (s.clearFail, z)
      else if k > 0 then do
        let (v, ss) ← parseInt digits k
        let bins ← readBins (n / BIN_WIDTH) ss [v]
        return (s, ⟨bins, sign⟩)
      else do
        let bins ← readBins (n / BIN_WIDTH) digits []
        return (s, ⟨bins, sign⟩)

/-- `Int::Int(const std::string&)` (src/Int.cpp:313-320). -/
def ofString (x : List Char) : Res BigInt := do
  let (s, a) ← read (IStream.ofString x) ⟨[], false⟩
  if s.failed || !s.eof then .error .invalidArgument
  else return a

end BigInt
end CppMaths
