import Verif.Model.IntMem
/-!
# `class Int` compiled without assertions

The model of `Verif/Model/Int.lean` treats a failed `assert` as the end of the program. With `NDEBUG` defined, as in CMake's
`Release` and `RelWithDebInfo` configurations, the nine `assert`s of src/Int.cpp (lines 432-434, 587-589, 624, 625
and 631) disappear together with the evaluation of their arguments. This file models every function
of src/Int.cpp that contains an `assert` or reaches one. Functions that do not (`add`, `cmp_bins`, `cleanBins`, ..) are those of
`Verif/Model/Int.lean`.

A program can go on after an exception, which it cannot after a failed assertion. So the functions that change `*this` are
modelled here together with the object they leave behind when they throw.
-/

namespace CppMaths.BigInt

/-- The outcome of a function that changes an object: its new state, or a failure and the state it is left in. -/
scoped notation "Upd " σ:max => Except (Err × σ) σ

/-- The outcome alone, for callers that drop the object when an exception passes through. -/
def outcome {σ α : Type} : Except (Err × σ) α → Res α
  | .ok v => .ok v
  | .error (e, _) => .error e

/-- A call that does not change the object `s`. -/
def keeping {σ α : Type} (s : σ) : Res α → Except (Err × σ) α
  | .ok v => .ok v
  | .error e => .error (e, s)

/-- A bin that the loop has already written, in front of what the rest of the loop does. -/
def behind (d : Int) : Upd (List Int) → Upd (List Int)
  | .ok r => .ok (d :: r)
  | .error (e, l) => .error (e, d :: l)

/-- The main loop of `Int::subtract` (src/Int.cpp:435-450) followed by the borrow loop, in place. `bins.at(i)` throws when
`x` has more bins. -/
def subLoopU : List Int → List Int → Int → Upd (List Int)
  | bs, [], w => keeping bs (subBorrow bs w)
  | [], _ :: _, _ => .error (.outOfRange, [])
  | b :: bs, x :: xs, w => do
      let t ← keeping (b :: bs) (i32 (b - w))
      let diff ← keeping (b :: bs) (i32 (t - x))
      if diff < 0 then do
        let d ← keeping (b :: bs) (i32 (diff + BIN_LIMIT))
        behind d (subLoopU bs xs 1)
      else behind diff (subLoopU bs xs 0)

/-- `Int::subtract` (src/Int.cpp:420-463) without the assertions of lines 432-434. -/
def subtractU (a x : BigInt) : Upd BigInt :=
  match subLoopU a.bins x.bins 0 with
  | .ok r => .ok { a with bins := cleanBins r }
  | .error (e, l) => .error (e, { a with bins := l })

/-- The last part of `operator-` (src/Int.cpp:157-167). The object on which `subtract` works is local. -/
def subNonnegR (x y : BigInt) : Res BigInt := do
  let g ← x.gt y
  if g then
    outcome (subtractU { x with bins := cleanBins x.bins } y)
  else do
    let r ← outcome (subtractU { y with bins := cleanBins y.bins } x)
    r.neg

/-- `operator+` (src/Int.cpp:130-147), recursion unfolded as in `opAdd`. -/
def opAddR (x y : BigInt) : Res BigInt :=
  if x.negative && y.negative then do
    let r ← addNonneg (← x.neg) (← y.neg)
    r.neg
  else if x.negative && !y.negative then do
    let r ← subNonnegR (← x.neg) y
    r.neg
  else if !x.negative && y.negative then do
    subNonnegR x (← y.neg)
  else addNonneg x y

/-- `operator-` (src/Int.cpp:149-168), recursion unfolded as in `opSub`. -/
def opSubR (x y : BigInt) : Res BigInt :=
  if x.negative && y.negative then do
    let r ← subNonnegR (← x.neg) (← y.neg)
    r.neg
  else if x.negative && !y.negative then do
    let r ← addNonneg (← x.neg) y
    r.neg
  else if !x.negative && y.negative then do
    addNonneg x (← y.neg)
  else subNonnegR x y

/-- The last branch of `Int::operator+=` (src/Int.cpp:213). -/
def addAssignNonnegU (x y : BigInt) : Upd BigInt := keeping x (addAssignNonneg x y)

/-- The last branch of `Int::operator-=` (src/Int.cpp:230-237): in the first case `subtract` works on `*this`, in the second on
the copy `r`. -/
def subAssignNonnegU (x y : BigInt) : Upd BigInt := do
  let g ← keeping x (x.gt y)
  if g then subtractU x y
  else do
    let r ← keeping x (outcome (subtractU y x))
    keeping x r.negate

/-- `Int::operator+=` (src/Int.cpp:200-215), recursion unfolded as in `addAssign`. Between the two calls of `negate()` the object
has the opposite sign. -/
def addAssignU (x y : BigInt) : Upd BigInt :=
  if x.negative && y.negative then do
    let tmp ← keeping x y.neg
    let r ← addAssignNonnegU (← keeping x x.negate) tmp
    keeping r r.negate
  else if x.negative && !y.negative then do
    let r ← subAssignNonnegU (← keeping x x.negate) y
    keeping r r.negate
  else if !x.negative && y.negative then do
    subAssignNonnegU x (← keeping x y.neg)
  else addAssignNonnegU x y

/-- `Int::operator-=` (src/Int.cpp:217-239), recursion unfolded as in `subAssign`. -/
def subAssignU (x y : BigInt) : Upd BigInt :=
  if x.negative && y.negative then do
    let tmp ← keeping x y.neg
    let r ← subAssignNonnegU (← keeping x x.negate) tmp
    keeping r r.negate
  else if x.negative && !y.negative then do
    let r ← addAssignNonnegU (← keeping x x.negate) y
    keeping r r.negate
  else if !x.negative && y.negative then do
    addAssignNonnegU x (← keeping x y.neg)
  else subAssignNonnegU x y

/-- The loop of `multiply_by_int` (src/Int.cpp:495-498). -/
def mulByIntLoopR : List Int → Int → Nat → BigInt → Res BigInt
  | [], _, _, r => .ok r
  | b :: bs, y, i, r => do
      let prod ← i64 (y * b)
      let t ← ofInt64 prod i
      let r ← outcome (r.addAssignU t)
      mulByIntLoopR bs y (i + 1) r

/-- `multiply_by_int` (src/Int.cpp:492-499). -/
def multiplyByIntR (x : BigInt) (y : Int) : Res BigInt := do
  let r ← setValue 0
  mulByIntLoopR x.bins y 0 r

/-- The loop of `multiply` (src/Int.cpp:507-510). -/
def multiplyLoopR (x : BigInt) : List Int → Nat → BigInt → Res BigInt
  | [], _, r => .ok r
  | b :: bs, i, r => do
      let p ← multiplyByIntR x b
      let r ← outcome (r.addAssignU (ofShift p i))
      multiplyLoopR x bs (i + 1) r

/-- `multiply` (src/Int.cpp:504-511). -/
def multiplyR (x y : BigInt) : Res BigInt := do
  let r ← setValue 0
  multiplyLoopR x y.bins 0 r

/-- `operator*` (src/Int.cpp:170-180). -/
def opMulR (x y : BigInt) : Res BigInt := do
  let r ← (if x.bins.length > y.bins.length then multiplyR x y else multiplyR y x)
  if x.negative != y.negative then r.negate else return r

/-- `Int::operator*=` (src/Int.cpp:241-246): the product is computed in a local object. -/
def mulAssignU (x y : BigInt) : Upd BigInt := do
  let r ← keeping x (multiplyR x y)
  return { r with negative := x.negative != y.negative }

/-- The loop of `iter_quotient` (src/Int.cpp:551-560). -/
def iterQuotientLoopR (y x : BigInt) (step : Int) : Nat → Int → Res (Int × BigInt)
  | 0, _ => .error .diverge
  | f + 1, b => do
      let q := b
      let b ← i32 (b + step)
      let prod ← multiplyByIntR x b
      let r ← opSubR y prod
      if r.negative then return (q, r)
      else do
        let c ← cmpBins x r
        if c ≤ 0 then iterQuotientLoopR y x step f b else return (q, r)

/-- `iter_quotient` (src/Int.cpp:543-561). -/
def iterQuotientR (y x : BigInt) (q : Int) (step : Int) : Res (Int × BigInt) :=
  iterQuotientLoopR y x step 4294967296 q

/-- The loop of `quotient_and_remainder` (src/Int.cpp:593-596). -/
def qrLoopR (y x : BigInt) : Nat → Int → Int → BigInt → Res (Int × BigInt)
  | 0, _, _, _ => .error .diverge
  | f + 1, step, q, r =>
    if step > 1 then do
      let step := step.tdiv 2
      let (q, r) ← iterQuotientR y x q step
      qrLoopR y x f step q r
    else return (q, r)

/-- `quotient_and_remainder` (src/Int.cpp:583-598) without the assertions of lines 587-589. -/
def quotientAndRemainderR (y x : BigInt) (r : BigInt := default) : Res (Int × BigInt) := do
  let (q, r) ← qrLoopR y x 64 BIN_LIMIT 0 r
  let q ← i32 (q + 1)
  return (q, r)

/-- The loop of `Int::divide` (src/Int.cpp:618-641) without the assertions of lines 624, 625 and 631, in place: a failure comes
with the bins of `*this` at that moment. In `current.bins.at(0) = bins.at(i)` either call may throw. -/
def divideLoopU (xn : BigInt) : Nat → List Int → BigInt → BigInt → Upd (List Int)
  | 0, bins, _, _ => .ok bins
  | i + 1, bins, current, r => do
      let b ← keeping bins (atR bins i)
      let _ ← keeping bins (atR current.bins 0)
      let current := { current with bins := current.bins.set 0 b }
      let c ← keeping bins (cmpBins xn current)
      if c ≤ 0 then do
        let (q, r) ← keeping bins (quotientAndRemainderR current xn r)
        let current := r
        divideLoopU xn i (bins.set i q) { current with bins := cleanBins (0 :: current.bins) } r
      else
        divideLoopU xn i (cleanBins (bins.set i 0)) { current with bins := cleanBins (0 :: current.bins) } r

/-- `Int::divide` (src/Int.cpp:603-643): the sign is set at the very end. -/
def divideU (a x : BigInt) : Upd BigInt := do
  let z ← keeping a (x.equalsInt32 0)
  if z then .error (.divideByZero, a)
  else do
    let c ← keeping a (cmpBins a x)
    if c < 0 then keeping a (setValue 0)
    else do
      let xn ← keeping a (if x.negative then x.neg else pure x)
      match divideLoopU xn a.bins.length a.bins default default with
      | .ok bins => .ok ⟨bins, a.negative != x.negative⟩
      | .error (e, bins) => .error (e, { a with bins := bins })

/-- `operator/` (src/Int.cpp:182-186): `divide` works on a copy. -/
def opDivR (x y : BigInt) : Res BigInt := outcome ((ofShift x 0).divideU y)

/-- `Int::operator/=` (src/Int.cpp:248-250). -/
def divAssignU (x y : BigInt) : Upd BigInt := x.divideU (ofShift y 0)

/-- `modulo` (src/Int.cpp:648-673). -/
def moduloR (x y : BigInt) : Res BigInt := do
  let a := ofShift x 0
  let b := ofShift y 0
  let a ← (if a.negative then a.negate else pure a)
  let b ← (if b.negative then b.negate else pure b)
  let q ← opDivR a b
  let p ← opMulR q b
  let result ← opSubR a p
  let z ← result.equalsInt32 0
  if z then return result
  else if x.negative && y.negative then result.negate
  else if !x.negative && y.negative then outcome (result.addAssignU y)
  else if x.negative && !y.negative then opSubR y result
  else return result

/-- `operator%` (src/Int.cpp:188-192). -/
def opModR (x y : BigInt) : Res BigInt := moduloR x y

/-- `Int::operator%=` (src/Int.cpp:252-256): the result is computed in a local object. -/
def modAssignU (x y : BigInt) : Upd BigInt := keeping x (moduloR x y)

/-- `exponentiate` (src/Int.cpp:684-699). -/
def exponentiateFR : Nat → BigInt → BigInt → Res BigInt
  | 0, _, _ => .error .diverge
  | f + 1, x, y => do
    if ← y.equalsInt32 0 then setValue 1
    else if ← y.equalsInt32 1 then return x
    else if ← y.isOdd then do
      let one ← ofInt64 1
      let y1 ← opSubR y one
      let a ← exponentiateFR f x y1
      opMulR x a
    else do
      let half ← divideByInt y 2 default
      let r ← exponentiateFR f x half
      opMulR r r

/-- `exponentiate` with the recursion budget of `exponentiate` in `Verif/Model/Int.lean`. -/
def exponentiateR (x y : BigInt) : Res BigInt :=
  exponentiateFR (2 * 1000000000 ^ y.bins.length + 4) x y

/-- `operator^` (src/Int.cpp:194-198). -/
def opPowR (x y : BigInt) : Res BigInt := exponentiateR x y

/-- `Int::operator^=` (src/Int.cpp:258-262): the result is computed in a local object. -/
def powAssignU (x y : BigInt) : Upd BigInt := keeping x (exponentiateR x y)

/-- `for (i < n) (*this) *= 10;` (src/Int.cpp:468-469). -/
def mulTenLoopU : Nat → BigInt → Upd BigInt
  | 0, a => .ok a
  | n + 1, a => do
      let ten ← keeping a (ofInt64 10)
      let a ← a.mulAssignU ten
      mulTenLoopU n a

/-- `for (i < n) (*this) /= 10;` (src/Int.cpp:483-484). -/
def divTenLoopU : Nat → BigInt → Upd BigInt
  | 0, a => .ok a
  | n + 1, a => do
      let ten ← keeping a (ofInt64 10)
      let a ← a.divAssignU ten
      divTenLoopU n a

/-- `Int::times_power_ten` (src/Int.cpp:465-487); see `timesPowerTen` for the loops over whole bins. -/
def timesPowerTenU (a : BigInt) (power : Int) : Upd BigInt :=
  if power > 0 then do
    let a ← mulTenLoopU (power.toNat % BIN_WIDTH) a
    return ofShift a (power.toNat / BIN_WIDTH)
  else if power < 0 then do
    let pow ← keeping a (i32 (-power))
    let bins := a.bins.drop (pow.toNat / BIN_WIDTH)
    if bins.isEmpty then keeping a (setValue 0)
    else divTenLoopU (pow.toNat % BIN_WIDTH) { a with bins := bins }
  else .ok a

end CppMaths.BigInt

namespace CppMaths

open BigInt

/-- `a op b` (src/Int.cpp:130-192) without assertions. -/
def IOp.runR : IOp → BigInt → BigInt → Res BigInt
  | .add => opAddR
  | .sub => opSubR
  | .mul => opMulR
  | .div => opDivR
  | .mod => opModR

/-- `a op= b` (src/Int.cpp:200-256) without assertions. The operands are given by value: `+=` and `/=` copy the other operand
first, `*=` and `%=` compute in a local object, and `x -= x` takes the branch of lines 233-236, which does so as well; where `*this`
is negated before `other` is used, `other` has been copied (lines 202, 219) or has the other sign. -/
def IOp.assignU : IOp → BigInt → BigInt → Upd BigInt
  | .add => addAssignU
  | .sub => subAssignU
  | .mul => mulAssignU
  | .div => divAssignU
  | .mod => modAssignU

/-- The variable `d` is changed in place. -/
def Mem.update (m : Mem) (d : Nat) : Upd BigInt → Upd Mem
  | .ok v => .ok (m.set d v)
  | .error (e, v) => .error (e, m.set d v)

/-- One statement without assertions, with the memory that a throwing statement leaves behind. -/
def IStmt.stepU : IStmt → Mem → Upd Mem
  | .bin op d a b, m => do let v ← keeping m (op.runR (m a) (m b)); return m.set d v
  | .asg op d a, m => m.update d (op.assignU (m d) (m a))
  | .pow d a e, m => do
      let y ← keeping m (BigInt.ofInt64 e)
      let v ← keeping m (opPowR (m a) y)
      return m.set d v
  | .ten d p, m => m.update d ((m d).timesPowerTenU p)
  | s, m => keeping m (s.step m)

/-- `try { statement } catch (..) {}`. With `all` the handler is `catch (const std::exception&)`; without it, handlers are there for
`divide_by_zero_error` and `std::invalid_argument` only, and `std::out_of_range` ends the program. The program goes on with
the memory that the statement has left behind. -/
def IStmt.tryStepR (all : Bool) (s : IStmt) (m : Mem) : Res Mem :=
  match s.stepU m with
  | .ok m' => .ok m'
  | .error (.divideByZero, m') => .ok m'
  | .error (.invalidArgument, m') => .ok m'
  | .error (.outOfRange, m') => if all then .ok m' else .error .outOfRange
  | .error (e, _) => .error e

/-- Execution of a program without assertions, to a given depth. -/
def IProg.execR (all : Bool) : Nat → IProg → Mem → Res Mem
  | 0, _, _ => .error .diverge
  | _ + 1, .stmt s, m => s.tryStepR all m
  | f + 1, .seq p q, m => do
      let m ← execR all f p m
      execR all f q m
  | f + 1, .ite c a b p q, m => do
      let t ← c.run (m a) (m b)
      if t then execR all f p m else execR all f q m
  | f + 1, .while c a b p, m => do
      let t ← c.run (m a) (m b)
      if t then do
        let m ← execR all f p m
        execR all f (.while c a b p) m
      else return m

end CppMaths
