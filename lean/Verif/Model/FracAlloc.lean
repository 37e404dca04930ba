import Verif.Model.IntAlloc
import Verif.Model.FracMem
/-!
# `Frac` when memory runs out

The arithmetic of `class Frac` on top of the `Int` of `Verif/Model/IntAlloc.lean`, with the same conventions. The object that is changed in
place is the state of the computation `FM`; when an operation on one of its two parts throws, this part is left as the operation leaves it.

* `Frac` has no copy or move constructor of its own; copying one copies the parts.
* The second operand of a compound assignment is read where the code reads it, but is a value here: when it is the same object as `*this`, no part of it
  is read after it has changed (src/Frac.cpp:159-182; `C44_aliasing` proves this for the model without refusals).
* Construction from text, from a `double` or from a stream is in `Verif/Model/FracReadAlloc.lean`.
-/

namespace CppMaths

/-- A computation that changes a `Frac` in place. -/
abbrev FM (α : Type) := GM Frac α

namespace Frac
open BigInt GM

/-- A computation that changes the numerator. -/
def onTop {α : Type} (m : TM α) : FM α := fun s => match m (s.1.tt, s.2) with | (r, (t, n)) => (r, ({ s.1 with tt := t }, n))

/-- A computation that changes the denominator. -/
def onBottom {α : Type} (m : TM α) : FM α := fun s => match m (s.1.bb, s.2) with | (r, (b, n)) => (r, ({ s.1 with bb := b }, n))

/-- A returned object, copied unless the copy is elided. -/
def returnedA (L : ILuck) (f : Frac) : AM Frac := do
  ask L
  return f

/-- `Frac::Frac()` (src/Frac.hpp:20). -/
def defaultA (L : ILuck) : AM Frac := do
  let z ← ofInt64A L 0
  let o ← ofInt64A L 1
  return ⟨z, o⟩

/-- `Frac::Frac(int x)` (src/Frac.hpp:21). -/
def ofI32A (L : ILuck) (x : Int) : AM Frac := do
  let t ← ofInt64A L x
  let o ← ofInt64A L 1
  return ⟨t, o⟩

/-- `Frac::Frac(const Int& x)` (src/Frac.hpp:22). -/
def ofIntA (L : ILuck) (x : BigInt) : AM Frac := do
  let t ← ofShiftA L x 0
  let o ← ofInt64A L 1
  return ⟨t, o⟩

/-- The loop of `nochecks_gcd` (src/Frac.cpp:118-122): three assignments to local objects in every round. -/
def gcdLoopA (L : ILuck) : Nat → BigInt → BigInt → AM BigInt
  | 0, _, _ => free (.error .diverge)
  | f + 1, a, b => do
    let z ← free (b.equalsInt32 0)
    if z then returned L a
    else do
      let r ← opModA L a b
      ask L
      ask L
      ask L
      gcdLoopA L f b r

/-- `Frac::nochecks_gcd` (src/Frac.cpp:111-124). -/
def nochecksGcdA (L : ILuck) (x y : BigInt) : AM BigInt := do
  let a ← ofShiftA L x 0
  let b ← ofShiftA L y 0
  let _ ← BigInt.defaultA L
  gcdLoopA L (1000000000 ^ y.bins.length + 1) a b

/-- `Frac::GCD` (src/Frac.cpp:101-108). -/
def gcdA (L : ILuck) (x y : BigInt) : AM BigInt := do
  let absx ← absA L x
  let absy ← absA L y
  let l ← free (absx.lt absy)
  if l then nochecksGcdA L absy absx else nochecksGcdA L absx absy

/-- `Frac::normalize` (src/Frac.cpp:146-157). -/
def normalizeT (L : ILuck) : FM Unit := do
  let f ← this
  if f.bb.negative then do
    onBottom negateT
    onTop negateT
  else pure ()
  let f ← this
  let c ← other (gcdA L f.tt f.bb)
  onTop (divAssignT L c)
  onBottom (divAssignT L c)

/-- `Frac::Frac(const Int& top, const Int& bottom)` (src/Frac.hpp:24-33). -/
def mkA (L : ILuck) (top bottom : BigInt) : AM Frac := do
  let t ← ofShiftA L top 0
  let b ← ofShiftA L bottom 0
  let z ← free (b.equalsInt32 0)
  if z then free (.error .divideByZero)
  else do
    let f ← local' (⟨t, b⟩ : Frac) (normalizeT L)
    returnedA L f

/-- `Frac::reciprocal` (src/Frac.hpp:38). -/
def reciprocalA (L : ILuck) (x : Frac) : AM Frac := mkA L x.bb x.tt

/-- `operator<` (src/Frac.hpp:42). `operator==` and `operator!=` (src/Frac.hpp:40-41) need no memory. -/
def ltA (L : ILuck) (x y : Frac) : AM Bool := do
  let a ← opMulA L x.tt y.bb
  let b ← opMulA L y.tt x.bb
  free (BigInt.lt a b)

/-- `operator+(Frac, Frac)` (src/Frac.hpp:47). -/
def opAddA (L : ILuck) (x y : Frac) : AM Frac := do
  let a ← BigInt.opMulA L x.tt y.bb
  let b ← BigInt.opMulA L y.tt x.bb
  let s ← BigInt.opAddA L a b
  let d ← BigInt.opMulA L x.bb y.bb
  mkA L s d

/-- `operator-(Frac, Frac)` (src/Frac.hpp:48). -/
def opSubA (L : ILuck) (x y : Frac) : AM Frac := do
  let a ← BigInt.opMulA L x.tt y.bb
  let b ← BigInt.opMulA L y.tt x.bb
  let s ← BigInt.opSubA L a b
  let d ← BigInt.opMulA L x.bb y.bb
  mkA L s d

/-- `operator*(Frac, Frac)` (src/Frac.hpp:49). -/
def opMulA (L : ILuck) (x y : Frac) : AM Frac := do
  let a ← BigInt.opMulA L x.tt y.tt
  let d ← BigInt.opMulA L x.bb y.bb
  mkA L a d

/-- `operator/(Frac, Frac)` (src/Frac.hpp:50). -/
def opDivA (L : ILuck) (x y : Frac) : AM Frac := do
  let a ← BigInt.opMulA L x.tt y.bb
  let d ← BigInt.opMulA L x.bb y.tt
  mkA L a d

/-- `operator+(Int, Frac)` (src/Frac.hpp:52). -/
def intAddA (L : ILuck) (a : BigInt) (x : Frac) : AM Frac := do
  let p ← BigInt.opMulA L a x.bb
  let s ← BigInt.opAddA L p x.tt
  mkA L s x.bb

/-- `operator-(Int, Frac)` (src/Frac.hpp:53). -/
def intSubA (L : ILuck) (a : BigInt) (x : Frac) : AM Frac := do
  let p ← BigInt.opMulA L a x.bb
  let s ← BigInt.opSubA L p x.tt
  mkA L s x.bb

/-- `operator*(Int, Frac)` (src/Frac.hpp:54). -/
def intMulA (L : ILuck) (a : BigInt) (x : Frac) : AM Frac := do
  let p ← BigInt.opMulA L a x.tt
  mkA L p x.bb

/-- `operator/(Int, Frac)` (src/Frac.hpp:55). -/
def intDivA (L : ILuck) (a : BigInt) (x : Frac) : AM Frac := do
  let p ← BigInt.opMulA L a x.bb
  mkA L p x.tt

/-- `operator+(Frac, Int)` (src/Frac.hpp:57). -/
def addIntA (L : ILuck) (x : Frac) (a : BigInt) : AM Frac := do
  let p ← BigInt.opMulA L a x.bb
  let s ← BigInt.opAddA L x.tt p
  mkA L s x.bb

/-- `operator-(Frac, Int)` (src/Frac.hpp:58). -/
def subIntA (L : ILuck) (x : Frac) (a : BigInt) : AM Frac := do
  let p ← BigInt.opMulA L a x.bb
  let s ← BigInt.opSubA L x.tt p
  mkA L s x.bb

/-- `operator*(Frac, Int)` (src/Frac.hpp:59). -/
def mulIntA (L : ILuck) (x : Frac) (a : BigInt) : AM Frac := do
  let p ← BigInt.opMulA L a x.tt
  mkA L p x.bb

/-- `operator/(Frac, Int)` (src/Frac.hpp:60). -/
def divIntA (L : ILuck) (x : Frac) (a : BigInt) : AM Frac := do
  let p ← BigInt.opMulA L x.bb a
  mkA L x.tt p

/-- `operator^(Frac, Int)` (src/Frac.cpp:184-191). -/
def opPowA (L : ILuck) (x : Frac) (a : BigInt) : AM Frac :=
  if a.negative then do
    let na ← negA L a
    let t ← BigInt.opPowA L x.bb na
    let b ← BigInt.opPowA L x.tt na
    mkA L t b
  else do
    let t ← BigInt.opPowA L x.tt a
    let b ← BigInt.opPowA L x.bb a
    mkA L t b

/-- `operator+=(Frac, Frac)` (src/Frac.cpp:159-163). -/
def addAssignT (L : ILuck) (y : Frac) : FM Unit := do
  let x ← this
  let a ← other (BigInt.opMulA L x.tt y.bb)
  let b ← other (BigInt.opMulA L y.tt x.bb)
  let s ← other (BigInt.opAddA L a b)
  onTop (assignT L s)
  onBottom (BigInt.mulAssignT L y.bb)
  normalizeT L

/-- `operator-=(Frac, Frac)` (src/Frac.cpp:165-169). -/
def subAssignT (L : ILuck) (y : Frac) : FM Unit := do
  let x ← this
  let a ← other (BigInt.opMulA L x.tt y.bb)
  let b ← other (BigInt.opMulA L y.tt x.bb)
  let s ← other (BigInt.opSubA L a b)
  onTop (assignT L s)
  onBottom (BigInt.mulAssignT L y.bb)
  normalizeT L

/-- `operator*=(Frac, Frac)` (src/Frac.cpp:171-175). -/
def mulAssignT (L : ILuck) (y : Frac) : FM Unit := do
  onTop (BigInt.mulAssignT L y.tt)
  onBottom (BigInt.mulAssignT L y.bb)
  normalizeT L

/-- `operator/=(Frac, Frac)` (src/Frac.cpp:177-182). -/
def divAssignT (L : ILuck) (y : Frac) : FM Unit := do
  let tmp ← other (ofShiftA L y.tt 0)
  onTop (BigInt.mulAssignT L y.bb)
  onBottom (BigInt.mulAssignT L tmp)
  normalizeT L

/-- `operator+=(Frac, Int)` (src/Frac.cpp:193-196). -/
def addAssignIntT (L : ILuck) (a : BigInt) : FM Unit := do
  let x ← this
  let p ← other (BigInt.opMulA L x.bb a)
  onTop (BigInt.addAssignT L p)
  normalizeT L

/-- `operator-=(Frac, Int)` (src/Frac.cpp:198-201). -/
def subAssignIntT (L : ILuck) (a : BigInt) : FM Unit := do
  let x ← this
  let p ← other (BigInt.opMulA L x.bb a)
  onTop (BigInt.subAssignT L p)
  normalizeT L

/-- `operator*=(Frac, Int)` (src/Frac.cpp:203-206). -/
def mulAssignIntT (L : ILuck) (a : BigInt) : FM Unit := do
  onTop (BigInt.mulAssignT L a)
  normalizeT L

/-- `operator/=(Frac, Int)` (src/Frac.cpp:208-211). -/
def divAssignIntT (L : ILuck) (a : BigInt) : FM Unit := do
  onBottom (BigInt.mulAssignT L a)
  normalizeT L

/-- `operator^=(Frac, Int)` (src/Frac.cpp:213-223). -/
def powAssignT (L : ILuck) (a : BigInt) : FM Unit := do
  let na ← other (if a.negative then negA L a else pure a)
  onBottom (BigInt.powAssignT L na)
  onTop (BigInt.powAssignT L na)
  normalizeT L

end Frac

/-- `a op b` (src/Frac.hpp:47-50). -/
def FOp.runA (L : ILuck) : FOp → Frac → Frac → AM Frac
  | .add => Frac.opAddA L
  | .sub => Frac.opSubA L
  | .mul => Frac.opMulA L
  | .div => Frac.opDivA L

/-- `a op k` with an `Int` `k` (src/Frac.hpp:57-60). -/
def FOp.runIntA (L : ILuck) : FOp → Frac → BigInt → AM Frac
  | .add => Frac.addIntA L
  | .sub => Frac.subIntA L
  | .mul => Frac.mulIntA L
  | .div => Frac.divIntA L

/-- `k op a` with an `Int` `k` (src/Frac.hpp:52-55). -/
def FOp.intRunA (L : ILuck) : FOp → BigInt → Frac → AM Frac
  | .add => Frac.intAddA L
  | .sub => Frac.intSubA L
  | .mul => Frac.intMulA L
  | .div => Frac.intDivA L

/-- `*this op= y` (src/Frac.cpp:159-182). -/
def FOp.assignT (L : ILuck) : FOp → Frac → FM Unit
  | .add => Frac.addAssignT L
  | .sub => Frac.subAssignT L
  | .mul => Frac.mulAssignT L
  | .div => Frac.divAssignT L

/-- `*this op= k` with an `Int` `k` (src/Frac.cpp:193-211). -/
def FOp.assignIntT (L : ILuck) : FOp → BigInt → FM Unit
  | .add => Frac.addAssignIntT L
  | .sub => Frac.subAssignIntT L
  | .mul => Frac.mulAssignIntT L
  | .div => Frac.divAssignIntT L

end CppMaths
