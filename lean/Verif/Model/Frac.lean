import Verif.Model.Int
/-!
# Model of `class Frac` (src/Frac.hpp, src/Frac.cpp)

Mutating functions may throw after they have already changed the object, so their failures carry the state in which the
object is left.
-/

namespace CppMaths

/-- The data members of `class Frac` (src/Frac.hpp:79): top and bottom. -/
structure Frac where
  tt : BigInt
  bb : BigInt
deriving DecidableEq, Repr

/-- The outcome of a mutating function on an object of type `σ`: a value, or a failure together with the object
as it is when the failure occurs. -/
abbrev MRes (σ : Type) := Except (Err × σ)

namespace Frac
open BigInt

/-- A failing call made while the object is in state `s`. -/
def at' {σ α : Type} (s : σ) : Res α → Except (Err × σ) α
  | .ok a => .ok a
  | .error e => .error (e, s)

/-- Forget the state (the object is a temporary that dies with the exception). -/
def drop {σ α : Type} : Except (Err × σ) α → Res α
  | .ok a => .ok a
  | .error (e, _) => .error e

/-- `Frac::Frac()` (src/Frac.hpp:20): `tt(0), bb(1)`. -/
def default : Res Frac := do
  let z ← ofInt64 0
  let o ← ofInt64 1
  return ⟨z, o⟩

/-- `Frac::Frac(int x)` (src/Frac.hpp:21). -/
def ofI32 (x : Int) : Res Frac := do
  let t ← ofInt64 x
  let o ← ofInt64 1
  return ⟨t, o⟩

/-- `Frac::Frac(const Int& x)` (src/Frac.hpp:22). -/
def ofInt (x : BigInt) : Res Frac := do
  let o ← ofInt64 1
  return ⟨x, o⟩

/-- The `while` loop of `Frac::nochecks_gcd` (src/Frac.cpp:118-122). The first argument is an iteration budget. -/
def gcdLoop : Nat → BigInt → BigInt → Res BigInt
  | 0, _, _ => .error .diverge
  | f + 1, a, b => do
    let z ← b.equalsInt32 0
    if z then return a
    else do
      let r ← opMod a b
      gcdLoop f b r

/-- `Frac::nochecks_gcd` (src/Frac.cpp:111-124). `b` gets smaller in every iteration and is below 10^9 to the number of
its bins, so the budget suffices (proved as part of `gcd_spec`). -/
def nochecksGcd (x y : BigInt) : Res BigInt := gcdLoop (1000000000 ^ y.bins.length + 1) x y

/-- `Frac::GCD` (src/Frac.cpp:101-108). -/
def gcd (x y : BigInt) : Res BigInt := do
  let absx ← x.abs
  let absy ← y.abs
  let l ← absx.lt absy
  if l then nochecksGcd absy absx else nochecksGcd absx absy

/-- `Frac::normalize` (src/Frac.cpp:146-157). -/
def normalize (f : Frac) : MRes Frac Frac := do
  let f ← (if f.bb.negative then do
      let b ← at' f f.bb.negate
      let f := { f with bb := b }
      let t ← at' f f.tt.negate
      pure { f with tt := t }
    else pure f)
  let c ← at' f (gcd f.tt f.bb)
  let t ← at' f (f.tt.divAssign c)
  let f := { f with tt := t }
  let b ← at' f (f.bb.divAssign c)
  return { f with bb := b }

/-- `Frac::Frac(const Int& top, const Int& bottom)` (src/Frac.hpp:24-33). -/
def mk' (top bottom : BigInt) : Res Frac := do
  let z ← bottom.equalsInt32 0
  if z then .error .divideByZero
  else drop (normalize ⟨top, bottom⟩)

/-- `Frac::reciprocal` (src/Frac.hpp:38). -/
def reciprocal (x : Frac) : Res Frac := mk' x.bb x.tt

/-- `operator==` (src/Frac.hpp:40); `&&` evaluates the second comparison only if the first one holds. -/
def eq (x y : Frac) : Res Bool := do
  let a ← BigInt.eq x.tt y.tt
  if a then BigInt.eq x.bb y.bb else return false

/-- `operator!=` (src/Frac.hpp:41). -/
def ne (x y : Frac) : Res Bool := do
  let a ← eq x y
  return !a

/-- `operator<` (src/Frac.hpp:42). -/
def lt (x y : Frac) : Res Bool := do
  let a ← opMul x.tt y.bb
  let b ← opMul y.tt x.bb
  BigInt.lt a b

/-- `operator>` (src/Frac.hpp:43). -/
def gt (x y : Frac) : Res Bool := lt y x
/-- `operator<=` (src/Frac.hpp:44). -/
def le (x y : Frac) : Res Bool := do let a ← lt y x; return !a
/-- `operator>=` (src/Frac.hpp:45). -/
def ge (x y : Frac) : Res Bool := do let a ← lt x y; return !a

/-- `operator+(Frac, Frac)` (src/Frac.hpp:47). -/
def opAdd (x y : Frac) : Res Frac := do
  let a ← opMul x.tt y.bb
  let b ← opMul y.tt x.bb
  let s ← BigInt.opAdd a b
  let d ← opMul x.bb y.bb
  mk' s d

/-- `operator-(Frac, Frac)` (src/Frac.hpp:48). -/
def opSub (x y : Frac) : Res Frac := do
  let a ← opMul x.tt y.bb
  let b ← opMul y.tt x.bb
  let s ← BigInt.opSub a b
  let d ← opMul x.bb y.bb
  mk' s d

/-- `operator*(Frac, Frac)` (src/Frac.hpp:49). -/
def opMul (x y : Frac) : Res Frac := do
  let a ← BigInt.opMul x.tt y.tt
  let d ← BigInt.opMul x.bb y.bb
  mk' a d

/-- `operator/(Frac, Frac)` (src/Frac.hpp:50). -/
def opDiv (x y : Frac) : Res Frac := do
  let a ← BigInt.opMul x.tt y.bb
  let d ← BigInt.opMul x.bb y.tt
  mk' a d

/-- `operator+(Int, Frac)` (src/Frac.hpp:52). -/
def intAdd (a : BigInt) (x : Frac) : Res Frac := do
  let p ← BigInt.opMul a x.bb
  let s ← BigInt.opAdd p x.tt
  mk' s x.bb

/-- `operator-(Int, Frac)` (src/Frac.hpp:53). -/
def intSub (a : BigInt) (x : Frac) : Res Frac := do
  let p ← BigInt.opMul a x.bb
  let s ← BigInt.opSub p x.tt
  mk' s x.bb

/-- `operator*(Int, Frac)` (src/Frac.hpp:54). -/
def intMul (a : BigInt) (x : Frac) : Res Frac := do
  let p ← BigInt.opMul a x.tt
  mk' p x.bb

/-- `operator/(Int, Frac)` (src/Frac.hpp:55). -/
def intDiv (a : BigInt) (x : Frac) : Res Frac := do
  let p ← BigInt.opMul a x.bb
  mk' p x.tt

/-- `operator+(Frac, Int)` (src/Frac.hpp:57). -/
def addInt (x : Frac) (a : BigInt) : Res Frac := do
  let p ← BigInt.opMul a x.bb
  let s ← BigInt.opAdd x.tt p
  mk' s x.bb

/-- `operator-(Frac, Int)` (src/Frac.hpp:58). -/
def subInt (x : Frac) (a : BigInt) : Res Frac := do
  let p ← BigInt.opMul a x.bb
  let s ← BigInt.opSub x.tt p
  mk' s x.bb

/-- `operator*(Frac, Int)` (src/Frac.hpp:59). -/
def mulInt (x : Frac) (a : BigInt) : Res Frac := do
  let p ← BigInt.opMul a x.tt
  mk' p x.bb

/-- `operator/(Frac, Int)` (src/Frac.hpp:60). -/
def divInt (x : Frac) (a : BigInt) : Res Frac := do
  let p ← BigInt.opMul x.bb a
  mk' x.tt p

/-- `operator^(Frac, Int)` (src/Frac.cpp:184-191). -/
def opPow (x : Frac) (a : BigInt) : Res Frac :=
  if a.negative then do
    let na ← a.neg
    let t ← BigInt.opPow x.bb na
    let b ← BigInt.opPow x.tt na
    mk' t b
  else do
    let t ← BigInt.opPow x.tt a
    let b ← BigInt.opPow x.bb a
    mk' t b

/-- `operator+=(Frac, Frac)` (src/Frac.cpp:159-163). -/
def addAssign (x y : Frac) : MRes Frac Frac := do
  let t ← at' x (do
    let a ← BigInt.opMul x.tt y.bb
    let b ← BigInt.opMul y.tt x.bb
    BigInt.opAdd a b)
  let x := { x with tt := t }
  let b ← at' x (x.bb.mulAssign y.bb)
  normalize { x with bb := b }

/-- `operator-=(Frac, Frac)` (src/Frac.cpp:165-169). -/
def subAssign (x y : Frac) : MRes Frac Frac := do
  let t ← at' x (do
    let a ← BigInt.opMul x.tt y.bb
    let b ← BigInt.opMul y.tt x.bb
    BigInt.opSub a b)
  let x := { x with tt := t }
  let b ← at' x (x.bb.mulAssign y.bb)
  normalize { x with bb := b }

/-- `operator*=(Frac, Frac)` (src/Frac.cpp:171-175). -/
def mulAssign (x y : Frac) : MRes Frac Frac := do
  let t ← at' x (x.tt.mulAssign y.tt)
  let x := { x with tt := t }
  let b ← at' x (x.bb.mulAssign y.bb)
  normalize { x with bb := b }

/-- `operator/=(Frac, Frac)` (src/Frac.cpp:177-182). -/
def divAssign (x y : Frac) : MRes Frac Frac := do
  let tmp := y.tt
  let t ← at' x (x.tt.mulAssign y.bb)
  let x := { x with tt := t }
  let b ← at' x (x.bb.mulAssign tmp)
  normalize { x with bb := b }

/-- `operator+=(Frac, Int)` (src/Frac.cpp:193-196). -/
def addAssignInt (x : Frac) (a : BigInt) : MRes Frac Frac := do
  let p ← at' x (BigInt.opMul x.bb a)
  let t ← at' x (x.tt.addAssign p)
  normalize { x with tt := t }

/-- `operator-=(Frac, Int)` (src/Frac.cpp:198-201). -/
def subAssignInt (x : Frac) (a : BigInt) : MRes Frac Frac := do
  let p ← at' x (BigInt.opMul x.bb a)
  let t ← at' x (x.tt.subAssign p)
  normalize { x with tt := t }

/-- `operator*=(Frac, Int)` (src/Frac.cpp:203-206). -/
def mulAssignInt (x : Frac) (a : BigInt) : MRes Frac Frac := do
  let t ← at' x (x.tt.mulAssign a)
  normalize { x with tt := t }

/-- `operator/=(Frac, Int)` (src/Frac.cpp:208-211). -/
def divAssignInt (x : Frac) (a : BigInt) : MRes Frac Frac := do
  let b ← at' x (x.bb.mulAssign a)
  normalize { x with bb := b }

/-- `operator^=(Frac, Int)` (src/Frac.cpp:213-223). -/
def powAssign (x : Frac) (a : BigInt) : MRes Frac Frac :=
  if a.negative then do
    let na ← at' x a.neg
    let b ← at' x (x.bb.powAssign na)
    let x := { x with bb := b }
    let t ← at' x (x.tt.powAssign na)
    normalize { x with tt := t }
  else do
    let b ← at' x (x.bb.powAssign a)
    let x := { x with bb := b }
    let t ← at' x (x.tt.powAssign a)
    normalize { x with tt := t }

/-! ### Text -/

/-- `Frac::print` (src/Frac.cpp:11-14). -/
def print (x : Frac) : List Char := ['('] ++ BigInt.print x.tt ++ ['/'] ++ BigInt.print x.bb ++ [')']

/-- `Frac::Frac(const string& x)` (src/Frac.cpp:129-144). `x.find('/')` splits at the first slash. The position is stored
in an `int`: strings of 2^31 or more characters are outside the model. -/
def ofString (x : List Char) : Res Frac :=
  if x.length == 0 then Frac.default
  else do
    let f ← (match x.dropWhile (· != '/') with
      | [] => do
        let t ← BigInt.ofString x
        let b ← ofInt64 1
        pure (⟨t, b⟩ : Frac)
      | _ :: den => do
        let t ← BigInt.ofString (x.takeWhile (· != '/'))
        let b ← BigInt.ofString den
        pure (⟨t, b⟩ : Frac))
    let z ← f.bb.equalsInt32 0
    if z then .error .invalidArgument
    else drop (normalize f)

/-- The part of `Frac::read` that reads numerator and denominator (src/Frac.cpp:32-47). Returns the stream, the object
and `success`. The stream is part of the state left behind by a failure. -/
def readParts (s : IStream) (f : Frac) (parens : Bool) : Res (IStream × Frac × Bool) := do
  let (s, t) ← BigInt.read s f.tt
  let f := { f with tt := t }
  if !s.failed then do
    let (c, s) := s.peek
    if c == some '/' then do
      let (_, s) := s.get
      let (s, b) ← BigInt.read s f.bb
      let f := { f with bb := b }
      if !s.failed then return (s, f, true)
      else return (s, f, false)
    else do
      let b ← setValue 1
      return (s, { f with bb := b }, true)
  else
    return (if parens then s.unget else s, f, false)

/-- `Frac::read` (src/Frac.cpp:19-60) up to the call of `normalize`. -/
def readRaw (s : IStream) (f : Frac) : Res (IStream × Frac) := do
  let (c, s) := s.peek
  let parens := c == some '('
  let s := if parens then s.get.2 else s
  let (s, f, success) ← readParts s f parens
  let s := if success && parens then
      (let (c, s) := s.peek
       if c == some ')' then s.get.2 else s)
    else s
  let s := if success then s.clearFail else s
  return (s, f)

/-- `Frac::read` (src/Frac.cpp:19-60). A failure of `normalize` leaves the stream advanced and the object changed. -/
def read (s : IStream) (f : Frac) : Except (Err × IStream × Frac) (IStream × Frac) :=
  let (ok, s) := s.sentry
  if !ok then .ok (s, f)
  else
    match readRaw s f with
    | .error e => .error (e, s, f)
    | .ok (s, f) =>
      match normalize f with
      | .ok f => .ok (s, f)
      | .error (e, f) => .error (e, s, f)

/-- `Frac::from_double` (src/Frac.cpp:72-98), from the point where the number has been printed: `sx` is what
`ss << fixed << x` gives, `finite` is `isFinite(x)`. The printing of the `double` is `Double.printFixed`. If `sx` has
no decimal point, `sx.erase(sx.begin() + npos)` is undefined behaviour. `num_frac_digits - 1` is converted to `int32_t`. -/
def fromDouble (finite : Bool) (sx : List Char) : Res Frac :=
  if !finite then .error .invalidArgument
  else
    match sx.dropWhile (· != '.') with
    | [] => .error .ub
    | _ :: frac => do
      let tt ← BigInt.ofString (sx.takeWhile (· != '.') ++ frac)
      let one ← ofInt64 1
      let bb ← one.timesPowerTen (toI32 frac.length)
      mk' tt bb

end Frac
end CppMaths
