import Verif.Model.Release
import Verif.Model.FracMem
import Verif.Model.Scalar
/-!
# `class Frac` compiled without assertions

src/Frac.cpp and src/Frac.hpp have no assertions of their own, but they use the operators of `Int`. These are the functions of
`Verif/Model/Frac.lean` and the programs of `Verif/Model/FracMem.lean` on top of the `Int` of `Verif/Model/Release.lean`. An `Int`
operation that throws while it works on a part of the fraction leaves that part changed, so the two parts are followed through
every function that changes an object.
-/

namespace CppMaths
namespace Frac
open BigInt

/-- A function that changes the numerator of `f` in place. -/
def atTop (f : Frac) : Upd BigInt → MRes Frac Frac
  | .ok t => .ok { f with tt := t }
  | .error (e, t) => .error (e, { f with tt := t })

/-- A function that changes the denominator of `f` in place. -/
def atBottom (f : Frac) : Upd BigInt → MRes Frac Frac
  | .ok b => .ok { f with bb := b }
  | .error (e, b) => .error (e, { f with bb := b })

/-- The loop of `nochecks_gcd` (src/Frac.cpp:118-122). -/
def gcdLoopR : Nat → BigInt → BigInt → Res BigInt
  | 0, _, _ => .error .diverge
  | f + 1, a, b => do
    let z ← b.equalsInt32 0
    if z then return a
    else do
      let r ← opModR a b
      gcdLoopR f b r

/-- `Frac::nochecks_gcd` (src/Frac.cpp:111-124). -/
def nochecksGcdR (x y : BigInt) : Res BigInt := gcdLoopR (1000000000 ^ y.bins.length + 1) x y

/-- `Frac::GCD` (src/Frac.cpp:101-108). `abs` and the comparison reach no assertion. -/
def gcdR (x y : BigInt) : Res BigInt := do
  let absx ← x.abs
  let absy ← y.abs
  let l ← absx.lt absy
  if l then nochecksGcdR absy absx else nochecksGcdR absx absy

/-- `Frac::normalize` (src/Frac.cpp:146-157). -/
def normalizeU (f : Frac) : MRes Frac Frac := do
  let f ← (if f.bb.negative then do
      let b ← at' f f.bb.negate
      let f := { f with bb := b }
      let t ← at' f f.tt.negate
      pure { f with tt := t }
    else pure f)
  let c ← at' f (gcdR f.tt f.bb)
  let f ← atTop f (f.tt.divAssignU c)
  atBottom f (f.bb.divAssignU c)

/-- `Frac::Frac(const Int& top, const Int& bottom)` (src/Frac.hpp:24-33). -/
def mkR (top bottom : BigInt) : Res Frac := do
  let z ← bottom.equalsInt32 0
  if z then .error .divideByZero
  else drop (normalizeU ⟨top, bottom⟩)

/-- `Frac::reciprocal` (src/Frac.hpp:38). -/
def reciprocalR (x : Frac) : Res Frac := mkR x.bb x.tt

/-- `operator<` (src/Frac.hpp:42). `operator==` and `operator!=` (src/Frac.hpp:40-41) only compare and are those of
`Verif/Model/Frac.lean`. -/
def ltR (x y : Frac) : Res Bool := do
  let a ← opMulR x.tt y.bb
  let b ← opMulR y.tt x.bb
  BigInt.lt a b

/-- `operator>` (src/Frac.hpp:43). -/
def gtR (x y : Frac) : Res Bool := ltR y x
/-- `operator<=` (src/Frac.hpp:44). -/
def leR (x y : Frac) : Res Bool := do let a ← ltR y x; return !a
/-- `operator>=` (src/Frac.hpp:45). -/
def geR (x y : Frac) : Res Bool := do let a ← ltR x y; return !a

/-- `operator+(Frac, Frac)` (src/Frac.hpp:47). -/
def opAddR (x y : Frac) : Res Frac := do
  let a ← opMulR x.tt y.bb
  let b ← opMulR y.tt x.bb
  let s ← BigInt.opAddR a b
  let d ← opMulR x.bb y.bb
  mkR s d

/-- `operator-(Frac, Frac)` (src/Frac.hpp:48). -/
def opSubR (x y : Frac) : Res Frac := do
  let a ← opMulR x.tt y.bb
  let b ← opMulR y.tt x.bb
  let s ← BigInt.opSubR a b
  let d ← opMulR x.bb y.bb
  mkR s d

/-- `operator*(Frac, Frac)` (src/Frac.hpp:49). -/
def opMulR (x y : Frac) : Res Frac := do
  let a ← BigInt.opMulR x.tt y.tt
  let d ← BigInt.opMulR x.bb y.bb
  mkR a d

/-- `operator/(Frac, Frac)` (src/Frac.hpp:50). -/
def opDivR (x y : Frac) : Res Frac := do
  let a ← BigInt.opMulR x.tt y.bb
  let d ← BigInt.opMulR x.bb y.tt
  mkR a d

/-- `operator+(Int, Frac)` (src/Frac.hpp:52). -/
def intAddR (a : BigInt) (x : Frac) : Res Frac := do
  let p ← BigInt.opMulR a x.bb
  let s ← BigInt.opAddR p x.tt
  mkR s x.bb

/-- `operator-(Int, Frac)` (src/Frac.hpp:53). -/
def intSubR (a : BigInt) (x : Frac) : Res Frac := do
  let p ← BigInt.opMulR a x.bb
  let s ← BigInt.opSubR p x.tt
  mkR s x.bb

/-- `operator*(Int, Frac)` (src/Frac.hpp:54). -/
def intMulR (a : BigInt) (x : Frac) : Res Frac := do
  let p ← BigInt.opMulR a x.tt
  mkR p x.bb

/-- `operator/(Int, Frac)` (src/Frac.hpp:55). -/
def intDivR (a : BigInt) (x : Frac) : Res Frac := do
  let p ← BigInt.opMulR a x.bb
  mkR p x.tt

/-- `operator+(Frac, Int)` (src/Frac.hpp:57). -/
def addIntR (x : Frac) (a : BigInt) : Res Frac := do
  let p ← BigInt.opMulR a x.bb
  let s ← BigInt.opAddR x.tt p
  mkR s x.bb

/-- `operator-(Frac, Int)` (src/Frac.hpp:58). -/
def subIntR (x : Frac) (a : BigInt) : Res Frac := do
  let p ← BigInt.opMulR a x.bb
  let s ← BigInt.opSubR x.tt p
  mkR s x.bb

/-- `operator*(Frac, Int)` (src/Frac.hpp:59). -/
def mulIntR (x : Frac) (a : BigInt) : Res Frac := do
  let p ← BigInt.opMulR a x.tt
  mkR p x.bb

/-- `operator/(Frac, Int)` (src/Frac.hpp:60). -/
def divIntR (x : Frac) (a : BigInt) : Res Frac := do
  let p ← BigInt.opMulR x.bb a
  mkR x.tt p

/-- `operator^(Frac, Int)` (src/Frac.cpp:184-191). -/
def opPowR (x : Frac) (a : BigInt) : Res Frac :=
  if a.negative then do
    let na ← a.neg
    let t ← BigInt.opPowR x.bb na
    let b ← BigInt.opPowR x.tt na
    mkR t b
  else do
    let t ← BigInt.opPowR x.tt a
    let b ← BigInt.opPowR x.bb a
    mkR t b

/-- `operator+=(Frac, Frac)` (src/Frac.cpp:159-163). -/
def addAssignU (x y : Frac) : MRes Frac Frac := do
  let t ← at' x (do
    let a ← BigInt.opMulR x.tt y.bb
    let b ← BigInt.opMulR y.tt x.bb
    BigInt.opAddR a b)
  let x := { x with tt := t }
  let x ← atBottom x (x.bb.mulAssignU y.bb)
  normalizeU x

/-- `operator-=(Frac, Frac)` (src/Frac.cpp:165-169). -/
def subAssignU (x y : Frac) : MRes Frac Frac := do
  let t ← at' x (do
    let a ← BigInt.opMulR x.tt y.bb
    let b ← BigInt.opMulR y.tt x.bb
    BigInt.opSubR a b)
  let x := { x with tt := t }
  let x ← atBottom x (x.bb.mulAssignU y.bb)
  normalizeU x

/-- `operator*=(Frac, Frac)` (src/Frac.cpp:171-175). -/
def mulAssignU (x y : Frac) : MRes Frac Frac := do
  let x ← atTop x (x.tt.mulAssignU y.tt)
  let x ← atBottom x (x.bb.mulAssignU y.bb)
  normalizeU x

/-- `operator/=(Frac, Frac)` (src/Frac.cpp:177-182). -/
def divAssignU (x y : Frac) : MRes Frac Frac := do
  let tmp := y.tt
  let x ← atTop x (x.tt.mulAssignU y.bb)
  let x ← atBottom x (x.bb.mulAssignU tmp)
  normalizeU x

/-- `operator+=(Frac, Int)` (src/Frac.cpp:193-196). -/
def addAssignIntU (x : Frac) (a : BigInt) : MRes Frac Frac := do
  let p ← at' x (BigInt.opMulR x.bb a)
  let x ← atTop x (x.tt.addAssignU p)
  normalizeU x

/-- `operator-=(Frac, Int)` (src/Frac.cpp:198-201). -/
def subAssignIntU (x : Frac) (a : BigInt) : MRes Frac Frac := do
  let p ← at' x (BigInt.opMulR x.bb a)
  let x ← atTop x (x.tt.subAssignU p)
  normalizeU x

/-- `operator*=(Frac, Int)` (src/Frac.cpp:203-206). -/
def mulAssignIntU (x : Frac) (a : BigInt) : MRes Frac Frac := do
  let x ← atTop x (x.tt.mulAssignU a)
  normalizeU x

/-- `operator/=(Frac, Int)` (src/Frac.cpp:208-211). -/
def divAssignIntU (x : Frac) (a : BigInt) : MRes Frac Frac := do
  let x ← atBottom x (x.bb.mulAssignU a)
  normalizeU x

/-- `operator^=(Frac, Int)` (src/Frac.cpp:213-223). -/
def powAssignU (x : Frac) (a : BigInt) : MRes Frac Frac :=
  if a.negative then do
    let na ← at' x a.neg
    let x ← atBottom x (x.bb.powAssignU na)
    let x ← atTop x (x.tt.powAssignU na)
    normalizeU x
  else do
    let x ← atBottom x (x.bb.powAssignU a)
    let x ← atTop x (x.tt.powAssignU a)
    normalizeU x

/-! ### Text -/

/-- `Frac::Frac(const string& x)` (src/Frac.cpp:129-144); see `ofString`. Reading the parts reaches no assertion. -/
def ofStringR (x : List Char) : Res Frac :=
  if x.length == 0 then Frac.default
  else do
    let f ← (match x.dropWhile (· != '/') with
      | [] => do
        let t ← BigInt.ofString x
        let b ← ofInt64 1
        pure (⟨t, b⟩ : Frac)
      | _ :: den => do
        let t ← BigInt.ofString (x.takeWhile (· != '/'))
        let b ← BigInt.ofString den
        pure (⟨t, b⟩ : Frac))
    let z ← f.bb.equalsInt32 0
    if z then .error .invalidArgument
    else drop (normalizeU f)

/-- `Frac::read` (src/Frac.cpp:19-60); see `read`. Reading the parts reaches no assertion. -/
def readU (s : IStream) (f : Frac) : Except (Err × IStream × Frac) (IStream × Frac) :=
  let (ok, s) := s.sentry
  if !ok then .ok (s, f)
  else
    match readRaw s f with
    | .error e => .error (e, s, f)
    | .ok (s, f) =>
      match normalizeU f with
      | .ok f => .ok (s, f)
      | .error (e, f) => .error (e, s, f)

/-- `Frac::from_double` (src/Frac.cpp:72-98); see `fromDouble`. -/
def fromDoubleR (finite : Bool) (sx : List Char) : Res Frac :=
  if !finite then .error .invalidArgument
  else
    match sx.dropWhile (· != '.') with
    | [] => .error .ub
    | _ :: frac => do
      let tt ← BigInt.ofString (sx.takeWhile (· != '.') ++ frac)
      let one ← ofInt64 1
      let bb ← outcome (one.timesPowerTenU (toI32 frac.length))
      mkR tt bb

/-! ### Variables in memory -/

/-- `m[d].normalize()` (src/Frac.cpp:146-157). -/
def normalizeMemU (m : FMem) (d : Nat) : MRes FMem FMem := m.update d (normalizeU (m d))

/-- `m[d].bb *= v` for the value `v` that the right operand has at this moment. -/
def mulBottomMemU (m : FMem) (d : Nat) (v : BigInt) : MRes FMem FMem := m.update d (atBottom (m d) ((m d).bb.mulAssignU v))

/-- `m[d].tt *= v`. -/
def mulTopMemU (m : FMem) (d : Nat) (v : BigInt) : MRes FMem FMem := m.update d (atTop (m d) ((m d).tt.mulAssignU v))

/-- `m[d] += m[s]` (src/Frac.cpp:159-163); see `addAssignMem`. -/
def addAssignMemU (m : FMem) (d s : Nat) : MRes FMem FMem := do
  let t ← at' m (do
    let a ← BigInt.opMulR (m d).tt (m s).bb
    let b ← BigInt.opMulR (m s).tt (m d).bb
    BigInt.opAddR a b)
  let m := m.set d { m d with tt := t }
  let m ← mulBottomMemU m d (m s).bb
  normalizeMemU m d

/-- `m[d] -= m[s]` (src/Frac.cpp:165-169). -/
def subAssignMemU (m : FMem) (d s : Nat) : MRes FMem FMem := do
  let t ← at' m (do
    let a ← BigInt.opMulR (m d).tt (m s).bb
    let b ← BigInt.opMulR (m s).tt (m d).bb
    BigInt.opSubR a b)
  let m := m.set d { m d with tt := t }
  let m ← mulBottomMemU m d (m s).bb
  normalizeMemU m d

/-- `m[d] *= m[s]` (src/Frac.cpp:171-175). -/
def mulAssignMemU (m : FMem) (d s : Nat) : MRes FMem FMem := do
  let m ← mulTopMemU m d (m s).tt
  let m ← mulBottomMemU m d (m s).bb
  normalizeMemU m d

/-- `m[d] /= m[s]` (src/Frac.cpp:177-182). -/
def divAssignMemU (m : FMem) (d s : Nat) : MRes FMem FMem := do
  let tmp := (m s).tt
  let m ← mulTopMemU m d (m s).bb
  let m ← mulBottomMemU m d tmp
  normalizeMemU m d

end Frac

/-- `a op b` (src/Frac.hpp:47-50). -/
def FOp.runR : FOp → Frac → Frac → Res Frac
  | .add => Frac.opAddR
  | .sub => Frac.opSubR
  | .mul => Frac.opMulR
  | .div => Frac.opDivR

/-- `a op k` with an `Int` `k` (src/Frac.hpp:57-60). -/
def FOp.runIntR : FOp → Frac → BigInt → Res Frac
  | .add => Frac.addIntR
  | .sub => Frac.subIntR
  | .mul => Frac.mulIntR
  | .div => Frac.divIntR

/-- `k op a` with an `Int` `k` (src/Frac.hpp:52-55). -/
def FOp.intRunR : FOp → BigInt → Frac → Res Frac
  | .add => Frac.intAddR
  | .sub => Frac.intSubR
  | .mul => Frac.intMulR
  | .div => Frac.intDivR

/-- `x op= y` for two objects (src/Frac.cpp:159-182). -/
def FOp.asgValU : FOp → Frac → Frac → MRes Frac Frac
  | .add => Frac.addAssignU
  | .sub => Frac.subAssignU
  | .mul => Frac.mulAssignU
  | .div => Frac.divAssignU

/-- `m[d] op= m[s]` (src/Frac.cpp:159-182). -/
def FOp.assignU : FOp → FMem → Nat → Nat → MRes FMem FMem
  | .add => Frac.addAssignMemU
  | .sub => Frac.subAssignMemU
  | .mul => Frac.mulAssignMemU
  | .div => Frac.divAssignMemU

/-- `x op= k` with an `Int` `k` (src/Frac.cpp:193-211). -/
def FOp.asgIntU : FOp → Frac → BigInt → MRes Frac Frac
  | .add => Frac.addAssignIntU
  | .sub => Frac.subAssignIntU
  | .mul => Frac.mulAssignIntU
  | .div => Frac.divAssignIntU

/-- `a cmp b` (src/Frac.hpp:40-45). -/
def ICmp.runFracR : ICmp → Frac → Frac → Res Bool
  | .lt => Frac.ltR
  | .gt => Frac.gtR
  | .le => Frac.leR
  | .ge => Frac.geR
  | .eq => Frac.eq
  | .ne => Frac.ne

/-- One statement without assertions, with the memory that a throwing statement leaves behind. -/
def FStmt.stepU : FStmt → FMem → MRes FMem FMem
  | .lit d a b, m => m.store d (do
      let t ← BigInt.ofInt64 a
      let b ← BigInt.ofInt64 b
      Frac.mkR t b)
  | .str d s, m => m.store d (Frac.ofStringR s)
  | .copy d a, m => .ok (m.set d (m a))
  | .bin op d a b, m => m.store d (op.runR (m a) (m b))
  | .binInt op d a k, m => m.store d (do
      let k ← BigInt.ofInt64 k
      op.runIntR (m a) k)
  | .intBin op d k a, m => m.store d (do
      let k ← BigInt.ofInt64 k
      op.intRunR k (m a))
  | .asg op d a, m => op.assignU m d a
  | .asgInt op d k, m => do
      let k ← Frac.at' m (BigInt.ofInt64 k)
      m.update d (op.asgIntU (m d) k)
  | .pow d a k, m => m.store d (do
      let k ← BigInt.ofInt64 k
      Frac.opPowR (m a) k)
  | .powAsg d k, m => do
      let k ← Frac.at' m (BigInt.ofInt64 k)
      m.update d (Frac.powAssignU (m d) k)
  | .recip d a, m => m.store d (Frac.reciprocalR (m a))

/-- `try { statement } catch (..) {}`. With `all` the handler is `catch (const std::exception&)`; without it, handlers are there for
`divide_by_zero_error` and `std::invalid_argument` only, and `std::out_of_range` ends the program. The program goes on with
the memory that the statement has left behind. -/
def FStmt.tryStepR (all : Bool) (s : FStmt) (m : FMem) : Res FMem :=
  match s.stepU m with
  | .ok m' => .ok m'
  | .error (.divideByZero, m') => .ok m'
  | .error (.invalidArgument, m') => .ok m'
  | .error (.outOfRange, m') => if all then .ok m' else .error .outOfRange
  | .error (e, _) => .error e

/-- Execution of a program without assertions, to a given depth. -/
def FProg.execR (all : Bool) : Nat → FProg → FMem → Res FMem
  | 0, _, _ => .error .diverge
  | _ + 1, .stmt s, m => s.tryStepR all m
  | f + 1, .seq p q, m => do
      let m ← execR all f p m
      execR all f q m
  | f + 1, .ite c a b p q, m => do
      let t ← c.runFracR (m a) (m b)
      if t then execR all f p m else execR all f q m
  | f + 1, .while c a b p, m => do
      let t ← c.runFracR (m a) (m b)
      if t then do
        let m ← execR all f p m
        execR all f (.while c a b p) m
      else return m

/-- `T = Int` in `Vec<T>` and `Mat<T>`, without assertions; see `Scalar.int`. -/
def Scalar.intR : Scalar BigInt where
  ofInt n := BigInt.ofInt64 n
  add := BigInt.opAddR
  sub := BigInt.opSubR
  mul := BigInt.opMulR
  div := BigInt.opDivR
  neg := BigInt.neg
  addA x y := BigInt.outcome (BigInt.addAssignU x y)
  subA x y := BigInt.outcome (BigInt.subAssignU x y)
  mulA x y := BigInt.outcome (BigInt.mulAssignU x y)
  divA x y := BigInt.outcome (BigInt.divAssignU x y)
  eq := BigInt.eq
  ne := BigInt.ne

/-- `T = Frac` in `Vec<T>` and `Mat<T>`, without assertions; see `Scalar.frac`. -/
def Scalar.fracR : Scalar Frac where
  ofInt n := Frac.ofI32 n
  add := Frac.opAddR
  sub := Frac.opSubR
  mul := Frac.opMulR
  div := Frac.opDivR
  neg _ := .error .ub
  addA x y := Frac.drop (Frac.addAssignU x y)
  subA x y := Frac.drop (Frac.subAssignU x y)
  mulA x y := Frac.drop (Frac.mulAssignU x y)
  divA x y := Frac.drop (Frac.divAssignU x y)
  eq := Frac.eq
  ne := Frac.ne

end CppMaths
