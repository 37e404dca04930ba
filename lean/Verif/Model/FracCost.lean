import Verif.Model.Frac
import Verif.Model.IntCost
/-!
# The running time of Euclid's algorithm in `Frac` (src/Frac.cpp:101-124)
-/

namespace CppMaths.Frac
open BigInt
open Cost (step fail tick free)

/-- See `gcdLoop` (src/Frac.cpp:118-122). Here only the remainders that are computed are counted. -/
def gcdRoundsLoop : Nat → BigInt → BigInt → Cost BigInt
  | 0, _, _ => fail .diverge
  | f + 1, a, b => do
    let z ← free (b.equalsInt32 0)
    if z then return a
    else do
      tick 1
      let r ← free (opMod a b)
      gcdRoundsLoop f b r

/-- See `nochecksGcd` (src/Frac.cpp:111-124). -/
def nochecksGcdRounds (x y : BigInt) : Cost BigInt := gcdRoundsLoop (1000000000 ^ y.bins.length + 1) x y

/-- See `gcd` (src/Frac.cpp:101-108): the number of remainders. -/
def gcdRounds (x y : BigInt) : Cost BigInt := do
  let absx ← free x.abs
  let absy ← free y.abs
  let l ← free (absx.lt absy)
  if l then nochecksGcdRounds absy absx else nochecksGcdRounds absx absy

/-- See `gcdLoop` (src/Frac.cpp:118-122), counting steps as in `Verif/Model/IntCost.lean`: `r = a % b`, `a = b` and `b = r` copy. -/
def gcdLoopC : Nat → BigInt → BigInt → Cost BigInt
  | 0, _, _ => fail .diverge
  | f + 1, a, b => do
    let z ← equalsInt32C b 0
    if z then return a
    else do
      let t ← opModC a b
      let r ← copyC t
      let a ← copyC b
      let b ← copyC r
      gcdLoopC f a b

/-- See `nochecksGcd` (src/Frac.cpp:111-124). The arguments are copied. -/
def nochecksGcdC (x y : BigInt) : Cost BigInt := do
  let a ← copyC x
  let b ← copyC y
  gcdLoopC (1000000000 ^ y.bins.length + 1) a b

/-- See `gcd` (src/Frac.cpp:101-108). -/
def gcdC (x y : BigInt) : Cost BigInt := do
  let absx ← absC x
  let absy ← absC y
  let l ← ltC absx absy
  if l then nochecksGcdC absy absx else nochecksGcdC absx absy

end CppMaths.Frac
