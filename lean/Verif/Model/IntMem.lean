import Verif.Model.Int
/-!
# Compound assignment on variables in memory, and programs over `Int` variables

`x op= y` takes `y` by reference, so that `x` and `y` may be the same object. Here the operands are memory cells and the
code reads a cell at the moment it is used: after `*this` has been modified, `other` is modified too if it is the same
cell.
-/

namespace CppMaths

/-- A memory of `Int` objects. -/
abbrev Mem := Nat → BigInt

/-- Store an object. -/
def Mem.set (m : Mem) (d : Nat) (v : BigInt) : Mem := fun i => if i = d then v else m i

namespace BigInt

/-- `add(Int(other))` (src/Int.cpp:213). -/
def addMemNonneg (m : Mem) (d s : Nat) : Res Mem := do
  let copy := ofShift (m s) 0
  let v ← (m d).add copy
  return m.set d v

/-- The last branch of `operator-=` (src/Int.cpp:230-237). In `subtract(other)` every iteration reads both operands at
index `i` before it writes index `i`, and `cleanBins` comes last, so that reading `other` beforehand makes no
difference. -/
def subMemNonneg (m : Mem) (d s : Nat) : Res Mem := do
  let g ← (m d).gt (m s)
  if g then do
    let v ← (m d).subtract (m s)
    return m.set d v
  else do
    let r := ofShift (m s) 0
    let r ← r.subtract (m d)
    let r ← r.negate
    return m.set d r

/-- `m[d] += m[s]` (src/Int.cpp:200-215). The calls `(*this) += tmp` and `(*this) -= (-other)` have a temporary object
as operand and are the by-value functions; the call `(*this) -= other` has the cell as operand. -/
def addAssignMem (m : Mem) (d s : Nat) : Res Mem :=
  if (m d).negative && (m s).negative then do
    let tmp ← (m s).neg
    let v ← (m d).negate
    let m := m.set d v
    let v ← (m d).addAssign tmp
    let m := m.set d v
    let v ← (m d).negate
    return m.set d v
  else if (m d).negative && !(m s).negative then do
    let v ← (m d).negate
    let m := m.set d v
    let m ← subMemNonneg m d s
    let v ← (m d).negate
    return m.set d v
  else if !(m d).negative && (m s).negative then do
    let tmp ← (m s).neg
    let v ← (m d).subAssign tmp
    return m.set d v
  else addMemNonneg m d s

/-- `m[d] -= m[s]` (src/Int.cpp:217-239). -/
def subAssignMem (m : Mem) (d s : Nat) : Res Mem :=
  if (m d).negative && (m s).negative then do
    let tmp ← (m s).neg
    let v ← (m d).negate
    let m := m.set d v
    let v ← (m d).subAssign tmp
    let m := m.set d v
    let v ← (m d).negate
    return m.set d v
  else if (m d).negative && !(m s).negative then do
    let v ← (m d).negate
    let m := m.set d v
    let m ← addMemNonneg m d s
    let v ← (m d).negate
    return m.set d v
  else if !(m d).negative && (m s).negative then do
    let tmp ← (m s).neg
    let v ← (m d).addAssign tmp
    return m.set d v
  else subMemNonneg m d s

/-- `m[d] *= m[s]` (src/Int.cpp:241-246): the product goes to a local object, the sign flags of both operands are read
after that, then the local object is swapped in. -/
def mulAssignMem (m : Mem) (d s : Nat) : Res Mem := do
  let r ← multiply (m d) (m s)
  let r := { r with negative := (m d).negative != (m s).negative }
  return m.set d r

/-- `m[d] /= m[s]` (src/Int.cpp:248-250): the divisor is copied first. -/
def divAssignMem (m : Mem) (d s : Nat) : Res Mem := do
  let copy := ofShift (m s) 0
  let v ← (m d).divide copy
  return m.set d v

/-- `m[d] %= m[s]` (src/Int.cpp:252-256). -/
def modAssignMem (m : Mem) (d s : Nat) : Res Mem := do
  let r ← modulo (m d) (m s)
  return m.set d r

/-- `m[d] ^= m[s]` (src/Int.cpp:258-262). -/
def powAssignMem (m : Mem) (d s : Nat) : Res Mem := do
  let r ← exponentiate (m d) (m s)
  return m.set d r

end BigInt

/-- Binary operators on `Int`. -/
inductive IOp | add | sub | mul | div | mod
deriving DecidableEq, Repr

/-- The comparison operators of `Int` (src/Int.hpp:74-79). -/
inductive ICmp | lt | gt | le | ge | eq | ne
deriving DecidableEq, Repr

/-- `a op b` (src/Int.cpp:130-192). -/
def IOp.run : IOp → BigInt → BigInt → Res BigInt
  | .add => BigInt.opAdd
  | .sub => BigInt.opSub
  | .mul => BigInt.opMul
  | .div => BigInt.opDiv
  | .mod => BigInt.opMod

/-- `m[d] op= m[s]` (src/Int.cpp:200-256). -/
def IOp.assign : IOp → Mem → Nat → Nat → Res Mem
  | .add => BigInt.addAssignMem
  | .sub => BigInt.subAssignMem
  | .mul => BigInt.mulAssignMem
  | .div => BigInt.divAssignMem
  | .mod => BigInt.modAssignMem

/-- `a cmp b` (src/Int.hpp:74-79). -/
def ICmp.run : ICmp → BigInt → BigInt → Res Bool
  | .lt => BigInt.lt
  | .gt => BigInt.gt
  | .le => BigInt.le
  | .ge => BigInt.ge
  | .eq => BigInt.eq
  | .ne => BigInt.ne

/-- Statements of a client program over variables `v[0], v[1], ...` of type `Int`. -/
inductive IStmt
  /-- `v[d] = Int(k);` -/
  | lit (d : Nat) (k : Int)
  /-- `v[d] = Int("...");` -/
  | str (d : Nat) (s : List Char)
  /-- `v[d] = v[a];` -/
  | copy (d a : Nat)
  /-- `v[d] = v[a] op v[b];` -/
  | bin (op : IOp) (d a b : Nat)
  /-- `v[d] op= v[a];` -/
  | asg (op : IOp) (d a : Nat)
  /-- `v[d] = -v[a];` -/
  | neg (d a : Nat)
  /-- `v[d].negate();` -/
  | negate (d : Nat)
  /-- `v[d] = abs(v[a]);` -/
  | abs (d a : Nat)
  /-- `v[d] = v[a] ^ Int(e);` -/
  | pow (d a : Nat) (e : Nat)
  /-- `v[d].times_power_ten(p);` -/
  | ten (d : Nat) (p : Int)
deriving DecidableEq, Repr

/-- One statement. -/
def IStmt.step : IStmt → Mem → Res Mem
  | .lit d k, m => do let v ← BigInt.ofInt64 k; return m.set d v
  | .str d s, m => do let v ← BigInt.ofString s; return m.set d v
  | .copy d a, m => .ok (m.set d (m a))
  | .bin op d a b, m => do let v ← op.run (m a) (m b); return m.set d v
  | .asg op d a, m => op.assign m d a
  | .neg d a, m => do let v ← (m a).neg; return m.set d v
  | .negate d, m => do let v ← (m d).negate; return m.set d v
  | .abs d a, m => do let v ← (m a).abs; return m.set d v
  | .pow d a e, m => do
      let y ← BigInt.ofInt64 e
      let v ← BigInt.opPow (m a) y
      return m.set d v
  | .ten d p, m => do let v ← (m d).timesPowerTen p; return m.set d v

/-- `try { statement } catch (const std::exception&) {}`: none of the statements above modifies a variable before it
throws (src/Int.cpp:313-320, 603-607, 648-656), so a caught exception leaves the memory as it was. A failed assertion
ends the program. -/
def IStmt.tryStep (s : IStmt) (m : Mem) : Res Mem :=
  match s.step m with
  | .ok m' => .ok m'
  | .error .divideByZero => .ok m
  | .error .invalidArgument => .ok m
  | .error e => .error e

/-- Client programs: sequences, branches and loops of statements. -/
inductive IProg
  | stmt (s : IStmt)
  | seq (p q : IProg)
  | ite (c : ICmp) (a b : Nat) (p q : IProg)
  | while (c : ICmp) (a b : Nat) (p : IProg)
deriving Repr

/-- Execution of a program. The first argument bounds the depth of the computation; `diverge` means that the bound was
reached. -/
def IProg.exec : Nat → IProg → Mem → Res Mem
  | 0, _, _ => .error .diverge
  | _ + 1, .stmt s, m => s.tryStep m
  | f + 1, .seq p q, m => do
      let m ← exec f p m
      exec f q m
  | f + 1, .ite c a b p q, m => do
      let t ← c.run (m a) (m b)
      if t then exec f p m else exec f q m
  | f + 1, .while c a b p, m => do
      let t ← c.run (m a) (m b)
      if t then do
        let m ← exec f p m
        exec f (.while c a b p) m
      else return m

end CppMaths
