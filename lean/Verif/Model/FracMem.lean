import Verif.Model.Frac
import Verif.Model.IntMem
/-!
# Compound assignment on `Frac` variables in memory, and programs over them

`x op= y` takes `y` by reference, so that `x` and `y` may be the same object. As in `Verif.Model.IntMem` a cell is read at
the moment the code uses it.
-/

namespace CppMaths

/-- A memory of `Frac` objects. -/
abbrev FMem := Nat → Frac

/-- Store an object. -/
def FMem.set (m : FMem) (d : Nat) (v : Frac) : FMem := fun i => if i = d then v else m i

namespace Frac

/-- `m[d].normalize()` (src/Frac.cpp:146-157). -/
def normalizeMem (m : FMem) (d : Nat) : MRes FMem FMem :=
  match normalize (m d) with
  | .ok f => .ok (m.set d f)
  | .error (e, f) => .error (e, m.set d f)

/-- `m[d] += m[s]` (src/Frac.cpp:159-163). In `x.bb *= y.bb` both sides may be the same `Int` object; that this makes no
difference is `BigInt.mulAssignMem_eq`. -/
def addAssignMem (m : FMem) (d s : Nat) : MRes FMem FMem := do
  let t ← at' m (do
    let a ← BigInt.opMul (m d).tt (m s).bb
    let b ← BigInt.opMul (m s).tt (m d).bb
    BigInt.opAdd a b)
  let m := m.set d { m d with tt := t }
  let b ← at' m ((m d).bb.mulAssign (m s).bb)
  let m := m.set d { m d with bb := b }
  normalizeMem m d

/-- `m[d] -= m[s]` (src/Frac.cpp:165-169). -/
def subAssignMem (m : FMem) (d s : Nat) : MRes FMem FMem := do
  let t ← at' m (do
    let a ← BigInt.opMul (m d).tt (m s).bb
    let b ← BigInt.opMul (m s).tt (m d).bb
    BigInt.opSub a b)
  let m := m.set d { m d with tt := t }
  let b ← at' m ((m d).bb.mulAssign (m s).bb)
  let m := m.set d { m d with bb := b }
  normalizeMem m d

/-- `m[d] *= m[s]` (src/Frac.cpp:171-175). -/
def mulAssignMem (m : FMem) (d s : Nat) : MRes FMem FMem := do
  let t ← at' m ((m d).tt.mulAssign (m s).tt)
  let m := m.set d { m d with tt := t }
  let b ← at' m ((m d).bb.mulAssign (m s).bb)
  let m := m.set d { m d with bb := b }
  normalizeMem m d

/-- `m[d] /= m[s]` (src/Frac.cpp:177-182). -/
def divAssignMem (m : FMem) (d s : Nat) : MRes FMem FMem := do
  let tmp := (m s).tt
  let t ← at' m ((m d).tt.mulAssign (m s).bb)
  let m := m.set d { m d with tt := t }
  let b ← at' m ((m d).bb.mulAssign tmp)
  let m := m.set d { m d with bb := b }
  normalizeMem m d

end Frac

/-- Binary operators on `Frac`. -/
inductive FOp | add | sub | mul | div
deriving DecidableEq, Repr

/-- `a op b` (src/Frac.hpp:47-50). -/
def FOp.run : FOp → Frac → Frac → Res Frac
  | .add => Frac.opAdd
  | .sub => Frac.opSub
  | .mul => Frac.opMul
  | .div => Frac.opDiv

/-- `a op k` with an `Int` `k` (src/Frac.hpp:57-60). -/
def FOp.runInt : FOp → Frac → BigInt → Res Frac
  | .add => Frac.addInt
  | .sub => Frac.subInt
  | .mul => Frac.mulInt
  | .div => Frac.divInt

/-- `k op a` with an `Int` `k` (src/Frac.hpp:52-55). -/
def FOp.intRun : FOp → BigInt → Frac → Res Frac
  | .add => Frac.intAdd
  | .sub => Frac.intSub
  | .mul => Frac.intMul
  | .div => Frac.intDiv

/-- `x op= y` for two objects (src/Frac.cpp:159-182). -/
def FOp.asgVal : FOp → Frac → Frac → MRes Frac Frac
  | .add => Frac.addAssign
  | .sub => Frac.subAssign
  | .mul => Frac.mulAssign
  | .div => Frac.divAssign

/-- `m[d] op= m[s]` (src/Frac.cpp:159-182). -/
def FOp.assign : FOp → FMem → Nat → Nat → MRes FMem FMem
  | .add => Frac.addAssignMem
  | .sub => Frac.subAssignMem
  | .mul => Frac.mulAssignMem
  | .div => Frac.divAssignMem

/-- `x op= k` with an `Int` `k` (src/Frac.cpp:193-211). -/
def FOp.asgInt : FOp → Frac → BigInt → MRes Frac Frac
  | .add => Frac.addAssignInt
  | .sub => Frac.subAssignInt
  | .mul => Frac.mulAssignInt
  | .div => Frac.divAssignInt

/-- `a cmp b` (src/Frac.hpp:40-45). -/
def ICmp.runFrac : ICmp → Frac → Frac → Res Bool
  | .lt => Frac.lt
  | .gt => Frac.gt
  | .le => Frac.le
  | .ge => Frac.ge
  | .eq => Frac.eq
  | .ne => Frac.ne

/-- Statements of a client program over variables `v[0], v[1], ...` of type `Frac`. The `k`s are 64-bit constants. -/
inductive FStmt
  /-- `v[d] = Frac(Int(a), Int(b));` -/
  | lit (d : Nat) (a b : Int)
  /-- `v[d] = Frac("...");` -/
  | str (d : Nat) (s : List Char)
  /-- `v[d] = v[a];` -/
  | copy (d a : Nat)
  /-- `v[d] = v[a] op v[b];` -/
  | bin (op : FOp) (d a b : Nat)
  /-- `v[d] = v[a] op Int(k);` -/
  | binInt (op : FOp) (d a : Nat) (k : Int)
  /-- `v[d] = Int(k) op v[a];` -/
  | intBin (op : FOp) (d : Nat) (k : Int) (a : Nat)
  /-- `v[d] op= v[a];` -/
  | asg (op : FOp) (d a : Nat)
  /-- `v[d] op= Int(k);` -/
  | asgInt (op : FOp) (d : Nat) (k : Int)
  /-- `v[d] = v[a] ^ Int(k);` -/
  | pow (d a : Nat) (k : Int)
  /-- `v[d] ^= Int(k);` -/
  | powAsg (d : Nat) (k : Int)
  /-- `v[d] = v[a].reciprocal();` -/
  | recip (d a : Nat)
deriving DecidableEq, Repr

/-- Store the outcome of a function that returns a value; if it throws, the memory is unchanged. -/
def FMem.store (m : FMem) (d : Nat) : Res Frac → MRes FMem FMem
  | .ok f => .ok (m.set d f)
  | .error e => .error (e, m)

/-- Store the outcome of a function that changes the object `m[d]`. -/
def FMem.update (m : FMem) (d : Nat) : MRes Frac Frac → MRes FMem FMem
  | .ok f => .ok (m.set d f)
  | .error (e, f) => .error (e, m.set d f)

/-- One statement. -/
def FStmt.step : FStmt → FMem → MRes FMem FMem
  | .lit d a b, m => m.store d (do
      let t ← BigInt.ofInt64 a
      let b ← BigInt.ofInt64 b
      Frac.mk' t b)
  | .str d s, m => m.store d (Frac.ofString s)
  | .copy d a, m => .ok (m.set d (m a))
  | .bin op d a b, m => m.store d (op.run (m a) (m b))
  | .binInt op d a k, m => m.store d (do
      let k ← BigInt.ofInt64 k
      op.runInt (m a) k)
  | .intBin op d k a, m => m.store d (do
      let k ← BigInt.ofInt64 k
      op.intRun k (m a))
  | .asg op d a, m => op.assign m d a
  | .asgInt op d k, m => do
      let k ← Frac.at' m (BigInt.ofInt64 k)
      m.update d (op.asgInt (m d) k)
  | .pow d a k, m => m.store d (do
      let k ← BigInt.ofInt64 k
      Frac.opPow (m a) k)
  | .powAsg d k, m => do
      let k ← Frac.at' m (BigInt.ofInt64 k)
      m.update d (Frac.powAssign (m d) k)
  | .recip d a, m => m.store d (Frac.reciprocal (m a))

/-- `try { statement } catch (const std::exception&) {}`: the program goes on with whatever the statement has left in
memory. A failed assertion ends the program. -/
def FStmt.tryStep (s : FStmt) (m : FMem) : Res FMem :=
  match s.step m with
  | .ok m' => .ok m'
  | .error (.divideByZero, m') => .ok m'
  | .error (.invalidArgument, m') => .ok m'
  | .error (e, _) => .error e

/-- Client programs: sequences, branches and loops of statements. -/
inductive FProg
  | stmt (s : FStmt)
  | seq (p q : FProg)
  | ite (c : ICmp) (a b : Nat) (p q : FProg)
  | while (c : ICmp) (a b : Nat) (p : FProg)
deriving Repr

/-- Execution of a program. The first argument bounds the depth of the computation; `diverge` means that the bound was
reached. -/
def FProg.exec : Nat → FProg → FMem → Res FMem
  | 0, _, _ => .error .diverge
  | _ + 1, .stmt s, m => s.tryStep m
  | f + 1, .seq p q, m => do
      let m ← exec f p m
      exec f q m
  | f + 1, .ite c a b p q, m => do
      let t ← c.runFrac (m a) (m b)
      if t then exec f p m else exec f q m
  | f + 1, .while c a b p, m => do
      let t ← c.runFrac (m a) (m b)
      if t then do
        let m ← exec f p m
        exec f (.while c a b p) m
      else return m

end CppMaths
