import Verif.Model.FracAlloc
import Verif.Model.FracMem
import Verif.Model.PolyAlloc
/-!
# Programs with `Frac` variables when memory runs out

The functions are those of Verif/Model/FracAlloc.lean. A program is a sequence of statements over numbered variables.
-/

namespace CppMaths
open GM Frac

/-- A statement; the first number is the variable that is assigned. -/
inductive FAStmt where
  /-- `x op= y` (src/Frac.cpp:159-182). -/
  | update (op : FOp) (i j : Nat)
  /-- `x op= a` with an `Int` `a` (src/Frac.cpp:193-211). -/
  | updateInt (op : FOp) (i : Nat) (a : BigInt)
  /-- `z = x op y` (src/Frac.hpp:47-50). -/
  | set (op : FOp) (k i j : Nat)
  /-- `z = x op a` (src/Frac.hpp:57-60). -/
  | setInt (op : FOp) (k i : Nat) (a : BigInt)
  /-- `z = a op x` (src/Frac.hpp:52-55). -/
  | intSet (op : FOp) (k : Nat) (a : BigInt) (i : Nat)
  /-- `z = Frac(a, b)` (src/Frac.hpp:24-33). -/
  | make (k : Nat) (a b : BigInt)
  /-- `z = x.reciprocal()` (src/Frac.hpp:38). -/
  | recip (k i : Nat)
  /-- `z = x`, the implicit copy assignment. -/
  | copy (k i : Nat)

/-- A statement with unlimited memory (the lines cited at the constructors of `FAStmt`; the functions are those of Verif/Model/Frac.lean). -/
def FAStmt.exec (m : FMem) : FAStmt → Res FMem
  | .update op i j => drop (op.asgVal (m i) (m j)) >>= fun x => .ok (m.set i x)
  | .updateInt op i a => drop (op.asgInt (m i) a) >>= fun x => .ok (m.set i x)
  | .set op k i j => op.run (m i) (m j) >>= fun x => .ok (m.set k x)
  | .setInt op k i a => op.runInt (m i) a >>= fun x => .ok (m.set k x)
  | .intSet op k a i => op.intRun a (m i) >>= fun x => .ok (m.set k x)
  | .make k a b => mk' a b >>= fun x => .ok (m.set k x)
  | .recip k i => (m i).reciprocal >>= fun x => .ok (m.set k x)
  | .copy k i => .ok (m.set k (m i))

/-- A program with unlimited memory. -/
def FAStmt.run : List FAStmt → FMem → Res FMem
  | [], m => .ok m
  | s :: r, m => s.exec m >>= FAStmt.run r

/-- The implicit copy assignment of `Frac` (src/Frac.hpp:16-21): the numerator is assigned before the denominator. -/
def Frac.assignT (L : ILuck) (c : Frac) : FM Unit := do
  Frac.onTop (BigInt.assignT L c.tt)
  Frac.onBottom (BigInt.assignT L c.bb)

/-- Change a variable in place. -/
def FMem.on (i : Nat) (m : FM Unit) : GM FMem Unit := GM.on (fun v : FMem => v i) (fun v x => v.set i x) m

/-- `z = e`: the result is an object of its own that is then assigned. -/
def FMem.getsT (L : ILuck) (k : Nat) (e : AM Frac) : GM FMem Unit := do
  let x ← other e
  FMem.on k (Frac.assignT L x)

/-- One statement (the lines cited at the constructors of `FAStmt`). Simplified: in `x op= x` the right operand is read before the assignment, which gives the same
results (C44); what a failure leaves in `x` is that of two different operands. -/
def FAStmt.execT (L : ILuck) (s : FAStmt) : GM FMem Unit := do
  let m ← this
  match s with
  | .update op i j => FMem.on i (op.assignT L (m j))
  | .updateInt op i a => FMem.on i (op.assignIntT L a)
  | .set op k i j => FMem.getsT L k (op.runA L (m i) (m j))
  | .setInt op k i a => FMem.getsT L k (op.runIntA L (m i) a)
  | .intSet op k a i => FMem.getsT L k (op.intRunA L a (m i))
  | .make k a b => FMem.getsT L k (Frac.mkA L a b)
  | .recip k i => FMem.getsT L k (Frac.reciprocalA L (m i))
  | .copy k i => FMem.on k (Frac.assignT L (m i))

/-- A program; an exception ends it. -/
def FAStmt.runT (L : ILuck) : List FAStmt → GM FMem Unit
  | [] => pure ()
  | s :: r => do
    s.execT L
    FAStmt.runT L r

/-- A program whose statements are tried again when they throw `bad_alloc`, at most `t` times after the first. -/
def FAStmt.retryAll (L : ILuck) (t : Nat) : List FAStmt → GM FMem Unit
  | [] => pure ()
  | s :: r => do
    GM.retry (s.execT L) t
    FAStmt.retryAll L t r

end CppMaths
