import Verif.Model.IntAlloc
/-!
# Programs with `Int` variables when memory runs out

The functions are those of Verif/Model/IntAlloc.lean. A program is a sequence of statements over numbered variables. There are two ways to
go on after `bad_alloc`: to catch it and go on with the next statement, or to try the same statement again.
-/

namespace CppMaths
open GM

/-- A statement; the first number is the variable that is assigned. -/
inductive AStmt where
  /-- `x op= y` (src/Int.cpp:200-256). -/
  | update (op : IOp) (i j : Nat)
  /-- `z = x op y` (src/Int.cpp:130-192): the result is an object of its own that is then assigned. -/
  | set (op : IOp) (k i j : Nat)
  /-- `z = x`, the implicit copy assignment. -/
  | copy (k i : Nat)

/-- The variable that is assigned. -/
def AStmt.target : AStmt → Nat
  | .update _ i _ => i
  | .set _ k _ _ => k
  | .copy k _ => k

/-- One statement (src/Int.cpp:130-256). The state is the variables and the number of requests so far. -/
def AStmt.exec (L : ILuck) (s : AStmt) : GM Mem Unit := fun st =>
  match s with
  | .update op i j => match op.assignT L (st.1 j) (st.1 i, st.2) with
    | (r, (x, n)) => (r, (st.1.set i x, n))
  | .set op k i j => match op.runA L (st.1 i) (st.1 j) ((), st.2) with
    | (.error e, (_, n)) => (.error e, (st.1, n))
    | (.ok z, (_, n)) => match BigInt.assignT L z (st.1 k, n) with
      | (r, (x, n)) => (r, (st.1.set k x, n))
  | .copy k i => match BigInt.assignT L (st.1 i) (st.1 k, st.2) with
    | (r, (x, n)) => (r, (st.1.set k x, n))

/-- A failed assertion ends the program; everything else can be caught. -/
def Err.caught : Err → Bool
  | .assertion => false
  | _ => true

/-- Every statement in its own `try { ... } catch (...) {}`: returns how each statement ended. -/
def AStmt.goOn (L : ILuck) : List AStmt → GM Mem (List (Except Err Unit))
  | [] => pure []
  | s :: r => fun st =>
    match s.exec L st with
    | (o, st') => match o with
      | .error e => if e.caught then (do let os ← AStmt.goOn L r; return o :: os) st' else (.error e, st')
      | .ok () => (do let os ← AStmt.goOn L r; return o :: os) st'

/-- Try a statement again as long as it throws `bad_alloc`, at most `t` times after the first. -/
def AStmt.retry (L : ILuck) (s : AStmt) : Nat → GM Mem Unit
  | 0 => s.exec L
  | t + 1 => fun st =>
    match s.exec L st with
    | (.error .badAlloc, st') => AStmt.retry L s t st'
    | r => r

/-- A program that tries again. -/
def AStmt.retryAll (L : ILuck) (t : Nat) : List AStmt → GM Mem Unit
  | [] => pure ()
  | s :: r => do
    s.retry L t
    AStmt.retryAll L t r

end CppMaths
