import Verif.Model.Mat
/-!
# `Mat<T>` objects and the free store (src/Mat.hpp)

`Verif.Model.Mat` treats a matrix as a value. Here a `Mat<T>` object is what it is in the code: two sizes and a pointer
(src/Mat.hpp:81-83) to a block obtained by `new T[rows * cols]`. Constructors, the destructor, `operator=` and `swap`
act on the free store. Client programs over matrix variables are defined at the end.

Simplifications. The loops that compute entries are those of `Verif.Model.Mat`, run on the contents of the blocks. The
local matrices of a function are destroyed when it returns or throws, as C++ demands, so that of the blocks a function
allocates only that of the returned object is seen by the caller. When a scalar operation throws in the middle of a loop that changes
a matrix in place, the block keeps some entries and has others changed: the statement carries an arbitrary function `junk`
that says what the block then holds. Allocation failure is added in `Verif.Model.MatMem`.
-/

namespace CppMaths

/-- The blocks handed out by `new T[n]`, by address; `none` once deleted. A cell is `none` until it is written. -/
abbrev MHeap (T : Type) := List (Option (List (Option T)))

/-- The members of a `Mat<T>` object (src/Mat.hpp:81-83), `data` being an address. -/
structure MObj where
  rows : Nat
  cols : Nat
  ptr : Nat
deriving DecidableEq, Repr

namespace MHeap
variable {T : Type}

/-- `new T[n]` (src/Mat.hpp:109, 115, 120, 126). -/
def new (h : MHeap T) (n : Nat) : MHeap T × Nat := (h ++ [some (List.replicate n none)], h.length)

/-- `delete[] data` (src/Mat.hpp:132). -/
def delete (h : MHeap T) (p : Nat) : Res (MHeap T) :=
  match h[p]? with
  | some (some _) => .ok (h.set p none)
  | _ => .error .ub

/-- Reading `data[k]`. -/
def read (h : MHeap T) (p k : Nat) : Res T :=
  match h[p]? with
  | some (some b) => match b[k]? with
    | some (some t) => .ok t
    | _ => .error .ub
  | _ => .error .ub

/-- Writing `data[k]`. -/
def write (h : MHeap T) (p k : Nat) (t : T) : Res (MHeap T) :=
  match h[p]? with
  | some (some b) => if k < b.length then .ok (h.set p (some (b.set k (some t)))) else .error .ub
  | _ => .error .ub

/-- The matrix an object stands for: its dimensions and the contents of its block. -/
def load (h : MHeap T) (o : MObj) : Res (Mat T) :=
  match h[o.ptr]? with
  | some (some b) => .ok ⟨o.rows, o.cols, b⟩
  | _ => .error .ub

/-- Replace the contents of a block. -/
def store (h : MHeap T) (p : Nat) (b : List (Option T)) : Res (MHeap T) :=
  match h[p]? with
  | some (some _) => .ok (h.set p (some b))
  | _ => .error .ub

/-- `Mat(const Mat<T>&)` (src/Mat.hpp:107-111, 135-142). The check `size < rows * cols` fails for `size = rows * cols`. -/
def copyCtor (h : MHeap T) (x : MObj) : Res (MHeap T × MObj) := do
  let n := h.new (x.rows * x.cols)
  let h ← Mat.forEach x.rows x.cols (fun i j h => do
    let t ← read h x.ptr (i * x.cols + j)
    write h n.2 (i * x.cols + j) t) n.1
  return (h, ⟨x.rows, x.cols, n.2⟩)

/-- The block and the object of a matrix that a function has computed. -/
def result (h : MHeap T) (m : Mat T) : MHeap T × MObj := (h ++ [some m.data], ⟨m.rows, m.cols, h.length⟩)

/-- `~Mat()` (src/Mat.hpp:130-133). -/
def destroy (h : MHeap T) (o : MObj) : Res (MHeap T) := h.delete o.ptr

/-- Hand an object on by value `n` times: every copy that the compiler does not elide constructs a new object and
destroys the old one. -/
def passOn : Nat → MHeap T → MObj → Res (MHeap T × MObj)
  | 0, h, o => .ok (h, o)
  | n + 1, h, o => do
    let c ← h.copyCtor o
    let h ← c.1.destroy o
    passOn n h c.2

end MHeap

/-- `swap(a, b)` (src/Mat.hpp:69-74). -/
def MObj.swap (a b : MObj) : MObj × MObj := (⟨b.rows, b.cols, b.ptr⟩, ⟨a.rows, a.cols, a.ptr⟩)

/-- The free store and the matrix variables that exist. -/
structure MState (T : Type) where
  heap : MHeap T
  vars : Nat → Option MObj

namespace MState
variable {T : Type}

/-- No variables, nothing allocated. -/
def empty : MState T := ⟨[], fun _ => none⟩

/-- The matrix in a variable. Using a variable that does not exist is not a C++ program; it is treated as undefined. -/
def look (s : MState T) (x : Nat) : Res (Mat T) :=
  match s.vars x with
  | some o => s.heap.load o
  | none => .error .ub

/-- A variable starts to exist, gets new members, or ceases to exist. -/
def setVar (s : MState T) (h : MHeap T) (x : Nat) (o : Option MObj) : MState T :=
  ⟨h, fun i => if i = x then o else s.vars i⟩

/-- The body of `operator=(Mat<T> a)` (src/Mat.hpp:76-79) and the destruction of its parameter. The last lines of `operator*=`
(src/Mat.hpp:259-260), with the local `r` in place of the parameter, do the same. -/
def assignParam (s : MState T) (h : MHeap T) (this : Nat) (a : MObj) : Res (MState T) :=
  match s.vars this with
  | none => .error .ub
  | some o => do
    let p := MObj.swap o a
    let h ← h.destroy p.2
    return s.setVar h this (some p.1)

end MState

/-- Expressions whose value is a new matrix; the operands are variables. -/
inductive MExpr (T : Type)
  /-- `Mat<T>(rows, cols)` -/
  | raw (rows cols : Nat)
  /-- `Mat<T>(rows, cols, val)` -/
  | filled (rows cols : Nat) (val : T)
  /-- `Mat<T>(vals, rows, cols)` -/
  | array (vals : List T) (rows cols : Nat)
  | identity (n : Nat)
  | diagonal (vals : List T) (n : Nat)
  | augmented (a b : Nat)
  | neg (a : Nat)
  | add (a b : Nat)
  | sub (a b : Nat)
  | mul (a b : Nat)
  /-- `k * a` -/
  | smul (k : T) (a : Nat)
  /-- `a * k` -/
  | muls (a : Nat) (k : T)
  | divs (a : Nat) (k : T)
  | minor (a i j : Nat)
  | cofactor (a i j : Nat)
  | rref (a : Nat)
  | inverse (a : Nat)
  | transpose (a : Nat)

/-- The matrix an expression computes, by the functions of `Verif.Model.Mat`. -/
def MExpr.eval {T : Type} (S : Scalar T) (look : Nat → Res (Mat T)) : MExpr T → Res (Mat T)
  | .raw r c => .ok (Mat.alloc r c)
  | .filled r c v => Mat.filled r c v
  | .array vals r c => Mat.ofArray vals r c
  | .identity n => Mat.identityMatrix S n
  | .diagonal vals n => Mat.diagonalMatrix S vals n
  | .augmented a b => do
    let x ← look a
    let y ← look b
    Mat.augmentedMatrix x y
  | .neg a => do
    let x ← look a
    Mat.neg S x
  | .add a b => do
    let x ← look a
    let y ← look b
    Mat.add S x y
  | .sub a b => do
    let x ← look a
    let y ← look b
    Mat.sub S x y
  | .mul a b => do
    let x ← look a
    let y ← look b
    Mat.mul S x y
  | .smul k a => do
    let x ← look a
    Mat.smul S k x
  | .muls a k => do
    let x ← look a
    Mat.mulScalar S x k
  | .divs a k => do
    let x ← look a
    Mat.divScalar S x k
  | .minor a i j => do
    let x ← look a
    Mat.firstMinor x i j
  | .cofactor a i j => do
    let x ← look a
    Mat.cofactor S x i j
  | .rref a => do
    let x ← look a
    Mat.rref S x
  | .inverse a => do
    let x ← look a
    Mat.inverse S x
  | .transpose a => do
    let x ← look a
    Mat.transpose x

/-- Operations that change a matrix in place. -/
inductive MUpd (T : Type)
  /-- `m(i, j) = t` -/
  | set (i j : Nat) (t : T)
  /-- `m.setEntries(t)` -/
  | setAll (t : T)
  /-- `m.setEntries(vals, size)` -/
  | setEntries (vals : List T) (size : Nat)
  /-- `m += x`, `x` being a variable, possibly `m` itself -/
  | addA (x : Nat)
  /-- `m -= x` -/
  | subA (x : Nat)
  /-- `m *= k` -/
  | mulS (k : T)
  /-- `m /= k` -/
  | divS (k : T)
  /-- `m *= m(i, j)` -/
  | mulE (i j : Nat)
  /-- `m /= m(i, j)` -/
  | divE (i j : Nat)
  /-- `m.inplace_rref()` -/
  | rref

/-- The checks before the first write (src/Mat.hpp:136-137, 172-173, 192-193). -/
def MUpd.check {T : Type} (look : Nat → Res (Mat T)) (m : Mat T) : MUpd T → Res Unit
  | .setEntries _ size => if size < m.rows * m.cols then .error .domainError else .ok ()
  | .addA x => do
    let b ← look x
    if !Mat.dimensionsMatch m b then .error .domainError else .ok ()
  | .subA x => do
    let b ← look x
    if !Mat.dimensionsMatch m b then .error .domainError else .ok ()
  | _ => .ok ()

/-- The new contents, by the functions of `Verif.Model.Mat`, of the variable `d` holding `m`. -/
def MUpd.run {T : Type} (S : Scalar T) (look : Nat → Res (Mat T)) (d : Nat) (m : Mat T) : MUpd T → Res (Mat T)
  | .set i j t => m.set i j t
  | .setAll t => m.setAll t
  | .setEntries vals size => m.setEntries vals size
  | .addA x => if x = d then Mat.addAssignSelf S m else do
    let b ← look x
    Mat.addAssign S m b
  | .subA x => if x = d then Mat.subAssignSelf S m else do
    let b ← look x
    Mat.subAssign S m b
  | .mulS k => Mat.mulAssignScalar S m k
  | .divS k => Mat.divAssignScalar S m k
  | .mulE i j => Mat.mulAssignEntry S m i j
  | .divE i j => Mat.divAssignEntry S m i j
  | .rref => Mat.inplaceRref S m

/-- Statements. `n` is the number of copies of a returned object that the compiler does not elide. -/
inductive MStmt (T : Type)
  /-- `Mat<T> d = e;` -/
  | declare (d : Nat) (e : MExpr T) (n : Nat)
  /-- `Mat<T> d(x);` -/
  | declareCopy (d x : Nat)
  /-- the end of the scope of `d` -/
  | destroy (d : Nat)
  /-- `d = e;` -/
  | assignExpr (d : Nat) (e : MExpr T) (n : Nat)
  /-- `d = x;` -/
  | assign (d x : Nat)
  /-- `swap(a, b);` -/
  | swap (a b : Nat)
  /-- `d *= x;` -/
  | mulAssign (d x : Nat)
  /-- a change in place -/
  | update (d : Nat) (u : MUpd T) (junk : Nat → Option T)
  /-- `cout << x;`, where the matrix is passed by value (src/Mat.hpp:96-105) -/
  | print (x : Nat)

open Frac in
/-- One statement. A failure comes with the state at that moment, after stack unwinding. -/
def MStmt.step {T : Type} (S : Scalar T) (s : MState T) : MStmt T → MRes (MState T) (MState T)
  | .declare d e n =>
    match s.vars d with
    | some _ => .error (.ub, s)
    | none => at' s (do
      let m ← e.eval S s.look
      let r := s.heap.result m
      let r ← MHeap.passOn n r.1 r.2
      return s.setVar r.1 d (some r.2))
  | .declareCopy d x =>
    match s.vars d with
    | some _ => .error (.ub, s)
    | none =>
      match s.vars x with
      | none => .error (.ub, s)
      | some o => at' s (do
        let r ← s.heap.copyCtor o
        return s.setVar r.1 d (some r.2))
  | .destroy d =>
    match s.vars d with
    | none => .error (.ub, s)
    | some o => at' s (do
      let h ← s.heap.destroy o
      return s.setVar h d none)
  | .assignExpr d e n => at' s (do
      let m ← e.eval S s.look
      let r := s.heap.result m
      let r ← MHeap.passOn n r.1 r.2
      s.assignParam r.1 d r.2)
  | .assign d x =>
    match s.vars x with
    | none => .error (.ub, s)
    | some o => at' s (do
      let r ← s.heap.copyCtor o
      s.assignParam r.1 d r.2)
  | .swap a b =>
    match s.vars a, s.vars b with
    | some x, some y =>
      let p := MObj.swap x y
      .ok ((s.setVar s.heap a (some p.1)).setVar s.heap b (some p.2))
    | _, _ => .error (.ub, s)
  | .mulAssign d x => at' s (do
      let a ← s.look d
      let b ← s.look x
      let m ← Mat.mulAssign S a b
      let r := s.heap.result m
      s.assignParam r.1 d r.2)
  | .update d u junk =>
    match s.vars d with
    | none => .error (.ub, s)
    | some o => do
      let m ← at' s (s.heap.load o)
      at' s (u.check s.look m)
      match u.run S s.look d m with
      | .ok m' => do
        let h ← at' s (s.heap.store o.ptr m'.data)
        return ⟨h, s.vars⟩
      | .error e => do
        let h ← at' s (s.heap.store o.ptr ((List.range (o.rows * o.cols)).map junk))
        .error (e, ⟨h, s.vars⟩)
  | .print x =>
    match s.vars x with
    | none => .error (.ub, s)
    | some o => at' s (do
      let r ← s.heap.copyCtor o
      let h ← r.1.destroy r.2
      return ⟨h, s.vars⟩)

/-- Failures that a C++ program can catch. -/
def Err.isException : Err → Bool
  | .divideByZero => true
  | .invalidArgument => true
  | .domainError => true
  | .outOfRange => true
  | .badAlloc => true
  | _ => false

/-- A program: every statement stands in `try { .. } catch (const std::exception&) {}`. -/
def MStmt.run {T : Type} (S : Scalar T) : List (MStmt T) → MState T → Res (MState T)
  | [], s => .ok s
  | c :: cs, s =>
    match c.step S s with
    | .ok s' => run S cs s'
    | .error (e, s') => if e.isException then run S cs s' else .error e

end CppMaths
