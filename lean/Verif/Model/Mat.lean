import Verif.Model.Scalar
/-!
# `Mat<T>` (src/Mat.hpp)

A matrix is its dimensions and its buffer `data = new T[rows * cols]` (src/Mat.hpp:81-83). A cell of the buffer is
`none` until it is first written: reading such a cell is undefined behaviour for arithmetic types. (For class types the
cell holds a default-constructed object; treating it as unreadable is the stricter reading.) Access outside the
buffer is undefined behaviour too. `size_t` does not wrap around: `rows * cols` is assumed to be below 2^64, and the
row and column numbers kept in `int` (src/Mat.hpp:282) below 2^31; `rows - 1` of an empty matrix (src/Mat.hpp:281) is
modelled as undefined behaviour. `setEntries(const std::vector<T>&)` (src/Mat.hpp:31) is declared but not defined.
The destructor, assignment and copying act on a heap in `Verif/Model/MatHeap.lean`. Allocation failure is added in `Verif/Model/MatMem.lean`.

As for `Vec`, a reference to an entry of the matrix being changed is modelled by a function of the current matrix.
-/

namespace CppMaths

/-- A `Mat<T>` object (src/Mat.hpp:81-83). -/
structure Mat (T : Type) where
  rows : Nat
  cols : Nat
  data : List (Option T)

namespace Mat
variable {T : Type}

/-- Reading `entry(i, j)` or `m(i, j)` (src/Mat.hpp:36-38, 91-93). -/
def get (m : Mat T) (i j : Nat) : Res T :=
  match m.data[i * m.cols + j]? with
  | some (some t) => .ok t
  | _ => .error .ub

/-- Writing `entry(i, j)` or `m(i, j)` (src/Mat.hpp:36-37, 91-93). -/
def set (m : Mat T) (i j : Nat) (t : T) : Res (Mat T) :=
  if i * m.cols + j < m.data.length then .ok { m with data := m.data.set (i * m.cols + j) (some t) }
  else .error .ub

/-- Reading `data[k]` (src/Mat.hpp:305, 307). -/
def dataAt (m : Mat T) (k : Nat) : Res T :=
  match m.data[k]? with
  | some (some t) => .ok t
  | _ => .error .ub

/-- Reading `vals[k]` of an array parameter (src/Mat.hpp:141, 479). -/
def arrayAt (vals : List T) (k : Nat) : Res T :=
  match vals[k]? with
  | some t => .ok t
  | none => .error .ub

/-- `Mat(rows, cols)` (src/Mat.hpp:113-116). -/
def alloc (rows cols : Nat) : Mat T := ⟨rows, cols, List.replicate (rows * cols) none⟩

/-- The double loop `for (i = 0; i < r; ++i) for (j = 0; j < c; ++j) body(i, j)`. -/
def forEach {σ : Type} (r c : Nat) (body : Nat → Nat → σ → Res σ) (s : σ) : Res σ :=
  forUp 0 r (fun i s => forUp 0 c (fun j s => body i j s) s) s

/-- `setEntries(vals, size)` (src/Mat.hpp:135-142). -/
def setEntries (m : Mat T) (vals : List T) (size : Nat) : Res (Mat T) :=
  if size < m.rows * m.cols then .error .domainError
  else forEach m.rows m.cols (fun i j m => do
    let t ← arrayAt vals (i * m.cols + j)
    m.set i j t) m

/-- `setEntries(val)` (src/Mat.hpp:144-149), `val` being given by `src`. -/
def setAllRef (m : Mat T) (src : Mat T → Res T) : Res (Mat T) :=
  forEach m.rows m.cols (fun i j m => do
    let t ← src m
    m.set i j t) m

/-- `setEntries(val)` (src/Mat.hpp:144-149) for a value outside the matrix. -/
def setAll (m : Mat T) (val : T) : Res (Mat T) := setAllRef m (fun _ => .ok val)

/-- `Mat(const Mat<T>&)` (src/Mat.hpp:107-111): `setEntries(x.data, rows * cols)`, the array being the buffer of `x`. -/
def copy (x : Mat T) : Res (Mat T) :=
  forEach x.rows x.cols (fun i j m => do
    let t ← x.dataAt (i * x.cols + j)
    m.set i j t) (alloc x.rows x.cols)

/-- `Mat(rows, cols, val)` (src/Mat.hpp:118-122). -/
def filled (rows cols : Nat) (val : T) : Res (Mat T) := (alloc rows cols).setAll val

/-- `Mat(vals, rows, cols)` (src/Mat.hpp:124-128). -/
def ofArray (vals : List T) (rows cols : Nat) : Res (Mat T) := (alloc rows cols).setEntries vals (rows * cols)

/-- `swap(a, b)` (src/Mat.hpp:69-74). -/
def swap (a b : Mat T) : Mat T × Mat T := (⟨b.rows, b.cols, b.data⟩, ⟨a.rows, a.cols, a.data⟩)

/-- `x = a` (src/Mat.hpp:76-79): the parameter is a copy, which is swapped with `*this`. -/
def assign (this a : Mat T) : Res (Mat T) := do
  let a ← a.copy
  return (swap this a).1

/-- `operator<<` (src/Mat.hpp:96-105): every entry followed by a blank, the rows separated by `std::endl`. The parameter is
passed by value. -/
def print (pr : T → List Char) (m : Mat T) : Res (List Char) := do
  let m ← m.copy
  forUp 0 m.rows (fun i out => do
    let out ← forUp 0 m.cols (fun j out => do
      let t ← m.get i j
      return out ++ pr t ++ [' ']) out
    return (if i < m.rows - 1 then out ++ ['\n'] else out)) []

/-- `dimensionsMatch` (src/Mat.hpp:87-90). -/
def dimensionsMatch (a b : Mat T) : Bool := a.rows == b.rows && a.cols == b.cols

/-- `-a` (src/Mat.hpp:151-158). -/
def neg (S : Scalar T) (a : Mat T) : Res (Mat T) :=
  forEach a.rows a.cols (fun i j r => do
    let x ← a.get i j
    let t ← S.neg x
    r.set i j t) (alloc a.rows a.cols)

/-- `a + b` (src/Mat.hpp:160-169). -/
def add (S : Scalar T) (a b : Mat T) : Res (Mat T) :=
  if !dimensionsMatch a b then .error .domainError
  else forEach a.rows a.cols (fun i j r => do
    let x ← a.get i j
    let y ← b.get i j
    let t ← S.add x y
    r.set i j t) (alloc a.rows a.cols)

/-- `a - b` (src/Mat.hpp:180-189). -/
def sub (S : Scalar T) (a b : Mat T) : Res (Mat T) :=
  if !dimensionsMatch a b then .error .domainError
  else forEach a.rows a.cols (fun i j r => do
    let x ← a.get i j
    let y ← b.get i j
    let t ← S.sub x y
    r.set i j t) (alloc a.rows a.cols)

/-- The loop of `a op= b` (src/Mat.hpp:175-177, 195-197), `b` being given by `src`. -/
def zipLoop (op : T → T → Res T) (a : Mat T) (src : Mat T → Mat T) : Res (Mat T) :=
  forEach a.rows a.cols (fun i j a => do
    let x ← a.get i j
    let y ← (src a).get i j
    let t ← op x y
    a.set i j t) a

/-- The loop of `m op= a` for a scalar `a` (src/Mat.hpp:216-218, 232-234), `a` being given by `src`. -/
def mapLoop (op : T → T → Res T) (m : Mat T) (src : Mat T → Res T) : Res (Mat T) :=
  forEach m.rows m.cols (fun i j m => do
    let x ← m.get i j
    let y ← src m
    let t ← op x y
    m.set i j t) m

/-- `a += b` (src/Mat.hpp:171-178), `b` being given by `src`. -/
def addAssignRef (S : Scalar T) (a : Mat T) (src : Mat T → Mat T) : Res (Mat T) :=
  if !dimensionsMatch a (src a) then .error .domainError else zipLoop S.addA a src

/-- `a -= b` (src/Mat.hpp:191-198), `b` being given by `src`. -/
def subAssignRef (S : Scalar T) (a : Mat T) (src : Mat T → Mat T) : Res (Mat T) :=
  if !dimensionsMatch a (src a) then .error .domainError else zipLoop S.subA a src

/-- `a += b` (src/Mat.hpp:171-178) for another matrix `b`. -/
def addAssign (S : Scalar T) (a b : Mat T) : Res (Mat T) := addAssignRef S a (fun _ => b)
/-- `a -= b` (src/Mat.hpp:191-198) for another matrix `b`. -/
def subAssign (S : Scalar T) (a b : Mat T) : Res (Mat T) := subAssignRef S a (fun _ => b)
/-- `a += a` (src/Mat.hpp:171-178). -/
def addAssignSelf (S : Scalar T) (a : Mat T) : Res (Mat T) := addAssignRef S a id
/-- `a -= a` (src/Mat.hpp:191-198). -/
def subAssignSelf (S : Scalar T) (a : Mat T) : Res (Mat T) := subAssignRef S a id

/-- `a * m` for a scalar `a` (src/Mat.hpp:200-207). -/
def smul (S : Scalar T) (a : T) (m : Mat T) : Res (Mat T) :=
  forEach m.rows m.cols (fun i j r => do
    let x ← m.get i j
    let t ← S.mul a x
    r.set i j t) (alloc m.rows m.cols)

/-- `m * a` for a scalar `a` (src/Mat.hpp:209-212). -/
def mulScalar (S : Scalar T) (m : Mat T) (a : T) : Res (Mat T) := smul S a m

/-- `m *= a` (src/Mat.hpp:214-219) for a scalar outside the matrix. -/
def mulAssignScalar (S : Scalar T) (m : Mat T) (a : T) : Res (Mat T) := mapLoop S.mulA m (fun _ => .ok a)
/-- `m *= m(k, l)` (src/Mat.hpp:214-219): the reference follows the entry through the loop. -/
def mulAssignEntry (S : Scalar T) (m : Mat T) (k l : Nat) : Res (Mat T) := mapLoop S.mulA m (fun m => m.get k l)

/-- `m / a` for a scalar `a` (src/Mat.hpp:221-228). -/
def divScalar (S : Scalar T) (m : Mat T) (a : T) : Res (Mat T) :=
  forEach m.rows m.cols (fun i j r => do
    let x ← m.get i j
    let t ← S.div x a
    r.set i j t) (alloc m.rows m.cols)

/-- `m /= a` (src/Mat.hpp:230-235) for a scalar outside the matrix. -/
def divAssignScalar (S : Scalar T) (m : Mat T) (a : T) : Res (Mat T) := mapLoop S.divA m (fun _ => .ok a)
/-- `m /= m(k, l)` (src/Mat.hpp:230-235): the reference follows the entry through the loop. -/
def divAssignEntry (S : Scalar T) (m : Mat T) (k l : Nat) : Res (Mat T) := mapLoop S.divA m (fun m => m.get k l)

/-- `a * b` (src/Mat.hpp:237-248). -/
def mul (S : Scalar T) (a b : Mat T) : Res (Mat T) :=
  if a.cols ≠ b.rows then .error .domainError
  else do
    let zero ← S.ofInt 0
    let r ← filled a.rows b.cols zero
    forUp 0 a.rows (fun i r => forUp 0 a.cols (fun k r => forUp 0 b.cols (fun j r => do
      let x ← a.get i k
      let y ← b.get k j
      let p ← S.mul x y
      let z ← r.get i j
      let t ← S.addA z p
      r.set i j t) r) r) r

/-- `a *= b` (src/Mat.hpp:250-261): the same loops into a new matrix, which is then swapped with `a`. `a` and `b` are not
changed before, so `b` may be `a`. -/
def mulAssign (S : Scalar T) (a b : Mat T) : Res (Mat T) :=
  if a.cols ≠ b.rows then .error .domainError
  else do
    let zero ← S.ofInt 0
    let r ← filled a.rows b.cols zero
    let r ← forUp 0 a.rows (fun i r => forUp 0 a.cols (fun k r => forUp 0 b.cols (fun j r => do
      let x ← a.get i k
      let y ← b.get k j
      let p ← S.mul x y
      let z ← r.get i j
      let t ← S.addA z p
      r.set i j t) r) r) r
    return (swap a r).1

/-- The inner loop of `operator==` (src/Mat.hpp:268-270) in row `i`, from column `j` on with `n` rounds to go. -/
def eqRow (S : Scalar T) (a b : Mat T) (i : Nat) : Nat → Nat → Res Bool
  | _, 0 => .ok true
  | j, n + 1 => do
    let x ← a.get i j
    let y ← b.get i j
    let d ← S.ne x y
    if d then return false else eqRow S a b i (j + 1) n

/-- The outer loop of `operator==` (src/Mat.hpp:267-271), from row `i` on with `n` rounds to go. -/
def eqRows (S : Scalar T) (a b : Mat T) : Nat → Nat → Res Bool
  | _, 0 => .ok true
  | i, n + 1 => do
    let e ← eqRow S a b i 0 a.cols
    if e then eqRows S a b (i + 1) n else return false

/-- `a == b` (src/Mat.hpp:263-272). -/
def eq (S : Scalar T) (a b : Mat T) : Res Bool :=
  if !dimensionsMatch a b then .ok false else eqRows S a b 0 a.rows

/-- `a != b` (src/Mat.hpp:274-277). -/
def ne (S : Scalar T) (a b : Mat T) : Res Bool := do
  let e ← eq S a b
  return !e

/-- `first_minor(i, j)` (src/Mat.hpp:279-291). For an empty matrix `rows - 1` or `cols - 1` wraps around. -/
def firstMinor (m : Mat T) (i j : Nat) : Res (Mat T) :=
  if m.rows = 0 ∨ m.cols = 0 then .error .ub
  else forUp 0 (m.rows - 1) (fun a r =>
    let ii := if a ≥ i then a + 1 else a
    forUp 0 (m.cols - 1) (fun b r => do
      let jj := if b ≥ j then b + 1 else b
      let t ← m.get ii jj
      r.set a b t) r) (alloc (m.rows - 1) (m.cols - 1))

/-- `cofactor(i, j)` (src/Mat.hpp:293-298). -/
def cofactor (S : Scalar T) (m : Mat T) (i j : Nat) : Res (Mat T) :=
  if (i + j) % 2 = 1 then do
    let r ← firstMinor m i j
    neg S r
  else firstMinor m i j

/-- `entry(..) != 0` for the literal `0` (src/Mat.hpp:312, 334). -/
def neZero (S : Scalar T) (t : T) : Res Bool := do
  let z ← S.ofInt 0
  S.ne t z

/-- `entry(..) == 0` for the literal `0` (src/Mat.hpp:374, 429). -/
def eqZero (S : Scalar T) (t : T) : Res Bool := do
  let z ← S.ofInt 0
  S.eq t z

/-- `data[0] * data[3] - data[1] * data[2]` (src/Mat.hpp:307, 329, 364). -/
def det2 (S : Scalar T) (m : Mat T) : Res T := do
  let a ← m.dataAt 0
  let d ← m.dataAt 3
  let p ← S.mul a d
  let b ← m.dataAt 1
  let c ← m.dataAt 2
  let q ← S.mul b c
  S.sub p q

/-- `row_cofactor_expansion()` (src/Mat.hpp:300-320). `fuel` bounds the depth of the recursion. -/
def rowCofactorF (S : Scalar T) : Nat → Mat T → Res T
  | 0, _ => .error .diverge
  | fuel + 1, m =>
    if m.rows ≠ m.cols then .error .domainError
    else if m.rows = 1 then m.dataAt 0
    else if m.rows = 2 then det2 S m
    else do
      let z ← S.ofInt 0
      forUp 0 m.cols (fun j result => do
        let e ← m.get 0 j
        let nz ← neZero S e
        if nz then do
          let e ← m.get 0 j
          let sub ← firstMinor m 0 j
          let d ← rowCofactorF S fuel sub
          let p ← S.mul e d
          if (0 + j) % 2 = 1 then S.subA result p else S.addA result p
        else return result) z

/-- `row_cofactor_expansion()` (src/Mat.hpp:300-320): every recursive call is on a smaller matrix. -/
def rowCofactor (S : Scalar T) (m : Mat T) : Res T := rowCofactorF S (m.rows + 1) m

/-- `col_cofactor_expansion()` (src/Mat.hpp:322-342). `fuel` bounds the depth of the recursion. -/
def colCofactorF (S : Scalar T) : Nat → Mat T → Res T
  | 0, _ => .error .diverge
  | fuel + 1, m =>
    if m.rows ≠ m.cols then .error .domainError
    else if m.rows = 1 then m.dataAt 0
    else if m.rows = 2 then det2 S m
    else do
      let z ← S.ofInt 0
      forUp 0 m.rows (fun i result => do
        let e ← m.get i 0
        let nz ← neZero S e
        if nz then do
          let e ← m.get i 0
          let sub ← firstMinor m i 0
          let d ← colCofactorF S fuel sub
          let p ← S.mul e d
          if (i + 0) % 2 = 1 then S.subA result p else S.addA result p
        else return result) z

/-- `col_cofactor_expansion()` (src/Mat.hpp:322-342): every recursive call is on a smaller matrix. -/
def colCofactor (S : Scalar T) (m : Mat T) : Res T := colCofactorF S (m.rows + 1) m

/-- The `while` loop that looks for a pivot (src/Mat.hpp:373-382 and 428-437), started in row `i` and column `pivot`. `none`
stands for the jump out of the algorithm when the columns are used up. -/
def findPivot (S : Scalar T) (m : Mat T) (r : Nat) : Nat → Nat → Nat → Res (Option (Nat × Nat))
  | 0, _, _ => .error .diverge
  | fuel + 1, i, pivot => do
    let e ← m.get i pivot
    let z ← eqZero S e
    if z then
      if m.rows = i + 1 then
        if m.cols = pivot + 1 then return none
        else findPivot S m r fuel r (pivot + 1)
      else findPivot S m r fuel (i + 1) pivot
    else return some (i, pivot)

/-- `swap_rows(a, b)` (src/Mat.hpp:412-418). -/
def swapRows (m : Mat T) (a b : Nat) : Res (Mat T) :=
  if a ≠ b then
    forUp 0 m.cols (fun k m => do
      let x ← m.get a k
      let y ← m.get b k
      let m ← m.set a k y
      m.set b k x) m
  else .ok m

/-- The elimination below the pivot in `determinant()` (src/Mat.hpp:389-395). -/
def detEliminate (S : Scalar T) (tmp : Mat T) (r pivot : Nat) : Res (Mat T) :=
  forUp (pivot + 1) (tmp.rows - (pivot + 1)) (fun i tmp =>
    if i ≠ r then do
      let val ← tmp.get i pivot
      forUp pivot (tmp.cols - pivot) (fun j tmp => do
        let x ← tmp.get r j
        let p ← S.mul val x
        let d ← tmp.get r pivot
        let q ← S.div p d
        let y ← tmp.get i j
        let t ← S.subA y q
        tmp.set i j t) tmp
    else .ok tmp) tmp

/-- The main loop of `determinant()` (src/Mat.hpp:368-397) from row `r` on, with `n` rounds to go. -/
def detLoop (S : Scalar T) : Nat → Nat → Nat → T → Mat T → Res (T × Mat T)
  | 0, _, _, factor, tmp => .ok (factor, tmp)
  | n + 1, r, pivot, factor, tmp =>
    if tmp.cols ≤ pivot then .ok (factor, tmp)
    else do
      let f ← findPivot S tmp r (tmp.rows * tmp.cols + 1) r pivot
      match f with
      | none => return (factor, tmp)
      | some (i, pivot) =>
        let s ← (if i ≠ r then do
            let tmp ← swapRows tmp i r
            let m1 ← S.ofInt (-1)
            let factor ← S.mulA factor m1
            return (factor, tmp)
          else .ok (factor, tmp))
        let tmp ← detEliminate S s.2 r pivot
        detLoop S n (r + 1) (pivot + 1) s.1 tmp

/-- `determinant()` (src/Mat.hpp:357-403). -/
def determinant (S : Scalar T) (m : Mat T) : Res T :=
  if m.rows ≠ m.cols then .error .domainError
  else if m.rows = 1 then m.dataAt 0
  else if m.rows = 2 then det2 S m
  else do
    let tmp ← m.copy
    let factor ← S.ofInt 1
    let s ← detLoop S tmp.rows 0 0 factor tmp
    let prod ← S.ofInt 1
    let prod ← forUp 0 s.2.rows (fun i prod => do
      let x ← s.2.get i i
      S.mulA prod x) prod
    S.div prod s.1

/-- The scaling of the pivot row (src/Mat.hpp:440-442). -/
def scaleRow (S : Scalar T) (m : Mat T) (r pivot : Nat) : Res (Mat T) := do
  let val ← m.get r pivot
  forUp 0 m.cols (fun j m => do
    let x ← m.get r j
    let t ← S.divA x val
    m.set r j t) m

/-- Clearing the other entries of the pivot column (src/Mat.hpp:444-450). -/
def clearColumn (S : Scalar T) (m : Mat T) (r pivot : Nat) : Res (Mat T) :=
  forUp 0 m.rows (fun i m =>
    if i ≠ r then do
      let val ← m.get i pivot
      forUp 0 m.cols (fun j m => do
        let x ← m.get r j
        let p ← S.mul val x
        let y ← m.get i j
        let t ← S.subA y p
        m.set i j t) m
    else .ok m) m

/-- The main loop of `inplace_rref()` (src/Mat.hpp:424-452) from row `r` on, with `n` rounds to go. -/
def rrefLoop (S : Scalar T) : Nat → Nat → Nat → Mat T → Res (Mat T)
  | 0, _, _, m => .ok m
  | n + 1, r, pivot, m =>
    if m.cols ≤ pivot then .ok m
    else do
      let f ← findPivot S m r (m.rows * m.cols + 1) r pivot
      match f with
      | none => return m
      | some (i, pivot) =>
        let m ← swapRows m i r
        let m ← scaleRow S m r pivot
        let m ← clearColumn S m r pivot
        rrefLoop S n (r + 1) (pivot + 1) m

/-- `inplace_rref()` (src/Mat.hpp:420-453). -/
def inplaceRref (S : Scalar T) (m : Mat T) : Res (Mat T) := rrefLoop S m.rows 0 0 m

/-- `rref()` (src/Mat.hpp:405-410). -/
def rref (S : Scalar T) (m : Mat T) : Res (Mat T) := do
  let r ← m.copy
  inplaceRref S r

/-- `diagonalMatrix(vals, size)` (src/Mat.hpp:475-481). -/
def diagonalMatrix (S : Scalar T) (vals : List T) (size : Nat) : Res (Mat T) := do
  let z ← S.ofInt 0
  let r ← filled size size z
  forUp 0 size (fun i r => do
    let t ← arrayAt vals i
    r.set i i t) r

/-- `identityMatrix(size)` (src/Mat.hpp:483-489). -/
def identityMatrix (S : Scalar T) (size : Nat) : Res (Mat T) := do
  let z ← S.ofInt 0
  let r ← filled size size z
  forUp 0 size (fun i r => do
    let t ← S.ofInt 1
    r.set i i t) r

/-- `augmentedMatrix(a, b)` (src/Mat.hpp:491-503). -/
def augmentedMatrix (a b : Mat T) : Res (Mat T) :=
  if a.rows ≠ b.rows then .error .domainError
  else forUp 0 a.rows (fun i r => do
    let r ← forUp 0 a.cols (fun j r => do
      let t ← a.get i j
      r.set i j t) r
    forUp 0 b.cols (fun j r => do
      let t ← b.get i j
      r.set i (j + a.cols) t) r) (alloc a.rows (a.cols + b.cols))

/-- `inverse()` (src/Mat.hpp:455-473). -/
def inverse (S : Scalar T) (m : Mat T) : Res (Mat T) :=
  if m.rows ≠ m.cols then .error .domainError
  else do
    let identity ← identityMatrix S m.rows
    let r ← augmentedMatrix m identity
    let r ← inplaceRref S r
    forEach m.rows m.cols (fun i j result => do
      let x ← r.get i j
      let y ← identity.get i j
      let d ← S.ne x y
      if d then .error .domainError
      else do
        let t ← r.get i (j + m.rows)
        result.set i j t) (alloc m.rows m.cols)

/-- `trace()` (src/Mat.hpp:505-513). -/
def trace (S : Scalar T) (m : Mat T) : Res T :=
  if m.rows ≠ m.cols then .error .domainError
  else do
    let z ← S.ofInt 0
    forUp 0 m.rows (fun i result => do
      let x ← m.get i i
      S.addA result x) z

/-- `transpose()` (src/Mat.hpp:515-522). -/
def transpose (m : Mat T) : Res (Mat T) :=
  forEach m.rows m.cols (fun i j r => do
    let t ← m.get i j
    r.set j i t) (alloc m.cols m.rows)

end Mat
end CppMaths
