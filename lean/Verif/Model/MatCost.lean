import Verif.Model.Mat
/-!
# The running time of the members of `Mat<T>` (src/Mat.hpp)

The functions of `Verif/Model/Mat.lean` once more, counting steps: every operation on `T` values, every access to an entry, every
round of a loop and every cell of a new buffer is one step. What takes a bounded number of machine instructions per step (index
arithmetic, comparing `size_t`s, calls) is not counted on its own. An operation on `T` is one step, whatever `T` is; the time of
the operations of `Int` and `Frac` depends on the size of the numbers (see `Verif/Model/IntCost.lean`). `Verif/Props/MatCost.lean` proves that
the results are those of the uncounted functions.
-/

namespace CppMaths

/-- A computation with the number of steps it has taken until it returned or failed. -/
structure Cost (α : Type) where
  res : Res α
  steps : Nat

namespace Cost

/-- One step that does `r`. -/
def step {α : Type} (r : Res α) : Cost α := ⟨r, 1⟩

/-- A failure, at no cost. -/
def fail {α : Type} (e : Err) : Cost α := ⟨.error e, 0⟩

instance : Monad Cost where
  pure a := ⟨.ok a, 0⟩
  bind x f := match x.res with
    | .ok a => ⟨(f a).res, x.steps + (f a).steps⟩
    | .error e => ⟨.error e, x.steps⟩

/-- `forUp` with one step for every round. -/
def forUp {σ : Type} (lo : Nat) : Nat → (Nat → σ → Cost σ) → σ → Cost σ
  | 0, _, s => pure s
  | n + 1, body, s => do
    step (.ok ())
    let s' ← body lo s
    forUp (lo + 1) n body s'

end Cost

namespace Mat
open Cost (step fail)
variable {T : Type}

/-- `new T[rows * cols]` (src/Mat.hpp:113-116): one step for every cell. -/
def allocC (rows cols : Nat) : Cost (Mat T) := ⟨.ok (alloc rows cols), rows * cols⟩

/-- See `forEach`. -/
def forEachC {σ : Type} (r c : Nat) (body : Nat → Nat → σ → Cost σ) (s : σ) : Cost σ :=
  Cost.forUp 0 r (fun i s => Cost.forUp 0 c (fun j s => body i j s) s) s

/-- `Mat(const Mat<T>&)` (src/Mat.hpp:107-111, 135-142). -/
def copyC (x : Mat T) : Cost (Mat T) := do
  let m ← allocC x.rows x.cols
  forEachC x.rows x.cols (fun i j m => do
    let t ← step (x.dataAt (i * x.cols + j))
    step (m.set i j t)) m

/-- `Mat(rows, cols, val)` (src/Mat.hpp:118-122, 144-149). -/
def filledC (rows cols : Nat) (val : T) : Cost (Mat T) := do
  let m ← allocC rows cols
  forEachC rows cols (fun i j m => step (m.set i j val)) m

/-- `a * b` (src/Mat.hpp:237-248). -/
def mulC (S : Scalar T) (a b : Mat T) : Cost (Mat T) :=
  if a.cols ≠ b.rows then fail .domainError
  else do
    let zero ← step (S.ofInt 0)
    let r ← filledC a.rows b.cols zero
    Cost.forUp 0 a.rows (fun i r => Cost.forUp 0 a.cols (fun k r => Cost.forUp 0 b.cols (fun j r => do
      let x ← step (a.get i k)
      let y ← step (b.get k j)
      let p ← step (S.mul x y)
      let z ← step (r.get i j)
      let t ← step (S.addA z p)
      step (r.set i j t)) r) r) r

/-- `first_minor(i, j)` (src/Mat.hpp:279-291). -/
def firstMinorC (m : Mat T) (i j : Nat) : Cost (Mat T) :=
  if m.rows = 0 ∨ m.cols = 0 then fail .ub
  else do
    let r ← allocC (m.rows - 1) (m.cols - 1)
    Cost.forUp 0 (m.rows - 1) (fun a r =>
      let ii := if a ≥ i then a + 1 else a
      Cost.forUp 0 (m.cols - 1) (fun b r => do
        let jj := if b ≥ j then b + 1 else b
        let t ← step (m.get ii jj)
        step (r.set a b t)) r) r

/-- `entry(..) != 0` for the literal `0` (src/Mat.hpp:312, 334). -/
def neZeroC (S : Scalar T) (t : T) : Cost Bool := do
  let z ← step (S.ofInt 0)
  step (S.ne t z)

/-- `entry(..) == 0` for the literal `0` (src/Mat.hpp:374, 429). -/
def eqZeroC (S : Scalar T) (t : T) : Cost Bool := do
  let z ← step (S.ofInt 0)
  step (S.eq t z)

/-- `data[0] * data[3] - data[1] * data[2]` (src/Mat.hpp:307, 329, 364). -/
def det2C (S : Scalar T) (m : Mat T) : Cost T := do
  let a ← step (m.dataAt 0)
  let d ← step (m.dataAt 3)
  let p ← step (S.mul a d)
  let b ← step (m.dataAt 1)
  let c ← step (m.dataAt 2)
  let q ← step (S.mul b c)
  step (S.sub p q)

/-- `row_cofactor_expansion()` (src/Mat.hpp:300-320). `fuel` bounds the depth of the recursion. -/
def rowCofactorFC (S : Scalar T) : Nat → Mat T → Cost T
  | 0, _ => fail .diverge
  | fuel + 1, m =>
    if m.rows ≠ m.cols then fail .domainError
    else if m.rows = 1 then step (m.dataAt 0)
    else if m.rows = 2 then det2C S m
    else do
      let z ← step (S.ofInt 0)
      Cost.forUp 0 m.cols (fun j result => do
        let e ← step (m.get 0 j)
        let nz ← neZeroC S e
        if nz then do
          let e ← step (m.get 0 j)
          let sub ← firstMinorC m 0 j
          let d ← rowCofactorFC S fuel sub
          let p ← step (S.mul e d)
          if (0 + j) % 2 = 1 then step (S.subA result p) else step (S.addA result p)
        else return result) z

/-- `row_cofactor_expansion()` (src/Mat.hpp:300-320). -/
def rowCofactorC (S : Scalar T) (m : Mat T) : Cost T := rowCofactorFC S (m.rows + 1) m

/-- `col_cofactor_expansion()` (src/Mat.hpp:322-342). `fuel` bounds the depth of the recursion. -/
def colCofactorFC (S : Scalar T) : Nat → Mat T → Cost T
  | 0, _ => fail .diverge
  | fuel + 1, m =>
    if m.rows ≠ m.cols then fail .domainError
    else if m.rows = 1 then step (m.dataAt 0)
    else if m.rows = 2 then det2C S m
    else do
      let z ← step (S.ofInt 0)
      Cost.forUp 0 m.rows (fun i result => do
        let e ← step (m.get i 0)
        let nz ← neZeroC S e
        if nz then do
          let e ← step (m.get i 0)
          let sub ← firstMinorC m i 0
          let d ← colCofactorFC S fuel sub
          let p ← step (S.mul e d)
          if (i + 0) % 2 = 1 then step (S.subA result p) else step (S.addA result p)
        else return result) z

/-- `col_cofactor_expansion()` (src/Mat.hpp:322-342). -/
def colCofactorC (S : Scalar T) (m : Mat T) : Cost T := colCofactorFC S (m.rows + 1) m

/-- The `while` loop that looks for a pivot (src/Mat.hpp:373-382 and 428-437), one step for every round besides those of its body. -/
def findPivotC (S : Scalar T) (m : Mat T) (r : Nat) : Nat → Nat → Nat → Cost (Option (Nat × Nat))
  | 0, _, _ => fail .diverge
  | fuel + 1, i, pivot => do
    step (.ok ())
    let e ← step (m.get i pivot)
    let z ← eqZeroC S e
    if z then
      if m.rows = i + 1 then
        if m.cols = pivot + 1 then return none
        else findPivotC S m r fuel r (pivot + 1)
      else findPivotC S m r fuel (i + 1) pivot
    else return some (i, pivot)

/-- `swap_rows(a, b)` (src/Mat.hpp:412-418). -/
def swapRowsC (m : Mat T) (a b : Nat) : Cost (Mat T) :=
  if a ≠ b then
    Cost.forUp 0 m.cols (fun k m => do
      let x ← step (m.get a k)
      let y ← step (m.get b k)
      let m ← step (m.set a k y)
      step (m.set b k x)) m
  else pure m

/-- The elimination below the pivot in `determinant()` (src/Mat.hpp:389-395). -/
def detEliminateC (S : Scalar T) (tmp : Mat T) (r pivot : Nat) : Cost (Mat T) :=
  Cost.forUp (pivot + 1) (tmp.rows - (pivot + 1)) (fun i tmp =>
    if i ≠ r then do
      let val ← step (tmp.get i pivot)
      Cost.forUp pivot (tmp.cols - pivot) (fun j tmp => do
        let x ← step (tmp.get r j)
        let p ← step (S.mul val x)
        let d ← step (tmp.get r pivot)
        let q ← step (S.div p d)
        let y ← step (tmp.get i j)
        let t ← step (S.subA y q)
        step (tmp.set i j t)) tmp
    else pure tmp) tmp

/-- The main loop of `determinant()` (src/Mat.hpp:368-397) from row `r` on, with `n` rounds to go. -/
def detLoopC (S : Scalar T) : Nat → Nat → Nat → T → Mat T → Cost (T × Mat T)
  | 0, _, _, factor, tmp => pure (factor, tmp)
  | n + 1, r, pivot, factor, tmp => do
    step (.ok ())
    if tmp.cols ≤ pivot then pure (factor, tmp)
    else do
      let f ← findPivotC S tmp r (tmp.rows * tmp.cols + 1) r pivot
      match f with
      | none => return (factor, tmp)
      | some (i, pivot) =>
        let s ← (if i ≠ r then do
            let tmp ← swapRowsC tmp i r
            let m1 ← step (S.ofInt (-1))
            let factor ← step (S.mulA factor m1)
            return (factor, tmp)
          else pure (factor, tmp))
        let tmp ← detEliminateC S s.2 r pivot
        detLoopC S n (r + 1) (pivot + 1) s.1 tmp

/-- `determinant()` (src/Mat.hpp:357-403). -/
def determinantC (S : Scalar T) (m : Mat T) : Cost T :=
  if m.rows ≠ m.cols then fail .domainError
  else if m.rows = 1 then step (m.dataAt 0)
  else if m.rows = 2 then det2C S m
  else do
    let tmp ← copyC m
    let factor ← step (S.ofInt 1)
    let s ← detLoopC S tmp.rows 0 0 factor tmp
    let prod ← step (S.ofInt 1)
    let prod ← Cost.forUp 0 s.2.rows (fun i prod => do
      let x ← step (s.2.get i i)
      step (S.mulA prod x)) prod
    step (S.div prod s.1)

/-- The scaling of the pivot row (src/Mat.hpp:440-442). -/
def scaleRowC (S : Scalar T) (m : Mat T) (r pivot : Nat) : Cost (Mat T) := do
  let val ← step (m.get r pivot)
  Cost.forUp 0 m.cols (fun j m => do
    let x ← step (m.get r j)
    let t ← step (S.divA x val)
    step (m.set r j t)) m

/-- Clearing the other entries of the pivot column (src/Mat.hpp:444-450). -/
def clearColumnC (S : Scalar T) (m : Mat T) (r pivot : Nat) : Cost (Mat T) :=
  Cost.forUp 0 m.rows (fun i m =>
    if i ≠ r then do
      let val ← step (m.get i pivot)
      Cost.forUp 0 m.cols (fun j m => do
        let x ← step (m.get r j)
        let p ← step (S.mul val x)
        let y ← step (m.get i j)
        let t ← step (S.subA y p)
        step (m.set i j t)) m
    else pure m) m

/-- The main loop of `inplace_rref()` (src/Mat.hpp:424-452) from row `r` on, with `n` rounds to go. -/
def rrefLoopC (S : Scalar T) : Nat → Nat → Nat → Mat T → Cost (Mat T)
  | 0, _, _, m => pure m
  | n + 1, r, pivot, m => do
    step (.ok ())
    if m.cols ≤ pivot then pure m
    else do
      let f ← findPivotC S m r (m.rows * m.cols + 1) r pivot
      match f with
      | none => return m
      | some (i, pivot) =>
        let m ← swapRowsC m i r
        let m ← scaleRowC S m r pivot
        let m ← clearColumnC S m r pivot
        rrefLoopC S n (r + 1) (pivot + 1) m

/-- `inplace_rref()` (src/Mat.hpp:420-453). -/
def inplaceRrefC (S : Scalar T) (m : Mat T) : Cost (Mat T) := rrefLoopC S m.rows 0 0 m

/-- `rref()` (src/Mat.hpp:405-410). -/
def rrefC (S : Scalar T) (m : Mat T) : Cost (Mat T) := do
  let r ← copyC m
  inplaceRrefC S r

/-- `identityMatrix(size)` (src/Mat.hpp:483-489). -/
def identityMatrixC (S : Scalar T) (size : Nat) : Cost (Mat T) := do
  let z ← step (S.ofInt 0)
  let r ← filledC size size z
  Cost.forUp 0 size (fun i r => do
    let t ← step (S.ofInt 1)
    step (r.set i i t)) r

/-- `augmentedMatrix(a, b)` (src/Mat.hpp:491-503). -/
def augmentedMatrixC (a b : Mat T) : Cost (Mat T) :=
  if a.rows ≠ b.rows then fail .domainError
  else do
    let r ← allocC a.rows (a.cols + b.cols)
    Cost.forUp 0 a.rows (fun i r => do
      let r ← Cost.forUp 0 a.cols (fun j r => do
        let t ← step (a.get i j)
        step (r.set i j t)) r
      Cost.forUp 0 b.cols (fun j r => do
        let t ← step (b.get i j)
        step (r.set i (j + a.cols) t)) r) r

/-- `inverse()` (src/Mat.hpp:455-473). -/
def inverseC (S : Scalar T) (m : Mat T) : Cost (Mat T) :=
  if m.rows ≠ m.cols then fail .domainError
  else do
    let identity ← identityMatrixC S m.rows
    let r ← augmentedMatrixC m identity
    let r ← inplaceRrefC S r
    let result ← allocC m.rows m.cols
    forEachC m.rows m.cols (fun i j result => do
      let x ← step (r.get i j)
      let y ← step (identity.get i j)
      let d ← step (S.ne x y)
      if d then fail .domainError
      else do
        let t ← step (r.get i (j + m.rows))
        step (result.set i j t)) result

end Mat
end CppMaths
