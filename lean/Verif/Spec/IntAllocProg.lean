import Verif.Spec.IntAlloc
import Verif.Spec.IntProg
import Verif.Model.IntAllocProg
/-!
# What programs should do when memory runs out
-/

namespace CppMaths
open BigInt

/-- What a statement means for whole numbers; `none` is a division by zero. -/
def AStmt.sem (v : Nat → ℤ) : AStmt → Option (Nat → ℤ)
  | .update op i j => (op.sem (v i) (v j)).map fun z => Function.update v i z
  | .set op k i j => (op.sem (v i) (v j)).map fun z => Function.update v k z
  | .copy k i => some (Function.update v k (v i))

/-- What a program means. -/
def AStmt.semAll : List AStmt → (Nat → ℤ) → Option (Nat → ℤ)
  | [], v => some v
  | s :: r, v => (s.sem v).bind (AStmt.semAll r)

/-- `Went ss os v w`: starting with the values `v`, the statements `ss` ended as `os` says and left the values `w`. A statement that ended
normally has done what it means; one that threw has at most changed the variable it assigns; a division by zero is reported only
where there is one. -/
inductive Went : List AStmt → List (Except Err Unit) → (Nat → ℤ) → (Nat → ℤ) → Prop
  | nil (v) : Went [] [] v v
  | done {s r os v v' w} (h : s.sem v = some v') (hr : Went r os v' w) : Went (s :: r) (.ok () :: os) v w
  | threw {s r os v v' w} {e : Err} (he : e = .badAlloc ∨ (e = .divideByZero ∧ s.sem v = none)) (h : ∀ q, q ≠ s.target → v' q = v q)
      (hr : Went r os v' w) : Went (s :: r) (.error e :: os) v w

/-- The statement is not of the form `x /= y`. -/
def AStmt.NoDivAssign : AStmt → Prop
  | .update op _ _ => op ≠ .div
  | _ => True

/-- The variable that is assigned is not an operand. -/
def AStmt.ThreeAddress : AStmt → Prop
  | .update .. => False
  | .set _ k i j => k ≠ i ∧ k ≠ j
  | .copy k i => k ≠ i

end CppMaths
