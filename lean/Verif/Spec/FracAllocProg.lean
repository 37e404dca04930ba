import Verif.Model.FracAllocProg
import Verif.Spec.FracProg
import Verif.Spec.Frac
/-!
# What programs with `Frac` variables mean, when memory runs out
-/

namespace CppMaths
open BigInt

/-- What a statement does to the rational numbers in the variables; nothing if it divides by zero. -/
def FAStmt.sem (v : Nat → ℚ) : FAStmt → Option (Nat → ℚ)
  | .update op i j => (op.sem (v i) (v j)).map (Function.update v i)
  | .updateInt op i a => (op.sem (v i) a.val).map (Function.update v i)
  | .set op k i j => (op.sem (v i) (v j)).map (Function.update v k)
  | .setInt op k i a => (op.sem (v i) a.val).map (Function.update v k)
  | .intSet op k a i => (op.sem a.val (v i)).map (Function.update v k)
  | .make k a b => if b.val = 0 then none else some (Function.update v k (a.val / b.val))
  | .recip k i => if v i = 0 then none else some (Function.update v k (1 / v i))
  | .copy k i => some (Function.update v k (v i))

/-- What a program does to them. -/
def FAStmt.semAll : List FAStmt → (Nat → ℚ) → Option (Nat → ℚ)
  | [], v => some v
  | s :: r, v => (s.sem v).bind (FAStmt.semAll r)

/-- The `Int`s a user hands to a statement are canonical. -/
def FAStmt.Legal : FAStmt → Prop
  | .updateInt _ _ a | .setInt _ _ _ a | .intSet _ _ a _ => Canon a
  | .make _ a b => Canon a ∧ Canon b
  | _ => True

/-- The variable that is assigned is not an operand. -/
def FAStmt.ThreeAddress : FAStmt → Prop
  | .update .. | .updateInt .. => False
  | .set _ k i j => k ≠ i ∧ k ≠ j
  | .setInt _ k i _ | .intSet _ k _ i | .recip k i | .copy k i => k ≠ i
  | .make .. => True

end CppMaths
