import Verif.Model.IntMem
import Verif.Spec.Int
import Verif.Spec.Text
/-!
# What programs over `Int` variables mean: the same programs over mathematical integers
-/

namespace CppMaths

/-- Integer variables. -/
abbrev Env := Nat → Int

/-- Assign an integer variable. -/
def Env.set (v : Env) (d : Nat) (z : Int) : Env := fun i => if i = d then z else v i

/-- The integer operation behind an operator: `none` for a division by zero. Division truncates, modulo is floored. -/
def IOp.sem : IOp → Int → Int → Option Int
  | .add, x, y => some (x + y)
  | .sub, x, y => some (x - y)
  | .mul, x, y => some (x * y)
  | .div, x, y => if y = 0 then none else some (x.tdiv y)
  | .mod, x, y => if y = 0 then none else some (x.fmod y)

/-- The integer relation behind a comparison operator. -/
def ICmp.sem : ICmp → Int → Int → Bool
  | .lt, x, y => decide (x < y)
  | .gt, x, y => decide (x > y)
  | .le, x, y => decide (x ≤ y)
  | .ge, x, y => decide (x ≥ y)
  | .eq, x, y => decide (x = y)
  | .ne, x, y => decide (x ≠ y)

open Classical in
/-- The integer a string denotes, if any. -/
noncomputable def textVal (s : List Char) : Option Int :=
  if h : ∃ z, IntText s z then some h.choose else none

/-- The new value a statement computes and the variable it goes to; `none` if it throws. -/
noncomputable def IStmt.sem : IStmt → Env → Option (Nat × Int)
  | .lit d k, _ => some (d, k)
  | .str d s, _ => (textVal s).map (d, ·)
  | .copy d a, v => some (d, v a)
  | .bin op d a b, v => (op.sem (v a) (v b)).map (d, ·)
  | .asg op d a, v => (op.sem (v d) (v a)).map (d, ·)
  | .neg d a, v => some (d, -v a)
  | .negate d, v => some (d, -v d)
  | .abs d a, v => some (d, |v a|)
  | .pow d a e, v => some (d, v a ^ e)
  | .ten d p, v => some (d, if 0 ≤ p then v d * 10 ^ p.toNat else (v d).tdiv (10 ^ (-p).toNat))

/-- A statement that throws leaves the variables unchanged. -/
noncomputable def IStmt.next (s : IStmt) (v : Env) : Env :=
  match s.sem v with
  | some (d, z) => v.set d z
  | none => v

/-- Program execution over integers, to the same depth as `IProg.exec`; `none` when the depth does not suffice. -/
noncomputable def IProg.sem : Nat → IProg → Env → Option Env
  | 0, _, _ => none
  | _ + 1, .stmt s, v => some (s.next v)
  | f + 1, .seq p q, v => (p.sem f v).bind (q.sem f)
  | f + 1, .ite c a b p q, v => if c.sem (v a) (v b) then p.sem f v else q.sem f v
  | f + 1, .while c a b p, v =>
    if c.sem (v a) (v b) then (p.sem f v).bind ((IProg.while c a b p).sem f) else some v

/-- Literals that a program may contain: 64-bit constants other than INT64_MIN, exponents below 10^9, powers of ten other
than INT_MIN. -/
def IStmt.Legal : IStmt → Prop
  | .lit _ k => -9223372036854775807 ≤ k ∧ k ≤ 9223372036854775807
  | .pow _ _ e => e < 1000000000
  | .ten _ p => -2147483647 ≤ p ∧ p ≤ 2147483647
  | _ => True

/-- All literals of the program are legal. -/
def IProg.Legal : IProg → Prop
  | .stmt s => s.Legal
  | .seq p q => p.Legal ∧ q.Legal
  | .ite _ _ _ p q => p.Legal ∧ q.Legal
  | .while _ _ _ p => p.Legal

/-- Statements other than `*=` and `times_power_ten`, which may leave a zero that is not canonical, and other than
`times_power_ten` with a negative power. -/
def IStmt.Plain : IStmt → Prop
  | .asg .mul _ _ => False
  | .ten _ _ => False
  | _ => True

/-- All statements of the program are plain. -/
def IProg.Plain : IProg → Prop
  | .stmt s => s.Plain
  | .seq p q => p.Plain ∧ q.Plain
  | .ite _ _ _ p q => p.Plain ∧ q.Plain
  | .while _ _ _ p => p.Plain

open BigInt in
/-- The statement divides a pair of integers on which the division of the code aborts. -/
def IStmt.Aborts : IStmt → Env → Prop
  | .bin .div _ a b, v => v b ≠ 0 ∧ DivAborts (v a) (v b)
  | .bin .mod _ a b, v => v b ≠ 0 ∧ DivAborts (v a) (v b)
  | .asg .div d a, v => v a ≠ 0 ∧ DivAborts (v d) (v a)
  | .asg .mod d a, v => v a ≠ 0 ∧ DivAborts (v d) (v a)
  | _, _ => False

/-- The outcome of a program run. -/
inductive Outcome (α : Type) | done (a : α) | abort | timeout

/-- Sequencing of outcomes. -/
def Outcome.bind {α β : Type} : Outcome α → (α → Outcome β) → Outcome β
  | .done a, f => f a
  | .abort, _ => .abort
  | .timeout, _ => .timeout

open Classical in
/-- Program execution over integers with the aborts of the division of the code. -/
noncomputable def IProg.semA : Nat → IProg → Env → Outcome Env
  | 0, _, _ => .timeout
  | _ + 1, .stmt s, v => if s.Aborts v then .abort else .done (s.next v)
  | f + 1, .seq p q, v => (p.semA f v).bind (q.semA f)
  | f + 1, .ite c a b p q, v => if c.sem (v a) (v b) then p.semA f v else q.semA f v
  | f + 1, .while c a b p, v =>
    if c.sem (v a) (v b) then (p.semA f v).bind ((IProg.while c a b p).semA f) else .done v

end CppMaths
