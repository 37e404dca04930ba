import Verif.Model.FracMem
import Verif.Spec.Frac
import Verif.Spec.IntProg
/-!
# What programs over `Frac` variables mean: the same programs over rational numbers
-/

namespace CppMaths

/-- Rational variables. -/
abbrev QEnv := Nat → ℚ

/-- Assign a rational variable. -/
def QEnv.set (v : QEnv) (d : Nat) (q : ℚ) : QEnv := fun i => if i = d then q else v i

/-- The rational operation behind an operator: `none` for a division by zero. -/
def FOp.sem : FOp → ℚ → ℚ → Option ℚ
  | .add, x, y => some (x + y)
  | .sub, x, y => some (x - y)
  | .mul, x, y => some (x * y)
  | .div, x, y => if y = 0 then none else some (x / y)

/-- The rational relation behind a comparison operator. -/
def ICmp.semQ : ICmp → ℚ → ℚ → Bool
  | .lt, x, y => decide (x < y)
  | .gt, x, y => decide (x > y)
  | .le, x, y => decide (x ≤ y)
  | .ge, x, y => decide (x ≥ y)
  | .eq, x, y => decide (x = y)
  | .ne, x, y => decide (x ≠ y)

/-- The text is empty, an integer numeral, or two integer numerals with a slash between them; it denotes `t / b`. -/
def RatioText (s : List Char) (t b : Int) : Prop :=
  (s = [] ∧ t = 0 ∧ b = 1) ∨ (IntText s t ∧ b = 1) ∨ ∃ p q, s = p ++ '/' :: q ∧ IntText p t ∧ IntText q b

open Classical in
/-- The ratio a string denotes, if any. -/
noncomputable def ratioVal (s : List Char) : Option (Int × Int) :=
  if h : ∃ z : Int × Int, RatioText s z.1 z.2 then some h.choose else none

/-- What a statement does. -/
inductive FEff
  /-- assign the number to the variable -/
  | assign (d : Nat) (q : ℚ)
  /-- an exception is thrown and nothing changes -/
  | throws
  /-- an in-place division by zero or an in-place power with negative exponent: no claim is made -/
  | bad

/-- The effect of a statement in terms of rational numbers. -/
noncomputable def FStmt.eff : FStmt → QEnv → FEff
  | .lit d a b, _ => if b = 0 then .throws else .assign d ((a : ℚ) / b)
  | .str d s, _ => match ratioVal s with
    | some (a, b) => if b = 0 then .throws else .assign d ((a : ℚ) / b)
    | none => .throws
  | .copy d a, v => .assign d (v a)
  | .bin op d a b, v => (op.sem (v a) (v b)).elim .throws (.assign d)
  | .binInt op d a k, v => (op.sem (v a) k).elim .throws (.assign d)
  | .intBin op d k a, v => (op.sem k (v a)).elim .throws (.assign d)
  | .asg op d a, v => (op.sem (v d) (v a)).elim .bad (.assign d)
  | .asgInt op d k, v => (op.sem (v d) k).elim .bad (.assign d)
  | .pow d a k, v => if k < 0 ∧ v a = 0 then .throws else .assign d (v a ^ k)
  | .powAsg d k, v => if k < 0 then .bad else .assign d (v d ^ k)
  | .recip d a, v => if v a = 0 then .throws else .assign d (1 / v a)

/-- The numerator and denominator, before reduction, that the code computes for an operator. -/
def FOp.parts : FOp → ℚ → ℚ → Int × Int
  | .add, x, y => (x.num * y.den + y.num * x.den, x.den * y.den)
  | .sub, x, y => (x.num * y.den - y.num * x.den, x.den * y.den)
  | .mul, x, y => (x.num * y.num, x.den * y.den)
  | .div, x, y => (x.num * y.den, x.den * y.num)

/-- The numerator and denominator, before reduction, that the code computes in a statement (`none`: no reduction). Only
used to say when the reduction aborts. -/
noncomputable def FStmt.raw : FStmt → QEnv → Option (Int × Int)
  | .lit _ a b, _ => some (a, b)
  | .str _ s, _ => if s = [] then none else ratioVal s
  | .copy _ _, _ => none
  | .bin op _ a b, v => some (op.parts (v a) (v b))
  | .binInt op _ a k, v => some (op.parts (v a) k)
  | .intBin op _ k a, v => some (op.parts k (v a))
  | .asg op d a, v => some (op.parts (v d) (v a))
  | .asgInt op d k, v => some (op.parts (v d) k)
  | .pow _ a k, v =>
    if 0 ≤ k then some ((v a).num ^ k.toNat, (v a).den ^ k.toNat)
    else some ((v a).den ^ (-k).toNat, (v a).num ^ (-k).toNat)
  | .powAsg d k, v => some ((v d).num ^ k.toNat, (v d).den ^ k.toNat)
  | .recip _ a, v => some ((v a).den, (v a).num)

/-- 64-bit constants other than INT64_MIN; exponents between -10^9 and 10^9. -/
def FStmt.Legal : FStmt → Prop
  | .lit _ a b => (-9223372036854775807 ≤ a ∧ a ≤ 9223372036854775807) ∧ -9223372036854775807 ≤ b ∧ b ≤ 9223372036854775807
  | .binInt _ _ _ k => -9223372036854775807 ≤ k ∧ k ≤ 9223372036854775807
  | .intBin _ _ k _ => -9223372036854775807 ≤ k ∧ k ≤ 9223372036854775807
  | .asgInt _ _ k => -9223372036854775807 ≤ k ∧ k ≤ 9223372036854775807
  | .pow _ _ k => -1000000000 < k ∧ k < 1000000000
  | .powAsg _ k => -1000000000 < k ∧ k < 1000000000
  | _ => True

/-- All literals of the program are legal. -/
def FProg.Legal : FProg → Prop
  | .stmt s => s.Legal
  | .seq p q => p.Legal ∧ q.Legal
  | .ite _ _ _ p q => p.Legal ∧ q.Legal
  | .while _ _ _ p => p.Legal

/-- The reduction to lowest terms in the statement meets a pair of integers on which the division of the code aborts. -/
def FStmt.Aborts (s : FStmt) (v : QEnv) : Prop := ∃ t b, s.raw v = some (t, b) ∧ b ≠ 0 ∧ ReduceAborts t b

/-- The outcome of a program run over rational numbers; `bad` as in `FEff`. -/
inductive QOutcome | done (v : QEnv) | abort | timeout | bad

/-- Sequencing of outcomes. -/
def QOutcome.bind : QOutcome → (QEnv → QOutcome) → QOutcome
  | .done a, f => f a
  | .abort, _ => .abort
  | .timeout, _ => .timeout
  | .bad, _ => .bad

open Classical in
/-- One statement over rational numbers. -/
noncomputable def FStmt.sem (s : FStmt) (v : QEnv) : QOutcome :=
  match s.eff v with
  | .bad => .bad
  | .throws => .done v
  | .assign d q => if s.Aborts v then .abort else .done (v.set d q)

/-- Program execution over rational numbers, to the same depth as `FProg.exec`. -/
noncomputable def FProg.sem : Nat → FProg → QEnv → QOutcome
  | 0, _, _ => .timeout
  | _ + 1, .stmt s, v => s.sem v
  | f + 1, .seq p q, v => (p.sem f v).bind (q.sem f)
  | f + 1, .ite c a b p q, v => if c.semQ (v a) (v b) then p.sem f v else q.sem f v
  | f + 1, .while c a b p, v =>
    if c.semQ (v a) (v b) then (p.sem f v).bind ((FProg.while c a b p).sem f) else .done v

end CppMaths
