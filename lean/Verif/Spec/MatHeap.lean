import Verif.Model.MatHeap
import Verif.Spec.Safe
/-!
# Value semantics of programs over matrix variables

The meaning a client expects: a variable holds a matrix of its own, there are no pointers. `MEnv.Represents` says when the
pointer structures of the model stand for such an environment.
-/

namespace CppMaths

/-- What the matrix variables hold; `none` for variables that do not exist. -/
abbrev MEnv (T : Type) := Nat → Option (Mat T)

/-- How a statement or a program ends. -/
inductive MOut (T : Type)
  | done (v : MEnv T)
  /-- an exception is thrown -/
  | threw (v : MEnv T)
  /-- the process ends: a failed assertion, or a scalar operation that does not come back -/
  | stopped (e : Err)
  /-- the program has undefined behaviour by the language rules -/
  | undefined

namespace MEnv
variable {T : Type}

def look (v : MEnv T) (x : Nat) : Res (Mat T) :=
  match v x with
  | some m => .ok m
  | none => .error .ub

def set (v : MEnv T) (x : Nat) (m : Option (Mat T)) : MEnv T := fun i => if i = x then m else v i

/-- Every entry has been given a value. -/
def Init (m : Mat T) : Prop := ∀ o ∈ m.data, o ≠ none

instance (m : Mat T) : Decidable (Init m) := inferInstanceAs (Decidable (∀ o ∈ m.data, o ≠ none))

/-- The exceptions that the code throws; all are derived from `std::exception`. A failed assertion cannot be caught. -/
def _root_.CppMaths.Thrown (e : Err) : Prop :=
  e = .divideByZero ∨ e = .invalidArgument ∨ e = .domainError ∨ e = .outOfRange ∨ e = .badAlloc

instance (e : Err) : Decidable (Thrown e) := inferInstanceAs (Decidable (_ ∨ _))

/-- A failed computation: the environment is then `v`. -/
def fail (e : Err) (v : MEnv T) : MOut T :=
  if e = .ub then .undefined else if Thrown e then .threw v else .stopped e

/-- What a change in place requires before it begins: enough values, or an operand of the same dimensions. -/
def fits (v : MEnv T) (m : Mat T) : MUpd T → Res Unit
  | .setEntries _ size => if m.rows * m.cols ≤ size then .ok () else .error .domainError
  | .addA x | .subA x =>
    match v x with
    | none => .error .ub
    | some b => if b.rows = m.rows ∧ b.cols = m.cols then .ok () else .error .domainError
  | _ => .ok ()

/-- One statement. The values of expressions are those of `MExpr.eval`, which the claims C61-C71 describe. -/
def step (S : Scalar T) (v : MEnv T) : MStmt T → MOut T
  | .declare d e n =>
    if v d ≠ none then .undefined else
    match e.eval S v.look with
    | .error er => fail er v
    | .ok m => if n ≠ 0 ∧ ¬Init m then .undefined else .done (v.set d (some m))
  | .declareCopy d x =>
    if v d ≠ none then .undefined else
    match v x with
    | none => .undefined
    | some m => if Init m then .done (v.set d (some m)) else .undefined
  | .destroy d => if v d = none then .undefined else .done (v.set d none)
  | .assignExpr d e n =>
    match e.eval S v.look with
    | .error er => fail er v
    | .ok m => if v d = none ∨ n ≠ 0 ∧ ¬Init m then .undefined else .done (v.set d (some m))
  | .assign d x =>
    match v x with
    | none => .undefined
    | some m => if v d ≠ none ∧ Init m then .done (v.set d (some m)) else .undefined
  | .swap a b =>
    if v a = none ∨ v b = none then .undefined
    else .done (fun i => if i = a then v b else if i = b then v a else v i)
  | .mulAssign d x =>
    match v d, v x with
    | some a, some b =>
      match Mat.mulAssign S a b with
      | .ok m => .done (v.set d (some m))
      | .error e => fail e v
    | _, _ => .undefined
  | .update d u junk =>
    match v d with
    | none => .undefined
    | some m =>
      match v.fits m u with
      | .error e => fail e v
      | .ok _ =>
        match u.run S v.look d m with
        | .ok m' => .done (v.set d (some m'))
        | .error e => fail e (v.set d (some ⟨m.rows, m.cols, (List.range (m.rows * m.cols)).map junk⟩))
  | .print x =>
    match v x with
    | none => .undefined
    | some m => if Init m then .done v else .undefined

/-- A program: exceptions are caught after every statement. The result is never `threw`. -/
def run (S : Scalar T) : List (MStmt T) → MEnv T → MOut T
  | [], v => .done v
  | c :: cs, v =>
    match step S v c with
    | .done v' => run S cs v'
    | .threw v' => run S cs v'
    | r => r

/-- The state of the machine stands for the environment. Every variable is an object with the dimensions of its matrix
whose pointer leads to a live block of exactly the right size with the entries; no two objects share a block; every live
block belongs to an object. -/
structure Represents (s : MState T) (v : MEnv T) : Prop where
  dead : ∀ x, v x = none → s.vars x = none
  live : ∀ x m, v x = some m → ∃ o, s.vars x = some o ∧ o.rows = m.rows ∧ o.cols = m.cols ∧
    s.heap[o.ptr]? = some (some m.data) ∧ m.data.length = m.rows * m.cols
  unshared : ∀ x y o o', s.vars x = some o → s.vars y = some o' → o.ptr = o'.ptr → x = y
  owned : ∀ p b, s.heap[p]? = some (some b) → ∃ x o, s.vars x = some o ∧ o.ptr = p

/-- All matrices are initialised and their entries have property `P`. -/
def AllInit (P : T → Prop) (v : MEnv T) : Prop := ∀ x m, v x = some m → Mat.All P m.rows m.cols m

end MEnv

/-- The operands exist, arrays are long enough, minors are not taken of empty matrices, nothing is left uninitialised. The
dimensions may be wrong: that throws. -/
def MExpr.Legal {T : Type} (P : T → Prop) (v : MEnv T) : MExpr T → Prop
  | .raw _ _ => False
  | .filled _ _ t => P t
  | .array vals r c => r * c ≤ vals.length ∧ ∀ t ∈ vals, P t
  | .identity _ => True
  | .diagonal vals n => n ≤ vals.length ∧ ∀ t ∈ vals, P t
  | .augmented a b | .add a b | .sub a b | .mul a b => v a ≠ none ∧ v b ≠ none
  | .neg a | .rref a | .inverse a | .transpose a => v a ≠ none
  | .smul k a | .muls a k | .divs a k => P k ∧ v a ≠ none
  | .minor a _ _ | .cofactor a _ _ => ∃ m, v a = some m ∧ 0 < m.rows ∧ 0 < m.cols

/-- Indices are in range, arrays are as long as is claimed, operands exist. -/
def MUpd.Legal {T : Type} (P : T → Prop) (v : MEnv T) (m : Mat T) : MUpd T → Prop
  | .set i j t => i < m.rows ∧ j < m.cols ∧ P t
  | .setAll t => P t
  | .setEntries vals size => size ≤ vals.length ∧ ∀ t ∈ vals, P t
  | .addA x | .subA x => v x ≠ none
  | .mulS k | .divS k => P k
  | .mulE i j | .divE i j => i < m.rows ∧ j < m.cols
  | .rref => True

/-- The variables a statement names exist, except that of a declaration, which does not exist yet. What an interrupted loop
leaves behind are entries with property `P`. -/
def MStmt.Legal {T : Type} (P : T → Prop) (v : MEnv T) : MStmt T → Prop
  | .declare d e _ => v d = none ∧ e.Legal P v
  | .declareCopy d x => v d = none ∧ v x ≠ none
  | .destroy d => v d ≠ none
  | .assignExpr d e _ => v d ≠ none ∧ e.Legal P v
  | .assign d x | .swap d x | .mulAssign d x => v d ≠ none ∧ v x ≠ none
  | .update d u junk => (∃ m, v d = some m ∧ u.Legal P v m) ∧ ∀ k, ∃ t, junk k = some t ∧ P t
  | .print x => v x ≠ none

/-- Every statement that is reached is legal. -/
def MEnv.LegalRun {T : Type} (S : Scalar T) (P : T → Prop) : List (MStmt T) → MEnv T → Prop
  | [], _ => True
  | c :: cs, v => c.Legal P v ∧
    match MEnv.step S v c with
    | .done v' => LegalRun S P cs v'
    | .threw v' => LegalRun S P cs v'
    | _ => True

/-- The variables whose matrix a statement may change. -/
def MStmt.targets {T : Type} : MStmt T → List Nat
  | .declare d _ _ | .declareCopy d _ | .destroy d | .assignExpr d _ _ | .assign d _ | .mulAssign d _ | .update d _ _ => [d]
  | .swap a b => [a, b]
  | .print _ => []

end CppMaths
