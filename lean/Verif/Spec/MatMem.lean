import Verif.Model.MatMem
import Verif.Spec.MatHeap
/-!
# Matrix variables when memory runs out
-/

namespace CppMaths
variable {T : Type}

/-- The contents of the block at an address, if one is allocated there. -/
def MHeap.view (h : MHeap T) (p : Nat) : Option (List (Option T)) := h[p]?.join

/-- The number of entries for which there is memory in use. -/
def MHeap.live (h : MHeap T) : Nat := (h.map fun b => (b.map List.length).getD 0).sum

/-- Scalar operations may run out of memory. They do not for `double` and `int`. -/
def Luck.Interrupts (L : Luck T) : Prop := ∃ k, L.interrupt k = true

/-- Some request is refused that would have brought the memory in use to `N` entries or fewer. -/
def Luck.Short (L : Luck T) (N : Nat) : Prop := ∃ t h n, L.refuse t h n = true ∧ h.live + n ≤ N

/-- There is memory for `N` entries; the scalar operations need none, and no copy is elided. -/
def Luck.limit (N : Nat) : Luck T := ⟨fun _ h n => decide (N < h.live + n), fun _ => false, fun _ => false⟩

namespace MEnv

/-- The variables hold the matrices: every variable is an object with the dimensions of its matrix whose pointer leads to an allocated
block with its entries; no two objects share a block. -/
structure Holds (h : MHeap T) (vars : Nat → Option MObj) (v : MEnv T) : Prop where
  dead : ∀ x, v x = none → vars x = none
  live : ∀ x m, v x = some m → ∃ o, vars x = some o ∧ o.rows = m.rows ∧ o.cols = m.cols ∧
    h.view o.ptr = some m.data ∧ m.data.length = m.rows * m.cols
  unshared : ∀ x y o o', vars x = some o → vars y = some o' → o.ptr = o'.ptr → x = y

/-- Nothing is leaked: every allocated block belongs to a variable. -/
def NoLeak (h : MHeap T) (vars : Nat → Option MObj) : Prop := ∀ p b, h.view p = some b → ∃ x o, vars x = some o ∧ o.ptr = p

end MEnv

/-- All matrices have fewer than 2^64 entries. -/
def MEnv.Sizes (v : MEnv T) : Prop := ∀ x m, v x = some m → m.rows * m.cols < 2 ^ 64

/-- The matrices that an expression makes have fewer than 2^64 entries. -/
def MExpr.Room (v : MEnv T) : MExpr T → Prop
  | .raw r c | .filled r c _ | .array _ r c => r * c < 2 ^ 64
  | .identity n | .diagonal _ n => n * n < 2 ^ 64
  | .augmented a b => ∀ x y, v a = some x → v b = some y → x.cols + y.cols < 2 ^ 64 ∧ x.rows * (x.cols + y.cols) < 2 ^ 64
  | .mul a b => ∀ x y, v a = some x → v b = some y → x.rows * y.cols < 2 ^ 64
  | .inverse a => ∀ x, v a = some x → x.cols + x.cols < 2 ^ 64 ∧ x.rows * (x.cols + x.cols) < 2 ^ 64
  | _ => True

/-- The matrices that a statement makes have fewer than 2^64 entries. -/
def MStmt.Room (v : MEnv T) : MStmt T → Prop
  | .declare _ e _ | .assignExpr _ e _ => e.Room v
  | .mulAssign d x => ∀ a b, v d = some a → v x = some b → a.rows * b.cols < 2 ^ 64
  | _ => True

/-- The size of the matrix in a variable. -/
def MEnv.size (v : MEnv T) (x : Nat) : Nat := match v x with
  | some m => m.rows * m.cols
  | none => 0

/-- The memory, in entries, that computing an expression and handing on its value takes at most. -/
def MExpr.need (v : MEnv T) : MExpr T → Nat
  | .raw r c | .filled r c _ | .array _ r c => 2 * (r * c)
  | .identity n | .diagonal _ n => 2 * (n * n)
  | .augmented a b => match v a, v b with
    | some x, some y => 2 * (x.rows * (x.cols + y.cols))
    | _, _ => 0
  | .mul a b => match v a, v b with
    | some x, some y => 2 * (x.rows * y.cols)
    | _, _ => 0
  | .neg a | .add a _ | .sub a _ | .smul _ a | .muls a _ | .divs a _ | .rref a | .transpose a => 2 * v.size a
  | .minor a _ _ => match v a with
    | some x => 2 * ((x.rows - 1) * (x.cols - 1))
    | none => 0
  | .cofactor a _ _ => match v a with
    | some x => 3 * ((x.rows - 1) * (x.cols - 1))
    | none => 0
  | .inverse a => 5 * v.size a

/-- The memory, in entries, that a statement takes at most on top of what is in use. -/
def MStmt.need (v : MEnv T) : MStmt T → Nat
  | .declare _ e _ | .assignExpr _ e _ => e.need v
  | .declareCopy _ x | .assign _ x | .print x => v.size x
  | .mulAssign d x => match v d, v x with
    | some a, some b => a.rows * b.cols
    | _, _ => 0
  | .destroy _ | .swap _ _ | .update _ _ _ => 0

namespace MEnv

/-- What the variables hold after a statement for which there was not enough memory: what they held before, but the target of a change in
place may be half written. -/
def ranOut (v : MEnv T) : MStmt T → MEnv T
  | .update d _ junk => match v d with
    | some m => v.set d (some ⟨m.rows, m.cols, (List.range (m.rows * m.cols)).map junk⟩)
    | none => v
  | _ => v

/-- What the variables may hold after a program: every statement is executed as `MEnv.step` says or runs out of memory. -/
inductive Ends (S : Scalar T) : List (MStmt T) → MEnv T → MEnv T → Prop
  | nil (v : MEnv T) : Ends S [] v v
  | done {c : MStmt T} {cs : List (MStmt T)} {v v' w : MEnv T} : step S v c = .done v' → Ends S cs v' w → Ends S (c :: cs) v w
  | threw {c : MStmt T} {cs : List (MStmt T)} {v v' w : MEnv T} : step S v c = .threw v' → Ends S cs v' w → Ends S (c :: cs) v w
  | outOfMemory {c : MStmt T} {cs : List (MStmt T)} {v w : MEnv T} : Ends S cs (v.ranOut c) w → Ends S (c :: cs) v w

/-- Every statement that can be reached is legal and makes no matrix with 2^64 entries or more. -/
def LegalAll (S : Scalar T) (P : T → Prop) : List (MStmt T) → MEnv T → Prop
  | [], _ => True
  | c :: cs, v => c.Legal P v ∧ c.Room v ∧ LegalAll S P cs (v.ranOut c) ∧
    match step S v c with
    | .done v' => LegalAll S P cs v'
    | .threw v' => LegalAll S P cs v'
    | _ => True

/-- What the variables may hold when a block is left; the flag says whether by an exception. -/
inductive Leaves (S : Scalar T) : List (MStmt T) → MEnv T → MEnv T → Bool → Prop
  | nil (v : MEnv T) : Leaves S [] v v false
  | done {c : MStmt T} {cs : List (MStmt T)} {v v' w : MEnv T} {b : Bool} : step S v c = .done v' → Leaves S cs v' w b → Leaves S (c :: cs) v w b
  | threw {c : MStmt T} {cs : List (MStmt T)} {v v' : MEnv T} : step S v c = .threw v' → Leaves S (c :: cs) v v' true
  | outOfMemory (c : MStmt T) (cs : List (MStmt T)) (v : MEnv T) : Leaves S (c :: cs) v (v.ranOut c) true

/-- As long as nothing is thrown, every statement is legal and makes no matrix with 2^64 entries or more. -/
def LegalBlock (S : Scalar T) (P : T → Prop) : List (MStmt T) → MEnv T → Prop
  | [], _ => True
  | c :: cs, v => c.Legal P v ∧ c.Room v ∧
    match step S v c with
    | .done v' => LegalBlock S P cs v'
    | _ => True

end MEnv

end CppMaths
