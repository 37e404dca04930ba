import Verif.Spec.Machine
import Verif.Model.Machine
/-!
# The same computation over two scalar types

`S.Sim S' R A B`: the operations of `S'` do what those of `S` do, for values related by `R`. `Calc` is a small language of
computations with numbers, vectors and matrices, in which the whole interface of `Vec` and `Mat` occurs.
-/

namespace CppMaths

/-- The call `r'` does what `r` does: it returns a related value, or fails with the same error. Nothing is claimed if `r`
fails in a way that `A` names, and `r'` may fail in a way that `B` allows. -/
inductive Follows {α β : Type} (A B : Err → Prop) (R : α → β → Prop) : Res α → Res β → Prop
  | both {a b} : R a b → Follows A B R (.ok a) (.ok b)
  | same {e} : Follows A B R (.error e) (.error e)
  | skip {e r'} : A e → Follows A B R (.error e) r'
  | fail {r e} : B e → Follows A B R r (.error e)

/-- `S'` does what `S` does, without unary minus, `*=`, `/` and `/=`. -/
structure Scalar.SimCore {T T' : Type} (S : Scalar T) (S' : Scalar T') (R : T → T' → Prop) (A B : Err → Prop) : Prop where
  ofInt : ∀ n : Int, n = 0 ∨ n = 1 ∨ n = -1 → Follows A B R (S.ofInt n) (S'.ofInt n)
  add : ∀ {x y x' y'}, R x x' → R y y' → Follows A B R (S.add x y) (S'.add x' y')
  sub : ∀ {x y x' y'}, R x x' → R y y' → Follows A B R (S.sub x y) (S'.sub x' y')
  mul : ∀ {x y x' y'}, R x x' → R y y' → Follows A B R (S.mul x y) (S'.mul x' y')
  addA : ∀ {x y x' y'}, R x x' → R y y' → Follows A B R (S.addA x y) (S'.addA x' y')
  subA : ∀ {x y x' y'}, R x x' → R y y' → Follows A B R (S.subA x y) (S'.subA x' y')
  eq : ∀ {x y x' y'}, R x x' → R y y' → Follows A B Eq (S.eq x y) (S'.eq x' y')
  ne : ∀ {x y x' y'}, R x x' → R y y' → Follows A B Eq (S.ne x y) (S'.ne x' y')

/-- Unary minus of `S'` does what that of `S` does. -/
def Scalar.SimNeg {T T' : Type} (S : Scalar T) (S' : Scalar T') (R : T → T' → Prop) (A B : Err → Prop) : Prop :=
  ∀ {x x'}, R x x' → Follows A B R (S.neg x) (S'.neg x')

/-- `S'` does what `S` does, without `*=`, `/` and `/=`. -/
structure Scalar.SimRing {T T' : Type} (S : Scalar T) (S' : Scalar T') (R : T → T' → Prop) (A B : Err → Prop) : Prop
    extends S.SimCore S' R A B where
  neg : ∀ {x x'}, R x x' → Follows A B R (S.neg x) (S'.neg x')

/-- `*=` of `S'` does what that of `S` does. -/
def Scalar.SimMulA {T T' : Type} (S : Scalar T) (S' : Scalar T') (R : T → T' → Prop) (A B : Err → Prop) : Prop :=
  ∀ {x y x' y'}, R x x' → R y y' → Follows A B R (S.mulA x y) (S'.mulA x' y')

/-- `S'` divides as `S` does. -/
structure Scalar.SimDiv {T T' : Type} (S : Scalar T) (S' : Scalar T') (R : T → T' → Prop) (A B : Err → Prop) : Prop where
  div : ∀ {x y x' y'}, R x x' → R y y' → Follows A B R (S.div x y) (S'.div x' y')
  divA : ∀ {x y x' y'}, R x x' → R y y' → Follows A B R (S.divA x y) (S'.divA x' y')

/-- Two cells with related contents; uninitialised cells correspond to uninitialised cells. -/
def CellRel {T T' : Type} (R : T → T' → Prop) : Option T → Option T' → Prop
  | some t, some t' => R t t'
  | none, none => True
  | _, _ => False

/-- Two matrices of the same dimensions with related entries. -/
def Mat.Rel {T T' : Type} (R : T → T' → Prop) (m : Mat T) (m' : Mat T') : Prop :=
  m.rows = m'.rows ∧ m.cols = m'.cols ∧ List.Forall₂ (CellRel R) m.data m'.data

/-! ### Computations -/

/-- The types of the values in a computation. -/
inductive Ty
  | num | vec | mat | bool

/-- The values of a type, over the scalar type `T`. -/
@[reducible] def Ty.Val (T : Type) : Ty → Type
  | num => T
  | vec => List T
  | mat => Mat T
  | bool => Bool

/-- Related values. -/
def Ty.Rel {T T' : Type} (R : T → T' → Prop) : (s : Ty) → s.Val T → s.Val T' → Prop
  | num => R
  | vec => List.Forall₂ R
  | mat => Mat.Rel R
  | bool => Eq

/-- Operations on numbers. -/
inductive NumOp
  | add | sub | mul | div | addA | subA | mulA | divA

/-- A computation with numbers, vectors and matrices: variables, the operations of src/Vec.hpp and src/Mat.hpp, branches, local
variables and counting loops. A compound operator stands for the new value of its left operand. -/
inductive Calc : Ty → Type
  | var (s : Ty) (x : Nat) : Calc s
  /-- `0`, `1` or `-1` -/
  | lit (n : Int) (h : n = 0 ∨ n = 1 ∨ n = -1) : Calc .num
  | op (o : NumOp) (x y : Calc .num) : Calc .num
  | neg (x : Calc .num) : Calc .num
  | eqNum (x y : Calc .num) : Calc .bool
  | neNum (x y : Calc .num) : Calc .bool
  -- control
  | not (b : Calc .bool) : Calc .bool
  | ite {s : Ty} (b : Calc .bool) (x y : Calc s) : Calc s
  /-- `{ s x = e; body }` -/
  | letIn {t : Ty} (s : Ty) (x : Nat) (e : Calc s) (body : Calc t) : Calc t
  /-- `x = init; for (n times) x = body;` -/
  | loop (s : Ty) (x : Nat) (n : Nat) (init body : Calc s) : Calc s
  -- vectors
  | vecSize (n : Nat) : Calc .vec
  | vecGet (x : Calc .vec) (i : Nat) : Calc .num
  | vecSet (x : Calc .vec) (i : Nat) (t : Calc .num) : Calc .vec
  | vecSetAll (x : Calc .vec) (t : Calc .num) : Calc .vec
  | vecSetEntries (x y : Calc .vec) (size : Nat) : Calc .vec
  | vecOfArray (x : Calc .vec) (n : Nat) : Calc .vec
  | vecAdd (x y : Calc .vec) : Calc .vec
  | vecSub (x y : Calc .vec) : Calc .vec
  | vecSmul (a : Calc .num) (x : Calc .vec) : Calc .vec
  | vecDiv (x : Calc .vec) (a : Calc .num) : Calc .vec
  | vecAddA (x y : Calc .vec) : Calc .vec
  | vecSubA (x y : Calc .vec) : Calc .vec
  | vecAddSelf (x : Calc .vec) : Calc .vec
  | vecSubSelf (x : Calc .vec) : Calc .vec
  | vecMulA (x : Calc .vec) (a : Calc .num) : Calc .vec
  | vecDivA (x : Calc .vec) (a : Calc .num) : Calc .vec
  | vecMulEntry (x : Calc .vec) (k : Nat) : Calc .vec
  | vecDivEntry (x : Calc .vec) (k : Nat) : Calc .vec
  | vecEq (x y : Calc .vec) : Calc .bool
  | vecNe (x y : Calc .vec) : Calc .bool
  | vecConst (n : Nat) (a : Calc .num) : Calc .vec
  | vecDot (x y : Calc .vec) : Calc .num
  | vecCross (x y : Calc .vec) : Calc .vec
  | vecTriple (x y z : Calc .vec) : Calc .num
  | vecVTriple (x y z : Calc .vec) : Calc .vec
  | vecCat (x y : Calc .vec) : Calc .vec
  -- matrices
  | matNew (r c : Nat) : Calc .mat
  | matFill (r c : Nat) (a : Calc .num) : Calc .mat
  | matOfArray (x : Calc .vec) (r c : Nat) : Calc .mat
  | matSetEntries (m : Calc .mat) (x : Calc .vec) (size : Nat) : Calc .mat
  | matSetAll (m : Calc .mat) (a : Calc .num) : Calc .mat
  | matGet (m : Calc .mat) (i j : Nat) : Calc .num
  | matSet (m : Calc .mat) (i j : Nat) (t : Calc .num) : Calc .mat
  | matCopy (m : Calc .mat) : Calc .mat
  | matNeg (m : Calc .mat) : Calc .mat
  | matAdd (a b : Calc .mat) : Calc .mat
  | matSub (a b : Calc .mat) : Calc .mat
  | matAddA (a b : Calc .mat) : Calc .mat
  | matSubA (a b : Calc .mat) : Calc .mat
  | matAddSelf (a : Calc .mat) : Calc .mat
  | matSubSelf (a : Calc .mat) : Calc .mat
  | matSmul (a : Calc .num) (m : Calc .mat) : Calc .mat
  | matMulA (m : Calc .mat) (a : Calc .num) : Calc .mat
  | matMulEntry (m : Calc .mat) (k l : Nat) : Calc .mat
  | matDiv (m : Calc .mat) (a : Calc .num) : Calc .mat
  | matDivA (m : Calc .mat) (a : Calc .num) : Calc .mat
  | matDivEntry (m : Calc .mat) (k l : Nat) : Calc .mat
  | matMul (a b : Calc .mat) : Calc .mat
  | matMulAssign (a b : Calc .mat) : Calc .mat
  | matEq (a b : Calc .mat) : Calc .bool
  | matNe (a b : Calc .mat) : Calc .bool
  | matMinor (m : Calc .mat) (i j : Nat) : Calc .mat
  | matCofactor (m : Calc .mat) (i j : Nat) : Calc .mat
  | matRowExpansion (m : Calc .mat) : Calc .num
  | matColExpansion (m : Calc .mat) : Calc .num
  | matDet (m : Calc .mat) : Calc .num
  | matSwapRows (m : Calc .mat) (a b : Nat) : Calc .mat
  | matRref (m : Calc .mat) : Calc .mat
  | matInplaceRref (m : Calc .mat) : Calc .mat
  | matDiagonal (x : Calc .vec) (n : Nat) : Calc .mat
  | matIdentity (n : Nat) : Calc .mat
  | matAugmented (a b : Calc .mat) : Calc .mat
  | matInverse (m : Calc .mat) : Calc .mat
  | matTrace (m : Calc .mat) : Calc .num
  | matTranspose (m : Calc .mat) : Calc .mat

/-- What the variables hold. -/
def Vars (T : Type) : Type := (s : Ty) → Nat → s.Val T

/-- Changing a variable. -/
def Vars.set {T : Type} (env : Vars T) : (s : Ty) → Nat → s.Val T → Vars T
  | .num, x, v => fun s => match s with
    | .num => fun y => if y = x then v else env .num y
    | t => env t
  | .vec, x, v => fun s => match s with
    | .vec => fun y => if y = x then v else env .vec y
    | t => env t
  | .mat, x, v => fun s => match s with
    | .mat => fun y => if y = x then v else env .mat y
    | t => env t
  | .bool, x, v => fun s => match s with
    | .bool => fun y => if y = x then v else env .bool y
    | t => env t

/-- The operation of the scalar type. -/
def NumOp.run {T : Type} (S : Scalar T) : NumOp → T → T → Res T
  | add => S.add | sub => S.sub | mul => S.mul | div => S.div
  | addA => S.addA | subA => S.subA | mulA => S.mulA | divA => S.divA

/-- The outcome of a computation over the scalar type `S`. -/
def Calc.run {T : Type} (S : Scalar T) {s : Ty} (e : Calc s) (env : Vars T) : Res (s.Val T) :=
  match e with
  | .var s x => .ok (env s x)
  | .lit n _ => S.ofInt n
  | .op o x y => do o.run S (← x.run S env) (← y.run S env)
  | .neg x => do S.neg (← x.run S env)
  | .eqNum x y => do S.eq (← x.run S env) (← y.run S env)
  | .neNum x y => do S.ne (← x.run S env) (← y.run S env)
  | .not b => do return !(← b.run S env)
  | .ite b x y => do if (← b.run S env) then x.run S env else y.run S env
  | .letIn s x e body => do body.run S (env.set s x (← e.run S env))
  | .loop s x n init body => do forUp 0 n (fun _ v => body.run S (env.set s x v)) (← init.run S env)
  | .vecSize n => Vec.ofSize S n
  | .vecGet x i => do Vec.get (← x.run S env) i
  | .vecSet x i t => do Vec.set (← x.run S env) i (← t.run S env)
  | .vecSetAll x t => do Vec.setAll .ok (← x.run S env) (← t.run S env)
  | .vecSetEntries x y n => do Vec.setEntries .ok (← x.run S env) (← y.run S env) n
  | .vecOfArray x n => do Vec.ofArray .ok (← x.run S env) n
  | .vecAdd x y => do Vec.add S (← x.run S env) (← y.run S env)
  | .vecSub x y => do Vec.sub S (← x.run S env) (← y.run S env)
  | .vecSmul a x => do Vec.smul S (← a.run S env) (← x.run S env)
  | .vecDiv x a => do Vec.divScalar S (← x.run S env) (← a.run S env)
  | .vecAddA x y => do Vec.addAssign S (← x.run S env) (← y.run S env)
  | .vecSubA x y => do Vec.subAssign S (← x.run S env) (← y.run S env)
  | .vecAddSelf x => do Vec.addAssignSelf S (← x.run S env)
  | .vecSubSelf x => do Vec.subAssignSelf S (← x.run S env)
  | .vecMulA x a => do Vec.mulAssign S (← x.run S env) (← a.run S env)
  | .vecDivA x a => do Vec.divAssign S (← x.run S env) (← a.run S env)
  | .vecMulEntry x k => do Vec.mulAssignEntry S (← x.run S env) k
  | .vecDivEntry x k => do Vec.divAssignEntry S (← x.run S env) k
  | .vecEq x y => do Vec.eq S (← x.run S env) (← y.run S env)
  | .vecNe x y => do Vec.ne S (← x.run S env) (← y.run S env)
  | .vecConst n a => do Vec.constantVec S n (← a.run S env)
  | .vecDot x y => do Vec.dot S (← x.run S env) (← y.run S env)
  | .vecCross x y => do Vec.cross S (← x.run S env) (← y.run S env)
  | .vecTriple x y z => do Vec.scalarTriple S (← x.run S env) (← y.run S env) (← z.run S env)
  | .vecVTriple x y z => do Vec.vectorTriple S (← x.run S env) (← y.run S env) (← z.run S env)
  | .vecCat x y => do Vec.concatenate S (← x.run S env) (← y.run S env)
  | .matNew r c => .ok (Mat.alloc r c)
  | .matFill r c a => do Mat.filled r c (← a.run S env)
  | .matOfArray x r c => do Mat.ofArray (← x.run S env) r c
  | .matSetEntries m x n => do Mat.setEntries (← m.run S env) (← x.run S env) n
  | .matSetAll m a => do Mat.setAll (← m.run S env) (← a.run S env)
  | .matGet m i j => do Mat.get (← m.run S env) i j
  | .matSet m i j t => do Mat.set (← m.run S env) i j (← t.run S env)
  | .matCopy m => do Mat.copy (← m.run S env)
  | .matNeg m => do Mat.neg S (← m.run S env)
  | .matAdd a b => do Mat.add S (← a.run S env) (← b.run S env)
  | .matSub a b => do Mat.sub S (← a.run S env) (← b.run S env)
  | .matAddA a b => do Mat.addAssign S (← a.run S env) (← b.run S env)
  | .matSubA a b => do Mat.subAssign S (← a.run S env) (← b.run S env)
  | .matAddSelf a => do Mat.addAssignSelf S (← a.run S env)
  | .matSubSelf a => do Mat.subAssignSelf S (← a.run S env)
  | .matSmul a m => do Mat.smul S (← a.run S env) (← m.run S env)
  | .matMulA m a => do Mat.mulAssignScalar S (← m.run S env) (← a.run S env)
  | .matMulEntry m k l => do Mat.mulAssignEntry S (← m.run S env) k l
  | .matDiv m a => do Mat.divScalar S (← m.run S env) (← a.run S env)
  | .matDivA m a => do Mat.divAssignScalar S (← m.run S env) (← a.run S env)
  | .matDivEntry m k l => do Mat.divAssignEntry S (← m.run S env) k l
  | .matMul a b => do Mat.mul S (← a.run S env) (← b.run S env)
  | .matMulAssign a b => do Mat.mulAssign S (← a.run S env) (← b.run S env)
  | .matEq a b => do Mat.eq S (← a.run S env) (← b.run S env)
  | .matNe a b => do Mat.ne S (← a.run S env) (← b.run S env)
  | .matMinor m i j => do Mat.firstMinor (← m.run S env) i j
  | .matCofactor m i j => do Mat.cofactor S (← m.run S env) i j
  | .matRowExpansion m => do Mat.rowCofactor S (← m.run S env)
  | .matColExpansion m => do Mat.colCofactor S (← m.run S env)
  | .matDet m => do Mat.determinant S (← m.run S env)
  | .matSwapRows m a b => do Mat.swapRows (← m.run S env) a b
  | .matRref m => do Mat.rref S (← m.run S env)
  | .matInplaceRref m => do Mat.inplaceRref S (← m.run S env)
  | .matDiagonal x n => do Mat.diagonalMatrix S (← x.run S env) n
  | .matIdentity n => Mat.identityMatrix S n
  | .matAugmented a b => do Mat.augmentedMatrix (← a.run S env) (← b.run S env)
  | .matInverse m => do Mat.inverse S (← m.run S env)
  | .matTrace m => do Mat.trace S (← m.run S env)
  | .matTranspose m => do Mat.transpose (← m.run S env)

/-- The computation divides somewhere. -/
def Calc.divides {s : Ty} : Calc s → Bool
  | .var _ _ | .lit _ _ | .vecSize _ | .matNew _ _ | .matIdentity _ => false
  | .op o x y => (match o with | .div | .divA => true | _ => false) || x.divides || y.divides
  | .neg x | .not x | .vecGet x _ | .vecOfArray x _ | .vecAddSelf x | .vecSubSelf x | .vecMulEntry x _ | .vecConst _ x
  | .matFill _ _ x | .matOfArray x _ _ | .matGet x _ _ | .matCopy x | .matNeg x | .matAddSelf x | .matSubSelf x | .matMulEntry x _ _
  | .matMinor x _ _ | .matCofactor x _ _ | .matRowExpansion x | .matColExpansion x | .matSwapRows x _ _ | .matDiagonal x _
  | .matTrace x | .matTranspose x => x.divides
  | .eqNum x y | .neNum x y | .vecSet x _ y | .vecSetAll x y | .vecSetEntries x y _ | .vecAdd x y | .vecSub x y | .vecSmul x y | .vecAddA x y
  | .vecSubA x y | .vecMulA x y | .vecEq x y | .vecNe x y | .vecDot x y | .vecCross x y | .vecCat x y | .matSetEntries x y _
  | .matSetAll x y | .matSet x _ _ y | .matAdd x y | .matSub x y | .matAddA x y | .matSubA x y | .matSmul x y | .matMulA x y
  | .matMul x y | .matMulAssign x y | .matEq x y | .matNe x y | .matAugmented x y => x.divides || y.divides
  | .letIn _ _ x y => x.divides || y.divides
  | .loop _ _ _ x y => x.divides || y.divides
  | .ite x y z => x.divides || y.divides || z.divides
  | .vecTriple x y z | .vecVTriple x y z => x.divides || y.divides || z.divides
  | .vecDiv _ _ | .vecDivA _ _ | .vecDivEntry _ _ | .matDiv _ _ | .matDivA _ _ | .matDivEntry _ _ _ | .matDet _ | .matRref _
  | .matInplaceRref _ | .matInverse _ => true

/-- The computation uses `*=` of the scalar type somewhere: the determinant does, and the multiple of a vector. -/
def Calc.scales {s : Ty} : Calc s → Bool
  | .var _ _ | .lit _ _ | .vecSize _ | .matNew _ _ | .matIdentity _ => false
  | .op o x y => (match o with | .mulA => true | _ => false) || x.scales || y.scales
  | .neg x | .not x | .vecGet x _ | .vecOfArray x _ | .vecAddSelf x | .vecSubSelf x | .vecDivEntry x _ | .vecConst _ x
  | .matFill _ _ x | .matOfArray x _ _ | .matGet x _ _ | .matCopy x | .matNeg x | .matAddSelf x | .matSubSelf x | .matDivEntry x _ _
  | .matMinor x _ _ | .matCofactor x _ _ | .matRowExpansion x | .matColExpansion x | .matSwapRows x _ _ | .matDiagonal x _
  | .matTrace x | .matTranspose x | .matRref x | .matInplaceRref x | .matInverse x => x.scales
  | .eqNum x y | .neNum x y | .vecSet x _ y | .vecSetAll x y | .vecSetEntries x y _ | .vecAdd x y | .vecSub x y | .vecDiv x y | .vecAddA x y
  | .vecSubA x y | .vecDivA x y | .vecEq x y | .vecNe x y | .vecDot x y | .vecCross x y | .vecCat x y | .matSetEntries x y _
  | .matSetAll x y | .matSet x _ _ y | .matAdd x y | .matSub x y | .matAddA x y | .matSubA x y | .matSmul x y | .matDiv x y | .matDivA x y
  | .matMul x y | .matMulAssign x y | .matEq x y | .matNe x y | .matAugmented x y => x.scales || y.scales
  | .letIn _ _ x y => x.scales || y.scales
  | .loop _ _ _ x y => x.scales || y.scales
  | .ite x y z => x.scales || y.scales || z.scales
  | .vecTriple x y z | .vecVTriple x y z => x.scales || y.scales || z.scales
  | .vecSmul _ _ | .vecMulA _ _ | .vecMulEntry _ _ | .matMulA _ _ | .matMulEntry _ _ _ | .matDet _ => true

/-- The computation uses unary minus of the scalar type somewhere. -/
def Calc.negates {s : Ty} : Calc s → Bool
  | .var _ _ | .lit _ _ | .vecSize _ | .matNew _ _ | .matIdentity _ => false
  | .op _ x y => x.negates || y.negates
  | .not x | .vecGet x _ | .vecOfArray x _ | .vecAddSelf x | .vecSubSelf x | .vecDivEntry x _ | .vecConst _ x
  | .matFill _ _ x | .matOfArray x _ _ | .matGet x _ _ | .matCopy x | .matAddSelf x | .matSubSelf x | .matDivEntry x _ _
  | .matMinor x _ _ | .matRowExpansion x | .matColExpansion x | .matSwapRows x _ _ | .matDiagonal x _
  | .matTrace x | .matTranspose x | .matRref x | .matInplaceRref x | .matInverse x => x.negates
  | .eqNum x y | .neNum x y | .vecSet x _ y | .vecSetAll x y | .vecSetEntries x y _ | .vecAdd x y | .vecSub x y | .vecDiv x y | .vecAddA x y
  | .vecSubA x y | .vecDivA x y | .vecEq x y | .vecNe x y | .vecDot x y | .vecCross x y | .vecCat x y | .matSetEntries x y _
  | .matSetAll x y | .matSet x _ _ y | .matAdd x y | .matSub x y | .matAddA x y | .matSubA x y | .matSmul x y | .matDiv x y | .matDivA x y
  | .matMul x y | .matMulAssign x y | .matEq x y | .matNe x y | .matAugmented x y => x.negates || y.negates
  | .letIn _ _ x y => x.negates || y.negates
  | .loop _ _ _ x y => x.negates || y.negates
  | .ite x y z => x.negates || y.negates || z.negates
  | .vecTriple x y z | .vecVTriple x y z => x.negates || y.negates || z.negates
  | .vecSmul x y | .vecMulA x y | .matMulA x y => x.negates || y.negates
  | .vecMulEntry x _ | .matMulEntry x _ _ | .matDet x => x.negates
  | .neg _ | .matNeg _ | .matCofactor _ _ _ => true

/-! ### Whole numbers -/

/-- An integer and an `Int` with this value, possibly with leading zero bins or a negative zero. -/
def AsInt (z : Int) (x : BigInt) : Prop := IntWFRel x z
/-- An integer and the canonical `Int` with this value. -/
def AsCanon (z : Int) (x : BigInt) : Prop := IntRel x z
/-- An integer as an element of a field. -/
def AsNum {K : Type} [Field K] (z : Int) (q : K) : Prop := q = z
/-- An integer and a `double` with this value; `0` may have either sign. -/
def AsDouble (z : Int) (d : Double) : Prop := d.Denotes z

/-- Arithmetic of whole numbers as on paper, which gives up (with `ub`) when a number is not in the range `ok` or a quotient
is not a whole number. -/
def Scalar.whole (ok : Int → Bool) : Scalar Int :=
  let fit := fun z : Int => if ok z then (.ok z : Res Int) else .error .ub
  let quot := fun x y : Int => if y ≠ 0 ∧ y ∣ x then fit (x / y) else .error .ub
  { ofInt := fit
    add := fun x y => fit (x + y)
    sub := fun x y => fit (x - y)
    mul := fun x y => fit (x * y)
    div := quot
    neg := fun x => fit (-x)
    addA := fun x y => fit (x + y)
    subA := fun x y => fit (x - y)
    mulA := fun x y => fit (x * y)
    divA := quot
    eq := fun x y => .ok (decide (x = y))
    ne := fun x y => .ok (decide (x ≠ y)) }

end CppMaths
