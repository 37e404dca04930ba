import Verif.Model.Vec
import Verif.Model.Mat
import Verif.Spec.Frac
import Mathlib.Data.Matrix.Basic
/-!
# Specification vocabulary for `Vec` and `Mat`

What it means that a scalar type computes in a commutative ring or field `K`, that a `Vec` stands for a vector over `K`
and that a `Mat` stands for a matrix over `K`.
-/

namespace CppMaths

/-- The call returns a value with property `P`, or it fails in a way that `A` allows. With `A = Never` this says that the
call returns. -/
def Out {α : Type} (A : Err → Prop) (r : Res α) (P : α → Prop) : Prop :=
  (∃ a, r = .ok a ∧ P a) ∨ (∃ e, r = .error e ∧ A e)

/-- No failure is allowed. -/
def Never : Err → Prop := fun _ => False

/-- Only a failed assertion (the process aborts) is allowed. -/
def Aborts : Err → Prop := fun e => e = .assertion

/-- The ring operations of the scalar type compute in `K`. `rel t k` reads: the object `t` stands for `k`. `A` holds the
failures that the scalar operations may end in. -/
structure Scalar.ExactRing {T K : Type} [CommRing K] (S : Scalar T) (rel : T → K → Prop) (A : Err → Prop) : Prop where
  ofInt : ∀ n : Int, n = 0 ∨ n = 1 ∨ n = -1 → Out A (S.ofInt n) (fun t => rel t (n : K))
  add : ∀ {x y a b}, rel x a → rel y b → Out A (S.add x y) (fun t => rel t (a + b))
  sub : ∀ {x y a b}, rel x a → rel y b → Out A (S.sub x y) (fun t => rel t (a - b))
  mul : ∀ {x y a b}, rel x a → rel y b → Out A (S.mul x y) (fun t => rel t (a * b))
  addA : ∀ {x y a b}, rel x a → rel y b → Out A (S.addA x y) (fun t => rel t (a + b))
  subA : ∀ {x y a b}, rel x a → rel y b → Out A (S.subA x y) (fun t => rel t (a - b))
  eq : ∀ {x y a b}, rel x a → rel y b → Out A (S.eq x y) (fun r => r = true ↔ a = b)
  ne : ∀ {x y a b}, rel x a → rel y b → Out A (S.ne x y) (fun r => r = true ↔ a ≠ b)

/-- Unary minus computes in `K`. -/
def Scalar.ExactNeg {T K : Type} [CommRing K] (S : Scalar T) (rel : T → K → Prop) (A : Err → Prop) : Prop :=
  ∀ {x a}, rel x a → Out A (S.neg x) (fun t => rel t (-a))

/-- `*=` computes in `K`. -/
def Scalar.ExactMulA {T K : Type} [CommRing K] (S : Scalar T) (rel : T → K → Prop) (A : Err → Prop) : Prop :=
  ∀ {x y a b}, rel x a → rel y b → Out A (S.mulA x y) (fun t => rel t (a * b))

/-- `/` computes in the field `K` as long as the divisor is not zero. -/
def Scalar.ExactDiv {T K : Type} [Field K] (S : Scalar T) (rel : T → K → Prop) (A : Err → Prop) : Prop :=
  ∀ {x y a b}, rel x a → rel y b → b ≠ 0 → Out A (S.div x y) (fun t => rel t (a / b))

/-- `/=` computes in the field `K` as long as the divisor is not zero. -/
def Scalar.ExactDivA {T K : Type} [Field K] (S : Scalar T) (rel : T → K → Prop) (A : Err → Prop) : Prop :=
  ∀ {x y a b}, rel x a → rel y b → b ≠ 0 → Out A (S.divA x y) (fun t => rel t (a / b))

/-- All operations of the scalar type compute in the field `K`. -/
structure Scalar.ExactField {T K : Type} [Field K] (S : Scalar T) (rel : T → K → Prop) (A : Err → Prop) : Prop
    extends S.ExactRing rel A where
  neg : S.ExactNeg rel A
  mulA : S.ExactMulA rel A
  div : S.ExactDiv rel A
  divA : S.ExactDivA rel A

/-- `/` is exact when the quotient of two integers is an integer. -/
def Scalar.ExactWhole {T : Type} (S : Scalar T) (rel : T → ℤ → Prop) (A : Err → Prop) : Prop :=
  ∀ {x y a b}, rel x (a * b) → rel y b → b ≠ 0 → Out A (S.div x y) (fun t => rel t a)

/-- An `Int` object stands for its value. -/
def IntRel (x : BigInt) (z : ℤ) : Prop := BigInt.Canon x ∧ x.val = z

/-- A well-formed `Int` object, possibly with leading zero bins or a negative zero, stands for its value. -/
def IntWFRel (x : BigInt) (z : ℤ) : Prop := BigInt.WF x ∧ x.val = z

/-- A `Frac` object in lowest terms stands for its value. -/
def FracRel (x : Frac) (q : ℚ) : Prop := x.Valid ∧ x.value = q

/-- The `Vec` object `x` stands for the vector `f`. -/
def Vec.Is {T K : Type} (rel : T → K → Prop) (x : List T) {n : Nat} (f : Fin n → K) : Prop :=
  x.length = n ∧ ∀ i : Fin n, ∃ t, x[i.val]? = some t ∧ rel t (f i)

/-- The `Mat` object `m` is fully initialised and stands for the matrix `M` (stored row by row). -/
def Mat.Is {T K : Type} (rel : T → K → Prop) (m : Mat T) {r c : Nat} (M : Matrix (Fin r) (Fin c) K) : Prop :=
  m.rows = r ∧ m.cols = c ∧ m.data.length = r * c ∧
    ∀ (i : Fin r) (j : Fin c), ∃ t, m.data[i.val * c + j.val]? = some (some t) ∧ rel t (M i j)

end CppMaths
