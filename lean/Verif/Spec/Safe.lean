import Verif.Spec.Linear
/-!
# Scalar types about whose arithmetic nothing is known

`S.Closed P A`: operations on values with property `P` return values with property `P`, or fail in a way that `A` allows. Nothing is said
about which values they return, so that `double` with infinities and NaN, or truncating integer division, are included.
-/

namespace CppMaths

/-- The operations keep `P` or fail with a failure in `A`. -/
structure Scalar.Closed {T : Type} (S : Scalar T) (P : T → Prop) (A : Err → Prop) : Prop where
  ofInt : ∀ n : Int, n = 0 ∨ n = 1 ∨ n = -1 → Out A (S.ofInt n) P
  add : ∀ {x y}, P x → P y → Out A (S.add x y) P
  sub : ∀ {x y}, P x → P y → Out A (S.sub x y) P
  mul : ∀ {x y}, P x → P y → Out A (S.mul x y) P
  div : ∀ {x y}, P x → P y → Out A (S.div x y) P
  neg : ∀ {x}, P x → Out A (S.neg x) P
  addA : ∀ {x y}, P x → P y → Out A (S.addA x y) P
  subA : ∀ {x y}, P x → P y → Out A (S.subA x y) P
  mulA : ∀ {x y}, P x → P y → Out A (S.mulA x y) P
  divA : ∀ {x y}, P x → P y → Out A (S.divA x y) P
  eq : ∀ {x y}, P x → P y → Out A (S.eq x y) (fun _ => True)
  ne : ∀ {x y}, P x → P y → Out A (S.ne x y) (fun _ => True)

/-- An `r × c` matrix object with a buffer of the right size, all of whose entries are initialised and have property `P`. -/
def Mat.All {T : Type} (P : T → Prop) (r c : Nat) (m : Mat T) : Prop :=
  m.rows = r ∧ m.cols = c ∧ m.data.length = r * c ∧ ∀ o ∈ m.data, ∃ t, o = some t ∧ P t

/-- `A`, or `std::domain_error`. -/
def OrDomain (A : Err → Prop) : Err → Prop := fun e => A e ∨ e = .domainError

/-- `n` entries with property `P`. -/
def Vec.All {T : Type} (P : T → Prop) (n : Nat) (x : List T) : Prop := x.length = n ∧ ∀ t ∈ x, P t

/-- The failures of `Int` arithmetic. -/
def IntFails : Err → Prop := fun e => e = .divideByZero ∨ e = .assertion

end CppMaths
