import Verif.Model.MatCost
import Verif.Spec.Linear
/-!
# Vocabulary of the statements about running times
-/

namespace CppMaths

/-- The call returns a value with property `V` or fails; it does not run forever. -/
abbrev Stops {α : Type} (r : Res α) (V : α → Prop) : Prop := Out (fun e => e ≠ .diverge) r V

/-- On proper values, those with property `V`, the operations of the scalar type give proper values or fail. They do not run forever. -/
structure Scalar.Halts {T : Type} (S : Scalar T) (V : T → Prop) : Prop where
  ofInt : ∀ n : Int, n = 0 ∨ n = 1 ∨ n = -1 → Stops (S.ofInt n) V
  sub : ∀ {x y}, V x → V y → Stops (S.sub x y) V
  mul : ∀ {x y}, V x → V y → Stops (S.mul x y) V
  div : ∀ {x y}, V x → V y → Stops (S.div x y) V
  addA : ∀ {x y}, V x → V y → Stops (S.addA x y) V
  subA : ∀ {x y}, V x → V y → Stops (S.subA x y) V
  mulA : ∀ {x y}, V x → V y → Stops (S.mulA x y) V
  divA : ∀ {x y}, V x → V y → Stops (S.divA x y) V
  eq : ∀ {x y}, V x → V y → Stops (S.eq x y) (fun _ => True)
  ne : ∀ {x y}, V x → V y → Stops (S.ne x y) (fun _ => True)

/-- All entries that have been set are proper. -/
def Mat.Proper {T : Type} (V : T → Prop) (m : Mat T) : Prop := ∀ t, some t ∈ m.data → V t

/-- The counted computation `x` does what `r` does, does not run forever, and takes at most `b` steps. -/
structure Cost.Within {α : Type} (x : Cost α) (r : Res α) (b : Nat) : Prop where
  same : x.res = r
  halts : r ≠ .error .diverge
  steps : x.steps ≤ b

end CppMaths
