import Mathlib.Data.Matrix.Mul
/-!
# Specification: reduced row echelon form

The textbook definitions, for matrices of Mathlib.
-/

namespace CppMaths
variable {K : Type}

/-- The first nonzero entry of row `i` is in column `j`. -/
def Leads [Zero K] {r c : Nat} (M : Matrix (Fin r) (Fin c) K) (i : Fin r) (j : Fin c) : Prop :=
  M i j ≠ 0 ∧ ∀ j' < j, M i j' = 0

/-- Reduced row echelon form: every leading entry is 1 and the only nonzero entry of its column, and below a row without
leading entry or with leading entry in column `j` there are only rows that are zero or whose leading entry is further
to the right. -/
structure IsRref [Zero K] [One K] {r c : Nat} (M : Matrix (Fin r) (Fin c) K) : Prop where
  one : ∀ {i j}, Leads M i j → M i j = 1
  alone : ∀ {i j i'}, Leads M i j → i' ≠ i → M i' j = 0
  stairs : ∀ {i i' j'}, i < i' → Leads M i' j' → ∃ j < j', Leads M i j

/-- `N` comes from `M` by multiplication with an invertible matrix from the left, that is by row operations. -/
def RowEquiv [CommRing K] {r c : Nat} (M N : Matrix (Fin r) (Fin c) K) : Prop :=
  ∃ P Q : Matrix (Fin r) (Fin r) K, P * Q = 1 ∧ Q * P = 1 ∧ N = P * M

end CppMaths
