import Verif.Spec.Rref
/-!
# Specification: matrices beside each other
-/

namespace CppMaths

/-- The matrix `(M | B)`. -/
def beside {K : Type} {r c d : Nat} (M : Matrix (Fin r) (Fin c) K) (B : Matrix (Fin r) (Fin d) K) : Matrix (Fin r) (Fin (c + d)) K :=
  Matrix.of fun i => Fin.append (M i) (B i)

end CppMaths
