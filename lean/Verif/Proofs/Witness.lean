import Verif.Proofs.ScalarInst
import Mathlib.LinearAlgebra.Matrix.Notation
import Mathlib.Tactic.FinCases
/-!
# Concrete objects for the examples

Matrices and vectors over the rationals, `Int` and `Frac` to which the property theorems are applied in the examples beside them.
-/

namespace CppMaths.Ex
open BigInt

/-- Equality as the relation between an object of an exact field type and the field element. -/
abbrev Same {K : Type} : K → K → Prop := fun t k => t = k

/-- The exact field type of rationals. -/
theorem rat : (Scalar.field ℚ).ExactField Same Never := exactField_field ℚ

/-- (1 -2; 3 1/2) -/
def a : Mat ℚ := ⟨2, 2, [some 1, some (-2), some 3, some (1 / 2)]⟩
abbrev aM : Matrix (Fin 2) (Fin 2) ℚ := !![1, -2; 3, 1 / 2]
theorem a_is : Mat.Is Same a aM := ⟨rfl, rfl, rfl, fun i j => by fin_cases i <;> fin_cases j <;> exact ⟨_, rfl, rfl⟩⟩

/-- (0 5; -1 4) -/
def b : Mat ℚ := ⟨2, 2, [some 0, some 5, some (-1), some 4]⟩
abbrev bM : Matrix (Fin 2) (Fin 2) ℚ := !![0, 5; -1, 4]
theorem b_is : Mat.Is Same b bM := ⟨rfl, rfl, rfl, fun i j => by fin_cases i <;> fin_cases j <;> exact ⟨_, rfl, rfl⟩⟩

/-- (0 2 4; 3 3 9) -/
def c : Mat ℚ := ⟨2, 3, [some 0, some 2, some 4, some 3, some 3, some 9]⟩
abbrev cM : Matrix (Fin 2) (Fin 3) ℚ := !![0, 2, 4; 3, 3, 9]
theorem c_is : Mat.Is Same c cM := ⟨rfl, rfl, rfl, fun i j => by fin_cases i <;> fin_cases j <;> exact ⟨_, rfl, rfl⟩⟩

/-- (0 2 1; 3 1 1; 1 1 5), with determinant -26 -/
def d : Mat ℚ := ⟨3, 3, [some 0, some 2, some 1, some 3, some 1, some 1, some 1, some 1, some 5]⟩
abbrev dM : Matrix (Fin 3) (Fin 3) ℚ := !![0, 2, 1; 3, 1, 1; 1, 1, 5]
theorem d_is : Mat.Is Same d dM := ⟨rfl, rfl, rfl, fun i j => by fin_cases i <;> fin_cases j <;> exact ⟨_, rfl, rfl⟩⟩

/-- The singular matrix (1 2 3; 2 4 6; 1 2 5) -/
def s : Mat ℚ := ⟨3, 3, [some 1, some 2, some 3, some 2, some 4, some 6, some 1, some 2, some 5]⟩
abbrev sM : Matrix (Fin 3) (Fin 3) ℚ := !![1, 2, 3; 2, 4, 6; 1, 2, 5]
theorem s_is : Mat.Is Same s sM := ⟨rfl, rfl, rfl, fun i j => by fin_cases i <;> fin_cases j <;> exact ⟨_, rfl, rfl⟩⟩

/-- The column (5; 11) -/
def v : Mat ℚ := ⟨2, 1, [some 5, some 11]⟩
abbrev vM : Matrix (Fin 2) (Fin 1) ℚ := !![5; 11]
theorem v_is : Mat.Is Same v vM := ⟨rfl, rfl, rfl, fun i j => by fin_cases i <;> fin_cases j <;> exact ⟨_, rfl, rfl⟩⟩

/-- A matrix of `Int`: (2 0 -1; 1000000000 3 0; 1 0 1), with determinant 9 -/
def z : Mat BigInt := ⟨3, 3, [some ⟨[2], false⟩, some ⟨[0], false⟩, some ⟨[1], true⟩, some ⟨[0, 1], false⟩, some ⟨[3], false⟩,
  some ⟨[0], false⟩, some ⟨[1], false⟩, some ⟨[0], false⟩, some ⟨[1], false⟩]⟩
abbrev zM : Matrix (Fin 3) (Fin 3) ℤ := !![2, 0, -1; 1000000000, 3, 0; 1, 0, 1]
theorem z_is : Mat.Is IntRel z zM :=
  ⟨rfl, rfl, rfl, fun i j => by fin_cases i <;> fin_cases j <;> exact ⟨_, rfl, by decide, by decide⟩⟩

/-- Vectors over the rationals. -/
def x : List ℚ := [1, 2, 3]
abbrev xf : Fin 3 → ℚ := ![1, 2, 3]
theorem x_is : Vec.Is Same x xf := ⟨rfl, fun i => by fin_cases i <;> exact ⟨_, rfl, rfl⟩⟩
def y : List ℚ := [4, 5, 7]
abbrev yf : Fin 3 → ℚ := ![4, 5, 7]
theorem y_is : Vec.Is Same y yf := ⟨rfl, fun i => by fin_cases i <;> exact ⟨_, rfl, rfl⟩⟩
def w : List ℚ := [1 / 2, -3]
abbrev wf : Fin 2 → ℚ := ![1 / 2, -3]
theorem w_is : Vec.Is Same w wf := ⟨rfl, fun i => by fin_cases i <;> exact ⟨_, rfl, rfl⟩⟩

/-- A vector of `Int`: (-1000000005, 7) -/
def u : List BigInt := [⟨[5, 1], true⟩, ⟨[7], false⟩]
abbrev uf : Fin 2 → ℤ := ![-1000000005, 7]
theorem u_is : Vec.Is IntRel u uf := ⟨rfl, fun i => by fin_cases i <;> exact ⟨_, rfl, by decide, by decide⟩⟩

/-- The fractions 1/2, -3 and 0. -/
def half : Frac := ⟨⟨[1], false⟩, ⟨[2], false⟩⟩
theorem half_rel : FracRel half (1 / 2) := ⟨by decide, by norm_num [half, Frac.value, BigInt.val, BigInt.mag]⟩
def minus3 : Frac := ⟨⟨[3], true⟩, ⟨[1], false⟩⟩
theorem minus3_rel : FracRel minus3 (-3) := ⟨by decide, by norm_num [minus3, Frac.value, BigInt.val, BigInt.mag]⟩
def zero : Frac := ⟨⟨[0], false⟩, ⟨[1], false⟩⟩
theorem zero_rel : FracRel zero 0 := ⟨by decide, by norm_num [zero, Frac.value, BigInt.val, BigInt.mag]⟩

/-- Vectors and matrices of fractions. -/
def p : List Frac := [half, minus3, zero]
abbrev pf : Fin 3 → ℚ := ![1 / 2, -3, 0]
theorem p_is : Vec.Is FracRel p pf := by
  refine ⟨rfl, fun i => ?_⟩
  fin_cases i
  · exact ⟨_, rfl, half_rel⟩
  · exact ⟨_, rfl, minus3_rel⟩
  · exact ⟨_, rfl, zero_rel⟩
def q : List Frac := [minus3, half, half]
abbrev qf : Fin 3 → ℚ := ![-3, 1 / 2, 1 / 2]
theorem q_is : Vec.Is FracRel q qf := by
  refine ⟨rfl, fun i => ?_⟩
  fin_cases i
  · exact ⟨_, rfl, minus3_rel⟩
  · exact ⟨_, rfl, half_rel⟩
  · exact ⟨_, rfl, half_rel⟩
def m : Mat Frac := ⟨2, 2, [some half, some minus3, some zero, some half]⟩
abbrev mM : Matrix (Fin 2) (Fin 2) ℚ := !![1 / 2, -3; 0, 1 / 2]
theorem m_is : Mat.Is FracRel m mM := by
  refine ⟨rfl, rfl, rfl, fun i j => ?_⟩
  fin_cases i <;> fin_cases j
  · exact ⟨_, rfl, half_rel⟩
  · exact ⟨_, rfl, minus3_rel⟩
  · exact ⟨_, rfl, zero_rel⟩
  · exact ⟨_, rfl, half_rel⟩

theorem never (e : Err) : ¬Never e := fun h => h

end CppMaths.Ex
