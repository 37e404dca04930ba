import Mathlib.LinearAlgebra.Matrix.Adjugate
import Mathlib.LinearAlgebra.Matrix.ToLinearEquiv
import Mathlib.Algebra.Order.BigOperators.Group.Finset
import Mathlib.Algebra.Order.Field.Rat
import Mathlib.Tactic.Linarith
import Mathlib.Tactic.Positivity
import Mathlib.Tactic.FieldSimp
import Mathlib.Tactic.NormNum
/-!
# Matrices dominated by their diagonal

How elimination, and elimination with small errors, changes a matrix in which every diagonal entry is larger than the rest of its
column together.
-/

namespace CppMaths
namespace Dominant
open Finset Matrix

variable {m : Nat}

/-- By how much the diagonal entry of column `j` exceeds the rest of the column. -/
def margin (A : Matrix (Fin m) (Fin m) ℚ) (j : Fin m) : ℚ := |A j j| - ∑ i ∈ univ.erase j, |A i j|

/-- The sum of the absolute values in column `j`. -/
def colSum (A : Matrix (Fin m) (Fin m) ℚ) (j : Fin m) : ℚ := ∑ i, |A i j|

theorem colSum_eq (A : Matrix (Fin m) (Fin m) ℚ) (j : Fin m) : colSum A j = |A j j| + ∑ i ∈ univ.erase j, |A i j| :=
  (Finset.add_sum_erase univ (fun i => |A i j|) (mem_univ j)).symm

theorem margin_le_diag (A : Matrix (Fin m) (Fin m) ℚ) (j : Fin m) : margin A j ≤ |A j j| := by
  have : 0 ≤ ∑ i ∈ univ.erase j, |A i j| := Finset.sum_nonneg fun _ _ => abs_nonneg _
  unfold margin; linarith

theorem diag_le_colSum (A : Matrix (Fin m) (Fin m) ℚ) (i j : Fin m) : |A i j| ≤ colSum A j :=
  Finset.single_le_sum (f := fun i => |A i j|) (fun _ _ => abs_nonneg _) (mem_univ i)

/-- A row vector that is mapped to a multiple of a unit vector. -/
theorem row_bound {A : Matrix (Fin m) (Fin m) ℚ} (hA : ∀ j, 0 < margin A j) {x : Fin m → ℚ} {j : Fin m} {c : ℚ}
    (h : x ᵥ* A = Pi.single j c) (i : Fin m) : |x i| * margin A j ≤ |c| := by
  obtain ⟨k, -, hk⟩ := Finset.exists_max_image univ (fun i => |x i|) ⟨j, mem_univ j⟩
  have h1 : x k * A k k + ∑ i ∈ univ.erase k, x i * A i k = (Pi.single j c : Fin m → ℚ) k := by
    rw [Finset.add_sum_erase univ (fun i => x i * A i k) (mem_univ k), ← h]
    rfl
  have h2 : |∑ i ∈ univ.erase k, x i * A i k| ≤ |x k| * ∑ i ∈ univ.erase k, |A i k| := by
    rw [Finset.mul_sum]
    refine (Finset.abs_sum_le_sum_abs _ _).trans (Finset.sum_le_sum fun i _ => ?_)
    rw [abs_mul]
    exact mul_le_mul_of_nonneg_right (hk i (mem_univ i)) (abs_nonneg _)
  have h3 : |x k| * |A k k| ≤ |(Pi.single j c : Fin m → ℚ) k| + |x k| * ∑ i ∈ univ.erase k, |A i k| := by
    rw [← abs_mul, ← h1]
    refine le_trans ?_ (add_le_add_right h2 _)
    have := abs_sub_abs_le_abs_sub (x k * A k k) (-∑ i ∈ univ.erase k, x i * A i k)
    rw [sub_neg_eq_add, abs_neg] at this
    linarith
  have h4 : |x k| * margin A k ≤ |(Pi.single j c : Fin m → ℚ) k| := by unfold margin; linarith
  by_cases hkj : k = j
  · subst hkj
    rw [Pi.single_eq_same] at h4
    exact (mul_le_mul_of_nonneg_right (hk i (mem_univ i)) (hA k).le).trans h4
  · rw [Pi.single_eq_of_ne hkj, abs_zero] at h4
    have h5 : |x k| ≤ 0 := by
      by_contra h
      have := mul_pos (not_le.mp h) (hA k)
      linarith
    have h6 : |x i| = 0 := le_antisymm ((hk i (mem_univ i)).trans h5) (abs_nonneg _)
    rw [h6, zero_mul]
    exact abs_nonneg c

theorem det_ne_zero {A : Matrix (Fin m) (Fin m) ℚ} (hA : ∀ j, 0 < margin A j) : A.det ≠ 0 := by
  intro h
  obtain ⟨v, hv, h0⟩ := Matrix.exists_vecMul_eq_zero_iff.mpr h
  apply hv
  funext i
  have h1 := row_bound hA (x := v) (j := i) (c := 0) (by rw [h0, Pi.single_zero]) i
  rw [abs_zero] at h1
  by_contra h2
  have := mul_pos (abs_pos.mpr h2) (hA i)
  linarith

/-- Replacing a column. -/
theorem det_updateCol_le {A : Matrix (Fin m) (Fin m) ℚ} (hA : ∀ j, 0 < margin A j) (j : Fin m) (f : Fin m → ℚ) :
    |(A.updateCol j f).det| * margin A j ≤ (∑ i, |f i|) * |A.det| := by
  have h1 : (fun i => A.adjugate j i) ᵥ* A = Pi.single j A.det := by
    funext k
    have := congrFun (congrFun (Matrix.adjugate_mul A) j) k
    rw [Matrix.smul_apply, Matrix.one_apply, smul_eq_mul, mul_ite, mul_one, mul_zero] at this
    rw [Pi.single_apply]
    simp only [eq_comm (a := k)]
    exact this
  have h2 : (A.updateCol j f).det = ∑ i, A.adjugate j i * f i := by
    rw [← Matrix.cramer_apply, Matrix.cramer_eq_adjugate_mulVec]
    rfl
  rw [h2]
  calc |∑ i, A.adjugate j i * f i| * margin A j ≤ (∑ i, |A.adjugate j i * f i|) * margin A j :=
        mul_le_mul_of_nonneg_right (Finset.abs_sum_le_sum_abs _ _) (hA j).le
    _ = ∑ i, |f i| * (|A.adjugate j i| * margin A j) := by
        rw [Finset.sum_mul]; exact Finset.sum_congr rfl fun i _ => by rw [abs_mul]; ring
    _ ≤ ∑ i, |f i| * |A.det| := Finset.sum_le_sum fun i _ => mul_le_mul_of_nonneg_left (row_bound hA h1 i) (abs_nonneg _)
    _ = (∑ i, |f i|) * |A.det| := by rw [Finset.sum_mul]

theorem margin_add {A E : Matrix (Fin m) (Fin m) ℚ} {j : Fin m} : margin A j - ∑ i, |E i j| ≤ margin (fun i j => A i j + E i j) j := by
  unfold margin
  rw [← Finset.add_sum_erase univ (fun i => |E i j|) (mem_univ j)]
  have h1 : |A j j| - |E j j| ≤ |A j j + E j j| := by
    have := abs_sub_abs_le_abs_sub (A j j) (-E j j)
    rwa [sub_neg_eq_add, abs_neg] at this
  have h2 : ∑ i ∈ univ.erase j, |A i j + E i j| ≤ ∑ i ∈ univ.erase j, |A i j| + ∑ i ∈ univ.erase j, |E i j| := by
    rw [← Finset.sum_add_distrib]
    exact Finset.sum_le_sum fun i _ => abs_add_le _ _
  linarith

/-- A small change of every column changes the determinant by a factor close to one. -/
theorem det_perturb {A E : Matrix (Fin m) (Fin m) ℚ} (hA : ∀ j, 0 < margin A j) {θ : ℚ} (h0 : 0 ≤ θ) (h1 : θ < 1)
    (hE : ∀ j, ∑ i, |E i j| ≤ θ * margin A j) :
    ∃ ρ, det (fun i j => A i j + E i j : Matrix (Fin m) (Fin m) ℚ) = ρ * A.det ∧ (1 - θ) ^ m ≤ ρ ∧ ρ ≤ (1 + θ) ^ m := by
  have key : ∀ s : Finset (Fin m), ∃ ρ, det (fun i j => if j ∈ s then A i j + E i j else A i j : Matrix (Fin m) (Fin m) ℚ) = ρ * A.det ∧
      (1 - θ) ^ s.card ≤ ρ ∧ ρ ≤ (1 + θ) ^ s.card := by
    intro s
    induction s using Finset.induction_on with
    | empty => exact ⟨1, by simp, by simp, by simp⟩
    | insert j s hj ih =>
      obtain ⟨ρ, r1, r2, r3⟩ := ih
      set B : Matrix (Fin m) (Fin m) ℚ := fun i j => if j ∈ s then A i j + E i j else A i j with hB
      have hBm : ∀ k, 0 < margin B k := by
        intro k
        by_cases hk : k ∈ s
        · have : margin B k = margin (fun i j => A i j + E i j) k := by simp [margin, hB, hk]
          rw [this]
          have := margin_add (A := A) (E := E) (j := k)
          have := hE k
          have := mul_pos (sub_pos.mpr h1) (hA k)
          linarith
        · have : margin B k = margin A k := by simp [margin, hB, hk]
          rw [this]; exact hA k
      have hBj : margin B j = margin A j := by simp [margin, hB, hj]
      have e : (fun i k => if k ∈ insert j s then A i k + E i k else A i k : Matrix (Fin m) (Fin m) ℚ) =
          B.updateCol j ((fun i => B i j) + fun i => E i j) := by
        funext i k
        by_cases hk : k = j
        · subst hk
          rw [Matrix.updateCol_self]
          simp [hB, hj]
        · rw [Matrix.updateCol_ne hk]
          simp [hB, hk]
      have e2 : B.updateCol j (fun i => B i j) = B := Matrix.updateCol_eq_self B j
      have h2 := det_updateCol_le hBm j (fun i => E i j)
      rw [hBj] at h2
      have h3 : |(B.updateCol j fun i => E i j).det| ≤ θ * |B.det| := by
        have h4 : |(B.updateCol j fun i => E i j).det| * margin A j ≤ θ * |B.det| * margin A j := by
          refine h2.trans ?_
          have := mul_le_mul_of_nonneg_right (hE j) (abs_nonneg B.det)
          linarith
        exact le_of_mul_le_mul_right h4 (hA j)
      have hBd : B.det ≠ 0 := det_ne_zero hBm
      have hρ : 0 ≤ ρ := le_trans (pow_nonneg (by linarith) _) r2
      refine ⟨ρ * (1 + (B.updateCol j fun i => E i j).det / B.det), ?_, ?_, ?_⟩
      · rw [e, Matrix.det_updateCol_add, e2]
        calc B.det + (B.updateCol j fun i => E i j).det = B.det * (1 + (B.updateCol j fun i => E i j).det / B.det) := by field_simp
          _ = _ := by rw [r1]; ring
      all_goals
        have h5 : |(B.updateCol j fun i => E i j).det / B.det| ≤ θ := by
          rw [abs_div, div_le_iff₀ (abs_pos.mpr hBd)]; exact h3
        rw [abs_le] at h5
        rw [Finset.card_insert_of_notMem hj, pow_succ]
      · exact mul_le_mul r2 (by linarith) (by linarith) hρ
      · exact mul_le_mul r3 (by linarith) (by linarith) (by positivity)
  obtain ⟨ρ, h⟩ := key univ
  refine ⟨ρ, ?_⟩
  simpa using h

/-- What is left of a matrix after one step of elimination. -/
def schur (B : Matrix (Fin (m + 1)) (Fin (m + 1)) ℚ) : Matrix (Fin m) (Fin m) ℚ :=
  fun i j => B i.succ j.succ - B i.succ 0 * B 0 j.succ / B 0 0

theorem det_schur {B : Matrix (Fin (m + 1)) (Fin (m + 1)) ℚ} (h : B 0 0 ≠ 0) : B.det = B 0 0 * (schur B).det := by
  set C : Matrix (Fin (m + 1)) (Fin (m + 1)) ℚ := fun i j => B i j + (if i = 0 then 0 else -(B i 0 / B 0 0)) * B 0 j with hC
  have e : C.det = B.det := Matrix.det_eq_of_forall_row_eq_smul_add_const (fun i => if i = 0 then 0 else -(B i 0 / B 0 0)) 0 (if_pos rfl)
    fun i j => rfl
  rw [← e, Matrix.det_succ_column_zero, Fin.sum_univ_succ]
  have h0 : ∀ i : Fin m, C i.succ 0 = 0 := fun i => by
    simp only [hC, Fin.succ_ne_zero, if_false]
    field_simp
    ring
  rw [Finset.sum_eq_zero fun i _ => by rw [h0 i]; ring]
  have h1 : C 0 0 = B 0 0 := by simp [hC]
  have h2 : (C.submatrix (Fin.succAbove 0) Fin.succ) = schur B := by
    funext i j
    show C (Fin.succAbove 0 i) j.succ = schur B i j
    rw [Fin.zero_succAbove]
    simp only [hC, Fin.succ_ne_zero, if_false, schur]
    ring
  rw [h1, h2]
  simp

theorem colSum_succ (B : Matrix (Fin (m + 1)) (Fin (m + 1)) ℚ) (j : Fin (m + 1)) : colSum B j = |B 0 j| + ∑ i : Fin m, |B i.succ j| := by
  unfold colSum; rw [Fin.sum_univ_succ]

theorem margin_zero (B : Matrix (Fin (m + 1)) (Fin (m + 1)) ℚ) : margin B 0 = |B 0 0| - ∑ i : Fin m, |B i.succ 0| := by
  have h1 := colSum_eq B 0
  rw [colSum_succ] at h1
  unfold margin; linarith

theorem margin_eq (B : Matrix (Fin m) (Fin m) ℚ) (j : Fin m) : margin B j = 2 * |B j j| - colSum B j := by
  rw [colSum_eq]; unfold margin; ring

/-- The entries subtracted in one step. -/
theorem sub_sum {B : Matrix (Fin (m + 1)) (Fin (m + 1)) ℚ} (h : 0 < margin B 0) (j : Fin (m + 1)) :
    ∑ i : Fin m, |B i.succ 0 * B 0 j / B 0 0| ≤ |B 0 j| := by
  have h0 : 0 < |B 0 0| := h.trans_le (margin_le_diag B 0)
  have h1 : ∑ i : Fin m, |B i.succ 0| ≤ |B 0 0| := by rw [margin_zero] at h; linarith
  have h2 : ∑ i : Fin m, |B i.succ 0 * B 0 j / B 0 0| = (∑ i : Fin m, |B i.succ 0|) * (|B 0 j| / |B 0 0|) := by
    rw [Finset.sum_mul]
    exact Finset.sum_congr rfl fun i _ => by rw [abs_div, abs_mul]; ring
  rw [h2]
  calc _ ≤ |B 0 0| * (|B 0 j| / |B 0 0|) := mul_le_mul_of_nonneg_right h1 (by positivity)
    _ = |B 0 j| := by field_simp

theorem colSum_schur {B : Matrix (Fin (m + 1)) (Fin (m + 1)) ℚ} (h : 0 < margin B 0) (j : Fin m) :
    colSum (schur B) j ≤ colSum B j.succ := by
  rw [colSum_succ]
  have h1 := sub_sum h j.succ
  have h2 : colSum (schur B) j ≤ ∑ i : Fin m, |B i.succ j.succ| + ∑ i : Fin m, |B i.succ 0 * B 0 j.succ / B 0 0| := by
    rw [← Finset.sum_add_distrib]
    exact Finset.sum_le_sum fun i _ => abs_sub _ _
  linarith

theorem margin_schur {B : Matrix (Fin (m + 1)) (Fin (m + 1)) ℚ} (h : 0 < margin B 0) (j : Fin m) :
    margin B j.succ ≤ margin (schur B) j := by
  have h1 := sub_sum h j.succ
  have h2 : margin B j.succ = |B j.succ j.succ| - |B 0 j.succ| - ∑ i ∈ univ.erase j, |B i.succ j.succ| := by
    have h3 := colSum_succ B j.succ
    have h4 := margin_eq B j.succ
    rw [← Finset.add_sum_erase univ (fun i => |B (Fin.succ i) j.succ|) (mem_univ j)] at h3
    linarith
  rw [← Finset.add_sum_erase univ (fun i => |B (Fin.succ i) 0 * B 0 j.succ / B 0 0|) (mem_univ j)] at h1
  have h5 : ∑ i ∈ univ.erase j, |schur B i j| ≤
      ∑ i ∈ univ.erase j, |B i.succ j.succ| + ∑ i ∈ univ.erase j, |B i.succ 0 * B 0 j.succ / B 0 0| := by
    rw [← Finset.sum_add_distrib]
    exact Finset.sum_le_sum fun i _ => abs_sub _ _
  have h6 : |B j.succ j.succ| - |B j.succ 0 * B 0 j.succ / B 0 0| ≤ |schur B j j| := abs_sub_abs_le_abs_sub _ _
  rw [h2]; unfold margin; linarith

/-- One step of elimination with small errors. -/
theorem step {B : Matrix (Fin (m + 1)) (Fin (m + 1)) ℚ} {C : Matrix (Fin m) (Fin m) ℚ} {u τ θ : ℚ} (hu : 0 ≤ u)
    (hB : ∀ j, 0 < margin B j) (hτ : ∀ j, m * τ ≤ u * colSum B j)
    (hC : ∀ i j, |C i j - schur B i j| ≤ u * |B i.succ j.succ| + 4 * u * |B i.succ 0 * B 0 j.succ / B 0 0| + τ)
    (hθ : ∀ j, 5 * u * colSum B j ≤ θ * margin B j) (h0 : 0 ≤ θ) (h1 : θ < 1) :
    (∀ j : Fin m, colSum C j ≤ (1 + 5 * u) * colSum B j.succ) ∧ (∀ j : Fin m, margin B j.succ - 5 * u * colSum B j.succ ≤ margin C j) ∧
    ∃ ρ, B 0 0 * C.det = ρ * B.det ∧ (1 - θ) ^ m ≤ ρ ∧ ρ ≤ (1 + θ) ^ m := by
  have hE : ∀ j : Fin m, ∑ i, |C i j - schur B i j| ≤ 5 * u * colSum B j.succ := by
    intro j
    have h2 : ∑ i, |C i j - schur B i j| ≤ u * ∑ i : Fin m, |B i.succ j.succ| +
        4 * u * ∑ i : Fin m, |B i.succ 0 * B 0 j.succ / B 0 0| + m * τ := by
      refine (Finset.sum_le_sum fun i _ => hC i j).trans ?_
      rw [Finset.sum_add_distrib, Finset.sum_add_distrib, Finset.mul_sum, Finset.mul_sum]
      simp
    have h3 := mul_le_mul_of_nonneg_left (sub_sum (hB 0) j.succ) (show 0 ≤ 4 * u by linarith)
    have h4 := hτ j.succ
    have h5 := colSum_succ B j.succ
    have h6 : 0 ≤ u * |B 0 j.succ| := mul_nonneg hu (abs_nonneg _)
    have h7 : 0 ≤ u * ∑ i : Fin m, |B i.succ j.succ| := mul_nonneg hu (Finset.sum_nonneg fun _ _ => abs_nonneg _)
    rw [h5] at h4 ⊢
    linarith
  have eC : C = fun i j => schur B i j + (C i j - schur B i j) := by funext i j; ring
  have hS : ∀ j, 0 < margin (schur B) j := fun j => (hB j.succ).trans_le (margin_schur (hB 0) j)
  refine ⟨fun j => ?_, fun j => ?_, ?_⟩
  · have h2 : colSum C j ≤ colSum (schur B) j + ∑ i, |C i j - schur B i j| := by
      unfold colSum
      rw [← Finset.sum_add_distrib]
      refine Finset.sum_le_sum fun i _ => ?_
      have := abs_add_le (schur B i j) (C i j - schur B i j)
      rwa [add_sub_cancel] at this
    have := colSum_schur (hB 0) j
    have := hE j
    linarith
  · have h2 := margin_add (A := schur B) (E := fun i j => C i j - schur B i j) (j := j)
    rw [← eC] at h2
    have := margin_schur (hB 0) j
    have := hE j
    linarith
  · obtain ⟨ρ, r1, r2⟩ := det_perturb hS h0 h1 (E := fun i j => C i j - schur B i j) fun j => by
      have := mul_le_mul_of_nonneg_left (margin_schur (hB 0) j) h0
      have := hE j
      have := hθ j.succ
      linarith
    rw [← eC] at r1
    have h00 : B 0 0 ≠ 0 := abs_pos.mp ((hB 0).trans_le (margin_le_diag B 0))
    refine ⟨ρ, ?_, r2⟩
    rw [r1, det_schur h00]
    ring

/-- The same for rows. -/
theorem step_rows {B : Matrix (Fin (m + 1)) (Fin (m + 1)) ℚ} {C : Matrix (Fin m) (Fin m) ℚ} {u τ θ : ℚ} (hu : 0 ≤ u)
    (hB : ∀ j, 0 < margin Bᵀ j) (hτ : ∀ j, m * τ ≤ u * colSum Bᵀ j)
    (hC : ∀ i j, |C i j - schur B i j| ≤ u * |B i.succ j.succ| + 4 * u * |B i.succ 0 * B 0 j.succ / B 0 0| + τ)
    (hθ : ∀ j, 5 * u * colSum Bᵀ j ≤ θ * margin Bᵀ j) (h0 : 0 ≤ θ) (h1 : θ < 1) :
    (∀ j : Fin m, colSum Cᵀ j ≤ (1 + 5 * u) * colSum Bᵀ j.succ) ∧
    (∀ j : Fin m, margin Bᵀ j.succ - 5 * u * colSum Bᵀ j.succ ≤ margin Cᵀ j) ∧
    ∃ ρ, B 0 0 * C.det = ρ * B.det ∧ (1 - θ) ^ m ≤ ρ ∧ ρ ≤ (1 + θ) ^ m := by
  have h := step (C := Cᵀ) hu hB hτ (fun i j => by
    have := hC j i
    simp only [schur, Matrix.transpose_apply] at this ⊢
    rwa [mul_comm (B 0 i.succ)]) hθ h0 h1
  rw [Matrix.det_transpose, Matrix.det_transpose] at h
  exact h

end Dominant
end CppMaths
