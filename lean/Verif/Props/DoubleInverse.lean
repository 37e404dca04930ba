import Verif.Props.DoubleMat
import Verif.Proofs.DoubleJordan
/-!
# C120: inverses over `double` of matrices dominated by their diagonal
-/

namespace CppMaths
open Double

/-- The sums over the columns and rows of `M`, in terms of numbers instead of indices. -/
theorem Mat.sum_ext {n : Nat} (f : Fin n → ℚ) (g : Nat → ℚ) (h : ∀ i : Fin n, g i = f i) : ∑ i ∈ Finset.range n, g i = ∑ i, f i := by
  rw [← Fin.sum_univ_eq_sum_range]
  exact Finset.sum_congr rfl fun i _ => h i

theorem Mat.inv_ext {n : Nat} {M : Matrix (Fin n) (Fin n) ℚ} (hM : M.det ≠ 0) :
    ∀ i < n, ∀ c < n, ∑ j ∈ Finset.range n, Mat.ext M i j * Mat.ext M⁻¹ j c = if i = c then 1 else 0 := by
  intro i hi c hc
  have h1 := congrFun (congrFun (Matrix.mul_nonsing_inv M (isUnit_iff_ne_zero.mpr hM)) ⟨i, hi⟩) ⟨c, hc⟩
  rw [Matrix.mul_apply, Matrix.one_apply] at h1
  rw [Mat.sum_ext (fun j => M ⟨i, hi⟩ j * M⁻¹ j ⟨c, hc⟩) _ fun j => by rw [Mat.ext_lt M hi j.2, Mat.ext_lt M⁻¹ j.2 hc], h1]
  simp

theorem Mat.colSum_ext {n : Nat} (M : Matrix (Fin n) (Fin n) ℚ) (j : Nat) (hj : j < n) :
    ∑ i ∈ Finset.range n, |Mat.ext M i j| = Dominant.colSum M ⟨j, hj⟩ :=
  Mat.sum_ext (fun i => |M i ⟨j, hj⟩|) _ fun i => by rw [Mat.ext_lt M i.2 hj]

theorem Mat.jbounds {n p : Nat} {M : Matrix (Fin n) (Fin n) ℚ} {T : Nat → ℚ}
    {κ : ℚ} (hκ : n * κ ≤ 2 ^ 47) (hdom : ∀ j, ∑ i, |M i j| ≤ κ * (|M j j| - ∑ i ∈ Finset.univ.erase j, |M i j|))
    (hlow : ∀ j, 2 ^ (-450 : Int) ≤ |M j j| - ∑ i ∈ Finset.univ.erase j, |M i j|) (hhigh : ∀ j, ∑ i, |M i j| ≤ 2 ^ (450 : Int))
    (hl : ∀ c < p, 2 ^ (-450 : Int) ≤ T c) (hh : ∀ c < p, T c ≤ 2 ^ (450 : Int)) :
    Mat.JBounds n p (Vec.ext (Dominant.colSum M)) (Vec.ext (Dominant.margin M)) T κ := by
  refine ⟨hκ, fun j hj => ?_, fun j hj => ?_, fun j hj => ?_, fun j hj => ?_, hl, hh⟩
  · rw [Vec.ext_lt _ hj]; exact hlow _
  · rw [Vec.ext_lt _ hj, Vec.ext_lt _ hj]; exact hdom _
  · rw [Vec.ext_lt _ hj, Vec.ext_lt _ hj]; exact (Dominant.margin_le_diag M _).trans (Dominant.diag_le_colSum M _ _)
  · rw [Vec.ext_lt _ hj]; exact hhigh _

theorem Mat.off_ext {n : Nat} (M : Matrix (Fin n) (Fin n) ℚ) (i : Nat) (hi : i < n) :
    Jordan.off n 0 (Mat.ext M) i = ∑ j ∈ Finset.univ.erase ⟨i, hi⟩, |M ⟨i, hi⟩ j| := by
  unfold Jordan.off
  rw [← Finset.range_eq_Ico]
  have h1 := Finset.add_sum_erase (Finset.range n) (fun j => |Mat.ext M i j|) (Finset.mem_range.mpr hi)
  have h2 := Finset.add_sum_erase Finset.univ (fun j => |M ⟨i, hi⟩ j|) (Finset.mem_univ ⟨i, hi⟩)
  rw [Mat.sum_ext (fun j => |M ⟨i, hi⟩ j|) _ fun j => by rw [Mat.ext_lt M hi j.2], ← h2] at h1
  rw [Mat.ext_lt M hi hi] at h1
  exact add_left_cancel h1

theorem Mat.mu_ext {n : Nat} (M : Matrix (Fin n) (Fin n) ℚ) (i : Nat) (hi : i < n) :
    Jordan.mu n 0 (Mat.ext M) i = Dominant.margin M.transpose ⟨i, hi⟩ := by
  unfold Jordan.mu
  rw [Mat.off_ext M i hi, Mat.ext_lt M hi hi]
  rfl

theorem Mat.rho_ext {n : Nat} (M : Matrix (Fin n) (Fin n) ℚ) (i : Nat) (hi : i < n) :
    Jordan.rho n 0 (Mat.ext M) i = Dominant.colSum M.transpose ⟨i, hi⟩ := by
  unfold Jordan.rho
  rw [Mat.off_ext M i hi, Mat.ext_lt M hi hi, Dominant.colSum_eq]
  rfl

theorem Mat.rbounds {n p : Nat} {M : Matrix (Fin n) (Fin n) ℚ} {d : Nat → ℚ}
    {κ : ℚ} (hκ : n * κ ≤ 2 ^ 46) (hdom : ∀ i, ∑ j, |M i j| ≤ κ * (|M i i| - ∑ j ∈ Finset.univ.erase i, |M i j|))
    (hlow : ∀ i, 2 ^ (-300 : Int) ≤ |M i i| - ∑ j ∈ Finset.univ.erase i, |M i j|) (hhigh : ∀ i, ∑ j, |M i j| ≤ 2 ^ (300 : Int))
    (hl : ∀ c < p, 2 ^ (-300 : Int) ≤ d c) (hh : ∀ c < p, d c ≤ 2 ^ (300 : Int)) :
    Mat.RBounds n p (Vec.ext (Dominant.colSum M.transpose)) (Vec.ext (Dominant.margin M.transpose)) d κ := by
  refine ⟨hκ, fun j hj => ?_, fun j hj => ?_, fun j hj => ?_, fun j hj => ?_, hl, hh⟩
  · rw [Vec.ext_lt _ hj]; exact hlow _
  · rw [Vec.ext_lt _ hj, Vec.ext_lt _ hj]; exact hdom _
  · rw [Vec.ext_lt _ hj, Vec.ext_lt _ hj]; exact (Dominant.margin_le_diag M.transpose _).trans (Dominant.diag_le_colSum M.transpose _ _)
  · rw [Vec.ext_lt _ hj]; exact hhigh _

/-- C120, what is left, for more rows: if in every column the diagonal entry exceeds the sum `R` of the absolute values of the others, so
clearly that `|diagonal| + R` is at most `κ` times `|diagonal| - R`, then the matrix is regular and `inverse()` does return a matrix of finite
numbers; in every column of it, the errors times the differences `|diagonal| - R` add up to at most `n κ 2^-47`. The numbers must not be so
large or small that products leave the range of `double`. -/
theorem C120_dominant_columns_partial {n : Nat} {x : Mat Double} {M : Matrix (Fin n) (Fin n) ℚ} (hx : Mat.Is Denotes x M)
    {κ : ℚ} (hκ : n * κ ≤ 2 ^ 47) (hdom : ∀ j, ∑ i, |M i j| ≤ κ * (|M j j| - ∑ i ∈ Finset.univ.erase j, |M i j|))
    (hlow : ∀ j, 2 ^ (-450 : Int) ≤ |M j j| - ∑ i ∈ Finset.univ.erase j, |M i j|) (hhigh : ∀ j, ∑ i, |M i j| ≤ 2 ^ (450 : Int)) :
    IsUnit M ∧ ∃ y N, Mat.inverse .double x = .ok y ∧ Mat.Is Denotes y N ∧
      ∀ j, ∑ i, (|M i i| - ∑ k ∈ Finset.univ.erase i, |M k i|) * |N i j - M⁻¹ i j| ≤ n * κ / 2 ^ 47 := by
  have hdet : M.det ≠ 0 := Dominant.det_ne_zero fun j => (two_zpow_pos _).trans_le (hlow j)
  refine ⟨(Matrix.isUnit_iff_isUnit_det _).mpr (isUnit_iff_ne_zero.mpr hdet), ?_⟩
  have hS : ∀ j (hj : j < n), Vec.ext (Dominant.colSum M) j = Dominant.colSum M ⟨j, hj⟩ := fun j hj => Vec.ext_lt _ hj
  have hδ : ∀ j (hj : j < n), Vec.ext (Dominant.margin M) j = Dominant.margin M ⟨j, hj⟩ := fun j hj => Vec.ext_lt _ hj
  have hsum := Mat.colSum_ext M
  have hb : Mat.JBounds n n (Vec.ext (Dominant.colSum M)) (Vec.ext (Dominant.margin M)) (fun _ => 1) κ :=
    Mat.jbounds hκ hdom hlow hhigh (fun _ _ => zpow_le_one_of_nonpos₀ (by norm_num) (by norm_num))
      (fun _ _ => one_le_zpow₀ (by norm_num) (by norm_num))
  have h := Mat.jordan_ok hb hx.full (fun j hj => by rw [hS j hj, hsum j hj])
    (fun j hj => by rw [hδ j hj, hsum j hj, Mat.ext_lt M hj hj, Dominant.margin_eq]) (Mat.inv_ext hdet)
  rcases h with ⟨y, h1, W, h2, h3⟩ | ⟨_, _, h⟩
  · refine ⟨y, fun i j => W i j, h1, ⟨h2.1, h2.2.1, h2.2.2.1, fun i j => h2.2.2.2 i j i.2 j.2 trivial⟩, fun j => ?_⟩
    have h4 := h3 j j.2
    rwa [Mat.sum_ext (fun i => (|M i i| - ∑ k ∈ Finset.univ.erase i, |M k i|) * |W i j - M⁻¹ i j|) _ fun i => by
      rw [hδ i i.2, Mat.ext_lt M⁻¹ i.2 j.2]; rfl] at h4
  · exact h.elim

/-- The same for rows instead of columns; here the error of an entry in column `j` times the difference for row `j` is at most
`n κ 2^-46`. -/
theorem C120_dominant_rows_partial {n : Nat} {x : Mat Double} {M : Matrix (Fin n) (Fin n) ℚ} (hx : Mat.Is Denotes x M)
    {κ : ℚ} (hκ : n * κ ≤ 2 ^ 46) (hdom : ∀ i, ∑ j, |M i j| ≤ κ * (|M i i| - ∑ j ∈ Finset.univ.erase i, |M i j|))
    (hlow : ∀ i, 2 ^ (-300 : Int) ≤ |M i i| - ∑ j ∈ Finset.univ.erase i, |M i j|) (hhigh : ∀ i, ∑ j, |M i j| ≤ 2 ^ (300 : Int)) :
    IsUnit M ∧ ∃ y N, Mat.inverse .double x = .ok y ∧ Mat.Is Denotes y N ∧
      ∀ i j, (|M j j| - ∑ k ∈ Finset.univ.erase j, |M j k|) * |N i j - M⁻¹ i j| ≤ n * κ / 2 ^ 46 := by
  have hdet : M.det ≠ 0 := by
    rw [← Matrix.det_transpose]
    exact Dominant.det_ne_zero fun j => (two_zpow_pos _).trans_le (hlow j)
  refine ⟨(Matrix.isUnit_iff_isUnit_det _).mpr (isUnit_iff_ne_zero.mpr hdet), ?_⟩
  have hS : ∀ j (hj : j < n), Vec.ext (Dominant.colSum M.transpose) j = Dominant.colSum M.transpose ⟨j, hj⟩ := fun j hj => Vec.ext_lt _ hj
  have hδ : ∀ j (hj : j < n), Vec.ext (Dominant.margin M.transpose) j = Dominant.margin M.transpose ⟨j, hj⟩ := fun j hj => Vec.ext_lt _ hj
  have hmu := Mat.mu_ext M
  have hrho := Mat.rho_ext M
  have hb : Mat.RBounds n n (Vec.ext (Dominant.colSum M.transpose)) (Vec.ext (Dominant.margin M.transpose)) (Vec.ext (Dominant.margin M.transpose)) κ :=
    Mat.rbounds hκ hdom hlow hhigh (fun c hc => by rw [hδ c hc]; exact hlow _) (fun c hc => by
      rw [hδ c hc]
      exact ((Dominant.margin_le_diag M.transpose _).trans (Dominant.diag_le_colSum M.transpose _ _)).trans (hhigh _))
  have h := Mat.jordan_rows_ok hb hx.full (fun j hj => by rw [hS j hj, hrho j hj]) (fun j hj => by rw [hδ j hj, hmu j hj]) (Mat.inv_ext hdet)
  rcases h with ⟨y, h1, W, h2, h3⟩ | ⟨_, _, h⟩
  · refine ⟨y, fun i j => W i j, h1, ⟨h2.1, h2.2.1, h2.2.2.1, fun i j => h2.2.2.2 i j i.2 j.2 trivial⟩, fun i j => ?_⟩
    have h4 := h3 i i.2 j j.2
    rwa [hδ j j.2, Mat.ext_lt M⁻¹ i.2 j.2] at h4
  · exact h.elim

example := C120_dominant_columns_partial dominantExample (κ := 13) (by norm_num)
  (fun j => by fin_cases j <;> norm_num [Fin.sum_univ_succ, Finset.sum_erase_eq_sub])
  (fun j => le_trans (zpow_le_one_of_nonpos₀ (by norm_num) (by norm_num))
    (by fin_cases j <;> norm_num [Fin.sum_univ_succ, Finset.sum_erase_eq_sub]))
  (fun j => le_trans (b := 2 ^ (20 : Int)) (by fin_cases j <;> norm_num [Fin.sum_univ_succ]) (zpow_le_zpow_right₀ (by norm_num) (by norm_num)))
example := C120_dominant_rows_partial dominantExample (κ := 4) (by norm_num)
  (fun j => by fin_cases j <;> norm_num [Fin.sum_univ_succ, Finset.sum_erase_eq_sub])
  (fun j => le_trans (zpow_le_one_of_nonpos₀ (by norm_num) (by norm_num))
    (by fin_cases j <;> norm_num [Fin.sum_univ_succ, Finset.sum_erase_eq_sub]))
  (fun j => le_trans (b := 2 ^ (20 : Int)) (by fin_cases j <;> norm_num [Fin.sum_univ_succ]) (zpow_le_zpow_right₀ (by norm_num) (by norm_num)))

/-- The inverse is `[[17/162, -1/18, 2/81], [-7/270, 1/6, -4/135], [31/810, -1/18, 37/405]]`; `-1/18` comes out as two different numbers. -/
example : Mat.inverse .double ⟨3, 3, [some (.ofInt 11), some (.ofInt 3), some (.ofInt (-2)), some (.ofInt 1), some (.ofInt 7),
    some (.ofInt 2), some (.ofInt (-4)), some (.ofInt 3), some (.ofInt 13)]⟩ =
    .ok ⟨3, 3, [some (.fin false 7561599374350463 (-56)), some (.fin true 8006399337547548 (-57)), some (.fin false 7116799411153376 (-58)),
      some (.fin true 7472639381711044 (-58)), some (.fin false 6004799503160662 (-55)), some (.fin true 8540159293384049 (-58)),
      some (.fin false 5515519543643866 (-57)), some (.fin true 8006399337547547 (-57)), some (.fin false 6583039455316872 (-56))]⟩ := by
  decide +kernel

end CppMaths
