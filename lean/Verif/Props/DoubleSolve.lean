import Verif.Props.DoubleInverse
import Verif.Props.Solve
/-!
# C137: systems of linear equations over `double`, dominated by the diagonal
-/

namespace CppMaths
open Double Mat

theorem Mat.beside_ext {n p : Nat} (A : Matrix (Fin n) (Fin n) ℚ) (B : Matrix (Fin n) (Fin p) ℚ) :
    (∀ i < n, ∀ j < n, Mat.ext (beside A B) i j = Mat.ext A i j) ∧ ∀ i < n, ∀ c < p, Mat.ext (beside A B) i (c + n) = Mat.ext B i c := by
  refine ⟨fun i hi j hj => ?_, fun i hi c hc => ?_⟩
  · rw [Mat.ext_lt _ hi (show j < n + p by omega), Mat.ext_lt _ hi hj]
    exact Fin.append_left (A ⟨i, hi⟩) (B ⟨i, hi⟩) ⟨j, hj⟩
  · rw [Mat.ext_lt _ hi (show c + n < n + p by omega), Mat.ext_lt _ hi hc]
    have := Fin.append_right (A ⟨i, hi⟩) (B ⟨i, hi⟩) ⟨c, hc⟩
    rw [← this]
    show Fin.append (A ⟨i, hi⟩) (B ⟨i, hi⟩) _ = _
    congr 1
    ext
    simp [Nat.add_comm]

/-- The solution, in terms of numbers instead of indices. -/
theorem Mat.sol_ext {n p : Nat} {A : Matrix (Fin n) (Fin n) ℚ} (B : Matrix (Fin n) (Fin p) ℚ) {X : Matrix (Fin n) (Fin p) ℚ} (hX : A * X = B) :
    ∀ i < n, ∀ c < p, ∑ j ∈ Finset.range n, Mat.ext (beside A B) i j * Mat.ext X j c = Mat.ext (beside A B) i (c + n) := by
  intro i hi c hc
  have hB : B ⟨i, hi⟩ ⟨c, hc⟩ = ∑ j, A ⟨i, hi⟩ j * X j ⟨c, hc⟩ := by rw [← hX, Matrix.mul_apply]
  rw [(Mat.beside_ext A B).2 i hi c hc, Mat.ext_lt B hi hc, hB]
  refine Mat.sum_ext _ _ fun j => ?_
  rw [(Mat.beside_ext A B).1 i hi j j.2, Mat.ext_lt A hi j.2, Mat.ext_lt X j.2 hc]

theorem Mat.is_beside {n p : Nat} {m : Mat Double} {W : Nat → Nat → ℚ} (h : Full Denotes m n (n + p) W)
    (h1 : ∀ i < n, ∀ j < n, W i j = if i = j then 1 else 0) :
    Mat.Is Denotes m (beside (1 : Matrix (Fin n) (Fin n) ℚ) (fun (i : Fin n) (c : Fin p) => W i (c + n))) := by
  refine ⟨h.1, h.2.1, h.2.2.1, fun i j => ?_⟩
  have h2 := h.2.2.2 i j i.2 j.2 trivial
  have e : beside (1 : Matrix (Fin n) (Fin n) ℚ) (fun (i : Fin n) (c : Fin p) => W i (c + n)) i j = W i j := by
    show Fin.append ((1 : Matrix (Fin n) (Fin n) ℚ) i) (fun c : Fin p => W i (c + n)) j = _
    refine Fin.addCases (fun j => ?_) (fun j => ?_) j
    · rw [Fin.append_left, Fin.val_castAdd, h1 i i.2 j j.2, Matrix.one_apply]
      simp only [Fin.ext_iff]
    · rw [Fin.append_right, Fin.val_natAdd, Nat.add_comm]
  rw [e]
  exact h2

/-- C137. Let the diagonal entry exceed the sum `R` of the absolute values of the others in every column of `A`, so clearly that
`|diagonal| + R` is at most `κ` times `|diagonal| - R`, and let the absolute values of column `c` of `B` add up to at most `T c`. Then
`augmentedMatrix(a, b).rref()` is `(1 | X)`, with the identity matrix exactly and finite numbers `X` for the only solution `Y` of
`A Y = B`: in column `c` the errors, times the differences `|diagonal| - R`, add up to at most `n κ T c 2^-47`. The numbers must not be
so large or small that products leave the range of `double`. -/
theorem C137_columns {n p : Nat} {x y : Mat Double} {A : Matrix (Fin n) (Fin n) ℚ} {B : Matrix (Fin n) (Fin p) ℚ}
    (hx : Mat.Is Denotes x A) (hy : Mat.Is Denotes y B)
    {κ : ℚ} (hκ : n * κ ≤ 2 ^ 47) (hdom : ∀ j, ∑ i, |A i j| ≤ κ * (|A j j| - ∑ i ∈ Finset.univ.erase j, |A i j|))
    (hlow : ∀ j, 2 ^ (-450 : Int) ≤ |A j j| - ∑ i ∈ Finset.univ.erase j, |A i j|) (hhigh : ∀ j, ∑ i, |A i j| ≤ 2 ^ (450 : Int))
    {T : Fin p → ℚ} (hT : ∀ c, ∑ i, |B i c| ≤ T c) (hTlow : ∀ c, 2 ^ (-450 : Int) ≤ T c) (hThigh : ∀ c, T c ≤ 2 ^ (450 : Int)) :
    ∃ (z : Mat Double) (X Y : Matrix (Fin n) (Fin p) ℚ), (do let m ← Mat.augmentedMatrix x y; Mat.rref .double m) = .ok z ∧
      Mat.Is Denotes z (beside (1 : Matrix (Fin n) (Fin n) ℚ) X) ∧ A * Y = B ∧ (∀ Y', A * Y' = B → Y' = Y) ∧
      ∀ c, ∑ i, (|A i i| - ∑ k ∈ Finset.univ.erase i, |A k i|) * |X i c - Y i c| ≤ n * κ * T c / 2 ^ 47 := by
  have hdet : A.det ≠ 0 := Dominant.det_ne_zero fun j => (two_zpow_pos _).trans_le (hlow j)
  have hu : IsUnit A.det := isUnit_iff_ne_zero.mpr hdet
  have hY : A * (A⁻¹ * B) = B := by rw [← Matrix.mul_assoc, Matrix.mul_nonsing_inv A hu, Matrix.one_mul]
  have hY' : ∀ Y', A * Y' = B → Y' = A⁻¹ * B := fun Y' h => by rw [← h, ← Matrix.mul_assoc, Matrix.nonsing_inv_mul A hu, Matrix.one_mul]
  obtain ⟨m, hm1, hm2⟩ := (C69_augmented (b := y) (d := p) hx).1 hy
  obtain ⟨e1, e2⟩ := Mat.beside_ext A B
  have hb : Mat.JBounds n p (Vec.ext (Dominant.colSum A)) (Vec.ext (Dominant.margin A)) (Vec.ext T) κ :=
    Mat.jbounds hκ hdom hlow hhigh (fun c hc => by rw [Vec.ext_lt _ hc]; exact hTlow _) (fun c hc => by rw [Vec.ext_lt _ hc]; exact hThigh _)
  have hsum : ∀ j < n, ∑ i ∈ Finset.range n, |Mat.ext (beside A B) i j| = ∑ i ∈ Finset.range n, |Mat.ext A i j| := fun j hj =>
    Finset.sum_congr rfl fun i hi => by rw [e1 i (Finset.mem_range.mp hi) j hj]
  have h := Mat.jordan_solve_ok (V := Mat.ext (beside A B)) hb (Mat.Is.full (M := beside A B) hm2)
    (fun j hj => by rw [hsum j hj, Mat.colSum_ext A j hj, Vec.ext_lt _ hj])
    (fun j hj => by rw [hsum j hj, Mat.colSum_ext A j hj, Vec.ext_lt _ hj, e1 j hj j hj, Mat.ext_lt A hj hj, Dominant.margin_eq])
    (fun c hc => by
      rw [Finset.sum_congr rfl fun i hi => by rw [e2 i (Finset.mem_range.mp hi) c hc], Vec.ext_lt _ hc,
        Mat.sum_ext (fun i => |B i ⟨c, hc⟩|) _ fun i => by rw [Mat.ext_lt B i.2 hc]]
      exact hT _)
    (Mat.sol_ext B hY)
  rcases h with ⟨z, h1, W, h2, h3, h4⟩ | ⟨_, _, h⟩
  · refine ⟨z, _, A⁻¹ * B, ?_, Mat.is_beside h2 h3, hY, hY', fun c => ?_⟩
    · rw [hm1]
      exact h1
    · have h5 := h4 c c.2
      rwa [Vec.ext_lt _ c.2, Mat.sum_ext (fun i => (|A i i| - ∑ k ∈ Finset.univ.erase i, |A k i|) * |W i (c + n) - (A⁻¹ * B) i c|) _ fun i => by
        rw [Vec.ext_lt _ i.2, Mat.ext_lt (A⁻¹ * B) i.2 c.2]; rfl] at h5
  · exact h.elim

/-- C137. The same for rows instead of columns: if every entry of column `c` of `B` is at most `T c` times the difference
`|diagonal| - R` for its row, then so are the entries of the solution at most `T c`, and the errors in this column at most
`n κ T c 2^-46`. -/
theorem C137_rows {n p : Nat} {x y : Mat Double} {A : Matrix (Fin n) (Fin n) ℚ} {B : Matrix (Fin n) (Fin p) ℚ}
    (hx : Mat.Is Denotes x A) (hy : Mat.Is Denotes y B)
    {κ : ℚ} (hκ : n * κ ≤ 2 ^ 46) (hdom : ∀ i, ∑ j, |A i j| ≤ κ * (|A i i| - ∑ j ∈ Finset.univ.erase i, |A i j|))
    (hlow : ∀ i, 2 ^ (-300 : Int) ≤ |A i i| - ∑ j ∈ Finset.univ.erase i, |A i j|) (hhigh : ∀ i, ∑ j, |A i j| ≤ 2 ^ (300 : Int))
    {T : Fin p → ℚ} (hT : ∀ i c, |B i c| ≤ T c * (|A i i| - ∑ j ∈ Finset.univ.erase i, |A i j|))
    (hTlow : ∀ c, 2 ^ (-300 : Int) ≤ T c) (hThigh : ∀ c, T c ≤ 2 ^ (300 : Int)) :
    ∃ (z : Mat Double) (X Y : Matrix (Fin n) (Fin p) ℚ), (do let m ← Mat.augmentedMatrix x y; Mat.rref .double m) = .ok z ∧
      Mat.Is Denotes z (beside (1 : Matrix (Fin n) (Fin n) ℚ) X) ∧ A * Y = B ∧ (∀ Y', A * Y' = B → Y' = Y) ∧
      ∀ i c, |Y i c| ≤ T c ∧ |X i c - Y i c| ≤ n * κ * T c / 2 ^ 46 := by
  have hdet : A.det ≠ 0 := by
    rw [← Matrix.det_transpose]
    exact Dominant.det_ne_zero fun j => (two_zpow_pos _).trans_le (hlow j)
  have hu : IsUnit A.det := isUnit_iff_ne_zero.mpr hdet
  have hY : A * (A⁻¹ * B) = B := by rw [← Matrix.mul_assoc, Matrix.mul_nonsing_inv A hu, Matrix.one_mul]
  have hY' : ∀ Y', A * Y' = B → Y' = A⁻¹ * B := fun Y' h => by rw [← h, ← Matrix.mul_assoc, Matrix.nonsing_inv_mul A hu, Matrix.one_mul]
  obtain ⟨m, hm1, hm2⟩ := (C69_augmented (b := y) (d := p) hx).1 hy
  obtain ⟨e1, e2⟩ := Mat.beside_ext A B
  have hT0 : ∀ c, 0 < T c := fun c => (two_zpow_pos _).trans_le (hTlow c)
  have hb : Mat.RBounds n p (Vec.ext (Dominant.colSum A.transpose)) (Vec.ext (Dominant.margin A.transpose)) (Vec.ext fun c => (T c)⁻¹) κ :=
    Mat.rbounds hκ hdom hlow hhigh (fun c hc => by
      rw [Vec.ext_lt _ hc, zpow_neg]
      exact inv_anti₀ (hT0 _) (hThigh _)) (fun c hc => by
      rw [Vec.ext_lt _ hc, ← inv_inv ((2 : ℚ) ^ (300 : Int)), ← zpow_neg]
      exact inv_anti₀ (two_zpow_pos _) (hTlow _))
  have eo : ∀ i < n, Jordan.off n 0 (Mat.ext (beside A B)) i = Jordan.off n 0 (Mat.ext A) i := fun i hi =>
    Finset.sum_congr rfl fun j hj => by rw [e1 i hi j (Finset.mem_Ico.mp (Finset.mem_of_mem_erase hj)).2]
  have em : ∀ i (hi : i < n), Jordan.mu n 0 (Mat.ext (beside A B)) i = Dominant.margin A.transpose ⟨i, hi⟩ := fun i hi => by
    rw [← Mat.mu_ext A i hi]
    unfold Jordan.mu
    rw [eo i hi, e1 i hi i hi]
  have er : ∀ i (hi : i < n), Jordan.rho n 0 (Mat.ext (beside A B)) i = Dominant.colSum A.transpose ⟨i, hi⟩ := fun i hi => by
    rw [← Mat.rho_ext A i hi]
    unfold Jordan.rho
    rw [eo i hi, e1 i hi i hi]
  have hδ : ∀ i < n, Vec.ext (Dominant.margin A.transpose) i ≤ Jordan.mu n 0 (Mat.ext (beside A B)) i := fun i hi => by
    rw [em i hi, Vec.ext_lt _ hi]
  have hd : ∀ c < p, ∀ i < n, |Mat.ext (beside A B) i (c + n)| * Vec.ext (fun c => (T c)⁻¹) c ≤ Jordan.mu n 0 (Mat.ext (beside A B)) i :=
    fun c hc i hi => by
      rw [em i hi, e2 i hi c hc, Vec.ext_lt _ hc, Mat.ext_lt B hi hc, ← div_eq_mul_inv, div_le_iff₀ (hT0 _), mul_comm]
      exact hT _ _
  have h := Mat.jordan_rows_solve_ok hb (Mat.Is.full (M := beside A B) hm2) (fun i hi => by rw [er i hi, Vec.ext_lt _ hi]) hδ hd (Mat.sol_ext B hY)
  have hs := hb.sol hδ hd (Mat.sol_ext B hY)
  rcases h with ⟨z, h1, W, h2, h3, h4⟩ | ⟨_, _, h⟩
  · refine ⟨z, _, A⁻¹ * B, ?_, Mat.is_beside h2 h3, hY, hY', fun i c => ⟨?_, ?_⟩⟩
    · rw [hm1]
      exact h1
    · have h5 := hs c c.2 i i.2
      rwa [Vec.ext_lt _ c.2, Mat.ext_lt (A⁻¹ * B) i.2 c.2, ← div_eq_mul_inv, div_le_iff₀ (hT0 _), one_mul] at h5
    · have h5 := h4 i i.2 c c.2
      rwa [Vec.ext_lt _ c.2, Mat.ext_lt (A⁻¹ * B) i.2 c.2, mul_comm, ← div_eq_mul_inv, div_le_iff₀ (hT0 _), div_mul_eq_mul_div] at h5
  · exact h.elim

theorem rightSide : Mat.Is Denotes ⟨3, 2, [some (.ofInt 1), some (.ofInt 0), some (.ofInt (-2)), some (.ofInt 0), some (.ofInt 5), some (.ofInt 0)]⟩
    !![(1 : ℚ), 0; -2, 0; 5, 0] := by
  have d : ∀ k : Int, k.natAbs ≤ 2 ^ 53 → (Double.ofInt k).Denotes k := fun k h => ofInt_denotes (by rw [Int.abs_eq_natAbs]; exact_mod_cast h)
  refine ⟨rfl, rfl, rfl, fun i j => ?_⟩
  fin_cases i <;> fin_cases j
  · exact ⟨_, rfl, by simpa using d 1 (by norm_num)⟩
  · exact ⟨_, rfl, by simpa using d 0 (by norm_num)⟩
  · exact ⟨_, rfl, by simpa using d (-2) (by norm_num)⟩
  · exact ⟨_, rfl, by simpa using d 0 (by norm_num)⟩
  · exact ⟨_, rfl, by simpa using d 5 (by norm_num)⟩
  · exact ⟨_, rfl, by simpa using d 0 (by norm_num)⟩

example := C137_columns dominantExample rightSide (κ := 13) (by norm_num)
  (fun j => by fin_cases j <;> norm_num [Fin.sum_univ_succ, Finset.sum_erase_eq_sub])
  (fun j => le_trans (zpow_le_one_of_nonpos₀ (by norm_num) (by norm_num))
    (by fin_cases j <;> norm_num [Fin.sum_univ_succ, Finset.sum_erase_eq_sub]))
  (fun j => le_trans (b := 2 ^ (20 : Int)) (by fin_cases j <;> norm_num [Fin.sum_univ_succ]) (zpow_le_zpow_right₀ (by norm_num) (by norm_num)))
  (T := fun _ => 8) (fun c => by fin_cases c <;> norm_num [Fin.sum_univ_succ])
  (fun _ => le_trans (b := 2 ^ (3 : Int)) (zpow_le_zpow_right₀ (by norm_num) (by norm_num)) (by norm_num))
  (fun _ => le_trans (b := 2 ^ (3 : Int)) (by norm_num) (zpow_le_zpow_right₀ (by norm_num) (by norm_num)))
example := C137_rows dominantExample rightSide (κ := 4) (by norm_num)
  (fun j => by fin_cases j <;> norm_num [Fin.sum_univ_succ, Finset.sum_erase_eq_sub])
  (fun j => le_trans (zpow_le_one_of_nonpos₀ (by norm_num) (by norm_num))
    (by fin_cases j <;> norm_num [Fin.sum_univ_succ, Finset.sum_erase_eq_sub]))
  (fun j => le_trans (b := 2 ^ (20 : Int)) (by fin_cases j <;> norm_num [Fin.sum_univ_succ]) (zpow_le_zpow_right₀ (by norm_num) (by norm_num)))
  (T := fun _ => 8) (fun i c => by fin_cases i <;> fin_cases c <;> norm_num [Fin.sum_univ_succ, Finset.sum_erase_eq_sub])
  (fun _ => le_trans (b := 2 ^ (3 : Int)) (zpow_le_zpow_right₀ (by norm_num) (by norm_num)) (by norm_num))
  (fun _ => le_trans (b := 2 ^ (3 : Int)) (by norm_num) (zpow_le_zpow_right₀ (by norm_num) (by norm_num)))

/-- The solution is `55/162, -137/270, 491/810`. -/
example : (do
    let m ← Mat.augmentedMatrix (T := Double) ⟨3, 3, [some (.ofInt 11), some (.ofInt 3), some (.ofInt (-2)), some (.ofInt 1), some (.ofInt 7),
      some (.ofInt 2), some (.ofInt (-4)), some (.ofInt 3), some (.ofInt 13)]⟩ ⟨3, 1, [some (.ofInt 1), some (.ofInt (-2)), some (.ofInt 5)]⟩
    Mat.rref .double m) =
    .ok ⟨3, 4, [some (.ofInt 1), some (.ofInt 0), some (.ofInt 0), some (.fin false 6115999493959932 (-54)),
      some (.ofInt 0), some (.ofInt 1), some (.ofInt 0), some (.fin true 4570319621850058 (-53)),
      some (.ofInt 0), some (.ofInt 0), some (.ofInt 1), some (.fin false 5459919548244230 (-53))]⟩ := by decide +kernel

end CppMaths
