import Verif.Props.MatElim
import Verif.Proofs.Solve
/-!
# Rank and linear systems (C111, C112)
-/

namespace CppMaths
open Mat

variable {T K : Type} {rel : T → K → Prop} {A : Err → Prop} {S : Scalar T}

/-! ### C111: rank -/

/-- C111. The number of nonzero rows of `rref()` is the rank, and those rows are the first ones: row `i` is nonzero exactly
if `i` is below the rank. -/
theorem C111_rank [Field K] (hS : S.ExactField rel A) {a : Mat T} {r c : Nat} {M : Matrix (Fin r) (Fin c) K} (ha : Mat.Is rel a M) :
    Out A (Mat.rref S a) (fun m => ∃ N : Matrix (Fin r) (Fin c) K, Mat.Is rel m N ∧ Nat.card {i // N i ≠ 0} = M.rank ∧
      ∀ i, N i ≠ 0 ↔ i.val < M.rank) := by
  refine (rref_ok hS ha).mono fun m ⟨N, h1, h2, h3⟩ => ⟨N, h1, by rw [← h3.rank, h2.rank], fun i => ?_⟩
  rw [← h2.rank]; exact h3.ne_zero_iff i

example := C111_rank Ex.rat Ex.s_is

/-- C111. For square matrices: the determinant is nonzero exactly if no row of `rref()` is zero, and exactly if `rref()` is the
identity matrix. -/
theorem C111_nonsingular [Field K] (hS : S.ExactField rel A) {a : Mat T} {n : Nat} {M : Matrix (Fin n) (Fin n) K} (ha : Mat.Is rel a M) :
    Out A (Mat.rref S a) (fun m => ∃ N : Matrix (Fin n) (Fin n) K, Mat.Is rel m N ∧
      (M.det ≠ 0 ↔ ∀ i, N i ≠ 0) ∧ (M.det ≠ 0 ↔ N = 1)) := by
  refine (rref_ok hS ha).mono fun m ⟨N, h1, h2, h3⟩ => ⟨N, h1, ?_, ?_⟩
  · rw [det_ne_zero_iff_rank, ← h2.rank]
    constructor
    · intro h i
      rw [h3.ne_zero_iff, h]; exact i.2
    · intro h
      refine le_antisymm (Matrix.rank_le_height N) ?_
      rcases Nat.eq_zero_or_pos n with h0 | h0
      · omega
      · have := (h3.ne_zero_iff ⟨n - 1, by omega⟩).mp (h _)
        simp at this; omega
  · constructor
    · intro h
      have hu : IsUnit M.det := isUnit_iff_ne_zero.mpr h
      exact h3.unique isRref_one (h2.symm.trans ⟨M⁻¹, M, Matrix.nonsing_inv_mul M hu, Matrix.mul_nonsing_inv M hu,
        (Matrix.nonsing_inv_mul M hu).symm⟩)
    · rintro rfl
      rw [det_ne_zero_iff_rank, ← h2.rank, Matrix.rank_one, Fintype.card_fin]

example := C111_nonsingular Ex.rat Ex.s_is

-- rank 2 of 3; an invertible matrix
example : Mat.rref (Scalar.field ℚ) ⟨3, 3, [some 1, some 2, some 3, some 2, some 4, some 6, some 1, some 2, some 5]⟩ =
    .ok ⟨3, 3, [some 1, some 2, some 0, some 0, some 0, some 1, some 0, some 0, some 0]⟩ ∧
    Mat.rref (Scalar.field ℚ) ⟨2, 2, [some 0, some 2, some 3, some 1]⟩ = .ok ⟨2, 2, [some 1, some 0, some 0, some 1]⟩ := by decide +kernel

/-! ### C112: systems of linear equations -/

/-- C112. `augmentedMatrix(a, b).rref()` solves the system `M X = B` (several right hand sides at once): the left part is the
reduced form of `M` itself, the solutions are those of the reduced system, there is a solution exactly if each row that
is zero on the left is zero on the right, and then at most one exactly if the left part has as many nonzero rows as there are unknowns. -/
theorem C112_system [Field K] (hS : S.ExactField rel A) {a b : Mat T} {r c d : Nat} {M : Matrix (Fin r) (Fin c) K}
    {B : Matrix (Fin r) (Fin d) K} (ha : Mat.Is rel a M) (hb : Mat.Is rel b B) :
    Out A (do let m ← Mat.augmentedMatrix a b; Mat.rref S m) (fun m => ∃ (N : Matrix (Fin r) (Fin c) K) (W : Matrix (Fin r) (Fin d) K),
      Mat.Is rel m (beside N W) ∧ IsRref N ∧ RowEquiv M N ∧ (∀ X, M * X = B ↔ N * X = W) ∧
      ((∃ X, M * X = B) ↔ ∀ i, N i = 0 → W i = 0) ∧
      (0 < d → (∃ X, M * X = B) → ((∀ X X', M * X = B → M * X' = B → X = X') ↔ Nat.card {i // N i ≠ 0} = c))) := by
  obtain ⟨m, hm1, hm2⟩ := (C69_augmented (b := b) (d := d) ha).1 hb
  rw [hm1]
  refine (rref_ok hS (M := beside M B) hm2).mono fun m' ⟨L, h1, ⟨P, Q, p1, p2, h2⟩, h3⟩ => ?_
  rw [mul_beside] at h2
  have hN : IsRref (P * M) := by
    have := h3.left
    rwa [h2, show (fun i (j : Fin c) => beside (P * M) (P * B) i (Fin.castAdd d j)) = P * M from by
      funext i j; simp [beside]] at this
  have hsol : ∀ X : Matrix (Fin c) (Fin d) K, M * X = B ↔ P * M * X = P * B := by
    intro X
    constructor
    · intro h; rw [Matrix.mul_assoc, h]
    · intro h
      have := congrArg (Q * ·) h
      simpa only [← Matrix.mul_assoc, p2, Matrix.one_mul] using this
  have hME : RowEquiv M (P * M) := ⟨P, Q, p1, p2, rfl⟩
  refine ⟨P * M, P * B, h2 ▸ h1, hN, hME, hsol, ?_, ?_⟩
  · constructor
    · rintro ⟨X, hX⟩ i hi
      rw [hsol] at hX
      funext k
      rw [← hX, Matrix.mul_apply]
      simp [show ∀ j, (P * M) i j = 0 from fun j => congrFun hi j]
    · intro h
      refine ⟨fun j k => basicSolution (P * M) (fun i => (P * B) i k) j, (hsol _).mpr ?_⟩
      ext i k
      exact congrFun (hN.basic_solves (w := fun i => (P * B) i k) fun i hi => congrFun (h i hi) k) i
  · intro hd ⟨X, hX⟩
    rw [← hN.rank, hME.rank, ← injective_iff_rank]
    constructor
    · intro hu x hx
      have key := hu X (X + (Matrix.of fun j _ => x j : Matrix (Fin c) (Fin d) K)) hX ?_
      · have : ∀ j, x j = 0 := fun j => by
          have := congrFun (congrFun key j) ⟨0, hd⟩
          simpa using this
        exact funext this
      · rw [Matrix.mul_add, hX]
        have : M * (Matrix.of fun j _ => x j : Matrix (Fin c) (Fin d) K) = 0 := by
          ext i k
          exact congrFun hx i
        rw [this, add_zero]
    · intro hi Y Y' hY hY'
      ext j k
      have := hi (fun j => Y j k - Y' j k) (by
        funext i
        have e : (M * (Y - Y')) i k = 0 := by rw [Matrix.mul_sub, hY, hY', sub_self]; rfl
        exact e)
      exact sub_eq_zero.mp (congrFun this j)

example := C112_system Ex.rat Ex.a_is Ex.v_is

/-- C112. A solution can be read off: give the variable of each leading entry the right hand side of its row, and 0 to all
other variables. -/
theorem C112_read_off [Field K] {r c : Nat} {N : Matrix (Fin r) (Fin c) K} (h : IsRref N) {w : Fin r → K}
    (hw : ∀ i, N i = 0 → w i = 0) {x : Fin c → K} (h1 : ∀ i j, Leads N i j → x j = w i) (h2 : ∀ j, (∀ i, ¬Leads N i j) → x j = 0) :
    N.mulVec x = w := by
  have : x = basicSolution N w := by
    funext j
    by_cases hex : ∃ i, Leads N i j
    · obtain ⟨i, hi⟩ := hex
      rw [h.basic hi, h1 i j hi]
    · rw [h2 j (not_exists.mp hex)]
      unfold basicSolution
      rw [dif_neg hex]
  rw [this]
  exact h.basic_solves hw

/-- x + 2 y = 5, z = 7: the solution x = 5, y = 0, z = 7. -/
example : (!![1, 2, 0; 0, 0, 1] : Matrix (Fin 2) (Fin 3) ℚ).mulVec ![5, 0, 7] = ![5, 7] := by
  have hl : ∀ i j, Leads (!![1, 2, 0; 0, 0, 1] : Matrix (Fin 2) (Fin 3) ℚ) i j → (i = 0 ∧ j = 0) ∨ (i = 1 ∧ j = 2) := by
    intro i j h
    fin_cases i <;> fin_cases j <;> simp_all [Leads]
  have h0 : Leads (!![1, 2, 0; 0, 0, 1] : Matrix (Fin 2) (Fin 3) ℚ) 0 0 := ⟨by simp, fun j hj => absurd hj (by simp)⟩
  have h1 : Leads (!![1, 2, 0; 0, 0, 1] : Matrix (Fin 2) (Fin 3) ℚ) 1 2 :=
    ⟨by simp, fun j hj => by fin_cases j <;> simp_all⟩
  refine C112_read_off ⟨fun h => ?_, fun {i j i'} h hne => ?_, fun {i i' j'} hlt h => ?_⟩ (fun i hi => ?_) (fun i j h => ?_) (fun j h => ?_)
  · rcases hl _ _ h with ⟨rfl, rfl⟩ | ⟨rfl, rfl⟩ <;> simp
  · rcases hl _ _ h with ⟨rfl, rfl⟩ | ⟨rfl, rfl⟩ <;> fin_cases i' <;> simp_all
  · rcases hl _ _ h with ⟨rfl, rfl⟩ | ⟨rfl, rfl⟩
    · exact absurd hlt (by simp)
    · refine ⟨0, by decide, ?_⟩
      have : i = 0 := by omega
      rw [this]; exact h0
  · fin_cases i
    · exact absurd (congrFun hi 0) (by simp)
    · exact absurd (congrFun hi 2) (by simp)
  · rcases hl _ _ h with ⟨rfl, rfl⟩ | ⟨rfl, rfl⟩ <;> rfl
  · fin_cases j
    · exact absurd h0 (h 0)
    · rfl
    · exact absurd h1 (h 1)

/-- C112. If the matrix is invertible, `augmentedMatrix(a, b).rref()` is `(1 | M⁻¹ B)`, and `a.inverse() * b` is the same solution. -/
theorem C112_invertible [Field K] (hS : S.ExactField rel A) {a b : Mat T} {n d : Nat} {M : Matrix (Fin n) (Fin n) K}
    {B : Matrix (Fin n) (Fin d) K} (ha : Mat.Is rel a M) (hb : Mat.Is rel b B) (h0 : M.det ≠ 0) :
    Out A (do let m ← Mat.augmentedMatrix a b; Mat.rref S m) (fun m => ∃ X, M * X = B ∧ (∀ X', M * X' = B → X' = X) ∧
      Mat.Is rel m (beside (1 : Matrix (Fin n) (Fin n) K) X)) ∧
    Out A (do let i ← Mat.inverse S a; Mat.mul S i b) (fun m => ∃ X, M * X = B ∧ (∀ X', M * X' = B → X' = X) ∧ Mat.Is rel m X) := by
  have hu : IsUnit M.det := isUnit_iff_ne_zero.mpr h0
  have hl := Matrix.nonsing_inv_mul M hu
  have hr := Matrix.mul_nonsing_inv M hu
  have hX : M * (M⁻¹ * B) = B := by rw [← Matrix.mul_assoc, hr, Matrix.one_mul]
  have hX' : ∀ X', M * X' = B → X' = M⁻¹ * B := fun X' h => by rw [← h, ← Matrix.mul_assoc, hl, Matrix.one_mul]
  constructor
  · obtain ⟨m, hm1, hm2⟩ := (C69_augmented (b := b) (d := d) ha).1 hb
    rw [hm1]
    have he : RowEquiv (beside M B) (beside (1 : Matrix (Fin n) (Fin n) K) (M⁻¹ * B)) := by
      refine ⟨M⁻¹, M, hl, hr, ?_⟩
      rw [mul_beside, hl]
    exact (C67_unique hS (M := beside M B) hm2 (isRref_one_beside _) he).1.mono fun m hm => ⟨_, hX, hX', hm⟩
  · exact Out.bind ((C68_inverse hS ha).1 h0) fun i ⟨h1, _⟩ =>
      (C62_product hS.toExactRing h1 hb).1.mono fun m hm => ⟨_, hX, hX', hm⟩

example := C112_invertible Ex.rat Ex.a_is Ex.v_is (by simp [Ex.aM, Matrix.det_fin_two]; norm_num)

-- x + 2 y = 5, 3 x + 4 y = 11; then an unsolvable system
example : (do let m ← Mat.augmentedMatrix (T := ℚ) ⟨2, 2, [some 1, some 2, some 3, some 4]⟩ ⟨2, 1, [some 5, some 11]⟩
              Mat.rref (Scalar.field ℚ) m) = .ok ⟨2, 3, [some 1, some 0, some 1, some 0, some 1, some 2]⟩ ∧
    (do let i ← Mat.inverse (Scalar.field ℚ) ⟨2, 2, [some 1, some 2, some 3, some 4]⟩
        Mat.mul (Scalar.field ℚ) i ⟨2, 1, [some 5, some 11]⟩) = .ok ⟨2, 1, [some 1, some 2]⟩ ∧
    (do let m ← Mat.augmentedMatrix (T := ℚ) ⟨2, 2, [some 1, some 2, some 2, some 4]⟩ ⟨2, 1, [some 5, some 11]⟩
        Mat.rref (Scalar.field ℚ) m) = .ok ⟨2, 3, [some 1, some 2, some 0, some 0, some 0, some 1]⟩ := by decide +kernel

end CppMaths
