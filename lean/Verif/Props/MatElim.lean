import Verif.Props.Mat
import Verif.Proofs.MatLU
/-!
# Properties of `Mat`: elimination, inverse, memory safety (C66-C68, C71, C84)
-/

namespace CppMaths
open Mat

variable {T K : Type} {rel : T → K → Prop} {A : Err → Prop} {S : Scalar T}

/-! ### C66: determinant -/

/-- C66. `determinant()` is the determinant of every square matrix (also of the empty one) over an exact field. -/
theorem C66_determinant [Field K] (hS : S.ExactField rel A) {a : Mat T} {n : Nat} {M : Matrix (Fin n) (Fin n) K}
    (ha : Mat.Is rel a M) : Out A (Mat.determinant S a) (fun t => rel t M.det) := determinant_ok hS ha

example := C66_determinant Ex.rat Ex.d_is

/-- C66. Over an exact field type it always returns: in particular no division by zero takes place. -/
theorem C66_returns [Field K] [DecidableEq K] {a : Mat K} {n : Nat} {M : Matrix (Fin n) (Fin n) K}
    (ha : Mat.Is (fun t k => t = k) a M) : Mat.determinant (Scalar.field K) a = .ok M.det := by
  obtain ⟨d, h1, h2⟩ := (C66_determinant (exactField_field K) ha).never
  rw [h1, h2]

example : Mat.determinant (Scalar.field ℚ) Ex.d = .ok Ex.dM.det := C66_returns Ex.d_is

/-- C66. It throws `domain_error` exactly for matrices that are not square. -/
theorem C66_throws_iff [Field K] (hS : S.ExactField rel A) (hA : ¬A .domainError) {a : Mat T} {r c : Nat}
    {M : Matrix (Fin r) (Fin c) K} (ha : Mat.Is rel a M) : Mat.determinant S a = .error .domainError ↔ r ≠ c := by
  by_cases h : r = c
  · subst h
    simp [(C66_determinant hS ha).ne_error hA]
  · simp [Mat.determinant, ha.1, ha.2.1, h]

example : Mat.determinant (Scalar.field ℚ) Ex.c = .error .domainError := (C66_throws_iff Ex.rat (Ex.never _) Ex.c_is).mpr (by decide)

/-- C66. `determinant()` and the two cofactor expansions agree on every square matrix with at least one row. -/
theorem C66_agrees_with_expansions [Field K] [DecidableEq K] {a : Mat K} {n : Nat} (hn : 1 ≤ n) {M : Matrix (Fin n) (Fin n) K}
    (ha : Mat.Is (fun t k => t = k) a M) :
    Mat.determinant (Scalar.field K) a = Mat.rowCofactor (Scalar.field K) a ∧
    Mat.determinant (Scalar.field K) a = Mat.colCofactor (Scalar.field K) a := by
  obtain ⟨h1, h2⟩ := C65_determinant (exactField_field K).toExactRing hn ha
  obtain ⟨d, e1, e2⟩ := h1.never
  obtain ⟨d', e1', e2'⟩ := h2.never
  rw [C66_returns ha, e1, e1', e2, e2']
  exact ⟨rfl, rfl⟩

example := C66_agrees_with_expansions (by decide) Ex.d_is

example : Mat.determinant (Scalar.field ℚ) ⟨3, 3, [some 0, some 2, some 1, some 3, some 1, some 1, some 1, some 1, some 5]⟩ = .ok (-26) ∧
    -- the first column is zero
    Mat.determinant (Scalar.field ℚ) ⟨3, 3, [some 0, some 2, some 1, some 0, some 1, some 1, some 0, some 1, some 5]⟩ = .ok 0 ∧
    Mat.determinant (Scalar.field ℚ) ⟨2, 3, [some 0, some 2, some 1, some 0, some 1, some 1]⟩ = .error .domainError := by decide +kernel

/-! ### C84: determinant of integer matrices -/

/-- C84 as stated is false: with `T = Int` the quotients are truncated. The matrix (2 1 0; 1 1 0; 0 0 1) has determinant 1, which
the cofactor expansion finds, but `determinant()` returns 2. -/
theorem C84_refuted_truncation :
    let i : Nat → Option BigInt := fun k => some ⟨[k], false⟩
    Mat.determinant Scalar.int ⟨3, 3, [i 2, i 1, i 0, i 1, i 1, i 0, i 0, i 0, i 1]⟩ = .ok ⟨[2], false⟩ ∧
    Mat.rowCofactor Scalar.int ⟨3, 3, [i 2, i 1, i 0, i 1, i 1, i 0, i 0, i 0, i 1]⟩ = .ok ⟨[1], false⟩ ∧
    Matrix.det (!![2, 1, 0; 1, 1, 0; 0, 0, 1] : Matrix (Fin 3) (Fin 3) ℤ) = 1 := by
  refine ⟨by decide +kernel, by decide +kernel, by simp [Matrix.det_fin_three]⟩

/-- C84, the part that holds: for matrices with one or two rows no division takes place, and `determinant()` is right over
every commutative ring. Missing: larger matrices (see below), for which the cofactor expansions of C65 can be used. -/
theorem C84_small_partial [CommRing K] (hS : S.ExactRing rel A) {a : Mat T} {n : Nat} (h1 : 1 ≤ n) (h2 : n ≤ 2)
    {M : Matrix (Fin n) (Fin n) K} (ha : Mat.Is rel a M) : Out A (Mat.determinant S a) (fun t => rel t M.det) := by
  unfold Mat.determinant
  simp only [ha.1, ha.2.1, ne_eq, not_true_eq_false, if_false]
  by_cases e1 : n = 1
  · subst e1
    rw [if_pos rfl]
    exact data0_ok ha
  · obtain rfl : n = 2 := by omega
    rw [if_neg e1, if_pos rfl]
    exact det2_ok hS ha

example := C84_small_partial Ex.rat.toExactRing (by decide) (by decide) Ex.b_is

example : Mat.determinant Scalar.int ⟨2, 2, [some ⟨[2], false⟩, some ⟨[0, 1], false⟩, some ⟨[3], true⟩, some ⟨[1], false⟩]⟩ =
    .ok ⟨[2, 3], false⟩ := by decide +kernel

/-- C84, a larger part that holds: `determinant()` is right for every integer matrix that is a product `L * U` of a lower triangular
matrix with ones on the diagonal and an upper triangular matrix with a nonzero diagonal (the last entry may be zero), if all products
`L i k * U k j`, which elimination subtracts, are integers; `L` itself may contain fractions. This holds for any scalar type of
integers whose division is exact when the quotient is an integer.
Missing: matrices for which elimination has to exchange rows (see C106) or to truncate. -/
theorem C84_fraction_free_partial {rel : T → ℤ → Prop} (hS : S.ExactRing rel A) (hM : S.ExactMulA rel A) (hD : S.ExactWhole rel A)
    {n : Nat} {a : Mat T} {M : Matrix (Fin n) (Fin n) ℤ} (ha : Mat.Is rel a M) {L U : Matrix (Fin n) (Fin n) ℚ}
    (hLU : M.map (fun z => (z : ℚ)) = L * U) (hL : ∀ i j, i < j → L i j = 0) (hL1 : ∀ i, L i i = 1) (hU : ∀ i j, j < i → U i j = 0)
    (hne : ∀ i : Fin n, i.val + 1 < n → U i i ≠ 0) (hW : ∀ i k j, ∃ z : ℤ, L i k * U k j = z) :
    Out A (Mat.determinant S a) (fun t => rel t M.det) :=
  determinant_lu hL hL1 hU hS hM hD hW hne ha hLU

/-- C84 for `Int`: the only other outcome is the abort of C06. -/
theorem C84_fraction_free_int_partial {n : Nat} {a : Mat BigInt} {M : Matrix (Fin n) (Fin n) ℤ} (ha : Mat.Is IntWFRel a M)
    {L U : Matrix (Fin n) (Fin n) ℚ} (hLU : M.map (fun z => (z : ℚ)) = L * U) (hL : ∀ i j, i < j → L i j = 0) (hL1 : ∀ i, L i i = 1)
    (hU : ∀ i j, j < i → U i j = 0) (hne : ∀ i : Fin n, i.val + 1 < n → U i i ≠ 0) (hW : ∀ i k j, ∃ z : ℤ, L i k * U k j = z) :
    Out Aborts (Mat.determinant .int a) (fun t => BigInt.WF t ∧ t.val = M.det) :=
  C84_fraction_free_partial exactRing_intWF exactMulA_intWF exactWhole_intWF ha hLU hL hL1 hU hne hW

/-- The hypotheses are satisfiable with fractions in `L`: (2 4 6; 1 5 3; 3 0 10), with determinant 6. -/
example : (!![2, 4, 6; 1, 5, 3; 3, 0, 10] : Matrix (Fin 3) (Fin 3) ℤ).map (fun z => (z : ℚ)) =
      !![1, 0, 0; 1 / 2, 1, 0; 3 / 2, -2, 1] * !![2, 4, 6; 0, 3, 0; 0, 0, 1] ∧
    (∀ i k j : Fin 3, ∃ z : ℤ, (!![1, 0, 0; 1 / 2, 1, 0; 3 / 2, -2, 1] : Matrix (Fin 3) (Fin 3) ℚ) i k *
      (!![2, 4, 6; 0, 3, 0; 0, 0, 1] : Matrix (Fin 3) (Fin 3) ℚ) k j = z) ∧
    (let i : Nat → Option BigInt := fun k => some ⟨[k], false⟩
     Mat.determinant .int ⟨3, 3, [i 2, i 4, i 6, i 1, i 5, i 3, i 3, i 0, i 10]⟩ = .ok ⟨[6], false⟩) := by
  refine ⟨?_, ?_, by decide +kernel⟩
  · ext i j
    fin_cases i <;> fin_cases j <;> simp [Matrix.mul_apply, Fin.sum_univ_three] <;> norm_num
  · intro i k j
    refine ⟨((!![1, 0, 0; 1 / 2, 1, 0; 3 / 2, -2, 1] : Matrix (Fin 3) (Fin 3) ℚ) i k *
      (!![2, 4, 6; 0, 3, 0; 0, 0, 1] : Matrix (Fin 3) (Fin 3) ℚ) k j).num, ?_⟩
    fin_cases i <;> fin_cases k <;> fin_cases j <;> simp <;> norm_num

/-! ### C67: reduced row echelon form -/

/-- C67. `rref()` and `inplace_rref()` give a matrix in reduced row echelon form that is row equivalent to the input. -/
theorem C67_rref [Field K] (hS : S.ExactField rel A) {a : Mat T} {r c : Nat} {M : Matrix (Fin r) (Fin c) K} (ha : Mat.Is rel a M) :
    Out A (Mat.rref S a) (fun m => ∃ N : Matrix (Fin r) (Fin c) K, Mat.Is rel m N ∧ RowEquiv M N ∧ IsRref N) ∧
    Out A (Mat.inplaceRref S a) (fun m => ∃ N : Matrix (Fin r) (Fin c) K, Mat.Is rel m N ∧ RowEquiv M N ∧ IsRref N) :=
  ⟨rref_ok hS ha, inplaceRref_ok hS ha⟩

example := C67_rref Ex.rat Ex.c_is

/-- C67. The result is the one and only reduced row echelon form of the input: whatever matrix `R` of this form is row
equivalent to the input, it is the result. -/
theorem C67_unique [Field K] (hS : S.ExactField rel A) {a : Mat T} {r c : Nat} {M R : Matrix (Fin r) (Fin c) K} (ha : Mat.Is rel a M)
    (hR : IsRref R) (hMR : RowEquiv M R) :
    Out A (Mat.rref S a) (fun m => Mat.Is rel m R) ∧ Out A (Mat.inplaceRref S a) (fun m => Mat.Is rel m R) := by
  have key : ∀ m : Mat T, (∃ N : Matrix (Fin r) (Fin c) K, Mat.Is rel m N ∧ RowEquiv M N ∧ IsRref N) → Mat.Is rel m R := by
    rintro m ⟨N, h1, h2, h3⟩
    rwa [← h3.unique hR (h2.symm.trans hMR)]
  exact ⟨(rref_ok hS ha).mono key, (inplaceRref_ok hS ha).mono key⟩

/-- (0 2; 1 0) is row equivalent to the unit matrix. -/
example : Out Never (Mat.rref (Scalar.field ℚ) ⟨2, 2, [some 0, some 2, some 1, some 0]⟩)
    (fun m => Mat.Is Ex.Same m (1 : Matrix (Fin 2) (Fin 2) ℚ)) :=
  (C67_unique (M := !![0, 2; 1, 0]) Ex.rat
    ⟨rfl, rfl, rfl, fun i j => by fin_cases i <;> fin_cases j <;> exact ⟨_, rfl, rfl⟩⟩ isRref_one
    ⟨!![0, 1; 1 / 2, 0], !![0, 2; 1, 0], by ext i j; fin_cases i <;> fin_cases j <;> simp, by ext i j; fin_cases i <;> fin_cases j <;> simp,
      by ext i j; fin_cases i <;> fin_cases j <;> simp⟩).1

/-- C67. The result has the same null space as the input. -/
theorem C67_null_space [Field K] (hS : S.ExactField rel A) {a : Mat T} {r c : Nat} {M : Matrix (Fin r) (Fin c) K} (ha : Mat.Is rel a M) :
    Out A (Mat.rref S a) (fun m => ∃ N : Matrix (Fin r) (Fin c) K, Mat.Is rel m N ∧ ∀ x, M.mulVec x = 0 ↔ N.mulVec x = 0) :=
  (rref_ok hS ha).mono fun _ ⟨N, h1, h2, _⟩ => ⟨N, h1, fun x => h2.null x⟩

example := C67_null_space Ex.rat Ex.s_is

/-- C67. Reducing an augmented matrix solves a system: `(M | v)` and its reduced form have the same solutions. -/
theorem C67_solutions [Field K] (hS : S.ExactField rel A) {a : Mat T} {r c : Nat} {M : Matrix (Fin r) (Fin c) K} {v : Fin r → K}
    (ha : Mat.Is rel a (Matrix.of fun i => (Fin.snoc (M i) (v i) : Fin (c + 1) → K))) :
    Out A (Mat.rref S a) (fun m => ∃ (N : Matrix (Fin r) (Fin c) K) (w : Fin r → K),
      Mat.Is rel m (Matrix.of fun i => (Fin.snoc (N i) (w i) : Fin (c + 1) → K)) ∧
      ∀ x, M.mulVec x = v ↔ N.mulVec x = w) := by
  refine (C67_null_space hS ha).mono fun m ⟨R, h1, h2⟩ => ?_
  refine ⟨fun i j => R i j.castSucc, fun i => R i (Fin.last c), ?_, fun x => ?_⟩
  · convert h1 using 1
    funext i j
    refine Fin.lastCases ?_ (fun j => ?_) j <;> simp
  · have key : ∀ L : Matrix (Fin r) (Fin (c + 1)) K, L.mulVec (Fin.snoc x (-1)) = 0 ↔
        Matrix.mulVec (fun i (j : Fin c) => L i j.castSucc) x = fun i => L i (Fin.last c) := by
      intro L
      constructor
      · intro h
        funext i
        have := congrFun h i
        simp only [Matrix.mulVec, dotProduct, Fin.sum_univ_castSucc, Fin.snoc_castSucc, Fin.snoc_last, Pi.zero_apply] at this ⊢
        linear_combination this
      · intro h
        funext i
        have := congrFun h i
        simp only [Matrix.mulVec, dotProduct, Fin.sum_univ_castSucc, Fin.snoc_castSucc, Fin.snoc_last, Pi.zero_apply] at this ⊢
        linear_combination this
    have h3 := h2 (Fin.snoc x (-1))
    rw [key, key] at h3
    simpa using h3

/-- 2 y = 4, 3 x + 3 y = 9 -/
example := C67_solutions (M := !![0, 2; 3, 3]) (v := ![4, 9]) (a := Ex.c) Ex.rat
  ⟨rfl, rfl, rfl, fun i j => by fin_cases i <;> fin_cases j <;> exact ⟨_, rfl, rfl⟩⟩

/-- C67. A matrix in reduced row echelon form is left as it is; so reducing twice is reducing once. -/
theorem C67_idempotent [Field K] (hS : S.ExactField rel A) {a : Mat T} {r c : Nat} {M : Matrix (Fin r) (Fin c) K} (ha : Mat.Is rel a M) :
    (IsRref M → Out A (Mat.rref S a) (fun m => Mat.Is rel m M)) ∧
    Out A (do let m ← Mat.rref S a; let m' ← Mat.rref S m; return (m, m'))
      (fun p => ∃ N : Matrix (Fin r) (Fin c) K, Mat.Is rel p.1 N ∧ Mat.Is rel p.2 N ∧ IsRref N) := by
  refine ⟨fun h => (C67_unique hS ha h (RowEquiv.refl M)).1, Out.bind (rref_ok hS ha) fun m ⟨N, h1, h2, h3⟩ => ?_⟩
  exact Out.bind (C67_unique hS h1 h3 (RowEquiv.refl N)).1 fun m' hm' => Out.ok ⟨N, h1, hm', h3⟩

example := C67_idempotent Ex.rat Ex.s_is

example : Mat.rref (Scalar.field ℚ) ⟨2, 3, [some 0, some 2, some 4, some 3, some 3, some 9]⟩ =
    .ok ⟨2, 3, [some 1, some 0, some 1, some 0, some 1, some 2]⟩ ∧
    Mat.rref (Scalar.field ℚ) ⟨3, 3, [some 1, some 2, some 3, some 2, some 4, some 6, some 1, some 2, some 5]⟩ =
    .ok ⟨3, 3, [some 1, some 2, some 0, some 0, some 0, some 1, some 0, some 0, some 0]⟩ := by decide +kernel
-- the two specification predicates on a matrix with a skipped column
example : IsRref (!![1, 2, 0; 0, 0, 1; 0, 0, 0] : Matrix (Fin 3) (Fin 3) ℚ) := by
  refine ⟨fun {i j} h => ?_, fun {i j i'} h hne => ?_, fun {i i' j'} hlt h => ?_⟩
  · fin_cases i <;> fin_cases j <;> simp_all [Leads]
  · fin_cases i <;> fin_cases j <;> fin_cases i' <;> simp_all [Leads]
    all_goals exact absurd (h 0 (by decide)) (by simp)
  · fin_cases i <;> fin_cases i' <;> fin_cases j' <;> simp_all [Leads]
    exact ⟨0, by decide, by simp, fun j hj => absurd hj (by simp)⟩

/-! ### C68: inverse -/

/-- C68. Over an exact field `inverse()` returns the two-sided inverse of every invertible matrix, and throws `domain_error`
for every singular one. -/
theorem C68_inverse [Field K] (hS : S.ExactField rel A) {a : Mat T} {n : Nat} {M : Matrix (Fin n) (Fin n) K} (ha : Mat.Is rel a M) :
    (M.det ≠ 0 → Out A (Mat.inverse S a) (fun m => Mat.Is rel m M⁻¹ ∧ M * M⁻¹ = 1 ∧ M⁻¹ * M = 1)) ∧
    (M.det = 0 → Out (fun e => A e ∨ e = .domainError) (Mat.inverse S a) (fun _ => False)) := by
  constructor
  · intro h0
    rcases inverse_ok hS ha with ⟨m, h1, N, h2, h3, h4⟩ | ⟨e, h1, h2 | ⟨_, h2⟩⟩
    · have : M⁻¹ = N := Matrix.inv_eq_right_inv h3
      exact .inl ⟨m, h1, by rw [this]; exact ⟨h2, h3, h4⟩⟩
    · exact .inr ⟨e, h1, h2⟩
    · exact absurd h2 h0
  · intro h0
    rcases inverse_ok hS ha with ⟨m, h1, N, h2, h3, h4⟩ | ⟨e, h1, h2 | ⟨h2, _⟩⟩
    · have := congrArg Matrix.det h3
      rw [Matrix.det_mul, h0, zero_mul, Matrix.det_one] at this
      exact absurd this zero_ne_one
    · exact .inr ⟨e, h1, .inl h2⟩
    · exact .inr ⟨e, h1, .inr h2⟩

example : Out Never (Mat.inverse (Scalar.field ℚ) Ex.d) (fun m => Mat.Is Ex.Same m Ex.dM⁻¹ ∧ Ex.dM * Ex.dM⁻¹ = 1 ∧ Ex.dM⁻¹ * Ex.dM = 1) :=
  (C68_inverse Ex.rat Ex.d_is).1 (by simp [Ex.dM, Matrix.det_fin_three]; norm_num)

/-- C68. Over an exact field type: `inverse()` throws `domain_error` exactly if the matrix is not square or singular, and
otherwise returns the inverse. -/
theorem C68_throws_iff [Field K] [DecidableEq K] {a : Mat K} {r c : Nat} {M : Matrix (Fin r) (Fin c) K}
    (ha : Mat.Is (fun t k => t = k) a M) :
    (Mat.inverse (Scalar.field K) a = .error .domainError ↔ ¬∃ h : r = c, (M.submatrix id (Fin.cast h)).det ≠ 0) ∧
    (∀ h : r = c, (M.submatrix id (Fin.cast h)).det ≠ 0 →
      ∃ m, Mat.inverse (Scalar.field K) a = .ok m ∧ Mat.Is (fun t k => t = k) m (M.submatrix id (Fin.cast h))⁻¹) := by
  by_cases h : r = c
  · subst h
    have e : M.submatrix id (Fin.cast (rfl : r = r)) = M := rfl
    obtain ⟨h1, h2⟩ := C68_inverse (exactField_field K) ha
    refine ⟨?_, fun h hd => ?_⟩
    · by_cases h0 : M.det = 0
      · rcases h2 h0 with ⟨_, _, h⟩ | ⟨e, h3, h | rfl⟩
        · exact h.elim
        · exact h.elim
        · simp [h3, h0]
      · have := (h1 h0).ne_error (e := .domainError) (fun h => h)
        simp [this, h0]
    · obtain ⟨m, m1, m2, _⟩ := (h1 hd).never
      exact ⟨m, m1, m2⟩
  · refine ⟨?_, fun h' => absurd h' h⟩
    simp [Mat.inverse, ha.1, ha.2.1, h]

example : Mat.inverse (Scalar.field ℚ) Ex.s = .error .domainError :=
  (C68_throws_iff Ex.s_is).1.mpr (by rintro ⟨_, h⟩; exact h (by simp [Ex.sM, Matrix.det_fin_three]; norm_num))

/-- C68. Multiplying a matrix by its inverse gives the identity matrix, as calls of the API. -/
theorem C68_roundtrip [Field K] [DecidableEq K] {a : Mat K} {n : Nat} {M : Matrix (Fin n) (Fin n) K}
    (ha : Mat.Is (fun t k => t = k) a M) (h0 : M.det ≠ 0) :
    (do let i ← Mat.inverse (Scalar.field K) a; let p ← Mat.mul (Scalar.field K) a i
        let id ← Mat.identityMatrix (Scalar.field K) n; Mat.eq (Scalar.field K) p id) = .ok true := by
  have hF := exactField_field K
  have key : Out Never (do let i ← Mat.inverse (Scalar.field K) a; let p ← Mat.mul (Scalar.field K) a i
                           let id ← Mat.identityMatrix (Scalar.field K) n; Mat.eq (Scalar.field K) p id) (fun d => d = true) := by
    refine Out.bind ((C68_inverse hF ha).1 h0) fun i ⟨h1, h2, _⟩ => ?_
    refine Out.bind (C62_product hF.toExactRing ha h1).1 fun p hp => ?_
    refine Out.bind (C69_diagonal (vals := List.replicate n (0 : K)) (d := fun _ => 0) hF.toExactRing n
      ⟨by simp, fun i => ⟨0, by simp, rfl⟩⟩).1 fun id hid => ?_
    rw [h2] at hp
    exact (C72_equality hF.toExactRing hp hid).1.mono fun d hd => hd.mpr ⟨rfl, rfl, fun i j => rfl⟩
  obtain ⟨d, h1, rfl⟩ := key.never
  exact h1

example := C68_roundtrip Ex.d_is (by simp [Ex.dM, Matrix.det_fin_three]; norm_num)

example : Mat.inverse (Scalar.field ℚ) ⟨2, 2, [some 0, some 2, some 1, some 3]⟩ =
    .ok ⟨2, 2, [some (-3 / 2), some 1, some (1 / 2), some 0]⟩ ∧
    Mat.inverse (Scalar.field ℚ) ⟨2, 2, [some 1, some 2, some 2, some 4]⟩ = .error .domainError ∧
    Mat.inverse (Scalar.field ℚ) ⟨1, 2, [some 1, some 2]⟩ = .error .domainError := by decide +kernel

/-! ### C71: memory safety -/

/-- C71 as stated is false: `first_minor` and `cofactor` of an empty matrix compute `rows - 1` for `rows = 0`. -/
theorem C71_refuted_empty_minor : Mat.firstMinor (T := ℚ) ⟨0, 0, []⟩ 0 0 = .error .ub ∧
    Mat.cofactor (Scalar.field ℚ) ⟨0, 0, []⟩ 0 0 = .error .ub := by decide +kernel

/-- C71, the part that holds, for the operations that need no division: applied to initialised matrices of any (also
mismatched) dimensions they neither leave the buffers nor read a cell of a fresh matrix before it is written (both would be
`ub`). Minors: of matrices with at least one row and column, for any `i` and `j`, also out of range. -/
theorem C71_ring_partial [CommRing K] (hS : S.ExactRing rel A) (hN : S.ExactNeg rel A) (hM : S.ExactMulA rel A) (hA : ¬A .ub) {a b : Mat T}
    {r c r' c' : Nat} {M : Matrix (Fin r) (Fin c) K} {N : Matrix (Fin r') (Fin c') K} (ha : Mat.Is rel a M) (hb : Mat.Is rel b N)
    {t : T} {k : K} (ht : rel t k) :
    a.copy ≠ .error .ub ∧ Mat.assign b a ≠ .error .ub ∧ a.transpose ≠ .error .ub ∧ Mat.trace S a ≠ .error .ub ∧
    Mat.neg S a ≠ .error .ub ∧ Mat.add S a b ≠ .error .ub ∧ Mat.sub S a b ≠ .error .ub ∧
    Mat.addAssign S a b ≠ .error .ub ∧ Mat.subAssign S a b ≠ .error .ub ∧
    Mat.addAssignSelf S a ≠ .error .ub ∧ Mat.subAssignSelf S a ≠ .error .ub ∧
    Mat.smul S t a ≠ .error .ub ∧ Mat.mulScalar S a t ≠ .error .ub ∧ Mat.mulAssignScalar S a t ≠ .error .ub ∧
    (∀ (i : Fin r) (j : Fin c), Mat.mulAssignEntry S a i j ≠ .error .ub) ∧
    Mat.mul S a b ≠ .error .ub ∧ Mat.mulAssign S a b ≠ .error .ub ∧ Mat.eq S a b ≠ .error .ub ∧ Mat.ne S a b ≠ .error .ub ∧
    Mat.augmentedMatrix a b ≠ .error .ub ∧ (∀ n, Mat.identityMatrix S n ≠ .error .ub) ∧
    Mat.rowCofactor S a ≠ .error .ub ∧ Mat.colCofactor S a ≠ .error .ub ∧
    (1 ≤ r → 1 ≤ c → ∀ i j, Mat.firstMinor a i j ≠ .error .ub ∧ Mat.cofactor S a i j ≠ .error .ub) := by
  have hR := hA
  obtain ⟨⟨_, c1, _⟩, ⟨_, c2, _⟩, _⟩ := C72_copy (b := b) ha
  obtain ⟨_, c3, _⟩ := C63_transpose ha
  obtain ⟨s1, s2, s3, s4⟩ := C61_negate_scale hS ha ht
  obtain ⟨_, _, _, _, e5, e6⟩ := C61_entrywise hS ha ha
  have dims : (r = r' ∧ c = c') → Mat.add S a b ≠ .error .ub ∧ Mat.sub S a b ≠ .error .ub ∧
      Mat.addAssign S a b ≠ .error .ub ∧ Mat.subAssign S a b ≠ .error .ub := by
    rintro ⟨rfl, rfl⟩
    obtain ⟨h1, h2, h3, h4, _⟩ := C61_entrywise hS ha hb
    exact ⟨h1.ne_error hA, h2.ne_error hA, h3.ne_error hA, h4.ne_error hA⟩
  have dims' : ¬(r = r' ∧ c = c') → Mat.add S a b ≠ .error .ub ∧ Mat.sub S a b ≠ .error .ub ∧
      Mat.addAssign S a b ≠ .error .ub ∧ Mat.subAssign S a b ≠ .error .ub := by
    intro h
    have hd : dimensionsMatch a b = false := by
      simp only [dimensionsMatch, ha.1, ha.2.1, hb.1, hb.2.1]
      rw [Bool.eq_false_iff]
      simpa using h
    simp [Mat.add, Mat.sub, Mat.addAssign, Mat.subAssign, Mat.addAssignRef, Mat.subAssignRef, hd]
  have four := (Classical.em (r = r' ∧ c = c')).elim dims dims'
  refine ⟨by rw [c1]; simp, by rw [c2]; simp, by rw [c3]; simp, ?_, (s4 hN).ne_error hA, four.1, four.2.1, four.2.2.1, four.2.2.2,
    e5.ne_error hA, e6.ne_error hA, s1.ne_error hA, s2.ne_error hA, (s3 hM).ne_error hA,
    fun i j => (C70_multiply_by_entry_partial hM ha i j).1.ne_error hA, ?_, ?_, (C72_equality hS ha hb).1.ne_error hA,
    (C72_equality hS ha hb).2.ne_error hA, ?_, fun n => (identityMatrix_ok hS n).ne_error hA, ?_, ?_, fun h1 h2 i j => ?_⟩
  · by_cases h : r = c
    · subst h; exact ((C63_trace hS).1 ha).ne_error hA
    · simp [Mat.trace, ha.1, ha.2.1, h]
  · by_cases h : c = r'
    · subst h; exact (C62_product hS ha hb).1.ne_error hA
    · simp [Mat.mul, ha.2.1, hb.1, h]
  · by_cases h : c = r'
    · subst h; exact (C62_product hS ha hb).2.ne_error hA
    · simp [Mat.mulAssign, ha.2.1, hb.1, h]
  · by_cases h : r = r'
    · subst h
      obtain ⟨_, h1, _⟩ := (C69_augmented (b := b) (d := c') ha).1 hb
      rw [h1]; simp
    · simp [Mat.augmentedMatrix, ha.1, hb.1, h]
  · by_cases h : r = c
    · subst h
      rcases Nat.eq_zero_or_pos r with rfl | h0
      · simp only [Mat.rowCofactor, Mat.rowCofactorF, ha.1, ha.2.1, ne_eq, not_true_eq_false, if_false, forUp, zero_ne_one,
          if_neg (show ¬(0 = 2) by omega)]
        exact (Out.bind (hS.ofInt 0 (.inl rfl)) fun z _ => Out.ok (P := fun _ => True) trivial).ne_error hA
      · exact (C65_determinant hS h0 ha).1.ne_error hA
    · simp [Mat.rowCofactor, Mat.rowCofactorF, ha.1, ha.2.1, h]
  · by_cases h : r = c
    · subst h
      rcases Nat.eq_zero_or_pos r with rfl | h0
      · simp only [Mat.colCofactor, Mat.colCofactorF, ha.1, ha.2.1, ne_eq, not_true_eq_false, if_false, forUp, zero_ne_one,
          if_neg (show ¬(0 = 2) by omega)]
        exact (Out.bind (hS.ofInt 0 (.inl rfl)) fun z _ => Out.ok (P := fun _ => True) trivial).ne_error hA
      · exact (C65_determinant hS h0 ha).2.ne_error hA
    · simp [Mat.colCofactor, Mat.colCofactorF, ha.1, ha.2.1, h]
  · obtain ⟨r, rfl⟩ : ∃ k, r = k + 1 := ⟨r - 1, by omega⟩
    obtain ⟨c, rfl⟩ : ∃ k, c = k + 1 := ⟨c - 1, by omega⟩
    have hmin := firstMinor_ok (A := A) ha.full i j
    refine ⟨hmin.ne_error hA, ?_⟩
    unfold Mat.cofactor
    by_cases h : (i + j) % 2 = 1
    · rw [if_pos h]
      refine (Out.bind (P := _) (Q := fun _ => True) hmin fun m hm => ?_).ne_error hA
      have hm' := hm.is (M := fun x y => ext M (if x.val ≥ i then x.val + 1 else x.val) (if y.val ≥ j then y.val + 1 else y.val))
        fun _ _ => rfl
      exact ((C61_negate_scale hS hm' ht).2.2.2 hN).mono fun _ _ => trivial
    · rw [if_neg h]; exact hmin.ne_error hA

/-- Matrices of different dimensions. -/
example := C71_ring_partial Ex.rat.toExactRing Ex.rat.neg Ex.rat.mulA (Ex.never _) Ex.a_is Ex.c_is (t := 5) rfl

/-- C71, the part that holds, for the operations that divide. -/
theorem C71_field_partial [Field K] (hS : S.ExactField rel A) (hA : ¬A .ub) {a : Mat T} {r c : Nat} {M : Matrix (Fin r) (Fin c) K}
    (ha : Mat.Is rel a M) {t : T} {k : K} (ht : rel t k) (hk : k ≠ 0) :
    Mat.determinant S a ≠ .error .ub ∧ Mat.rref S a ≠ .error .ub ∧ Mat.inplaceRref S a ≠ .error .ub ∧
    Mat.inverse S a ≠ .error .ub ∧ Mat.divScalar S a t ≠ .error .ub ∧ Mat.divAssignScalar S a t ≠ .error .ub ∧
    (∀ (i : Fin r) (j : Fin c), M i j ≠ 0 → Mat.divAssignEntry S a i j ≠ .error .ub) := by
  obtain ⟨d1, d2⟩ := C61_divide hS.div hS.divA ha ht hk
  refine ⟨?_, (C67_rref hS ha).1.ne_error hA, (C67_rref hS ha).2.ne_error hA, ?_, d1.ne_error hA, d2.ne_error hA,
    fun i j h => (C70_divide_by_entry_partial hS.divA ha i j h).1.ne_error hA⟩
  · by_cases h : r = c
    · subst h; exact (C66_determinant hS ha).ne_error hA
    · simp [Mat.determinant, ha.1, ha.2.1, h]
  · by_cases h : r = c
    · subst h
      exact (inverse_ok hS ha).ne_error (by simp [hA])
    · simp [Mat.inverse, ha.1, ha.2.1, h]

example := C71_field_partial Ex.rat (Ex.never _) Ex.c_is (t := 5) rfl (by norm_num)

end CppMaths
