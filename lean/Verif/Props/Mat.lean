import Verif.Proofs.Witness
import Verif.Proofs.MatMore
import Verif.Proofs.ScalarInst
/-!
# Properties of `Mat` (C61-C65, C69-C72, C83)

`Mat.Is rel m M` reads: the object `m` is fully initialised and stands for the matrix `M` over `K`. `Out A r P` reads: the
call `r` returns something with property `P`, or ends in a failure that the scalar operations are allowed (`A`). See
`Verif/Spec/Linear.lean`.
-/

namespace CppMaths
open Mat

variable {T K : Type} {rel : T → K → Prop} {A : Err → Prop} {S : Scalar T}

/-! ### C61: entrywise operations -/

/-- C61. `a + b`, `a - b`, `a += b`, `a -= b` are entrywise, also if `b` is `a` itself. -/
theorem C61_entrywise [CommRing K] (hS : S.ExactRing rel A) {a b : Mat T} {r c : Nat} {M N : Matrix (Fin r) (Fin c) K}
    (ha : Mat.Is rel a M) (hb : Mat.Is rel b N) :
    Out A (Mat.add S a b) (fun m => Mat.Is rel m (M + N)) ∧ Out A (Mat.sub S a b) (fun m => Mat.Is rel m (M - N)) ∧
    Out A (Mat.addAssign S a b) (fun m => Mat.Is rel m (M + N)) ∧
    Out A (Mat.subAssign S a b) (fun m => Mat.Is rel m (M - N)) ∧
    Out A (Mat.addAssignSelf S a) (fun m => Mat.Is rel m (M + M)) ∧
    Out A (Mat.subAssignSelf S a) (fun m => Mat.Is rel m (0 : Matrix (Fin r) (Fin c) K)) := by
  have fa := ha.full
  have fb := hb.full
  have hd : dimensionsMatch a b = true := by simp [dimensionsMatch, ha.1, ha.2.1, hb.1, hb.2.1]
  have hd' : dimensionsMatch a a = true := by simp [dimensionsMatch]
  simp only [Mat.add, Mat.sub, Mat.addAssign, Mat.subAssign, Mat.addAssignSelf, Mat.subAssignSelf, Mat.addAssignRef,
    Mat.subAssignRef, id, hd, hd', Bool.not_true, Bool.false_eq_true, if_false]
  refine ⟨?_, ?_, ?_, ?_, ?_, ?_⟩
  · rw [ha.1, ha.2.1]
    refine (pass_ok (G := fun i j => ext M i j + ext N i j) (alloc_on r c (ext M)) fun i j m' hi hj hm' => ?_).mono
      fun m hm => hm.is fun i j => by simp [ext_fin]
    refine Out.bind (fa.get hi hj trivial) fun x hx => ?_
    refine Out.bind (fb.get hi hj trivial) fun y hy => ?_
    exact Out.bind (hS.add hx hy) fun t ht => hm'.step hi hj ht
  · rw [ha.1, ha.2.1]
    refine (pass_ok (G := fun i j => ext M i j - ext N i j) (alloc_on r c (ext M)) fun i j m' hi hj hm' => ?_).mono
      fun m hm => hm.is fun i j => by simp [ext_fin]
    refine Out.bind (fa.get hi hj trivial) fun x hx => ?_
    refine Out.bind (fb.get hi hj trivial) fun y hy => ?_
    exact Out.bind (hS.sub hx hy) fun t ht => hm'.step hi hj ht
  · exact (zipLoop_ok (G := ext N) (H := fun i j => ext M i j + ext N i j) fa (fun _ _ => hS.addA)
      (fun i j m' hi hj _ => fb.get hi hj trivial)).mono fun m hm => hm.is fun i j => by simp [ext_fin]
  · exact (zipLoop_ok (G := ext N) (H := fun i j => ext M i j - ext N i j) fa (fun _ _ => hS.subA)
      (fun i j m' hi hj _ => fb.get hi hj trivial)).mono fun m hm => hm.is fun i j => by simp [ext_fin]
  · exact (zipLoop_ok (G := ext M) (H := fun i j => ext M i j + ext M i j) fa (fun _ _ => hS.addA)
      (fun i j m' hi hj hm' => hm'.get hi hj trivial)).mono fun m hm => hm.is fun i j => by simp [ext_fin]
  · exact (zipLoop_ok (G := ext M) (H := fun i j => ext M i j - ext M i j) fa (fun _ _ => hS.subA)
      (fun i j m' hi hj hm' => hm'.get hi hj trivial)).mono fun m hm => hm.is fun i j => by simp

example := C61_entrywise Ex.rat.toExactRing Ex.a_is Ex.b_is

/-- C61. They throw `domain_error` exactly if the dimensions differ (provided the scalar operations never throw it). -/
theorem C61_throws_iff [CommRing K] (hS : S.ExactRing rel A) (hA : ¬A .domainError) {a b : Mat T} {r c r' c' : Nat}
    {M : Matrix (Fin r) (Fin c) K} {N : Matrix (Fin r') (Fin c') K} (ha : Mat.Is rel a M) (hb : Mat.Is rel b N) :
    (Mat.add S a b = .error .domainError ↔ ¬(r = r' ∧ c = c')) ∧ (Mat.sub S a b = .error .domainError ↔ ¬(r = r' ∧ c = c')) ∧
    (Mat.addAssign S a b = .error .domainError ↔ ¬(r = r' ∧ c = c')) ∧
    (Mat.subAssign S a b = .error .domainError ↔ ¬(r = r' ∧ c = c')) := by
  by_cases h : r = r' ∧ c = c'
  · obtain ⟨rfl, rfl⟩ := h
    obtain ⟨h1, h2, h3, h4, _⟩ := C61_entrywise hS ha hb
    simp [h1.ne_error hA, h2.ne_error hA, h3.ne_error hA, h4.ne_error hA]
  · have hd : dimensionsMatch a b = false := by
      simp only [dimensionsMatch, ha.1, ha.2.1, hb.1, hb.2.1]
      rw [Bool.eq_false_iff]
      simpa using h
    simp [Mat.add, Mat.sub, Mat.addAssign, Mat.subAssign, Mat.addAssignRef, Mat.subAssignRef, hd, h]

example : Mat.add (Scalar.field ℚ) Ex.a Ex.c = .error .domainError :=
  (C61_throws_iff Ex.rat.toExactRing (Ex.never _) Ex.a_is Ex.c_is).1.mpr (by decide)

/-- C61. Unary minus, and the product with a scalar on either side and by `*=`. -/
theorem C61_negate_scale [CommRing K] (hS : S.ExactRing rel A) {a : Mat T} {r c : Nat} {M : Matrix (Fin r) (Fin c) K}
    (ha : Mat.Is rel a M) {t : T} {k : K} (ht : rel t k) :
    Out A (Mat.smul S t a) (fun m => Mat.Is rel m (k • M)) ∧ Out A (Mat.mulScalar S a t) (fun m => Mat.Is rel m (k • M)) ∧
    (S.ExactMulA rel A → Out A (Mat.mulAssignScalar S a t) (fun m => Mat.Is rel m (k • M))) ∧
    (S.ExactNeg rel A → Out A (Mat.neg S a) (fun m => Mat.Is rel m (-M))) := by
  have fa := ha.full
  have h1 : Out A (Mat.smul S t a) (fun m => Mat.Is rel m (k • M)) := by
    unfold Mat.smul
    rw [ha.1, ha.2.1]
    refine (pass_ok (G := fun i j => k * ext M i j) (alloc_on r c (ext M)) fun i j m' hi hj hm' => ?_).mono
      fun m hm => hm.is fun i j => by simp [ext_fin]
    refine Out.bind (fa.get hi hj trivial) fun x hx => ?_
    exact Out.bind (hS.mul ht hx) fun t ht => hm'.step hi hj ht
  refine ⟨h1, h1, fun hM => ?_, fun hN => ?_⟩
  · exact (mapLoop_ok (H := fun i j => ext M i j * k) fa (fun _ _ hx => hM hx ht)).mono
      fun m hm => hm.is fun i j => by simp [ext_fin, mul_comm]
  · unfold Mat.neg
    rw [ha.1, ha.2.1]
    refine (pass_ok (G := fun i j => -ext M i j) (alloc_on r c (ext M)) fun i j m' hi hj hm' => ?_).mono
      fun m hm => hm.is fun i j => by simp [ext_fin]
    refine Out.bind (fa.get hi hj trivial) fun x hx => ?_
    exact Out.bind (hN hx) fun t ht => hm'.step hi hj ht

example := C61_negate_scale exactRing_int Ex.z_is (t := ⟨[5, 1], true⟩) (k := -1000000005) ⟨by decide, by decide⟩

/-- C61. Division by a nonzero scalar, by `/` and `/=`. -/
theorem C61_divide [Field K] (hD : S.ExactDiv rel A) (hDA : S.ExactDivA rel A) {a : Mat T} {r c : Nat}
    {M : Matrix (Fin r) (Fin c) K} (ha : Mat.Is rel a M) {t : T} {k : K} (ht : rel t k) (hk : k ≠ 0) :
    Out A (Mat.divScalar S a t) (fun m => Mat.Is rel m (k⁻¹ • M)) ∧
    Out A (Mat.divAssignScalar S a t) (fun m => Mat.Is rel m (k⁻¹ • M)) := by
  have fa := ha.full
  constructor
  · unfold Mat.divScalar
    rw [ha.1, ha.2.1]
    refine (pass_ok (G := fun i j => ext M i j / k) (alloc_on r c (ext M)) fun i j m' hi hj hm' => ?_).mono
      fun m hm => hm.is fun i j => by simp [ext_fin, div_eq_inv_mul]
    refine Out.bind (fa.get hi hj trivial) fun x hx => ?_
    exact Out.bind (hD hx ht hk) fun t ht => hm'.step hi hj ht
  · exact (mapLoop_ok (H := fun i j => ext M i j / k) fa (fun _ _ hx => hDA hx ht hk)).mono
      fun m hm => hm.is fun i j => by simp [ext_fin, div_eq_inv_mul]

example := C61_divide Ex.rat.div Ex.rat.divA Ex.c_is (t := 4) rfl (by norm_num)

-- the hypotheses can be met: exact rationals and big integers
example : Mat.Is (fun t k => t = k) ⟨2, 2, [some 1, some (-2), some 3, some (1 / 2)]⟩ (!![1, -2; 3, 1 / 2] : Matrix (Fin 2) (Fin 2) ℚ) :=
  ⟨rfl, rfl, rfl, fun i j => by fin_cases i <;> fin_cases j <;> exact ⟨_, rfl, rfl⟩⟩
example : Mat.Is IntRel ⟨1, 2, [some ⟨[5, 1], true⟩, some ⟨[7], false⟩]⟩ (!![-1000000005, 7] : Matrix (Fin 1) (Fin 2) ℤ) :=
  ⟨rfl, rfl, rfl, fun i j => by fin_cases i <;> fin_cases j <;> exact ⟨_, rfl, by decide, by decide⟩⟩

deriving instance DecidableEq for Mat

example : Mat.add (Scalar.field ℚ) ⟨1, 2, [some 1, some (-2)]⟩ ⟨1, 2, [some 3, some (1 / 2)]⟩ = .ok ⟨1, 2, [some 4, some (-3 / 2)]⟩ ∧
    Mat.subAssignSelf (Scalar.field ℚ) ⟨1, 2, [some 1, some (-2)]⟩ = .ok ⟨1, 2, [some 0, some 0]⟩ ∧
    Mat.add (Scalar.field ℚ) ⟨1, 2, [some 1, some (-2)]⟩ ⟨2, 1, [some 3, some (1 / 2)]⟩ = .error .domainError ∧
    Mat.divScalar (Scalar.field ℚ) ⟨1, 2, [some 1, some (-2)]⟩ 4 = .ok ⟨1, 2, [some (1 / 4), some (-1 / 2)]⟩ := by decide +kernel

/-! ### C62: the product -/

/-- C62. `a * b` and `a *= b` are the matrix product. `b` may be `a`. -/
theorem C62_product [CommRing K] (hS : S.ExactRing rel A) {a b : Mat T} {r n c : Nat} {M : Matrix (Fin r) (Fin n) K}
    {N : Matrix (Fin n) (Fin c) K} (ha : Mat.Is rel a M) (hb : Mat.Is rel b N) :
    Out A (Mat.mul S a b) (fun m => Mat.Is rel m (M * N)) ∧ Out A (Mat.mulAssign S a b) (fun m => Mat.Is rel m (M * N)) := by
  have key : ∀ (i : Fin r) (j : Fin c), ∑ k ∈ Finset.range n, ext M i k * ext N k j = (M * N) i j := fun i j => by
    rw [Finset.sum_range, Matrix.mul_apply]
    simp only [ext_fin]
  obtain ⟨h1, h2⟩ := mul_ok hS ha.full hb.full
  exact ⟨h1.mono fun m hm => hm.is key, h2.mono fun m hm => hm.is key⟩

example := C62_product Ex.rat.toExactRing Ex.a_is Ex.c_is

/-- C62. `a *= a` is the square. -/
theorem C62_square [CommRing K] (hS : S.ExactRing rel A) {a : Mat T} {n : Nat} {M : Matrix (Fin n) (Fin n) K}
    (ha : Mat.Is rel a M) : Out A (Mat.mulAssign S a a) (fun m => Mat.Is rel m (M ^ 2)) := by
  rw [pow_two]
  exact (C62_product hS ha ha).2

example := C62_square exactRing_int Ex.z_is

/-- C62. They throw `domain_error` exactly if the inner dimensions differ. -/
theorem C62_throws_iff [CommRing K] (hS : S.ExactRing rel A) (hA : ¬A .domainError) {a b : Mat T} {r n n' c : Nat}
    {M : Matrix (Fin r) (Fin n) K} {N : Matrix (Fin n') (Fin c) K} (ha : Mat.Is rel a M) (hb : Mat.Is rel b N) :
    (Mat.mul S a b = .error .domainError ↔ n ≠ n') ∧ (Mat.mulAssign S a b = .error .domainError ↔ n ≠ n') := by
  by_cases h : n = n'
  · subst h
    obtain ⟨h1, h2⟩ := C62_product hS ha hb
    simp [h1.ne_error hA, h2.ne_error hA]
  · simp [Mat.mul, Mat.mulAssign, ha.2.1, hb.1, h]

example : Mat.mul (Scalar.field ℚ) Ex.c Ex.a = .error .domainError :=
  (C62_throws_iff Ex.rat.toExactRing (Ex.never _) Ex.c_is Ex.a_is).1.mpr (by decide)

example : Mat.mul (Scalar.field ℚ) ⟨2, 1, [some 3, some 4]⟩ ⟨1, 2, [some 5, some 7]⟩ =
    .ok ⟨2, 2, [some 15, some 21, some 20, some 28]⟩ ∧
    Mat.mulAssign (Scalar.field ℚ) ⟨2, 2, [some 1, some 1, some 0, some 1]⟩ ⟨2, 2, [some 1, some 1, some 0, some 1]⟩ =
    .ok ⟨2, 2, [some 1, some 2, some 0, some 1]⟩ ∧
    Mat.mul (Scalar.field ℚ) ⟨2, 1, [some 3, some 4]⟩ ⟨2, 1, [some 5, some 7]⟩ = .error .domainError := by decide +kernel

/-! ### C63: transpose and trace -/

/-- C63. `transpose()` is the transpose, for scalar types of any kind. -/
theorem C63_transpose [Zero K] {a : Mat T} {r c : Nat} {M : Matrix (Fin r) (Fin c) K} (ha : Mat.Is rel a M) :
    ∃ m, Mat.transpose a = .ok m ∧ Mat.Is rel m M.transpose := by
  exact Out.never ((transpose_ok (A := Never) ha.full).mono fun m hm => hm.is fun i j => by rw [ext_fin]; rfl)

example := C63_transpose Ex.c_is

/-- C63. `m.transpose().transpose()` is `m`, object by object. -/
theorem C63_involution (a : Mat T) (hl : a.data.length = a.rows * a.cols) (h : ∀ o ∈ a.data, o ≠ none) :
    (do let t ← Mat.transpose a; Mat.transpose t) = .ok a := by
  have h1 : Out Never (do let t ← Mat.transpose a; Mat.transpose t)
      (fun m => Full (fun t o => some t = o) m a.rows a.cols a.cell) :=
    Out.bind (transpose_ok (full_cell hl h)) fun m hm => transpose_ok hm
  obtain ⟨m, h2, h3⟩ := h1.never
  rw [h2, eq_of_full_cell hl h h3]

example : (do let t ← Mat.transpose Ex.c; Mat.transpose t) = .ok Ex.c := C63_involution _ rfl (by decide)

/-- C63. `trace()` is the trace, and it throws `domain_error` exactly for matrices that are not square. -/
theorem C63_trace [CommRing K] (hS : S.ExactRing rel A) {a : Mat T} :
    (∀ {n : Nat} {M : Matrix (Fin n) (Fin n) K}, Mat.Is rel a M → Out A (Mat.trace S a) (fun t => rel t M.trace)) ∧
    (¬A .domainError → ∀ {r c : Nat} {M : Matrix (Fin r) (Fin c) K}, Mat.Is rel a M →
      (Mat.trace S a = .error .domainError ↔ r ≠ c)) := by
  have h1 : ∀ {n : Nat} {M : Matrix (Fin n) (Fin n) K}, Mat.Is rel a M → Out A (Mat.trace S a) (fun t => rel t M.trace) := by
    intro n M ha
    refine (trace_ok hS ha.full).mono fun t ht => ?_
    rw [Finset.sum_range] at ht
    simp only [ext_fin] at ht
    exact ht
  refine ⟨h1, fun hA r c M ha => ?_⟩
  by_cases h : r = c
  · subst h
    simp [(h1 ha).ne_error hA]
  · simp [Mat.trace, ha.1, ha.2.1, h]

example : Mat.trace (Scalar.field ℚ) Ex.c = .error .domainError ∧ Out Never (Mat.trace (Scalar.field ℚ) Ex.d) (fun t => t = Ex.dM.trace) :=
  ⟨((C63_trace Ex.rat.toExactRing).2 (Ex.never _) Ex.c_is).mpr (by decide), (C63_trace Ex.rat.toExactRing).1 Ex.d_is⟩

example : Mat.transpose (T := ℚ) ⟨2, 3, [some 1, some 2, some 3, some 4, some 5, some 6]⟩ =
    .ok ⟨3, 2, [some 1, some 4, some 2, some 5, some 3, some 6]⟩ ∧
    Mat.trace (Scalar.field ℚ) ⟨2, 2, [some 1, some 2, some 3, some 4]⟩ = .ok 5 := by decide +kernel

/-! ### C64: minors and cofactors -/

/-- C64. `first_minor(i, j)` deletes row `i` and column `j`. -/
theorem C64_minor [Zero K] {a : Mat T} {r c : Nat} {M : Matrix (Fin (r + 1)) (Fin (c + 1)) K} (ha : Mat.Is rel a M)
    (i : Fin (r + 1)) (j : Fin (c + 1)) :
    ∃ m, Mat.firstMinor a i j = .ok m ∧ Mat.Is rel m (M.submatrix i.succAbove j.succAbove) :=
  Out.never (firstMinor_is ha i j)

example := C64_minor Ex.c_is 1 2

/-- C64. `cofactor(i, j)` is the minor, negated if `i + j` is odd. -/
theorem C64_cofactor [CommRing K] (hN : S.ExactNeg rel A) {a : Mat T} {r c : Nat} {M : Matrix (Fin (r + 1)) (Fin (c + 1)) K}
    (ha : Mat.Is rel a M) (i : Fin (r + 1)) (j : Fin (c + 1)) :
    Out A (Mat.cofactor S a i j) (fun m => Mat.Is rel m ((-1 : K) ^ (i.val + j.val) • M.submatrix i.succAbove j.succAbove)) := by
  unfold Mat.cofactor
  by_cases h : (i.val + j.val) % 2 = 1
  · rw [if_pos h, Odd.neg_one_pow (Nat.odd_iff.mpr h)]
    refine Out.bind (firstMinor_is ha i j) fun m hm => ?_
    have fa := hm.full
    unfold Mat.neg
    rw [hm.1, hm.2.1]
    refine (pass_ok (G := fun x y => -ext (M.submatrix i.succAbove j.succAbove) x y) (alloc_on r c fun _ _ => 0)
      fun x y m' hx hy hm' => ?_).mono fun m hm => hm.is fun x y => by simp [ext_fin]
    refine Out.bind (fa.get hx hy trivial) fun u hu => ?_
    exact Out.bind (hN hu) fun t ht => hm'.step hx hy ht
  · rw [if_neg h, Even.neg_one_pow (Nat.even_iff.mpr (by omega)), one_smul]
    exact firstMinor_is ha i j

example := C64_cofactor (rel := IntRel) exactNeg_int Ex.z_is 1 2

example : Mat.cofactor (Scalar.field ℚ) ⟨3, 3, [some 1, some 2, some 3, some 4, some 5, some 6, some 7, some 8, some 9]⟩ 1 2 =
    .ok ⟨2, 2, [some (-1), some (-2), some (-7), some (-8)]⟩ := by decide +kernel

/-! ### C65: cofactor expansions -/

/-- C65. Both cofactor expansions are the determinant of every square matrix with at least one row, over any commutative
ring. -/
theorem C65_determinant [CommRing K] (hS : S.ExactRing rel A) {a : Mat T} {n : Nat} (hn : 1 ≤ n) {M : Matrix (Fin n) (Fin n) K}
    (ha : Mat.Is rel a M) :
    Out A (Mat.rowCofactor S a) (fun t => rel t M.det) ∧ Out A (Mat.colCofactor S a) (fun t => rel t M.det) := by
  obtain ⟨k, rfl⟩ : ∃ k, n = k + 1 := ⟨n - 1, by omega⟩
  unfold Mat.rowCofactor Mat.colCofactor
  rw [ha.1]
  exact ⟨rowCofactorF_ok hS k _ (by omega) a M ha, colCofactorF_ok hS k _ (by omega) a M ha⟩

example := C65_determinant Ex.rat.toExactRing (by decide) Ex.d_is

/-- C65. For `Int` entries the expansions always return, with the exact determinant. -/
theorem C65_int {a : Mat BigInt} {n : Nat} (hn : 1 ≤ n) {M : Matrix (Fin n) (Fin n) ℤ} (ha : Mat.Is IntRel a M) :
    (∃ d, Mat.rowCofactor Scalar.int a = .ok d ∧ BigInt.Canon d ∧ d.val = M.det) ∧
    (∃ d, Mat.colCofactor Scalar.int a = .ok d ∧ BigInt.Canon d ∧ d.val = M.det) := by
  obtain ⟨h1, h2⟩ := C65_determinant exactRing_int hn ha
  exact ⟨h1.never, h2.never⟩

example := C65_int (by decide) Ex.z_is

/-- C65. They throw `domain_error` exactly for matrices that are not square. -/
theorem C65_throws_iff [CommRing K] (hS : S.ExactRing rel A) (hA : ¬A .domainError) {a : Mat T} {r c : Nat}
    {M : Matrix (Fin r) (Fin c) K} (ha : Mat.Is rel a M) :
    (Mat.rowCofactor S a = .error .domainError ↔ r ≠ c) ∧ (Mat.colCofactor S a = .error .domainError ↔ r ≠ c) := by
  by_cases h : r = c
  · subst h
    rcases Nat.eq_zero_or_pos r with rfl | h0
    · have h3 : Out A (Mat.rowCofactor S a) (fun _ => True) ∧ Out A (Mat.colCofactor S a) (fun _ => True) := by
        simp only [Mat.rowCofactor, Mat.colCofactor, Mat.rowCofactorF, Mat.colCofactorF, ha.1, ha.2.1, ne_eq, not_true_eq_false, if_false,
          forUp, zero_ne_one, Nat.zero_ne_one, if_neg (show ¬(0 = 2) by omega)]
        exact ⟨Out.bind (hS.ofInt 0 (.inl rfl)) fun z _ => Out.ok trivial, Out.bind (hS.ofInt 0 (.inl rfl)) fun z _ => Out.ok trivial⟩
      simp [h3.1.ne_error hA, h3.2.ne_error hA]
    · obtain ⟨h1, h2⟩ := C65_determinant hS h0 ha
      simp [h1.ne_error hA, h2.ne_error hA]
  · simp [Mat.rowCofactor, Mat.colCofactor, Mat.rowCofactorF, Mat.colCofactorF, ha.1, ha.2.1, h]

example : Mat.colCofactor (Scalar.field ℚ) Ex.c = .error .domainError :=
  (C65_throws_iff Ex.rat.toExactRing (Ex.never _) Ex.c_is).2.mpr (by decide)

/-- C65. The bound `1 ≤ n` is needed: for the empty matrix the expansions return 0, while the determinant of the empty
matrix is 1. -/
theorem C65_empty : Mat.rowCofactor (Scalar.field ℚ) ⟨0, 0, []⟩ = .ok 0 ∧ Mat.colCofactor (Scalar.field ℚ) ⟨0, 0, []⟩ = .ok 0 ∧
    Matrix.det (0 : Matrix (Fin 0) (Fin 0) ℚ) = 1 := by
  refine ⟨by decide +kernel, by decide +kernel, by simp⟩

example : Mat.rowCofactor (Scalar.field ℚ) ⟨3, 3, [some 2, some 0, some 1, some 1, some 3, some 2, some 1, some 1, some 1]⟩ = .ok 0 ∧
    Mat.colCofactor Scalar.int ⟨3, 3, [some ⟨[2], false⟩, some ⟨[0], false⟩, some ⟨[1], true⟩, some ⟨[0, 1], false⟩, some ⟨[3], false⟩,
      some ⟨[0], false⟩, some ⟨[1], false⟩, some ⟨[0], false⟩, some ⟨[1], false⟩]⟩ = .ok ⟨[9], false⟩ := by decide +kernel

/-! ### C69: constructors -/

/-- C69. `Mat(rows, cols, val)`, `Mat(vals, rows, cols)`, `setEntries(val)` (also if `val` is an entry of the matrix itself)
and `setEntries(vals, size)`; the contents of a fresh matrix are overwritten. -/
theorem C69_fill [Zero K] {r c : Nat} {t : T} {k : K} (ht : rel t k) {m : Mat T} {M : Matrix (Fin r) (Fin c) K} (hm : Mat.Is rel m M) :
    (∃ a, Mat.filled r c t = .ok a ∧ Mat.Is rel a (Matrix.of fun (_ : Fin r) (_ : Fin c) => k)) ∧
    (∃ a, m.setAll t = .ok a ∧ Mat.Is rel a (Matrix.of fun (_ : Fin r) (_ : Fin c) => k)) ∧
    (∀ (i : Fin r) (j : Fin c), ∃ a, m.setAllRef (fun m => m.get i j) = .ok a ∧
      Mat.Is rel a (Matrix.of fun (_ : Fin r) (_ : Fin c) => M i j)) :=
  ⟨Out.never ((filled_ok ht).mono fun m hm => hm.is fun i j => rfl), Out.never ((setAll_ok hm.full ht).mono fun m hm => hm.is fun i j => rfl),
    fun i j => Out.never ((setAllEntry_ok hm.full i.2 j.2).mono fun m hm => hm.is fun _ _ => by rw [ext_fin]; rfl)⟩

example := C69_fill (t := (7 : ℚ)) rfl Ex.c_is

/-- C69. `Mat(vals, rows, cols)` and `setEntries(vals, size)` take the values row by row. -/
theorem C69_array [Zero K] {r c : Nat} {vals : List T} {w : Fin r → Fin c → K}
    (hv : ∀ (i : Fin r) (j : Fin c), ∃ t, vals[i.val * c + j.val]? = some t ∧ rel t (w i j)) :
    (∃ a, Mat.ofArray vals r c = .ok a ∧ Mat.Is rel a (Matrix.of w)) ∧
    (∀ (m : Mat T) (size : Nat), m.rows = r → m.cols = c → m.data.length = r * c → r * c ≤ size →
      ∃ a, m.setEntries vals size = .ok a ∧ Mat.Is rel a (Matrix.of w)) := by
  have key : ∀ (m : Mat T) (size : Nat), m.rows = r → m.cols = c → m.data.length = r * c → r * c ≤ size →
      ∃ a, m.setEntries vals size = .ok a ∧ Mat.Is rel a (Matrix.of w) := by
    intro m size h1 h2 h3 h4
    have hm : On rel m r c (fun _ _ => False) (ext (Matrix.of w)) := ⟨h1, h2, h3, fun _ _ _ _ h => h.elim⟩
    exact Out.never ((setEntries_ok (G := ext (Matrix.of w)) hm h4 fun i j hi hj => by
      rw [ext_lt _ hi hj]; exact hv ⟨i, hi⟩ ⟨j, hj⟩).mono fun m hm => hm.is fun i j => ext_fin _ i j)
  exact ⟨key (alloc r c) (r * c) rfl rfl (by simp [alloc]) le_rfl, key⟩

example : ∃ m, Mat.ofArray [1, -2, 3, (1 / 2 : ℚ)] 2 2 = .ok m ∧ Mat.Is Ex.Same m Ex.aM :=
  (C69_array (w := Ex.aM) fun i j => by fin_cases i <;> fin_cases j <;> exact ⟨_, rfl, rfl⟩).1

/-- C69. `setEntries(vals, size)` throws `domain_error` exactly if there are too few values, before anything is changed. -/
theorem C69_throws_iff {vals : List T} {size : Nat} (hv : size ≤ vals.length) (m : Mat T) (hm : m.data.length = m.rows * m.cols) :
    m.setEntries vals size = .error .domainError ↔ size < m.rows * m.cols := by
  by_cases h : size < m.rows * m.cols
  · simp [Mat.setEntries, h]
  · have : m.setEntries vals size ≠ .error .domainError := by
      have hon : On (fun (_ : T) (_ : Unit) => True) m m.rows m.cols (fun _ _ => False) (fun _ _ => ()) :=
        ⟨rfl, rfl, hm, fun _ _ _ _ h => h.elim⟩
      refine (setEntries_ok (A := Never) (G := fun _ _ => ()) hon (by omega) fun i j hi hj => ?_).ne_error (fun h => h)
      have := idx_lt hi hj
      exact ⟨vals[i * m.cols + j], by simp, trivial⟩
    simp [this, h]

example : Mat.setEntries Ex.a [5, 6, 7] 3 = .error .domainError := (C69_throws_iff (by decide) _ rfl).mpr (by decide)

/-- C69. `identityMatrix`, `diagonalMatrix`. -/
theorem C69_diagonal [CommRing K] (hS : S.ExactRing rel A) (n : Nat) {vals : List T} {d : Fin n → K} (hd : Vec.Is rel vals d) :
    Out A (Mat.identityMatrix S n) (fun m => Mat.Is rel m (1 : Matrix (Fin n) (Fin n) K)) ∧
    Out A (Mat.diagonalMatrix S vals n) (fun m => Mat.Is rel m (Matrix.diagonal d)) := by
  constructor
  · refine (identityMatrix_ok hS n).mono fun m hm => hm.is fun i j => ?_
    rw [Matrix.one_apply]
    simp [Fin.ext_iff]
  · refine (diagonalMatrix_ok (v := Vec.ext d) hS fun i hi => ?_).mono fun m hm => hm.is fun i j => ?_
    · rw [Vec.ext_lt d hi]; exact hd.2 ⟨i, hi⟩
    · rw [Matrix.diagonal_apply, Vec.ext_fin]
      simp [Fin.ext_iff]

example := C69_diagonal Ex.rat.toExactRing 3 Ex.y_is

/-- C69. `augmentedMatrix(a, b)` is `(a | b)` and throws `domain_error` exactly if the numbers of rows differ. -/
theorem C69_augmented [Zero K] {a b : Mat T} {r c d : Nat} {M : Matrix (Fin r) (Fin c) K} (ha : Mat.Is rel a M) :
    (∀ {N : Matrix (Fin r) (Fin d) K}, Mat.Is rel b N → ∃ m, Mat.augmentedMatrix a b = .ok m ∧
      Mat.Is rel m (Matrix.of fun (i : Fin r) => (Fin.append (M i) (N i) : Fin (c + d) → K))) ∧
    (∀ {r' : Nat} {N : Matrix (Fin r') (Fin d) K}, Mat.Is rel b N →
      (Mat.augmentedMatrix a b = .error .domainError ↔ r ≠ r')) := by
  have h1 : ∀ {N : Matrix (Fin r) (Fin d) K}, Mat.Is rel b N → ∃ m, Mat.augmentedMatrix a b = .ok m ∧
      Mat.Is rel m (Matrix.of fun (i : Fin r) => (Fin.append (M i) (N i) : Fin (c + d) → K)) := by
    intro N hb
    refine Out.never ((augmentedMatrix_ok ha.full hb.full).mono fun m hm => hm.is fun i j => ?_)
    refine Fin.addCases (fun j => ?_) (fun j => ?_) j
    · simp [ext_fin]
    · simp [ext_fin]
  refine ⟨h1, fun {r' N} hb => ?_⟩
  by_cases h : r = r'
  · subst h
    obtain ⟨m, hm, _⟩ := h1 hb
    simp [hm]
  · simp [Mat.augmentedMatrix, ha.1, hb.1, h]

example : Mat.augmentedMatrix Ex.a Ex.d = .error .domainError ∧ ∃ m, Mat.augmentedMatrix Ex.a Ex.c = .ok m :=
  ⟨((C69_augmented Ex.a_is).2 Ex.d_is).mpr (by decide), let ⟨m, h, _⟩ := (C69_augmented Ex.a_is).1 Ex.c_is; ⟨m, h⟩⟩

example : Mat.augmentedMatrix (T := ℚ) ⟨2, 1, [some 1, some 2]⟩ ⟨2, 2, [some 3, some 4, some 5, some 6]⟩ =
    .ok ⟨2, 3, [some 1, some 3, some 4, some 2, some 5, some 6]⟩ ∧
    Mat.diagonalMatrix (Scalar.field ℚ) [5, 7] 2 = .ok ⟨2, 2, [some 5, some 0, some 0, some 7]⟩ ∧
    Mat.setEntries (T := ℚ) ⟨1, 2, [none, none]⟩ [5] 1 = .error .domainError := by decide +kernel

/-! ### C70: scaling by an own entry -/

/-- C70 as stated is false: `m = (2 3; 5 7); m *= m(0, 0)` multiplies the entries after the first by 4, not by 2, and `m /= m(0, 0)`
leaves them alone. -/
theorem C70_refuted : Mat.mulAssignEntry (Scalar.field ℚ) ⟨2, 2, [some 2, some 3, some 5, some 7]⟩ 0 0 =
      .ok ⟨2, 2, [some 4, some 12, some 20, some 28]⟩ ∧
    Mat.mulAssignScalar (Scalar.field ℚ) ⟨2, 2, [some 2, some 3, some 5, some 7]⟩ 2 = .ok ⟨2, 2, [some 4, some 6, some 10, some 14]⟩ ∧
    Mat.divAssignEntry (Scalar.field ℚ) ⟨2, 2, [some 2, some 3, some 5, some 7]⟩ 0 0 = .ok ⟨2, 2, [some 1, some 3, some 5, some 7]⟩ ∧
    Mat.divAssignScalar (Scalar.field ℚ) ⟨2, 2, [some 2, some 3, some 5, some 7]⟩ 2 =
      .ok ⟨2, 2, [some 1, some (3 / 2), some (5 / 2), some (7 / 2)]⟩ := by decide +kernel

/-- C70, what the code does: `m *= m(k, l)` multiplies the entries up to `(k, l)`, in row order, by the old value `v` of
`m(k, l)`, and the later ones by `v²`. So the claim does hold for the last entry. -/
theorem C70_multiply_by_entry_partial [CommRing K] (hM : S.ExactMulA rel A) {a : Mat T} {r c : Nat} {M : Matrix (Fin r) (Fin c) K}
    (ha : Mat.Is rel a M) (k : Fin r) (l : Fin c) :
    Out A (Mat.mulAssignEntry S a k l) (fun m => Mat.Is rel m (Matrix.of fun i j =>
      if i < k ∨ (i = k ∧ j ≤ l) then M i j * M k l else M i j * (M k l * M k l))) ∧
    (k.val + 1 = r → l.val + 1 = c → Out A (Mat.mulAssignEntry S a k l) (fun m => Mat.Is rel m (M k l • M))) := by
  have key : Out A (Mat.mulAssignEntry S a k l) (fun m => Mat.Is rel m (Matrix.of fun i j =>
      if i < k ∨ (i = k ∧ j ≤ l) then M i j * M k l else M i j * (M k l * M k l))) := by
    refine (mulAssignEntry_ok hM ha.full k.2 l.2).mono fun m hm => hm.is fun i j => ?_
    have : Vis k (l + 1) i j ↔ (i < k ∨ (i = k ∧ j ≤ l)) := by
      unfold Vis; rw [Fin.lt_def, Fin.le_def, Fin.ext_iff]; omega
    simp only [this, ext_fin, Matrix.of_apply]
  refine ⟨key, fun h1 h2 => key.mono fun m hm => ?_⟩
  convert hm using 1
  funext i j
  have : i < k ∨ (i = k ∧ j ≤ l) := by rw [Fin.lt_def, Fin.le_def, Fin.ext_iff]; omega
  simp [this, mul_comm]

example := (C70_multiply_by_entry_partial Ex.rat.mulA Ex.a_is 1 1).2 rfl rfl

/-- C70, what the code does: `m /= m(k, l)` (not zero) divides the entries up to `(k, l)`, in row order, by it, and leaves the
later ones alone. -/
theorem C70_divide_by_entry_partial [Field K] (hD : S.ExactDivA rel A) {a : Mat T} {r c : Nat} {M : Matrix (Fin r) (Fin c) K}
    (ha : Mat.Is rel a M) (k : Fin r) (l : Fin c) (hne : M k l ≠ 0) :
    Out A (Mat.divAssignEntry S a k l) (fun m => Mat.Is rel m (Matrix.of fun i j =>
      if i < k ∨ (i = k ∧ j ≤ l) then M i j / M k l else M i j)) ∧
    (k.val + 1 = r → l.val + 1 = c → Out A (Mat.divAssignEntry S a k l) (fun m => Mat.Is rel m ((M k l)⁻¹ • M))) := by
  have key : Out A (Mat.divAssignEntry S a k l) (fun m => Mat.Is rel m (Matrix.of fun i j =>
      if i < k ∨ (i = k ∧ j ≤ l) then M i j / M k l else M i j)) := by
    refine (divAssignEntry_ok hD ha.full k.2 l.2 (by rwa [ext_fin])).mono fun m hm => hm.is fun i j => ?_
    have : Vis k (l + 1) i j ↔ (i < k ∨ (i = k ∧ j ≤ l)) := by
      unfold Vis; rw [Fin.lt_def, Fin.le_def, Fin.ext_iff]; omega
    simp only [this, ext_fin, Matrix.of_apply]
  refine ⟨key, fun h1 h2 => key.mono fun m hm => ?_⟩
  convert hm using 1
  funext i j
  have : i < k ∨ (i = k ∧ j ≤ l) := by rw [Fin.lt_def, Fin.le_def, Fin.ext_iff]; omega
  simp [this, div_eq_inv_mul]

example := C70_divide_by_entry_partial Ex.rat.divA Ex.a_is 1 0 (by simp [Ex.aM])

example : Mat.mulAssignEntry (Scalar.field ℚ) ⟨2, 2, [some 2, some 3, some 5, some 7]⟩ 1 0 =
    .ok ⟨2, 2, [some 10, some 15, some 25, some 175]⟩ := by decide +kernel

/-! ### C72: equality, copies, swap -/

/-- C72. `a == b` holds exactly if the dimensions and all entries agree, and `a != b` is the opposite. -/
theorem C72_equality [CommRing K] (hS : S.ExactRing rel A) {a b : Mat T} {r c r' c' : Nat} {M : Matrix (Fin r) (Fin c) K}
    {N : Matrix (Fin r') (Fin c') K} (ha : Mat.Is rel a M) (hb : Mat.Is rel b N) :
    Out A (Mat.eq S a b) (fun d => d = true ↔ ∃ (hr : r = r') (hc : c = c'), ∀ i j, M i j = N (i.cast hr) (j.cast hc)) ∧
    Out A (Mat.ne S a b) (fun d => d = false ↔ ∃ (hr : r = r') (hc : c = c'), ∀ i j, M i j = N (i.cast hr) (j.cast hc)) := by
  have key : Out A (Mat.eq S a b) (fun d => d = true ↔ ∃ (hr : r = r') (hc : c = c'), ∀ i j, M i j = N (i.cast hr) (j.cast hc)) := by
    unfold Mat.eq
    by_cases h : r = r' ∧ c = c'
    · obtain ⟨rfl, rfl⟩ := h
      have hd : dimensionsMatch a b = true := by simp [dimensionsMatch, ha.1, ha.2.1, hb.1, hb.2.1]
      rw [hd, if_neg (by simp), ha.1]
      refine (eqRows_ok hS ha.full hb.full r 0 (by omega)).mono fun d hd => hd.trans ⟨fun h => ⟨rfl, rfl, fun i j => ?_⟩, ?_⟩
      · have := h i j (by omega) i.2 j.2
        rwa [ext_fin, ext_fin] at this
      · rintro ⟨_, _, h⟩ l j _ hl hj
        rw [ext_lt M hl hj, ext_lt N hl hj]
        exact h ⟨l, hl⟩ ⟨j, hj⟩
    · have hd : dimensionsMatch a b = false := by
        simp only [dimensionsMatch, ha.1, ha.2.1, hb.1, hb.2.1]
        rw [Bool.eq_false_iff]
        simpa using h
      simp only [hd, Bool.not_false, if_true]
      exact Out.ok ⟨fun h => by simp at h, fun ⟨h1, h2, _⟩ => absurd ⟨h1, h2⟩ h⟩
  refine ⟨key, Out.bind key fun d hd => Out.ok ?_⟩
  rw [← hd]
  cases d <;> simp

example := C72_equality Ex.rat.toExactRing Ex.a_is Ex.c_is

/-- C72. The copy constructor and assignment copy the matrix object by object, also for `m = m`. -/
theorem C72_copy_objects (a b : Mat T) (hl : a.data.length = a.rows * a.cols) (h : ∀ o ∈ a.data, o ≠ none) :
    a.copy = .ok a ∧ Mat.assign b a = .ok a ∧ Mat.assign a a = .ok a := by
  obtain ⟨m, h2, h3⟩ := (copy_ok (A := Never) (full_cell hl h)).never
  rw [eq_of_full_cell hl h h3] at h2
  simp [Mat.assign, h2, Mat.swap]

example : Ex.c.copy = .ok Ex.c ∧ Mat.assign Ex.a Ex.c = .ok Ex.c ∧ Mat.assign Ex.c Ex.c = .ok Ex.c := C72_copy_objects _ _ rfl (by decide)

/-- C72. The copy constructor and assignment copy the matrix, also for `m = m`; `swap` exchanges. -/
theorem C72_copy [Zero K] {a b : Mat T} {r c : Nat} {M : Matrix (Fin r) (Fin c) K} (ha : Mat.Is rel a M) :
    (∃ m, a.copy = .ok m ∧ Mat.Is rel m M) ∧ (∃ m, Mat.assign b a = .ok m ∧ Mat.Is rel m M) ∧
    (∃ m, Mat.assign a a = .ok m ∧ Mat.Is rel m M) ∧ Mat.swap a b = (b, a) := by
  have h1 : Out Never a.copy (fun m => Mat.Is rel m M) := (copy_ok ha.full).mono fun m hm => hm.is fun i j => ext_fin M i j
  exact ⟨h1.never, (Out.bind h1 fun m hm => Out.ok hm).never, (Out.bind h1 fun m hm => Out.ok hm).never, rfl⟩

example := C72_copy (b := Ex.a) Ex.c_is

example : Mat.eq (Scalar.field ℚ) ⟨1, 2, [some 1, some 2]⟩ ⟨1, 2, [some 1, some 2]⟩ = .ok true ∧
    Mat.eq (Scalar.field ℚ) ⟨1, 2, [some 1, some 2]⟩ ⟨1, 2, [some 1, some 3]⟩ = .ok false ∧
    Mat.eq (Scalar.field ℚ) ⟨1, 2, [some 1, some 2]⟩ ⟨2, 1, [some 1, some 2]⟩ = .ok false ∧
    Mat.assign (T := ℚ) ⟨1, 1, [none]⟩ ⟨1, 2, [some 1, some 2]⟩ = .ok ⟨1, 2, [some 1, some 2]⟩ := by decide +kernel

/-! ### C83: output -/

/-- C83. `operator<<` prints every entry followed by a blank, row by row, with a line break between the rows. -/
theorem C83_output [Inhabited T] (pr : T → List Char) {m : Mat T} {r c : Nat} {M : Matrix (Fin r) (Fin c) T} (hm : Mat.Is Eq m M) :
    m.print pr = .ok ("\n".toList.intercalate (List.ofFn fun i => (List.ofFn fun j => pr (M i j) ++ " ".toList).flatten)) :=
  print_ok pr hm

example : Mat.print BigInt.print ⟨2, 2, [some ⟨[5], true⟩, some ⟨[0, 1], false⟩, some ⟨[7], false⟩, some ⟨[1], false⟩]⟩ =
    .ok "-5 1000000000 \n7 1 ".toList := by decide +kernel

end CppMaths
