import Verif.Proofs.DoubleErr
import Verif.Props.Mat
import Mathlib.Algebra.BigOperators.Field
/-!
# Properties of vectors and matrices of machine integers and `double`s (C92-C99)

`lim` is the largest value of the signed integer type, `2147483647` for `int`.
-/

namespace CppMaths
open Double

/-! ### C92: machine integers -/

/-- C92 for vectors: sums, differences and multiples (also by the compound operators) have the exact entries if all of them
fit; if one of them does not, the behaviour is undefined. -/
theorem C92_vec_entrywise {lim : Int} {n : Nat} (f g : Fin n → Int) (a : Int) (hf : ∀ i, Fits lim (f i)) (hg : ∀ i, Fits lim (g i))
    (ha : Fits lim a) :
    let S := Scalar.machine lim
    let x := List.ofFn f
    let y := List.ofFn g
    Vec.add S x y = (if ∀ i, Fits lim (f i + g i) then .ok (List.ofFn fun i => f i + g i) else .error .ub) ∧
    Vec.sub S x y = (if ∀ i, Fits lim (f i - g i) then .ok (List.ofFn fun i => f i - g i) else .error .ub) ∧
    Vec.smul S a x = (if ∀ i, Fits lim (f i * a) then .ok (List.ofFn fun i => f i * a) else .error .ub) ∧
    Vec.addAssign S x y = Vec.add S x y ∧ Vec.subAssign S x y = Vec.sub S x y ∧ Vec.mulAssign S x a = Vec.smul S a x ∧
    (a ≠ 0 → Vec.divScalar S x a = if ∀ i, Fits lim ((f i).tdiv a) then .ok (List.ofFn fun i => (f i).tdiv a) else .error .ub) ∧
    (0 < n → Vec.divScalar S x 0 = .error .ub) := by
  intro S x y
  refine ⟨Vec.add_machine f g hf hg, Vec.sub_machine f g hf hg, Vec.smul_machine a f hf ha, ?_, ?_, rfl, Vec.div_machine a f hf ha, fun h => ?_⟩
  · simp [Vec.addAssign, Vec.addAssignRef, Vec.add, x, y]
  · simp [Vec.subAssign, Vec.subAssignRef, Vec.sub, x, y]
  · exact Vec.div_zero_machine _ (by intro hc; have := congrArg List.length hc; simp [x] at this; omega)

example : Vec.add Scalar.i32 [2147483647, 5] [-1, 7] = .ok [2147483646, 12] ∧
    Vec.add Scalar.i32 [2147483647, 5] [1, 7] = .error .ub ∧ Vec.divScalar Scalar.i32 [-7, 9] 2 = .ok [-3, 4] ∧
    Vec.divScalar Scalar.i32 [-2147483648] (-1) = .error .ub := by decide +kernel

/-- C92 for the dot product: whatever is returned is exact, and something is returned if the absolute products add up to
at most `lim`. -/
theorem C92_dot {lim : Int} {n : Nat} (f g : Fin n → Int) (hf : ∀ i, Fits lim (f i)) (hg : ∀ i, Fits lim (g i)) :
    let r := Vec.dot (Scalar.machine lim) (List.ofFn f) (List.ofFn g)
    (r = .ok (∑ i, f i * g i) ∨ r = .error .ub) ∧ (∑ i, |f i * g i| ≤ lim → r = .ok (∑ i, f i * g i)) := by
  intro r
  refine ⟨?_, Vec.dot_machine f g⟩
  rcases Vec.dot_ok (exactRing_machine lim) (Vec.is_ofFn hf) (Vec.is_ofFn hg) with ⟨t, h1, h2, _⟩ | ⟨e, h1, rfl⟩
  · left; rw [← dotProduct, ← h2]; exact h1
  · exact .inr h1

example : Vec.dot Scalar.i32 [40000, 3] [50000, -7] = .ok 1999999979 ∧ Vec.dot Scalar.i32 [40000] [60000] = .error .ub := by decide +kernel

/-- C92 for the matrix product: if the absolute products of every row and column add up to at most `lim`, the result is the
exact product. -/
theorem C92_mat_mul {lim : Int} {r n c : Nat} {a b : Mat Int} {M : Matrix (Fin r) (Fin n) Int} {N : Matrix (Fin n) (Fin c) Int}
    (ha : Mat.Is (fun t k => t = k) a M) (hb : Mat.Is (fun t k => t = k) b N) (h0 : 0 ≤ lim)
    (h : ∀ i j, ∑ k, |M i k * N k j| ≤ lim) :
    (∃ m, Mat.mul (Scalar.machine lim) a b = .ok m ∧ Mat.Is (fun t k => t = k) m (M * N)) ∧
    Mat.mulAssign (Scalar.machine lim) a b = Mat.mul (Scalar.machine lim) a b := by
  refine ⟨?_, Mat.mulAssign_eq_mul _ _ _⟩
  have hd : ∀ i j, Vec.dot (Scalar.machine lim) (Mat.rowList M i) (Mat.colList N j) = .ok ((M * N) i j) := fun i j =>
    Vec.dot_machine _ _ (h i j)
  rcases Mat.mul_dot (Scalar.machine lim) ha hb with ⟨m, h1, P, h2, h3⟩ | ⟨e, _, h2⟩
  · refine ⟨m, h1, ?_⟩
    have : P = M * N := by
      ext i j
      have := (h3 i j).symm.trans (hd i j)
      exact Except.ok.inj this
    rwa [this] at h2
  · exfalso
    rcases h2 with h2 | ⟨i, j, h2⟩
    · have : (Scalar.machine lim).ofInt 0 = .ok 0 := signed_ok (by simpa using h0)
      rw [this] at h2; cases h2
    · rw [hd i j] at h2; cases h2

example : (Mat.mul Scalar.i32 ⟨2, 2, [some 30000, some 2, some 3, some 4]⟩ ⟨2, 1, [some 60000, some 6]⟩).toOption.map (·.data) =
    some [some 1800000012, some 180024] := by decide +kernel

/-- C92 for determinants: both cofactor expansions of a matrix with `n` rows and entries of absolute value at most `B` return
the exact determinant if `n! B^n` is at most `lim`. -/
theorem C92_cofactor_expansions {lim B : Int} (hB : 1 ≤ B) {n : Nat} (h0 : 0 < n) {m : Mat Int} {M : Matrix (Fin n) (Fin n) Int}
    (hm : Mat.Is (fun t k => t = k) m M) (hb : ∀ i j, |M i j| ≤ B) (hlim : (n.factorial : Int) * B ^ n ≤ lim) :
    Mat.rowCofactor (Scalar.machine lim) m = .ok M.det ∧ Mat.colCofactor (Scalar.machine lim) m = .ok M.det := by
  obtain ⟨k, rfl⟩ : ∃ k, n = k + 1 := ⟨n - 1, by omega⟩
  exact ⟨Mat.rowCofactorF_machine hB k _ (by rw [hm.1]; omega) m M hm hb hlim,
    Mat.colCofactorF_machine hB k _ (by rw [hm.1]; omega) m M hm hb hlim⟩

example : (3 : Nat).factorial * 700 ^ 3 ≤ intMax ∧
    Mat.rowCofactor Scalar.i32 ⟨3, 3, [700, -700, 3, 4, 5, 6, 7, 8, 700].map some⟩ = .ok 4346991 ∧
    Mat.rowCofactor Scalar.i32 ⟨3, 3, [1, 0, 0, 0, 70000, 0, 0, 0, 70000].map some⟩ = .error .ub := by decide +kernel

/-- C92 for matrices: no operation ever returns a wrong number. Sums, differences, products, multiples, the negative, the trace
and both cofactor expansions either are exact, with every entry in range, or overflow. -/
theorem C92_mat_never_wrong {lim : Int} {r n c : Nat} {a a' b : Mat Int} {M M' : Matrix (Fin r) (Fin n) Int} {N : Matrix (Fin n) (Fin c) Int}
    (ha : Mat.Is (MachRel lim) a M) (ha' : Mat.Is (MachRel lim) a' M') (hb : Mat.Is (MachRel lim) b N) {k : Int} (hk : Fits lim k)
    {q : Mat Int} {Q : Matrix (Fin n) (Fin n) Int} (hq : Mat.Is (MachRel lim) q Q) :
    let S := Scalar.machine lim
    let exact {r c : Nat} (x : Res (Mat Int)) (X : Matrix (Fin r) (Fin c) Int) : Prop :=
      (∃ m, x = .ok m ∧ Mat.Is (MachRel lim) m X) ∨ x = .error .ub
    exact (Mat.add S a a') (M + M') ∧ exact (Mat.sub S a a') (M - M') ∧
    exact (Mat.addAssign S a a') (M + M') ∧ exact (Mat.subAssign S a a') (M - M') ∧
    exact (Mat.mul S a b) (M * N) ∧ exact (Mat.mulAssign S a b) (M * N) ∧
    exact (Mat.smul S k a) (k • M) ∧ exact (Mat.mulAssignScalar S a k) (k • M) ∧ exact (Mat.neg S a) (-M) ∧
    (Mat.trace S q = .ok Q.trace ∨ Mat.trace S q = .error .ub) ∧
    (0 < n → (Mat.rowCofactor S q = .ok Q.det ∨ Mat.rowCofactor S q = .error .ub) ∧
      (Mat.colCofactor S q = .ok Q.det ∨ Mat.colCofactor S q = .error .ub)) := by
  intro S exact'
  have hS := exactRing_machine lim
  have key : ∀ {r c : Nat} {x : Res (Mat Int)} {X : Matrix (Fin r) (Fin c) Int}, Out Overflows x (fun m => Mat.Is (MachRel lim) m X) →
      exact' x X := by
    rintro r c x X (⟨m, h1, h2⟩ | ⟨e, h1, rfl⟩)
    · exact .inl ⟨m, h1, h2⟩
    · exact .inr h1
  have key' : ∀ {x : Res Int} {v : Int}, Out Overflows x (fun t => MachRel lim t v) → x = .ok v ∨ x = .error .ub := by
    rintro x v (⟨m, h1, rfl, _⟩ | ⟨e, h1, rfl⟩)
    · exact .inl h1
    · exact .inr h1
  obtain ⟨h1, h2, h3, h4, _⟩ := C61_entrywise hS ha ha'
  obtain ⟨h5, h6⟩ := C62_product hS ha hb
  obtain ⟨h7, _, h8, h9⟩ := C61_negate_scale hS ha (t := k) ⟨rfl, hk⟩
  refine ⟨key h1, key h2, key h3, key h4, key h5, key h6, key h7, key (h8 (exactMulA_machine lim)), key (h9 (exactNeg_machine lim)),
    key' ((C63_trace hS).1 hq), fun hn => ?_⟩
  obtain ⟨h10, h11⟩ := C65_determinant hS hn hq
  exact ⟨key' h10, key' h11⟩

/-- `INT_MIN` cannot be negated. -/
example : (Mat.neg Scalar.i32 ⟨1, 2, [some 7, some (-2147483647)]⟩).toOption.map (·.data) = some [some (-7), some 2147483647] ∧
    (Mat.neg Scalar.i32 ⟨1, 1, [some (-2147483648)]⟩).toOption.map (·.data) = none ∧
    (Mat.add Scalar.i32 ⟨1, 1, [some 2147483647]⟩ ⟨1, 1, [some 1]⟩).toOption.map (·.data) = none := by decide +kernel

/-! ### C93: the length of an integer vector -/

/-- C93: if the squared length is an `int`, `norm()` of a `Vec<int>` is the length rounded down and `norm<double>()` is the
`double` nearest to the length. Otherwise computing the squared length overflows, and the behaviour is undefined. -/
theorem C93_norm_int {n : Nat} (f : Fin n → Int) (hf : ∀ i, Fits 2147483647 (f i)) :
    (∑ i, f i ^ 2 ≤ 2147483647 →
      (∃ k : Int, Vec.normInt (List.ofFn f) = .ok k ∧ 0 ≤ k ∧ k ^ 2 ≤ ∑ i, f i ^ 2 ∧ ∑ i, f i ^ 2 < (k + 1) ^ 2) ∧
      (∃ d, Vec.normIntDouble (List.ofFn f) = .ok d ∧ d.IsNearest √(∑ i, (f i : ℝ) ^ 2))) ∧
    (2147483647 < ∑ i, f i ^ 2 → Vec.normInt (List.ofFn f) = .error .ub ∧ Vec.normIntDouble (List.ofFn f) = .error .ub) := by
  have e : (2147483647 : Int) = intMax := by norm_num [intMax]
  rw [e] at hf ⊢
  rw [Vec.normInt_eq f hf, Vec.normIntDouble_eq f hf]
  constructor
  · intro h
    rw [if_pos h, if_pos h]
    have h0 := Vec.sq_sum_nonneg f
    obtain ⟨N, hN⟩ := Int.eq_ofNat_of_zero_le h0
    refine ⟨⟨_, rfl, by positivity, ?_, ?_⟩, _, rfl, ?_⟩
    · rw [hN, Int.toNat_natCast]; exact_mod_cast Nat.sqrt_le' N
    · rw [hN, Int.toNat_natCast]; exact_mod_cast Nat.lt_succ_sqrt' N
    · have hd := ofInt_denotes (k := ∑ i, f i ^ 2) (by rw [abs_of_nonneg h0]; unfold intMax at h; omega)
      have := sqrt_nearest hd (by exact_mod_cast h0)
      push_cast at this ⊢
      exact this
  · intro h
    rw [if_neg (not_le.mpr h), if_neg (not_le.mpr h)]
    exact ⟨rfl, rfl⟩

example : Vec.normInt [1, 2, 3, 4] = .ok 5 ∧ Vec.normInt [46340, 0] = .ok 46340 ∧ Vec.normInt [46341] = .error .ub ∧
    Vec.normIntDouble [3, -4] = .ok (.fin false 5629499534213120 (-50)) := by decide +kernel

/-! ### C94: `unit_vector()` of an integer vector -/

/-- C94 as stated is false: the entries are divided by the rounded length with truncation. `(3, 4)` becomes `(0, 0)` and
`(1, 1)` stays; for the zero vector the behaviour is undefined. -/
theorem C94_refuted : Vec.unitInt [3, 4] = .ok [0, 0] ∧ Vec.unitInt [1, 1] = .ok [1, 1] ∧ Vec.unitInt [0, 0] = .error .ub := by
  decide +kernel

/-- C94, the part that holds: for a nonzero vector whose squared length is an `int`, entry `i` is the truncated quotient by
the length rounded down; for a multiple of a unit vector the result is that unit vector.
Missing: a result of length 1 for all other vectors (see `C94_refuted`). -/
theorem C94_unit_int_partial {n : Nat} (f : Fin n → Int) (h0 : f ≠ 0) (hs : ∑ i, f i ^ 2 ≤ 2147483647) :
    (∃ k : Int, 0 < k ∧ k ^ 2 ≤ ∑ i, f i ^ 2 ∧ ∑ i, f i ^ 2 < (k + 1) ^ 2 ∧
      Vec.unitInt (List.ofFn f) = .ok (List.ofFn fun i => (f i).tdiv k)) ∧
    (∀ (j : Fin n) (a : Int), 0 < a → f = Pi.single j a → Vec.unitInt (List.ofFn f) = .ok (List.ofFn (Pi.single j 1 : Fin n → Int))) := by
  have e : (2147483647 : Int) = intMax := by norm_num [intMax]
  rw [e] at hs
  have hf := Vec.fits_of_sq f hs
  have key : ∃ k : Int, 0 < k ∧ k ^ 2 ≤ ∑ i, f i ^ 2 ∧ ∑ i, f i ^ 2 < (k + 1) ^ 2 ∧
      Vec.unitInt (List.ofFn f) = .ok (List.ofFn fun i => (f i).tdiv k) := by
    obtain ⟨⟨k, h1, h2, h3, h4⟩, -⟩ := (C93_norm_int f (e ▸ hf)).1 (e ▸ hs)
    obtain ⟨i, hi⟩ := Function.ne_iff.mp h0
    have hsum : 1 ≤ ∑ i, f i ^ 2 := by
      refine le_trans ?_ (Vec.sq_le_sum f i)
      have hi : f i ≠ 0 := hi
      have : 0 < f i ^ 2 := by positivity
      omega
    have hk : 0 < k := by
      rcases h2.eq_or_lt with h | h
      · subst h; omega
      · exact h
    have hkl : k ≤ intMax := by nlinarith
    refine ⟨k, hk, h3, h4, ?_⟩
    have h1' : Vec.norm (Scalar.machine intMax) Double.ofInt (Double.toSigned intMax) (List.ofFn f) = .ok k := h1
    unfold Vec.unitInt Vec.unitVector Scalar.i32
    rw [h1', bind_ok, Vec.div_machine k f hf ⟨by omega, hkl⟩ (by omega), if_pos]
    intro i
    have h5 : |(f i).tdiv k| ≤ |f i| := by
      rw [Int.abs_eq_natAbs, Int.abs_eq_natAbs, Int.natAbs_tdiv]
      exact_mod_cast Nat.div_le_self _ _
    have h6 : |f i| ≤ intMax := by
      have := (Vec.sq_le_sum f i).trans hs
      rw [← sq_abs] at this
      nlinarith [abs_nonneg (f i)]
    have := abs_le.mp (h5.trans h6)
    exact ⟨by omega, this.2⟩
  refine ⟨key, fun j a ha hfa => ?_⟩
  obtain ⟨k, k1, k2, k3, k4⟩ := key
  have hsum : ∑ i, f i ^ 2 = a ^ 2 := by
    rw [hfa, Finset.sum_eq_single j]
    · simp
    · intro b _ hb; simp [Pi.single_eq_of_ne hb]
    · intro h; exact absurd (Finset.mem_univ j) h
  rw [hsum] at k2 k3
  have hka : k = a := by
    have h1 : k ≤ a := by nlinarith
    have h2 : a < k + 1 := by nlinarith
    omega
  rw [k4, hka, hfa]
  congr 2
  funext i
  by_cases hij : i = j
  · subst hij; simp [Int.tdiv_self (show a ≠ 0 by omega)]
  · simp [Pi.single_eq_of_ne hij]

example : Vec.unitInt [0, 7, 0] = .ok [0, 1, 0] ∧ Vec.unitInt [2, -1] = .ok [1, 0] := by decide +kernel

/-! ### C95: `unit_vector<double>()` of an integer vector -/

/-- C95: for a nonzero vector whose squared length is an `int`, every entry of `unit_vector<double>()` is the exact quotient
by the length up to a relative error of little more than `2^-52`, and the squared length of the result is 1 up to
`2^-50`. -/
theorem C95_unit_double {n : Nat} (f : Fin n → Int) (h0 : f ≠ 0) (hs : ∑ i, f i ^ 2 ≤ 2147483647) :
    ∃ (x : List Double) (q : Fin n → ℚ), Vec.unitIntDouble (List.ofFn f) = .ok x ∧ Vec.Is Double.Denotes x q ∧
      (∀ i, |(q i : ℝ) - f i / √(∑ i, (f i : ℝ) ^ 2)| ≤ |(f i : ℝ) / √(∑ i, (f i : ℝ) ^ 2)| * (1 / 2 ^ 52 + 1 / 2 ^ 104)) ∧
      |∑ i, (q i : ℝ) ^ 2 - 1| ≤ 1 / 2 ^ 50 := by
  have e : (2147483647 : Int) = intMax := by norm_num [intMax]
  rw [e] at hs
  have hf := Vec.fits_of_sq f hs
  obtain ⟨j, hj⟩ := Function.ne_iff.mp h0
  have hj : f j ≠ 0 := hj
  have hsum : 1 ≤ ∑ i, f i ^ 2 := by
    refine le_trans ?_ (Vec.sq_le_sum f j)
    have : 0 < f j ^ 2 := by positivity
    omega
  set S : Int := ∑ i, f i ^ 2 with hS
  have hSR : (∑ i, (f i : ℝ) ^ 2) = (S : ℝ) := by rw [hS]; push_cast; rfl
  rw [hSR]
  have hSpos : (0 : ℝ) < S := by exact_mod_cast (by omega : 0 < S)
  set N : ℝ := √(S : ℝ) with hN
  have hN0 : 0 < N := Real.sqrt_pos.mpr hSpos
  have hNN : N * N = S := Real.mul_self_sqrt hSpos.le
  have hN1 : 1 ≤ N := by
    rw [hN]; exact Real.one_le_sqrt.mpr (by exact_mod_cast hsum)
  have hN2 : N ≤ 2 ^ 16 := by
    rw [hN, Real.sqrt_le_iff]
    refine ⟨by positivity, ?_⟩
    have : S ≤ 2 ^ 32 := by unfold intMax at hs; omega
    have : (S : ℝ) ≤ 2 ^ 32 := by exact_mod_cast this
    linarith
  -- the length
  have hd : (ofInt S).Denotes (S : ℚ) := ofInt_denotes (by rw [abs_of_nonneg (by omega)]; unfold intMax at hs; omega)
  obtain ⟨r, hr, hr0, -, herr⟩ := sqrt_spec hd (by exact_mod_cast (by omega : 0 < S))
  rw [Rat.cast_intCast] at herr
  have hrR : (0 : ℝ) < r := by exact_mod_cast hr0
  have hu := abs_le.mp herr
  have hrlo : N * (1 - 1 / 2 ^ 53) ≤ r := by have := hu.1; rw [← hN] at this; linarith
  have hrhi : (r : ℝ) ≤ N * (1 + 1 / 2 ^ 53) := by have := hu.2; rw [← hN] at this; linarith
  have hr1 : (1 / 2 : ℝ) ≤ r := by
    refine le_trans ?_ hrlo
    have : (1 : ℝ) / 2 ≤ 1 * (1 - 1 / 2 ^ 53) := by norm_num
    exact this.trans (mul_le_mul_of_nonneg_right hN1 (by norm_num))
  have hr2 : (r : ℝ) ≤ 2 ^ 17 := by
    refine hrhi.trans ?_
    have : N * (1 + 1 / 2 ^ 53) ≤ 2 ^ 16 * (1 + 1 / 2 ^ 53) := mul_le_mul_of_nonneg_right hN2 (by positivity)
    refine this.trans (by norm_num)
  -- the entries
  have hent : ∀ i, ∃ t : ℚ, (Double.div (ofInt (f i)) (sqrt (ofInt S))).Denotes t ∧
      |(t : ℝ) - f i / N| ≤ |(f i : ℝ) / N| * (1 / 2 ^ 52 + 1 / 2 ^ 104) := fun i => by
    have hfi : |f i| ≤ 2 ^ 31 := by
      have := hf i
      unfold Fits intMax at this
      rw [abs_le]; omega
    obtain ⟨z, hz⟩ := div_denotes (ofInt_denotes (hfi.trans (by norm_num))) hr hr0.ne'
    have hq1 : |(f i : ℚ) / r| ≤ 2 ^ 32 := by
      rw [abs_div, abs_of_pos hr0, div_le_iff₀ hr0]
      have h1 : |(f i : ℚ)| ≤ 2 ^ 31 := by exact_mod_cast hfi
      have h2 : (1 / 2 : ℚ) ≤ r := by
        have : (((1 / 2 : ℚ)) : ℝ) ≤ (r : ℝ) := by push_cast; exact hr1
        exact_mod_cast this
      linarith
    have hq2 : (f i : ℚ) / r = 0 ∨ 2 ^ (-1022 : Int) ≤ |(f i : ℚ) / r| := by
      by_cases hfi0 : f i = 0
      · left; simp [hfi0]
      · right
        have h1 : (1 : ℚ) ≤ |(f i : ℚ)| := by exact_mod_cast Int.one_le_abs hfi0
        have h2 : r ≤ 2 ^ 17 := by
          have : (r : ℝ) ≤ ((2 ^ 17 : ℚ) : ℝ) := by push_cast; exact hr2
          exact_mod_cast this
        have h3 : (2 : ℚ) ^ (-1022 : Int) ≤ 2 ^ (-17 : Int) := two_zpow_le (by norm_num)
        refine h3.trans ?_
        rw [abs_div, abs_of_pos hr0, le_div_iff₀ hr0]
        have : (2 : ℚ) ^ (-17 : Int) * r ≤ 2 ^ (-17 : Int) * 2 ^ 17 := mul_le_mul_of_nonneg_left h2 (by positivity)
        refine this.trans (le_trans (by norm_num) h1)
    obtain ⟨t, ht, hterr⟩ := round_normal z hq2 (hq1.trans (by
      rw [show (2 : ℚ) ^ 32 = 2 ^ (32 : Int) by norm_cast]; exact two_zpow_le (by norm_num)))
    refine ⟨t, hz ▸ ht, ?_⟩
    -- both roundings together
    have h1 : |(t : ℝ) - f i / r| ≤ |(f i : ℝ) / r| / 2 ^ 53 := by
      have := (Rat.cast_le (K := ℝ)).mpr hterr
      push_cast at this
      exact this
    have h2 : (f i : ℝ) / r - f i / N = f i / N * ((N - r) / r) := by field_simp
    have h3 : |(N - r) / r| ≤ (1 / 2 ^ 53) / (1 - 1 / 2 ^ 53) := by
      rw [abs_div, abs_of_pos hrR, div_le_div_iff₀ hrR (by norm_num), abs_sub_comm]
      have : |(r : ℝ) - N| ≤ N * (1 / 2 ^ 53) := by rw [hN]; linarith
      nlinarith [hrlo]
    have h4 : |(f i : ℝ) / r| ≤ |(f i : ℝ) / N| * (1 / (1 - 1 / 2 ^ 53)) := by
      rw [abs_div, abs_div, abs_of_pos hrR, abs_of_pos hN0, div_mul_div_comm, mul_one]
      exact div_le_div_of_nonneg_left (abs_nonneg _) (mul_pos hN0 (by norm_num)) hrlo
    have h5 : |(t : ℝ) - f i / N| ≤ |(t : ℝ) - f i / r| + |(f i : ℝ) / r - f i / N| := abs_sub_le _ _ _
    rw [h2, abs_mul] at h5
    have h6 := abs_nonneg ((f i : ℝ) / N)
    set w := |(f i : ℝ) / N|
    have h7 : w * |(N - r) / r| ≤ w * ((1 / 2 ^ 53) / (1 - 1 / 2 ^ 53)) := mul_le_mul_of_nonneg_left h3 h6
    have h8 : |(t : ℝ) - f i / N| ≤ w * ((1 / (1 - 1 / 2 ^ 53)) / 2 ^ 53 + (1 / 2 ^ 53) / (1 - 1 / 2 ^ 53)) := by
      linarith
    refine h8.trans (mul_le_mul_of_nonneg_left (by norm_num) h6)
  choose q hq hqerr using hent
  have hnorm : Vec.norm (Scalar.machine intMax) Double.ofInt Except.ok (List.ofFn f) = .ok (sqrt (ofInt S)) := by
    have := Vec.normIntDouble_eq f hf
    rw [if_pos hs] at this
    exact this
  have hval : Out Never (Vec.unitIntDouble (List.ofFn f)) (fun x => Vec.Is Double.Denotes x q) := by
    unfold Vec.unitIntDouble Vec.unitVectorAs Scalar.i32
    rw [hnorm, bind_ok]
    refine Out.bind (Vec.ofArray_ok (rel := fun t (k : Int) => t = ofInt k) (rs := fun (s : Int) (k : Int) => s = k) (w := Vec.ext f) (f := Vec.ext f) ?_ ?_) fun y hy => ?_
    · intro i hi
      rw [List.length_ofFn] at hi
      exact ⟨f ⟨i, hi⟩, by simp [hi], by rw [Vec.ext_lt f hi]⟩
    · rintro s i _ rfl; exact Out.ok rfl
    · rw [List.length_ofFn] at hy
      -- division by the length, entry by entry
      have := Vec.loop_ok (A := Never) (rel := fun t (k : Double) => t = k) (x := y) (n := n)
        (f := fun i => ofInt (Vec.ext f i)) (g := fun i => Double.div (ofInt (Vec.ext f i)) (sqrt (ofInt S)))
        (body := fun i x => do
          let a ← Vec.get x i
          let b ← (Except.ok (sqrt (ofInt S)) : Res Double)
          let t ← Scalar.double.divA a b
          Vec.set x i t) ⟨hy.1, fun i hi => hy.2 i hi⟩ (fun i x' hi hx' => by
            refine Out.bind (hx'.get hi) fun u hu => ?_
            simp only [lt_irrefl, if_false] at hu
            rw [bind_ok, hu]
            exact Vec.mapStep hi hx' rfl)
      unfold Vec.divScalar Vec.mapLoop
      rw [hy.1]
      refine this.mono fun x hx => ⟨hx.1, fun i => ?_⟩
      obtain ⟨t, t1, t2⟩ := hx.2 i i.2
      simp only [Vec.ext_fin] at t2
      exact ⟨t, t1, t2 ▸ hq i⟩
  obtain ⟨x, x1, x2⟩ := hval.never
  refine ⟨x, q, x1, x2, hqerr, ?_⟩
  -- the squared length
  have hw : ∑ i, ((f i : ℝ) / N) ^ 2 = 1 := by
    simp only [div_pow]
    rw [← Finset.sum_div, hSR, pow_two, hNN, div_self hSpos.ne']
  set c : ℝ := 1 / 2 ^ 52 + 1 / 2 ^ 104 with hc
  have hc0 : 0 ≤ c := by positivity
  have h1 : ∀ i, |(q i : ℝ) ^ 2 - ((f i : ℝ) / N) ^ 2| ≤ c * (2 + c) * ((f i : ℝ) / N) ^ 2 := fun i => by
    have h := hqerr i
    set w := (f i : ℝ) / N
    have h2 : |(q i : ℝ) + w| ≤ (2 + c) * |w| := by
      have : (q i : ℝ) + w = (q i - w) + 2 * w := by ring
      rw [this]
      refine (abs_add_le _ _).trans ?_
      rw [abs_mul, abs_two]
      linarith
    rw [show (q i : ℝ) ^ 2 - w ^ 2 = (q i - w) * (q i + w) by ring, abs_mul, ← sq_abs w]
    have := mul_le_mul h h2 (abs_nonneg _) (by positivity)
    linarith
  rw [← hw, ← Finset.sum_sub_distrib]
  refine (Finset.abs_sum_le_sum_abs _ _).trans ((Finset.sum_le_sum fun i _ => h1 i).trans ?_)
  rw [← Finset.mul_sum, hw, hc]
  norm_num

/-- The hypotheses are satisfiable: `(3, 4)`, with squared length 25. -/
example : (![3, 4] : Fin 2 → Int) ≠ 0 ∧ ∑ i, (![3, 4] : Fin 2 → Int) i ^ 2 ≤ 2147483647 ∧
    Vec.unitIntDouble [3, 4] = .ok [.fin false 5404319552844595 (-53), .fin false 7205759403792794 (-53)] := by decide +kernel

/-! ### C96: the dot product of `double` vectors -/

/-- C96: `dot` never fails on vectors of equal length. If its result `q` is finite, all entries are finite and `q` differs
from the exact dot product by at most `((1 + 2^-53)^(n+1) - 1)` times the sum of the absolute products, plus a term
of about `n 2^-1075` for products near zero. The result is finite if the entries are and the absolute products add up to
at most `2^1021`. -/
theorem C96_dot_double {n : Nat} (x y : Fin n → Double) (hx : ∀ i, (x i).WF) (hy : ∀ i, (y i).WF) :
    ∃ d, Vec.dot Scalar.double (List.ofFn x) (List.ofFn y) = .ok d ∧ d.WF ∧
      (∀ q, d.Denotes q → ∃ a b : Fin n → ℚ, (∀ i, (x i).Denotes (a i) ∧ (y i).Denotes (b i)) ∧
        |q - ∑ i, a i * b i| ≤ ((1 + 1 / 2 ^ 53) ^ (n + 1) - 1) * ∑ i, |a i * b i| + n * eta * (1 + 1 / 2 ^ 53) ^ n) ∧
      (∀ a b : Fin n → ℚ, (∀ i, (x i).Denotes (a i)) → (∀ i, (y i).Denotes (b i)) → ∑ i, |a i * b i| ≤ 2 ^ (1021 : Int) → n < 2 ^ 52 →
        ∃ q, d.Denotes q) := by
  obtain ⟨d, d1, d2, d3⟩ := Vec.dot_double x y hx hy
  refine ⟨d, d1, d2, fun q hq => ?_, fun a b ha hb hS hn => ?_⟩
  · obtain ⟨a, b, h1, h2, _⟩ := d3 q hq
    exact ⟨a, b, h1, h2⟩
  · obtain ⟨d', q, e1, e2⟩ := Vec.dot_finite hn x y a b ha hb hS
    rw [d1] at e1
    cases e1
    exact ⟨q, e2⟩

/-- `(0.5, 3) . (4, 0.25) = 2.75` -/
example : Vec.dot Scalar.double [.fin false (2 ^ 52) (-53), .fin false (3 * 2 ^ 51) (-51)] [.fin false (2 ^ 52) (-50), .fin false (2 ^ 52) (-54)] =
    .ok (.fin false 6192449487634432 (-51)) := by decide +kernel

/-! ### C97: the length of a `double` vector -/

/-- C97 as stated is false: the squares overflow or vanish although the length is an ordinary number. The vector `(2^600)` has
the length `2^600`, but `norm()` returns infinity; `(2^-600)` has the length `2^-600`, but `norm()` returns 0. -/
theorem C97_refuted : Vec.normDouble [.fin false (2 ^ 52) 548] = .ok (.inf false) ∧
    Vec.normDouble [.fin false (2 ^ 52) (-652)] = .ok (.fin false 0 (-1074)) := by decide +kernel

/-- C97, the part that holds: if `norm()` is a finite number `q`, then all entries are finite and `q^2` is the sum of their
squares up to a relative error of `(1 + 2^-53)^(n+3) - 1` and an absolute error of about `n 2^-1075`. It is finite if the
entries are and the sum of the squares is at most `2^1021`.
Missing: lengths whose squares leave the range of `double` (see `C97_refuted`). -/
theorem C97_norm_double_partial {n : Nat} (x : Fin n → Double) (hx : ∀ i, (x i).WF) :
    ∃ d, Vec.normDouble (List.ofFn x) = .ok d ∧
      (∀ q, d.Denotes q → ∃ a : Fin n → ℚ, (∀ i, (x i).Denotes (a i)) ∧ 0 ≤ q ∧
        |q ^ 2 - ∑ i, a i ^ 2| ≤ ((1 + 1 / 2 ^ 53) ^ (n + 3) - 1) * ∑ i, a i ^ 2 + n * eta * (1 + 1 / 2 ^ 53) ^ (n + 2)) ∧
      (∀ a : Fin n → ℚ, (∀ i, (x i).Denotes (a i)) → ∑ i, a i ^ 2 ≤ 2 ^ (1021 : Int) → n < 2 ^ 52 → ∃ q, d.Denotes q) := by
  obtain ⟨d, d1, d2, d3⟩ := Vec.dot_double x x hx hx
  refine ⟨Double.sqrt d, by unfold Vec.normDouble Vec.norm; rw [d1]; rfl, fun q hq => ?_, fun a ha hS hn => ?_⟩
  swap
  · obtain ⟨d', s, e1, e2⟩ := Vec.dot_finite hn x x a a ha ha (by simpa only [← pow_two, abs_sq] using hS)
    rw [d1] at e1
    cases e1
    obtain ⟨a', b', h1, _, h3⟩ := d3 s e2
    refine Vec.sqrt_finite e2 (h3 fun i => ?_)
    rw [(h1 i).1.unique (h1 i).2]
    exact mul_self_nonneg _
  obtain ⟨s, s1, s2, s3, s4⟩ := Vec.sqrt_err d2 hq
  obtain ⟨a, b, h1, h2, _⟩ := d3 s s1
  have hab : ∀ i, b i = a i := fun i => (h1 i).2.unique (h1 i).1
  refine ⟨a, fun i => (h1 i).1, s3, ?_⟩
  simp only [hab, ← pow_two, abs_sq] at h2
  set S := ∑ i, a i ^ 2
  have hS : 0 ≤ S := Finset.sum_nonneg fun i _ => by positivity
  set u : ℚ := 1 / 2 ^ 53
  have hu : 0 < u := by positivity
  set E := ((1 + u) ^ (n + 1) - 1) * S + n * eta * (1 + u) ^ n with hE
  have h3 : s ≤ S + E := by have := (abs_le.mp h2).2; linarith
  have h4 : |q ^ 2 - S| ≤ |q ^ 2 - s| + |s - S| := abs_sub_le _ _ _
  have h5 : ((1 + u) ^ 2 - 1) * s ≤ ((1 + u) ^ 2 - 1) * (S + E) := mul_le_mul_of_nonneg_left h3 (by nlinarith)
  calc |q ^ 2 - S| ≤ ((1 + u) ^ 2 - 1) * (S + E) + E := by linarith
    _ = ((1 + u) ^ (n + 3) - 1) * S + n * eta * (1 + u) ^ (n + 2) := by rw [hE]; ring

/-- `norm() = 5` for `(3, 4)` -/
example : Vec.normDouble [.fin false (3 * 2 ^ 51) (-51), .fin false (2 ^ 52) (-50)] = .ok (.fin false 5629499534213120 (-50)) := by
  decide +kernel

/-! ### C98: `unit_vector()` of a `double` vector -/

/-- C98 as stated is false: for `(2^600)` the result is `(0)`, for `(2^-600)` it is `(inf)`, and for the zero vector it is NaN. -/
theorem C98_refuted : Vec.unitDouble [.fin false (2 ^ 52) 548] = .ok [.fin false 0 (-1074)] ∧
    Vec.unitDouble [.fin false (2 ^ 52) (-652)] = .ok [.inf false] ∧
    Vec.unitDouble [.fin false 0 (-1074)] = .ok [.nan] := by decide +kernel

/-- C98, the part that holds: for at most `2^20` entries with a sum of squares between `2^-900` and `2^1021`, `norm()` is finite with
a value `N > 0`, every entry of `unit_vector()` is the quotient by `N` up to rounding, and the squared length of the
result is 1 up to `2^-29`.
Missing: vectors whose squares leave the range of `double` (see `C98_refuted`), and longer vectors. -/
theorem C98_unit_double_partial {n : Nat} (hn : n ≤ 2 ^ 20) (x : Fin n → Double) (a : Fin n → ℚ) (hx : ∀ i, (x i).Denotes (a i))
    (hS : 2 ^ (-900 : Int) ≤ ∑ i, a i ^ 2) (hS' : ∑ i, a i ^ 2 ≤ 2 ^ (1021 : Int)) :
    ∃ (d : Double) (N : ℚ), Vec.normDouble (List.ofFn x) = .ok d ∧ d.Denotes N ∧ 0 < N ∧
      ∃ (y : Fin n → Double) (t : Fin n → ℚ), Vec.unitDouble (List.ofFn x) = .ok (List.ofFn y) ∧ (∀ i, (y i).Denotes (t i)) ∧
        (∀ i, |t i - a i / N| ≤ |a i / N| / 2 ^ 53 + eta) ∧ |∑ i, t i ^ 2 - 1| ≤ 1 / 2 ^ 29 := by
  obtain ⟨d, hd, e2, e3⟩ := C97_norm_double_partial x fun i => (hx i).1
  obtain ⟨N, hN⟩ := e3 a hx hS' (by omega)
  clear hS'
  refine ⟨d, N, hd, hN, ?_⟩
  obtain ⟨a', h1, h2, h3⟩ := e2 N hN
  obtain rfl : a' = a := funext fun i => (h1 i).unique (hx i)
  set S := ∑ i, a' i ^ 2 with hSdef
  have hS0 : 0 < S := (two_zpow_pos _).trans_le hS
  -- the relative error of the squared length
  have hu : ((n + 3 : Nat) : ℚ) * (1 / 2 ^ 53) ≤ 1 / 2 ^ 32 := by
    have : ((n + 3 : Nat) : ℚ) ≤ 2 ^ 21 := by exact_mod_cast (by omega : n + 3 ≤ 2 ^ 21)
    calc ((n + 3 : Nat) : ℚ) * (1 / 2 ^ 53) ≤ 2 ^ 21 * (1 / 2 ^ 53) := mul_le_mul_of_nonneg_right this (by positivity)
      _ = 1 / 2 ^ 32 := by norm_num
  have hp1 : (1 + 1 / 2 ^ 53 : ℚ) ^ (n + 3) ≤ 1 + 1 / 2 ^ 31 := by
    have := Vec.one_add_pow_le (u := 1 / 2 ^ 53) (by positivity) (hu.trans (by norm_num))
    refine this.trans ?_
    have : (2 : ℚ) * ((n + 3 : Nat) : ℚ) * (1 / 2 ^ 53) ≤ 2 * (1 / 2 ^ 32) := by rw [mul_assoc]; linarith
    refine (add_le_add_right this 1).trans (by norm_num)
  have hp2 : (1 + 1 / 2 ^ 53 : ℚ) ^ (n + 2) ≤ 2 :=
    (pow_le_pow_right₀ (by norm_num) (by omega)).trans (hp1.trans (by norm_num))
  have hη : eta * 2 ^ 30 ≤ S * (1 / 2 ^ 100) := by
    have : eta * 2 ^ 30 ≤ 2 ^ (-900 : Int) * (1 / 2 ^ 100) := by
      unfold eta
      rw [show (1 : ℚ) / 2 ^ 100 = 2 ^ (-100 : Int) by rw [zpow_neg]; norm_cast; simp, show (2 : ℚ) ^ 30 = 2 ^ (30 : Int) by norm_cast,
        ← zpow_add₀ (by norm_num), ← zpow_add₀ (by norm_num)]
      exact two_zpow_le (by norm_num)
    exact this.trans (mul_le_mul_of_nonneg_right hS (by positivity))
  have hη0 := eta_pos
  have hηn : (n : ℚ) * eta * (1 + 1 / 2 ^ 53) ^ (n + 2) ≤ S * (1 / 2 ^ 100) := by
    have hn' : (n : ℚ) ≤ 2 ^ 20 := by exact_mod_cast hn
    calc (n : ℚ) * eta * (1 + 1 / 2 ^ 53) ^ (n + 2) ≤ 2 ^ 20 * eta * 2 :=
          mul_le_mul (mul_le_mul_of_nonneg_right hn' hη0.le) hp2 (by positivity) (by positivity)
      _ ≤ eta * 2 ^ 30 := by linarith
      _ ≤ _ := hη
  have h4 : |N ^ 2 - S| ≤ S * (1 / 2 ^ 31 + 1 / 2 ^ 100) := by
    have : ((1 + 1 / 2 ^ 53 : ℚ) ^ (n + 3) - 1) * S ≤ (1 / 2 ^ 31) * S := mul_le_mul_of_nonneg_right (by linarith) hS0.le
    linarith
  obtain ⟨h5, h6⟩ := abs_le.mp h4
  have hNN : 0 < N ^ 2 := by linarith
  have hN0 : 0 < N := lt_of_le_of_ne h2 (by rintro rfl; simp at hNN)
  refine ⟨hN0, ?_⟩
  -- the exact quotients
  have hw : ∑ i, (a' i / N) ^ 2 = S / N ^ 2 := by
    simp only [div_pow]
    rw [← Finset.sum_div]
  have hw1 : S / N ^ 2 ≤ 1 + 1 / 2 ^ 30 := by
    rw [div_le_iff₀ hNN]; nlinarith
  have hw2 : 1 - 1 / 2 ^ 30 ≤ S / N ^ 2 := by
    rw [le_div_iff₀ hNN]; nlinarith
  have hwi : ∀ i, |a' i / N| ≤ 2 := fun i => by
    have : (a' i / N) ^ 2 ≤ S / N ^ 2 := by
      rw [← hw]; exact Finset.single_le_sum (f := fun i => (a' i / N) ^ 2) (fun i _ => by positivity) (Finset.mem_univ i)
    rw [← sq_abs] at this
    nlinarith [abs_nonneg (a' i / N)]
  have hent : ∀ i, ∃ t : ℚ, (Double.div (x i) d).Denotes t ∧ |t - a' i / N| ≤ |a' i / N| / 2 ^ 53 + eta := fun i => by
    obtain ⟨z, hz⟩ := div_denotes (hx i) hN hN0.ne'
    rw [hz]
    rcases round_spec z (a' i / N) with ⟨r, r1, r2, _⟩ | ⟨_, r2⟩
    · exact ⟨r, r1, r2⟩
    · exfalso
      by_cases h0 : a' i / N = 0
      · rw [h0] at r2
        have : rnd |0| = 0 := by simp [rnd, halfEven]
        rw [this] at r2
        exact absurd r2 (not_le.mpr (two_zpow_pos _))
      · have h7 := rnd_le (a := |a' i / N|) (k := 2) (e := 0) (by norm_num) (by norm_num) (abs_pos.mpr h0) (by simpa using hwi i)
        have h8 : (2 : ℚ) ^ (1 : Int) < 2 ^ (1024 : Int) := zpow_lt_zpow_right₀ (by norm_num) (by norm_num)
        simp only [Nat.cast_ofNat, zpow_zero, mul_one, zpow_one] at h7 h8
        exact absurd (r2.trans h7) (not_le.mpr h8)
  choose t ht1 ht2 using hent
  refine ⟨fun i => Double.div (x i) d, t, ?_, ht1, ht2, ?_⟩
  · have hd' : Vec.norm Scalar.double id Except.ok (List.ofFn x) = .ok d := hd
    unfold Vec.unitDouble Vec.unitVector
    rw [hd', bind_ok, Vec.divScalar_double]
  · have h9 : ∀ i, |t i ^ 2 - (a' i / N) ^ 2| ≤ 3 / 2 ^ 53 * (a' i / N) ^ 2 + 10 * eta := fun i => by
      have h := ht2 i
      have hwb := hwi i
      set w := a' i / N
      have hη1 : eta ≤ 1 := by unfold eta; exact zpow_le_one_of_nonpos₀ (by norm_num) (by norm_num)
      have hb : |t i + w| ≤ (2 + 1 / 2 ^ 53) * |w| + eta := by
        rw [show t i + w = (t i - w) + 2 * w by ring]
        refine (abs_add_le _ _).trans ?_
        rw [abs_mul, abs_two]
        linarith
      rw [show t i ^ 2 - w ^ 2 = (t i - w) * (t i + w) by ring, abs_mul, ← sq_abs w]
      refine (mul_le_mul h hb (abs_nonneg _) (by positivity)).trans ?_
      have h0 := abs_nonneg w
      set v := |w|
      have i1 : v * eta ≤ 2 * eta := mul_le_mul_of_nonneg_right hwb hη0.le
      have i2 : eta * eta ≤ 1 * eta := mul_le_mul_of_nonneg_right hη1 hη0.le
      have i3 : 0 ≤ v ^ 2 := by positivity
      have i4 : (v / 2 ^ 53 + eta) * ((2 + 1 / 2 ^ 53) * v + eta) =
        (2 + 1 / 2 ^ 53) / 2 ^ 53 * v ^ 2 + (2 + 2 / 2 ^ 53) * (v * eta) + eta * eta := by ring
      rw [i4]
      have i5 : (2 + 1 / 2 ^ 53) / 2 ^ 53 * v ^ 2 ≤ 3 / 2 ^ 53 * v ^ 2 := mul_le_mul_of_nonneg_right (by norm_num) i3
      have i6 : (2 + 2 / 2 ^ 53 : ℚ) * (v * eta) ≤ 3 * (2 * eta) :=
        mul_le_mul (by norm_num) i1 (by positivity) (by norm_num)
      linarith
    have h10 : |∑ i, t i ^ 2 - S / N ^ 2| ≤ 3 / 2 ^ 53 * (S / N ^ 2) + n * (10 * eta) := by
      rw [← hw, ← Finset.sum_sub_distrib]
      refine (Finset.abs_sum_le_sum_abs _ _).trans ((Finset.sum_le_sum fun i _ => h9 i).trans ?_)
      rw [Finset.sum_add_distrib, ← Finset.mul_sum]
      simp
    have h11 : (n : ℚ) * (10 * eta) ≤ 1 / 2 ^ 40 := by
      have hn' : (n : ℚ) ≤ 2 ^ 20 := by exact_mod_cast hn
      have : eta ≤ 1 / 2 ^ 100 := by
        rw [show (1 : ℚ) / 2 ^ 100 = 2 ^ (-100 : Int) by rw [zpow_neg]; norm_cast; simp]
        exact two_zpow_le (by norm_num)
      calc (n : ℚ) * (10 * eta) ≤ 2 ^ 20 * (10 * (1 / 2 ^ 100)) :=
            mul_le_mul hn' (by linarith) (by positivity) (by positivity)
        _ ≤ 1 / 2 ^ 40 := by norm_num
    have h12 : 3 / 2 ^ 53 * (S / N ^ 2) ≤ 3 / 2 ^ 53 * (1 + 1 / 2 ^ 30) := mul_le_mul_of_nonneg_left hw1 (by positivity)
    have h13 : |S / N ^ 2 - 1| ≤ 1 / 2 ^ 30 := abs_le.mpr ⟨by linarith, by linarith⟩
    have h14 : |∑ i, t i ^ 2 - 1| ≤ |∑ i, t i ^ 2 - S / N ^ 2| + |S / N ^ 2 - 1| := abs_sub_le _ _ _
    refine (h14.trans (add_le_add (h10.trans (add_le_add h12 h11)) h13)).trans (by norm_num)

/-- The hypotheses are satisfiable: `(3, 4)`. -/
example : (Double.fin false (3 * 2 ^ 51) (-51)).WF ∧ (Double.fin false (2 ^ 52) (-50)).WF ∧
    Vec.unitDouble [.fin false (3 * 2 ^ 51) (-51), .fin false (2 ^ 52) (-50)] =
      .ok [.fin false 5404319552844595 (-53), .fin false 7205759403792794 (-53)] := by decide +kernel

/-! ### C99: the matrix product and the dot product -/

/-- C99: for every scalar type, with rounding, overflow or failures of any kind, each entry of `a * b` is what `dot` returns for
the row of `a` and the column of `b`; and if the product fails, then one of these dot products fails in the same way
(or the conversion of the literal `0` does). `a *= b` does the same. -/
theorem C99_product_is_dot {T : Type} (S : Scalar T) {r n c : Nat} {a b : Mat T} {M : Matrix (Fin r) (Fin n) T} {N : Matrix (Fin n) (Fin c) T}
    (ha : Mat.Is (fun t k => t = k) a M) (hb : Mat.Is (fun t k => t = k) b N) :
    ((∃ m P, Mat.mul S a b = .ok m ∧ Mat.Is (fun t k => t = k) m P ∧
        ∀ i j, Vec.dot S (Mat.rowList M i) (Mat.colList N j) = .ok (P i j)) ∨
      (∃ e, Mat.mul S a b = .error e ∧ (S.ofInt 0 = .error e ∨ ∃ i j, Vec.dot S (Mat.rowList M i) (Mat.colList N j) = .error e))) ∧
    Mat.mulAssign S a b = Mat.mul S a b := by
  refine ⟨?_, Mat.mulAssign_eq_mul S a b⟩
  rcases Mat.mul_dot S ha hb with ⟨m, h1, P, h2, h3⟩ | ⟨e, h1, h2⟩
  · exact .inl ⟨m, P, h1, h2, h3⟩
  · exact .inr ⟨e, h1, h2⟩

example : (Mat.mul Scalar.double ⟨1, 2, [some (.fin false (2 ^ 52) (-53)), some (.fin false (2 ^ 52) (-52))]⟩
      ⟨2, 1, [some (.fin false (2 ^ 52) (-50)), some (.fin false (2 ^ 52) (-52))]⟩).toOption.map (·.data) =
    some [some (.fin false (3 * 2 ^ 51) (-51))] := by decide +kernel

end CppMaths
