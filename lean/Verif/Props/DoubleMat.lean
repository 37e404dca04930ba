import Verif.Props.Rounding
import Verif.Proofs.DoubleInv
import Verif.Proofs.DoubleDet
import Verif.Proofs.DoubleDom
import Verif.Proofs.MatSafe
import Verif.Proofs.VecSafe
import Mathlib.Tactic.FinCases
/-!
# C119 - C122: row reduction, inverses and determinants over `double`
-/

namespace CppMaths
open Double

/-! ### C119: the reduced row echelon form over `double` -/

/-- C119. `rref()` and `inplace_rref()` of a matrix of `double`s never fail, whatever the entries, and if all entries of the result
are finite, then the result is in reduced row echelon form, exactly: the leading entries are `1` and the rest of their columns `0`, in
spite of the rounding. A column of the argument with an infinity or a NaN keeps one, so that a finite result comes from a finite argument. -/
theorem C119_rref {r c : Nat} {x : Mat Double} {D : Matrix (Fin r) (Fin c) Double} (hx : Mat.Is (fun t d => t = d ∧ d.WF) x D) :
    ∃ (y : Mat Double) (N : Matrix (Fin r) (Fin c) Double),
      Mat.rref .double x = .ok y ∧ Mat.inplaceRref .double x = .ok y ∧ Mat.Is (fun t d => t = d ∧ d.WF) y N ∧
      (∀ Q : Matrix (Fin r) (Fin c) ℚ, (∀ i j, (N i j).Denotes (Q i j)) → IsRref Q) ∧
      ∀ i j, (¬∃ q, (D i j).Denotes q) → ∃ i', ¬∃ q, (N i' j).Denotes q := by
  obtain ⟨y, N, h1, h2, h3, h4, h5⟩ := Mat.rref_double hx
  refine ⟨y, N, h1, h2, h3, h4, fun i j hn => ?_⟩
  by_contra h
  push Not at h
  refine hn ⟨_, denotes_val ?_ (h5 j (fun i' => ?_) i)⟩
  · obtain ⟨t, _, _, h⟩ := hx.2.2.2 i j
    exact h
  · obtain ⟨q, hq⟩ := h i'
    exact hq.isFin

/-- `[[49, 1], [49, 1]]`: the second row is not cleared by the rounded arithmetic, so the result is the identity matrix. -/
example : Mat.rref .double ⟨2, 2, [some (.ofInt 49), some (.ofInt 1), some (.ofInt 49), some (.ofInt 1)]⟩ =
      .ok ⟨2, 2, [some (.ofInt 1), some (.ofInt 0), some (.ofInt 0), some (.ofInt 1)]⟩ ∧
    Mat.Is (fun t (d : Double) => t = d ∧ d.WF) ⟨2, 2, [some (.ofInt 49), some (.ofInt 1), some (.ofInt 49), some (.ofInt 1)]⟩
      !![Double.ofInt 49, .ofInt 1; .ofInt 49, .ofInt 1] := by
  refine ⟨by decide +kernel, rfl, rfl, rfl, fun i j => ?_⟩
  have wf : ∀ k, (Double.ofInt k).WF := fun k => round_wf _ _
  fin_cases i <;> fin_cases j
  · exact ⟨_, rfl, rfl, wf 49⟩
  · exact ⟨_, rfl, rfl, wf 1⟩
  · exact ⟨_, rfl, rfl, wf 49⟩
  · exact ⟨_, rfl, rfl, wf 1⟩

/-- A matrix with an infinity -/
example : Mat.rref .double ⟨2, 2, [some (.inf false), some (.ofInt 1), some (.ofInt 0), some (.ofInt 2)]⟩ =
      .ok ⟨2, 2, [some .nan, some (.ofInt 0), some .nan, some (.ofInt 1)]⟩ := by decide +kernel

/-! ### C120: inverses over `double` -/

/-- C120 fails: `[[49, 1], [49, 1]]` is singular, yet `inverse()` returns a matrix. -/
theorem C120_refuted_singular : ∃ y, Mat.inverse .double ⟨2, 2, [some (.ofInt 49), some (.ofInt 1), some (.ofInt 49), some (.ofInt 1)]⟩ = .ok y ∧
    Mat.Is Denotes ⟨2, 2, [some (.ofInt 49), some (.ofInt 1), some (.ofInt 49), some (.ofInt 1)]⟩ !![(49 : ℚ), 1; 49, 1] ∧
    ¬IsUnit (!![(49 : ℚ), 1; 49, 1] : Matrix (Fin 2) (Fin 2) ℚ) := by
  refine ⟨⟨2, 2, [some (.fin false 5882252574524729 (-5)), some (.fin true 5882252574524729 (-5)),
    some (.fin true 9007199254740991 0), some (.fin false 4503599627370496 1)]⟩, by decide +kernel, ⟨rfl, rfl, rfl, fun i j => ?_⟩, ?_⟩
  · have h1 : (Double.ofInt 1).Denotes 1 := by simpa using ofInt_denotes (k := 1) (by norm_num)
    have h49 : (Double.ofInt 49).Denotes 49 := by simpa using ofInt_denotes (k := 49) (by norm_num)
    fin_cases i <;> fin_cases j
    · exact ⟨_, rfl, h49⟩
    · exact ⟨_, rfl, h1⟩
    · exact ⟨_, rfl, h49⟩
    · exact ⟨_, rfl, h1⟩
  · rw [Matrix.isUnit_iff_isUnit_det, Matrix.det_fin_two_of]
    norm_num

/-- C120 fails the other way, too: `[[3, 1], [1, t]]` with the `double` `t` next to `1/3` has the determinant `-2^-54` and thus an
inverse, yet `inverse()` throws. -/
theorem C120_refuted_regular :
    Mat.inverse .double ⟨2, 2, [some (.ofInt 3), some (.ofInt 1), some (.ofInt 1), some (.fin false 6004799503160661 (-54))]⟩ =
      .error .domainError ∧
    Mat.Is Denotes ⟨2, 2, [some (.ofInt 3), some (.ofInt 1), some (.ofInt 1), some (.fin false 6004799503160661 (-54))]⟩
      !![(3 : ℚ), 1; 1, 6004799503160661 * 2 ^ (-54 : Int)] ∧
    IsUnit (!![(3 : ℚ), 1; 1, 6004799503160661 * 2 ^ (-54 : Int)] : Matrix (Fin 2) (Fin 2) ℚ) := by
  refine ⟨by decide +kernel, ⟨rfl, rfl, rfl, fun i j => ?_⟩, ?_⟩
  · have h1 : (Double.ofInt 1).Denotes 1 := by simpa using ofInt_denotes (k := 1) (by norm_num)
    have h3 : (Double.ofInt 3).Denotes 3 := by simpa using ofInt_denotes (k := 3) (by norm_num)
    fin_cases i <;> fin_cases j
    · exact ⟨_, rfl, h3⟩
    · exact ⟨_, rfl, h1⟩
    · exact ⟨_, rfl, h1⟩
    · exact ⟨_, rfl, by norm_num [WF], 6004799503160661, -54, .inl ⟨rfl, rfl⟩⟩
  · rw [Matrix.isUnit_iff_isUnit_det, Matrix.det_fin_two_of]
    norm_num

/-- C120. `inverse()` throws if an entry is an infinity or a NaN. -/
theorem C120_nonfinite_throws {n : Nat} {x : Mat Double} {D : Matrix (Fin n) (Fin n) Double} (hx : Mat.Is (fun t d => t = d ∧ d.WF) x D)
    {i j : Fin n} (h : ¬∃ q, (D i j).Denotes q) : Mat.inverse .double x = .error .domainError := by
  let _ : Zero Double := ⟨Double.ofInt 0⟩
  refine Mat.inverse_not_fin hx.full i.2 j.2 fun hf => h ⟨_, denotes_val ?_ (by rwa [Mat.ext_fin] at hf)⟩
  obtain ⟨_, _, _, h⟩ := hx.2.2.2 i j
  exact h

/-- An infinity off the diagonal -/
example : Mat.inverse .double ⟨2, 2, [some (.ofInt 2), some (.inf true), some (.ofInt 0), some (.ofInt 1)]⟩ = .error .domainError := by
  decide +kernel

/-- C120, what is left: if every row and every column of the matrix has exactly one entry other than zero (a diagonal matrix up to the
order of the rows), and these are not so small that their reciprocals overflow, then `inverse()` returns the inverse, with
every entry correctly rounded. For other matrices rounding may make a singular matrix pass for a regular one and the other way round. -/
theorem C120_inverse_monomial_partial {n : Nat} {x : Mat Double} {M : Matrix (Fin n) (Fin n) ℚ} (hx : Mat.Is Denotes x M)
    (π : Equiv.Perm (Fin n)) (h0 : ∀ i j, j ≠ π i → M i j = 0) (hd : ∀ i, 2 ^ (-1022 : Int) ≤ |M i (π i)|) :
    ∃ y, Mat.inverse .double x = .ok y ∧ IsUnit M ∧ Mat.Is Rounded y M⁻¹ := by
  have hd0 : ∀ i, M i (π i) ≠ 0 := fun i h => by
    have := hd i
    rw [h, abs_zero] at this
    exact absurd this (not_le.mpr (by positivity))
  have hfin : ∀ i, ∃ r, (Double.round false (1 / M i (π i))).Denotes r := fun i => by
    refine Vec.round_finite _ ?_
    rw [abs_div, abs_one, div_le_iff₀ (abs_pos.mpr (hd0 i))]
    calc (1 : ℚ) ≤ 2 ^ (1023 : Int) * 2 ^ (-1022 : Int) := by rw [← zpow_add₀ two_ne_zero]; norm_num
      _ ≤ _ := mul_le_mul_of_nonneg_left (hd i) (by positivity)
  choose e he using hfin
  let π' : Nat → Nat := fun i => if h : i < n then π ⟨i, h⟩ else i
  let e' : Nat → ℚ := fun i => if h : i < n then e ⟨i, h⟩ else 0
  let d' : Nat → ℚ := fun i => if h : i < n then M ⟨i, h⟩ (π ⟨i, h⟩) else 0
  have hπ' : Mat.Permutes n π' := by
    constructor
    · intro i hi
      simp only [π', hi, dite_true]
      exact (π _).2
    · intro i hi j hj h
      simp only [π', hi, hj, dite_true] at h
      simpa using π.injective (Fin.ext h)
  have hrow : ∀ i, ∀ {a b : Double}, a.Denotes 1 → b.Denotes (M i (π i)) → (Double.div a b).Denotes (e i) := by
    intro i a b ha hb
    obtain ⟨z, h⟩ := div_denotes ha hb (hd0 i)
    have h1 := he i
    have hne : 1 / M i (π i) ≠ 0 := by rw [one_div]; exact inv_ne_zero (hd0 i)
    rw [h]
    unfold Double.round at h1 ⊢
    rw [if_neg hne] at h1 ⊢
    exact h1
  have hfull : Mat.Full Denotes x n n (fun i j => if j = π' i then d' i else 0) := by
    refine hx.full.weaken fun i j hi hj _ => ⟨trivial, ?_⟩
    rw [Mat.ext_lt M hi hj]
    simp only [π', d', hi, dite_true]
    split
    · next h => congr 1; exact Fin.ext h
    · next h => exact h0 _ _ fun h' => h (congrArg Fin.val h')
  have h1 := Mat.inverse_mono (d := d') (e := e') hπ' (fun i hi => by simp only [d', hi, dite_true]; exact hd0 _)
    (fun i hi => by simp only [d', e', hi, dite_true]; exact hrow ⟨i, hi⟩) hfull
  rcases h1 with ⟨y, h1, h2⟩ | ⟨_, _, h⟩
  · have hinv : (Matrix.of fun i j => if i = π j then 1 / M j (π j) else 0) * M = 1 := by
      ext i j
      rw [Matrix.mul_apply, Finset.sum_eq_single (π.symm i)]
      · simp only [Matrix.of_apply, Equiv.apply_symm_apply, if_true, Matrix.one_apply]
        split
        · next h => subst h; rw [one_div_mul_cancel]; simpa using hd0 (π.symm i)
        · next h => rw [h0 _ j (by simpa using Ne.symm h), mul_zero]
      · intro k _ hk
        rw [Matrix.of_apply, if_neg (fun h => hk (by rw [h]; simp)), zero_mul]
      · simp
    have hu : IsUnit M := (Matrix.isUnit_iff_isUnit_det _).mpr (Matrix.isUnit_det_of_left_inverse hinv)
    refine ⟨y, h1, hu, h2.1, h2.2.1, h2.2.2.1, fun i j => ?_⟩
    rw [Matrix.inv_eq_left_inv hinv, Matrix.of_apply]
    obtain ⟨t, t1, t2⟩ := h2.2.2.2 i j i.2 j.2 trivial
    refine ⟨t, t1, ?_⟩
    dsimp only at t2
    simp only [π', e', j.2, dite_true, Fin.eta] at t2
    by_cases h : i = π j
    · rw [if_pos (congrArg Fin.val h)] at t2
      rw [if_pos h]
      exact (round_rounded false (1 / M j (π j))).congr (he j) t2
    · rw [if_neg (fun h' => h (Fin.ext h'))] at t2
      rw [if_neg h]
      exact t2.rounded
  · exact h.elim

/-- `[[0, 3], [-2, 0]]`: the reciprocal of `3` is rounded. -/
example : Mat.inverse .double ⟨2, 2, [some (.ofInt 0), some (.ofInt 3), some (.ofInt (-2)), some (.ofInt 0)]⟩ =
      .ok ⟨2, 2, [some (.ofInt 0), some (.fin true 4503599627370496 (-53)), some (.fin false 6004799503160661 (-54)), some (.ofInt 0)]⟩ ∧
    (∀ i j, j ≠ Equiv.swap 0 1 i → (!![(0 : ℚ), 3; -2, 0] : Matrix (Fin 2) (Fin 2) ℚ) i j = 0) ∧
    ∀ i, 2 ^ (-1022 : Int) ≤ |(!![(0 : ℚ), 3; -2, 0] : Matrix (Fin 2) (Fin 2) ℚ) i (Equiv.swap 0 1 i)| := by
  have h : (2 : ℚ) ^ (-1022 : Int) ≤ 1 := zpow_le_one_of_nonpos₀ (by norm_num) (by norm_num)
  refine ⟨by decide +kernel, fun i j hij => ?_, fun i => h.trans ?_⟩
  · fin_cases i <;> fin_cases j <;> simp at hij ⊢
  · fin_cases i <;> norm_num

/-! ### C121: `determinant()` over `double` -/

/-- C121 fails: the matrix `[[-3, -2, 1], [-2, -1, 0], [3, 0, 3]]` is singular, yet `determinant()` is not zero. -/
theorem C121_refuted_singular : ∃ d, Mat.determinant .double ⟨3, 3, [some (.ofInt (-3)), some (.ofInt (-2)), some (.ofInt 1),
      some (.ofInt (-2)), some (.ofInt (-1)), some (.ofInt 0), some (.ofInt 3), some (.ofInt 0), some (.ofInt 3)]⟩ = .ok d ∧
    ¬d.Denotes 0 ∧ (!![(-3 : ℚ), -2, 1; -2, -1, 0; 3, 0, 3] : Matrix (Fin 3) (Fin 3) ℚ).det = 0 := by
  refine ⟨.fin false 9007199254740990 (-103), by decide +kernel, fun h => ?_, ?_⟩
  · have := h.unique (b := 9007199254740990 * 2 ^ (-103 : Int)) ⟨by norm_num [WF], 9007199254740990, -103, .inl ⟨rfl, by norm_num⟩⟩
    norm_num at this
  · rw [Matrix.det_fin_three]
    simp
    norm_num

/-- C121 fails the other way, too: with the `double` `t` next to `1/3`, the matrix `[[3, 1, 0], [1, t, 0], [0, 0, 1]]` has the
determinant `-2^-54`, but `determinant()` is zero. -/
theorem C121_refuted_regular : ∃ d, Mat.determinant .double ⟨3, 3, [some (.ofInt 3), some (.ofInt 1), some (.ofInt 0),
      some (.ofInt 1), some (.fin false 6004799503160661 (-54)), some (.ofInt 0), some (.ofInt 0), some (.ofInt 0), some (.ofInt 1)]⟩ =
      .ok d ∧ d.Denotes 0 ∧
    (!![(3 : ℚ), 1, 0; 1, 6004799503160661 * 2 ^ (-54 : Int), 0; 0, 0, 1] : Matrix (Fin 3) (Fin 3) ℚ).det = -2 ^ (-54 : Int) := by
  refine ⟨.fin true 0 (-1074), by decide +kernel, ⟨by norm_num [WF], 0, -1074, .inr ⟨rfl, by norm_num⟩⟩, ?_⟩
  rw [Matrix.det_fin_three]
  simp
  norm_num

/-- C121. `determinant()` of a square matrix of `double`s never fails, whatever the entries. -/
theorem C121_never_fails {n : Nat} {x : Mat Double} {D : Matrix (Fin n) (Fin n) Double} (hx : Mat.Is (fun t d => t = d) x D) :
    ∃ d, Mat.determinant .double x = .ok d := by
  rcases Mat.determinant_fu (P := fun _ => True) closed_double (n := n) (m := x)
    ⟨hx.1, hx.2.1, hx.2.2.1, fun i j hi hj _ => by
      obtain ⟨t, h1, _⟩ := hx.2.2.2 ⟨i, hi⟩ ⟨j, hj⟩
      exact ⟨t, h1, trivial⟩⟩ with ⟨d, h, _⟩ | ⟨_, _, h⟩
  · exact ⟨d, h⟩
  · exact h.elim

example : ∃ d, Mat.determinant .double ⟨3, 3, [some .nan, some (.inf false), some (.ofInt 0), some (.ofInt 0), some (.ofInt 0), some (.ofInt 7),
    some (.ofInt 1), some (.inf true), some (.ofInt 2)]⟩ = .ok d :=
  C121_never_fails (D := !![.nan, .inf false, .ofInt 0; .ofInt 0, .ofInt 0, .ofInt 7; .ofInt 1, .inf true, .ofInt 2])
    ⟨rfl, rfl, rfl, fun i j => by fin_cases i <;> fin_cases j <;> exact ⟨_, rfl, rfl⟩⟩

/-- C121, what is left, for at most two rows: `determinant()` of one number is this number; that of two rows `(a, b)` and `(c, d)` never
fails, and a finite result is off by at most `(1 + 2^-53)^2 - 1` times `|a d| + |b c|` and a term for products near zero. -/
theorem C121_small_partial : (∀ {x : Mat Double} {M : Matrix (Fin 1) (Fin 1) ℚ}, Mat.Is Denotes x M →
      ∃ d, Mat.determinant .double x = .ok d ∧ d.Denotes M.det) ∧
    ∀ {x : Mat Double} {M : Matrix (Fin 2) (Fin 2) ℚ}, Mat.Is Denotes x M → ∃ d, Mat.determinant .double x = .ok d ∧
      (∀ q, d.Denotes q → |q - M.det| ≤ ((1 + 1 / 2 ^ 53) ^ 2 - 1) * (M.map fun t => |t|).permanent +
        (1 + 1 / 2 ^ 53) ^ 2 * eta * (M.map fun t => |t| + 1).permanent) ∧
      ((M.map fun t => |t| + 1).permanent ≤ 2 ^ (1020 : Int) → ∃ q, d.Denotes q) := by
  constructor
  · intro x M hx
    obtain ⟨t, t1, t2⟩ := hx.2.2.2 0 0
    refine ⟨t, ?_, by rwa [Matrix.det_fin_one]⟩
    unfold Mat.determinant
    simp only [hx.1, hx.2.1, ne_eq, not_true_eq_false, if_false, if_true]
    simp at t1
    simp [Mat.dataAt, t1]
  · intro x M hx
    rcases Mat.ddet2_ok hx with ⟨d, h1, h2⟩ | ⟨_, _, h⟩
    · refine ⟨d, ?_, h2.err, h2.fin (by norm_num)⟩
      unfold Mat.determinant
      simp only [hx.1, hx.2.1, ne_eq, not_true_eq_false, if_false, if_true, show ¬2 = 1 by omega]
      exact h1
    · exact h.elim

/-- The determinant of `[[5, 1], [3, 7]]`. -/
example : ∃ d, Mat.determinant .double ⟨2, 2, [some (.ofInt 5), some (.ofInt 1), some (.ofInt 3), some (.ofInt 7)]⟩ = .ok d := by
  obtain ⟨d, h, _⟩ := C121_small_partial.2 (x := ⟨2, 2, [some (.ofInt 5), some (.ofInt 1), some (.ofInt 3), some (.ofInt 7)]⟩)
    (M := !![((5 : Int) : ℚ), ((1 : Int) : ℚ); ((3 : Int) : ℚ), ((7 : Int) : ℚ)]) ⟨rfl, rfl, rfl, fun i j => by
      fin_cases i <;> fin_cases j <;> exact ⟨_, rfl, ofInt_denotes (by norm_num)⟩⟩
  exact ⟨d, h⟩

/-- C121, what is left, for more rows: of an upper triangular matrix without zeros on the diagonal, `determinant()` never fails, and a
finite result differs from the product of the diagonal only by the rounding of `n` multiplications. -/
theorem C121_triangular_partial {n : Nat} (hn : 3 ≤ n) {x : Mat Double} {M : Matrix (Fin n) (Fin n) ℚ} (hx : Mat.Is Denotes x M)
    (ht : ∀ i j, j < i → M i j = 0) (hd : ∀ i, M i i ≠ 0) : ∃ d, Mat.determinant .double x = .ok d ∧
      (∀ q, d.Denotes q → |q - M.det| ≤ ((1 + 1 / 2 ^ 53) ^ n - 1) * |M.det| + (1 + 1 / 2 ^ 53) ^ n * eta * ∏ i, (|M i i| + 1)) ∧
      (n ≤ 2 ^ 50 → ∏ i, (|M i i| + 1) ≤ 2 ^ (1020 : Int) → ∃ q, d.Denotes q) := by
  have h := Mat.triDet_ok hn (F := Mat.ext M) (fun i hi => by rw [Mat.ext_lt M hi hi]; exact hd _)
    (fun i hi j hj => by rw [Mat.ext_lt M hi (by omega)]; exact ht _ _ hj) hx.full
  have e1 : ∏ i ∈ Finset.range n, Mat.ext M i i = M.det := by
    rw [Matrix.det_of_upperTriangular (fun i j hij => ht i j hij), ← Fin.prod_univ_eq_prod_range (fun i => Mat.ext M i i)]
    simp only [Mat.ext_fin]
  have e2 : ∏ i ∈ Finset.range n, |Mat.ext M i i| = |M.det| := by rw [← Finset.abs_prod, e1]
  have e3 : ∏ i ∈ Finset.range n, (|Mat.ext M i i| + 1) = ∏ i, (|M i i| + 1) := by
    rw [← Fin.prod_univ_eq_prod_range (fun i => |Mat.ext M i i| + 1)]
    simp only [Mat.ext_fin]
  rw [e1, e2, e3] at h
  rcases h with ⟨d, h1, h2⟩ | ⟨_, _, h⟩
  · exact ⟨d, h1, h2.err, h2.fin⟩
  · exact h.elim

/-- The diagonal `0.1, 0.1, 3`, with an entry above it -/
example : Mat.determinant .double ⟨3, 3, [some (.fin false 7205759403792794 (-56)), some (.ofInt 5), some (.ofInt 0),
    some (.ofInt 0), some (.fin false 7205759403792794 (-56)), some (.ofInt 0), some (.ofInt 0), some (.ofInt 0), some (.ofInt 3)]⟩ =
    .ok (.fin false 8646911284551354 (-58)) := by decide +kernel

/-- What the theorems about dominant matrices need, for the columns of `M`. -/
theorem Mat.bounds_of {n : Nat} {M : Matrix (Fin n) (Fin n) ℚ} {κ : ℚ} (hκ : n * κ ≤ 2 ^ 48)
    (hdom : ∀ j, ∑ i, |M i j| ≤ κ * (|M j j| - ∑ i ∈ Finset.univ.erase j, |M i j|))
    (hlow : ∀ j, 2 ^ (-450 : Int) ≤ |M j j| - ∑ i ∈ Finset.univ.erase j, |M i j|)
    (hhigh : ∏ j, (2 * ∑ i, |M i j| + 1) ≤ 2 ^ (1020 : Int)) :
    Mat.Bounds n (fun j => if h : j < n then Dominant.colSum M ⟨j, h⟩ else 0) (fun j => if h : j < n then Dominant.margin M ⟨j, h⟩ else 0) κ where
  size := hκ
  low j hj := by rw [dif_pos hj]; exact hlow _
  ratio j hj := by rw [dif_pos hj, dif_pos hj]; exact hdom _
  le j hj := by
    rw [dif_pos hj, dif_pos hj]
    exact (Dominant.margin_le_diag M _).trans (Dominant.diag_le_colSum M _ _)
  high := by
    rw [← Fin.prod_univ_eq_prod_range (fun j => 2 * (if h : j < n then Dominant.colSum M ⟨j, h⟩ else 0) + 1)]
    simpa [Dominant.colSum] using hhigh

/-- C121, what is left, for more rows: if in every column the diagonal entry exceeds the sum `R` of the absolute values of the others, so
clearly that `|diagonal| + R` is at most `κ` times `|diagonal| - R`, then `determinant()` returns a finite number, the determinant is not
zero, and the result is off by a factor of at most `(1 + κ 2^-48)^(n (n + 1) / 2)`, apart from a term for products near zero. The numbers must
not be so large or small that products leave the range of `double`. -/
theorem C121_dominant_columns_partial {n : Nat} (hn : 3 ≤ n) {x : Mat Double} {M : Matrix (Fin n) (Fin n) ℚ} (hx : Mat.Is Denotes x M)
    {κ : ℚ} (hκ : n * κ ≤ 2 ^ 48) (hdom : ∀ j, ∑ i, |M i j| ≤ κ * (|M j j| - ∑ i ∈ Finset.univ.erase j, |M i j|))
    (hlow : ∀ j, 2 ^ (-450 : Int) ≤ |M j j| - ∑ i ∈ Finset.univ.erase j, |M i j|)
    (hhigh : ∏ j, (2 * ∑ i, |M i j| + 1) ≤ 2 ^ (1020 : Int)) :
    M.det ≠ 0 ∧ ∃ d q, Mat.determinant .double x = .ok d ∧ d.Denotes q ∧
      |q - M.det| ≤ ((1 + κ / 2 ^ 48) ^ (n * (n + 1) / 2) - 1) * |M.det| + 2 * eta * ∏ j, (2 * ∑ i, |M i j| + 1) := by
  have e1 : Mat.block 0 n (Mat.ext M) = M := by
    funext i j
    show Mat.ext M (0 + i) (0 + j) = M i j
    rw [zero_add, zero_add, Mat.ext_fin]
  have e2 : n + n.choose 2 = n * (n + 1) / 2 := by
    have := Nat.choose_succ_succ' n 1
    rw [Nat.choose_one_right, Nat.choose_two_right, Nat.add_sub_cancel] at this
    rw [← this, Nat.mul_comm]
  refine ⟨Dominant.det_ne_zero fun j => (two_zpow_pos _).trans_le (hlow j), ?_⟩
  have h := Mat.domDet_ok (Mat.bounds_of hκ hdom hlow hhigh) hn false hx.full (by
    intro j
    rw [e1]
    simp only [zero_add, j.2, dif_pos, Fin.eta, pow_zero, one_mul, Nat.cast_zero, mul_zero, zero_mul, sub_zero]
    exact ⟨le_rfl, le_rfl⟩)
  rw [e1, e2, ← Fin.prod_univ_eq_prod_range (fun j => 2 * (if h : j < n then Dominant.colSum M ⟨j, h⟩ else 0) + 1)] at h
  rcases h with ⟨d, h1, q, h2, h3⟩ | ⟨_, _, h⟩
  · exact ⟨d, q, h1, h2, by simpa [Dominant.colSum] using h3⟩
  · exact h.elim

/-- The same for rows instead of columns. -/
theorem C121_dominant_rows_partial {n : Nat} (hn : 3 ≤ n) {x : Mat Double} {M : Matrix (Fin n) (Fin n) ℚ} (hx : Mat.Is Denotes x M)
    {κ : ℚ} (hκ : n * κ ≤ 2 ^ 48) (hdom : ∀ i, ∑ j, |M i j| ≤ κ * (|M i i| - ∑ j ∈ Finset.univ.erase i, |M i j|))
    (hlow : ∀ i, 2 ^ (-450 : Int) ≤ |M i i| - ∑ j ∈ Finset.univ.erase i, |M i j|)
    (hhigh : ∏ i, (2 * ∑ j, |M i j| + 1) ≤ 2 ^ (1020 : Int)) :
    M.det ≠ 0 ∧ ∃ d q, Mat.determinant .double x = .ok d ∧ d.Denotes q ∧
      |q - M.det| ≤ ((1 + κ / 2 ^ 48) ^ (n * (n + 1) / 2) - 1) * |M.det| + 2 * eta * ∏ i, (2 * ∑ j, |M i j| + 1) := by
  have e1 : Mat.block 0 n (Mat.ext M) = M := by
    funext i j
    show Mat.ext M (0 + i) (0 + j) = M i j
    rw [zero_add, zero_add, Mat.ext_fin]
  have e2 : n + n.choose 2 = n * (n + 1) / 2 := by
    have := Nat.choose_succ_succ' n 1
    rw [Nat.choose_one_right, Nat.choose_two_right, Nat.add_sub_cancel] at this
    rw [← this, Nat.mul_comm]
  refine ⟨?_, ?_⟩
  · rw [← Matrix.det_transpose]
    exact Dominant.det_ne_zero fun j => (two_zpow_pos _).trans_le (hlow j)
  have h := Mat.domDet_ok (Mat.bounds_of (M := M.transpose) hκ hdom hlow hhigh) hn true hx.full (by
    intro j
    rw [e1]
    simp only [zero_add, j.2, dif_pos, Fin.eta, pow_zero, one_mul, Nat.cast_zero, mul_zero, zero_mul, sub_zero]
    exact ⟨le_rfl, le_rfl⟩)
  rw [e1, e2, ← Fin.prod_univ_eq_prod_range (fun j => 2 * (if h : j < n then Dominant.colSum M.transpose ⟨j, h⟩ else 0) + 1)] at h
  rcases h with ⟨d, h1, q, h2, h3⟩ | ⟨_, _, h⟩
  · exact ⟨d, q, h1, h2, by simpa [Dominant.colSum] using h3⟩
  · exact h.elim

theorem dominantExample : Mat.Is Denotes ⟨3, 3, [some (.ofInt 11), some (.ofInt 3), some (.ofInt (-2)), some (.ofInt 1), some (.ofInt 7),
    some (.ofInt 2), some (.ofInt (-4)), some (.ofInt 3), some (.ofInt 13)]⟩ !![(11 : ℚ), 3, -2; 1, 7, 2; -4, 3, 13] := by
  have d : ∀ k : Int, k.natAbs ≤ 2 ^ 53 → (Double.ofInt k).Denotes k := fun k h => ofInt_denotes (by rw [Int.abs_eq_natAbs]; exact_mod_cast h)
  refine ⟨rfl, rfl, rfl, fun i j => ?_⟩
  fin_cases i <;> fin_cases j
  · exact ⟨_, rfl, by simpa using d 11 (by norm_num)⟩
  · exact ⟨_, rfl, by simpa using d 3 (by norm_num)⟩
  · exact ⟨_, rfl, by simpa using d (-2) (by norm_num)⟩
  · exact ⟨_, rfl, by simpa using d 1 (by norm_num)⟩
  · exact ⟨_, rfl, by simpa using d 7 (by norm_num)⟩
  · exact ⟨_, rfl, by simpa using d 2 (by norm_num)⟩
  · exact ⟨_, rfl, by simpa using d (-4) (by norm_num)⟩
  · exact ⟨_, rfl, by simpa using d 3 (by norm_num)⟩
  · exact ⟨_, rfl, by simpa using d 13 (by norm_num)⟩

example := C121_dominant_columns_partial le_rfl dominantExample (κ := 13) (by norm_num)
  (fun j => by fin_cases j <;> norm_num [Fin.sum_univ_succ, Finset.sum_erase_eq_sub])
  (fun j => le_trans (zpow_le_one_of_nonpos₀ (by norm_num) (by norm_num))
    (by fin_cases j <;> norm_num [Fin.sum_univ_succ, Finset.sum_erase_eq_sub]))
  (le_trans (b := 2 ^ (20 : Int)) (by norm_num [Fin.sum_univ_succ, Fin.prod_univ_succ]) (zpow_le_zpow_right₀ (by norm_num) (by norm_num)))
example := C121_dominant_rows_partial le_rfl dominantExample (κ := 4) (by norm_num)
  (fun j => by fin_cases j <;> norm_num [Fin.sum_univ_succ, Finset.sum_erase_eq_sub])
  (fun j => le_trans (zpow_le_one_of_nonpos₀ (by norm_num) (by norm_num))
    (by fin_cases j <;> norm_num [Fin.sum_univ_succ, Finset.sum_erase_eq_sub]))
  (le_trans (b := 2 ^ (20 : Int)) (by norm_num [Fin.sum_univ_succ, Fin.prod_univ_succ]) (zpow_le_zpow_right₀ (by norm_num) (by norm_num)))

/-- The determinant is 810, the result `810 + 2^-43`. -/
example : Mat.determinant .double ⟨3, 3, [some (.ofInt 11), some (.ofInt 3), some (.ofInt (-2)), some (.ofInt 1), some (.ofInt 7),
    some (.ofInt 2), some (.ofInt (-4)), some (.ofInt 3), some (.ofInt 13)]⟩ = .ok (.fin false (810 * 2 ^ 43 + 1) (-43)) := by decide +kernel

/-! ### C122: cofactor expansions over `double` -/

/-- C122. The cofactor expansions along the first row and the first column of an `n` by `n` matrix of finite `double`s, `0 < n`, never
fail. A finite result differs from the determinant by at most `(1 + 2^-53)^k - 1` times the sum of the absolute values of the `n!`
products, `k = (n - 1) (n + 4) / 2`, and a term for products near zero. The result is finite unless these sums are huge. -/
theorem C122_cofactor_expansions {n : Nat} (hn : 0 < n) {x : Mat Double} {M : Matrix (Fin n) (Fin n) ℚ} (hx : Mat.Is Denotes x M)
    {k : Nat} (hk : 2 * k = (n - 1) * (n + 4)) :
    ∀ f ∈ [Mat.rowCofactor .double, Mat.colCofactor .double], ∃ d, f x = .ok d ∧
      (∀ q, d.Denotes q → |q - M.det| ≤ ((1 + 1 / 2 ^ 53) ^ k - 1) * (M.map fun t => |t|).permanent +
        (1 + 1 / 2 ^ 53) ^ k * eta * (M.map fun t => |t| + 1).permanent) ∧
      (k ≤ 2 ^ 50 → (M.map fun t => |t| + 1).permanent ≤ 2 ^ (1020 : Int) → ∃ q, d.Denotes q) := by
  obtain ⟨n, rfl⟩ : ∃ l, n = l + 1 := ⟨n - 1, by omega⟩
  have hd : Mat.depth (n + 1) = k := by
    have := Mat.depth_eq n
    rw [show n + 1 - 1 = n by omega, show n + 1 + 4 = n + 5 by omega] at hk
    omega
  have fin : ∀ {r : Res Double}, Out Never r (fun t => Approx (Mat.depth (n + 1)) t M.det (Mat.absM M).permanent (Mat.absM1 M).permanent) →
      ∃ d, r = .ok d ∧
      (∀ q, d.Denotes q → |q - M.det| ≤ ((1 + 1 / 2 ^ 53) ^ k - 1) * (M.map fun t => |t|).permanent +
        (1 + 1 / 2 ^ 53) ^ k * eta * (M.map fun t => |t| + 1).permanent) ∧
      (k ≤ 2 ^ 50 → (M.map fun t => |t| + 1).permanent ≤ 2 ^ (1020 : Int) → ∃ q, d.Denotes q) := by
    intro r h
    rw [hd] at h
    rcases h with ⟨d, h1, h2⟩ | ⟨_, _, h⟩
    · exact ⟨d, h1, h2.err, h2.fin⟩
    · exact h.elim
  intro f hf
  simp only [List.mem_cons, List.not_mem_nil, or_false] at hf
  rcases hf with rfl | rfl
  · unfold Mat.rowCofactor
    exact fin (Mat.rowCofactorF_double n _ (by rw [hx.1]; omega) x M hx)
  · unfold Mat.colCofactor
    exact fin (Mat.colCofactorF_double n _ (by rw [hx.1]; omega) x M hx)

/-- The singular matrix of `C121_refuted_singular`: every product of three entries is exact here. -/
example : Mat.rowCofactor .double ⟨3, 3, [some (.ofInt (-3)), some (.ofInt (-2)), some (.ofInt 1),
      some (.ofInt (-2)), some (.ofInt (-1)), some (.ofInt 0), some (.ofInt 3), some (.ofInt 0), some (.ofInt 3)]⟩ = .ok (.ofInt 0) := by
  decide +kernel

end CppMaths
