import Verif.Proofs.DoubleRref
import Mathlib.LinearAlgebra.Matrix.Permanent
/-!
# Cofactor expansions over `double`
-/

namespace CppMaths

/-! ### Permanents -/

section
variable {R : Type} [CommSemiring R]

/-- Expansion of a permanent along the first column. -/
theorem permanent_succ_column_zero {n : Nat} (A : Matrix (Fin (n + 1)) (Fin (n + 1)) R) :
    A.permanent = ∑ i : Fin (n + 1), A i 0 * (A.submatrix i.succAbove Fin.succ).permanent := by
  rw [Matrix.permanent, Finset.univ_perm_fin_succ, ← Finset.univ_product_univ]
  simp only [Finset.sum_map, Equiv.toEmbedding_apply, Finset.sum_product]
  refine Finset.sum_congr rfl fun i _ => Fin.cases ?_ (fun i => ?_) i
  · simp only [Fin.prod_univ_succ, Matrix.permanent, Finset.mul_sum, Equiv.Perm.decomposeFin_symm_apply_zero,
      Equiv.swap_self, Equiv.Perm.decomposeFin_symm_apply_succ, Fin.succAbove_zero, Equiv.coe_refl, id, Matrix.submatrix_apply]
  · rw [← Matrix.permanent_permute_cols i.cycleRange, Matrix.permanent, Finset.mul_sum]
    refine Finset.sum_congr rfl fun σ _ => ?_
    simp only [Fin.prod_univ_succ, Fin.succAbove_cycleRange, Equiv.Perm.decomposeFin_symm_apply_zero,
      Equiv.Perm.decomposeFin_symm_apply_succ, Matrix.submatrix_apply, id]

/-- Expansion of a permanent along the first row. -/
theorem permanent_succ_row_zero {n : Nat} (A : Matrix (Fin (n + 1)) (Fin (n + 1)) R) :
    A.permanent = ∑ j : Fin (n + 1), A 0 j * (A.submatrix Fin.succ j.succAbove).permanent := by
  rw [← Matrix.permanent_transpose A, permanent_succ_column_zero]
  refine Finset.sum_congr rfl fun i _ => ?_
  rw [← Matrix.permanent_transpose]
  simp only [Matrix.transpose_apply, Matrix.transpose_submatrix, Matrix.transpose_transpose]

end

namespace Double

/-- Bookkeeping for a computed number: `t` has come out of `k` roundings in a row; its exact value is `s`, `a` bounds the sum of the
absolute values of the terms, `u` what gets too small to be represented. -/
structure Approx (k : Nat) (t : Double) (s a u : ℚ) : Prop where
  wf : t.WF
  le : |s| ≤ a
  le' : a ≤ u
  err : ∀ r, t.Denotes r → |r - s| ≤ ((1 + 1 / 2 ^ 53) ^ k - 1) * a + (1 + 1 / 2 ^ 53) ^ k * eta * u
  fin : k ≤ 2 ^ 50 → u ≤ 2 ^ (1020 : Int) → ∃ r, t.Denotes r

theorem Approx.mono {k k' : Nat} {t : Double} {s a u u' : ℚ} (h : Approx k t s a u) (hk : k ≤ k') (hu : u ≤ u') :
    Approx k' t s a u' where
  wf := h.wf
  le := h.le
  le' := h.le'.trans hu
  err r hr := by
    have h1 := h.err r hr
    have h2 : (1 + 1 / 2 ^ 53 : ℚ) ^ k ≤ (1 + 1 / 2 ^ 53) ^ k' := pow_le_pow_right₀ (by norm_num) hk
    have h3 : 0 ≤ a := (abs_nonneg s).trans h.le
    have h4 : (0 : ℚ) < (1 + 1 / 2 ^ 53) ^ k := by positivity
    have h5 := eta_pos
    have h6 : 0 ≤ u := h3.trans h.le'
    have h7 : ((1 + 1 / 2 ^ 53 : ℚ) ^ k - 1) * a ≤ ((1 + 1 / 2 ^ 53) ^ k' - 1) * a := mul_le_mul_of_nonneg_right (by linarith) h3
    have h8 : (1 + 1 / 2 ^ 53 : ℚ) ^ k * eta * u ≤ (1 + 1 / 2 ^ 53) ^ k' * eta * u' :=
      mul_le_mul (mul_le_mul_of_nonneg_right h2 h5.le) hu h6 (by positivity)
    linarith
  fin hk' hu' := h.fin (hk.trans hk') (hu.trans hu')

theorem Approx.exact {t : Double} {s : ℚ} (h : t.Denotes s) : Approx 0 t s |s| (|s| + 1) where
  wf := h.1
  le := le_rfl
  le' := by linarith
  err r hr := by
    rw [hr.unique h, sub_self, abs_zero, pow_zero, sub_self, zero_mul, zero_add, one_mul]
    have := eta_pos
    positivity
  fin _ _ := ⟨s, h⟩

theorem Approx.zero {t : Double} (h : t.Denotes 0) : Approx 0 t 0 0 0 where
  wf := h.1
  le := by simp
  le' := le_rfl
  err r hr := by rw [hr.unique h]; simp
  fin _ _ := ⟨0, h⟩

/-- The size of a number with few roundings. -/
theorem Approx.size {k : Nat} {t : Double} {s a u r : ℚ} (h : Approx k t s a u) (hk : k ≤ 2 ^ 50) (hr : t.Denotes r) : |r| ≤ 3 * u := by
  have h1 := h.err r hr
  have h2 : (1 + 1 / 2 ^ 53 : ℚ) ^ k ≤ 1 + 2 * k * (1 / 2 ^ 53) := Vec.one_add_pow_le (by norm_num) (by
    have : (k : ℚ) ≤ 2 ^ 50 := by exact_mod_cast hk
    linarith)
  have h3 : (1 + 1 / 2 ^ 53 : ℚ) ^ k ≤ 5 / 4 := by
    have : (k : ℚ) ≤ 2 ^ 50 := by exact_mod_cast hk
    linarith
  have h0 : (1 : ℚ) ≤ (1 + 1 / 2 ^ 53) ^ k := one_le_pow₀ (by norm_num)
  have h4 : 0 ≤ a := (abs_nonneg s).trans h.le
  have h5 : 0 ≤ u := h4.trans h.le'
  have h6 : eta ≤ 1 / 4 := by
    unfold eta
    calc (2 : ℚ) ^ (-1075 : Int) ≤ 2 ^ (-2 : Int) := two_zpow_le (by norm_num)
      _ = 1 / 4 := by norm_num
  have h7 : |r| ≤ |s| + |r - s| := by
    have := abs_add_le s (r - s)
    rwa [add_sub_cancel] at this
  have h8 : ((1 + 1 / 2 ^ 53 : ℚ) ^ k - 1) * a ≤ 1 / 4 * u := mul_le_mul (by linarith) h.le' h4 (by norm_num)
  have h9 : (1 + 1 / 2 ^ 53 : ℚ) ^ k * eta * u ≤ 5 / 4 * (1 / 4) * u :=
    mul_le_mul_of_nonneg_right (mul_le_mul h3 h6 eta_pos.le (by norm_num)) h5
  have := h.le
  have := h.le'
  linarith

theorem Approx.neg {k : Nat} {t : Double} {s a u : ℚ} (h : Approx k t s a u) : Approx k t.neg (-s) a u where
  wf := by
    have := h.wf
    cases t <;> simpa [Double.neg, WF] using this
  le := by rw [abs_neg]; exact h.le
  le' := h.le'
  err r hr := by
    have h1 : t.Denotes (-r) := by
      have := hr.neg
      have e : t.neg.neg = t := by cases t <;> simp [Double.neg]
      rwa [e] at this
    have := h.err _ h1
    rwa [show r - -s = -(-r - s) by ring, abs_neg]
  fin hk hu := by
    obtain ⟨r, hr⟩ := h.fin hk hu
    exact ⟨_, hr.neg⟩

theorem add_err_aux {k : Nat} {p q r s s' a a' u u' : ℚ} (hs : |s| ≤ a) (hs' : |s'| ≤ a')
    (h1 : |p - s| ≤ ((1 + 1 / 2 ^ 53) ^ k - 1) * a + (1 + 1 / 2 ^ 53) ^ k * eta * u)
    (h2 : |q - s'| ≤ ((1 + 1 / 2 ^ 53) ^ k - 1) * a' + (1 + 1 / 2 ^ 53) ^ k * eta * u')
    (h3 : |r - (p + q)| ≤ |p + q| / 2 ^ 53) :
    |r - (s + s')| ≤ ((1 + 1 / 2 ^ 53) ^ (k + 1) - 1) * (a + a') + (1 + 1 / 2 ^ 53) ^ (k + 1) * eta * (u + u') := by
  have h4 : |(p + q) - (s + s')| ≤ |p - s| + |q - s'| := by
    rw [show (p + q) - (s + s') = (p - s) + (q - s') by ring]; exact abs_add_le _ _
  have h5 : |p + q| ≤ |s| + |s'| + |(p + q) - (s + s')| := by
    have e1 := abs_add_le (s + s') ((p + q) - (s + s'))
    rw [add_sub_cancel] at e1
    have e2 := abs_add_le s s'
    linarith
  have h6 : |r - (s + s')| ≤ |r - (p + q)| + |(p + q) - (s + s')| := by
    have := abs_add_le (r - (p + q)) ((p + q) - (s + s'))
    rwa [sub_add_sub_cancel] at this
  rw [pow_succ]
  generalize (1 + 1 / 2 ^ 53 : ℚ) ^ k = g at *
  have h7 : |(p + q) - (s + s')| ≤ (g - 1) * (a + a') + g * eta * (u + u') := by linarith
  have h8 : |p + q| ≤ (a + a') + ((g - 1) * (a + a') + g * eta * (u + u')) := by linarith
  have h9 : |p + q| / 2 ^ 53 ≤ ((a + a') + ((g - 1) * (a + a') + g * eta * (u + u'))) / 2 ^ 53 :=
    div_le_div_of_nonneg_right h8 (by positivity)
  calc _ ≤ ((a + a') + ((g - 1) * (a + a') + g * eta * (u + u'))) / 2 ^ 53 + ((g - 1) * (a + a') + g * eta * (u + u')) := by linarith
    _ = _ := by ring

theorem Approx.add {k : Nat} {x y : Double} {s s' a a' u u' : ℚ} (hx : Approx k x s a u) (hy : Approx k y s' a' u') :
    Approx (k + 1) (Double.add x y) (s + s') (a + a') (u + u') where
  wf := add_wf x y
  le := (abs_add_le s s').trans (add_le_add hx.le hy.le)
  le' := add_le_add hx.le' hy.le'
  err r hr := by
    obtain ⟨p, q, hp, hq, h, _⟩ := add_err hx.wf hy.wf hr
    exact add_err_aux hx.le hy.le (hx.err p hp) (hy.err q hq) h
  fin hk hu := by
    have h1 : 0 ≤ u := ((abs_nonneg s).trans hx.le).trans hx.le'
    have h2 : 0 ≤ u' := ((abs_nonneg s').trans hy.le).trans hy.le'
    obtain ⟨p, hp⟩ := hx.fin (by omega) (by linarith)
    obtain ⟨q, hq⟩ := hy.fin (by omega) (by linarith)
    obtain ⟨z, hz⟩ := add_denotes hp hq
    rw [hz]
    refine Vec.round_finite z ?_
    have h3 := hx.size (by omega) hp
    have h4 := hy.size (by omega) hq
    have h5 := abs_add_le p q
    have h6 : (2 : ℚ) ^ (1023 : Int) = 2 ^ (1020 : Int) * 2 ^ 3 := by
      rw [show (1023 : Int) = 1020 + (3 : Nat) by norm_num, two_zpow_add_nat]
    rw [h6]
    clear h6
    generalize (2 : ℚ) ^ (1020 : Int) = B at *
    linarith

theorem Approx.sub {k : Nat} {x y : Double} {s s' a a' u u' : ℚ} (hx : Approx k x s a u) (hy : Approx k y s' a' u') :
    Approx (k + 1) (Double.sub x y) (s - s') (a + a') (u + u') where
  wf := sub_wf x y
  le := by
    have := abs_add_le s (-s')
    rw [abs_neg, ← sub_eq_add_neg] at this
    exact this.trans (add_le_add hx.le hy.le)
  le' := add_le_add hx.le' hy.le'
  err r hr := by
    obtain ⟨p, q, hp, hq, h⟩ := sub_err hx.wf hy.wf hr
    have h1 : |-q - -s'| ≤ ((1 + 1 / 2 ^ 53) ^ k - 1) * a' + (1 + 1 / 2 ^ 53) ^ k * eta * u' := by
      rw [show -q - -s' = -(q - s') by ring, abs_neg]
      exact hy.err q hq
    rw [sub_eq_add_neg s s']
    exact add_err_aux hx.le (by rw [abs_neg]; exact hy.le) (hx.err p hp) h1 (by rwa [← sub_eq_add_neg])
  fin hk hu := by
    have h1 : 0 ≤ u := ((abs_nonneg s).trans hx.le).trans hx.le'
    have h2 : 0 ≤ u' := ((abs_nonneg s').trans hy.le).trans hy.le'
    obtain ⟨p, hp⟩ := hx.fin (by omega) (by linarith)
    obtain ⟨q, hq⟩ := hy.fin (by omega) (by linarith)
    obtain ⟨z, hz⟩ := sub_denotes hp hq
    rw [hz]
    refine Vec.round_finite z ?_
    have h3 := hx.size (by omega) hp
    have h4 := hy.size (by omega) hq
    have h5 := abs_add_le p (-q)
    rw [abs_neg, ← sub_eq_add_neg] at h5
    have h6 : (2 : ℚ) ^ (1023 : Int) = 2 ^ (1020 : Int) * 2 ^ 3 := by
      rw [show (1023 : Int) = 1020 + (3 : Nat) by norm_num, two_zpow_add_nat]
    rw [h6]
    clear h6
    generalize (2 : ℚ) ^ (1020 : Int) = B at *
    linarith

/-- Multiplication by a given number. -/
theorem Approx.mul {k : Nat} {x y : Double} {c s a u : ℚ} (hx : x.Denotes c) (hy : Approx k y s a u) (hu1 : 1 ≤ u) :
    Approx (k + 1) (Double.mul x y) (c * s) (|c| * a) ((|c| + 1) * u) where
  wf := mul_wf x y
  le := by rw [abs_mul]; exact mul_le_mul_of_nonneg_left hy.le (abs_nonneg c)
  le' := by
    have := mul_le_mul_of_nonneg_left hy.le' (abs_nonneg c)
    linarith
  err r hr := by
    obtain ⟨c', q, hc, hq, h, _⟩ := mul_err hx.1 hy.wf hr
    obtain rfl := hc.unique hx
    have h1 := hy.err q hq
    have h0 := hy.le
    have h2 : |q| ≤ |s| + |q - s| := by
      have := abs_add_le s (q - s)
      rwa [add_sub_cancel] at this
    have h3 : |r - c' * s| ≤ |r - c' * q| + |c'| * |q - s| := by
      have := abs_add_le (r - c' * q) (c' * (q - s))
      rw [abs_mul] at this
      rwa [show r - c' * q + c' * (q - s) = r - c' * s by ring] at this
    rw [abs_mul] at h
    have hg : (1 : ℚ) ≤ (1 + 1 / 2 ^ 53) ^ k := one_le_pow₀ (by norm_num)
    rw [pow_succ]
    generalize (1 + 1 / 2 ^ 53 : ℚ) ^ k = g at *
    have hc := abs_nonneg c'
    have h4 : |q| ≤ a + ((g - 1) * a + g * eta * u) := by linarith
    have h5 : |c'| * |q| / 2 ^ 53 ≤ |c'| * (a + ((g - 1) * a + g * eta * u)) / 2 ^ 53 :=
      div_le_div_of_nonneg_right (mul_le_mul_of_nonneg_left h4 hc) (by positivity)
    have h6 : |c'| * |q - s| ≤ |c'| * ((g - 1) * a + g * eta * u) := mul_le_mul_of_nonneg_left h1 hc
    have he := eta_pos
    have h7 : eta ≤ g * (1 + 1 / 2 ^ 53) * eta * u := by
      have e1 : (1 : ℚ) ≤ g * (1 + 1 / 2 ^ 53) := by linarith
      have e2 : (1 : ℚ) ≤ g * (1 + 1 / 2 ^ 53) * u := one_le_mul_of_one_le_of_one_le e1 hu1
      have e3 := mul_le_mul_of_nonneg_right e2 he.le
      linarith
    calc |r - c' * s| ≤ |c'| * (a + ((g - 1) * a + g * eta * u)) / 2 ^ 53 + |c'| * ((g - 1) * a + g * eta * u)
          + g * (1 + 1 / 2 ^ 53) * eta * u := by linarith
      _ = _ := by ring
  fin hk hu := by
    have h1 := abs_nonneg c
    have h2 : u ≤ (|c| + 1) * u := by nlinarith
    obtain ⟨q, hq⟩ := hy.fin (by omega) (h2.trans hu)
    obtain ⟨z, hz⟩ := mul_denotes hx hq
    rw [hz]
    refine Vec.round_finite z ?_
    have h3 := hy.size (by omega) hq
    rw [abs_mul]
    have h4 : |c| * |q| ≤ |c| * (3 * u) := mul_le_mul_of_nonneg_left h3 h1
    have h6 : (2 : ℚ) ^ (1023 : Int) = 2 ^ (1020 : Int) * 2 ^ 3 := by
      rw [show (1023 : Int) = 1020 + (3 : Nat) by norm_num, two_zpow_add_nat]
    rw [h6]
    clear h6
    generalize (2 : ℚ) ^ (1020 : Int) = B at *
    linarith

end Double

namespace Mat
open Double

/-- The absolute values of the entries. -/
def absM {n : Nat} (M : Matrix (Fin n) (Fin n) ℚ) : Matrix (Fin n) (Fin n) ℚ := Matrix.of fun i j => |M i j|

/-- The absolute values of the entries, plus one. -/
def absM1 {n : Nat} (M : Matrix (Fin n) (Fin n) ℚ) : Matrix (Fin n) (Fin n) ℚ := Matrix.of fun i j => |M i j| + 1

theorem one_le_permanent {n : Nat} (M : Matrix (Fin n) (Fin n) ℚ) : 1 ≤ (absM1 M).permanent := by
  have h : ∀ σ : Equiv.Perm (Fin n), 1 ≤ ∏ i, absM1 M (σ i) i := fun σ =>
    Finset.prod_induction _ (fun x : ℚ => 1 ≤ x) (fun _ _ => one_le_mul_of_one_le_of_one_le) le_rfl fun i _ => by
      rw [absM1, Matrix.of_apply]; linarith [abs_nonneg (M (σ i) i)]
  refine (h 1).trans ?_
  exact Finset.single_le_sum (f := fun σ : Equiv.Perm (Fin n) => ∏ i, absM1 M (σ i) i)
    (fun σ _ => zero_le_one.trans (h σ)) (Finset.mem_univ 1)

/-- One round of a cofactor expansion. -/
theorem dterm_ok {result : Double} {x s a u d b w : ℚ} {j k : Nat} {minor : Res (Mat Double)} {rec : Mat Double → Res Double}
    {get : Res Double} (hget : Out Never get (fun e => e.Denotes x)) (hr : Approx k result s a u) {P : Mat Double → Prop}
    (hw : 1 ≤ w) (hmin : Out Never minor P) (hrec : ∀ m, P m → ∃ k', k' + 1 ≤ k ∧ Out Never (rec m) (fun t => Approx k' t d b w)) :
    Out Never (do
        let e ← get
        let nz ← neZero Scalar.double e
        if nz then do
          let e ← get
          let sub ← minor
          let d ← rec sub
          let p ← Scalar.double.mul e d
          if j % 2 = 1 then Scalar.double.subA result p else Scalar.double.addA result p
        else return result)
      (fun t => Approx (k + 1) t (s + (-1) ^ j * x * d) (a + |x| * b) (u + (|x| + 1) * w)) := by
  refine Out.bind hget fun e he => ?_
  have hnz : neZero Scalar.double e = .ok (!Double.eq e (Double.ofInt 0)) := rfl
  rw [hnz]
  have hz := eq_zero_iff he.1 ofInt_zero
  refine Out.bind (.inl ⟨_, rfl, rfl⟩) fun nz hnz => ?_
  subst hnz
  cases hq : Double.eq e (Double.ofInt 0) with
  | true =>
    have h0 : x = 0 := he.unique (hz.mp hq)
    simp only [Bool.not_true, Bool.false_eq_true, if_false, h0, mul_zero, zero_mul, add_zero, abs_zero, zero_add, one_mul]
    exact Out.ok (hr.mono (by omega) (by linarith))
  | false =>
    simp only [Bool.not_false, if_true]
    refine Out.bind hget fun e he => ?_
    refine Out.bind hmin fun m' hm' => ?_
    obtain ⟨k', hk', hrec⟩ := hrec m' hm'
    refine Out.bind hrec fun d' hd' => ?_
    have hp := (hd'.mul he hw).mono hk' le_rfl
    refine Out.bind (.inl ⟨_, rfl, rfl⟩) fun p hp' => ?_
    subst hp'
    by_cases hj : j % 2 = 1
    · rw [if_pos hj]
      have : (-1 : ℚ) ^ j = -1 := Odd.neg_one_pow (Nat.odd_iff.mpr hj)
      rw [this, show s + -1 * x * d = s - x * d by ring]
      exact Out.ok (hr.sub hp)
    · rw [if_neg hj]
      have : (-1 : ℚ) ^ j = 1 := Even.neg_one_pow (Nat.even_iff.mpr (by omega))
      rw [this, one_mul]
      exact Out.ok (hr.add hp)

/-- The number of roundings in a row in the expansion of an `n` by `n` determinant. -/
def depth : Nat → Nat
  | 0 => 0
  | 1 => 0
  | n + 2 => depth (n + 1) + n + 3

theorem ddet2_ok {m : Mat Double} {M : Matrix (Fin 2) (Fin 2) ℚ} (hm : Is Denotes m M) :
    Out Never (det2 Scalar.double m) (fun t => Approx 2 t M.det (absM M).permanent (absM1 M).permanent) := by
  have h := hm.full
  refine Out.bind (h.dataAt (i := 0) (j := 0) (by omega) (by omega) trivial) fun a ha => ?_
  refine Out.bind (h.dataAt (i := 1) (j := 1) (by omega) (by omega) trivial) fun d hd => ?_
  refine Out.bind (.inl ⟨_, rfl, rfl⟩) fun p hp => ?_
  refine Out.bind (h.dataAt (i := 0) (j := 1) (by omega) (by omega) trivial) fun b hb => ?_
  refine Out.bind (h.dataAt (i := 1) (j := 0) (by omega) (by omega) trivial) fun c hc => ?_
  refine Out.bind (.inl ⟨_, rfl, rfl⟩) fun q hq => ?_
  subst hp hq
  have e1 := ((Approx.exact hd).mul ha (by linarith [abs_nonneg (ext M 1 1)])).sub
    ((Approx.exact hc).mul hb (by linarith [abs_nonneg (ext M 1 0)]))
  refine .inl ⟨_, rfl, ?_⟩
  have p2 : ∀ N : Matrix (Fin 2) (Fin 2) ℚ, N.permanent = N 0 0 * N 1 1 + N 0 1 * N 1 0 := fun N => by
    rw [permanent_succ_row_zero, Fin.sum_univ_two]
    simp
  rw [Matrix.det_fin_two, p2, p2]
  simpa [ext, absM, absM1] using e1

theorem ddata0_ok {m : Mat Double} {M : Matrix (Fin 1) (Fin 1) ℚ} (hm : Is Denotes m M) :
    Out Never (m.dataAt 0) (fun t => Approx 0 t M.det (absM M).permanent (absM1 M).permanent) := by
  have h := hm.full.dataAt (A := Never) (i := 0) (j := 0) (by omega) (by omega) trivial
  refine (show Out Never (m.dataAt 0) _ by simpa using h).mono fun t ht => ?_
  have := Approx.exact ht
  rw [Matrix.det_fin_one, Matrix.permanent_unique, Matrix.permanent_unique]
  simpa [ext, absM, absM1] using this

theorem rowCofactorF_double : ∀ (n : Nat) (fuel : Nat), n < fuel → ∀ (m : Mat Double)
    (M : Matrix (Fin (n + 1)) (Fin (n + 1)) ℚ), Is Denotes m M → Out Never (rowCofactorF Scalar.double fuel m)
      (fun t => Approx (depth (n + 1)) t M.det (absM M).permanent (absM1 M).permanent) := by
  intro n
  induction n with
  | zero =>
    intro fuel hf m M hm
    obtain ⟨f, rfl⟩ : ∃ f, fuel = f + 1 := ⟨fuel - 1, by omega⟩
    unfold rowCofactorF
    simp only [hm.1, hm.2.1, ne_eq, not_true_eq_false, if_false, zero_add, if_true]
    exact ddata0_ok hm
  | succ n ih =>
    intro fuel hf m M hm
    obtain ⟨f, rfl⟩ : ∃ f, fuel = f + 1 := ⟨fuel - 1, by omega⟩
    unfold rowCofactorF
    simp only [hm.1, hm.2.1, ne_eq, not_true_eq_false, if_false]
    rw [if_neg (by omega)]
    by_cases h2 : n + 1 + 1 = 2
    · obtain rfl : n = 0 := by omega
      rw [if_pos h2]
      exact (ddet2_ok hm).mono fun t ht => ht.mono (by decide) le_rfl
    · rw [if_neg h2]
      let t : Nat → ℚ := fun j => if h : j < n + 1 + 1 then (-1) ^ j * M 0 ⟨j, h⟩ * (M.submatrix Fin.succ (Fin.succAbove ⟨j, h⟩)).det else 0
      let b : Nat → ℚ := fun j => if h : j < n + 1 + 1 then |M 0 ⟨j, h⟩| * (absM (M.submatrix Fin.succ (Fin.succAbove ⟨j, h⟩))).permanent else 0
      let w : Nat → ℚ := fun j => if h : j < n + 1 + 1 then (|M 0 ⟨j, h⟩| + 1) * (absM1 (M.submatrix Fin.succ (Fin.succAbove ⟨j, h⟩))).permanent else 0
      have hdet : M.det = ∑ j ∈ Finset.range (n + 1 + 1), t j := by
        rw [Matrix.det_succ_row_zero, Finset.sum_range]
        refine Finset.sum_congr rfl fun j _ => ?_
        have hj : j.val < n + 1 + 1 := j.2
        simp only [t, hj, dif_pos]
      have hb : (absM M).permanent = ∑ j ∈ Finset.range (n + 1 + 1), b j := by
        rw [permanent_succ_row_zero, Finset.sum_range]
        refine Finset.sum_congr rfl fun j _ => ?_
        have hj : j.val < n + 1 + 1 := j.2
        simp only [b, hj, dif_pos]
        rfl
      have hw : (absM1 M).permanent = ∑ j ∈ Finset.range (n + 1 + 1), w j := by
        rw [permanent_succ_row_zero, Finset.sum_range]
        refine Finset.sum_congr rfl fun j _ => ?_
        have hj : j.val < n + 1 + 1 := j.2
        simp only [w, hj, dif_pos]
        rfl
      rw [hdet, hb, hw]
      refine Out.bind (P := fun z => z.Denotes 0) (.inl ⟨_, rfl, ofInt_zero⟩) fun z hz => ?_
      have := forUp_ok (A := Never) (Inv := fun j s => Approx (depth (n + 1) + 1 + j) s (∑ k ∈ Finset.range j, t k)
          (∑ k ∈ Finset.range j, b k) (∑ k ∈ Finset.range j, w k)) (lo := 0) (n := n + 1 + 1)
        (body := fun j result => do
          let e ← m.get 0 j
          let nz ← neZero Scalar.double e
          if nz then do
            let e ← m.get 0 j
            let sub ← firstMinor m 0 j
            let d ← rowCofactorF Scalar.double f sub
            let p ← Scalar.double.mul e d
            if (0 + j) % 2 = 1 then Scalar.double.subA result p else Scalar.double.addA result p
          else return result) (s := z) (by simpa using (Approx.zero hz).mono (Nat.zero_le _) le_rfl) (fun j s _ hj hs => by
            have hj' : j < n + 1 + 1 := by omega
            rw [Finset.sum_range_succ, Finset.sum_range_succ, Finset.sum_range_succ]
            have htj : t j = (-1) ^ j * M 0 ⟨j, hj'⟩ * (M.submatrix Fin.succ (Fin.succAbove ⟨j, hj'⟩)).det := dif_pos hj'
            have hbj : b j = |M 0 ⟨j, hj'⟩| * (absM (M.submatrix Fin.succ (Fin.succAbove ⟨j, hj'⟩))).permanent := dif_pos hj'
            have hwj : w j = (|M 0 ⟨j, hj'⟩| + 1) * (absM1 (M.submatrix Fin.succ (Fin.succAbove ⟨j, hj'⟩))).permanent := dif_pos hj'
            rw [htj, hbj, hwj]
            simp only [zero_add]
            refine dterm_ok ?_ hs (one_le_permanent _) (firstMinor_is hm 0 ⟨j, hj'⟩) fun m' hm' => ⟨depth (n + 1), Nat.le_add_right _ _, ?_⟩
            · have := hm.full.get (A := Never) (i := 0) (j := j) (by omega) hj' trivial
              rwa [ext_lt M (by omega) hj'] at this
            · exact ih f (by omega) m' _ (by simpa using hm'))
      rw [zero_add] at this
      exact this.mono fun t ht => ht.mono (by simp only [depth]; omega) le_rfl

theorem colCofactorF_double : ∀ (n : Nat) (fuel : Nat), n < fuel → ∀ (m : Mat Double)
    (M : Matrix (Fin (n + 1)) (Fin (n + 1)) ℚ), Is Denotes m M → Out Never (colCofactorF Scalar.double fuel m)
      (fun t => Approx (depth (n + 1)) t M.det (absM M).permanent (absM1 M).permanent) := by
  intro n
  induction n with
  | zero =>
    intro fuel hf m M hm
    obtain ⟨f, rfl⟩ : ∃ f, fuel = f + 1 := ⟨fuel - 1, by omega⟩
    unfold colCofactorF
    simp only [hm.1, hm.2.1, ne_eq, not_true_eq_false, if_false, zero_add, if_true]
    exact ddata0_ok hm
  | succ n ih =>
    intro fuel hf m M hm
    obtain ⟨f, rfl⟩ : ∃ f, fuel = f + 1 := ⟨fuel - 1, by omega⟩
    unfold colCofactorF
    simp only [hm.1, hm.2.1, ne_eq, not_true_eq_false, if_false]
    rw [if_neg (by omega)]
    by_cases h2 : n + 1 + 1 = 2
    · obtain rfl : n = 0 := by omega
      rw [if_pos h2]
      exact (ddet2_ok hm).mono fun t ht => ht.mono (by decide) le_rfl
    · rw [if_neg h2]
      let t : Nat → ℚ := fun j => if h : j < n + 1 + 1 then (-1) ^ j * M ⟨j, h⟩ 0 * (M.submatrix (Fin.succAbove ⟨j, h⟩) Fin.succ).det else 0
      let b : Nat → ℚ := fun j => if h : j < n + 1 + 1 then |M ⟨j, h⟩ 0| * (absM (M.submatrix (Fin.succAbove ⟨j, h⟩) Fin.succ)).permanent else 0
      let w : Nat → ℚ := fun j => if h : j < n + 1 + 1 then (|M ⟨j, h⟩ 0| + 1) * (absM1 (M.submatrix (Fin.succAbove ⟨j, h⟩) Fin.succ)).permanent else 0
      have hdet : M.det = ∑ j ∈ Finset.range (n + 1 + 1), t j := by
        rw [Matrix.det_succ_column_zero, Finset.sum_range]
        refine Finset.sum_congr rfl fun j _ => ?_
        have hj : j.val < n + 1 + 1 := j.2
        simp only [t, hj, dif_pos]
      have hb : (absM M).permanent = ∑ j ∈ Finset.range (n + 1 + 1), b j := by
        rw [permanent_succ_column_zero, Finset.sum_range]
        refine Finset.sum_congr rfl fun j _ => ?_
        have hj : j.val < n + 1 + 1 := j.2
        simp only [b, hj, dif_pos]
        rfl
      have hw : (absM1 M).permanent = ∑ j ∈ Finset.range (n + 1 + 1), w j := by
        rw [permanent_succ_column_zero, Finset.sum_range]
        refine Finset.sum_congr rfl fun j _ => ?_
        have hj : j.val < n + 1 + 1 := j.2
        simp only [w, hj, dif_pos]
        rfl
      rw [hdet, hb, hw]
      refine Out.bind (P := fun z => z.Denotes 0) (.inl ⟨_, rfl, ofInt_zero⟩) fun z hz => ?_
      have := forUp_ok (A := Never) (Inv := fun j s => Approx (depth (n + 1) + 1 + j) s (∑ k ∈ Finset.range j, t k)
          (∑ k ∈ Finset.range j, b k) (∑ k ∈ Finset.range j, w k)) (lo := 0) (n := n + 1 + 1)
        (body := fun i result => do
          let e ← m.get i 0
          let nz ← neZero Scalar.double e
          if nz then do
            let e ← m.get i 0
            let sub ← firstMinor m i 0
            let d ← colCofactorF Scalar.double f sub
            let p ← Scalar.double.mul e d
            if (i + 0) % 2 = 1 then Scalar.double.subA result p else Scalar.double.addA result p
          else return result) (s := z) (by simpa using (Approx.zero hz).mono (Nat.zero_le _) le_rfl) (fun j s _ hj hs => by
            have hj' : j < n + 1 + 1 := by omega
            rw [Finset.sum_range_succ, Finset.sum_range_succ, Finset.sum_range_succ]
            have htj : t j = (-1) ^ j * M ⟨j, hj'⟩ 0 * (M.submatrix (Fin.succAbove ⟨j, hj'⟩) Fin.succ).det := dif_pos hj'
            have hbj : b j = |M ⟨j, hj'⟩ 0| * (absM (M.submatrix (Fin.succAbove ⟨j, hj'⟩) Fin.succ)).permanent := dif_pos hj'
            have hwj : w j = (|M ⟨j, hj'⟩ 0| + 1) * (absM1 (M.submatrix (Fin.succAbove ⟨j, hj'⟩) Fin.succ)).permanent := dif_pos hj'
            rw [htj, hbj, hwj]
            simp only [add_zero]
            refine dterm_ok ?_ hs (one_le_permanent _) (firstMinor_is hm ⟨j, hj'⟩ 0) fun m' hm' => ⟨depth (n + 1), Nat.le_add_right _ _, ?_⟩
            · have := hm.full.get (A := Never) (i := j) (j := 0) hj' (by omega) trivial
              rwa [ext_lt M hj' (by omega)] at this
            · exact ih f (by omega) m' _ (by simpa using hm'))
      rw [zero_add] at this
      exact this.mono fun t ht => ht.mono (by simp only [depth]; omega) le_rfl

theorem depth_eq (n : Nat) : 2 * depth (n + 1) = n * (n + 5) := by
  induction n with
  | zero => rfl
  | succ n ih =>
    rw [show depth (n + 1 + 1) = depth (n + 1) + n + 3 from rfl]
    nlinarith

/-! ### Triangular matrices -/

theorem triLoop_ok {n : Nat} {F : Nat → Nat → ℚ} (hd : ∀ i < n, F i i ≠ 0) (ht : ∀ i < n, ∀ j < i, F i j = 0) {f : Double} (l : Nat) :
    ∀ (k : Nat) (m : Mat Double), k + l = n → Full Denotes m n n F →
    Out Never (detLoop Scalar.double l k k f m) (fun s => s.1 = f ∧ Full Denotes s.2 n n F) := by
  induction l with
  | zero => intro k m hk hm; exact Out.ok ⟨rfl, hm⟩
  | succ l ih =>
    intro k m hk hm
    have hkn : k < n := by omega
    unfold detLoop
    rw [hm.2.1, if_neg (by omega)]
    refine Out.bind (by
      have := findPivot_start_of (A := Never) (S := Scalar.double) (rel := Denotes) (fun {x q} h => .inl ⟨_, rfl, by
        show Double.eq x (Double.ofInt 0) = true ↔ q = 0
        rw [eq_zero_iff h.1 ofInt_zero]
        exact ⟨fun h' => h.unique h', fun h' => by rwa [h'] at h⟩⟩) hm (r0 := k) (p := k) hkn (by omega)
      rwa [hm.2.1] at this) fun o ho => ?_
    match o, ho with
    | none, ho => exact absurd (ho.1 k le_rfl hkn) (hd k hkn)
    | some (i, q), ho =>
      obtain ⟨a1, a2, a3, a4, a5, a6, a7⟩ := ho
      obtain rfl : k = q := by
        by_contra h
        exact hd k hkn (a6 (by omega) k le_rfl hkn)
      obtain rfl : i = k := by
        by_contra h
        exact a5 (ht i a2 k (by omega))
      simp only [ne_eq, not_true_eq_false, if_false]
      refine Out.bind (Out.ok (P := fun s => s = (f, m)) rfl) fun s hs => ?_
      subst hs
      refine Out.bind (detEliminate_raw (G := F) hm hkn hkn le_rfl hkn (fun a b h1 h2 h3 h4 {v x d y} hv hx hd' hy => ?_)
        (fun _ _ _ => rfl)) fun m' hm' => ih (i + 1) m' (by omega) hm'
      rw [ht a h2 i h1] at hv
      refine .inl ⟨_, rfl, ?_⟩
      refine sub_zero' hy ?_
      have h5 : (Double.mul v x).Denotes 0 := by
        obtain ⟨z, h⟩ := mul_denotes hv hx
        rw [h, zero_mul]
        exact denotes_zero z
      exact zero_div' h5 hd' (hd i hkn)

theorem _root_.CppMaths.Double.Approx.mul_comm {k : Nat} {x y : Double} {c s a u : ℚ} (hx : x.Denotes c) (hy : Approx k y s a u) (hu1 : 1 ≤ u) :
    Approx (k + 1) (Double.mul y x) (s * c) (a * |c|) (u * (|c| + 1)) := by
  have h := hy.mul hx hu1
  rw [_root_.mul_comm c, _root_.mul_comm |c|, _root_.mul_comm (|c| + 1)] at h
  have hval : ∀ r, (Double.mul y x).Denotes r ↔ (Double.mul x y).Denotes r := by
    intro r
    have key : ∀ {x y : Double}, x.WF → y.WF → (Double.mul x y).Denotes r → (Double.mul y x).Denotes r := by
      intro x y hx hy h
      obtain ⟨a, b, ha, hb, _⟩ := mul_err hx hy h
      obtain ⟨z, h1⟩ := mul_denotes ha hb
      obtain ⟨z', h2⟩ := mul_denotes hb ha
      rw [h1] at h
      rw [h2, _root_.mul_comm]
      by_cases h0 : a * b = 0
      · rw [h0] at h ⊢
        have := h.unique (denotes_zero z)
        rw [this]
        exact denotes_zero z'
      · unfold Double.round at h ⊢
        rw [if_neg h0] at h ⊢
        exact h
    exact ⟨key hy.wf hx.1, key hx.1 hy.wf⟩
  exact ⟨mul_wf _ _, h.le, h.le', fun r hr => h.err r ((hval r).mp hr), fun hk hu => by
    obtain ⟨r, hr⟩ := h.fin hk hu
    exact ⟨r, (hval r).mpr hr⟩⟩

theorem div_one' {x y : Double} (hx : x.WF) (hy : y.Denotes 1) (r : ℚ) : (Double.div x y).Denotes r ↔ x.Denotes r := by
  obtain ⟨s, m, e, rfl, h1⟩ := hy.fin
  cases x with
  | nan => exact ⟨fun h => absurd h not_denotes_nan, fun h => absurd h not_denotes_nan⟩
  | inf a => exact ⟨fun h => absurd h not_denotes_inf, fun h => absurd h not_denotes_inf⟩
  | fin s' m' e' =>
    have hx' := denotes_val hx ⟨_, _, _, rfl⟩
    obtain ⟨z, h⟩ := div_denotes hx' hy one_ne_zero
    rw [h, div_one]
    have h2 := round_denotes z hx'
    exact ⟨fun h' => by rw [h'.unique h2]; exact hx', fun h' => by rw [h'.unique hx']; exact h2⟩

theorem triDet_ok {n : Nat} (hn : 3 ≤ n) {F : Nat → Nat → ℚ} (hd : ∀ i < n, F i i ≠ 0) (ht : ∀ i < n, ∀ j < i, F i j = 0)
    {m : Mat Double} (hm : Full Denotes m n n F) :
    Out Never (determinant Scalar.double m) (fun t => Approx n t (∏ i ∈ Finset.range n, F i i) (∏ i ∈ Finset.range n, |F i i|)
      (∏ i ∈ Finset.range n, (|F i i| + 1))) := by
  unfold determinant
  simp only [hm.1, hm.2.1, ne_eq, not_true_eq_false, if_false]
  rw [if_neg (by omega), if_neg (by omega)]
  refine Out.bind (copy_ok hm) fun tmp htmp => ?_
  refine Out.bind (P := fun z => z = Double.ofInt 1) (.inl ⟨_, rfl, rfl⟩) fun f hf => ?_
  rw [htmp.1]
  refine Out.bind (triLoop_ok hd ht n 0 tmp (by omega) htmp) fun s hs => ?_
  obtain ⟨hs1, hs2⟩ := hs
  refine Out.bind (P := fun z => z = Double.ofInt 1) (.inl ⟨_, rfl, rfl⟩) fun p0 hp0 => ?_
  rw [hs2.1]
  have one : (Double.ofInt 1).Denotes 1 := by
    have := ofInt_denotes (k := 1) (by norm_num)
    rwa [Int.cast_one] at this
  have h1 : ∀ k, (1 : ℚ) ≤ ∏ i ∈ Finset.range k, (|F i i| + 1) := fun k =>
    Finset.prod_induction _ (fun x : ℚ => 1 ≤ x) (fun _ _ => one_le_mul_of_one_le_of_one_le) le_rfl
      fun i _ => by linarith [abs_nonneg (F i i)]
  refine Out.bind (forUp_ok (A := Never) (Inv := fun k p => Approx k p (∏ i ∈ Finset.range k, F i i) (∏ i ∈ Finset.range k, |F i i|)
      (∏ i ∈ Finset.range k, (|F i i| + 1))) (lo := 0) (n := n) ?_ fun k p _ hk hp => ?_) fun p hp => ?_
  · subst hp0
    simp only [Finset.range_zero, Finset.prod_empty]
    refine ⟨one.1, by simp, le_rfl, fun r hr => ?_, fun _ _ => ⟨1, one⟩⟩
    rw [hr.unique one, sub_self, abs_zero]
    have := eta_pos
    simp only [pow_zero, sub_self, zero_mul, zero_add, one_mul, mul_one]
    exact this.le
  · refine Out.bind (hs2.get (show k < n by omega) (show k < n by omega) trivial) fun x hx => ?_
    rw [Finset.prod_range_succ, Finset.prod_range_succ, Finset.prod_range_succ]
    exact .inl ⟨_, rfl, hp.mul_comm hx (h1 k)⟩
  · rw [zero_add] at hp
    refine .inl ⟨_, rfl, ?_⟩
    rw [hs1, hf]
    have hv := div_one' hp.wf one
    exact ⟨div_wf _ _, hp.le, hp.le', fun r hr => hp.err r ((hv r).mp hr), fun hk hu => by
      obtain ⟨r, hr⟩ := hp.fin hk hu
      exact ⟨r, (hv r).mpr hr⟩⟩

end Mat
end CppMaths
