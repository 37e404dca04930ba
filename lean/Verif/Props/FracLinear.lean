import Verif.Proofs.FracLinear
import Verif.Proofs.Witness
/-!
# Properties of vectors and matrices of `Frac`s (C102, C103)

`FracRel f q`: the object `f` is in lowest terms and denotes `q`. `Aborts` holds of the failed `assert` only.
-/

namespace CppMaths
open Frac

/-! ### C102: linear algebra with fractions -/

/-- C102 for vectors: whatever the operators that compile for `Vec<Frac>` return is exact and has all entries in lowest
terms; the only failure is the abort of C06. -/
theorem C102_vectors {n : Nat} {x y : List Frac} {f g : Fin n → ℚ} {t : Frac} {k : ℚ} (hx : Vec.Is FracRel x f) (hy : Vec.Is FracRel y g)
    (ht : FracRel t k) :
    Out Aborts (Vec.add Scalar.frac x y) (fun z => Vec.Is FracRel z (f + g)) ∧
    Out Aborts (Vec.sub Scalar.frac x y) (fun z => Vec.Is FracRel z (f - g)) ∧
    Out Aborts (Vec.addAssign Scalar.frac x y) (fun z => Vec.Is FracRel z (f + g)) ∧
    Out Aborts (Vec.subAssign Scalar.frac x y) (fun z => Vec.Is FracRel z (f - g)) ∧
    Out Aborts (Vec.smul Scalar.frac t x) (fun z => Vec.Is FracRel z (k • f)) ∧
    Out Aborts (Vec.mulAssign Scalar.frac x t) (fun z => Vec.Is FracRel z (k • f)) ∧
    (k ≠ 0 → Out Aborts (Vec.divScalar Scalar.frac x t) (fun z => Vec.Is FracRel z (fun i => f i / k)) ∧
      Out Aborts (Vec.divAssign Scalar.frac x t) (fun z => Vec.Is FracRel z (fun i => f i / k))) ∧
    Out Aborts (Vec.dot Scalar.frac x y) (fun d => FracRel d (∑ i, f i * g i)) ∧
    Vec.eq Scalar.frac x y = .ok (decide (f = g)) := by
  obtain ⟨a1, a2, a3, a4, _⟩ := C50_entrywise exactRing_frac hx hy
  obtain ⟨b1, _, b3⟩ := C51_multiply exactMulA_frac hx ht
  exact ⟨a1, a2, a3, a4, b1, b3, C51_divide exactDivA_frac hx ht, C52_dot exactRing_frac hx hy, Vec.eq_frac hx hy⟩

example := C102_vectors Ex.p_is Ex.q_is Ex.half_rel

/-- C102 for vectors in space. -/
theorem C102_space {x y z : List Frac} {f g h : Fin 3 → ℚ} (hx : Vec.Is FracRel x f) (hy : Vec.Is FracRel y g) (hz : Vec.Is FracRel z h) :
    Out Aborts (Vec.cross Scalar.frac x y) (fun w => Vec.Is FracRel w
      ![f 1 * g 2 - f 2 * g 1, f 2 * g 0 - f 0 * g 2, f 0 * g 1 - f 1 * g 0]) ∧
    Out Aborts (Vec.scalarTriple Scalar.frac x y z) (fun t => FracRel t (Matrix.det ![f, g, h])) ∧
    Out Aborts (Vec.vectorTriple Scalar.frac x y z)
      (fun w => Vec.Is FracRel w (fun i => g i * (∑ j, f j * h j) - h i * (∑ j, f j * g j))) :=
  ⟨C53_cross exactRing_frac hx hy, C54_triple_products exactRing_frac hx hy hz⟩

example := C102_space Ex.p_is Ex.q_is Ex.p_is

/-- C102 for matrices. -/
theorem C102_matrices {r n c : Nat} {a a' b s : Mat Frac} {M M' : Matrix (Fin r) (Fin n) ℚ} {N : Matrix (Fin n) (Fin c) ℚ}
    {Q : Matrix (Fin n) (Fin n) ℚ} {t : Frac} {k : ℚ} (ha : Mat.Is FracRel a M) (ha' : Mat.Is FracRel a' M')
    (hb : Mat.Is FracRel b N) (hs : Mat.Is FracRel s Q) (ht : FracRel t k) :
    Out Aborts (Mat.add Scalar.frac a a') (fun m => Mat.Is FracRel m (M + M')) ∧
    Out Aborts (Mat.sub Scalar.frac a a') (fun m => Mat.Is FracRel m (M - M')) ∧
    Out Aborts (Mat.addAssign Scalar.frac a a') (fun m => Mat.Is FracRel m (M + M')) ∧
    Out Aborts (Mat.subAssign Scalar.frac a a') (fun m => Mat.Is FracRel m (M - M')) ∧
    Out Aborts (Mat.smul Scalar.frac t a) (fun m => Mat.Is FracRel m (k • M)) ∧
    Out Aborts (Mat.mulAssignScalar Scalar.frac a t) (fun m => Mat.Is FracRel m (k • M)) ∧
    (k ≠ 0 → Out Aborts (Mat.divScalar Scalar.frac a t) (fun m => Mat.Is FracRel m (k⁻¹ • M)) ∧
      Out Aborts (Mat.divAssignScalar Scalar.frac a t) (fun m => Mat.Is FracRel m (k⁻¹ • M))) ∧
    Out Aborts (Mat.mul Scalar.frac a b) (fun m => Mat.Is FracRel m (M * N)) ∧
    Out Aborts (Mat.mulAssign Scalar.frac a b) (fun m => Mat.Is FracRel m (M * N)) ∧
    Out Aborts (Mat.trace Scalar.frac s) (fun t => FracRel t Q.trace) ∧
    Mat.eq Scalar.frac a a' = .ok (decide (M = M')) := by
  obtain ⟨a1, a2, a3, a4, _⟩ := C61_entrywise exactRing_frac ha ha'
  obtain ⟨b1, _, b3, _⟩ := C61_negate_scale exactRing_frac ha ht
  obtain ⟨c1, c2⟩ := C62_product exactRing_frac ha hb
  exact ⟨a1, a2, a3, a4, b1, b3 exactMulA_frac, C61_divide exactDiv_frac exactDivA_frac ha ht, c1, c2,
    (C63_trace exactRing_frac).1 hs, Mat.eq_frac ha ha'⟩

example := C102_matrices Ex.m_is Ex.m_is Ex.m_is Ex.m_is Ex.half_rel

/-- C102: the dot product does not abort, but returns the exact value, if the product `D` of all denominators and
`D` times the sum of the absolute products of the entries are below 10^18. -/
theorem C102_dot_returns {n : Nat} {x y : Fin n → Frac} (hx : ∀ i, (x i).Valid) (hy : ∀ i, (y i).Valid)
    (hD : ∏ i, ((x i).bb.val * (y i).bb.val) < 10 ^ 18)
    (hN : (∑ i, |(x i).value * (y i).value|) * ∏ i, (((x i).bb.val : ℚ) * (y i).bb.val) < 10 ^ 18) :
    ∃ d, Vec.dot Scalar.frac (List.ofFn x) (List.ofFn y) = .ok d ∧ d.Valid ∧ d.value = ∑ i, (x i).value * (y i).value :=
  Vec.dot_frac hx hy hD hN

-- 1/2 * 2/3 + 3/4 * -5/6 = -7/24: D = 144, the absolute products add up to 23/24
example : Vec.dot Scalar.frac [⟨⟨[1], false⟩, ⟨[2], false⟩⟩, ⟨⟨[3], false⟩, ⟨[4], false⟩⟩]
      [⟨⟨[2], false⟩, ⟨[3], false⟩⟩, ⟨⟨[5], true⟩, ⟨[6], false⟩⟩] = .ok ⟨⟨[7], true⟩, ⟨[24], false⟩⟩ ∧
    Vec.divScalar Scalar.frac [⟨⟨[1], false⟩, ⟨[2], false⟩⟩] ⟨⟨[3], true⟩, ⟨[4], false⟩⟩ = .ok [⟨⟨[2], true⟩, ⟨[3], false⟩⟩] := by
  decide +kernel

-- its hypotheses for these vectors
example : let x : Fin 2 → Frac := ![⟨⟨[1], false⟩, ⟨[2], false⟩⟩, ⟨⟨[3], false⟩, ⟨[4], false⟩⟩]
    let y : Fin 2 → Frac := ![⟨⟨[2], false⟩, ⟨[3], false⟩⟩, ⟨⟨[5], true⟩, ⟨[6], false⟩⟩]
    (∀ i, (x i).Valid) ∧ (∀ i, (y i).Valid) ∧ ∏ i, ((x i).bb.val * (y i).bb.val) < 10 ^ 18 ∧
    (∑ i, |(x i).value * (y i).value|) * ∏ i, (((x i).bb.val : ℚ) * (y i).bb.val) < 10 ^ 18 := by
  refine ⟨by decide, by decide, by decide, ?_⟩
  simp only [Fin.sum_univ_two, Fin.prod_univ_two, Frac.value, BigInt.val, Matrix.cons_val_zero, Matrix.cons_val_one]
  norm_num [BigInt.mag]

/-- C102: the same for the matrix product, row by column. -/
theorem C102_product_returns {r n c : Nat} {a b : Mat Frac} {M : Matrix (Fin r) (Fin n) Frac} {N : Matrix (Fin n) (Fin c) Frac}
    (ha : Mat.Is (fun t k => t = k) a M) (hb : Mat.Is (fun t k => t = k) b N) (hM : ∀ i k, (M i k).Valid) (hN : ∀ k j, (N k j).Valid)
    (hD : ∀ i j, ∏ k, ((M i k).bb.val * (N k j).bb.val) < 10 ^ 18)
    (hS : ∀ i j, (∑ k, |(M i k).value * (N k j).value|) * ∏ k, (((M i k).bb.val : ℚ) * (N k j).bb.val) < 10 ^ 18) :
    ∃ m, Mat.mul Scalar.frac a b = .ok m ∧
      Mat.Is FracRel m (Matrix.of (fun i k => (M i k).value) * Matrix.of fun k j => (N k j).value) := by
  rcases Mat.mul_dot Scalar.frac ha hb with ⟨m, h1, P, h2, h3⟩ | ⟨e, _, h2⟩
  · refine ⟨m, h1, h2.1, h2.2.1, h2.2.2.1, fun i j => ?_⟩
    obtain ⟨d, d1, d2, d3⟩ := C102_dot_returns (hM i) (fun k => hN k j) (hD i j) (hS i j)
    obtain ⟨t, t1, rfl⟩ := h2.2.2.2 i j
    refine ⟨P i j, t1, ?_⟩
    have e : P i j = d := Except.ok.inj ((h3 i j).symm.trans d1)
    rw [e]
    exact ⟨d2, by rw [d3, Matrix.mul_apply]; rfl⟩
  · exfalso
    rcases h2 with h2 | ⟨i, j, h2⟩
    · have : Scalar.frac.ofInt 0 = .ok ⟨⟨[0], false⟩, ⟨[1], false⟩⟩ := by decide +kernel
      rw [this] at h2; cases h2
    · obtain ⟨d, d1, _⟩ := C102_dot_returns (hM i) (fun k => hN k j) (hD i j) (hS i j)
      exact absurd (h2.symm.trans d1) (by simp)

example : (Mat.mul Scalar.frac ⟨1, 2, [some ⟨⟨[1], false⟩, ⟨[2], false⟩⟩, some ⟨⟨[3], false⟩, ⟨[4], false⟩⟩]⟩
      ⟨2, 1, [some ⟨⟨[2], false⟩, ⟨[3], false⟩⟩, some ⟨⟨[5], true⟩, ⟨[6], false⟩⟩]⟩).toOption.map (·.data) =
    some [some ⟨⟨[7], true⟩, ⟨[24], false⟩⟩] := by decide +kernel

/-! ### C103: division by zero -/

/-- C103 does not hold: dividing a vector of `Frac`s by zero, by `/` or `/=`, or a matrix by `/=`, returns entries with
denominator zero. -/
theorem C103_refuted :
    Vec.divScalar Scalar.frac [⟨⟨[1], false⟩, ⟨[2], false⟩⟩] ⟨⟨[0], false⟩, ⟨[1], false⟩⟩ = .ok [⟨⟨[1], false⟩, ⟨[0], false⟩⟩] ∧
    Vec.divAssign Scalar.frac [⟨⟨[3], true⟩, ⟨[2], false⟩⟩] ⟨⟨[0], false⟩, ⟨[1], false⟩⟩ = .ok [⟨⟨[1], true⟩, ⟨[0], false⟩⟩] ∧
    (Mat.divAssignScalar Scalar.frac ⟨1, 1, [some ⟨⟨[1], false⟩, ⟨[2], false⟩⟩]⟩ ⟨⟨[0], false⟩, ⟨[1], false⟩⟩).toOption.map (·.data) =
      some [some ⟨⟨[1], false⟩, ⟨[0], false⟩⟩] := by decide +kernel

/-- C103, how general the failure is: if all entries are nonzero, no exception is thrown; every entry becomes `1/0` or `-1/0`
(unless the reduction of one aborts). -/
theorem C103_refuted_always {t : Frac} (ht : t.Valid) (h0 : t.value = 0) :
    (∀ {n : Nat} {x : List Frac} {f : Fin n → ℚ}, Vec.Is FracRel x f → (∀ i, f i ≠ 0) →
      Out Aborts (Vec.divScalar Scalar.frac x t) (fun z => Vec.Is OverZero z f) ∧
      Out Aborts (Vec.divAssign Scalar.frac x t) (fun z => Vec.Is OverZero z f)) ∧
    (∀ {r c : Nat} {m : Mat Frac} {M : Matrix (Fin r) (Fin c) ℚ}, Mat.Is FracRel m M → (∀ i j, M i j ≠ 0) →
      Out Aborts (Mat.divAssignScalar Scalar.frac m t) (fun m => Mat.Is OverZero m M)) := by
  have hop : ∀ {x : Frac} {q : ℚ}, q ≠ 0 → Mixed x (q, false) → Out Aborts (Scalar.frac.divA x t) (fun f => Mixed f (q, true)) :=
    fun hq hx => divA_zero (by simpa [Mixed] using hx) hq ⟨ht, h0⟩ |>.mono fun f hf => by simpa [Mixed] using hf
  constructor
  · intro n x f hx hne
    have h1 : Vec.On Mixed x n (fun i => (Vec.ext f i, false)) := ⟨hx.1, fun i hi => by
      obtain ⟨s, s1, s2⟩ := hx.2 ⟨i, hi⟩
      exact ⟨s, s1, by simpa [Mixed, Vec.ext, hi] using s2⟩⟩
    have h2 : Out Aborts (Vec.mapLoop Scalar.frac.divA (fun _ => .ok t) x) (fun z => Vec.Is OverZero z f) :=
      (Vec.mapLoop_ok (g := fun i => (Vec.ext f i, true)) (c := ((0 : ℚ), false)) h1
        (fun {u i} hi hu _ => hop (by simpa [Vec.ext, hi] using hne ⟨i, hi⟩) hu) (show Mixed t (0, false) by simp [Mixed, FracRel, ht, h0])).mono
        fun z hz => ⟨hz.1, fun i => by
          obtain ⟨s, s1, s2⟩ := hz.2 i.val i.2
          exact ⟨s, s1, by simpa [Mixed, Vec.ext] using s2⟩⟩
    exact ⟨h2, h2⟩
  · intro r c m M hm hne
    have h1 : Mat.Full Mixed m r c (fun i j => (Mat.ext M i j, false)) := ⟨hm.1, hm.2.1, hm.2.2.1, fun i j hi hj _ => by
      obtain ⟨s, s1, s2⟩ := hm.2.2.2 ⟨i, hi⟩ ⟨j, hj⟩
      exact ⟨s, s1, by simpa [Mixed, Mat.ext, hi, hj] using s2⟩⟩
    exact (Mat.mapLoop_ok (H := fun i j => (Mat.ext M i j, true)) h1
      (fun {x i j} hi hj hx => hop (by simpa [Mat.ext, hi, hj] using hne ⟨i, hi⟩ ⟨j, hj⟩) hx)).mono
      fun z hz => ⟨hz.1, hz.2.1, hz.2.2.1, fun i j => by
          obtain ⟨s, s1, s2⟩ := hz.2.2.2 i.val j.val i.2 j.2 trivial
          exact ⟨s, s1, by simpa [Mixed, Mat.ext] using s2⟩⟩

/-- C103, the part that holds: `m / t` with `t` zero throws `divide_by_zero_error` exactly if `m` has entries.
Missing: `/` of vectors and both `/=`. -/
theorem C103_matrix_quotient_partial {r c : Nat} {m : Mat Frac} {M : Matrix (Fin r) (Fin c) ℚ} (hm : Mat.Is FracRel m M) {t : Frac}
    (ht : t.Valid) (h0 : t.value = 0) : Mat.divScalar Scalar.frac m t = .error .divideByZero ↔ 0 < r ∧ 0 < c := by
  unfold Mat.divScalar Mat.forEach
  rw [hm.1, hm.2.1]
  rcases Nat.eq_zero_or_pos r with rfl | hr
  · simp [forUp]
  · rcases Nat.eq_zero_or_pos c with rfl | hc
    · have : ∀ (n lo : Nat) (s : Mat Frac), forUp (ε := Err) lo n (fun _ s => forUp (ε := Err) 0 0 (fun j s => do
          let x ← m.get lo j
          let t ← Scalar.frac.div x t
          s.set lo j t) s) s = .ok s := by
        intro n
        induction n with
        | zero => intro lo s; rfl
        | succ n ih => intro lo s; simp only [forUp, bind_ok]; exact ih _ _
      simp only [hr, true_and, lt_irrefl, iff_false]
      intro h
      have h2 := this r 0 (Mat.alloc r 0)
      simp only [forUp] at h h2
      rw [h2] at h
      cases h
    · refine iff_of_true ?_ ⟨hr, hc⟩
      obtain ⟨s, s1, s2⟩ := hm.2.2.2 ⟨0, hr⟩ ⟨0, hc⟩
      have e1 : m.get 0 0 = .ok s := by simp only [Mat.get, hm.2.1, s1]
      have e2 : Scalar.frac.div s t = .error .divideByZero := (C33_division_exact s2.1 ht).1.mpr h0
      obtain ⟨r, rfl⟩ : ∃ k, r = k + 1 := ⟨r - 1, by omega⟩
      obtain ⟨c, rfl⟩ : ∃ k, c = k + 1 := ⟨c - 1, by omega⟩
      simp only [forUp, e1, e2, bind_ok]
      rfl

-- the hypotheses of these theorems: the entries 1/2 and -3, and the scalar 0
example : Vec.Is FracRel [⟨⟨[1], false⟩, ⟨[2], false⟩⟩, ⟨⟨[3], true⟩, ⟨[1], false⟩⟩] ![(1 : ℚ) / 2, -3] ∧
    Mat.Is FracRel ⟨1, 2, [some ⟨⟨[1], false⟩, ⟨[2], false⟩⟩, some ⟨⟨[3], true⟩, ⟨[1], false⟩⟩]⟩ !![(1 : ℚ) / 2, -3] ∧
    FracRel ⟨⟨[0], false⟩, ⟨[1], false⟩⟩ 0 := by
  have h1 : FracRel ⟨⟨[1], false⟩, ⟨[2], false⟩⟩ (1 / 2) := ⟨by decide, by norm_num [Frac.value, BigInt.val, BigInt.mag]⟩
  have h2 : FracRel ⟨⟨[3], true⟩, ⟨[1], false⟩⟩ (-3) := ⟨by decide, by norm_num [Frac.value, BigInt.val, BigInt.mag]⟩
  refine ⟨⟨rfl, fun i => ?_⟩, ⟨rfl, rfl, rfl, fun i j => ?_⟩, by decide, by norm_num [Frac.value, BigInt.val, BigInt.mag]⟩
  · fin_cases i
    · exact ⟨_, rfl, h1⟩
    · exact ⟨_, rfl, h2⟩
  · fin_cases i; fin_cases j
    · exact ⟨_, rfl, h1⟩
    · exact ⟨_, rfl, h2⟩

end CppMaths
