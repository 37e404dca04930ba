import Verif.Proofs.MatBasic
import Mathlib.LinearAlgebra.Matrix.Determinant.Basic
/-!
# Minors and cofactor expansions
-/

namespace CppMaths
namespace Mat
variable {T K : Type} {rel : T → K → Prop} {A : Err → Prop} {S : Scalar T}

theorem succAbove_val {n : Nat} (i : Fin (n + 1)) (a : Fin n) :
    (i.succAbove a).val = if a.val ≥ i.val then a.val + 1 else a.val := by
  unfold Fin.succAbove
  by_cases h : a.val < i.val
  · have : a.castSucc < i := h
    simp [this, h]
  · have : ¬a.castSucc < i := h
    simp [this]
    omega

theorem firstMinor_is [Zero K] {m : Mat T} {r c : Nat} {M : Matrix (Fin (r + 1)) (Fin (c + 1)) K} (hm : Is rel m M)
    (i : Fin (r + 1)) (j : Fin (c + 1)) :
    Out A (m.firstMinor i j) (fun t => Is rel t (M.submatrix i.succAbove j.succAbove)) := by
  refine (firstMinor_ok hm.full i.val j.val).mono fun t ht => ht.is fun a b => ?_
  rw [Matrix.submatrix_apply, ← succAbove_val, ← succAbove_val, ext_fin]

section
variable [CommRing K]

theorem neZero_ok (hS : S.ExactRing rel A) {t : T} {k : K} (ht : rel t k) :
    Out A (neZero S t) (fun d => d = true ↔ k ≠ 0) := by
  refine Out.bind (hS.ofInt 0 (.inl rfl)) fun z hz => ?_
  rw [Int.cast_zero] at hz
  exact hS.ne ht hz

theorem eqZero_ok (hS : S.ExactRing rel A) {t : T} {k : K} (ht : rel t k) :
    Out A (eqZero S t) (fun d => d = true ↔ k = 0) := by
  refine Out.bind (hS.ofInt 0 (.inl rfl)) fun z hz => ?_
  rw [Int.cast_zero] at hz
  exact hS.eq ht hz

theorem det2_ok (hS : S.ExactRing rel A) {m : Mat T} {M : Matrix (Fin 2) (Fin 2) K} (hm : Is rel m M) :
    Out A (det2 S m) (fun t => rel t M.det) := by
  have h := hm.full
  refine Out.bind (h.dataAt (i := 0) (j := 0) (by omega) (by omega) trivial) fun a ha => ?_
  refine Out.bind (h.dataAt (i := 1) (j := 1) (by omega) (by omega) trivial) fun d hd => ?_
  refine Out.bind (hS.mul ha hd) fun p hp => ?_
  refine Out.bind (h.dataAt (i := 0) (j := 1) (by omega) (by omega) trivial) fun b hb => ?_
  refine Out.bind (h.dataAt (i := 1) (j := 0) (by omega) (by omega) trivial) fun c hc => ?_
  refine Out.bind (hS.mul hb hc) fun q hq => ?_
  have := hS.sub hp hq
  rw [Matrix.det_fin_two]
  simpa [ext] using this

theorem data0_ok {m : Mat T} {M : Matrix (Fin 1) (Fin 1) K} (hm : Is rel m M) :
    Out A (m.dataAt 0) (fun t => rel t M.det) := by
  have := hm.full.dataAt (A := A) (i := 0) (j := 0) (by omega) (by omega) trivial
  rw [Matrix.det_fin_one]
  simpa [ext] using this

/-- One round of a cofactor expansion. -/
theorem term_ok (hS : S.ExactRing rel A) {result : T} {x d s : K} {j : Nat} {minor : Res (Mat T)} {rec : Mat T → Res T}
    {get : Res T} (hget : Out A get (fun e => rel e x)) (hr : rel result s) {P : Mat T → Prop}
    (hmin : Out A minor P) (hrec : ∀ m, P m → Out A (rec m) (fun t => rel t d)) :
    Out A (do
        let e ← get
        let nz ← neZero S e
        if nz then do
          let e ← get
          let sub ← minor
          let d ← rec sub
          let p ← S.mul e d
          if j % 2 = 1 then S.subA result p else S.addA result p
        else return result) (fun t => rel t (s + (-1) ^ j * x * d)) := by
  refine Out.bind hget fun e he => ?_
  refine Out.bind (neZero_ok hS he) fun nz hnz => ?_
  cases nz with
  | false =>
    have h0 : x = 0 := by by_contra h; exact absurd (hnz.mpr h) (by simp)
    simp only [Bool.false_eq_true, if_false, h0, mul_zero, zero_mul, add_zero]
    exact Out.ok hr
  | true =>
    simp only [if_true]
    refine Out.bind hget fun e he => ?_
    refine Out.bind hmin fun m' hm' => ?_
    refine Out.bind (hrec m' hm') fun d' hd' => ?_
    refine Out.bind (hS.mul he hd') fun p hp => ?_
    by_cases hj : j % 2 = 1
    · rw [if_pos hj]
      have : (-1 : K) ^ j = -1 := Odd.neg_one_pow (Nat.odd_iff.mpr hj)
      rw [this]
      refine (hS.subA hr hp).mono fun t ht => ?_
      rwa [show s + -1 * x * d = s - x * d by ring]
    · rw [if_neg hj]
      have : (-1 : K) ^ j = 1 := Even.neg_one_pow (Nat.even_iff.mpr (by omega))
      rw [this]
      refine (hS.addA hr hp).mono fun t ht => ?_
      rwa [one_mul]

theorem rowCofactorF_ok (hS : S.ExactRing rel A) : ∀ (n : Nat) (fuel : Nat), n < fuel → ∀ (m : Mat T)
    (M : Matrix (Fin (n + 1)) (Fin (n + 1)) K), Is rel m M → Out A (rowCofactorF S fuel m) (fun t => rel t M.det) := by
  intro n
  induction n with
  | zero =>
    intro fuel hf m M hm
    obtain ⟨f, rfl⟩ : ∃ f, fuel = f + 1 := ⟨fuel - 1, by omega⟩
    unfold rowCofactorF
    simp only [hm.1, hm.2.1, ne_eq, not_true_eq_false, if_false, zero_add, if_true]
    exact data0_ok hm
  | succ n ih =>
    intro fuel hf m M hm
    obtain ⟨f, rfl⟩ : ∃ f, fuel = f + 1 := ⟨fuel - 1, by omega⟩
    unfold rowCofactorF
    simp only [hm.1, hm.2.1, ne_eq, not_true_eq_false, if_false]
    rw [if_neg (by omega)]
    by_cases h2 : n + 1 + 1 = 2
    · obtain rfl : n = 0 := by omega
      rw [if_pos h2]
      exact det2_ok hS hm
    · rw [if_neg h2]
      refine Out.bind (hS.ofInt 0 (.inl rfl)) fun z hz => ?_
      rw [Int.cast_zero] at hz
      let t : Nat → K := fun j => if h : j < n + 1 + 1 then
        (-1) ^ j * M 0 ⟨j, h⟩ * (M.submatrix Fin.succ (Fin.succAbove ⟨j, h⟩)).det else 0
      have hdet : M.det = ∑ j ∈ Finset.range (n + 1 + 1), t j := by
        rw [Matrix.det_succ_row_zero, Finset.sum_range]
        refine Finset.sum_congr rfl fun j _ => ?_
        have hj : j.val < n + 1 + 1 := j.2
        simp only [t, hj, dif_pos]
      rw [hdet]
      have := forUp_ok (A := A) (Inv := fun j s => rel s (∑ k ∈ Finset.range j, t k)) (lo := 0) (n := n + 1 + 1)
        (body := fun j result => do
          let e ← m.get 0 j
          let nz ← neZero S e
          if nz then do
            let e ← m.get 0 j
            let sub ← firstMinor m 0 j
            let d ← rowCofactorF S f sub
            let p ← S.mul e d
            if (0 + j) % 2 = 1 then S.subA result p else S.addA result p
          else return result) (s := z) (by simpa using hz) (fun j s _ hj hs => by
            have hj' : j < n + 1 + 1 := by omega
            rw [Finset.sum_range_succ]
            have htj : t j = (-1) ^ j * M 0 ⟨j, hj'⟩ * (M.submatrix Fin.succ (Fin.succAbove ⟨j, hj'⟩)).det := dif_pos hj'
            rw [htj]
            simp only [zero_add]
            refine term_ok hS ?_ hs (firstMinor_is hm 0 ⟨j, hj'⟩) fun m' hm' => ?_
            · have := hm.full.get (A := A) (i := 0) (j := j) (by omega) hj' trivial
              rwa [ext_lt M (by omega) hj'] at this
            · exact ih f (by omega) m' _ (by simpa using hm'))
      rwa [zero_add] at this

theorem colCofactorF_ok (hS : S.ExactRing rel A) : ∀ (n : Nat) (fuel : Nat), n < fuel → ∀ (m : Mat T)
    (M : Matrix (Fin (n + 1)) (Fin (n + 1)) K), Is rel m M → Out A (colCofactorF S fuel m) (fun t => rel t M.det) := by
  intro n
  induction n with
  | zero =>
    intro fuel hf m M hm
    obtain ⟨f, rfl⟩ : ∃ f, fuel = f + 1 := ⟨fuel - 1, by omega⟩
    unfold colCofactorF
    simp only [hm.1, hm.2.1, ne_eq, not_true_eq_false, if_false, zero_add, if_true]
    exact data0_ok hm
  | succ n ih =>
    intro fuel hf m M hm
    obtain ⟨f, rfl⟩ : ∃ f, fuel = f + 1 := ⟨fuel - 1, by omega⟩
    unfold colCofactorF
    simp only [hm.1, hm.2.1, ne_eq, not_true_eq_false, if_false]
    rw [if_neg (by omega)]
    by_cases h2 : n + 1 + 1 = 2
    · obtain rfl : n = 0 := by omega
      rw [if_pos h2]
      exact det2_ok hS hm
    · rw [if_neg h2]
      refine Out.bind (hS.ofInt 0 (.inl rfl)) fun z hz => ?_
      rw [Int.cast_zero] at hz
      let t : Nat → K := fun j => if h : j < n + 1 + 1 then
        (-1) ^ j * M ⟨j, h⟩ 0 * (M.submatrix (Fin.succAbove ⟨j, h⟩) Fin.succ).det else 0
      have hdet : M.det = ∑ j ∈ Finset.range (n + 1 + 1), t j := by
        rw [Matrix.det_succ_column_zero, Finset.sum_range]
        refine Finset.sum_congr rfl fun j _ => ?_
        have hj : j.val < n + 1 + 1 := j.2
        simp only [t, hj, dif_pos]
      rw [hdet]
      have := forUp_ok (A := A) (Inv := fun j s => rel s (∑ k ∈ Finset.range j, t k)) (lo := 0) (n := n + 1 + 1)
        (body := fun i result => do
          let e ← m.get i 0
          let nz ← neZero S e
          if nz then do
            let e ← m.get i 0
            let sub ← firstMinor m i 0
            let d ← colCofactorF S f sub
            let p ← S.mul e d
            if (i + 0) % 2 = 1 then S.subA result p else S.addA result p
          else return result) (s := z) (by simpa using hz) (fun j s _ hj hs => by
            have hj' : j < n + 1 + 1 := by omega
            rw [Finset.sum_range_succ]
            have htj : t j = (-1) ^ j * M ⟨j, hj'⟩ 0 * (M.submatrix (Fin.succAbove ⟨j, hj'⟩) Fin.succ).det := dif_pos hj'
            rw [htj]
            simp only [add_zero]
            refine term_ok hS ?_ hs (firstMinor_is hm ⟨j, hj'⟩ 0) fun m' hm' => ?_
            · have := hm.full.get (A := A) (i := j) (j := 0) hj' (by omega) trivial
              rwa [ext_lt M hj' (by omega)] at this
            · exact ih f (by omega) m' _ (by simpa using hm'))
      rwa [zero_add] at this

end
end Mat
end CppMaths
