import Verif.Proofs.MatDet
import Verif.Spec.Rref
import Mathlib.LinearAlgebra.Matrix.NonsingularInverse
/-!
# `inplace_rref()`: the loop invariant, and uniqueness of the reduced row echelon form
-/

namespace CppMaths
variable {T K : Type} {rel : T → K → Prop} {A : Err → Prop} {S : Scalar T}

/-! ### Row equivalence -/

section
variable [CommRing K] {r c : Nat}

theorem RowEquiv.refl (M : Matrix (Fin r) (Fin c) K) : RowEquiv M M := ⟨1, 1, by simp, by simp, by simp⟩

theorem RowEquiv.symm {M N : Matrix (Fin r) (Fin c) K} (h : RowEquiv M N) : RowEquiv N M := by
  obtain ⟨P, Q, h1, h2, rfl⟩ := h
  exact ⟨Q, P, h2, h1, by rw [← Matrix.mul_assoc, h2, Matrix.one_mul]⟩

theorem RowEquiv.trans {M N L : Matrix (Fin r) (Fin c) K} (h : RowEquiv M N) (h' : RowEquiv N L) : RowEquiv M L := by
  obtain ⟨P, Q, h1, h2, rfl⟩ := h
  obtain ⟨P', Q', h1', h2', rfl⟩ := h'
  refine ⟨P' * P, Q * Q', ?_, ?_, by rw [Matrix.mul_assoc]⟩
  · rw [Matrix.mul_assoc, ← Matrix.mul_assoc P, h1, Matrix.one_mul, h1']
  · rw [Matrix.mul_assoc, ← Matrix.mul_assoc Q', h2', Matrix.one_mul, h2]

theorem RowEquiv.of_det {M N : Matrix (Fin r) (Fin c) K} {P : Matrix (Fin r) (Fin r) K} (hP : IsUnit P.det) (h : N = P * M) :
    RowEquiv M N := ⟨P, P⁻¹, Matrix.mul_nonsing_inv P hP, Matrix.nonsing_inv_mul P hP, h⟩

/-- Row equivalent matrices have the same null space. -/
theorem RowEquiv.null {M N : Matrix (Fin r) (Fin c) K} (h : RowEquiv M N) (x : Fin c → K) :
    M.mulVec x = 0 ↔ N.mulVec x = 0 := by
  obtain ⟨P, Q, h1, h2, rfl⟩ := h
  rw [← Matrix.mulVec_mulVec]
  constructor
  · intro h; rw [h, Matrix.mulVec_zero]
  · intro h
    have : Q.mulVec (P.mulVec (M.mulVec x)) = 0 := by rw [h, Matrix.mulVec_zero]
    rwa [Matrix.mulVec_mulVec, h2, Matrix.one_mulVec] at this

end

namespace Mat

theorem swap_equiv [CommRing K] {r c : Nat} (F : Nat → Nat → K) {a b : Nat} (ha : a < r) (hb : b < r) :
    RowEquiv (toM r c F) (toM r c (swapF F a b)) := by
  have e := toM_swap (c := c) F ⟨a, ha⟩ ⟨b, hb⟩
  dsimp only at e
  rw [e]
  refine RowEquiv.of_det (P := (1 : Matrix (Fin r) (Fin r) K).submatrix (Equiv.swap ⟨a, ha⟩ ⟨b, hb⟩) id) ?_ ?_
  · rw [Matrix.det_permute, Matrix.det_one, mul_one]
    rcases Int.units_eq_one_or (Equiv.Perm.sign (Equiv.swap (⟨a, ha⟩ : Fin r) ⟨b, hb⟩)) with h | h <;> simp [h]
  · funext i j
    simp [Matrix.mul_apply, Matrix.submatrix_apply, Matrix.one_apply]

theorem scale_equiv [Field K] {r c : Nat} (F : Nat → Nat → K) {a : Nat} {v : K} (hv : v ≠ 0) :
    RowEquiv (toM r c F) (toM r c (scaleF F a v)) := by
  refine RowEquiv.of_det (P := Matrix.diagonal fun i : Fin r => if i.val = a then v⁻¹ else 1) ?_ ?_
  · rw [Matrix.det_diagonal, isUnit_iff_ne_zero]
    refine Finset.prod_ne_zero_iff.mpr fun i _ => ?_
    split
    · exact inv_ne_zero hv
    · exact one_ne_zero
  · funext i j
    rw [Matrix.diagonal_mul]
    simp only [toM, scaleF]
    split
    · rw [div_eq_inv_mul]
    · rw [one_mul]

theorem clear_equiv [Field K] {r c : Nat} (F : Nat → Nat → K) {a p : Nat} (ha : a < r) :
    RowEquiv (toM r c F) (toM r c (clearF F a p)) := by
  let v : Fin r → K := fun i => if i.val = a then 0 else -F i p
  refine RowEquiv.of_det (P := Matrix.of fun i k : Fin r => (1 : Matrix (Fin r) (Fin r) K) i k + v i * (1 : Matrix (Fin r) (Fin r) K) ⟨a, ha⟩ k) ?_ ?_
  · have e := Matrix.det_eq_of_forall_row_eq_smul_add_const (A := Matrix.of fun i k : Fin r =>
      (1 : Matrix (Fin r) (Fin r) K) i k + v i * (1 : Matrix (Fin r) (Fin r) K) ⟨a, ha⟩ k) (B := 1) v ⟨a, ha⟩ (by simp [v])
      (fun i j => rfl)
    rw [e, Matrix.det_one]
    exact isUnit_one
  · funext i j
    simp only [Matrix.mul_apply, Matrix.of_apply, add_mul, Finset.sum_add_distrib, mul_assoc, ← Finset.mul_sum, Matrix.one_apply,
      ite_mul, one_mul, zero_mul, Finset.sum_ite_eq, Finset.mem_univ, if_true]
    simp only [toM, clearF, v]
    split
    · simp
    · ring

/-! ### The invariant of the reduction -/

/-- The first `k` rows are reduced, with the leading entries in the columns `piv 0 < ... < piv (k - 1)` before column `p`, and
the other rows are zero before column `p`. -/
structure Stage [Field K] (F : Nat → Nat → K) (r k p : Nat) (piv : Nat → Nat) : Prop where
  bound : ∀ a < k, piv a < p
  mono : ∀ a b, a < b → b < k → piv a < piv b
  one : ∀ a < k, F a (piv a) = 1
  left : ∀ a < k, ∀ j < piv a, F a j = 0
  alone : ∀ a < k, ∀ i < r, i ≠ a → F i (piv a) = 0
  below : ∀ i, k ≤ i → i < r → ∀ j < p, F i j = 0

section
variable [Field K]

theorem Stage.advance {F : Nat → Nat → K} {r k p q : Nat} {piv : Nat → Nat} (h : Stage F r k p piv) (hpq : p ≤ q)
    (hz : ∀ j, p ≤ j → j < q → ∀ i, k ≤ i → i < r → F i j = 0) : Stage F r k q piv where
  bound a ha := lt_of_lt_of_le (h.bound a ha) hpq
  mono := h.mono
  one := h.one
  left := h.left
  alone := h.alone
  below i hi hr j hj := by
    by_cases hjp : j < p
    · exact h.below i hi hr j hjp
    · exact hz j (by omega) hj i hi hr

theorem Stage.swap {F : Nat → Nat → K} {r k p i : Nat} {piv : Nat → Nat} (h : Stage F r k p piv) (hi : k ≤ i) (hir : i < r)
    (hkr : k < r) : Stage (swapF F i k) r k p piv := by
  have low : ∀ a < k, ∀ j, swapF F i k a j = F a j := fun a ha j => by
    rw [swapF, if_neg (by omega), if_neg (by omega)]
  refine ⟨h.bound, h.mono, fun a ha => by rw [low a ha, h.one a ha], fun a ha j hj => by rw [low a ha, h.left a ha j hj],
    fun a ha b hb hba => ?_, fun b hb hbr j hj => ?_⟩
  · unfold swapF
    split
    · exact h.alone a ha k hkr (by omega)
    · split
      · exact h.alone a ha i hir (by omega)
      · exact h.alone a ha b hb hba
  · unfold swapF
    split
    · exact h.below k le_rfl hkr j hj
    · split
      · exact h.below i hi hir j hj
      · exact h.below b hb hbr j hj

theorem Stage.scale {F : Nat → Nat → K} {r k p : Nat} {piv : Nat → Nat} {v : K} (h : Stage F r k p piv) :
    Stage (scaleF F k v) r k p piv := by
  have low : ∀ a < k, ∀ j, scaleF F k v a j = F a j := fun a ha j => by rw [scaleF, if_neg (by omega)]
  have zero : ∀ i j, F i j = 0 → scaleF F k v i j = 0 := fun i j h => by
    unfold scaleF; split <;> simp [h]
  exact ⟨h.bound, h.mono, fun a ha => by rw [low a ha, h.one a ha], fun a ha j hj => by rw [low a ha, h.left a ha j hj],
    fun a ha b hb hba => zero _ _ (h.alone a ha b hb hba), fun b hb hbr j hj => zero _ _ (h.below b hb hbr j hj)⟩

theorem Stage.clear {F : Nat → Nat → K} {r k q : Nat} {piv : Nat → Nat} (h : Stage F r k q piv) (hk : k < r) (h1 : F k q = 1) :
    Stage (clearF F k q) r (k + 1) (q + 1) (Function.update piv k q) := by
  have old : ∀ a < k, Function.update piv k q a = piv a := fun a ha => Function.update_of_ne (by omega) _ _
  have new : Function.update piv k q k = q := Function.update_self _ _ _
  -- columns before `q` do not change
  have col : ∀ i j, j < q → clearF F k q i j = F i j := fun i j hj => by
    unfold clearF
    split
    · rfl
    · rw [h.below k le_rfl hk j hj, mul_zero, sub_zero]
  have colq : ∀ i, i ≠ k → clearF F k q i q = 0 := fun i hi => by
    rw [clearF, if_neg hi, h1, mul_one, sub_self]
  refine ⟨fun a ha => ?_, fun a b hab hb => ?_, fun a ha => ?_, fun a ha j hj => ?_, fun a ha i hi hia => ?_, fun i hi hir j hj => ?_⟩
  · by_cases hak : a < k
    · rw [old a hak]; have := h.bound a hak; omega
    · obtain rfl : a = k := by omega
      rw [new]; omega
  · rw [old a (by omega)]
    by_cases hbk : b < k
    · rw [old b hbk]; exact h.mono a b hab hbk
    · obtain rfl : b = k := by omega
      rw [new]; exact h.bound a hab
  · by_cases hak : a < k
    · rw [old a hak, col _ _ (h.bound a hak), h.one a hak]
    · obtain rfl : a = k := by omega
      rw [new, clearF, if_pos rfl, h1]
  · by_cases hak : a < k
    · rw [old a hak] at hj
      rw [col _ _ (hj.trans (h.bound a hak)), h.left a hak j hj]
    · obtain rfl : a = k := by omega
      rw [new] at hj
      rw [col _ _ hj, h.below a le_rfl hk j hj]
  · by_cases hak : a < k
    · rw [old a hak, col _ _ (h.bound a hak), h.alone a hak i hi hia]
    · obtain rfl : a = k := by omega
      rw [new, colq i hia]
  · by_cases hjq : j < q
    · rw [col _ _ hjq, h.below i (by omega) hir j hjq]
    · obtain rfl : j = q := by omega
      exact colq i (by omega)

/-- A matrix in the final stage is in reduced row echelon form. -/
theorem Stage.isRref {F : Nat → Nat → K} {r c k : Nat} {piv : Nat → Nat} (h : Stage F r k c piv) : IsRref (toM r c F) := by
  have lead : ∀ {i : Fin r} {j : Fin c}, Leads (toM r c F) i j → i.val < k ∧ j.val = piv i.val := by
    intro i j hl
    have hik : i.val < k := by
      by_contra hik
      exact hl.1 (h.below i (by omega) i.2 j j.2)
    refine ⟨hik, ?_⟩
    have hb := h.bound i hik
    rcases lt_trichotomy j.val (piv i) with h1 | h1 | h1
    · exact absurd (h.left i hik j h1) hl.1
    · exact h1
    · have : F i (piv i) = 0 := hl.2 ⟨piv i, hb⟩ h1
      rw [h.one i hik] at this
      exact absurd this one_ne_zero
  have isLead : ∀ (i : Fin r) (hi : i.val < k), Leads (toM r c F) i ⟨piv i, h.bound i hi⟩ := fun i hi => by
    refine ⟨?_, fun j hj => h.left i hi j hj⟩
    change F i (piv i) ≠ 0
    rw [h.one i hi]; exact one_ne_zero
  refine ⟨fun {i j} hl => ?_, fun {i j i'} hl hne => ?_, fun {i i' j'} hlt hl => ?_⟩
  · obtain ⟨h1, h2⟩ := lead hl
    change F i j = 1
    rw [h2]; exact h.one i h1
  · obtain ⟨h1, h2⟩ := lead hl
    change F i' j = 0
    rw [h2]; exact h.alone i h1 i' i'.2 (fun h => hne (Fin.ext h))
  · obtain ⟨h1, h2⟩ := lead hl
    have h3 : i.val < i'.val := hlt
    refine ⟨⟨piv i, h.bound i (by omega)⟩, ?_, isLead i (by omega)⟩
    change piv i < j'.val
    rw [h2]; exact h.mono i i' h3 h1

theorem rrefLoop_ok (hS : S.ExactField rel A) {r c : Nat} {M : Matrix (Fin r) (Fin c) K} (n : Nat) :
    ∀ (k p : Nat) (m : Mat T) (F : Nat → Nat → K) (piv : Nat → Nat), k + n = r → p ≤ c → Full rel m r c F →
    RowEquiv M (toM r c F) → Stage F r k p piv →
    Out A (rrefLoop S n k p m) (fun m' => ∃ F, Full rel m' r c F ∧ RowEquiv M (toM r c F) ∧ IsRref (toM r c F)) := by
  induction n with
  | zero =>
    intro k p m F piv hk hp hm hM h
    refine Out.ok ⟨F, hm, hM, Stage.isRref (h.advance hp fun j _ _ i hi hir => by omega)⟩
  | succ n ih =>
    intro k p m F piv hk hp hm hM h
    unfold rrefLoop
    by_cases hc : m.cols ≤ p
    · rw [if_pos hc]
      rw [hm.2.1] at hc
      refine Out.ok ⟨F, hm, hM, Stage.isRref (h.advance hp fun j _ _ i hi hir => by omega)⟩
    · rw [if_neg hc]
      rw [hm.2.1] at hc
      refine Out.bind (findPivot_start hS.toExactRing hm (show k < r by omega) (by omega)) fun o ho => ?_
      match o, ho with
      | none, ho =>
        refine Out.ok ⟨F, hm, hM, Stage.isRref (h.advance hp fun j hj hjc i hi hir => ?_)⟩
        rcases hj.eq_or_lt with rfl | hj
        · exact ho.1 i hi hir
        · exact ho.2 j hj hjc i hi hir
      | some (i, q), ho =>
        obtain ⟨a1, a2, a3, a4, a5, a6, a7⟩ := ho
        have hkr : k < r := by omega
        have h' : Stage F r k q piv := h.advance a3 fun j hj hjq i hi hir => by
          rcases hj.eq_or_lt with rfl | hj
          · exact a6 hjq i hi hir
          · exact a7 j hj hjq i hi hir
        dsimp only
        refine Out.bind (swapRows_ok hm a2 hkr) fun m1 hm1 => ?_
        have h1 := h'.swap a1 a2 hkr
        have e1 : swapF F i k k q = F i q := by
          unfold swapF
          by_cases hki : k = i
          · rw [if_pos hki, hki]
          · rw [if_neg hki, if_pos rfl]
        have hne : swapF F i k k q ≠ 0 := by rw [e1]; exact a5
        refine Out.bind (scaleRow_ok hS hm1 hkr a4 hne) fun m2 hm2 => ?_
        have h2 := h1.scale (v := swapF F i k k q)
        have e2 : scaleF (swapF F i k) k (swapF F i k k q) k q = 1 := by
          rw [scaleF, if_pos rfl, div_self hne]
        refine Out.bind (clearColumn_ok hS.toExactRing hm2 hkr a4) fun m3 hm3 => ?_
        refine ih (k + 1) (q + 1) m3 _ _ (by omega) (by omega) hm3 ?_ (h2.clear hkr e2)
        exact ((hM.trans (swap_equiv F a2 hkr)).trans (scale_equiv _ hne)).trans (clear_equiv _ hkr)

theorem inplaceRref_ok (hS : S.ExactField rel A) {r c : Nat} {M : Matrix (Fin r) (Fin c) K} {m : Mat T} (hm : Is rel m M) :
    Out A (inplaceRref S m) (fun m' => ∃ N : Matrix (Fin r) (Fin c) K, Is rel m' N ∧ RowEquiv M N ∧ IsRref N) := by
  unfold inplaceRref
  rw [hm.1]
  refine (rrefLoop_ok hS r 0 0 m (ext M) id (by omega) (by omega) hm.full (by rw [toM_ext]; exact RowEquiv.refl M)
    ⟨fun a h => absurd h (by omega), fun a b _ h => absurd h (by omega), fun a h => absurd h (by omega),
      fun a h => absurd h (by omega), fun a h => absurd h (by omega), fun i _ _ j hj => absurd hj (by omega)⟩).mono ?_
  rintro m' ⟨F, h1, h2, h3⟩
  exact ⟨toM r c F, h1.is fun i j => rfl, h2, h3⟩

theorem rref_ok (hS : S.ExactField rel A) {r c : Nat} {M : Matrix (Fin r) (Fin c) K} {m : Mat T} (hm : Is rel m M) :
    Out A (rref S m) (fun m' => ∃ N : Matrix (Fin r) (Fin c) K, Is rel m' N ∧ RowEquiv M N ∧ IsRref N) := by
  refine Out.bind (copy_ok hm.full) fun m' hm' => ?_
  exact inplaceRref_ok hS (hm'.is fun i j => ext_fin M i j)

end
end Mat

/-! ### Uniqueness -/

section
variable [Field K] {r c : Nat}

theorem Leads.unique {M : Matrix (Fin r) (Fin c) K} {i : Fin r} {j j' : Fin c} (h : Leads M i j) (h' : Leads M i j') : j = j' := by
  rcases lt_trichotomy j j' with h1 | h1 | h1
  · exact absurd (h'.2 j h1) h.1
  · exact h1
  · exact absurd (h.2 j' h1) h'.1

/-- Leading entries before column `j` only depend on the columns before `j`. -/
theorem Leads.congr {M N : Matrix (Fin r) (Fin c) K} {j : Fin c} (hcol : ∀ j' < j, ∀ i, M i j' = N i j') {i : Fin r} {j' : Fin c}
    (hj : j' < j) (h : Leads M i j') : Leads N i j' :=
  ⟨by rw [← hcol j' hj]; exact h.1, fun q hq => by rw [← hcol q (hq.trans hj)]; exact h.2 q hq⟩

/-- A column without leading entry is determined by the earlier columns and the null space. -/
theorem col_eq_of_not_lead {M N : Matrix (Fin r) (Fin c) K} (hM : IsRref M) (hMN : RowEquiv M N) {j : Fin c}
    (hcol : ∀ j' < j, ∀ i, M i j' = N i j') (hno : ∀ i, ¬Leads M i j) (i : Fin r) : M i j = N i j := by
  classical
  -- a vector in the null space of `M`
  let x : Fin c → K := fun q => (if q = j then 1 else 0) - ∑ a : Fin r, if q < j ∧ Leads M a q then M a j else 0
  -- what multiplication of a matrix that agrees with `M` before column `j` yields
  have key : ∀ L : Matrix (Fin r) (Fin c) K, (∀ j' < j, ∀ i, M i j' = L i j') → ∀ i, L.mulVec x i = L i j - M i j := by
    intro L hL i
    have h1 : L.mulVec x i = L i j - ∑ q, ∑ a : Fin r, if q < j ∧ Leads M a q then L i q * M a j else 0 := by
      simp only [Matrix.mulVec, dotProduct, x, mul_sub, Finset.sum_sub_distrib, mul_ite, mul_one, mul_zero, Finset.sum_ite_eq',
        Finset.mem_univ, if_true, Finset.mul_sum]
    rw [h1]
    congr 1
    have h2 : ∀ q, (∑ a : Fin r, if q < j ∧ Leads M a q then L i q * M a j else 0) =
        ∑ a : Fin r, if a = i then (if q < j ∧ Leads M i q then M i j else 0) else 0 := by
      intro q
      refine Finset.sum_congr rfl fun a _ => ?_
      by_cases hq : q < j ∧ Leads M a q
      · rw [if_pos hq, ← hL q hq.1]
        by_cases hai : a = i
        · subst hai
          rw [if_pos rfl, if_pos hq, hM.one hq.2, one_mul]
        · rw [if_neg hai, hM.alone hq.2 (fun h => hai h.symm), zero_mul]
      · rw [if_neg hq]
        by_cases hai : a = i
        · subst hai; rw [if_pos rfl, if_neg hq]
        · rw [if_neg hai]
    simp only [h2, Finset.sum_ite_eq', Finset.mem_univ, if_true]
    -- row `i` has a leading entry before column `j`, or its entry in column `j` is zero
    by_cases hl : ∃ q < j, Leads M i q
    · obtain ⟨q, hq, hl⟩ := hl
      rw [Finset.sum_eq_single q]
      · rw [if_pos ⟨hq, hl⟩]
      · intro b _ hb
        rw [if_neg]
        exact fun h => hb (h.2.unique hl)
      · intro h; exact absurd (Finset.mem_univ q) h
    · have hz : ∀ n : Nat, ∀ q : Fin c, q.val = n → q < j → M i q = 0 := by
        intro n
        induction n using Nat.strong_induction_on with
        | _ n ihn =>
          intro q hq hqj
          by_contra hne
          exact hl ⟨q, hqj, hne, fun q' hq' => ihn q'.val (by have : q'.val < q.val := hq'; omega) q' rfl (hq'.trans hqj)⟩
      have hj0 : M i j = 0 := by
        by_contra hne
        exact hno i ⟨hne, fun q hq => hz _ q rfl hq⟩
      rw [hj0]
      exact Finset.sum_eq_zero fun q _ => by split <;> rfl
  have h0 : M.mulVec x = 0 := by
    funext i
    rw [key M (fun _ _ _ => rfl) i, sub_self]; rfl
  have h1 := congrFun ((hMN.null x).mp h0) i
  rw [key N hcol i] at h1
  exact (sub_eq_zero.mp h1).symm

/-- Of two matrices in reduced row echelon form that agree before column `j`, both with a leading entry in that column, the
leading entries are in the same row. -/
theorem lead_row_le {M N : Matrix (Fin r) (Fin c) K} (hN : IsRref N) {j : Fin c}
    (hcol : ∀ j' < j, ∀ i, M i j' = N i j') {a b : Fin r} (ha : Leads M a j) (hb : Leads N b j) : b ≤ a := by
  by_contra h
  obtain ⟨q, hq, hl⟩ := hN.stairs (not_le.mp h) hb
  have := Leads.congr (fun j' hj' i => (hcol j' hj' i).symm) hq hl
  exact absurd (this.unique ha) (ne_of_lt hq)

/-- The reduced row echelon form is unique. -/
theorem IsRref.unique {M N : Matrix (Fin r) (Fin c) K} (hM : IsRref M) (hN : IsRref N) (h : RowEquiv M N) : M = N := by
  suffices H : ∀ n : Nat, ∀ j : Fin c, j.val = n → ∀ i, M i j = N i j by
    funext i j; exact H j.val j rfl i
  intro n
  induction n using Nat.strong_induction_on with
  | _ n ih =>
    intro j hj i
    have hcol : ∀ j' < j, ∀ i, M i j' = N i j' := fun j' hj' i => ih j'.val (by have : j'.val < j.val := hj'; omega) j' rfl i
    by_cases hMl : ∃ a, Leads M a j
    · by_cases hNl : ∃ b, Leads N b j
      · obtain ⟨a, ha⟩ := hMl
        obtain ⟨b, hb⟩ := hNl
        have hab : a = b := le_antisymm (lead_row_le hM (fun j' hj' i => (hcol j' hj' i).symm) hb ha) (lead_row_le hN hcol ha hb)
        subst hab
        by_cases hia : i = a
        · subst hia; rw [hM.one ha, hN.one hb]
        · rw [hM.alone ha hia, hN.alone hb hia]
      · push Not at hNl
        exact (col_eq_of_not_lead hN h.symm (fun j' hj' i => (hcol j' hj' i).symm) hNl i).symm
    · push Not at hMl
      exact col_eq_of_not_lead hM h hcol hMl i

theorem isRref_one : IsRref (1 : Matrix (Fin r) (Fin r) K) := by
  have lead : ∀ {i j : Fin r}, Leads (1 : Matrix (Fin r) (Fin r) K) i j → i = j := by
    intro i j h
    by_contra hne
    exact h.1 (Matrix.one_apply_ne hne)
  refine ⟨fun {i j} h => ?_, fun {i j i'} h hne => ?_, fun {i i' j'} hlt h => ?_⟩
  · rw [lead h, Matrix.one_apply_eq]
  · rw [← lead h, Matrix.one_apply_ne hne]
  · rw [← lead h]
    refine ⟨i, hlt, ?_, fun j' hj' => Matrix.one_apply_ne (ne_of_gt hj')⟩
    rw [Matrix.one_apply_eq]; exact one_ne_zero

end
end CppMaths
