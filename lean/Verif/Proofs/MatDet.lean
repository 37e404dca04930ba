import Verif.Proofs.MatElim
import Mathlib.LinearAlgebra.Matrix.Block
import Mathlib.Tactic.FieldSimp
import Mathlib.Tactic.LinearCombination
/-!
# `determinant()`
-/

namespace CppMaths
namespace Mat
variable {T K : Type} {rel : T → K → Prop} {A : Err → Prop} {S : Scalar T}

/-- The matrix with the entries `F i j`. -/
def toM (r c : Nat) (F : Nat → Nat → K) : Matrix (Fin r) (Fin c) K := fun i j => F i j

theorem toM_ext [Zero K] {r c : Nat} (M : Matrix (Fin r) (Fin c) K) : toM r c (ext M) = M := by
  funext i j; exact ext_fin M i j

theorem toM_swap {r c : Nat} (F : Nat → Nat → K) (a b : Fin r) :
    toM r c (swapF F a b) = (toM r c F).submatrix (Equiv.swap a b) id := by
  funext i j
  simp only [toM, swapF, Matrix.submatrix_apply, id, Equiv.swap_apply_def]
  by_cases h1 : i = a
  · simp [h1]
  · have h1' : ¬(i : Nat) = a := fun h => h1 (Fin.ext h)
    by_cases h2 : i = b
    · have h3 : ¬b = a := fun h => h1 (h2.trans h)
      have h3' : ¬(b : Nat) = a := fun h => h3 (Fin.ext h)
      simp [h2, h3, h3']
    · have h2' : ¬(i : Nat) = b := fun h => h2 (Fin.ext h)
      simp [h1, h2, h1', h2']

/-- A matrix that is upper triangular in the columns before `c` and whose column `c` vanishes from the diagonal on is
singular. -/
theorem det_zero_of_stair [CommRing K] {n : Nat} (M : Matrix (Fin n) (Fin n) K) (c : Fin n)
    (h1 : ∀ i j : Fin n, j < c → j < i → M i j = 0) (h2 : ∀ i : Fin n, c ≤ i → M i c = 0) : M.det = 0 := by
  rw [Matrix.det_apply]
  refine Finset.sum_eq_zero fun σ _ => ?_
  suffices h : ∃ j, M (σ j) j = 0 by
    obtain ⟨j, hj⟩ := h
    have h0 : ∏ i, M (σ i) i = 0 := Finset.prod_eq_zero (f := fun i => M (σ i) i) (Finset.mem_univ j) hj
    rw [h0, smul_zero]
  by_contra hne
  push Not at hne
  have hmap : ∀ j : Fin n, j ≤ c → σ j < c := by
    intro j hj
    rcases hj.eq_or_lt with rfl | hlt
    · by_contra h
      exact hne j (h2 _ (not_lt.mp h))
    · have : σ j ≤ j := by
        by_contra h
        exact hne j (h1 _ _ hlt (not_le.mp h))
      exact lt_of_le_of_lt this hlt
  have hcard := Finset.card_le_card_of_injOn (s := Finset.Iic c) (t := Finset.Iio c) σ
    (fun j hj => by simpa using hmap j (by simpa using hj)) σ.injective.injOn
  simp at hcard

section
variable [Field K]

/-- All pivots so far are on the diagonal. -/
structure DetGood (n r : Nat) (D s : K) (F : Nat → Nat → K) : Prop where
  det : (toM n n F).det = s * D
  tri : ∀ i j, j < r → j < i → i < n → F i j = 0

/-- A column has been skipped: the determinant is zero, and a zero stays on the diagonal. -/
def DetBad (n r p : Nat) (D : K) (F : Nat → Nat → K) : Prop :=
  D = 0 ∧ ∃ c, c < n ∧ c ≤ r ∧ c < p ∧ ∀ i, c ≤ i → i < n → F i c = 0

theorem DetGood.bad {n r p : Nat} {D s : K} {F : Nat → Nat → K} (h : DetGood n r D s F) (hs : s * s = 1) (hr : r < n)
    (hrp : r < p) (hz : ∀ k, r ≤ k → k < n → F k r = 0) : DetBad n r p D F := by
  refine ⟨?_, r, hr, le_rfl, hrp, hz⟩
  have h0 : (toM n n F).det = 0 := det_zero_of_stair _ ⟨r, hr⟩ (fun i j hj hij => h.tri i j hj hij i.2)
    (fun i hi => hz i hi i.2)
  rw [h.det] at h0
  calc D = s * s * D := by rw [hs, one_mul]
    _ = s * (s * D) := by ring
    _ = 0 := by rw [h0, mul_zero]

theorem DetBad.swap {n r p i : Nat} {D : K} {F : Nat → Nat → K} (h : DetBad n r p D F) (hi : r ≤ i) (hin : i < n) (hrn : r < n) :
    DetBad n r p D (swapF F i r) := by
  obtain ⟨h0, c, h1, h2, h3, h4⟩ := h
  refine ⟨h0, c, h1, h2, h3, fun k hk hkn => ?_⟩
  unfold swapF
  split
  · exact h4 _ h2 hrn
  · split
    · exact h4 _ (by omega) hin
    · exact h4 k hk hkn

theorem DetBad.elim {n r p : Nat} {D : K} {F : Nat → Nat → K} (h : DetBad n r p D F) :
    DetBad n (r + 1) (p + 1) D (elimF F r p) := by
  obtain ⟨h0, c, h1, h2, h3, h4⟩ := h
  refine ⟨h0, c, h1, by omega, by omega, fun k hk hkn => ?_⟩
  rw [elimF, if_neg (by omega)]
  exact h4 k hk hkn

theorem DetGood.swap {n r i : Nat} {D s : K} {F : Nat → Nat → K} (h : DetGood n r D s F) (hi : r < i) (hin : i < n) :
    DetGood n r D (s * -1) (swapF F i r) := by
  constructor
  · have e := toM_swap (c := n) F ⟨i, hin⟩ ⟨r, by omega⟩
    dsimp only at e
    have hne : (⟨i, hin⟩ : Fin n) ≠ ⟨r, by omega⟩ := fun h => by simp at h; omega
    rw [e, Matrix.det_permute, Equiv.Perm.sign_swap hne, h.det]
    push_cast
    ring
  · intro a b hb hab han
    unfold swapF
    split
    · exact h.tri r b hb (by omega) (by omega)
    · split
      · exact h.tri i b hb (by omega) hin
      · exact h.tri a b hb hab han

theorem DetGood.elim {n r : Nat} {D s : K} {F : Nat → Nat → K} (h : DetGood n r D s F) (hr : r < n) (hne : F r r ≠ 0) :
    DetGood n (r + 1) D s (elimF F r r) := by
  constructor
  · rw [← h.det]
    refine Matrix.det_eq_of_forall_row_eq_smul_add_const (fun i => if r < i.val then -(F i r / F r r) else 0) ⟨r, hr⟩ (by simp) ?_
    intro i j
    simp only [toM, elimF]
    by_cases h1 : r < i.val
    · rw [if_pos h1]
      by_cases h2 : r ≤ j.val
      · rw [if_pos ⟨h1, by omega, h2⟩]; ring
      · rw [if_neg (by omega), h.tri r j (by omega) (by omega) hr, mul_zero, add_zero]
    · rw [if_neg h1, if_neg (by omega), zero_mul, add_zero]
  · intro a b hb hab han
    unfold elimF
    by_cases h1 : r < a ∧ a ≠ r ∧ r ≤ b
    · obtain rfl : b = r := by omega
      rw [if_pos h1, mul_div_assoc, div_self hne, mul_one, sub_self]
    · rw [if_neg h1]
      exact h.tri a b (by omega) hab han

theorem DetBad.done {n r p : Nat} {D : K} {F : Nat → Nat → K} (h : DetBad n r p D F) (s : K) :
    D = s * ∏ i ∈ Finset.range n, F i i := by
  obtain ⟨h0, c, h1, _, _, h4⟩ := h
  have h5 : ∏ i ∈ Finset.range n, F i i = 0 :=
    Finset.prod_eq_zero (f := fun i => F i i) (Finset.mem_range.mpr h1) (h4 c le_rfl h1)
  rw [h5, mul_zero, h0]

theorem DetGood.done {n : Nat} {D s : K} {F : Nat → Nat → K} (h : DetGood n n D s F) (hs : s * s = 1) :
    D = s * ∏ i ∈ Finset.range n, F i i := by
  have : (toM n n F).det = ∏ i ∈ Finset.range n, F i i := by
    have ht : (toM n n F).BlockTriangular id := fun i j hij => h.tri i j j.2 hij i.2
    rw [Matrix.det_of_upperTriangular ht, Finset.prod_range]
    rfl
  rw [← this, h.det, ← mul_assoc, hs, one_mul]

theorem detLoop_ok (hS : S.ExactField rel A) {N : Nat} {D : K} (k : Nat) : ∀ (r p : Nat) (f : T) (m : Mat T) (F : Nat → Nat → K) (s : K),
    r + k = N → r ≤ p → rel f s → s * s = 1 → Full rel m N N F → (DetGood N r D s F ∧ p = r) ∨ DetBad N r p D F →
    Out A (detLoop S k r p f m) (fun o => ∃ s F, rel o.1 s ∧ Full rel o.2 N N F ∧ s * s = 1 ∧
      D = s * ∏ i ∈ Finset.range N, F i i) := by
  induction k with
  | zero =>
    intro r p f m F s hr hrp hf hs hm hinv
    obtain rfl : r = N := by omega
    refine Out.ok ⟨s, F, hf, hm, hs, ?_⟩
    rcases hinv with ⟨h, _⟩ | h
    · exact h.done hs
    · exact h.done s
  | succ k ih =>
    intro r p f m F s hr hrp hf hs hm hinv
    unfold detLoop
    by_cases hp : m.cols ≤ p
    · rw [if_pos hp]
      rw [hm.2.1] at hp
      refine Out.ok ⟨s, F, hf, hm, hs, ?_⟩
      rcases hinv with ⟨h, h2⟩ | h
      · omega
      · exact h.done s
    · rw [if_neg hp]
      rw [hm.2.1] at hp
      refine Out.bind (findPivot_start hS.toExactRing hm (show r < N by omega) (by omega)) fun o ho => ?_
      match o, ho with
      | none, ho =>
        refine Out.ok ⟨s, F, hf, hm, hs, ?_⟩
        rcases hinv with ⟨h, rfl⟩ | h
        · exact (h.bad hs (by omega) (Nat.lt_succ_self _) ho.1).done s
        · exact h.done s
      | some (i, q), ho =>
        obtain ⟨a1, a2, a3, a4, a5, a6, a7⟩ := ho
        have hinv' : (DetGood N r D s F ∧ q = r) ∨ DetBad N r q D F := by
          rcases hinv with ⟨h, rfl⟩ | ⟨h0, c, c1, c2, c3, c4⟩
          · rcases a3.eq_or_lt with h1 | h1
            · exact .inl ⟨h, h1.symm⟩
            · exact .inr (h.bad hs (by omega) h1 (a6 h1))
          · exact .inr ⟨h0, c, c1, c2, by omega, c4⟩
        dsimp only
        -- the row exchange
        have hswap : Out A (if i ≠ r then do
              let tmp ← swapRows m i r
              let m1 ← S.ofInt (-1)
              let factor ← S.mulA f m1
              return (factor, tmp)
            else .ok (f, m)) (fun o => ∃ s F, rel o.1 s ∧ s * s = 1 ∧ Full rel o.2 N N F ∧ F r q ≠ 0 ∧
              ((DetGood N r D s F ∧ q = r) ∨ DetBad N r q D F)) := by
          by_cases hir : i = r
          · rw [if_neg (by simpa using hir)]
            exact Out.ok ⟨s, F, hf, hs, hm, hir ▸ a5, hinv'⟩
          · rw [if_pos hir]
            refine Out.bind (swapRows_ok hm a2 (show r < N by omega)) fun m' hm' => ?_
            refine Out.bind (hS.ofInt (-1) (.inr (.inr rfl))) fun m1 hm1 => ?_
            refine Out.bind (hS.mulA hf hm1) fun f' hf' => ?_
            refine Out.ok ⟨s * -1, swapF F i r, by simpa using hf', by linear_combination hs, hm', ?_, ?_⟩
            · have : ¬r = i := fun h => hir h.symm
              simpa [swapF, this] using a5
            · rcases hinv' with ⟨h, h2⟩ | h
              · exact .inl ⟨h.swap (by omega) a2, h2⟩
              · exact .inr (h.swap a1 a2 (by omega))
        refine Out.bind hswap fun o ho => ?_
        obtain ⟨s', F', b1, b2, b3, b4, b5⟩ := ho
        refine Out.bind (detEliminate_ok hS b3 (show r < N by omega) a4 (by omega) a4 b4) fun m' hm' => ?_
        refine ih (r + 1) (q + 1) o.1 m' (elimF F' r q) s' (by omega) (by omega) b1 b2 hm' ?_
        rcases b5 with ⟨h, rfl⟩ | h
        · exact .inl ⟨h.elim (by omega) b4, rfl⟩
        · exact .inr h.elim

theorem determinant_ok (hS : S.ExactField rel A) {m : Mat T} {n : Nat} {M : Matrix (Fin n) (Fin n) K} (hm : Is rel m M) :
    Out A (determinant S m) (fun t => rel t M.det) := by
  unfold determinant
  simp only [hm.1, hm.2.1, ne_eq, not_true_eq_false, if_false]
  by_cases h1 : n = 1
  · subst h1
    rw [if_pos rfl]
    exact data0_ok hm
  · rw [if_neg h1]
    by_cases h2 : n = 2
    · subst h2
      rw [if_pos rfl]
      exact det2_ok hS.toExactRing hm
    · rw [if_neg h2]
      refine Out.bind (copy_ok hm.full) fun tmp htmp => ?_
      refine Out.bind (hS.ofInt 1 (.inr (.inl rfl))) fun f hf => ?_
      rw [Int.cast_one] at hf
      rw [htmp.1]
      refine Out.bind (detLoop_ok hS (D := M.det) n 0 0 f tmp (ext M) 1 (by omega) le_rfl hf (by ring) htmp
        (.inl ⟨⟨by rw [toM_ext, one_mul], fun i j h => absurd h (by omega)⟩, rfl⟩)) fun o ho => ?_
      obtain ⟨s, F, c1, c2, c3, c4⟩ := ho
      refine Out.bind (hS.ofInt 1 (.inr (.inl rfl))) fun p hp => ?_
      rw [Int.cast_one] at hp
      rw [c2.1]
      have e := forUp_ok (A := A) (Inv := fun i t => rel t (∏ k ∈ Finset.range i, F k k)) (lo := 0) (n := n)
        (body := fun i prod => do
          let x ← o.2.get i i
          S.mulA prod x) (s := p) (by simpa using hp) (fun i t _ hi ht => by
            refine Out.bind (c2.get (by omega) (by omega) trivial) fun x hx => ?_
            rw [Finset.prod_range_succ]
            exact hS.mulA ht hx)
      rw [zero_add] at e
      refine Out.bind e fun t ht => ?_
      have hs0 : s ≠ 0 := by
        rintro rfl
        simp at c3
      refine (hS.div ht c1 hs0).mono fun t ht => ?_
      rw [c4]
      rw [div_eq_iff hs0 |>.mpr (show ∏ k ∈ Finset.range n, F k k = s * (∏ k ∈ Finset.range n, F k k) * s by
        linear_combination -(∏ k ∈ Finset.range n, F k k) * c3)] at ht
      exact ht

end
end Mat
end CppMaths
