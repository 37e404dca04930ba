import Verif.Proofs.MatDet
/-!
# `determinant()` of integer matrices whose elimination needs no fractions
-/

namespace CppMaths
namespace Mat
variable {T : Type} {rel : T → ℤ → Prop} {A : Err → Prop} {S : Scalar T}

/-- An integer, seen as a rational number. -/
def Whole (rel : T → ℤ → Prop) : T → ℚ → Prop := fun t q => ∃ z : ℤ, q = z ∧ rel t z

theorem whole_ring (hS : S.ExactRing rel A) : S.ExactRing (Whole rel) A where
  ofInt n h := (hS.ofInt n h).mono fun _ ht => ⟨n, by simp, by simpa using ht⟩
  add := by rintro x y _ _ ⟨a, rfl, ha⟩ ⟨b, rfl, hb⟩; exact (hS.add ha hb).mono fun _ ht => ⟨a + b, by push_cast; rfl, ht⟩
  sub := by rintro x y _ _ ⟨a, rfl, ha⟩ ⟨b, rfl, hb⟩; exact (hS.sub ha hb).mono fun _ ht => ⟨a - b, by push_cast; rfl, ht⟩
  mul := by rintro x y _ _ ⟨a, rfl, ha⟩ ⟨b, rfl, hb⟩; exact (hS.mul ha hb).mono fun _ ht => ⟨a * b, by push_cast; rfl, ht⟩
  addA := by rintro x y _ _ ⟨a, rfl, ha⟩ ⟨b, rfl, hb⟩; exact (hS.addA ha hb).mono fun _ ht => ⟨a + b, by push_cast; rfl, ht⟩
  subA := by rintro x y _ _ ⟨a, rfl, ha⟩ ⟨b, rfl, hb⟩; exact (hS.subA ha hb).mono fun _ ht => ⟨a - b, by push_cast; rfl, ht⟩
  eq := by rintro x y _ _ ⟨a, rfl, ha⟩ ⟨b, rfl, hb⟩; exact (hS.eq ha hb).mono fun _ ht => by rw [ht]; norm_cast
  ne := by rintro x y _ _ ⟨a, rfl, ha⟩ ⟨b, rfl, hb⟩; exact (hS.ne ha hb).mono fun _ ht => by rw [ht]; norm_cast

theorem whole_div (hd : S.ExactWhole rel A) {x y : T} {a b q : ℚ} {z : ℤ} (hx : Whole rel x a) (hy : Whole rel y b) (hb : b ≠ 0)
    (hq : q = a / b) (hz : q = z) : Out A (S.div x y) (fun t => Whole rel t q) := by
  obtain ⟨a', rfl, ha⟩ := hx
  obtain ⟨b', rfl, hb'⟩ := hy
  have hb0 : b' ≠ 0 := by exact_mod_cast hb
  have : a' = z * b' := by
    have : (a' : ℚ) = z * b' := by rw [← hz, hq]; field_simp
    exact_mod_cast this
  rw [this] at ha
  exact (hd ha hb' hb0).mono fun t ht => ⟨z, hz, ht⟩

section
variable {n : Nat} {L U : Matrix (Fin n) (Fin n) ℚ}

/-- The matrix after `k` rounds of elimination. -/
def stage (L U : Matrix (Fin n) (Fin n) ℚ) (k i j : Nat) : ℚ :=
  if i < k then ext U i j else ∑ l ∈ Finset.Ico k n, ext L i l * ext U l j

variable (hL : ∀ i j, i < j → L i j = 0) (hL1 : ∀ i, L i i = 1) (hU : ∀ i j, j < i → U i j = 0)
include hL hL1 hU

theorem stage_zero {i j : Nat} (hi : i < n) (hj : j < n) : stage L U 0 i j = ext (L * U) i j := by
  rw [stage, if_neg (by omega), ext_lt _ hi hj, Matrix.mul_apply, ← Finset.range_eq_Ico, Finset.sum_range]
  refine Finset.sum_congr rfl fun l _ => ?_
  rw [ext_lt L hi l.2, ext_lt U l.2 hj]

omit hL hL1 hU in
theorem stage_step {k i j : Nat} (hk : k < n) (hi : k ≤ i) :
    stage L U k i j = ext L i k * ext U k j + ∑ l ∈ Finset.Ico (k + 1) n, ext L i l * ext U l j := by
  rw [stage, if_neg (by omega), Finset.sum_eq_sum_Ico_succ_bot hk]

theorem ext_upper {i j : Nat} (h : j < i) : ext U i j = 0 := by
  unfold ext
  split
  · next h' => exact hU ⟨i, h'.1⟩ ⟨j, h'.2⟩ h
  · rfl

theorem ext_lower {i j : Nat} (h : i < j) : ext L i j = 0 := by
  unfold ext
  split
  · next h' => exact hL ⟨i, h'.1⟩ ⟨j, h'.2⟩ h
  · rfl

/-- The pivot row. -/
theorem stage_row {k j : Nat} (hk : k < n) : stage L U k k j = ext U k j := by
  rw [stage_step hk le_rfl, ext_lt L hk hk, hL1, one_mul, Finset.sum_eq_zero, add_zero]
  intro l hl
  rw [ext_lower hL hL1 hU (by simp at hl; omega), zero_mul]

/-- The pivot column. -/
theorem stage_col {k i : Nat} (hk : k < n) (hi : k ≤ i) : stage L U k i k = ext L i k * ext U k k := by
  rw [stage_step hk hi, Finset.sum_eq_zero, add_zero]
  intro l hl
  rw [ext_upper hL hL1 hU (i := l) (by simp at hl; omega), mul_zero]

theorem stage_elim {k : Nat} (hk : k < n) (h0 : ext U k k ≠ 0) {i j : Nat} : elimF (stage L U k) k k i j = stage L U (k + 1) i j := by
  unfold elimF
  by_cases h : k < i ∧ i ≠ k ∧ k ≤ j
  · rw [if_pos h, stage_col hL hL1 hU hk (by omega), stage_row hL hL1 hU hk, stage_row hL hL1 hU hk, stage_step hk (by omega), stage, if_neg (by omega)]
    field_simp
    ring
  · rw [if_neg h]
    by_cases h1 : i ≤ k
    · rcases h1.eq_or_lt with rfl | h2
      · rw [stage_row hL hL1 hU hk, stage, if_pos (by omega)]
      · rw [stage, stage, if_pos h2, if_pos (by omega)]
    · rw [stage_step hk (by omega), stage, if_neg (by omega), ext_upper hL hL1 hU (i := k) (j := j) (by omega), mul_zero, zero_add]

omit hL hL1 hU in
theorem findPivot_here {K : Type} [CommRing K] {rel : T → K → Prop} (hS : S.ExactRing rel A) {m : Mat T} {r c k p fuel : Nat} {F : Nat → Nat → K}
    (hm : Full rel m r c F) (hk : k < r) (hp : p < c) (h0 : F k p ≠ 0) : Out A (findPivot S m k (fuel + 1) k p) (fun o => o = some (k, p)) := by
  unfold findPivot
  refine Out.bind (hm.get hk hp trivial) fun e he => Out.bind (eqZero_ok hS he) fun z hz => ?_
  cases z with
  | true => exact (h0 (hz.mp rfl)).elim
  | false => exact Out.ok rfl

theorem detLoop_lu (hS : S.ExactRing rel A) (hD : S.ExactWhole rel A) (hW : ∀ i k j, ∃ z : ℤ, L i k * U k j = z)
    (hne : ∀ i : Fin n, i.val + 1 < n → U i i ≠ 0) (q : Nat) : ∀ (k : Nat) (f : T) (m : Mat T),
    k + q = n → Full (Whole rel) m n n (stage L U k) →
    Out A (detLoop S q k k f m) (fun o => o.1 = f ∧ ∃ F, Full (Whole rel) o.2 n n F ∧ ∀ i, i < n → F i i = ext U i i) := by
  induction q with
  | zero =>
    intro k f m hk hm
    exact Out.ok ⟨rfl, _, hm, fun i hi => by rw [stage, if_pos (by omega)]⟩
  | succ q ih =>
    intro k f m hk hm
    have hkn : k < n := by omega
    unfold detLoop
    rw [if_neg (by rw [hm.2.1]; omega)]
    have hpiv : stage L U k k k = ext U k k := stage_row hL hL1 hU hkn
    by_cases h0 : ext U k k = 0
    · -- the last pivot may be zero
      refine Out.bind (findPivot_start (whole_ring hS) hm hkn hkn) fun o ho => ?_
      have hlast : k + 1 = n := by
        by_contra h
        rw [ext_lt U hkn hkn] at h0
        exact hne ⟨k, hkn⟩ (by simp; omega) h0
      match o, ho with
      | none, ho =>
        refine Out.ok ⟨rfl, _, hm, fun i hi => ?_⟩
        rcases Nat.lt_or_ge i k with h1 | h1
        · rw [stage, if_pos h1]
        · obtain rfl : i = k := by omega
          exact hpiv
      | some (i, p), ho =>
        obtain ⟨a1, a2, a3, a4, a5, a6, a7⟩ := ho
        obtain rfl : i = k := by omega
        obtain rfl : p = i := by omega
        exact (a5 (hpiv.trans h0)).elim
    · refine Out.bind (findPivot_here (whole_ring hS) hm hkn hkn (by rw [hpiv]; exact h0)) fun o ho => ?_
      subst ho
      dsimp only
      rw [if_neg (by simp)]
      refine Out.bind (Out.ok rfl) fun o ho => ?_
      subst ho
      refine Out.bind (detEliminate_of (whole_ring hS) hm hkn hkn le_rfl hkn ?_) fun m' hm' => ?_
      · intro i j h1 h2 h3 h4 x d hx hd
        obtain ⟨z, hz⟩ := hW ⟨i, h2⟩ ⟨k, hkn⟩ ⟨j, h4⟩
        rw [hpiv] at hd ⊢
        refine whole_div hD (z := z) hx hd h0 rfl ?_
        rw [stage_col hL hL1 hU hkn h1.le, stage_row hL hL1 hU hkn, ← hz, ext_lt L h2 hkn, ext_lt U hkn h4]
        field_simp
      · refine ih (k + 1) f m' (by omega) (hm'.weaken fun i j _ _ _ => ⟨trivial, stage_elim hL hL1 hU hkn h0⟩)

theorem determinant_lu (hS : S.ExactRing rel A) (hM : S.ExactMulA rel A) (hD : S.ExactWhole rel A) (hW : ∀ i k j, ∃ z : ℤ, L i k * U k j = z)
    (hne : ∀ i : Fin n, i.val + 1 < n → U i i ≠ 0) {m : Mat T} {M : Matrix (Fin n) (Fin n) ℤ} (hm : Is rel m M)
    (hLU : M.map (fun z => (z : ℚ)) = L * U) : Out A (determinant S m) (fun t => rel t M.det) := by
  have hdet : (M.det : ℚ) = ∏ i, U i i := by
    have h1 : (M.map (Int.castRingHom ℚ)).det = (M.det : ℚ) := by
      rw [← RingHom.mapMatrix_apply, ← RingHom.map_det]; rfl
    have h2 : M.map (Int.castRingHom ℚ) = L * U := hLU
    rw [← h1, h2, Matrix.det_mul, Matrix.det_of_lowerTriangular L (fun i j hij => hL i j hij),
      Matrix.det_of_upperTriangular (fun i j hij => hU i j hij)]
    simp [hL1]
  have hwhole : Is (Whole rel) m (L * U) := by
    refine ⟨hm.1, hm.2.1, hm.2.2.1, fun i j => ?_⟩
    obtain ⟨t, h1, h2⟩ := hm.2.2.2 i j
    refine ⟨t, h1, M i j, ?_, h2⟩
    rw [← hLU]; rfl
  have hback : ∀ t, Whole rel t (∏ i, U i i) → rel t M.det := by
    rintro t ⟨z, h1, h2⟩
    rw [← hdet] at h1
    have : M.det = z := by exact_mod_cast h1
    rwa [this]
  unfold determinant
  simp only [hm.1, hm.2.1, ne_eq, not_true_eq_false, if_false]
  by_cases h1 : n = 1
  · subst h1
    rw [if_pos rfl]
    exact data0_ok hm
  · rw [if_neg h1]
    by_cases h2 : n = 2
    · subst h2
      rw [if_pos rfl]
      exact det2_ok hS hm
    · rw [if_neg h2]
      refine Out.bind (copy_ok hwhole.full) fun tmp htmp => ?_
      refine Out.bind (hS.ofInt 1 (.inr (.inl rfl))) fun f hf => ?_
      rw [htmp.1]
      refine Out.bind (detLoop_lu hL hL1 hU hS hD hW hne n 0 f tmp (by omega)
        (htmp.weaken fun i j hi hj _ => ⟨trivial, (stage_zero hL hL1 hU hi hj).symm⟩)) fun o ho => ?_
      obtain ⟨c1, F, c2, c3⟩ := ho
      refine Out.bind (hS.ofInt 1 (.inr (.inl rfl))) fun p hp => ?_
      rw [c2.1]
      have e := forUp_ok (A := A) (Inv := fun i t => Whole rel t (∏ k ∈ Finset.range i, F k k)) (lo := 0) (n := n)
        (body := fun i prod => do
          let x ← o.2.get i i
          S.mulA prod x) (s := p) ⟨1, by simp, by simpa using hp⟩ (fun i t _ hi ht => by
            refine Out.bind (c2.get (by omega) (by omega) trivial) fun x hx => ?_
            rw [Finset.prod_range_succ]
            obtain ⟨a, a1, a2⟩ := ht
            obtain ⟨b, b1, b2⟩ := hx
            exact (hM a2 b2).mono fun t ht => ⟨a * b, by rw [a1, b1]; push_cast; rfl, ht⟩)
      rw [zero_add] at e
      refine Out.bind e fun t ht => ?_
      rw [c1]
      have hprod : ∏ k ∈ Finset.range n, F k k = ∏ i, U i i := by
        rw [Finset.prod_range]
        exact Finset.prod_congr rfl fun i _ => by rw [c3 i i.2, ext_fin]
      rw [hprod, ← hdet] at ht
      obtain ⟨z, z1, z2⟩ := ht
      have : z = M.det := by exact_mod_cast z1.symm
      subst this
      exact hD (a := M.det) (b := 1) (by simpa using z2) (by simpa using hf) one_ne_zero

end
end Mat
end CppMaths
