import Verif.Proofs.MatRref
import Verif.Spec.Solve
import Mathlib.LinearAlgebra.Matrix.Rank
/-!
# Linear systems and rank: facts about reduced row echelon forms
-/

namespace CppMaths
variable {K : Type} [Field K] {r c d : Nat}

theorem exists_lead {N : Matrix (Fin r) (Fin c) K} {i : Fin r} (h : N i ≠ 0) : ∃ j, Leads N i j := by
  classical
  have hne : ∃ j : Nat, ∃ h : j < c, N i ⟨j, h⟩ ≠ 0 := by
    by_contra hn
    push Not at hn
    exact h (funext fun j => hn j.1 j.2)
  obtain ⟨hj, h1⟩ := Nat.find_spec hne
  refine ⟨⟨Nat.find hne, hj⟩, h1, fun j' hj' => ?_⟩
  by_contra hn
  exact Nat.find_min hne hj' ⟨j'.2, hn⟩

theorem Leads.ne_zero {N : Matrix (Fin r) (Fin c) K} {i : Fin r} {j : Fin c} (h : Leads N i j) : N i ≠ 0 := fun h0 => h.1 (by rw [h0]; rfl)

/-- In reduced row echelon form the nonzero rows come first. -/
theorem IsRref.zero_below {N : Matrix (Fin r) (Fin c) K} (h : IsRref N) {i i' : Fin r} (hi : i < i') (h0 : N i = 0) : N i' = 0 := by
  by_contra hn
  obtain ⟨j', hj'⟩ := exists_lead hn
  obtain ⟨j, _, hj⟩ := h.stairs hi hj'
  exact hj.ne_zero h0

/-- The nonzero rows are linearly independent. -/
theorem IsRref.independent {N : Matrix (Fin r) (Fin c) K} (h : IsRref N) : LinearIndependent K (fun i : {i // N i ≠ 0} => N i.1) := by
  classical
  rw [Fintype.linearIndependent_iff]
  intro g hg i
  obtain ⟨j, hj⟩ := exists_lead i.2
  have := congrFun hg j
  rw [Finset.sum_apply, Finset.sum_eq_single i] at this
  · simpa [h.one hj] using this
  · intro k _ hk
    have : N k.1 j = 0 := h.alone hj fun e => hk (Subtype.ext e)
    simp [this]
  · intro hn; exact absurd (Finset.mem_univ i) hn

theorem IsRref.rank {N : Matrix (Fin r) (Fin c) K} (h : IsRref N) : N.rank = Nat.card {i // N i ≠ 0} := by
  classical
  rw [Matrix.rank_eq_finrank_span_row]
  have e : Submodule.span K (Set.range N.row) = Submodule.span K (Set.range fun i : {i // N i ≠ 0} => N i.1) := by
    refine le_antisymm (Submodule.span_le.mpr ?_) (Submodule.span_mono ?_)
    · rintro _ ⟨i, rfl⟩
      by_cases h0 : N i = 0
      · show N i ∈ _
        rw [h0]; exact Submodule.zero_mem _
      · exact Submodule.subset_span ⟨⟨i, h0⟩, rfl⟩
    · rintro _ ⟨i, rfl⟩
      exact ⟨i.1, rfl⟩
  rw [e, finrank_span_eq_card h.independent, Nat.card_eq_fintype_card]

/-- Row `i` of a reduced row echelon form is nonzero exactly if `i` is below the rank. -/
theorem IsRref.ne_zero_iff {N : Matrix (Fin r) (Fin c) K} (h : IsRref N) (i : Fin r) : N i ≠ 0 ↔ i.val < N.rank := by
  classical
  rw [h.rank, Nat.card_eq_fintype_card, Fintype.card_subtype]
  constructor
  · intro hi
    have hsub : Finset.Iic i ⊆ Finset.univ.filter fun i => N i ≠ 0 := by
      intro k hk
      rw [Finset.mem_Iic] at hk
      rw [Finset.mem_filter]
      refine ⟨Finset.mem_univ _, fun h0 => ?_⟩
      rcases lt_or_eq_of_le hk with hlt | rfl
      · exact hi (h.zero_below hlt h0)
      · exact hi h0
    have := Finset.card_le_card hsub
    rw [Fin.card_Iic] at this
    omega
  · intro hlt h0
    have hsub : (Finset.univ.filter fun i => N i ≠ 0) ⊆ Finset.Iio i := by
      intro k hk
      rw [Finset.mem_filter] at hk
      rw [Finset.mem_Iio]
      by_contra hn
      rcases lt_or_eq_of_le (not_lt.mp hn) with hl | rfl
      · exact hk.2 (h.zero_below hl h0)
      · exact hk.2 h0
    have := Finset.card_le_card hsub
    rw [Fin.card_Iio] at this
    omega

theorem RowEquiv.rank {M N : Matrix (Fin r) (Fin c) K} (h : RowEquiv M N) : N.rank = M.rank := by
  have le : ∀ {M N : Matrix (Fin r) (Fin c) K}, RowEquiv M N → N.rank ≤ M.rank := by
    rintro M N ⟨P, Q, _, _, rfl⟩
    exact Matrix.rank_mul_le_right P M
  exact le_antisymm (le h) (le h.symm)

/-- The first columns of a reduced row echelon form. -/
theorem IsRref.left {L : Matrix (Fin r) (Fin (c + d)) K} (h : IsRref L) : IsRref (fun i (j : Fin c) => L i (Fin.castAdd d j)) := by
  have lead : ∀ {i : Fin r} {j : Fin c}, Leads (fun i (j : Fin c) => L i (Fin.castAdd d j)) i j ↔ Leads L i (Fin.castAdd d j) := by
    intro i j
    refine and_congr Iff.rfl ⟨fun hl j' hj' => ?_, fun hl j' hj' => hl _ hj'⟩
    have hlt : j'.1 < c := lt_trans (show j'.1 < j.1 from hj') j.2
    exact hl ⟨j'.1, hlt⟩ hj'
  refine ⟨fun hl => h.one (lead.mp hl), fun hl hne => h.alone (lead.mp hl) hne, fun {i i' j'} hi hl => ?_⟩
  obtain ⟨j, hj, hlj⟩ := h.stairs hi (lead.mp hl)
  have hlt : j.1 < c := lt_trans (show j.1 < j'.1 from hj) j'.2
  exact ⟨⟨j.1, hlt⟩, hj, lead.mpr hlj⟩

/-- The solution in which the variable of a leading entry is the right hand side of that row, and all others are zero. -/
noncomputable def basicSolution (N : Matrix (Fin r) (Fin c) K) (w : Fin r → K) (j : Fin c) : K := by
  classical exact if h : ∃ i, Leads N i j then w h.choose else 0

theorem IsRref.lead_row {N : Matrix (Fin r) (Fin c) K} (h : IsRref N) {i i' : Fin r} {j : Fin c} (h1 : Leads N i j) (h2 : Leads N i' j) :
    i = i' := by
  by_contra hne
  exact h1.1 (h.alone h2 hne)

theorem IsRref.basic {N : Matrix (Fin r) (Fin c) K} (h : IsRref N) {w : Fin r → K} {i : Fin r} {j : Fin c} (hl : Leads N i j) :
    basicSolution N w j = w i := by
  classical
  unfold basicSolution
  have hex : ∃ i, Leads N i j := ⟨i, hl⟩
  rw [dif_pos hex, h.lead_row hex.choose_spec hl]

theorem IsRref.basic_solves {N : Matrix (Fin r) (Fin c) K} (h : IsRref N) {w : Fin r → K} (hw : ∀ i, N i = 0 → w i = 0) :
    N.mulVec (basicSolution N w) = w := by
  classical
  funext i
  by_cases h0 : N i = 0
  · rw [hw i h0, Matrix.mulVec, h0, zero_dotProduct]
  · obtain ⟨j, hj⟩ := exists_lead h0
    rw [Matrix.mulVec, dotProduct, Finset.sum_eq_single j]
    · rw [h.one hj, h.basic hj, one_mul]
    · intro j' _ hne
      by_cases hex : ∃ i', Leads N i' j'
      · obtain ⟨i', hi'⟩ := hex
        have : i ≠ i' := fun e => hne (by rw [← e] at hi'; exact hi'.unique hj)
        rw [h.alone hi' this, zero_mul]
      · unfold basicSolution
        rw [dif_neg hex, mul_zero]
    · intro hn; exact absurd (Finset.mem_univ j) hn

theorem zero_of_solves {N : Matrix (Fin r) (Fin c) K} {w : Fin r → K} {x : Fin c → K} (hx : N.mulVec x = w) {i : Fin r} (h0 : N i = 0) :
    w i = 0 := by
  rw [← hx, Matrix.mulVec, h0, zero_dotProduct]

/-- Solutions are unique exactly if the rank is the number of unknowns. -/
theorem injective_iff_rank (M : Matrix (Fin r) (Fin c) K) : (∀ x, M.mulVec x = 0 → x = 0) ↔ M.rank = c := by
  have h := M.mulVecLin.finrank_range_add_finrank_ker
  rw [Module.finrank_pi, Fintype.card_fin] at h
  rw [Matrix.rank]
  have e : (∀ x, M.mulVec x = 0 → x = 0) ↔ LinearMap.ker M.mulVecLin = ⊥ := by
    rw [LinearMap.ker_eq_bot']
    rfl
  rw [e, ← Submodule.finrank_eq_zero (R := K)]
  omega

theorem det_ne_zero_iff_rank {n : Nat} (M : Matrix (Fin n) (Fin n) K) : M.det ≠ 0 ↔ M.rank = n := by
  rw [← injective_iff_rank]
  constructor
  · intro h x hx
    exact Matrix.eq_zero_of_mulVec_eq_zero h hx
  · intro h h0
    obtain ⟨v, hv, hv0⟩ := Matrix.exists_mulVec_eq_zero_iff.mpr h0
    exact hv (h v hv0)

theorem beside_split (L : Matrix (Fin r) (Fin (c + d)) K) :
    L = beside (fun i (j : Fin c) => L i (Fin.castAdd d j)) (fun i (j : Fin d) => L i (Fin.natAdd c j)) := by
  funext i j
  refine Fin.addCases (fun j => ?_) (fun j => ?_) j
  · simp [beside]
  · simp [beside]

theorem mul_beside (P : Matrix (Fin r) (Fin r) K) (M : Matrix (Fin r) (Fin c) K) (B : Matrix (Fin r) (Fin d) K) :
    P * beside M B = beside (P * M) (P * B) := by
  ext i j
  refine Fin.addCases (fun j => ?_) (fun j => ?_) j
  · simp [beside, Matrix.mul_apply]
  · simp [beside, Matrix.mul_apply]

theorem beside_inj {M N : Matrix (Fin r) (Fin c) K} {B W : Matrix (Fin r) (Fin d) K} (h : beside M B = beside N W) : M = N ∧ B = W := by
  constructor
  · ext i j
    have := congrFun (congrFun h i) (Fin.castAdd d j)
    simpa [beside] using this
  · ext i j
    have := congrFun (congrFun h i) (Fin.natAdd c j)
    simpa [beside] using this

theorem isRref_one_beside {n : Nat} (W : Matrix (Fin n) (Fin d) K) : IsRref (beside (1 : Matrix (Fin n) (Fin n) K) W) := by
  have lead : ∀ {i : Fin n} {j : Fin (n + d)}, Leads (beside (1 : Matrix (Fin n) (Fin n) K) W) i j ↔ j = Fin.castAdd d i := by
    have hd : ∀ i : Fin n, Leads (beside (1 : Matrix (Fin n) (Fin n) K) W) i (Fin.castAdd d i) := by
      intro i
      refine ⟨by simp [beside], fun j' hj' => ?_⟩
      have hlt : j'.1 < i.1 := hj'
      have e : j' = Fin.castAdd d ⟨j'.1, hlt.trans i.2⟩ := rfl
      rw [e]
      simp only [beside, Matrix.of_apply, Fin.append_left]
      exact Matrix.one_apply_ne (fun h => by rw [Fin.ext_iff] at h; simp at h; omega)
    exact fun {i j} => ⟨fun h => h.unique (hd i), fun h => h ▸ hd i⟩
  refine ⟨fun {i j} h => ?_, fun {i j i'} h hne => ?_, fun {i i' j'} hi h => ?_⟩
  · rw [lead.mp h]; simp [beside]
  · rw [lead.mp h]; simp [beside, hne]
  · rw [lead.mp h]
    exact ⟨Fin.castAdd d i, hi, lead.mpr rfl⟩

end CppMaths
