import Verif.Proofs.Machine
import Verif.Proofs.MatCofactor
import Mathlib.LinearAlgebra.Matrix.AbsoluteValue
/-!
# Matrices of machine integers; the matrix product in terms of the dot product
-/

namespace CppMaths

theorem forUp_succ_last {ε σ : Type} {body : Nat → σ → Except ε σ} : ∀ (n lo : Nat) (s : σ),
    forUp lo (n + 1) body s = (forUp lo n body s >>= fun s => body (lo + n) s) := by
  intro n
  induction n with
  | zero =>
    intro lo s
    simp only [forUp, add_zero]
    rw [show (do let s ← (Except.ok s : Except ε σ); body lo s) = body lo s from rfl]
    cases body lo s <;> rfl
  | succ n ih =>
    intro lo s
    rw [forUp]
    conv_rhs => rw [forUp]
    cases h : body lo s with
    | ok s' =>
      have := ih (lo + 1) s'
      rw [show lo + 1 + n = lo + (n + 1) by omega] at this
      exact this
    | error e => rfl

theorem forUp_error {ε σ : Type} {body : Nat → σ → Except ε σ} {s : σ} {e : ε} {n : Nat} : ∀ m, n ≤ m →
    forUp 0 n body s = .error e → forUp 0 m body s = .error e := by
  intro m hm h
  induction hm with
  | refl => exact h
  | step _ ih => rw [forUp_succ_last, ih]; rfl

namespace Mat
variable {T : Type}

/-- `Is` without a relation: the object holds the entries of `M`. -/
theorem is_get {r c : Nat} {m : Mat T} {M : Matrix (Fin r) (Fin c) T} (h : Is (fun t k => t = k) m M) (i : Fin r) (j : Fin c) :
    m.data[i.val * c + j.val]? = some (some (M i j)) := by
  obtain ⟨t, h1, rfl⟩ := h.2.2.2 i j
  exact h1

theorem Is.fullO {r c : Nat} {m : Mat T} {M : Matrix (Fin r) (Fin c) T} (h : Is (fun t k => t = k) m M) :
    Full (fun t (k : Option T) => k = some t) m r c (fun i j => if h : i < r ∧ j < c then some (M ⟨i, h.1⟩ ⟨j, h.2⟩) else none) :=
  ⟨h.1, h.2.1, h.2.2.1, fun i j hi hj _ => ⟨M ⟨i, hi⟩ ⟨j, hj⟩, is_get h ⟨i, hi⟩ ⟨j, hj⟩, by simp [hi, hj]⟩⟩

/-- The body of the loop of `Vec.dot`. -/
def dotBody (S : Scalar T) (x y : List T) : Nat → T → Res T := fun i r => do
  let a ← Vec.get x i
  let b ← Vec.get y i
  let p ← S.mul a b
  S.addA r p

/-- Every entry of a product is what the dot product of the row and the column returns, failures included. -/
theorem mul_dot (S : Scalar T) {r n c : Nat} {a b : Mat T} {M : Matrix (Fin r) (Fin n) T} {N : Matrix (Fin n) (Fin c) T}
    (ha : Is (fun t k => t = k) a M) (hb : Is (fun t k => t = k) b N) :
    Out (fun e => S.ofInt 0 = .error e ∨ ∃ i j, Vec.dot S (rowList M i) (colList N j) = .error e) (mul S a b)
      (fun m => ∃ P : Matrix (Fin r) (Fin c) T, Is (fun t k => t = k) m P ∧
        ∀ i j, Vec.dot S (rowList M i) (colList N j) = .ok (P i j)) := by
  unfold mul
  rw [ha.1, ha.2.1, hb.1, hb.2.1, if_neg (by simp)]
  cases h0 : S.ofInt 0 with
  | error e => exact Out.err (.inl rfl)
  | ok z =>
    rw [bind_ok]
    -- the accumulator, as the loop of the dot product has it
    let acc : Nat → Nat → Nat → Res T := fun i j k =>
      if h : i < r ∧ j < c then forUp 0 k (dotBody S (rowList M ⟨i, h.1⟩) (colList N ⟨j, h.2⟩)) z else .ok z
    have hdot : ∀ (i : Fin r) (j : Fin c), Vec.dot S (rowList M i) (colList N j) = acc i j n := fun i j => by
      have hij : i.val < r ∧ j.val < c := ⟨i.2, j.2⟩
      simp only [acc, dif_pos hij]
      unfold Vec.dot
      rw [if_neg (by simp [rowList, colList]), h0, bind_ok]
      simp only [rowList, List.length_ofFn]
      rfl
    obtain ⟨f, f1, f2⟩ := (filled_ok (A := Never) (rel := fun t (k : Res T) => k = .ok t) (r := r) (c := c) (v := z) (k := .ok z) rfl).never
    rw [f1, bind_ok]
    have := mulLoop_gen (A := fun e => ∃ i j, Vec.dot S (rowList M i) (colList N j) = .error e) (S := S)
      (rel := fun t (k : Res T) => k = .ok t) (acc := acc) ha.fullO hb.fullO (f2.weaken fun i j hi hj _ => ⟨trivial, by
        simp only [acc, hi, hj, and_self, dif_pos]; rfl⟩) (fun i k j x y z' hi hk hj hx hy hz => by
        have hij : i < r ∧ j < c := ⟨hi, hj⟩
        simp only [hi, hk, hj, and_self, dif_pos, Option.some.injEq] at hx hy
        have hnext : acc i j (k + 1) = (S.mul x y >>= fun p => S.addA z' p) := by
          simp only [acc, dif_pos hij] at hz ⊢
          rw [forUp_succ_last, hz, bind_ok, zero_add]
          simp [dotBody, Vec.get, rowList, colList, hk, hx, hy]
        rw [← hnext]
        cases hc : acc i j (k + 1) with
        | ok t => exact Out.ok rfl
        | error e =>
          refine Out.err ⟨⟨i, hi⟩, ⟨j, hj⟩, ?_⟩
          rw [hdot]
          simp only [acc, dif_pos hij] at hc ⊢
          exact forUp_error n (by omega) hc)
    refine Or.imp ?_ ?_ this
    · rintro ⟨m, m1, m2⟩
      refine ⟨m, m1, fun i j => (m2.2.2.2 i j i.2 j.2 trivial).choose, ⟨m2.1, m2.2.1, m2.2.2.1, fun i j => ⟨_, (m2.2.2.2 i j i.2 j.2 trivial).choose_spec.1, rfl⟩⟩, fun i j => ?_⟩
      rw [hdot]
      exact (m2.2.2.2 i j i.2 j.2 trivial).choose_spec.2
    · rintro ⟨e, e1, e2⟩
      exact ⟨e, e1, .inr e2⟩

theorem mulAssign_eq_mul (S : Scalar T) (a b : Mat T) : mulAssign S a b = mul S a b := by
  unfold mulAssign mul
  split
  · rfl
  · cases S.ofInt 0 with
    | error e => rfl
    | ok z =>
      simp only [bind_ok]
      cases filled a.rows b.cols z with
      | error e => rfl
      | ok m =>
        simp only [bind_ok, swap]
        generalize forUp 0 a.rows _ m = q
        cases q <;> rfl

/-! ### Cofactor expansions -/

theorem det_bound {n : Nat} {B : Int} {M : Matrix (Fin n) (Fin n) Int} (h : ∀ i j, |M i j| ≤ B) : |M.det| ≤ n.factorial * B ^ n := by
  have := Matrix.det_le (A := M) (abv := AbsoluteValue.abs) (x := B) h
  simpa using this

theorem is_mach {n k : Nat} {lim : Int} {m : Mat Int} {M : Matrix (Fin n) (Fin k) Int} (h : Is (fun t k => t = k) m M)
    (hb : ∀ i j, |M i j| ≤ lim) : Is (MachRel lim) m M :=
  ⟨h.1, h.2.1, h.2.2.1, fun i j => ⟨M i j, is_get h i j, rfl, by have := abs_le.mp (hb i j); omega, (abs_le.mp (hb i j)).2⟩⟩

theorem det2_machine {lim B : Int} {m : Mat Int} {M : Matrix (Fin 2) (Fin 2) Int} (h : Is (fun t k => t = k) m M)
    (hb : ∀ i j, |M i j| ≤ B) (hlim : 2 * B ^ 2 ≤ lim) : det2 (Scalar.machine lim) m = .ok M.det := by
  have hf := h.full
  have hmul : ∀ i j k l, |M i j * M k l| ≤ B ^ 2 := fun i j k l => by
    rw [abs_mul, pow_two]; exact mul_le_mul (hb _ _) (hb _ _) (abs_nonneg _) ((abs_nonneg _).trans (hb i j))
  have hB : (0 : Int) ≤ B ^ 2 := by positivity
  have e00 : m.dataAt 0 = .ok (M 0 0) := by have := is_get h 0 0; simp at this; simp [dataAt, this]
  have e01 : m.dataAt 1 = .ok (M 0 1) := by have := is_get h 0 1; simp at this; simp [dataAt, this]
  have e10 : m.dataAt 2 = .ok (M 1 0) := by have := is_get h 1 0; simp at this; simp [dataAt, this]
  have e11 : m.dataAt 3 = .ok (M 1 1) := by have := is_get h 1 1; simp at this; simp [dataAt, this]
  have s1 : (Scalar.machine lim).mul (M 0 0) (M 1 1) = .ok (M 0 0 * M 1 1) := signed_ok (by have := hmul 0 0 1 1; omega)
  have s2 : (Scalar.machine lim).mul (M 0 1) (M 1 0) = .ok (M 0 1 * M 1 0) := signed_ok (by have := hmul 0 1 1 0; omega)
  have s3 : (Scalar.machine lim).sub (M 0 0 * M 1 1) (M 0 1 * M 1 0) = .ok (M 0 0 * M 1 1 - M 0 1 * M 1 0) :=
    signed_ok ((abs_sub _ _).trans (by have := hmul 0 0 1 1; have := hmul 0 1 1 0; omega))
  rw [Matrix.det_fin_two]
  simp only [det2, e00, e01, e10, e11, s1, s2, s3, bind_ok]

/-- One round of a cofactor expansion. -/
theorem term_machine {lim : Int} {result x d : Int} {j : Nat} {minor : Res (Mat Int)} {rec : Mat Int → Res Int}
    {get : Res Int} (hget : get = .ok x) {P : Mat Int → Prop} (hmin : Out Never minor P) (hrec : ∀ m, P m → rec m = .ok d)
    (h0 : 0 ≤ lim) (h1 : |x * d| ≤ lim) (h2 : |result| + |x * d| ≤ lim) :
    Out Never (do
        let e ← get
        let nz ← neZero (Scalar.machine lim) e
        if nz then do
          let e ← get
          let sub ← minor
          let d ← rec sub
          let p ← (Scalar.machine lim).mul e d
          if j % 2 = 1 then (Scalar.machine lim).subA result p else (Scalar.machine lim).addA result p
        else return result) (fun r => r = result + (-1) ^ j * x * d) := by
  obtain ⟨m', m1, m2⟩ := hmin.never
  have hz : neZero (Scalar.machine lim) x = .ok (decide (x ≠ 0)) := by
    have : (Scalar.machine lim).ofInt 0 = .ok 0 := signed_ok (by simpa using h0)
    unfold neZero
    rw [this, bind_ok]; rfl
  rw [hget]
  simp only [bind_ok, hz]
  by_cases hx : x = 0
  · simp only [hx, ne_eq, not_true_eq_false, decide_false, Bool.false_eq_true, if_false, mul_zero, zero_mul, add_zero]
    exact Out.ok rfl
  · rw [if_pos (by simpa using hx), m1]
    have hm : (Scalar.machine lim).mul x d = .ok (x * d) := signed_ok h1
    simp only [bind_ok, hrec m' m2, hm]
    by_cases hj : j % 2 = 1
    · have : (-1 : Int) ^ j = -1 := Odd.neg_one_pow (Nat.odd_iff.mpr hj)
      rw [if_pos hj, this, show result + -1 * x * d = result - x * d by ring]
      exact .inl ⟨_, signed_ok ((abs_sub _ _).trans h2), rfl⟩
    · have : (-1 : Int) ^ j = 1 := Even.neg_one_pow (Nat.even_iff.mpr (by omega))
      rw [if_neg hj, this, one_mul]
      exact .inl ⟨_, signed_ok ((abs_add_le _ _).trans h2), rfl⟩

/-- Bounds for the partial sums of an expansion. -/
theorem expand_bound {n : Nat} {B lim : Int} (hB : 0 ≤ B) (hlim : ((n + 2).factorial : Int) * B ^ (n + 2) ≤ lim) {t : Nat → Int}
    (ht : ∀ j, |t j| ≤ B * ((n + 1).factorial * B ^ (n + 1))) {j : Nat} (hj : j < n + 2) :
    |∑ k ∈ Finset.range j, t k| + |t j| ≤ lim := by
  have h1 : |∑ k ∈ Finset.range j, t k| ≤ j * (B * ((n + 1).factorial * B ^ (n + 1))) := by
    refine (Finset.abs_sum_le_sum_abs _ _).trans ?_
    have := Finset.sum_le_card_nsmul (Finset.range j) (fun k => |t k|) _ (fun k _ => ht k)
    simpa using this
  have h2 : (0 : Int) ≤ B * ((n + 1).factorial * B ^ (n + 1)) := by positivity
  have h3 : ((j : Int) + 1) * (B * ((n + 1).factorial * B ^ (n + 1))) ≤ (n + 2) * (B * ((n + 1).factorial * B ^ (n + 1))) :=
    mul_le_mul_of_nonneg_right (by omega) h2
  have h4 : ((n : Int) + 2) * (B * ((n + 1).factorial * B ^ (n + 1))) = (n + 2).factorial * B ^ (n + 2) := by
    rw [Nat.factorial_succ (n + 1)]; push_cast; ring
  have := ht j
  nlinarith

theorem sub_bound {n : Nat} {B lim : Int} (hB : 1 ≤ B) (hlim : ((n + 2).factorial : Int) * B ^ (n + 2) ≤ lim) :
    ((n + 1).factorial : Int) * B ^ (n + 1) ≤ lim := by
  refine le_trans ?_ hlim
  have h1 : ((n + 1).factorial : Int) ≤ (n + 2).factorial := by exact_mod_cast Nat.factorial_le (by omega)
  have h2 : B ^ (n + 1) ≤ B ^ (n + 2) := pow_le_pow_right₀ hB (by omega)
  exact mul_le_mul h1 h2 (by positivity) (by positivity)

theorem rowCofactorF_machine {lim B : Int} (hB : 1 ≤ B) : ∀ (n : Nat) (fuel : Nat), n < fuel → ∀ (m : Mat Int)
    (M : Matrix (Fin (n + 1)) (Fin (n + 1)) Int), Is (fun t k => t = k) m M → (∀ i j, |M i j| ≤ B) →
    ((n + 1).factorial : Int) * B ^ (n + 1) ≤ lim → rowCofactorF (Scalar.machine lim) fuel m = .ok M.det := by
  intro n
  induction n with
  | zero =>
    intro fuel hf m M hm _ _
    obtain ⟨f, rfl⟩ : ∃ f, fuel = f + 1 := ⟨fuel - 1, by omega⟩
    unfold rowCofactorF
    simp only [hm.1, hm.2.1, ne_eq, not_true_eq_false, if_false, zero_add, if_true]
    obtain ⟨t, h1, h2⟩ := (data0_ok (A := Never) hm).never
    rw [h1, h2]
  | succ n ih =>
    intro fuel hf m M hm hb hlim
    obtain ⟨f, rfl⟩ : ∃ f, fuel = f + 1 := ⟨fuel - 1, by omega⟩
    unfold rowCofactorF
    simp only [hm.1, hm.2.1, ne_eq, not_true_eq_false, if_false]
    rw [if_neg (by omega)]
    have hlim0 : 0 ≤ lim := le_trans (by positivity) hlim
    by_cases h2 : n + 1 + 1 = 2
    · obtain rfl : n = 0 := by omega
      rw [if_pos h2]
      exact det2_machine hm hb (by simpa using hlim)
    · rw [if_neg h2]
      have hz : (Scalar.machine lim).ofInt 0 = .ok 0 := signed_ok (by simpa using hlim0)
      rw [hz, bind_ok]
      let t : Nat → Int := fun j => if h : j < n + 1 + 1 then
        (-1) ^ j * M 0 ⟨j, h⟩ * (M.submatrix Fin.succ (Fin.succAbove ⟨j, h⟩)).det else 0
      have hdet : M.det = ∑ j ∈ Finset.range (n + 1 + 1), t j := by
        rw [Matrix.det_succ_row_zero, Finset.sum_range]
        refine Finset.sum_congr rfl fun j _ => ?_
        have hj : j.val < n + 1 + 1 := j.2
        simp only [t, hj, dif_pos]
      have ht : ∀ j, |t j| ≤ B * ((n + 1).factorial * B ^ (n + 1)) := fun j => by
        by_cases h : j < n + 1 + 1
        · simp only [t, dif_pos h]
          rw [abs_mul, abs_mul, abs_pow, abs_neg, abs_one, one_pow, one_mul]
          exact mul_le_mul (hb _ _) (det_bound fun i j => hb _ _) (abs_nonneg _) (by omega)
        · simp only [t, dif_neg h, abs_zero]; positivity
      rw [hdet]
      have := forUp_ok (A := Never) (Inv := fun j s => s = ∑ k ∈ Finset.range j, t k) (lo := 0) (n := n + 1 + 1)
        (body := fun j result => do
          let e ← m.get 0 j
          let nz ← neZero (Scalar.machine lim) e
          if nz then do
            let e ← m.get 0 j
            let sub ← firstMinor m 0 j
            let d ← rowCofactorF (Scalar.machine lim) f sub
            let p ← (Scalar.machine lim).mul e d
            if (0 + j) % 2 = 1 then (Scalar.machine lim).subA result p else (Scalar.machine lim).addA result p
          else return result) (s := (0 : Int)) (by simp) (fun j s _ hj hs => by
            have hj' : j < n + 1 + 1 := by omega
            have htj : t j = (-1) ^ j * M 0 ⟨j, hj'⟩ * (M.submatrix Fin.succ (Fin.succAbove ⟨j, hj'⟩)).det := dif_pos hj'
            have hx : |M 0 ⟨j, hj'⟩ * (M.submatrix Fin.succ (Fin.succAbove ⟨j, hj'⟩)).det| = |t j| := by
              rw [htj, mul_assoc, abs_mul ((-1) ^ j), abs_pow, abs_neg, abs_one, one_pow, one_mul]
            have hsum := expand_bound (by omega) hlim ht hj'
            simp only [zero_add]
            refine (term_machine (x := M 0 ⟨j, hj'⟩) (d := (M.submatrix Fin.succ (Fin.succAbove ⟨j, hj'⟩)).det) ?_
              (firstMinor_is (A := Never) hm 0 ⟨j, hj'⟩) ?_ hlim0 ?_ ?_).mono fun r hr => ?_
            · obtain ⟨a, a1, a2⟩ := (hm.full.get (A := Never) (i := 0) (j := j) (by omega) hj' trivial).never
              rw [ext_lt M (by omega) hj'] at a2
              rw [a1, a2]; rfl
            · intro m' hm'
              exact ih f (by omega) m' _ (by simpa using hm') (fun a b => hb _ _) (sub_bound hB hlim)
            · rw [hx]; have := abs_nonneg (∑ k ∈ Finset.range j, t k); omega
            · rw [hx, hs]; exact hsum
            · rw [hr, Finset.sum_range_succ, htj, hs])
      rw [zero_add] at this
      obtain ⟨r, r1, r2⟩ := this.never
      rw [r1, r2]

theorem colCofactorF_machine {lim B : Int} (hB : 1 ≤ B) : ∀ (n : Nat) (fuel : Nat), n < fuel → ∀ (m : Mat Int)
    (M : Matrix (Fin (n + 1)) (Fin (n + 1)) Int), Is (fun t k => t = k) m M → (∀ i j, |M i j| ≤ B) →
    ((n + 1).factorial : Int) * B ^ (n + 1) ≤ lim → colCofactorF (Scalar.machine lim) fuel m = .ok M.det := by
  intro n
  induction n with
  | zero =>
    intro fuel hf m M hm _ _
    obtain ⟨f, rfl⟩ : ∃ f, fuel = f + 1 := ⟨fuel - 1, by omega⟩
    unfold colCofactorF
    simp only [hm.1, hm.2.1, ne_eq, not_true_eq_false, if_false, zero_add, if_true]
    obtain ⟨t, h1, h2⟩ := (data0_ok (A := Never) hm).never
    rw [h1, h2]
  | succ n ih =>
    intro fuel hf m M hm hb hlim
    obtain ⟨f, rfl⟩ : ∃ f, fuel = f + 1 := ⟨fuel - 1, by omega⟩
    unfold colCofactorF
    simp only [hm.1, hm.2.1, ne_eq, not_true_eq_false, if_false]
    rw [if_neg (by omega)]
    have hlim0 : 0 ≤ lim := le_trans (by positivity) hlim
    by_cases h2 : n + 1 + 1 = 2
    · obtain rfl : n = 0 := by omega
      rw [if_pos h2]
      exact det2_machine hm hb (by simpa using hlim)
    · rw [if_neg h2]
      have hz : (Scalar.machine lim).ofInt 0 = .ok 0 := signed_ok (by simpa using hlim0)
      rw [hz, bind_ok]
      let t : Nat → Int := fun j => if h : j < n + 1 + 1 then
        (-1) ^ j * M ⟨j, h⟩ 0 * (M.submatrix (Fin.succAbove ⟨j, h⟩) Fin.succ).det else 0
      have hdet : M.det = ∑ j ∈ Finset.range (n + 1 + 1), t j := by
        rw [Matrix.det_succ_column_zero, Finset.sum_range]
        refine Finset.sum_congr rfl fun j _ => ?_
        have hj : j.val < n + 1 + 1 := j.2
        simp only [t, hj, dif_pos]
      have ht : ∀ j, |t j| ≤ B * ((n + 1).factorial * B ^ (n + 1)) := fun j => by
        by_cases h : j < n + 1 + 1
        · simp only [t, dif_pos h]
          rw [abs_mul, abs_mul, abs_pow, abs_neg, abs_one, one_pow, one_mul]
          exact mul_le_mul (hb _ _) (det_bound fun i j => hb _ _) (abs_nonneg _) (by omega)
        · simp only [t, dif_neg h, abs_zero]; positivity
      rw [hdet]
      have := forUp_ok (A := Never) (Inv := fun j s => s = ∑ k ∈ Finset.range j, t k) (lo := 0) (n := n + 1 + 1)
        (body := fun i result => do
          let e ← m.get i 0
          let nz ← neZero (Scalar.machine lim) e
          if nz then do
            let e ← m.get i 0
            let sub ← firstMinor m i 0
            let d ← colCofactorF (Scalar.machine lim) f sub
            let p ← (Scalar.machine lim).mul e d
            if (i + 0) % 2 = 1 then (Scalar.machine lim).subA result p else (Scalar.machine lim).addA result p
          else return result) (s := (0 : Int)) (by simp) (fun j s _ hj hs => by
            have hj' : j < n + 1 + 1 := by omega
            have htj : t j = (-1) ^ j * M ⟨j, hj'⟩ 0 * (M.submatrix (Fin.succAbove ⟨j, hj'⟩) Fin.succ).det := dif_pos hj'
            have hx : |M ⟨j, hj'⟩ 0 * (M.submatrix (Fin.succAbove ⟨j, hj'⟩) Fin.succ).det| = |t j| := by
              rw [htj, mul_assoc, abs_mul ((-1) ^ j), abs_pow, abs_neg, abs_one, one_pow, one_mul]
            have hsum := expand_bound (by omega) hlim ht hj'
            simp only [add_zero]
            refine (term_machine (x := M ⟨j, hj'⟩ 0) (d := (M.submatrix (Fin.succAbove ⟨j, hj'⟩) Fin.succ).det) ?_
              (firstMinor_is (A := Never) hm ⟨j, hj'⟩ 0) ?_ hlim0 ?_ ?_).mono fun r hr => ?_
            · obtain ⟨a, a1, a2⟩ := (hm.full.get (A := Never) (i := j) (j := 0) hj' (by omega) trivial).never
              rw [ext_lt M hj' (by omega)] at a2
              rw [a1, a2]; rfl
            · intro m' hm'
              exact ih f (by omega) m' _ (by simpa using hm') (fun a b => hb _ _) (sub_bound hB hlim)
            · rw [hx]; have := abs_nonneg (∑ k ∈ Finset.range j, t k); omega
            · rw [hx, hs]; exact hsum
            · rw [hr, Finset.sum_range_succ, htj, hs])
      rw [zero_add] at this
      obtain ⟨r, r1, r2⟩ := this.never
      rw [r1, r2]

end Mat
end CppMaths
