import Verif.Proofs.Dominant
import Verif.Proofs.DoubleDet
import Mathlib.Algebra.Order.Ring.Pow
import Mathlib.Tactic.LinearCombination
/-!
# `determinant()` over `double` for matrices dominated by their diagonal
-/

namespace CppMaths
namespace Mat
open Double Dominant Matrix

/-- The entries of a matrix of finite numbers, with their bit patterns. -/
theorem full_bits {m : Mat Double} {r c : Nat} {V : Nat → Nat → ℚ} (hm : Full Denotes m r c V) :
    ∃ F, Full Bits m r c F ∧ ∀ i < r, ∀ j < c, (F i j).Denotes (V i j) := by
  classical
  have h : ∀ i j, ∃ t : Double, i < r → j < c → m.data[i * c + j]? = some (some t) ∧ t.Denotes (V i j) := by
    intro i j
    by_cases h : i < r ∧ j < c
    · obtain ⟨t, h1, h2⟩ := hm.2.2.2 i j h.1 h.2 trivial
      exact ⟨t, fun _ _ => ⟨h1, h2⟩⟩
    · exact ⟨.nan, fun h1 h2 => absurd ⟨h1, h2⟩ h⟩
  choose F hF using h
  exact ⟨F, ⟨hm.1, hm.2.1, hm.2.2.1, fun i j hi hj _ => ⟨_, (hF i j hi hj).1, rfl, (hF i j hi hj).2.1⟩⟩,
    fun i hi j hj => (hF i j hi hj).2⟩

theorem elim_aux1 {X T p : ℚ} (hT : 0 ≤ T) (h : |p - X| ≤ |X| / 2 ^ 53 + T) : |p| ≤ (1 + 1 / 2 ^ 53) * |X| + T := by
  have := abs_add_le X (p - X)
  rw [add_sub_cancel] at this
  linarith

theorem elim_aux2 {X T p q : ℚ} (hT : 0 ≤ T) (h : |p - X| ≤ |X| / 2 ^ 53 + T) (h2 : |q - p| ≤ |p| / 2 ^ 53 + T) :
    |q - X| ≤ (2 * (1 / 2 ^ 53) + (1 / 2 ^ 53) ^ 2) * |X| + 3 * T := by
  have h3 := elim_aux1 hT h
  have h4 := abs_sub_le q p X
  linarith

theorem elim_aux3 {X T q e : ℚ} (hT : 0 ≤ T) (h : |q - X| ≤ (2 * (1 / 2 ^ 53) + (1 / 2 ^ 53) ^ 2) * |X| + 3 * T) :
    |e - q| ≤ |e| + 2 * |X| + 3 * T := by
  have h5 : |e - q| ≤ |e| + |q| := abs_sub _ _
  have h6 := abs_add_le X (q - X)
  rw [add_sub_cancel] at h6
  have := abs_nonneg X
  linarith

theorem elim_aux4 {X T q e t : ℚ} (hT : 0 ≤ T) (h : |q - X| ≤ (2 * (1 / 2 ^ 53) + (1 / 2 ^ 53) ^ 2) * |X| + 3 * T)
    (h2 : |t - (e - q)| ≤ |e - q| / 2 ^ 53) :
    |t - (e - X)| ≤ 1 / 2 ^ 53 * |e| + 4 * (1 / 2 ^ 53) * |X| + 16 * T := by
  have h5 : |t - (e - X)| ≤ |t - (e - q)| + |q - X| := by
    have := abs_add_le (t - (e - q)) (X - q)
    rw [abs_sub_comm X] at this
    rwa [show t - (e - q) + (X - q) = t - (e - X) by ring] at this
  have h6 := elim_aux3 (e := e) hT h
  have h7 : |e - q| ≤ |e| + |X| + ((2 * (1 / 2 ^ 53) + (1 / 2 ^ 53) ^ 2) * |X| + 3 * T) := by
    have h5 : |e - q| ≤ |e| + |q| := abs_sub _ _
    have h6 := abs_add_le X (q - X)
    rw [add_sub_cancel] at h6
    linarith
  have := abs_nonneg X
  linarith

/-- The rounding of `y - v * x / d`. -/
theorem elim_err {v x d y : Double} {a b c e : ℚ} (hv : v.Denotes a) (hx : x.Denotes b) (hd : d.Denotes c) (hy : y.Denotes e)
    (h1 : |a * b| ≤ 2 ^ (1022 : Int)) (h2 : |a * b / c| ≤ 2 ^ (1020 : Int)) (h3 : |e| ≤ 2 ^ (1020 : Int)) (h4 : 2 ^ (-451 : Int) ≤ |c|) :
    ∃ t, (Double.sub y (Double.div (Double.mul v x) d)).Denotes t ∧
      |t - (e - a * b / c)| ≤ 1 / 2 ^ 53 * |e| + 4 * (1 / 2 ^ 53) * |a * b / c| + 2 ^ (-620 : Int) := by
  have hc0 : 0 < |c| := (two_zpow_pos _).trans_le h4
  have hc : c ≠ 0 := abs_pos.mp hc0
  obtain ⟨z1, e1⟩ := mul_denotes hv hx
  obtain ⟨p, hp⟩ := Vec.round_finite z1 (q := a * b) (h1.trans (zpow_le_zpow_right₀ (by norm_num) (by norm_num)))
  have hp' := (denotes_round hp).1
  rw [← e1] at hp
  obtain ⟨z2, e2⟩ := div_denotes hp hd hc
  have hinv : 1 / |c| ≤ 2 ^ (451 : Int) := by
    rw [div_le_iff₀ hc0]
    calc (1 : ℚ) = 2 ^ (451 : Int) * 2 ^ (-451 : Int) := by rw [← zpow_add₀ (by norm_num)]; norm_num
      _ ≤ _ := mul_le_mul_of_nonneg_left h4 (two_zpow_pos _).le
  have heta : eta * 2 ^ (451 : Int) = 2 ^ (-624 : Int) := by unfold eta; rw [← zpow_add₀ (by norm_num)]; norm_num
  have k1 : |p / c - a * b / c| ≤ |a * b / c| / 2 ^ 53 + 2 ^ (-624 : Int) := by
    rw [← sub_div, abs_div]
    calc |p - a * b| / |c| ≤ (|a * b| / 2 ^ 53 + eta) / |c| := div_le_div_of_nonneg_right hp' hc0.le
      _ = |a * b / c| / 2 ^ 53 + eta * (1 / |c|) := by rw [abs_div]; ring
      _ ≤ _ := by rw [← heta]; exact add_le_add_right (mul_le_mul_of_nonneg_left hinv eta_pos.le) _
  have t624 : (2 : ℚ) ^ (-624 : Int) ≤ 1 := by
    rw [show (1 : ℚ) = 2 ^ (0 : Int) by norm_num]; exact zpow_le_zpow_right₀ (by norm_num) (by norm_num)
  have big : (2 : ℚ) ^ (1023 : Int) = 8 * 2 ^ (1020 : Int) := by
    rw [show (1023 : Int) = 3 + 1020 by norm_num, zpow_add₀ (by norm_num)]; norm_num
  have one : (4 : ℚ) ≤ 2 ^ (1020 : Int) := by
    rw [show (4 : ℚ) = 2 ^ (2 : Int) by norm_num]; exact zpow_le_zpow_right₀ (by norm_num) (by norm_num)
  have heta2 : eta ≤ 2 ^ (-624 : Int) := by unfold eta; exact zpow_le_zpow_right₀ (by norm_num) (by norm_num)
  have t620 : (2 : ℚ) ^ (-620 : Int) = 16 * 2 ^ (-624 : Int) := by
    rw [show (-620 : Int) = 4 + -624 by norm_num, zpow_add₀ (by norm_num)]; norm_num
  have hT0 := (two_zpow_pos (-624)).le
  have lim : ∀ (z : Bool) {q : ℚ}, |q| ≤ 8 * 2 ^ (1020 : Int) → ∃ r, (Double.round z q).Denotes r := fun z q h =>
    Vec.round_finite z (h.trans big.ge)
  rw [t620]
  clear t620 heta hinv big h1 hp'
  generalize (2 : ℚ) ^ (-624 : Int) = T at *
  generalize (2 : ℚ) ^ (1020 : Int) = L at *
  generalize a * b / c = X at *
  have k2 := elim_aux1 hT0 k1
  obtain ⟨q, hq⟩ := lim z2 (q := p / c) (by have := abs_nonneg X; linarith)
  have hq' := (denotes_round hq).1
  rw [← e2] at hq
  have k3 := elim_aux2 hT0 k1 (hq'.trans (add_le_add_right heta2 _))
  obtain ⟨z3, e3⟩ := sub_denotes hy hq
  have k4 := elim_aux3 (e := e) hT0 k3
  obtain ⟨t, ht⟩ := lim z3 (q := e - q) (by linarith)
  rw [← e3] at ht
  refine ⟨t, ht, elim_aux4 hT0 k3 ?_⟩
  obtain ⟨a', b', ha', hb', h5⟩ := sub_err hy.1 hq.1 ht
  rwa [ha'.unique hy, hb'.unique hq] at h5

/-- Bounds on the columns (or rows) of a matrix of size `n`: the sums of the absolute values, and how much the diagonal exceeds the rest. -/
structure Bounds (n : Nat) (S δ : Nat → ℚ) (κ : ℚ) : Prop where
  size : n * κ ≤ 2 ^ 48
  low : ∀ j < n, 2 ^ (-450 : Int) ≤ δ j
  ratio : ∀ j < n, S j ≤ κ * δ j
  le : ∀ j < n, δ j ≤ S j
  high : ∏ j ∈ Finset.range n, (2 * S j + 1) ≤ 2 ^ (1020 : Int)

/-- The lower right part of size `l`. -/
def block (k l : Nat) (V : Nat → Nat → ℚ) : Matrix (Fin l) (Fin l) ℚ := fun i j => V (k + i) (k + j)

/-- Transposed or not. -/
def tr (t : Bool) {l : Nat} (A : Matrix (Fin l) (Fin l) ℚ) : Matrix (Fin l) (Fin l) ℚ := if t then Aᵀ else A

/-- What is known after `k` rounds. -/
def Kept (t : Bool) (S δ : Nat → ℚ) (k l : Nat) (V : Nat → Nat → ℚ) : Prop := ∀ j : Fin l,
  colSum (tr t (block k l V)) j ≤ (1 + 5 * (1 / 2 ^ 53)) ^ k * S (k + j) ∧
  δ (k + j) - 10 * (1 / 2 ^ 53) * k * S (k + j) ≤ margin (tr t (block k l V)) j

namespace Bounds
variable {n : Nat} {S δ : Nat → ℚ} {κ : ℚ}

theorem pos (h : Bounds n S δ κ) {j : Nat} (hj : j < n) : 0 < δ j := (two_zpow_pos _).trans_le (h.low j hj)

theorem pos' (h : Bounds n S δ κ) {j : Nat} (hj : j < n) : 0 < S j := (h.pos hj).trans_le (h.le j hj)

theorem one_le (h : Bounds n S δ κ) (hn : 0 < n) : 1 ≤ κ := by
  have h1 := h.ratio 0 hn
  have h2 := h.le 0 hn
  have h3 := h.pos hn
  by_contra h4
  have := mul_lt_mul_of_pos_right (not_le.mp h4) h3
  linarith

theorem n_le (h : Bounds n S δ κ) (hn : 0 < n) : (n : ℚ) ≤ 2 ^ 48 := by
  have h1 := h.one_le hn
  have h2 := h.size
  have h3 : (n : ℚ) * 1 ≤ n * κ := mul_le_mul_of_nonneg_left h1 (Nat.cast_nonneg n)
  linarith

theorem pow_le (h : Bounds n S δ κ) (hn : 0 < n) {k : Nat} (hk : k ≤ n) : (1 + 5 * (1 / 2 ^ 53 : ℚ)) ^ k ≤ 2 := by
  have h1 := h.n_le hn
  have h2 : (k : ℚ) ≤ n := by exact_mod_cast hk
  have h3 := Vec.one_add_pow_le (u := 5 * (1 / 2 ^ 53)) (by norm_num) (k := k) (by linarith)
  linarith

/-- Everything except two factors is at least one. -/
theorem two_le (h : Bounds n S δ κ) {i j : Nat} (hi : i < n) (hj : j < n) (hij : i ≠ j) :
    (2 * S i + 1) * (2 * S j + 1) ≤ 2 ^ (1020 : Int) := by
  refine le_trans ?_ h.high
  have hi' : i ∈ Finset.range n := Finset.mem_range.mpr hi
  have hj' : j ∈ (Finset.range n).erase i := Finset.mem_erase.mpr ⟨hij.symm, Finset.mem_range.mpr hj⟩
  rw [← Finset.mul_prod_erase _ _ hi', ← Finset.mul_prod_erase _ _ hj', ← mul_assoc]
  refine le_mul_of_one_le_right (mul_nonneg ?_ ?_) ?_
  · have := h.pos' hi; linarith
  · have := h.pos' hj; linarith
  · refine Finset.prod_induction _ (fun x : ℚ => 1 ≤ x) (fun _ _ => one_le_mul_of_one_le_of_one_le) le_rfl fun x hx => ?_
    have := h.pos' (Finset.mem_range.mp (Finset.mem_of_mem_erase (Finset.mem_of_mem_erase hx)))
    linarith

theorem one_le' (h : Bounds n S δ κ) {j : Nat} (hj : j < n) : 2 * S j + 1 ≤ 2 ^ (1020 : Int) := by
  refine le_trans ?_ h.high
  rw [← Finset.mul_prod_erase _ _ (Finset.mem_range.mpr hj)]
  refine le_mul_of_one_le_right ?_ ?_
  · have := h.pos' hj; linarith
  · refine Finset.prod_induction _ (fun x : ℚ => 1 ≤ x) (fun _ _ => one_le_mul_of_one_le_of_one_le) le_rfl fun x hx => ?_
    have := h.pos' (Finset.mem_range.mp (Finset.mem_of_mem_erase hx))
    linarith

theorem colSum_le (h : Bounds n S δ κ) {t : Bool} {k l : Nat} {V : Nat → Nat → ℚ} (hk : k + l = n) (hV : Kept t S δ k l V) (j : Fin l) :
    colSum (tr t (block k l V)) j ≤ 2 * S (k + j) := by
  have hj := j.2
  refine (hV j).1.trans ?_
  exact mul_le_mul_of_nonneg_right (h.pow_le (by omega) (by omega)) (h.pos' (by omega)).le

theorem le_margin (h : Bounds n S δ κ) {t : Bool} {k l : Nat} {V : Nat → Nat → ℚ} (hk : k + l = n) (hV : Kept t S δ k l V) (j : Fin l) :
    1 / 2 * δ (k + j) ≤ margin (tr t (block k l V)) j := by
  have hj := j.2
  refine le_trans ?_ (hV j).2
  have h1 := h.ratio (k + j) (by omega)
  have h2 := h.pos (j := k + j) (by omega)
  have h3 : (k : ℚ) ≤ n := by exact_mod_cast (by omega : k ≤ n)
  have h4 := h.one_le (by omega)
  have h5 : (k : ℚ) * S (k + j) ≤ 2 ^ 48 * δ (k + j) := by
    calc (k : ℚ) * S (k + j) ≤ n * (κ * δ (k + j)) := mul_le_mul h3 h1 (h.pos' (by omega)).le (Nat.cast_nonneg n)
      _ = n * κ * δ (k + j) := by ring
      _ ≤ _ := mul_le_mul_of_nonneg_right h.size h2.le
  linarith

theorem margin_pos (h : Bounds n S δ κ) {t : Bool} {k l : Nat} {V : Nat → Nat → ℚ} (hk : k + l = n) (hV : Kept t S δ k l V) (j : Fin l) :
    0 < margin (tr t (block k l V)) j := by
  have hj := j.2
  have := h.le_margin hk hV j
  have := h.pos (j := k + j) (by omega)
  linarith

end Bounds

theorem tr_diag (t : Bool) {l : Nat} (A : Matrix (Fin l) (Fin l) ℚ) (i : Fin l) : tr t A i i = A i i := by cases t <;> rfl

/-- Bounds on the numbers that occur in one round. -/
theorem Kept.entries {n : Nat} {S δ : Nat → ℚ} {κ : ℚ} (h : Bounds n S δ κ) {t : Bool} {k l : Nat} {V : Nat → Nat → ℚ} (hk : k + (l + 1) = n)
    (hV : Kept t S δ k (l + 1) V) : 2 ^ (-451 : Int) ≤ |V k k| ∧ |V k k| ≤ 2 * S k ∧ ∀ i j : Fin l,
      |V (k + 1 + i) k * V k (k + 1 + j)| ≤ 2 ^ (1022 : Int) ∧ |V (k + 1 + i) k * V k (k + 1 + j) / V k k| ≤ 2 ^ (1020 : Int) ∧
      |V (k + 1 + i) (k + 1 + j)| ≤ 2 ^ (1020 : Int) := by
  set B := block k (l + 1) V with hB
  have b1 : ∀ i j : Fin l, V (k + 1 + i) (k + 1 + j) = B i.succ j.succ := fun i j => by
    simp only [hB, block, Fin.val_succ]; rw [show k + (i.val + 1) = k + 1 + i by omega, show k + (j.val + 1) = k + 1 + j by omega]
  have b2 : ∀ i : Fin l, V (k + 1 + i) k = B i.succ 0 := fun i => by
    simp only [hB, block, Fin.val_succ]; rw [show k + (i.val + 1) = k + 1 + i by omega]; rfl
  have b3 : ∀ j : Fin l, V k (k + 1 + j) = B 0 j.succ := fun j => by
    simp only [hB, block, Fin.val_succ]; rw [show k + (j.val + 1) = k + 1 + j by omega]; rfl
  have b4 : V k k = B 0 0 := rfl
  have m0 := h.le_margin hk hV 0
  have mp := h.margin_pos hk hV 0
  have c := h.colSum_le hk hV
  have hd := (margin_le_diag _ 0).trans_eq (congrArg abs (tr_diag t B 0))
  have hdl := diag_le_colSum (tr t B) 0 0
  rw [tr_diag] at hdl
  have hlow : (2 : ℚ) ^ (-451 : Int) ≤ |B 0 0| := by
    have h1 := h.low k (by omega)
    have h2 : (2 : ℚ) ^ (-451 : Int) = 1 / 2 * 2 ^ (-450 : Int) := by
      rw [show (-451 : Int) = -1 + -450 by norm_num, zpow_add₀ (by norm_num)]; norm_num
    have h3 : 1 / 2 * δ k ≤ margin (tr t B) 0 := m0
    linarith
  refine ⟨by rw [b4]; exact hlow, by rw [b4]; exact hdl.trans (c 0), fun i j => ?_⟩
  rw [b1, b2, b3, b4]
  have hi := i.2
  have hj := j.2
  have hb0 : 0 < |B 0 0| := (two_zpow_pos _).trans_le hlow
  have t20 : (2 : ℚ) ^ (1020 : Int) ≤ 2 ^ (1022 : Int) := zpow_le_zpow_right₀ (by norm_num) (by norm_num)
  have key : ∀ (a : Nat), k < a → a < n → ∀ x y z : ℚ, |x| ≤ |B 0 0| → |y| ≤ 2 * S a → |z| ≤ 2 * S a →
      |x * y| ≤ 2 ^ (1022 : Int) ∧ |x * y / B 0 0| ≤ 2 ^ (1020 : Int) ∧ |z| ≤ 2 ^ (1020 : Int) := by
    intro a ha han x y z hx hy hz
    have h1 := h.two_le (i := k) (j := a) (by omega) han (by omega)
    have h2 := h.one_le' han
    have p1 := h.pos' (show k < n by omega)
    have p2 := h.pos' han
    have c0 : |B 0 0| ≤ 2 * S k := hdl.trans (c 0)
    refine ⟨?_, ?_, by linarith⟩
    · rw [abs_mul]
      have : |x| * |y| ≤ 2 * S k * (2 * S a) := mul_le_mul (hx.trans c0) hy (abs_nonneg _) (by linarith)
      have h3 : 2 * S k * (2 * S a) ≤ (2 * S k + 1) * (2 * S a + 1) :=
        mul_le_mul (by linarith) (by linarith) (by linarith) (by linarith)
      exact (this.trans h3).trans (h1.trans t20)
    · rw [abs_div, abs_mul, div_le_iff₀ hb0]
      calc |x| * |y| ≤ |B 0 0| * (2 * S a) := mul_le_mul hx hy (abs_nonneg _) hb0.le
        _ ≤ |B 0 0| * 2 ^ (1020 : Int) := mul_le_mul_of_nonneg_left (by linarith) hb0.le
        _ = _ := mul_comm _ _
  have off : ∀ i : Fin l, |tr t B i.succ 0| ≤ |B 0 0| := by
    intro i
    have h1 := margin_zero (tr t B)
    have h2 : |tr t B i.succ 0| ≤ ∑ i : Fin l, |tr t B i.succ 0| :=
      Finset.single_le_sum (f := fun i : Fin l => |tr t B i.succ 0|) (fun _ _ => abs_nonneg _) (Finset.mem_univ i)
    rw [tr_diag] at h1
    linarith
  cases t with
  | false =>
    refine key (k + 1 + j) (by omega) (by omega) _ _ _ (off i) ?_ ?_
    · have := (diag_le_colSum (tr false B) 0 j.succ).trans (c j.succ)
      rwa [Fin.val_succ, show k + (j.val + 1) = k + 1 + j by omega] at this
    · have := (diag_le_colSum (tr false B) i.succ j.succ).trans (c j.succ)
      rwa [Fin.val_succ, show k + (j.val + 1) = k + 1 + j by omega] at this
  | true =>
    rw [mul_comm (B i.succ 0)]
    refine key (k + 1 + i) (by omega) (by omega) _ _ _ (off j) ?_ ?_
    · have := (diag_le_colSum (tr true B) 0 i.succ).trans (c i.succ)
      rwa [Fin.val_succ, show k + (i.val + 1) = k + 1 + i by omega] at this
    · have := (diag_le_colSum (tr true B) j.succ i.succ).trans (c i.succ)
      rwa [Fin.val_succ, show k + (i.val + 1) = k + 1 + i by omega] at this

theorem step_tr (t : Bool) {m : Nat} {B : Matrix (Fin (m + 1)) (Fin (m + 1)) ℚ} {C : Matrix (Fin m) (Fin m) ℚ} {u τ θ : ℚ} (hu : 0 ≤ u)
    (hB : ∀ j, 0 < margin (tr t B) j) (hτ : ∀ j, m * τ ≤ u * colSum (tr t B) j)
    (hC : ∀ i j, |C i j - schur B i j| ≤ u * |B i.succ j.succ| + 4 * u * |B i.succ 0 * B 0 j.succ / B 0 0| + τ)
    (hθ : ∀ j, 5 * u * colSum (tr t B) j ≤ θ * margin (tr t B) j) (h0 : 0 ≤ θ) (h1 : θ < 1) :
    (∀ j : Fin m, colSum (tr t C) j ≤ (1 + 5 * u) * colSum (tr t B) j.succ) ∧
    (∀ j : Fin m, margin (tr t B) j.succ - 5 * u * colSum (tr t B) j.succ ≤ margin (tr t C) j) ∧
    ∃ ρ, B 0 0 * C.det = ρ * B.det ∧ (1 - θ) ^ m ≤ ρ ∧ ρ ≤ (1 + θ) ^ m := by
  cases t with
  | false => exact step hu hB hτ hC hθ h0 h1
  | true => exact step_rows hu hB hτ hC hθ h0 h1

/-- One round: what is known afterwards, and what becomes of the determinant. -/
theorem Kept.next {n : Nat} {S δ : Nat → ℚ} {κ : ℚ} (h : Bounds n S δ κ) (hn : 2 ≤ n) {t : Bool} {k l : Nat} {V W : Nat → Nat → ℚ}
    (hk : k + (l + 1) = n) (hV : Kept t S δ k (l + 1) V) (hW : ∀ i j : Fin l,
      |W (k + 1 + i) (k + 1 + j) - (V (k + 1 + i) (k + 1 + j) - V (k + 1 + i) k * V k (k + 1 + j) / V k k)| ≤
        1 / 2 ^ 53 * |V (k + 1 + i) (k + 1 + j)| + 4 * (1 / 2 ^ 53) * |V (k + 1 + i) k * V k (k + 1 + j) / V k k| + 2 ^ (-620 : Int)) :
    Kept t S δ (k + 1) l W ∧ ∃ ρ, V k k * (block (k + 1) l W).det = ρ * (block k (l + 1) V).det ∧
      (1 - κ / 2 ^ 48) ^ l ≤ ρ ∧ ρ ≤ (1 + κ / 2 ^ 48) ^ l := by
  set B := block k (l + 1) V with hB
  set C := block (k + 1) l W with hC
  have b1 : ∀ i j : Fin l, V (k + 1 + i) (k + 1 + j) = B i.succ j.succ := fun i j => by
    simp only [hB, block, Fin.val_succ]; rw [show k + (i.val + 1) = k + 1 + i by omega, show k + (j.val + 1) = k + 1 + j by omega]
  have b2 : ∀ i : Fin l, V (k + 1 + i) k = B i.succ 0 := fun i => by
    simp only [hB, block, Fin.val_succ]; rw [show k + (i.val + 1) = k + 1 + i by omega]; rfl
  have b3 : ∀ j : Fin l, V k (k + 1 + j) = B 0 j.succ := fun j => by
    simp only [hB, block, Fin.val_succ]; rw [show k + (j.val + 1) = k + 1 + j by omega]; rfl
  have b4 : V k k = B 0 0 := rfl
  simp only [b1, b2, b3, b4] at hW
  have hκ := h.one_le (by omega)
  have hnκ := h.size
  have hn' : (2 : ℚ) ≤ n := by exact_mod_cast hn
  have hκ2 : κ ≤ 2 ^ 47 := by
    have : 2 * κ ≤ n * κ := mul_le_mul_of_nonneg_right hn' (by linarith)
    linarith
  have hu : (0 : ℚ) ≤ 1 / 2 ^ 53 := by norm_num
  have hτ : ∀ j, (l : ℚ) * 2 ^ (-620 : Int) ≤ 1 / 2 ^ 53 * colSum (tr t B) j := by
    intro j
    have hj := j.2
    have h1 := h.le_margin hk hV j
    have h2 := h.low (k + j) (by omega)
    have h3 := (margin_le_diag (tr t B) j).trans (diag_le_colSum (tr t B) j j)
    have h4 : (l : ℚ) ≤ 2 ^ 48 := le_trans (by exact_mod_cast (by omega : l ≤ n)) (h.n_le (by omega))
    have h5 : (2 : ℚ) ^ 48 * 2 ^ (-620 : Int) ≤ 1 / 2 ^ 54 * 2 ^ (-450 : Int) := by
      have e1 : (2 : ℚ) ^ 48 = 2 ^ (48 : Int) := by norm_cast
      have e2 : (1 : ℚ) / 2 ^ 54 = 2 ^ (-54 : Int) := by norm_num
      rw [e1, e2, ← zpow_add₀ (by norm_num), ← zpow_add₀ (by norm_num)]
      exact zpow_le_zpow_right₀ (by norm_num) (by norm_num)
    have h6 := mul_le_mul_of_nonneg_right h4 (two_zpow_pos (-620)).le
    have h7 : 1 / 2 * 2 ^ (-450 : Int) ≤ colSum (tr t B) j := by linarith
    have h8 := mul_le_mul_of_nonneg_left h7 hu
    linarith
  have hθ : ∀ j, 5 * (1 / 2 ^ 53) * colSum (tr t B) j ≤ κ / 2 ^ 48 * margin (tr t B) j := by
    intro j
    have hj := j.2
    have h1 := h.le_margin hk hV j
    have h2 := h.colSum_le hk hV j
    have h3 := h.ratio (k + j) (by omega)
    have h4 := mul_le_mul_of_nonneg_left h1 (show 0 ≤ κ / 2 ^ 48 by positivity)
    have h5 := h.pos (j := k + j) (by omega)
    have h6 : 0 ≤ κ * δ (k + j) := mul_nonneg (by linarith) h5.le
    linarith
  have h0 : 0 ≤ κ / 2 ^ 48 := by positivity
  have h1 : κ / 2 ^ 48 < 1 := by rw [div_lt_one (by norm_num)]; linarith
  have kept : ∀ s : (∀ j : Fin l, colSum (tr t C) j ≤ (1 + 5 * (1 / 2 ^ 53)) * colSum (tr t B) j.succ) ∧
      (∀ j : Fin l, margin (tr t B) j.succ - 5 * (1 / 2 ^ 53) * colSum (tr t B) j.succ ≤ margin (tr t C) j), Kept t S δ (k + 1) l W := by
    intro s j
    have hj := j.2
    have e : k + 1 + j.val = k + (j.succ : Fin (l + 1)).val := by rw [Fin.val_succ]; omega
    rw [e]
    constructor
    · refine (s.1 j).trans ?_
      rw [pow_succ' (1 + 5 * (1 / 2 ^ 53) : ℚ) k, mul_assoc]
      exact mul_le_mul_of_nonneg_left (hV j.succ).1 (by norm_num)
    · refine le_trans ?_ (s.2 j)
      have h2 := (hV j.succ).2
      have h3 := h.colSum_le hk hV j.succ
      push_cast
      linarith
  obtain ⟨s1, s2, s3⟩ := step_tr t (B := B) (C := C) hu (h.margin_pos hk hV) hτ hW hθ h0 h1
  exact ⟨kept ⟨s1, s2⟩, s3⟩

/-- A pivot that is not zero is found at once. -/
theorem findPivot_now {m : Mat Double} {n c k fuel : Nat} {F : Nat → Nat → Double} {v : ℚ} (hm : Full Bits m n c F) (hk : k < n) (hkc : k < c)
    (hv : (F k k).Denotes v) (h0 : v ≠ 0) : Out Never (findPivot Scalar.double m k (fuel + 1) k k) (fun o => o = some (k, k)) := by
  unfold findPivot
  refine Out.bind (hm.get hk hkc trivial) fun e he => ?_
  refine Out.bind (P := fun z => z = false) (.inl ⟨_, rfl, ?_⟩) fun z hz => ?_
  · rw [he.1]
    by_contra h
    rw [Bool.not_eq_false] at h
    exact h0 (hv.unique ((eq_zero_iff hv.1 ofInt_zero).mp h))
  · rw [hz]
    exact .inl ⟨_, rfl, rfl⟩

/-- One round of elimination, bit by bit. -/
def delimF (F : Nat → Nat → Double) (k : Nat) : Nat → Nat → Double :=
  fun i j => if k < i ∧ k ≤ j then Double.sub (F i j) (Double.div (Double.mul (F i k) (F k j)) (F k k)) else F i j

theorem delim_ok {m : Mat Double} {n k : Nat} {F : Nat → Nat → Double} (hm : Full Bits m n n F) (hk : k < n) :
    Out Never (detEliminate Scalar.double m k k) (fun m => Full Bits m n n (delimF F k)) :=
  detEliminate_raw hm hk hk le_rfl hk (fun i j h1 _ h3 _ {v x d y} hv hx hd hy => by
    rw [delimF, if_pos ⟨h1, h3⟩, ← hv.1, ← hx.1, ← hd.1, ← hy.1]
    exact .inl ⟨_, rfl, rfl, sub_wf _ _⟩) fun i j h => by rw [delimF, if_neg h]

/-- The main loop. -/
theorem domLoop_ok {n : Nat} {S δ : Nat → ℚ} {κ : ℚ} (h : Bounds n S δ κ) (hn : 2 ≤ n) (t : Bool) {f : Double} (l : Nat) :
    ∀ (k : Nat) (m : Mat Double) (F : Nat → Nat → Double) (V : Nat → Nat → ℚ), k + l = n → Full Bits m n n F →
    (∀ i j, k ≤ i → i < n → k ≤ j → j < n → (F i j).Denotes (V i j)) → Kept t S δ k l V →
    Out Never (detLoop Scalar.double l k k f m) (fun s => s.1 = f ∧ ∃ (G : Nat → Nat → Double) (W : Nat → ℚ), Full Bits s.2 n n G ∧
      (∀ i < k, G i i = F i i) ∧ (∀ i, k ≤ i → i < n → (G i i).Denotes (W i) ∧ |W i| ≤ 2 * S i) ∧
      ∃ ρ, ∏ i ∈ Finset.range l, W (k + i) = ρ * (block k l V).det ∧
        (1 - κ / 2 ^ 48) ^ l.choose 2 ≤ ρ ∧ ρ ≤ (1 + κ / 2 ^ 48) ^ l.choose 2) := by
  have hκ := h.one_le (by omega)
  have hnκ := h.size
  have hn' : (2 : ℚ) ≤ n := by exact_mod_cast hn
  have hκ2 : κ / 2 ^ 48 ≤ 1 := by
    have : 2 * κ ≤ n * κ := mul_le_mul_of_nonneg_right hn' (by linarith)
    rw [div_le_one (by norm_num)]
    linarith
  have hκ0 : 0 ≤ κ / 2 ^ 48 := by positivity
  induction l with
  | zero =>
    intro k m F V hk hm hV hK
    refine Out.ok ⟨rfl, F, fun i => (F i i).val, hm, fun _ _ => rfl, fun i h1 h2 => absurd h2 (by omega), 1, by simp [Matrix.det_isEmpty], by simp, by simp⟩
  | succ l ih =>
    intro k m F V hk hm hV hK
    have hkn : k < n := by omega
    obtain ⟨e1, e2, e3⟩ := hK.entries h hk
    have hv0 : V k k ≠ 0 := abs_pos.mp ((two_zpow_pos _).trans_le e1)
    unfold detLoop
    rw [hm.2.1, if_neg (by omega)]
    refine Out.bind (findPivot_now hm hkn hkn (hV k k le_rfl hkn le_rfl hkn) hv0) fun o ho => ?_
    subst ho
    simp only [ne_eq, not_true_eq_false, if_false]
    refine Out.bind (Out.ok (P := fun s => s = (f, m)) rfl) fun s hs => ?_
    subst hs
    refine Out.bind (delim_ok hm hkn) fun m' hm' => ?_
    have hex : ∀ i j, ∃ w, k < i → i < n → k < j → j < n → (delimF F k i j).Denotes w ∧
        |w - (V i j - V i k * V k j / V k k)| ≤
          1 / 2 ^ 53 * |V i j| + 4 * (1 / 2 ^ 53) * |V i k * V k j / V k k| + 2 ^ (-620 : Int) := by
      intro i j
      by_cases hij : (k < i ∧ i < n) ∧ k < j ∧ j < n
      · obtain ⟨⟨i1, i2⟩, j1, j2⟩ := hij
        obtain ⟨i', rfl⟩ := Nat.exists_eq_add_of_le (show k + 1 ≤ i by omega)
        obtain ⟨j', rfl⟩ := Nat.exists_eq_add_of_le (show k + 1 ≤ j by omega)
        obtain ⟨h1, h2, h3⟩ := e3 ⟨i', by omega⟩ ⟨j', by omega⟩
        obtain ⟨w, hw⟩ := elim_err (hV _ _ (by omega) i2 le_rfl hkn) (hV _ _ le_rfl hkn (by omega) j2) (hV k k le_rfl hkn le_rfl hkn)
          (hV _ _ (by omega) i2 (by omega) j2) h1 h2 h3 e1
        refine ⟨w, fun _ _ _ _ => ?_⟩
        rw [delimF, if_pos ⟨i1, j1.le⟩]
        exact hw
      · exact ⟨0, fun h1 h2 h3 h4 => absurd ⟨⟨h1, h2⟩, h3, h4⟩ hij⟩
    choose W hW using hex
    obtain ⟨k1, ρ, r1, r2, r3⟩ := hK.next h hn hk (W := W) fun i j => (hW (k + 1 + i) (k + 1 + j) (by omega) (by omega) (by omega) (by omega)).2
    refine (ih (k + 1) m' (delimF F k) W (by omega) hm' (fun i j h1 h2 h3 h4 => (hW i j (by omega) h2 (by omega) h4).1) k1).mono
      fun s hs => ?_
    obtain ⟨s1, G, U, g1, g2, g3, ρ', r1', r2', r3'⟩ := hs
    have hGk : G k k = F k k := by rw [g2 k (by omega), delimF, if_neg (by omega)]
    refine ⟨s1, G, fun i => if i = k then V k k else U i, g1, fun i hi => ?_, fun i h1 h2 => ?_, ρ * ρ', ?_, ?_, ?_⟩
    · rw [g2 i (by omega), delimF, if_neg (by omega)]
    · beta_reduce
      by_cases hik : i = k
      · subst hik
        rw [if_pos rfl, hGk]
        exact ⟨hV i i le_rfl hkn le_rfl hkn, e2⟩
      · rw [if_neg hik]
        exact g3 i (by omega) h2
    · rw [Finset.prod_range_succ', add_zero]
      beta_reduce
      rw [if_pos rfl]
      have e : ∏ i ∈ Finset.range l, (if k + (i + 1) = k then V k k else U (k + (i + 1))) = ∏ i ∈ Finset.range l, U (k + 1 + i) :=
        Finset.prod_congr rfl fun i _ => by rw [if_neg (by omega), show k + (i + 1) = k + 1 + i by omega]
      rw [e, r1']
      linear_combination ρ' * r1
    · rw [show (l + 1).choose 2 = l + l.choose 2 by rw [Nat.choose_succ_succ' l 1, Nat.choose_one_right], pow_add]
      exact mul_le_mul r2 r2' (pow_nonneg (by linarith) _) (le_trans (pow_nonneg (by linarith) _) r2)
    · rw [show (l + 1).choose 2 = l + l.choose 2 by rw [Nat.choose_succ_succ' l 1, Nat.choose_one_right], pow_add]
      exact mul_le_mul r3 r3' (le_trans (pow_nonneg (by linarith) _) r2') (pow_nonneg (by linarith) _)

/-- The product of the diagonal. -/
theorem prodLoop_ok {n : Nat} {G : Nat → Nat → Double} {W : Nat → ℚ} {m : Mat Double} (hm : Full Bits m n n G)
    (hW : ∀ i < n, (G i i).Denotes (W i)) :
    Out Never (forUp 0 n (fun i prod => do
      let x ← m.get i i
      Scalar.double.mulA prod x) (Double.ofInt 1)) (fun p => Approx n p (∏ i ∈ Finset.range n, W i) (∏ i ∈ Finset.range n, |W i|)
      (∏ i ∈ Finset.range n, (|W i| + 1))) := by
  have one : (Double.ofInt 1).Denotes 1 := by
    have := ofInt_denotes (k := 1) (by norm_num)
    rwa [Int.cast_one] at this
  have h1 : ∀ k, (1 : ℚ) ≤ ∏ i ∈ Finset.range k, (|W i| + 1) := fun k =>
    Finset.prod_induction _ (fun x : ℚ => 1 ≤ x) (fun _ _ => one_le_mul_of_one_le_of_one_le) le_rfl
      fun i _ => by linarith [abs_nonneg (W i)]
  have := forUp_ok (A := Never) (Inv := fun k p => Approx k p (∏ i ∈ Finset.range k, W i) (∏ i ∈ Finset.range k, |W i|)
      (∏ i ∈ Finset.range k, (|W i| + 1))) (lo := 0) (n := n) (s := Double.ofInt 1) (body := fun i prod => do
      let x ← m.get i i
      Scalar.double.mulA prod x) (by
    simp only [Finset.range_zero, Finset.prod_empty]
    refine ⟨one.1, by simp, le_rfl, fun r hr => ?_, fun _ _ => ⟨1, one⟩⟩
    rw [hr.unique one, sub_self, abs_zero]
    have := eta_pos
    simp only [pow_zero, sub_self, zero_mul, zero_add, one_mul, mul_one]
    exact this.le) fun k p _ hk hp => by
    refine Out.bind (hm.get (show k < n by omega) (show k < n by omega) trivial) fun x hx => ?_
    rw [Finset.prod_range_succ, Finset.prod_range_succ, Finset.prod_range_succ]
    refine .inl ⟨_, rfl, hp.mul_comm ?_ (h1 k)⟩
    rw [hx.1]
    exact hW k (by omega)
  rwa [zero_add] at this

/-- Putting the two errors together. -/
theorem factor_err {q d ρ θ u E : ℚ} {n N : Nat} (hu : 0 ≤ u) (huθ : u ≤ θ) (hθ : θ ≤ 1) (h1 : (1 - θ) ^ N ≤ ρ) (h2 : ρ ≤ (1 + θ) ^ N)
    (h : |q - ρ * d| ≤ ((1 + u) ^ n - 1) * |ρ * d| + E) : |q - d| ≤ ((1 + θ) ^ (n + N) - 1) * |d| + E := by
  have h0 : 0 ≤ ρ := le_trans (pow_nonneg (by linarith) _) h1
  have h3 : |ρ - 1| ≤ (1 + θ) ^ N - 1 := by
    rw [abs_le]
    constructor
    · have b1 := one_add_mul_le_pow (show -2 ≤ θ by linarith) N
      have b2 := one_add_mul_le_pow (show -2 ≤ -θ by linarith) N
      rw [← sub_eq_add_neg] at b2
      linarith
    · linarith
  have h4 : |q - d| ≤ |q - ρ * d| + |ρ - 1| * |d| := by
    rw [← abs_mul]
    have := abs_add_le (q - ρ * d) ((ρ - 1) * d)
    rwa [show q - ρ * d + (ρ - 1) * d = q - d by ring] at this
  have h5 : |ρ * d| ≤ (1 + θ) ^ N * |d| := by
    rw [abs_mul, abs_of_nonneg h0]; exact mul_le_mul_of_nonneg_right h2 (abs_nonneg _)
  have h6 : 0 ≤ (1 + u) ^ n - 1 := by have := one_le_pow₀ (show 1 ≤ 1 + u by linarith) (n := n); linarith
  have h7 : (1 + u) ^ n ≤ (1 + θ) ^ n := pow_le_pow_left₀ (by linarith) (by linarith) n
  have h8 := mul_le_mul_of_nonneg_left h5 h6
  have h9 := mul_le_mul_of_nonneg_right h3 (abs_nonneg d)
  have h10 : ((1 + u) ^ n - 1) * ((1 + θ) ^ N * |d|) ≤ ((1 + θ) ^ n - 1) * ((1 + θ) ^ N * |d|) :=
    mul_le_mul_of_nonneg_right (by linarith) (mul_nonneg (pow_nonneg (by linarith) _) (abs_nonneg _))
  rw [pow_add]
  nlinarith

/-- `determinant()` of a matrix dominated by its diagonal. -/
theorem domDet_ok {n : Nat} {S δ : Nat → ℚ} {κ : ℚ} (h : Bounds n S δ κ) (hn : 3 ≤ n) (t : Bool) {m : Mat Double} {V : Nat → Nat → ℚ}
    (hm : Full Denotes m n n V) (hK : Kept t S δ 0 n V) :
    Out Never (determinant Scalar.double m) (fun d => ∃ q, d.Denotes q ∧
      |q - (block 0 n V).det| ≤ ((1 + κ / 2 ^ 48) ^ (n + n.choose 2) - 1) * |(block 0 n V).det| +
        2 * eta * ∏ j ∈ Finset.range n, (2 * S j + 1)) := by
  have hκ := h.one_le (by omega)
  have hnκ := h.size
  have hn' : (2 : ℚ) ≤ n := by exact_mod_cast (by omega : 2 ≤ n)
  have hκ2 : κ / 2 ^ 48 ≤ 1 := by
    have : 2 * κ ≤ n * κ := mul_le_mul_of_nonneg_right hn' (by linarith)
    rw [div_le_one (by norm_num)]
    linarith
  have hκ3 : 1 / 2 ^ 53 ≤ κ / 2 ^ 48 := by
    rw [div_le_div_iff₀ (by norm_num) (by norm_num)]
    linarith
  have hnn := h.n_le (by omega)
  have hn50 : n ≤ 2 ^ 50 := by
    have : (n : ℚ) ≤ ((2 ^ 50 : Nat) : ℚ) := by push_cast; linarith
    exact_mod_cast this
  have one : (Double.ofInt 1).Denotes 1 := by
    have := ofInt_denotes (k := 1) (by norm_num)
    rwa [Int.cast_one] at this
  unfold determinant
  simp only [hm.1, hm.2.1, ne_eq, not_true_eq_false, if_false]
  rw [if_neg (by omega), if_neg (by omega)]
  refine Out.bind (copy_ok hm) fun tmp htmp => ?_
  refine Out.bind (P := fun z => z = Double.ofInt 1) (.inl ⟨_, rfl, rfl⟩) fun f hf => ?_
  rw [htmp.1]
  obtain ⟨F, hF, hFV⟩ := full_bits htmp
  refine Out.bind (domLoop_ok h (by omega) t n 0 tmp F V (by omega) hF (fun i j _ hi _ hj => hFV i hi j hj) hK) fun s hs => ?_
  obtain ⟨hs1, G, W, hG, _, hW, ρ, r1, r2, r3⟩ := hs
  refine Out.bind (P := fun z => z = Double.ofInt 1) (.inl ⟨_, rfl, rfl⟩) fun p0 hp0 => ?_
  rw [hG.1, hp0]
  refine Out.bind (prodLoop_ok hG fun i hi => (hW i (Nat.zero_le _) hi).1) fun p hp => ?_
  refine .inl ⟨_, rfl, ?_⟩
  rw [hs1, hf]
  have hv := div_one' hp.wf one
  have hu : ∏ i ∈ Finset.range n, (|W i| + 1) ≤ ∏ j ∈ Finset.range n, (2 * S j + 1) :=
    Finset.prod_le_prod (fun i _ => by positivity) fun i hi => by
      have := (hW i (Nat.zero_le _) (Finset.mem_range.mp hi)).2
      linarith
  obtain ⟨q, hq⟩ := hp.fin hn50 (hu.trans h.high)
  refine ⟨q, (hv q).mpr hq, ?_⟩
  have herr := hp.err q hq
  simp only [zero_add] at r1
  rw [← Finset.abs_prod, r1] at herr
  refine factor_err (by norm_num) hκ3 hκ2 r2 r3 (herr.trans (add_le_add_right ?_ _))
  have hpow : (1 + 1 / 2 ^ 53 : ℚ) ^ n ≤ 2 := by
    have h3 := Vec.one_add_pow_le (u := 1 / 2 ^ 53) (by norm_num) (k := n) (by linarith)
    linarith
  refine mul_le_mul (mul_le_mul_of_nonneg_right hpow eta_pos.le) hu ?_ (mul_nonneg (by norm_num) eta_pos.le)
  exact Finset.prod_nonneg fun i _ => by positivity

end Mat
end CppMaths
