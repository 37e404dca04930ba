import Verif.Proofs.Jordan
import Mathlib.Order.Interval.Finset.Nat
/-!
# Gauss-Jordan elimination on matrices whose rows are dominated by the diagonal
-/

namespace CppMaths
namespace Jordan
open Finset

/-- The entries of row `i` outside of the diagonal, in the columns from `k` on. -/
def off (n k : Nat) (V : Nat → Nat → ℚ) (i : Nat) : ℚ := ∑ j ∈ (Ico k n).erase i, |V i j|

/-- How much the diagonal exceeds the rest of the row. -/
def mu (n k : Nat) (V : Nat → Nat → ℚ) (i : Nat) : ℚ := |V i i| - off n k V i

/-- The size of the row. -/
def rho (n k : Nat) (V : Nat → Nat → ℚ) (i : Nat) : ℚ := |V i i| + off n k V i

/-- A round of the elimination with pivot row and column `k`. -/
def exactM (k : Nat) (V : Nat → Nat → ℚ) : Nat → Nat → ℚ := fun i j => exact k (fun i => V i k) (fun i => V i j) i

variable {n k : Nat} {V W E : Nat → Nat → ℚ}

theorem off_nonneg (i : Nat) : 0 ≤ off n k V i := sum_nonneg fun _ _ => abs_nonneg _

theorem mu_le_rho (i : Nat) : mu n k V i ≤ rho n k V i := by
  have := off_nonneg (n := n) (k := k) (V := V) i
  unfold mu rho
  linarith

theorem rho_nonneg (i : Nat) : 0 ≤ rho n k V i := add_nonneg (abs_nonneg _) (off_nonneg i)

theorem entry_le {i j : Nat} (hj : k ≤ j) (hjn : j < n) : |V i j| ≤ rho n k V i := by
  by_cases h : j = i
  · rw [h]
    exact le_add_of_nonneg_right (off_nonneg i)
  · refine le_add_of_nonneg_of_le (abs_nonneg _) ?_
    exact single_le_sum (f := fun j => |V i j|) (fun _ _ => abs_nonneg _) (mem_erase.mpr ⟨h, mem_Ico.mpr ⟨hj, hjn⟩⟩)

theorem off_add (i : Nat) : off n k (fun i j => V i j + E i j) i ≤ off n k V i + off n k E i := by
  unfold off
  rw [← sum_add_distrib]
  exact sum_le_sum fun j _ => abs_add_le _ _

theorem rho_next (i : Nat) : rho n k W i ≤ rho n k V i + rho n k (fun i j => W i j - V i j) i := by
  have h1 := off_add (n := n) (k := k) (V := V) (E := fun i j => W i j - V i j) i
  have h2 := abs_add_le (V i i) (W i i - V i i)
  simp only [add_sub_cancel] at h1 h2
  unfold rho
  have : off n k (fun i j => W i j) i = off n k W i := rfl
  linarith

theorem mu_next (i : Nat) : mu n k V i - rho n k (fun i j => W i j - V i j) i ≤ mu n k W i := by
  have h1 := off_add (n := n) (k := k) (V := V) (E := fun i j => W i j - V i j) i
  have h2 := abs_sub (W i i) (W i i - V i i)
  simp only [add_sub_cancel, sub_sub_cancel] at h1 h2
  unfold mu rho
  have : off n k (fun i j => W i j) i = off n k W i := rfl
  linarith

/-- The sum of the scaled pivot row. -/
def tau (n k : Nat) (V : Nat → Nat → ℚ) : ℚ := ∑ j ∈ Ico (k + 1) n, |V k j / V k k|

theorem tau_nonneg : 0 ≤ tau n k V := sum_nonneg fun _ _ => abs_nonneg _

theorem Ico_erase (hk : k < n) : (Ico k n).erase k = Ico (k + 1) n := by
  ext j
  simp only [mem_erase, mem_Ico]
  omega

theorem tau_eq (hk : k < n) (h0 : V k k ≠ 0) : (1 - tau n k V) * |V k k| = mu n k V k ∧ (1 + tau n k V) * |V k k| = rho n k V k := by
  have h1 : tau n k V * |V k k| = off n k V k := by
    unfold tau off
    rw [Ico_erase hk, sum_mul]
    refine sum_congr rfl fun j _ => ?_
    rw [abs_div, div_mul_cancel₀ _ (abs_ne_zero.mpr h0)]
  unfold mu rho
  constructor <;> linarith

/-- Row `i` loses its entry in the pivot column. -/
theorem off_succ (hk : k < n) {i : Nat} (hik : i ≠ k) : off n k V i = |V i k| + off n (k + 1) V i := by
  unfold off
  have : (Ico (k + 1) n).erase i = ((Ico k n).erase i).erase k := by
    ext j
    simp only [mem_erase, mem_Ico]
    omega
  rw [this, add_sum_erase (f := fun j => |V i j|)]
  exact mem_erase.mpr ⟨fun h => hik h.symm, mem_Ico.mpr ⟨le_rfl, hk⟩⟩

/-- The entries of the scaled pivot row used in row `i`. -/
theorem tau_split {i : Nat} (hi : i < n) (hik : i ≠ k) (hz : i < k → V k i = 0) :
    ∑ j ∈ (Ico (k + 1) n).erase i, |V k j / V k k| + |V k i / V k k| = tau n k V := by
  unfold tau
  by_cases h : i < k
  · rw [hz h, zero_div, abs_zero, add_zero, erase_eq_of_notMem]
    rw [mem_Ico]
    omega
  · rw [add_comm, add_sum_erase (f := fun j => |V k j / V k k|)]
    exact mem_Ico.mpr ⟨by omega, hi⟩

theorem exactM_self (h0 : V k k ≠ 0) : mu n (k + 1) (exactM k V) k = 1 - tau n k V ∧ rho n (k + 1) (exactM k V) k = 1 + tau n k V := by
  have h1 : exactM k V k k = 1 := by unfold exactM exact; rw [if_pos rfl, div_self h0]
  have h2 : off n (k + 1) (exactM k V) k = tau n k V := by
    unfold off tau
    rw [erase_eq_of_notMem (by rw [mem_Ico]; omega)]
    refine sum_congr rfl fun j _ => ?_
    unfold exactM exact
    rw [if_pos rfl]
  unfold mu rho
  rw [h1, h2, abs_one]
  exact ⟨rfl, rfl⟩

theorem exactM_other (hk : k < n) {i : Nat} (hi : i < n) (hik : i ≠ k) (hz : i < k → V k i = 0) :
    mu n k V i + |V i k| * (1 - tau n k V) ≤ mu n (k + 1) (exactM k V) i ∧
    rho n (k + 1) (exactM k V) i ≤ rho n k V i - |V i k| * (1 - tau n k V) := by
  have hx : ∀ j, exactM k V i j = V i j - V i k * (V k j / V k k) := fun j => by unfold exactM exact; rw [if_neg hik]
  have h1 : off n (k + 1) (exactM k V) i ≤ off n (k + 1) V i + |V i k| * ∑ j ∈ (Ico (k + 1) n).erase i, |V k j / V k k| := by
    unfold off
    rw [mul_sum, ← sum_add_distrib]
    refine sum_le_sum fun j _ => ?_
    rw [hx, ← abs_mul]
    exact abs_sub _ _
  have h2 := tau_split (n := n) hi hik hz
  have h3 := off_succ (V := V) hk hik
  have h4 : |V i i| - |V i k| * |V k i / V k k| ≤ |exactM k V i i| := by
    rw [hx, ← abs_mul]
    exact abs_sub_abs_le_abs_sub _ _
  have h5 : |exactM k V i i| ≤ |V i i| + |V i k| * |V k i / V k k| := by
    rw [hx, ← abs_mul]
    exact abs_sub _ _
  unfold mu rho
  rw [← h2, h3]
  constructor <;> nlinarith

/-- The rounding errors in row `i`. -/
theorem rho_err {u T : ℚ} (hu : 0 ≤ u) (hT : 0 ≤ T) (hk : k < n) {i : Nat} (hi : i < n) (hik : i ≠ k) (hz : i < k → V k i = 0) (hτ : tau n k V ≤ 1)
    (h0 : i < k → E i i = 0)
    (h : ∀ j, k < j → j < n → |E i j| ≤ u * |V i j| + 4 * u * |V i k * (V k j / V k k)| + T) :
    rho n (k + 1) E i ≤ 4 * u * rho n k V i + n * T := by
  have h1 : off n (k + 1) E i ≤ ∑ j ∈ (Ico (k + 1) n).erase i, (u * |V i j| + 4 * u * |V i k * (V k j / V k k)| + T) :=
    sum_le_sum fun j hj => h j (by have := mem_Ico.mp (mem_of_mem_erase hj); omega) (mem_Ico.mp (mem_of_mem_erase hj)).2
  have e1 : ∑ j ∈ (Ico (k + 1) n).erase i, (u * |V i j| + 4 * u * |V i k * (V k j / V k k)| + T) =
      u * off n (k + 1) V i + 4 * u * |V i k| * (∑ j ∈ (Ico (k + 1) n).erase i, |V k j / V k k|) + ((Ico (k + 1) n).erase i).card * T := by
    rw [sum_add_distrib, sum_add_distrib, sum_const, nsmul_eq_mul, off, mul_sum, mul_sum]
    congr 2
    refine sum_congr rfl fun j _ => ?_
    rw [abs_mul]
    ring
  rw [e1] at h1
  have h2 := tau_split (n := n) hi hik hz
  have h3 := off_succ (V := V) hk hik
  have hoff := off_nonneg (n := n) (k := k + 1) (V := V) i
  have hc : (((Ico (k + 1) n).erase i).card : ℚ) + 1 ≤ n := by
    have : ((Ico (k + 1) n).erase i).card ≤ (Ico (k + 1) n).card := card_le_card (erase_subset _ _)
    rw [Nat.card_Ico] at this
    have : ((Ico (k + 1) n).erase i).card + 1 ≤ n := by omega
    exact_mod_cast this
  have h4 : |E i i| ≤ u * |V i i| + 4 * u * |V i k| * |V k i / V k k| + T := by
    by_cases hlt : i < k
    · rw [h0 hlt, abs_zero]
      positivity
    · have := h i (by omega) hi
      rw [abs_mul] at this
      linarith
  have h5 : |V i k| * tau n k V ≤ |V i k| := mul_le_of_le_one_right (abs_nonneg _) hτ
  have h6 : 4 * u * (|V i k| * tau n k V) ≤ 4 * u * |V i k| := mul_le_mul_of_nonneg_left h5 (by linarith)
  have h7 := mul_le_mul_of_nonneg_right hc hT
  have p1 : 0 ≤ u * |V i i| := by positivity
  have p2 : 0 ≤ u * off n (k + 1) V i := by positivity
  rw [← h2] at h6
  unfold rho
  rw [h3]
  linarith

theorem rho_err_self {u T : ℚ} (hT : 0 ≤ T) (h0 : E k k = 0)
    (h : ∀ j, k < j → j < n → |E k j| ≤ u * |V k j / V k k| + T) :
    rho n (k + 1) E k ≤ u * tau n k V + n * T := by
  have h1 : off n (k + 1) E k ≤ ∑ j ∈ Ico (k + 1) n, (u * |V k j / V k k| + T) := by
    unfold off
    rw [erase_eq_of_notMem (by rw [mem_Ico]; omega)]
    exact sum_le_sum fun j hj => h j (by have := mem_Ico.mp hj; omega) (mem_Ico.mp hj).2
  rw [sum_add_distrib, sum_const, nsmul_eq_mul, ← mul_sum, Nat.card_Ico] at h1
  have hc : ((n - (k + 1) : Nat) : ℚ) ≤ n := by exact_mod_cast Nat.sub_le _ _
  have := mul_le_mul_of_nonneg_right hc hT
  unfold rho tau
  rw [h0, abs_zero]
  linarith

/-- The errors of row `i` against a vector. -/
theorem err_dot {x : Nat → ℚ} {X : ℚ} (hx : ∀ j < n, |x j| ≤ X) (hk : k < n) {i : Nat} (h0 : ∀ j ≤ k, E i j = 0) :
    |∑ j ∈ range n, E i j * x j| ≤ X * rho n (k + 1) E i := by
  have hX : 0 ≤ X := (abs_nonneg _).trans (hx k hk)
  have h1 : ∑ j ∈ range n, |E i j| ≤ rho n (k + 1) E i := by
    have h2 : ∑ j ∈ range n, |E i j| = ∑ j ∈ Ico (k + 1) n, |E i j| := by
      symm
      refine sum_subset (fun j hj => mem_range.mpr (mem_Ico.mp hj).2) fun j hj hj' => ?_
      rw [h0 j, abs_zero]
      rw [mem_Ico] at hj'
      have := mem_range.mp hj
      omega
    rw [h2]
    unfold rho off
    by_cases h : i ∈ Ico (k + 1) n
    · rw [add_sum_erase _ (fun j => |E i j|) h]
    · rw [erase_eq_of_notMem h]
      exact le_add_of_nonneg_left (abs_nonneg _)
  calc |∑ j ∈ range n, E i j * x j| ≤ ∑ j ∈ range n, |E i j| * X := by
        refine (abs_sum_le_sum_abs _ _).trans (sum_le_sum fun j hj => ?_)
        rw [abs_mul]
        exact mul_le_mul_of_nonneg_left (hx j (mem_range.mp hj)) (abs_nonneg _)
    _ = X * ∑ j ∈ range n, |E i j| := by rw [← sum_mul, mul_comm]
    _ ≤ _ := mul_le_mul_of_nonneg_left h1 hX

/-- The solution of a system dominated by rows. -/
theorem solve_rows {A : Nat → Nat → ℚ} {x b : Nat → ℚ} {Y : ℚ} (hx : ∀ i < n, ∑ j ∈ range n, A i j * x j = b i)
    (hδ : ∀ i < n, 0 < mu n 0 A i) (hb : ∀ i < n, |b i| ≤ Y * mu n 0 A i) : ∀ i < n, |x i| ≤ Y := by
  intro i hi
  obtain ⟨q, hq, hmax⟩ := exists_max_image (range n) (fun i => |x i|) ⟨i, mem_range.mpr hi⟩
  have hqn := mem_range.mp hq
  have h1 : mu n 0 A q * |x q| ≤ |∑ j ∈ range n, A q j * x j| := by
    rw [← add_sum_erase _ (fun j => A q j * x j) hq]
    have h2 : |∑ j ∈ (range n).erase q, A q j * x j| ≤ off n 0 A q * |x q| := by
      unfold off
      rw [sum_mul, ← range_eq_Ico]
      refine (abs_sum_le_sum_abs _ _).trans (sum_le_sum fun j hj => ?_)
      rw [abs_mul]
      exact mul_le_mul_of_nonneg_left (hmax j (mem_of_mem_erase hj)) (abs_nonneg _)
    have h3 : |A q q * x q| ≤ |A q q * x q + ∑ j ∈ (range n).erase q, A q j * x j| + |∑ j ∈ (range n).erase q, A q j * x j| := by
      have := abs_sub (A q q * x q + ∑ j ∈ (range n).erase q, A q j * x j) (∑ j ∈ (range n).erase q, A q j * x j)
      rwa [add_sub_cancel_right] at this
    rw [abs_mul] at h3
    unfold mu
    linarith
  rw [hx q hqn] at h1
  refine (hmax i (mem_range.mpr hi)).trans ?_
  have h2 := h1.trans (hb q hqn)
  rw [mul_comm Y] at h2
  exact le_of_mul_le_mul_left h2 (hδ q hqn)

/-- A vector measured against the margins of the rows. -/
theorem exact_vec (hk : k < n) (h0 : V k k ≠ 0) (hz : ∀ i < k, V k i = 0) {v : Nat → ℚ} {d g : ℚ} (hd : 0 ≤ d) (hg : 0 ≤ g)
    (hv : ∀ i < n, |v i| * d ≤ g * mu n k V i) :
    |v k / V k k| * d ≤ g * mu n (k + 1) (exactM k V) k ∧
    ∀ i < n, i ≠ k → (|v i| + |V i k * (v k / V k k)|) * d ≤ g * mu n (k + 1) (exactM k V) i := by
  have hp : 0 < |V k k| := abs_pos.mpr h0
  have h1 : |v k / V k k| * d ≤ g * (1 - tau n k V) := by
    rw [abs_div, div_mul_eq_mul_div, div_le_iff₀ hp, mul_assoc, (tau_eq hk h0).1]
    exact hv k hk
  refine ⟨by rw [(exactM_self h0).1]; exact h1, fun i hi hik => ?_⟩
  have h2 := (exactM_other hk hi hik (hz i)).1
  calc (|v i| + |V i k * (v k / V k k)|) * d = |v i| * d + |V i k| * (|v k / V k k| * d) := by rw [abs_mul]; ring
    _ ≤ g * mu n k V i + |V i k| * (g * (1 - tau n k V)) := add_le_add (hv i hi) (mul_le_mul_of_nonneg_left h1 (abs_nonneg _))
    _ = g * (mu n k V i + |V i k| * (1 - tau n k V)) := by ring
    _ ≤ _ := mul_le_mul_of_nonneg_left h2 hg

/-- What is known after `k` rounds. -/
structure RInv (φ : ℚ) (n p : Nat) (S δ d : Nat → ℚ) (κ : ℚ) (x : Nat → Nat → ℚ) (k : Nat) (V : Nat → Nat → ℚ) : Prop where
  unit : ∀ i < n, ∀ j < k, V i j = if i = j then 1 else 0
  ratio : ∀ i < n, rho n k V i ≤ κ * (1 + 4 * φ) ^ k * mu n k V i
  low : ∀ i < n, k ≤ i → δ i ≤ (1 + 4 * φ) ^ k * mu n k V i
  high : ∀ i < n, k ≤ i → rho n k V i ≤ (1 + 4 * φ) ^ k * S i
  rhs : ∀ c < p, ∀ i < n, |V i (c + n)| * d c ≤ (1 + 4 * φ) ^ k * mu n k V i
  residual : ∀ c < p, ∀ i < n, |∑ j ∈ range n, V i j * x j c - V i (c + n)| * d c ≤ k * (4 * φ) * (1 + 4 * φ) ^ k * mu n k V i

/-- The constants of the analysis. -/
structure RConst (n p : Nat) (S δ d : Nat → ℚ) (κ u η φ l D : ℚ) : Prop where
  u0 : 0 ≤ u
  η0 : 0 ≤ η
  l0 : 0 < l
  l1 : l ≤ 1
  φ_eq : φ = 10 * u * κ
  φ_le : φ ≤ 1 / 2
  κ1 : 1 ≤ κ
  κl : 2 * κ * l ≤ 1
  g2 : (1 + 4 * φ) ^ n ≤ 2
  δl : ∀ i < n, 2 * l ≤ δ i
  d0 : ∀ c < p, 0 < d c
  dD : ∀ c < p, d c ≤ D
  t1 : 32 * n * η ≤ u * l
  t2 : 64 * κ * η * D ≤ u * l

namespace RConst
variable {p : Nat} {S δ d : Nat → ℚ} {κ u η φ l D : ℚ} {x : Nat → Nat → ℚ}

theorem φ0 (h : RConst n p S δ d κ u η φ l D) : 0 ≤ φ := by
  rw [h.φ_eq]
  have := h.u0
  have := h.κ1
  positivity

theorem g1 (h : RConst n p S δ d κ u η φ l D) (k : Nat) : 1 ≤ (1 + 4 * φ) ^ k := one_le_pow₀ (by have := h.φ0; linarith)

theorem g_le (h : RConst n p S δ d κ u η φ l D) (hk : k ≤ n) : (1 + 4 * φ) ^ k ≤ 2 :=
  (pow_le_pow_right₀ (by have := h.φ0; linarith) hk).trans h.g2

theorem mu_pos (h : RConst n p S δ d κ u η φ l D) (hk : k ≤ n) (hV : RInv φ n p S δ d κ x k V) {i : Nat} (hi : i < n) : l ≤ mu n k V i := by
  have hg := h.g1 k
  have hg2 := h.g_le hk
  have hl := h.l0
  by_cases hik : k ≤ i
  · have h1 := (h.δl i hi).trans (hV.low i hi hik)
    by_contra hc
    push Not at hc
    have : (1 + 4 * φ) ^ k * mu n k V i ≤ (1 + 4 * φ) ^ k * l := mul_le_mul_of_nonneg_left hc.le (by linarith)
    nlinarith
  · have h1 := hV.ratio i hi
    have h2 : 1 ≤ rho n k V i := by
      have : V i i = 1 := by rw [hV.unit i hi i (by omega), if_pos rfl]
      unfold rho
      rw [this, abs_one]
      have := off_nonneg (n := n) (k := k) (V := V) i
      linarith
    have hκ := h.κ1
    by_contra hc
    push Not at hc
    have h3 := h.κl
    have h4 : κ * (1 + 4 * φ) ^ k ≤ κ * 2 := mul_le_mul_of_nonneg_left hg2 (by linarith)
    have h5 : 0 < κ * (1 + 4 * φ) ^ k := by positivity
    have h6 : κ * (1 + 4 * φ) ^ k * mu n k V i < κ * (1 + 4 * φ) ^ k * l := mul_lt_mul_of_pos_left hc h5
    have h7 : κ * (1 + 4 * φ) ^ k * l ≤ κ * 2 * l := mul_le_mul_of_nonneg_right h4 hl.le
    linarith

theorem pivot (h : RConst n p S δ d κ u η φ l D) (hk : k < n) (hV : RInv φ n p S δ d κ x k V) :
    V k k ≠ 0 ∧ 1 ≤ 2 * κ * (1 - tau n k V) := by
  have h1 := h.mu_pos hk.le hV hk
  have h0 : V k k ≠ 0 := by
    intro h0
    unfold mu at h1
    rw [h0, abs_zero] at h1
    have := h.l0
    have := off_nonneg (n := n) (k := k) (V := V) k
    linarith
  refine ⟨h0, ?_⟩
  obtain ⟨e1, e2⟩ := tau_eq hk h0
  have hp : 0 < |V k k| := abs_pos.mpr h0
  have h2 := hV.ratio k hk
  have hκ := h.κ1
  have h3 : κ * (1 + 4 * φ) ^ k * mu n k V k ≤ κ * 2 * mu n k V k :=
    mul_le_mul_of_nonneg_right (mul_le_mul_of_nonneg_left (h.g_le hk.le) (by linarith)) (h.l0.le.trans h1)
  have h4 : (1 + tau n k V) * |V k k| ≤ 2 * κ * (1 - tau n k V) * |V k k| := by
    rw [mul_assoc, e1, e2]
    linarith
  have h5 := le_of_mul_le_mul_right h4 hp
  have := tau_nonneg (n := n) (k := k) (V := V)
  linarith

theorem tau_le (h : RConst n p S δ d κ u η φ l D) (hk : k < n) (hV : RInv φ n p S δ d κ x k V) : tau n k V ≤ 1 := by
  have h1 := (h.pivot hk hV).2
  have := h.κ1
  by_contra hc
  push Not at hc
  nlinarith

/-- The margins after an exact round. -/
theorem le_exact (h : RConst n p S δ d κ u η φ l D) (hk : k < n) (hV : RInv φ n p S δ d κ x k V) {i : Nat} (hi : i < n) :
    l ≤ mu n (k + 1) (exactM k V) i ∧ rho n (k + 1) (exactM k V) i ≤ κ * (1 + 4 * φ) ^ k * mu n (k + 1) (exactM k V) i ∧
    (i ≠ k → mu n k V i ≤ mu n (k + 1) (exactM k V) i ∧ rho n (k + 1) (exactM k V) i ≤ rho n k V i) := by
  obtain ⟨h0, h1⟩ := h.pivot hk hV
  have hτ := h.tau_le hk hV
  have hκ := h.κ1
  by_cases hik : i = k
  · subst hik
    rw [(exactM_self h0).1, (exactM_self h0).2]
    refine ⟨?_, ?_, fun h => absurd rfl h⟩
    · by_contra hc
      push Not at hc
      have := h.κl
      nlinarith
    · have h2 := hV.ratio i hi
      obtain ⟨e1, e2⟩ := tau_eq hk h0
      rw [← e1, ← e2, ← mul_assoc] at h2
      exact le_of_mul_le_mul_right h2 (abs_pos.mpr h0)
  · obtain ⟨h2, h3⟩ := exactM_other (V := V) hk hi hik (fun hlt => by rw [hV.unit k hk i hlt, if_neg (by omega)])
    have h4 : 0 ≤ |V i k| * (1 - tau n k V) := mul_nonneg (abs_nonneg _) (by linarith)
    have h5 : mu n k V i ≤ mu n (k + 1) (exactM k V) i := by linarith
    have h6 : rho n (k + 1) (exactM k V) i ≤ rho n k V i := by linarith
    refine ⟨(h.mu_pos hk.le hV hi).trans h5, ?_, fun _ => ⟨h5, h6⟩⟩
    refine (h6.trans (hV.ratio i hi)).trans (mul_le_mul_of_nonneg_left h5 ?_)
    have := h.g1 k
    positivity

/-- A round. -/
theorem next (h : RConst n p S δ d κ u η φ l D) (hk : k < n) (hV : RInv φ n p S δ d κ x k V)
    (hx : ∀ c < p, ∀ j < n, |x j c| * d c ≤ 1)
    (hW : ∀ i < n, ∀ j ≤ k, W i j = if i = j then 1 else 0)
    (h1 : ∀ j, k < j → j < n + p → |W k j - V k j / V k k| ≤ u * |V k j / V k k| + η)
    (h2 : ∀ i < n, i ≠ k → ∀ j, k < j → j < n + p → |W i j - (V i j - V i k * (V k j / V k k))| ≤
      u * |V i j| + 4 * u * |V i k * (V k j / V k k)| + 16 * (|V i k| + 1) * η) : RInv φ n p S δ d κ x (k + 1) W := by
  obtain ⟨h0, hp⟩ := h.pivot hk hV
  have hτ := h.tau_le hk hV
  have hκ := h.κ1
  have hu := h.u0
  have hη := h.η0
  have hl := h.l0
  have hl1 := h.l1
  have hφ := h.φ0
  have hφe := h.φ_eq
  have hφ2 := h.φ_le
  have hg1 := h.g1 k
  have hg2 := h.g_le hk.le
  have ht1 := h.t1
  have ht2 := h.t2
  have hn : (1 : ℚ) ≤ n := by exact_mod_cast (show 1 ≤ n by omega)
  have hz : ∀ i < k, V k i = 0 := fun i hi => by rw [hV.unit k hk i hi, if_neg (by omega)]
  -- the errors
  obtain ⟨E, hE⟩ : ∃ E : Nat → Nat → ℚ, E = fun i j => W i j - exactM k V i j := ⟨_, rfl⟩
  have hE0 : ∀ i < n, ∀ j ≤ k, E i j = 0 := by
    intro i hi j hj
    rw [hE]
    beta_reduce
    rw [hW i hi j hj]
    unfold exactM exact
    rcases hj.eq_or_lt with rfl | hj
    · by_cases hij : i = j
      · rw [if_pos hij, if_pos hij, div_self h0, sub_self]
      · rw [if_neg hij, if_neg hij, div_self h0, mul_one, sub_self, sub_self]
    · dsimp only
      rw [hV.unit i hi j hj, hV.unit k hk j hj, if_neg (show k ≠ j by omega), zero_div, mul_zero, sub_zero]
      by_cases hik : i = k
      · rw [if_pos hik, if_neg (by omega), sub_zero]
      · rw [if_neg hik, sub_self]
  have e1 : ∀ j, k < j → j < n + p → |E k j| ≤ u * |V k j / V k k| + η := fun j hj hjn => by
    rw [hE]
    beta_reduce
    unfold exactM exact
    rw [if_pos rfl]
    exact h1 j hj hjn
  have e2 : ∀ i < n, i ≠ k → ∀ j, k < j → j < n + p → |E i j| ≤
      u * |V i j| + 4 * u * |V i k * (V k j / V k k)| + 16 * (|V i k| + 1) * η := fun i hi hik j hj hjn => by
    rw [hE]
    beta_reduce
    unfold exactM exact
    rw [if_neg hik]
    exact h2 i hi hik j hj hjn
  have hex := fun (i : Nat) (hi : i < n) => h.le_exact hk hV hi
  have hrho : ∀ i < n, rho n (k + 1) E i ≤ φ * mu n (k + 1) (exactM k V) i := by
    intro i hi
    obtain ⟨m1, m2, m3⟩ := hex i hi
    by_cases hik : i = k
    · subst hik
      have h3 := rho_err_self (n := n) (E := E) (V := V) hη (hE0 i hi i le_rfl) (fun j hj hjn => e1 j hj (by omega))
      rw [(exactM_self h0).1] at m1 ⊢
      have h4 : u * tau n i V ≤ u := mul_le_of_le_one_right hu hτ
      have h5 : u * l ≤ u := mul_le_of_le_one_right hu hl1
      have h6 : 5 * u * 1 ≤ 5 * u * (2 * κ * (1 - tau n i V)) := mul_le_mul_of_nonneg_left hp (by linarith)
      have h7 : 0 ≤ (n : ℚ) * η := by positivity
      rw [hφe]
      linarith
    · obtain ⟨m4, m5⟩ := m3 hik
      have h3 := rho_err (n := n) (E := E) (V := V) (T := 16 * (|V i k| + 1) * η) hu (by positivity) hk hi hik (hz i) hτ
        (fun hlt => hE0 i hi i hlt.le) (fun j hj hjn => e2 i hi hik j hj (by omega))
      have hr := hV.ratio i hi
      have hm := h.mu_pos hk.le hV hi
      have h4 : |V i k| ≤ rho n k V i := entry_le le_rfl hk
      have hr0 : l ≤ rho n k V i := hm.trans (mu_le_rho i)
      have h5 : n * (16 * (|V i k| + 1) * η) ≤ u * rho n k V i := by
        calc n * (16 * (|V i k| + 1) * η) = 16 * n * η * |V i k| + 16 * n * η := by ring
          _ ≤ 16 * n * η * rho n k V i + 16 * n * η := by
              have : 0 ≤ 16 * n * η := by positivity
              have := mul_le_mul_of_nonneg_left h4 this
              linarith
          _ ≤ (u * l / 2) * rho n k V i + u * l / 2 := by
              have : 16 * n * η ≤ u * l / 2 := by linarith
              have := mul_le_mul_of_nonneg_right this (rho_nonneg (n := n) (k := k) (V := V) i)
              linarith
          _ ≤ u * rho n k V i := by
              have r1 : u * l ≤ u * rho n k V i := mul_le_mul_of_nonneg_left hr0 hu
              have r2 : u * rho n k V i * l ≤ u * rho n k V i := mul_le_of_le_one_right (mul_nonneg hu (rho_nonneg i)) hl1
              linarith
      have h6 : rho n k V i ≤ κ * 2 * mu n k V i :=
        hr.trans (mul_le_mul_of_nonneg_right (mul_le_mul_of_nonneg_left hg2 (by linarith)) (hl.le.trans hm))
      have h7 : 5 * u * rho n k V i ≤ 5 * u * (κ * 2 * mu n (k + 1) (exactM k V) i) :=
        mul_le_mul_of_nonneg_left (h6.trans (mul_le_mul_of_nonneg_left m4 (by linarith))) (by linarith)
      rw [hφe]
      linarith
  have hF : ∀ c < p, ∀ i < n, |E i (c + n)| * d c ≤ φ * (1 + 4 * φ) ^ k * mu n (k + 1) (exactM k V) i := by
    intro c hc i hi
    obtain ⟨m1, m2, m3⟩ := hex i hi
    have hδ0 : 0 ≤ d c := (h.d0 c hc).le
    have hδD := h.dD c hc
    obtain ⟨b1, b2⟩ := exact_vec (v := fun i => V i (c + n)) hk h0 hz hδ0 (by linarith) (hV.rhs c hc)
    have hge : u * mu n (k + 1) (exactM k V) i ≤ u * (1 + 4 * φ) ^ k * mu n (k + 1) (exactM k V) i := by
      have : u * 1 ≤ u * (1 + 4 * φ) ^ k := mul_le_mul_of_nonneg_left hg1 hu
      rw [mul_one] at this
      exact mul_le_mul_of_nonneg_right this (by linarith)
    have h10 : 10 * (u * (1 + 4 * φ) ^ k * mu n (k + 1) (exactM k V) i) ≤ φ * (1 + 4 * φ) ^ k * mu n (k + 1) (exactM k V) i := by
      have p : 0 ≤ u * (1 + 4 * φ) ^ k * mu n (k + 1) (exactM k V) i := mul_nonneg (by positivity) (by linarith)
      have := mul_le_mul_of_nonneg_left hκ p
      have e : φ * (1 + 4 * φ) ^ k * mu n (k + 1) (exactM k V) i = 10 * (u * (1 + 4 * φ) ^ k * mu n (k + 1) (exactM k V) i * κ) := by
        generalize (1 + 4 * φ) ^ k = g
        rw [hφe]; ring
      rw [e]
      linarith
    have hD0 : 0 ≤ D := hδ0.trans hδD
    have hηD : 64 * (η * D) ≤ 64 * κ * η * D := by
      have p : 0 ≤ 64 * (η * D) := by positivity
      have := mul_le_mul_of_nonneg_right hκ p
      linarith
    have hul : u * l ≤ u * mu n (k + 1) (exactM k V) i := mul_le_mul_of_nonneg_left m1 hu
    have hηδ : η * d c ≤ η * D := mul_le_mul_of_nonneg_left hδD hη
    by_cases hik : i = k
    · subst hik
      have h3 := mul_le_mul_of_nonneg_right (e1 (c + n) (by omega) (by omega)) hδ0
      have h4 : u * (|V i (c + n) / V i i| * d c) ≤ u * ((1 + 4 * φ) ^ i * mu n (i + 1) (exactM i V) i) := mul_le_mul_of_nonneg_left b1 hu
      have p : 0 ≤ η * D := by positivity
      have h5 : (u * |V i (c + n) / V i i| + η) * d c ≤ u * (1 + 4 * φ) ^ i * mu n (i + 1) (exactM i V) i + η * d c := by
        linarith
      have p2 : 0 ≤ u * mu n (i + 1) (exactM i V) i := mul_nonneg hu (by linarith)
      linarith
    · obtain ⟨m4, m5⟩ := m3 hik
      have h3 := mul_le_mul_of_nonneg_right (e2 i hi hik (c + n) (by omega) (by omega)) hδ0
      have h4 := mul_le_mul_of_nonneg_left (b2 i hi hik) (show 0 ≤ 4 * u by linarith)
      have hr := hV.ratio i hi
      have hm := h.mu_pos hk.le hV hi
      have h6 : rho n k V i ≤ κ * 2 * mu n k V i :=
        hr.trans (mul_le_mul_of_nonneg_right (mul_le_mul_of_nonneg_left hg2 (by linarith)) (hl.le.trans hm))
      have h7 : |V i k| ≤ 2 * κ * mu n (k + 1) (exactM k V) i := by
        have := (entry_le (V := V) (i := i) le_rfl hk).trans (h6.trans (mul_le_mul_of_nonneg_left m4 (by linarith)))
        linarith
      have h8 : 16 * (|V i k| + 1) * η * d c ≤ u * mu n (k + 1) (exactM k V) i := by
        have p : 0 ≤ 16 * (η * D) := by positivity
        have q : 0 ≤ |V i k| + 1 := by positivity
        calc 16 * (|V i k| + 1) * η * d c = 16 * (|V i k| + 1) * (η * d c) := by ring
          _ ≤ 16 * (|V i k| + 1) * (η * D) := mul_le_mul_of_nonneg_left hηδ (by positivity)
          _ = 16 * (η * D) * |V i k| + 16 * (η * D) := by ring
          _ ≤ 16 * (η * D) * (2 * κ * mu n (k + 1) (exactM k V) i) + 16 * (η * D) := by
              have := mul_le_mul_of_nonneg_left h7 p
              linarith
          _ = (64 * κ * η * D) * mu n (k + 1) (exactM k V) i / 2 + 16 * (η * D) := by ring
          _ ≤ u * l * mu n (k + 1) (exactM k V) i / 2 + u * l / 4 := by
              have := mul_le_mul_of_nonneg_right ht2 (hl.le.trans m1)
              linarith
          _ ≤ u * mu n (k + 1) (exactM k V) i := by
              have r2 : u * mu n (k + 1) (exactM k V) i * l ≤ u * mu n (k + 1) (exactM k V) i :=
                mul_le_of_le_one_right (mul_nonneg hu (hl.le.trans m1)) hl1
              have : 0 ≤ u * l := by positivity
              linarith
      have p3 : 0 ≤ u * |V i (c + n)| * d c := by positivity
      have h9 : (u * |V i (c + n)| + 4 * u * |V i k * (V k (c + n) / V k k)| + 16 * (|V i k| + 1) * η) * d c ≤
          4 * (u * (1 + 4 * φ) ^ k * mu n (k + 1) (exactM k V) i) + 16 * (|V i k| + 1) * η * d c := by
        linarith
      have p4 : 0 ≤ u * (1 + 4 * φ) ^ k * mu n (k + 1) (exactM k V) i := mul_nonneg (by positivity) (by linarith)
      linarith
  -- the margins afterwards
  have key : ∀ i < n, (1 + φ) * mu n (k + 1) (exactM k V) i ≤ (1 + 4 * φ) * mu n (k + 1) W i := by
    intro i hi
    have h3 := mu_next (n := n) (k := k + 1) (V := exactM k V) (W := W) i
    rw [← hE] at h3
    have h4 := hrho i hi
    obtain ⟨m1, _⟩ := hex i hi
    have h5 : (1 - φ) * mu n (k + 1) (exactM k V) i ≤ mu n (k + 1) W i := by linarith
    have h6 := mul_le_mul_of_nonneg_left h5 (show 0 ≤ 1 + 4 * φ by linarith)
    have h7 : (1 + φ) * mu n (k + 1) (exactM k V) i ≤ (1 + 4 * φ) * (1 - φ) * mu n (k + 1) (exactM k V) i :=
      mul_le_mul_of_nonneg_right (by nlinarith) (by linarith)
    linarith
  have up : ∀ i < n, ∀ {q a : ℚ}, 0 ≤ a → q ≤ a * ((1 + φ) * mu n (k + 1) (exactM k V) i) → q ≤ a * (1 + 4 * φ) * mu n (k + 1) W i :=
    fun i hi q a ha hq => by
      have := mul_le_mul_of_nonneg_left (key i hi) ha
      linarith
  have hmu : ∀ i < n, 0 ≤ mu n (k + 1) (exactM k V) i := fun i hi => hl.le.trans (hex i hi).1
  refine ⟨fun i hi j hj => hW i hi j (by omega), fun i hi => ?_, fun i hi hik => ?_, fun i hi hik => ?_, fun c hc i hi => ?_, fun c hc i hi => ?_⟩
  · have h3 := rho_next (n := n) (k := k + 1) (V := exactM k V) (W := W) i
    rw [← hE] at h3
    rw [pow_succ, ← mul_assoc]
    refine up i hi (by positivity) ?_
    have h4 := hrho i hi
    have h5 := (hex i hi).2.1
    have h6 : φ * mu n (k + 1) (exactM k V) i ≤ κ * (1 + 4 * φ) ^ k * (φ * mu n (k + 1) (exactM k V) i) := by
      have p : 0 ≤ φ * mu n (k + 1) (exactM k V) i := mul_nonneg hφ (hmu i hi)
      exact le_mul_of_one_le_left p (one_le_mul_of_one_le_of_one_le hκ hg1)
    linarith
  · rw [pow_succ]
    refine up i hi (by linarith) ?_
    have h3 := hV.low i hi (by omega)
    have h4 := ((hex i hi).2.2 (by omega)).1
    have h5 := mul_le_mul_of_nonneg_left h4 (show 0 ≤ (1 + 4 * φ) ^ k by linarith)
    have p : 0 ≤ (1 + 4 * φ) ^ k * (φ * mu n (k + 1) (exactM k V) i) := mul_nonneg (by linarith) (mul_nonneg hφ (hmu i hi))
    linarith
  · have h3 := rho_next (n := n) (k := k + 1) (V := exactM k V) (W := W) i
    rw [← hE] at h3
    have h4 := hrho i hi
    have h5 := ((hex i hi).2.2 (by omega)).2
    have h6 := hV.high i hi (by omega)
    have h7 : φ * mu n (k + 1) (exactM k V) i ≤ φ * ((1 + 4 * φ) ^ k * S i) :=
      mul_le_mul_of_nonneg_left ((mu_le_rho i).trans (h5.trans h6)) hφ
    rw [pow_succ]
    have p : 0 ≤ φ * ((1 + 4 * φ) ^ k * S i) := (mul_nonneg hφ (hmu i hi)).trans h7
    linarith
  · rw [pow_succ]
    refine up i hi (by linarith) ?_
    have hδ0 : 0 ≤ d c := (h.d0 c hc).le
    obtain ⟨b1, b2⟩ := exact_vec (v := fun i => V i (c + n)) hk h0 hz hδ0 (by linarith) (hV.rhs c hc)
    have h3 := hF c hc i hi
    have h4 : |exactM k V i (c + n)| * d c ≤ (1 + 4 * φ) ^ k * mu n (k + 1) (exactM k V) i := by
      unfold exactM exact
      by_cases hik : i = k
      · rw [if_pos hik, hik]
        exact b1
      · rw [if_neg hik]
        exact (mul_le_mul_of_nonneg_right (abs_sub _ _) hδ0).trans (b2 i hi hik)
    have h5 : |W i (c + n)| ≤ |exactM k V i (c + n)| + |E i (c + n)| := by
      have := abs_add_le (exactM k V i (c + n)) (W i (c + n) - exactM k V i (c + n))
      rw [add_sub_cancel] at this
      rw [hE]
      exact this
    have h6 := mul_le_mul_of_nonneg_right h5 hδ0
    linarith
  · have hδ0 : 0 ≤ d c := (h.d0 c hc).le
    rw [pow_succ, ← mul_assoc]
    refine up i hi (by positivity) ?_
    obtain ⟨b1, b2⟩ := exact_vec (v := fun i => ∑ j ∈ range n, V i j * x j c - V i (c + n)) (g := k * (4 * φ) * (1 + 4 * φ) ^ k) hk h0 hz hδ0
      (by positivity) (hV.residual c hc)
    have h3 := hF c hc i hi
    have h4 : |exact k (fun i => V i k) (fun i => ∑ j ∈ range n, V i j * x j c - V i (c + n)) i| * d c ≤
        k * (4 * φ) * (1 + 4 * φ) ^ k * mu n (k + 1) (exactM k V) i := by
      unfold exact
      by_cases hik : i = k
      · rw [if_pos hik]
        subst hik
        exact b1
      · rw [if_neg hik]
        exact (mul_le_mul_of_nonneg_right (abs_sub _ _) hδ0).trans (b2 i hi hik)
    have h5 := residual_eq (n := n) (k := k) (a := fun i => V i k) (V := V) (W := W) (b := fun i => V i (c + n)) (b' := fun i => W i (c + n))
      (x := fun j => x j c) i
    have h6 : (∑ j ∈ range n, W i j * x j c - W i (c + n)) = exact k (fun i => V i k) (fun i => ∑ j ∈ range n, V i j * x j c - V i (c + n)) i +
        (∑ j ∈ range n, E i j * x j c - E i (c + n)) := by
      rw [hE]
      rw [sub_eq_iff_eq_add'] at h5
      exact h5
    rw [h6]
    have hδp : 0 < d c := h.d0 c hc
    have h7 : |∑ j ∈ range n, E i j * x j c| ≤ 1 / d c * rho n (k + 1) E i :=
      err_dot (x := fun j => x j c) (fun j hj => by rw [le_div_iff₀ hδp]; exact hx c hc j hj) hk (hE0 i hi)
    have h8 : |∑ j ∈ range n, E i j * x j c| * d c ≤ φ * mu n (k + 1) (exactM k V) i := by
      refine (mul_le_mul_of_nonneg_right h7 hδ0).trans ?_
      have : 1 / d c * rho n (k + 1) E i * d c = rho n (k + 1) E i := by
        field_simp
      rw [this]
      exact hrho i hi
    have h9 := abs_add_le (exact k (fun i => V i k) (fun i => ∑ j ∈ range n, V i j * x j c - V i (c + n)) i)
      (∑ j ∈ range n, E i j * x j c - E i (c + n))
    have h10 := abs_sub (∑ j ∈ range n, E i j * x j c) (E i (c + n))
    have h11 := mul_le_mul_of_nonneg_right (h9.trans (add_le_add_right h10 _)) hδ0
    have p0 := hmu i hi
    have p1 : φ * mu n (k + 1) (exactM k V) i ≤ φ * (1 + 4 * φ) ^ k * mu n (k + 1) (exactM k V) i :=
      mul_le_mul_of_nonneg_right (le_mul_of_one_le_right hφ hg1) p0
    push_cast
    have p2 : 0 ≤ φ * (1 + 4 * φ) ^ k * mu n (k + 1) (exactM k V) i := by positivity
    have p3 : 0 ≤ ((k : ℚ) + 1) * (4 * φ) * (1 + 4 * φ) ^ k * (φ * mu n (k + 1) (exactM k V) i) := by positivity
    linarith

end RConst

end Jordan
end CppMaths
