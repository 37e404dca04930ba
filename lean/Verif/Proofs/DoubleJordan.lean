import Verif.Proofs.JordanRows
import Verif.Proofs.DoubleDom
import Verif.Proofs.DoubleInv
/-!
# `inverse()` and `rref()` over `double` for matrices dominated by their diagonal
-/

namespace CppMaths
namespace Mat
open Double Jordan Finset

/-- The rounding of `x / d`. -/
theorem scale_err {x d : Double} {b c : ℚ} (hx : x.Denotes b) (hd : d.Denotes c) (hc : c ≠ 0) (h : |b / c| ≤ 2 ^ (1020 : Int)) :
    ∃ t, (Double.div x d).Denotes t ∧ |t - b / c| ≤ 1 / 2 ^ 53 * |b / c| + eta := by
  obtain ⟨z, e⟩ := div_denotes hx hd hc
  obtain ⟨t, ht⟩ := Vec.round_finite z (q := b / c) (h.trans (zpow_le_zpow_right₀ (by norm_num) (by norm_num)))
  have h1 := (denotes_round ht).1
  rw [← e] at ht
  refine ⟨t, ht, ?_⟩
  rwa [one_div_mul_eq_div]

theorem clear_aux {α t t' u η : ℚ} (h : |t' - t| ≤ |t| / u + η) (hη : 0 ≤ η) : |α * t' - α * t| ≤ |α * t| / u + (|α| + 1) * η := by
  rw [← mul_sub, abs_mul, abs_mul]
  have := mul_le_mul_of_nonneg_left h (abs_nonneg α)
  calc |α| * |t' - t| ≤ |α| * (|t| / u + η) := this
    _ = |α| * |t| / u + |α| * η := by ring
    _ ≤ _ := by linarith

/-- The rounding of `y - v * (x / d)`. -/
theorem clear_err {v x d y : Double} {a b c e : ℚ} (hv : v.Denotes a) (hx : x.Denotes b) (hd : d.Denotes c) (hy : y.Denotes e)
    (hc : c ≠ 0) (h1 : |b / c| ≤ 2 ^ (1020 : Int)) (h2 : |a * (b / c)| ≤ 2 ^ (1020 : Int)) (h3 : |e| ≤ 2 ^ (1020 : Int))
    (h4 : |a| ≤ 2 ^ (1020 : Int)) :
    ∃ t, (Double.sub y (Double.mul v (Double.div x d))).Denotes t ∧
      |t - (e - a * (b / c))| ≤ 1 / 2 ^ 53 * |e| + 4 * (1 / 2 ^ 53) * |a * (b / c)| + 16 * (|a| + 1) * eta := by
  obtain ⟨p, hp, hp'⟩ := scale_err hx hd hc h1
  rw [one_div_mul_eq_div] at hp'
  obtain ⟨z1, e1⟩ := mul_denotes hv hp
  have hT0 : 0 ≤ (|a| + 1) * eta := mul_nonneg (by have := abs_nonneg a; linarith) eta_pos.le
  have hT1 : (|a| + 1) * eta ≤ 1 := by
    have h5 : |a| + 1 ≤ 2 ^ (1021 : Int) := by
      have h6 : (1 : ℚ) ≤ 2 ^ (1020 : Int) := one_le_zpow₀ (by norm_num) (by norm_num)
      have h7 : (2 : ℚ) ^ (1021 : Int) = 2 * 2 ^ (1020 : Int) := by
        rw [show (1021 : Int) = 1 + 1020 by norm_num, zpow_add₀ (by norm_num)]; norm_num
      rw [h7]
      clear h7
      generalize (2 : ℚ) ^ (1020 : Int) = L at *
      linarith
    calc (|a| + 1) * eta ≤ 2 ^ (1021 : Int) * eta := mul_le_mul_of_nonneg_right h5 eta_pos.le
      _ = 2 ^ (-54 : Int) := by unfold eta; rw [← zpow_add₀ (by norm_num)]; norm_num
      _ ≤ 1 := by norm_num
  have hT2 : eta ≤ (|a| + 1) * eta := by
    have := mul_nonneg (abs_nonneg a) eta_pos.le
    linarith
  have k1 : |a * p - a * (b / c)| ≤ |a * (b / c)| / 2 ^ 53 + (|a| + 1) * eta := clear_aux hp' eta_pos.le
  have big : (2 : ℚ) ^ (1023 : Int) = 8 * 2 ^ (1020 : Int) := by
    rw [show (1023 : Int) = 3 + 1020 by norm_num, zpow_add₀ (by norm_num)]; norm_num
  have one : (4 : ℚ) ≤ 2 ^ (1020 : Int) := by
    rw [show (4 : ℚ) = 2 ^ (2 : Int) by norm_num]; exact zpow_le_zpow_right₀ (by norm_num) (by norm_num)
  have lim : ∀ (z : Bool) {q : ℚ}, |q| ≤ 8 * 2 ^ (1020 : Int) → ∃ r, (Double.round z q).Denotes r := fun z q h =>
    Vec.round_finite z (h.trans big.ge)
  rw [mul_assoc 16]
  clear big hp' h4 h1
  generalize (|a| + 1) * eta = T at *
  generalize (2 : ℚ) ^ (1020 : Int) = L at *
  generalize a * (b / c) = X at *
  have k2 := elim_aux1 hT0 k1
  obtain ⟨q, hq⟩ := lim z1 (q := a * p) (by have := abs_nonneg X; linarith)
  have hq' := (denotes_round hq).1
  rw [← e1] at hq
  have k3 := elim_aux2 hT0 k1 (hq'.trans (add_le_add_right hT2 _))
  obtain ⟨z3, e3⟩ := sub_denotes hy hq
  have k4 := elim_aux3 (e := e) hT0 k3
  obtain ⟨t, ht⟩ := lim z3 (q := e - q) (by linarith)
  rw [← e3] at ht
  refine ⟨t, ht, elim_aux4 hT0 k3 ?_⟩
  obtain ⟨a', b', ha', hb', h5⟩ := sub_err hy.1 hq.1 ht
  rwa [ha'.unique hy, hb'.unique hq] at h5

/-- Bounds on the columns of a matrix of size `n`. -/
structure JBounds (n p : Nat) (S δ T : Nat → ℚ) (κ : ℚ) : Prop where
  size : n * κ ≤ 2 ^ 47
  low : ∀ j < n, 2 ^ (-450 : Int) ≤ δ j
  ratio : ∀ j < n, S j ≤ κ * δ j
  le : ∀ j < n, δ j ≤ S j
  high : ∀ j < n, S j ≤ 2 ^ (450 : Int)
  low' : ∀ c < p, 2 ^ (-450 : Int) ≤ T c
  high' : ∀ c < p, T c ≤ 2 ^ (450 : Int)

/-- The sizes of the columns of the augmented matrix. -/
def scale (n : Nat) (S T : Nat → ℚ) (j : Nat) : ℚ := if j < n then S j else T (j - n)

/-- The weights of the rows above the pivot. -/
def half (δ : Nat → ℚ) (j : Nat) : ℚ := δ j / 2

/-- What is known after `k` rounds. -/
structure JInv (u : ℚ) (n p : Nat) (S δ T : Nat → ℚ) (x : Nat → Nat → ℚ) (k : Nat) (V : Nat → Nat → ℚ) : Prop where
  unit : ∀ i < n, ∀ j < k, V i j = if i = j then 1 else 0
  size : ∀ j, k ≤ j → j < n + p → pot n (half δ) k (fun i => V i j) ≤ (1 + 9 * u * k) * scale n S T j
  margin : ∀ j, k ≤ j → j < n → δ j - 27 * u * k * S j ≤ 2 * |V j j| - pot n (half δ) k (fun i => V i j)
  residual : ∀ c < p, pot n (half δ) k (fun i => ∑ j ∈ range n, V i j * x j c - V i (c + n)) ≤
    9 * u * k * (∑ j ∈ range n, |x j c| * S j + T c)

namespace JBounds
variable {n p : Nat} {S δ T : Nat → ℚ} {κ : ℚ}

theorem pos (h : JBounds n p S δ T κ) {j : Nat} (hj : j < n) : 0 < δ j := (two_zpow_pos _).trans_le (h.low j hj)

theorem half_pos (h : JBounds n p S δ T κ) {j : Nat} (hj : j < n) : 0 < half δ j := by
  have := h.pos hj
  unfold half
  linarith

theorem pos' (h : JBounds n p S δ T κ) {j : Nat} (hj : j < n) : 0 < S j := (h.pos hj).trans_le (h.le j hj)

theorem one_le (h : JBounds n p S δ T κ) (hn : 0 < n) : 1 ≤ κ := by
  have h1 := h.ratio 0 hn
  have h2 := h.le 0 hn
  have h3 := h.pos hn
  by_contra hc
  push Not at hc
  have := mul_lt_mul_of_pos_right hc h3
  linarith

theorem n_le (h : JBounds n p S δ T κ) (hn : 0 < n) : (n : ℚ) ≤ 2 ^ 47 := by
  have h1 := h.one_le hn
  have h2 := h.size
  have h3 : (0 : ℚ) ≤ n := Nat.cast_nonneg n
  nlinarith

theorem scale_pos (h : JBounds n p S δ T κ) {j : Nat} (hj : j < n + p) : 0 < scale n S T j := by
  unfold scale
  split
  · exact h.pos' (by assumption)
  · exact (two_zpow_pos _).trans_le (h.low' _ (by omega))

theorem le_scale (h : JBounds n p S δ T κ) {j : Nat} (hj : j < n + p) : 2 ^ (-450 : Int) ≤ scale n S T j := by
  unfold scale
  split
  · rename_i hj
    exact (h.low j hj).trans (h.le j hj)
  · exact h.low' _ (by omega)

theorem scale_le (h : JBounds n p S δ T κ) {j : Nat} (hj : j < n + p) : scale n S T j ≤ 2 ^ (450 : Int) := by
  unfold scale
  split
  · rename_i hj
    exact h.high j hj
  · exact h.high' _ (by omega)

theorem size_le (h : JBounds n p S δ T κ) {u : ℚ} (hu : u = 1 / 2 ^ 53) {x : Nat → Nat → ℚ} {k : Nat} (hk : k < n) {V : Nat → Nat → ℚ} (hV : JInv u n p S δ T x k V) {j : Nat} (h1 : k ≤ j)
    (h2 : j < n + p) : pot n (half δ) k (fun i => V i j) ≤ 2 * scale n S T j := by
  refine (hV.size j h1 h2).trans (mul_le_mul_of_nonneg_right ?_ (h.scale_pos h2).le)
  have h3 := h.n_le (by omega)
  have h4 : (k : ℚ) ≤ n := by exact_mod_cast hk.le
  subst hu
  linarith

theorem le_margin (h : JBounds n p S δ T κ) {u : ℚ} (hu : u = 1 / 2 ^ 53) {x : Nat → Nat → ℚ} {k : Nat} (hk : k < n) {V : Nat → Nat → ℚ} (hV : JInv u n p S δ T x k V) :
    half δ k ≤ 2 * |V k k| - pot n (half δ) k (fun i => V i k) := by
  refine le_trans ?_ (hV.margin k le_rfl hk)
  have h1 := h.ratio k hk
  have h2 := h.pos hk
  have h3 := h.size
  have h4 : (k : ℚ) ≤ n := by exact_mod_cast hk.le
  have h5 := h.one_le (by omega)
  have h6 : (k : ℚ) * S k ≤ 2 ^ 47 * δ k := by
    calc (k : ℚ) * S k ≤ n * (κ * δ k) := mul_le_mul h4 h1 (h.pos' hk).le (Nat.cast_nonneg n)
      _ = n * κ * δ k := by ring
      _ ≤ _ := mul_le_mul_of_nonneg_right h3 h2.le
  unfold half
  have : 27 * u * (k : ℚ) * S k = 27 * u * ((k : ℚ) * S k) := by ring
  rw [this]
  subst hu
  linarith

end JBounds

/-- What the entries satisfy in a round, with a bound `P` on the sums and on the inverses of the weights. -/
theorem entries_aux {n k : Nat} {w : Nat → ℚ} {a v : Nat → ℚ} {P : ℚ} (hk : k < n) (hP : 1 ≤ P) (hw : ∀ i < n, 0 < w i) (hwP : ∀ i < n, 1 ≤ P * w i)
    (hm : w k ≤ 2 * |a k| - pot n w k a) (hs : pot n w k v ≤ P) :
    a k ≠ 0 ∧ |v k / a k| ≤ P * P ∧ ∀ i < n, |v i| ≤ P * P ∧ (i ≠ k → |a i * (v k / a k)| ≤ P * P) := by
  have hw0 : ∀ i < n, 0 ≤ w i := fun i hi => (hw i hi).le
  obtain ⟨b1, b2⟩ := sum_bound_le (v := v) hk (hw k hk) hw0 hm
  have ewt : ∀ i < n, 1 ≤ P * wt w k i := fun i hi => by
    unfold wt
    split
    · exact hwP i hi
    · rw [mul_one]; exact hP
  have up : ∀ i < n, ∀ y : ℚ, 0 ≤ y → wt w k i * y ≤ P → y ≤ P * P := fun i hi y hy h => by
    calc y = 1 * y := (one_mul y).symm
      _ ≤ P * wt w k i * y := mul_le_mul_of_nonneg_right (ewt i hi) hy
      _ = P * (wt w k i * y) := by ring
      _ ≤ _ := mul_le_mul_of_nonneg_left h (by linarith)
  have hp : w k ≤ |a k| := by
    have := le_pot (k := k) (v := a) hw0 hk
    rw [wt_self] at this
    linarith
  refine ⟨abs_pos.mp b2, ?_, fun i hi => ⟨?_, fun hik => ?_⟩⟩
  · have h3 := le_pot (k := k) (v := v) hw0 hk
    rw [wt_self, one_mul] at h3
    rw [abs_div, div_le_iff₀ b2]
    calc |v k| ≤ P := h3.trans hs
      _ = P * 1 := (mul_one _).symm
      _ ≤ P * (P * w k) := mul_le_mul_of_nonneg_left (hwP k hk) (by linarith)
      _ = P * P * w k := (mul_assoc _ _ _).symm
      _ ≤ P * P * |a k| := mul_le_mul_of_nonneg_left hp (by positivity)
  · exact up i hi _ (abs_nonneg _) ((le_pot (k := k) (v := v) hw0 hi).trans hs)
  · refine up i hi _ (abs_nonneg _) (le_trans ?_ hs)
    have h3 : bound w k a v i ≤ ∑ i ∈ range n, bound w k a v i := by
      refine single_le_sum (f := bound w k a v) (fun a ha => ?_) (mem_range.mpr hi)
      exact (mul_nonneg (wt_nonneg hw0 (mem_range.mp ha)) (abs_nonneg _)).trans (exact_le hw0 (mem_range.mp ha))
    rw [sum_bound hk, bound, if_neg hik] at h3
    rw [abs_mul]
    have h4 := mul_nonneg (wt_nonneg (k := k) hw0 hi) (abs_nonneg (v i))
    rw [mul_assoc] at h3
    linarith

theorem JInv.entries {n p : Nat} {S δ T : Nat → ℚ} {κ : ℚ} (h : JBounds n p S δ T κ) {u : ℚ} (hu : u = 1 / 2 ^ 53) {x : Nat → Nat → ℚ} {k : Nat} (hk : k < n)
    {V : Nat → Nat → ℚ} (hV : JInv u n p S δ T x k V) {j : Nat} (h1 : k ≤ j) (h2 : j < n + p) :
    V k k ≠ 0 ∧ |V k j / V k k| ≤ 2 ^ (1020 : Int) ∧ ∀ i < n, |V i j| ≤ 2 ^ (1020 : Int) ∧ (i ≠ k → |V i k * (V k j / V k k)| ≤ 2 ^ (1020 : Int)) := by
  have e451 : (2 : ℚ) * 2 ^ (450 : Int) = 2 ^ (451 : Int) := by
    rw [show (451 : Int) = 1 + 450 by norm_num, zpow_add₀ (by norm_num)]; norm_num
  have hs := (h.size_le hu hk hV h1 h2).trans (mul_le_mul_of_nonneg_left (h.scale_le h2) (by norm_num))
  rw [e451] at hs
  have ew : ∀ i < n, 1 ≤ 2 ^ (451 : Int) * half δ i := fun i hi => by
    unfold half
    calc (1 : ℚ) = 2 ^ (451 : Int) * (2 ^ (-450 : Int) / 2) := by
          rw [mul_div_assoc', ← zpow_add₀ (by norm_num)]; norm_num
      _ ≤ _ := mul_le_mul_of_nonneg_left (div_le_div_of_nonneg_right (h.low i hi) (by norm_num)) (two_zpow_pos _).le
  have lim : (2 : ℚ) ^ (451 : Int) * 2 ^ (451 : Int) ≤ 2 ^ (1020 : Int) := by
    rw [← zpow_add₀ (by norm_num)]
    exact zpow_le_zpow_right₀ (by norm_num) (by norm_num)
  obtain ⟨a1, a2, a3⟩ := entries_aux (a := fun i => V i k) (v := fun i => V i j) hk (one_le_zpow₀ (by norm_num) (by norm_num))
    (fun i hi => h.half_pos hi) ew (h.le_margin hu hk hV) hs
  exact ⟨a1, a2.trans lim, fun i hi => ⟨(a3 i hi).1.trans lim, fun hik => ((a3 i hi).2 hik).trans lim⟩⟩

theorem JBounds.tiny {n p : Nat} {S δ T : Nat → ℚ} {κ : ℚ} (h : JBounds n p S δ T κ) (hn : 0 < n) {q : ℚ} (hp : q ≤ 2 * 2 ^ (450 : Int)) {j : Nat} (hj : j < n + p) :
    16 * eta * (q + ∑ i ∈ range n, (1 + half δ i)) ≤ 1 / 2 ^ 53 * scale n S T j := by
  have h1 : ∑ i ∈ range n, (1 + half δ i) ≤ 2 ^ 47 * 2 ^ (450 : Int) := by
    calc ∑ i ∈ range n, (1 + half δ i) ≤ ∑ i ∈ range n, (2 : ℚ) ^ (450 : Int) := by
          refine sum_le_sum fun i hi => ?_
          have hi := mem_range.mp hi
          have h2 := (h.le i hi).trans (h.high i hi)
          have h3 : (2 : ℚ) ≤ 2 ^ (450 : Int) := by
            calc (2 : ℚ) = 2 ^ (1 : Int) := by norm_num
              _ ≤ _ := zpow_le_zpow_right₀ (by norm_num) (by norm_num)
          unfold half
          generalize (2 : ℚ) ^ (450 : Int) = L at *
          linarith
      _ = n * 2 ^ (450 : Int) := by rw [sum_const, card_range, nsmul_eq_mul]
      _ ≤ _ := mul_le_mul_of_nonneg_right (h.n_le hn) (two_zpow_pos _).le
  have h2 : q + ∑ i ∈ range n, (1 + half δ i) ≤ 2 ^ 48 * 2 ^ (450 : Int) := by
    have := (two_zpow_pos 450).le
    generalize (2 : ℚ) ^ (450 : Int) = L at *
    linarith
  calc 16 * eta * (q + ∑ i ∈ range n, (1 + half δ i)) ≤ 16 * eta * (2 ^ 48 * 2 ^ (450 : Int)) :=
        mul_le_mul_of_nonneg_left h2 (mul_nonneg (by norm_num) eta_pos.le)
    _ = 2 ^ (4 : Int) * 2 ^ (-1075 : Int) * (2 ^ (48 : Int) * 2 ^ (450 : Int)) := by unfold eta; norm_num
    _ = 2 ^ (-573 : Int) := by rw [← zpow_add₀ (by norm_num), ← zpow_add₀ (by norm_num), ← zpow_add₀ (by norm_num)]; norm_num
    _ ≤ 2 ^ (-53 : Int) * 2 ^ (-450 : Int) := by rw [← zpow_add₀ (by norm_num)]; exact zpow_le_zpow_right₀ (by norm_num) (by norm_num)
    _ = 1 / 2 ^ 53 * 2 ^ (-450 : Int) := by congr 1; norm_num
    _ ≤ _ := mul_le_mul_of_nonneg_left (h.le_scale hj) (by positivity)

theorem step_arith {u s p q T : ℚ} (hu : 0 ≤ u) (hT : T ≤ u * s) (hp : p ≤ 2 * s) (hq : q ≤ 4 * u * p + T) : q ≤ 9 * u * s := by
  have := mul_le_mul_of_nonneg_left hp (show 0 ≤ 4 * u by linarith)
  linarith

/-- A round. -/
theorem JInv.next {n p : Nat} {S δ T : Nat → ℚ} {κ : ℚ} (h : JBounds n p S δ T κ) {u : ℚ} (hu : u = 1 / 2 ^ 53) {x : Nat → Nat → ℚ} {k : Nat} (hk : k < n) {V W : Nat → Nat → ℚ}
    (hV : JInv u n p S δ T x k V) (hW : ∀ i < n, ∀ j ≤ k, W i j = if i = j then 1 else 0)
    (h1 : ∀ j, k < j → j < n + p → |W k j - V k j / V k k| ≤ u * |V k j / V k k| + eta)
    (h2 : ∀ i < n, i ≠ k → ∀ j, k < j → j < n + p → |W i j - (V i j - V i k * (V k j / V k k))| ≤
      u * |V i j| + 4 * u * |V i k * (V k j / V k k)| + 16 * (|V i k| + 1) * eta) : JInv u n p S δ T x (k + 1) W := by
  have hw : ∀ i < n, 0 ≤ half δ i := fun i hi => (h.half_pos hi).le
  have hm := h.le_margin hu hk hV
  have hpk := h.half_pos hk
  have hk0 := (hV.entries h hu hk le_rfl (show k < n + p by omega)).1
  have hu0 : 0 ≤ u := by rw [hu]; positivity
  have err : ∀ j, k < j → j < n + p →
      pot n (half δ) (k + 1) (fun i => W i j - exact k (fun i => V i k) (fun i => V i j) i) ≤ 9 * u * scale n S T j := by
    intro j hj hjn
    have ht := h.tiny (by omega) ((h.size_le hu hk hV le_rfl (show k < n + p by omega)).trans
      (mul_le_mul_of_nonneg_left (h.scale_le (show k < n + p by omega)) (by norm_num))) hjn
    rw [← hu] at ht
    refine step_arith hu0 ht (h.size_le hu hk hV hj.le hjn) ?_
    refine pot_err hu0 eta_pos.le hk hpk hw hm ?_ ?_
    · rw [exact, if_pos rfl]
      exact h1 j hj hjn
    · intro i hi hik
      rw [exact, if_neg hik]
      exact h2 i hi hik j hj hjn
  have err0 : ∀ j, j ≤ k → pot n (half δ) (k + 1) (fun i => W i j - exact k (fun i => V i k) (fun i => V i j) i) = 0 := by
    intro j hj
    refine sum_eq_zero fun i hi => ?_
    have hi := mem_range.mp hi
    have : W i j - exact k (fun i => V i k) (fun i => V i j) i = 0 := by
      rw [hW i hi j hj]
      unfold exact
      rcases hj.eq_or_lt with rfl | hj
      · by_cases hij : i = j
        · rw [if_pos hij, if_pos hij, div_self hk0, sub_self]
        · rw [if_neg hij, if_neg hij, div_self hk0, mul_one, sub_self, sub_self]
      · dsimp only
        rw [hV.unit i hi j hj, hV.unit k hk j hj, if_neg (show k ≠ j by omega), zero_div, mul_zero, sub_zero]
        by_cases hik : i = k
        · rw [if_pos hik, if_neg (by omega), sub_zero]
        · rw [if_neg hik, sub_self]
    beta_reduce
    rw [this, abs_zero, mul_zero]
  refine ⟨fun i hi j hj => hW i hi j (by omega), fun j hj hjn => ?_, fun j hj hjn => ?_, fun c hc => ?_⟩
  · have h3 := pot_next (a := fun i => V i k) (v := fun i => V i j) (v' := fun i => W i j) hk hpk hw hm
    have h4 := err j (by omega) hjn
    have h5 := hV.size j (by omega) hjn
    push_cast
    linarith
  · have h3 := margin_next (a := fun i => V i k) (v := fun i => V i j) (v' := fun i => W i j) hk hpk hw hm hjn (by omega)
    have h4 := err j (by omega) (by omega)
    have h5 := hV.margin j (by omega) hjn
    rw [scale, if_pos hjn] at h4
    push_cast
    linarith
  · have h3 := residual_next (a := fun i => V i k) (V := V) (W := W) (b := fun i => V i (c + n)) (b' := fun i => W i (c + n)) (x := fun j => x j c) hk hpk hw hm
    have h4 := err (c + n) (by omega) (by omega)
    rw [scale, if_neg (by omega), Nat.add_sub_cancel] at h4
    have h5 : ∑ j ∈ range n, |x j c| * pot n (half δ) (k + 1) (fun i => W i j - exact k (fun i => V i k) (fun i => V i j) i) ≤
        9 * u * ∑ j ∈ range n, |x j c| * S j := by
      rw [mul_sum]
      refine sum_le_sum fun j hj => ?_
      have hj := mem_range.mp hj
      have h6 : pot n (half δ) (k + 1) (fun i => W i j - exact k (fun i => V i k) (fun i => V i j) i) ≤ 9 * u * S j := by
        by_cases hjk : j ≤ k
        · rw [err0 j hjk]
          exact mul_nonneg (by linarith) (h.pos' hj).le
        · have := err j (by omega) (by omega)
          rwa [scale, if_pos hj] at this
      calc _ ≤ |x j c| * (9 * u * S j) := mul_le_mul_of_nonneg_left h6 (abs_nonneg _)
        _ = _ := by ring
    have h6 := hV.residual c hc
    push_cast
    linarith

theorem full_denotes {m : Mat Double} {r c : Nat} {F : Nat → Nat → Double} {V : Nat → Nat → ℚ} (hm : Full Bits m r c F)
    (h : ∀ i < r, ∀ j < c, (F i j).Denotes (V i j)) : Full Denotes m r c V :=
  ⟨hm.1, hm.2.1, hm.2.2.1, fun i j hi hj _ => by
    obtain ⟨t, h1, h2, _⟩ := hm.2.2.2 i j hi hj trivial
    exact ⟨t, h1, by rw [h2]; exact h i hi j hj⟩⟩

theorem swapF_self {α : Type} (F : Nat → Nat → α) (k : Nat) : swapF F k k = F := by
  funext i j
  unfold swapF
  split
  · rename_i h
    rw [h]
  · rfl

/-- What keeps the numbers of a Gauss-Jordan elimination on `n` rows in range. -/
structure Keeps (n p : Nat) (I : Nat → (Nat → Nat → ℚ) → Prop) : Prop where
  unit : ∀ {k V}, I k V → ∀ i < n, ∀ j < k, V i j = if i = j then 1 else 0
  entries : ∀ {k V}, k < n → I k V → ∀ j, k ≤ j → j < n + p → V k k ≠ 0 ∧ |V k j / V k k| ≤ 2 ^ (1020 : Int) ∧
    ∀ i < n, |V i j| ≤ 2 ^ (1020 : Int) ∧ (i ≠ k → |V i k * (V k j / V k k)| ≤ 2 ^ (1020 : Int))
  next : ∀ {k V W}, k < n → I k V → (∀ i < n, ∀ j ≤ k, W i j = if i = j then 1 else 0) →
    (∀ j, k < j → j < n + p → |W k j - V k j / V k k| ≤ 1 / 2 ^ 53 * |V k j / V k k| + eta) →
    (∀ i < n, i ≠ k → ∀ j, k < j → j < n + p → |W i j - (V i j - V i k * (V k j / V k k))| ≤
      1 / 2 ^ 53 * |V i j| + 4 * (1 / 2 ^ 53) * |V i k * (V k j / V k k)| + 16 * (|V i k| + 1) * eta) → I (k + 1) W

theorem Keeps.loop {n p : Nat} {I : Nat → (Nat → Nat → ℚ) → Prop} (hI : Keeps n p I) (l : Nat) :
    ∀ (k : Nat) (m : Mat Double) (V : Nat → Nat → ℚ), k + l = n → Full Denotes m n (n + p) V → I k V →
    Out Never (rrefLoop Scalar.double l k k m) (fun m' => ∃ W, Full Denotes m' n (n + p) W ∧ I n W) := by
  induction l with
  | zero =>
    intro k m V hk hm hV
    obtain rfl : k = n := by omega
    exact Out.ok ⟨V, hm, hV⟩
  | succ l ih =>
    intro k m V hk hm hV
    have hkn : k < n := by omega
    obtain ⟨F, hF, hFV⟩ := full_bits hm
    have hent := hI.entries hkn hV
    have hk0 : V k k ≠ 0 := (hent k le_rfl (by omega)).1
    have hp := hFV k hkn k (by omega)
    unfold rrefLoop
    rw [hm.2.1, if_neg (by omega)]
    refine Out.bind (findPivot_now hF hkn (show k < n + p by omega) hp hk0) fun o ho => ?_
    subst ho
    dsimp only
    refine Out.bind (swapRows_ok hF hkn hkn) fun m1 hm1 => ?_
    rw [swapF_self] at hm1
    refine Out.bind (dscale_ok hm1 hkn (show k < n + p by omega)) fun m2 hm2 => ?_
    refine Out.bind (dclear_ok hm2 hkn (show k < n + p by omega)) fun m3 hm3 => ?_
    -- the numbers afterwards
    have hrow : ∀ j, dclearF (dscaleF F k (F k k)) k k k j = Double.div (F k j) (F k k) := fun j => by
      rw [dclearF, if_pos rfl, dscaleF, if_pos rfl]
    have hoth : ∀ i j, i ≠ k → dclearF (dscaleF F k (F k k)) k k i j = Double.sub (F i j) (Double.mul (F i k) (Double.div (F k j) (F k k))) :=
      fun i j h => by rw [dclearF, if_neg h, dscaleF, if_neg h, dscaleF, if_neg h, dscaleF, if_pos rfl]
    have hex : ∀ i j, ∃ w, i < n → j < n + p → (dclearF (dscaleF F k (F k k)) k k i j).Denotes w ∧
        (j ≤ k → w = if i = j then 1 else 0) ∧
        (k < j → i = k → |w - V k j / V k k| ≤ 1 / 2 ^ 53 * |V k j / V k k| + eta) ∧
        (k < j → i ≠ k → |w - (V i j - V i k * (V k j / V k k))| ≤
          1 / 2 ^ 53 * |V i j| + 4 * (1 / 2 ^ 53) * |V i k * (V k j / V k k)| + 16 * (|V i k| + 1) * eta) := by
      intro i j
      by_cases hij : i < n ∧ j < n + p
      · obtain ⟨hi, hj⟩ := hij
        by_cases hjk : j ≤ k
        · refine ⟨if i = j then 1 else 0, fun _ _ => ⟨?_, fun _ => rfl, fun h => absurd h (by omega), fun h => absurd h (by omega)⟩⟩
          rcases hjk.eq_or_lt with rfl | hjk
          · by_cases hik : i = j
            · rw [if_pos hik, hik, hrow]
              exact div_self' hp hk0
            · rw [if_neg hik, hoth i j hik]
              have h1 := hFV i hi j hj
              exact sub_self' h1 (mul_one' h1 (div_self' hp hk0))
          · have hz := hFV k hkn j hj
            rw [hI.unit hV k hkn j hjk, if_neg (by omega)] at hz
            have hz' := zero_div' hz hp hk0
            by_cases hik : i = k
            · rw [if_neg (by omega), hik, hrow]
              exact hz'
            · rw [hoth i j hik]
              have h1 := hFV i hi k (by omega)
              have h2 := hFV i hi j hj
              rw [hI.unit hV i hi j hjk] at h2
              exact sub_zero' h2 (mul_zero' h1.isFin h1.1 hz')
        · obtain ⟨_, a2, a3⟩ := hent j (by omega) hj
          by_cases hik : i = k
          · obtain ⟨t, t1, t2⟩ := scale_err (hFV k hkn j hj) hp hk0 a2
            refine ⟨t, fun _ _ => ⟨?_, fun h => absurd h hjk, fun _ _ => t2, fun _ h => absurd hik h⟩⟩
            rw [hik, hrow]
            exact t1
          · obtain ⟨t, t1, t2⟩ := clear_err (hFV i hi k (by omega)) (hFV k hkn j hj) hp (hFV i hi j hj) hk0 a2 ((a3 i hi).2 hik) (a3 i hi).1
              ((hent k le_rfl (by omega)).2.2 i hi).1
            refine ⟨t, fun _ _ => ⟨?_, fun h => absurd h hjk, fun _ h => absurd h hik, fun _ _ => t2⟩⟩
            rw [hoth i j hik]
            exact t1
      · exact ⟨0, fun h1 h2 => absurd ⟨h1, h2⟩ hij⟩
    choose W hW using hex
    refine ih (k + 1) m3 W (by omega) (full_denotes hm3 fun i hi j hj => (hW i j hi hj).1) (hI.next hkn hV ?_ ?_ ?_)
    · exact fun i hi j hj => (hW i j hi (by omega)).2.1 hj
    · exact fun j h1 h2 => (hW k j hkn h2).2.2.1 h1 rfl
    · exact fun i hi hik j h1 h2 => (hW i j hi h2).2.2.2 h1 hik

/-- The augmented matrix. -/
def augF (n : Nat) (V : Nat → Nat → ℚ) : Nat → Nat → ℚ := fun i j => if j < n then V i j else if i = j - n then 1 else 0

/-- `inverse()` of a matrix on which the numbers stay in range. -/
theorem Keeps.inverse {n : Nat} {I : Nat → (Nat → Nat → ℚ) → Prop} (hI : Keeps n n I) {m : Mat Double} {V : Nat → Nat → ℚ}
    (hm : Full Denotes m n n V) (h0 : I 0 (augF n V)) :
    Out Never (inverse Scalar.double m) (fun y => ∃ W, Full Denotes y n n (fun i j => W i (j + n)) ∧ I n W) := by
  unfold Mat.inverse
  simp only [hm.1, hm.2.1, ne_eq, not_true_eq_false, if_false]
  have hid : Out Never (identityMatrix Scalar.double n) (fun m => Full Denotes m n n (fun i j => if i = j then 1 else 0)) := by
    refine Out.bind (.inl ⟨_, rfl, rfl⟩) fun z hz => ?_
    subst hz
    refine Out.bind (filled_ok (rel := Denotes) (k := 0) ofInt_zero) fun r hr => ?_
    exact diag_loop_ok (v := fun _ => (1 : ℚ)) (e := fun _ => Scalar.double.ofInt 1) hr fun i hi => .inl ⟨_, rfl, ofInt_one⟩
  refine Out.bind hid fun id1 hid => ?_
  refine Out.bind (augmentedMatrix_ok hm hid) fun aug haug => ?_
  unfold inplaceRref
  rw [haug.1]
  refine Out.bind (hI.loop n 0 aug _ (by omega) (haug.weaken fun i j hi hj _ => ⟨trivial, rfl⟩) h0) fun red hred => ?_
  obtain ⟨W, hW, hIW⟩ := hred
  refine (pass_ok (rel := Denotes) (G := fun i j => W i (j + n)) (alloc_on n n (fun _ _ => 0)) fun a b m' ha hb hm' => ?_).mono
    fun y hy => ⟨W, hy, hIW⟩
  refine Out.bind (hW.get ha (show b < n + n by omega) trivial) fun x hx => ?_
  refine Out.bind (hid.get ha hb trivial) fun y hy => ?_
  have h1 : Scalar.double.ne x y = .ok (!Double.eq x y) := rfl
  rw [hI.unit hIW a ha b hb] at hx
  rw [h1, Double.eq_denotes hx hy, decide_eq_true rfl]
  refine Out.bind (.inl ⟨_, rfl, rfl⟩) fun d' hd' => ?_
  subst hd'
  simp only [Bool.not_true, Bool.false_eq_true, if_false]
  refine Out.bind (hW.get ha (show b + n < n + n by omega) trivial) fun t ht => ?_
  exact hm'.step ha hb ht

/-- `rref()` of a matrix on which the numbers stay in range. -/
theorem Keeps.rref {n p : Nat} {I : Nat → (Nat → Nat → ℚ) → Prop} (hI : Keeps n p I) {m : Mat Double} {V : Nat → Nat → ℚ}
    (hm : Full Denotes m n (n + p) V) (h0 : I 0 V) :
    Out Never (rref Scalar.double m) (fun y => ∃ W, Full Denotes y n (n + p) W ∧ I n W) := by
  unfold Mat.rref
  refine Out.bind (copy_ok hm) fun r hr => ?_
  unfold inplaceRref
  rw [hr.1]
  exact hI.loop n 0 r V (by omega) hr h0

/-- The columns stay dominated. -/
theorem JBounds.keeps {n p : Nat} {S δ T : Nat → ℚ} {κ : ℚ} (h : JBounds n p S δ T κ) (x : Nat → Nat → ℚ) : Keeps n p (JInv (1 / 2 ^ 53) n p S δ T x) := by
  obtain ⟨u, hu⟩ : ∃ u : ℚ, u = 1 / 2 ^ 53 := ⟨_, rfl⟩
  rw [← hu]
  refine ⟨fun hV => hV.unit, fun hk hV j h1 h2 => hV.entries h hu hk h1 h2, fun hk hV h1 h2 h3 => hV.next h hu hk h1 ?_ ?_⟩
  · rw [hu]; exact h2
  · rw [hu]; exact h3

theorem JInv.start {u : ℚ} {n p : Nat} {S δ T : Nat → ℚ} {V x : Nat → Nat → ℚ} (hS : ∀ j < n, ∑ i ∈ range n, |V i j| ≤ S j)
    (hδ : ∀ j < n, δ j ≤ 2 * |V j j| - ∑ i ∈ range n, |V i j|) (hT : ∀ c < p, ∑ i ∈ range n, |V i (c + n)| ≤ T c)
    (hx : ∀ i < n, ∀ c < p, ∑ j ∈ range n, V i j * x j c = V i (c + n)) : JInv u n p S δ T x 0 V := by
  have e3 : ∀ v : Nat → ℚ, pot n (half δ) 0 v = ∑ i ∈ range n, |v i| := fun v => sum_congr rfl fun i _ => by rw [wt_ge (Nat.zero_le i), one_mul]
  refine ⟨fun i _ j hj => absurd hj (by omega), fun j _ hj => ?_, fun j _ hj => ?_, fun c hc => ?_⟩
  · rw [e3, Nat.cast_zero, mul_zero, add_zero, one_mul, scale]
    by_cases hjn : j < n
    · rw [if_pos hjn]
      exact hS j hjn
    · rw [if_neg hjn]
      obtain ⟨c, rfl⟩ := Nat.exists_eq_add_of_le' (show n ≤ j by omega)
      rw [Nat.add_sub_cancel]
      exact hT c (by omega)
  · rw [e3, Nat.cast_zero, mul_zero, zero_mul, sub_zero]
    exact hδ j hj
  · rw [e3, Nat.cast_zero, mul_zero, zero_mul]
    refine le_of_eq (sum_eq_zero fun i hi => ?_)
    rw [hx i (mem_range.mp hi) c hc, sub_self, abs_zero]

theorem JInv.finish {n p : Nat} {S δ T : Nat → ℚ} {κ : ℚ} (h : JBounds n p S δ T κ) {x W : Nat → Nat → ℚ} (hW : JInv (1 / 2 ^ 53) n p S δ T x n W)
    {c : Nat} (hc : c < p) (hx : ∑ j ∈ range n, δ j * |x j c| ≤ T c) : ∑ i ∈ range n, δ i * |W i (c + n) - x i c| ≤ n * κ * T c / 2 ^ 47 := by
  rcases n.eq_zero_or_pos with rfl | hn
  · simp
  have h1 := hW.residual c hc
  have hT : 0 ≤ T c := (two_zpow_pos _).le.trans (h.low' c hc)
  have h2 : pot n (half δ) n (fun i => ∑ j ∈ range n, W i j * x j c - W i (c + n)) = ∑ i ∈ range n, half δ i * |W i (c + n) - x i c| := by
    refine sum_congr rfl fun i hi => ?_
    have hi := mem_range.mp hi
    rw [wt, if_pos hi, abs_sub_comm]
    congr 2
    rw [sub_right_inj, sum_congr rfl (fun j hj => by rw [hW.unit i hi j (mem_range.mp hj)]), ← add_sum_erase _ _ (mem_range.mpr hi),
      if_pos rfl, one_mul, sum_eq_zero, add_zero]
    intro j hj
    rw [if_neg (ne_of_mem_erase hj).symm, zero_mul]
  have hκ := h.one_le hn
  have h3 : ∑ j ∈ range n, |x j c| * S j ≤ κ * T c := by
    calc ∑ j ∈ range n, |x j c| * S j ≤ ∑ j ∈ range n, κ * (δ j * |x j c|) := sum_le_sum fun j hj => by
          have := mul_le_mul_of_nonneg_left (h.ratio j (mem_range.mp hj)) (abs_nonneg (x j c))
          linarith
      _ = κ * ∑ j ∈ range n, δ j * |x j c| := (mul_sum _ _ _).symm
      _ ≤ κ * T c := mul_le_mul_of_nonneg_left hx (by linarith)
  rw [h2] at h1
  have h4 : ∑ i ∈ range n, half δ i * |W i (c + n) - x i c| = (∑ i ∈ range n, δ i * |W i (c + n) - x i c|) / 2 := by
    rw [sum_div]
    refine sum_congr rfl fun i _ => ?_
    unfold half
    ring
  rw [h4] at h1
  have hn : (0 : ℚ) ≤ n := Nat.cast_nonneg n
  have hκT : T c ≤ κ * T c := le_mul_of_one_le_left hT hκ
  have h5 : (n : ℚ) * (∑ j ∈ range n, |x j c| * S j + T c) ≤ n * (2 * (κ * T c)) := mul_le_mul_of_nonneg_left (by linarith) hn
  have h6 : 0 ≤ (n : ℚ) * (κ * T c) := by positivity
  have h7 : 9 * (1 / 2 ^ 53) * (n : ℚ) * (∑ j ∈ range n, |x j c| * S j + T c) = 9 * (1 / 2 ^ 53) * ((n : ℚ) * (∑ j ∈ range n, |x j c| * S j + T c)) := by ring
  rw [h7] at h1
  rw [mul_assoc (n : ℚ)]
  linarith

/-- `rref()` of a matrix whose columns are dominated by the diagonal, followed by right-hand sides. -/
theorem jordan_solve_ok {n p : Nat} {S δ T : Nat → ℚ} {κ : ℚ} (h : JBounds n p S δ T κ) {m : Mat Double} {V x : Nat → Nat → ℚ}
    (hm : Full Denotes m n (n + p) V) (hS : ∀ j < n, ∑ i ∈ range n, |V i j| ≤ S j)
    (hδ : ∀ j < n, δ j ≤ 2 * |V j j| - ∑ i ∈ range n, |V i j|) (hT : ∀ c < p, ∑ i ∈ range n, |V i (c + n)| ≤ T c)
    (hx : ∀ i < n, ∀ c < p, ∑ j ∈ range n, V i j * x j c = V i (c + n)) :
    Out Never (rref Scalar.double m) (fun y => ∃ W, Full Denotes y n (n + p) W ∧ (∀ i < n, ∀ j < n, W i j = if i = j then 1 else 0) ∧
      ∀ c < p, ∑ i ∈ range n, δ i * |W i (c + n) - x i c| ≤ n * κ * T c / 2 ^ 47) := by
  refine ((h.keeps x).rref hm (JInv.start hS hδ hT hx)).mono fun y hy => ?_
  obtain ⟨W, hy, hW⟩ := hy
  exact ⟨W, hy, hW.unit, fun c hc => hW.finish h hc ((solve_le (fun i hi => hx i hi c hc) hδ).trans (hT c hc))⟩

/-- `inverse()` of a matrix whose columns are dominated by the diagonal. -/
theorem jordan_ok {n : Nat} {S δ : Nat → ℚ} {κ : ℚ} (h : JBounds n n S δ (fun _ => 1) κ) {m : Mat Double} {V x : Nat → Nat → ℚ} (hm : Full Denotes m n n V)
    (hS : ∀ j < n, ∑ i ∈ range n, |V i j| ≤ S j) (hδ : ∀ j < n, δ j ≤ 2 * |V j j| - ∑ i ∈ range n, |V i j|)
    (hx : ∀ i < n, ∀ c < n, ∑ j ∈ range n, V i j * x j c = if i = c then 1 else 0) :
    Out Never (inverse Scalar.double m) (fun y => ∃ W, Full Denotes y n n W ∧ ∀ c < n, ∑ i ∈ range n, δ i * |W i c - x i c| ≤ n * κ / 2 ^ 47) := by
  have e1 : ∀ i < n, ∀ c < n, augF n V i (c + n) = if i = c then 1 else 0 := fun i _ c _ => by
    rw [augF, if_neg (by omega), Nat.add_sub_cancel]
  have e2 : ∀ i, ∀ j < n, augF n V i j = V i j := fun i j hj => by rw [augF, if_pos hj]
  have e4 : ∀ c < n, ∑ i ∈ range n, |(if i = c then 1 else 0 : ℚ)| = 1 := fun c hc => by
    rw [← add_sum_erase _ _ (mem_range.mpr hc), if_pos rfl, abs_one, sum_eq_zero, add_zero]
    intro i hi
    rw [if_neg (ne_of_mem_erase hi), abs_zero]
  refine ((h.keeps x).inverse hm (JInv.start (fun j hj => ?_) (fun j hj => ?_) (fun c hc => ?_) fun i hi c hc => ?_)).mono fun y hy => ?_
  · simp only [e2 _ j hj]
    exact hS j hj
  · simp only [e2 _ j hj]
    exact hδ j hj
  · rw [sum_congr rfl fun i hi => by rw [e1 i (mem_range.mp hi) c hc]]
    exact (e4 c hc).le
  · rw [e1 i hi c hc, ← hx i hi c hc]
    exact sum_congr rfl fun j hj => by rw [e2 i j (mem_range.mp hj)]
  · obtain ⟨W, hy, hW⟩ := hy
    refine ⟨_, hy, fun c hc => ?_⟩
    have h1 := hW.finish h hc ((solve_le (fun i hi => hx i hi c hc) hδ).trans (e4 c hc).le)
    rwa [mul_one] at h1

/-! ### Rows -/

/-- Bounds on the rows of a matrix of size `n`. -/
structure RBounds (n p : Nat) (S δ d : Nat → ℚ) (κ : ℚ) : Prop where
  size : n * κ ≤ 2 ^ 46
  low : ∀ j < n, 2 ^ (-300 : Int) ≤ δ j
  ratio : ∀ j < n, S j ≤ κ * δ j
  le : ∀ j < n, δ j ≤ S j
  high : ∀ j < n, S j ≤ 2 ^ (300 : Int)
  low' : ∀ c < p, 2 ^ (-300 : Int) ≤ d c
  high' : ∀ c < p, d c ≤ 2 ^ (300 : Int)

theorem pow_two_le {t : ℚ} (ht : 0 ≤ t) {n : Nat} (h : n * t ≤ 1 / 2) : (1 + t) ^ n ≤ 2 := by
  have key : ∀ k : Nat, k ≤ n → (1 + t) ^ k * (1 - k * t) ≤ 1 := by
    intro k
    induction k with
    | zero => intro _; simp
    | succ k ih =>
      intro hk
      have h1 := ih (by omega)
      have h2 : (0 : ℚ) ≤ (1 + t) ^ k := by positivity
      rw [pow_succ, mul_assoc]
      refine le_trans (mul_le_mul_of_nonneg_left ?_ h2) h1
      push_cast
      have : 0 ≤ (k : ℚ) * t * t := by positivity
      nlinarith
  have h1 := key n le_rfl
  have h2 : (0 : ℚ) ≤ (1 + t) ^ n := by positivity
  nlinarith

namespace RBounds
variable {n p : Nat} {S δ d : Nat → ℚ} {κ : ℚ}

theorem one_le (h : RBounds n p S δ d κ) (hn : 0 < n) : 1 ≤ κ := by
  have h1 := h.ratio 0 hn
  have h2 := h.le 0 hn
  have h3 : 0 < δ 0 := (two_zpow_pos _).trans_le (h.low 0 hn)
  by_contra hc
  push Not at hc
  have := mul_lt_mul_of_pos_right hc h3
  linarith

theorem n_le (h : RBounds n p S δ d κ) (hn : 0 < n) : (n : ℚ) ≤ 2 ^ 46 := by
  have h1 := h.one_le hn
  have h2 := h.size
  have h3 : (0 : ℚ) ≤ n := Nat.cast_nonneg n
  nlinarith

theorem κ_le (h : RBounds n p S δ d κ) (hn : 0 < n) : κ ≤ 2 ^ 46 := by
  have h1 := h.one_le hn
  have h2 := h.size
  have h3 : (1 : ℚ) ≤ n := by exact_mod_cast hn
  nlinarith

theorem const (h : RBounds n p S δ d κ) (hn : 0 < n) {u φ : ℚ} (hu : u = 1 / 2 ^ 53) (hφ : φ = 10 * u * κ) :
    RConst n p S δ d κ u eta φ (2 ^ (-301 : Int)) (2 ^ (300 : Int)) := by
  have h1 := h.one_le hn
  have h2 := h.n_le hn
  have h3 := h.κ_le hn
  have hu0 : 0 ≤ u := by rw [hu]; positivity
  have e1 : u * 2 ^ (-301 : Int) = 2 ^ (-354 : Int) := by
    rw [hu, show (-354 : Int) = -53 + -301 by norm_num, zpow_add₀ (by norm_num)]; congr 1; norm_num
  refine ⟨hu0, eta_pos.le, two_zpow_pos _, zpow_le_one_of_nonpos₀ (by norm_num) (by norm_num), hφ, ?_, h1, ?_, ?_, fun i hi => ?_,
    fun c hc => (two_zpow_pos _).trans_le (h.low' c hc), h.high', ?_, ?_⟩
  · rw [hφ, hu]
    linarith
  · calc 2 * κ * 2 ^ (-301 : Int) ≤ 2 * 2 ^ 46 * 2 ^ (-301 : Int) :=
          mul_le_mul_of_nonneg_right (by linarith) (two_zpow_pos _).le
      _ = 2 ^ (47 : Int) * 2 ^ (-301 : Int) := by norm_num
      _ = 2 ^ (-254 : Int) := by rw [← zpow_add₀ (by norm_num)]; norm_num
      _ ≤ 1 := zpow_le_one_of_nonpos₀ (by norm_num) (by norm_num)
  · refine pow_two_le ?_ ?_
    · rw [hφ]; positivity
    · have h4 := h.size
      have e : n * (4 * φ) = 40 * u * (n * κ) := by rw [hφ]; ring
      rw [e, hu]
      linarith
  · refine le_of_eq_of_le ?_ (h.low i hi)
    rw [show (-300 : Int) = 1 + -301 by norm_num, zpow_add₀ (by norm_num)]; norm_num
  · rw [e1]
    calc 32 * n * eta ≤ 32 * 2 ^ 46 * eta := mul_le_mul_of_nonneg_right (by linarith) eta_pos.le
      _ = 2 ^ (51 : Int) * 2 ^ (-1075 : Int) := by unfold eta; norm_num
      _ = 2 ^ (-1024 : Int) := by rw [← zpow_add₀ (by norm_num)]; norm_num
      _ ≤ _ := zpow_le_zpow_right₀ (by norm_num) (by norm_num)
  · rw [e1]
    calc 64 * κ * eta * 2 ^ (300 : Int) ≤ 64 * 2 ^ 46 * eta * 2 ^ (300 : Int) :=
          mul_le_mul_of_nonneg_right (mul_le_mul_of_nonneg_right (by linarith) eta_pos.le) (two_zpow_pos _).le
      _ = 2 ^ (52 : Int) * 2 ^ (-1075 : Int) * 2 ^ (300 : Int) := by unfold eta; norm_num
      _ = 2 ^ (-723 : Int) := by rw [← zpow_add₀ (by norm_num), ← zpow_add₀ (by norm_num)]; norm_num
      _ ≤ _ := zpow_le_zpow_right₀ (by norm_num) (by norm_num)

end RBounds

/-- What the entries satisfy in a round, with a bound `P` on the margins, the sizes of the rows and the inverses of the margins. -/
theorem rentries_aux {n p : Nat} {S δ d : Nat → ℚ} {κ u η φ l D P : ℚ} (h : RConst n p S δ d κ u η φ l D) {x : Nat → Nat → ℚ} {k : Nat} (hk : k < n)
    {V : Nat → Nat → ℚ} (hV : RInv φ n p S δ d κ x k V) (hP : 2 ≤ P) (hS : ∀ i < n, 2 * S i ≤ P) (hδ : ∀ c < p, 1 ≤ P * d c) {j : Nat} (h1 : k ≤ j)
    (h2 : j < n + p) : V k k ≠ 0 ∧ |V k j / V k k| ≤ P ^ 3 ∧ ∀ i < n, |V i j| ≤ P ^ 3 ∧ (i ≠ k → |V i k * (V k j / V k k)| ≤ P ^ 3) := by
  obtain ⟨h0, hp⟩ := h.pivot hk hV
  have hτ := h.tau_le hk hV
  have hg := h.g_le hk.le
  have hg1 := h.g1 k
  have hl := h.l0
  have hrow : ∀ i < n, rho n k V i ≤ P := by
    intro i hi
    by_cases hik : k ≤ i
    · refine (hV.high i hi hik).trans ((mul_le_mul_of_nonneg_right hg ?_).trans (hS i hi))
      by_contra hc
      push Not at hc
      have h3 := hV.high i hi hik
      have h4 := rho_nonneg (n := n) (k := k) (V := V) i
      have h5 : (1 + 4 * φ) ^ k * S i < 0 := mul_neg_of_pos_of_neg (by linarith) hc
      linarith
    · have h3 := h.mu_pos hk.le hV hi
      have e : V i i = 1 := by rw [hV.unit i hi i (by omega), if_pos rfl]
      unfold mu at h3
      unfold rho
      rw [e, abs_one] at h3 ⊢
      linarith
  have hP1 : 1 ≤ P := by linarith
  have p1 : P ≤ P ^ 3 := by
    calc P = P ^ 1 := (pow_one P).symm
      _ ≤ _ := pow_le_pow_right₀ hP1 (by norm_num)
  have p2 : P ^ 2 ≤ P ^ 3 := pow_le_pow_right₀ hP1 (by norm_num)
  have hz : ∀ i < k, V k i = 0 := fun i hi => by rw [hV.unit k hk i hi, if_neg (by omega)]
  refine ⟨h0, ?_⟩
  by_cases hj : j < n
  · have ht : |V k j / V k k| ≤ 1 := by
      by_cases hjk : j = k
      · rw [hjk, div_self h0, abs_one]
      · exact (single_le_sum (f := fun j => |V k j / V k k|) (fun _ _ => abs_nonneg _) (mem_Ico.mpr ⟨show k + 1 ≤ j by omega, hj⟩)).trans hτ
    refine ⟨ht.trans (hP1.trans p1), fun i hi => ⟨((entry_le h1 hj).trans (hrow i hi)).trans p1, fun hik => ?_⟩⟩
    rw [abs_mul]
    calc |V i k| * |V k j / V k k| ≤ |V i k| * 1 := mul_le_mul_of_nonneg_left ht (abs_nonneg _)
      _ ≤ P ^ 3 := by rw [mul_one]; exact ((entry_le le_rfl hk).trans (hrow i hi)).trans p1
  · obtain ⟨c, rfl⟩ := Nat.exists_eq_add_of_le' (show n ≤ j by omega)
    have hc : c < p := by omega
    have hδ0 : 0 < d c := h.d0 c hc
    obtain ⟨b1, b2⟩ := exact_vec (v := fun i => V i (c + n)) hk h0 hz hδ0.le (by linarith) (hV.rhs c hc)
    have up : ∀ {y Q : ℚ}, 0 ≤ y → 0 ≤ Q → y * d c ≤ Q → y ≤ P * Q := fun {y Q} hy hQ h => by
      calc y = y * 1 := (mul_one y).symm
        _ ≤ y * (P * d c) := mul_le_mul_of_nonneg_left (hδ c hc) hy
        _ = P * (y * d c) := by ring
        _ ≤ _ := mul_le_mul_of_nonneg_left h (by linarith)
    have ht : |V k (c + n) / V k k| ≤ P ^ 2 := by
      rw [sq]
      refine up (abs_nonneg _) (by linarith) (b1.trans ?_)
      rw [(exactM_self h0).1]
      calc (1 + 4 * φ) ^ k * (1 - tau n k V) ≤ 2 * 1 :=
            mul_le_mul hg (by have := tau_nonneg (n := n) (k := k) (V := V); linarith) (by linarith) (by norm_num)
        _ ≤ P := by linarith
    refine ⟨ht.trans p2, fun i hi => ⟨?_, fun hik => ?_⟩⟩
    · rw [show P ^ 3 = P * (P * P) by ring]
      refine up (abs_nonneg _) (by positivity) ((hV.rhs c hc i hi).trans ?_)
      exact mul_le_mul (hg.trans hP) ((mu_le_rho i).trans (hrow i hi)) (hl.le.trans (h.mu_pos hk.le hV hi)) (by linarith)
    · rw [abs_mul, show P ^ 3 = P * P ^ 2 by ring]
      exact mul_le_mul ((entry_le le_rfl hk).trans (hrow i hi)) ht (abs_nonneg _) (by linarith)

/-- The rows stay dominated. -/
theorem RBounds.keeps {n p : Nat} {S δ d : Nat → ℚ} {κ : ℚ} (h : RBounds n p S δ d κ) {x : Nat → Nat → ℚ} (hx : ∀ c < p, ∀ j < n, |x j c| * d c ≤ 1)
    {u φ : ℚ} (hu : u = 1 / 2 ^ 53) (hφ : φ = 10 * u * κ) : Keeps n p (RInv φ n p S δ d κ x) := by
  refine ⟨fun hV => hV.unit, fun {k V} hk hV j h1 h2 => ?_, fun {k V W} hk hV h1 h2 h3 => (h.const (by omega) hu hφ).next hk hV hx h1 ?_ ?_⟩
  · have hc := h.const (by omega) hu hφ
    have e301 : (2 : ℚ) ^ (301 : Int) = 2 * 2 ^ (300 : Int) := by
      rw [show (301 : Int) = 1 + 300 by norm_num, zpow_add₀ (by norm_num)]; norm_num
    obtain ⟨a1, a2, a3⟩ := rentries_aux (P := 2 ^ (301 : Int)) hc hk hV (by
        rw [e301]
        have : (1 : ℚ) ≤ 2 ^ (300 : Int) := one_le_zpow₀ (by norm_num) (by norm_num)
        exact le_mul_of_one_le_right (by norm_num) this) (fun i hi => by
          rw [e301]
          exact mul_le_mul_of_nonneg_left (h.high i hi) (by norm_num)) (fun c hc => by
          calc (1 : ℚ) ≤ 2 ^ (301 : Int) * 2 ^ (-300 : Int) := by rw [← zpow_add₀ (by norm_num)]; norm_num
            _ ≤ _ := mul_le_mul_of_nonneg_left (h.low' c hc) (two_zpow_pos _).le) h1 h2
    have lim : ((2 : ℚ) ^ (301 : Int)) ^ 3 ≤ 2 ^ (1020 : Int) := by
      rw [← zpow_natCast, ← zpow_mul]
      exact zpow_le_zpow_right₀ (by norm_num) (by norm_num)
    exact ⟨a1, a2.trans lim, fun i hi => ⟨(a3 i hi).1.trans lim, fun hik => ((a3 i hi).2 hik).trans lim⟩⟩
  · rw [hu]; exact h2
  · rw [hu]; exact h3

theorem RBounds.start {n p : Nat} {S δ d : Nat → ℚ} {κ : ℚ} (h : RBounds n p S δ d κ) {φ : ℚ} {V x : Nat → Nat → ℚ}
    (hS : ∀ i < n, rho n 0 V i ≤ S i) (hδ : ∀ i < n, δ i ≤ mu n 0 V i) (hd : ∀ c < p, ∀ i < n, |V i (c + n)| * d c ≤ mu n 0 V i)
    (hx : ∀ i < n, ∀ c < p, ∑ j ∈ range n, V i j * x j c = V i (c + n)) : RInv φ n p S δ d κ x 0 V := by
  refine ⟨fun i _ j hj => absurd hj (by omega), fun i hi => ?_, fun i hi _ => ?_, fun i hi _ => ?_, fun c hc i hi => ?_, fun c hc i hi => ?_⟩
  · rw [pow_zero, mul_one]
    exact ((hS i hi).trans (h.ratio i hi)).trans (mul_le_mul_of_nonneg_left (hδ i hi) (by have := h.one_le (by omega); linarith))
  · rw [pow_zero, one_mul]
    exact hδ i hi
  · rw [pow_zero, one_mul]
    exact hS i hi
  · rw [pow_zero, one_mul]
    exact hd c hc i hi
  · rw [Nat.cast_zero, zero_mul, zero_mul, zero_mul, hx i hi c hc, sub_self, abs_zero, zero_mul]

theorem RBounds.finish {n p : Nat} {S δ d : Nat → ℚ} {κ : ℚ} (h : RBounds n p S δ d κ) {u φ : ℚ} (hu : u = 1 / 2 ^ 53) (hφ : φ = 10 * u * κ)
    {x W : Nat → Nat → ℚ} (hW : RInv φ n p S δ d κ x n W) {i c : Nat} (hi : i < n) (hc : c < p) : d c * |W i (c + n) - x i c| ≤ n * κ / 2 ^ 46 := by
  have h1 := hW.residual c hc i hi
  have h2 : ∑ j ∈ range n, W i j * x j c = x i c := by
    rw [sum_congr rfl (fun j hj => by rw [hW.unit i hi j (mem_range.mp hj)]), ← add_sum_erase _ _ (mem_range.mpr hi),
      if_pos rfl, one_mul, sum_eq_zero, add_zero]
    intro j hj
    rw [if_neg (ne_of_mem_erase hj).symm, zero_mul]
  have h3 : mu n n W i = 1 := by
    unfold mu off
    rw [hW.unit i hi i hi, if_pos rfl, abs_one, Ico_self, erase_empty, sum_empty, sub_zero]
  rw [h2, h3, mul_one, abs_sub_comm, mul_comm] at h1
  refine h1.trans ?_
  have hc := h.const (by omega) hu hφ
  have hg := hc.g2
  have hκ := hc.κ1
  have h4 : (n : ℚ) * (4 * φ) * (1 + 4 * φ) ^ n ≤ n * (4 * φ) * 2 := mul_le_mul_of_nonneg_left hg (by have := hc.φ0; positivity)
  have e : (n : ℚ) * (4 * φ) * 2 = 80 * u * (n * κ) := by rw [hφ]; ring
  have h5 : 0 ≤ (n : ℚ) * κ := by positivity
  rw [e, hu] at h4
  linarith

/-- The solutions are no larger than the right-hand sides measured against the margins. -/
theorem RBounds.sol {n p : Nat} {S δ d : Nat → ℚ} {κ : ℚ} (h : RBounds n p S δ d κ) {V x : Nat → Nat → ℚ}
    (hδ : ∀ i < n, δ i ≤ mu n 0 V i) (hd : ∀ c < p, ∀ i < n, |V i (c + n)| * d c ≤ mu n 0 V i)
    (hx : ∀ i < n, ∀ c < p, ∑ j ∈ range n, V i j * x j c = V i (c + n)) : ∀ c < p, ∀ j < n, |x j c| * d c ≤ 1 := fun c hc j hj => by
  have hd0 : 0 < d c := (two_zpow_pos _).trans_le (h.low' c hc)
  have h1 := solve_rows (Y := 1 / d c) (fun i hi => hx i hi c hc)
    (fun i hi => ((two_zpow_pos _).trans_le (h.low i hi)).trans_le (hδ i hi)) (fun i hi => by
      rw [div_mul_eq_mul_div, one_mul, le_div_iff₀ hd0]; exact hd c hc i hi) j hj
  rwa [le_div_iff₀ hd0] at h1

/-- `rref()` of a matrix whose rows are dominated by the diagonal, followed by right-hand sides. -/
theorem jordan_rows_solve_ok {n p : Nat} {S δ d : Nat → ℚ} {κ : ℚ} (h : RBounds n p S δ d κ) {m : Mat Double} {V x : Nat → Nat → ℚ}
    (hm : Full Denotes m n (n + p) V) (hS : ∀ i < n, rho n 0 V i ≤ S i) (hδ : ∀ i < n, δ i ≤ mu n 0 V i)
    (hd : ∀ c < p, ∀ i < n, |V i (c + n)| * d c ≤ mu n 0 V i) (hx : ∀ i < n, ∀ c < p, ∑ j ∈ range n, V i j * x j c = V i (c + n)) :
    Out Never (rref Scalar.double m) (fun y => ∃ W, Full Denotes y n (n + p) W ∧ (∀ i < n, ∀ j < n, W i j = if i = j then 1 else 0) ∧
      ∀ i < n, ∀ c < p, d c * |W i (c + n) - x i c| ≤ n * κ / 2 ^ 46) := by
  obtain ⟨u, hu⟩ : ∃ u : ℚ, u = 1 / 2 ^ 53 := ⟨_, rfl⟩
  obtain ⟨φ, hφ⟩ : ∃ φ : ℚ, φ = 10 * u * κ := ⟨_, rfl⟩
  refine ((h.keeps (h.sol hδ hd hx) hu hφ).rref hm (h.start hS hδ hd hx)).mono fun y hy => ?_
  obtain ⟨W, hy, hW⟩ := hy
  exact ⟨W, hy, hW.unit, fun i hi c hc => h.finish hu hφ hW hi hc⟩

/-- `inverse()` of a matrix whose rows are dominated by the diagonal. -/
theorem jordan_rows_ok {n : Nat} {S δ : Nat → ℚ} {κ : ℚ} (h : RBounds n n S δ δ κ) {m : Mat Double} {V x : Nat → Nat → ℚ} (hm : Full Denotes m n n V)
    (hS : ∀ i < n, rho n 0 V i ≤ S i) (hδ : ∀ i < n, δ i ≤ mu n 0 V i)
    (hx : ∀ i < n, ∀ c < n, ∑ j ∈ range n, V i j * x j c = if i = c then 1 else 0) :
    Out Never (inverse Scalar.double m) (fun y => ∃ W, Full Denotes y n n W ∧ ∀ i < n, ∀ c < n, δ c * |W i c - x i c| ≤ n * κ / 2 ^ 46) := by
  have hδ0 : ∀ i < n, 0 < δ i := fun i hi => (two_zpow_pos _).trans_le (h.low i hi)
  have e1 : ∀ i < n, ∀ c < n, augF n V i (c + n) = if i = c then 1 else 0 := fun i _ c _ => by
    rw [augF, if_neg (by omega), Nat.add_sub_cancel]
  have e2 : ∀ i, ∀ j < n, augF n V i j = V i j := fun i j hj => by rw [augF, if_pos hj]
  have eo : ∀ i < n, off n 0 (augF n V) i = off n 0 V i := fun i hi =>
    sum_congr rfl fun j hj => by rw [e2 i j (mem_Ico.mp (mem_of_mem_erase hj)).2]
  have em : ∀ i < n, mu n 0 (augF n V) i = mu n 0 V i := fun i hi => by unfold mu; rw [eo i hi, e2 i i hi]
  have er : ∀ i < n, rho n 0 (augF n V) i = rho n 0 V i := fun i hi => by unfold rho; rw [eo i hi, e2 i i hi]
  have hδ' : ∀ i < n, δ i ≤ mu n 0 (augF n V) i := fun i hi => by rw [em i hi]; exact hδ i hi
  have hd' : ∀ c < n, ∀ i < n, |augF n V i (c + n)| * δ c ≤ mu n 0 (augF n V) i := fun c hc i hi => by
    rw [em i hi, e1 i hi c hc]
    by_cases hic : i = c
    · rw [if_pos hic, abs_one, one_mul, hic]
      exact hδ c hc
    · rw [if_neg hic, abs_zero, zero_mul]
      exact (hδ0 i hi).le.trans (hδ i hi)
  have hx' : ∀ i < n, ∀ c < n, ∑ j ∈ range n, augF n V i j * x j c = augF n V i (c + n) := fun i hi c hc => by
    rw [e1 i hi c hc, ← hx i hi c hc]
    exact sum_congr rfl fun j hj => by rw [e2 i j (mem_range.mp hj)]
  obtain ⟨u, hu⟩ : ∃ u : ℚ, u = 1 / 2 ^ 53 := ⟨_, rfl⟩
  obtain ⟨φ, hφ⟩ : ∃ φ : ℚ, φ = 10 * u * κ := ⟨_, rfl⟩
  refine ((h.keeps (h.sol hδ' hd' hx') hu hφ).inverse hm (h.start (fun i hi => by rw [er i hi]; exact hS i hi) hδ' hd' hx')).mono fun y hy => ?_
  obtain ⟨W, hy, hW⟩ := hy
  exact ⟨_, hy, fun i hi c hc => h.finish hu hφ hW hi hc⟩

end Mat
end CppMaths
