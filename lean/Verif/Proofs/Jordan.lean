import Mathlib.Algebra.Order.BigOperators.Ring.Finset
import Mathlib.Algebra.Order.Field.Basic
import Mathlib.Algebra.BigOperators.Field
import Mathlib.Data.Rat.Cast.Order
import Mathlib.Tactic.Linarith
import Mathlib.Tactic.Ring
import Mathlib.Tactic.FieldSimp
import Mathlib.Tactic.Positivity
/-!
# Gauss-Jordan elimination on matrices whose columns are dominated by the diagonal

The rows above the pivot are weighted with `w`, the others with 1.
-/

namespace CppMaths
namespace Jordan
open Finset

/-- The weight of row `i` after `k` rounds. -/
def wt (w : Nat → ℚ) (k i : Nat) : ℚ := if i < k then w i else 1

/-- The weighted sum of the absolute values of a column. -/
def pot (n : Nat) (w : Nat → ℚ) (k : Nat) (v : Nat → ℚ) : ℚ := ∑ i ∈ range n, wt w k i * |v i|

/-- A round of the elimination with pivot row `k` and pivot column `a`, on the column `v`. -/
def exact (k : Nat) (a v : Nat → ℚ) : Nat → ℚ := fun i => if i = k then v k / a k else v i - a i * (v k / a k)

variable {n k : Nat} {w : Nat → ℚ} {a v e : Nat → ℚ}

theorem wt_nonneg (hw : ∀ i < n, 0 ≤ w i) {i : Nat} (hi : i < n) : 0 ≤ wt w k i := by
  unfold wt
  split
  · exact hw i hi
  · exact zero_le_one

theorem wt_succ_ne {i : Nat} (h : i ≠ k) : wt w (k + 1) i = wt w k i := by
  unfold wt
  by_cases hi : i < k
  · rw [if_pos hi, if_pos (by omega)]
  · rw [if_neg hi, if_neg (by omega)]

theorem wt_succ_self : wt w (k + 1) k = w k := if_pos (Nat.lt_succ_self k)

theorem wt_self : wt w k k = 1 := if_neg (lt_irrefl k)

theorem wt_ge {i : Nat} (h : k ≤ i) : wt w k i = 1 := if_neg (by omega)

theorem pot_nonneg (hw : ∀ i < n, 0 ≤ w i) : 0 ≤ pot n w k v :=
  sum_nonneg fun i hi => mul_nonneg (wt_nonneg hw (mem_range.mp hi)) (abs_nonneg _)

theorem le_pot (hw : ∀ i < n, 0 ≤ w i) {i : Nat} (hi : i < n) : wt w k i * |v i| ≤ pot n w k v :=
  single_le_sum (f := fun i => wt w k i * |v i|) (fun i hi => mul_nonneg (wt_nonneg hw (mem_range.mp hi)) (abs_nonneg _)) (mem_range.mpr hi)

theorem pot_add (hw : ∀ i < n, 0 ≤ w i) : pot n w k (fun i => v i + e i) ≤ pot n w k v + pot n w k e := by
  unfold pot
  rw [← sum_add_distrib]
  refine sum_le_sum fun i hi => ?_
  rw [← mul_add]
  exact mul_le_mul_of_nonneg_left (abs_add_le _ _) (wt_nonneg hw (mem_range.mp hi))

theorem pot_mono {v' : Nat → ℚ} (hw : ∀ i < n, 0 ≤ w i) (h : ∀ i < n, |v i| ≤ |v' i|) : pot n w k v ≤ pot n w k v' :=
  sum_le_sum fun i hi => mul_le_mul_of_nonneg_left (h i (mem_range.mp hi)) (wt_nonneg hw (mem_range.mp hi))

theorem pot_congr {v' : Nat → ℚ} (h : ∀ i < n, v i = v' i) : pot n w k v = pot n w k v' :=
  sum_congr rfl fun i hi => by rw [h i (mem_range.mp hi)]

/-- The bounds on the rows that the sum after a round is made of. -/
def bound (w : Nat → ℚ) (k : Nat) (a v : Nat → ℚ) (i : Nat) : ℚ :=
  if i = k then w k * |v k / a k| else wt w k i * |v i| + wt w k i * |a i| * |v k / a k|

theorem sum_bound (hk : k < n) : ∑ i ∈ range n, bound w k a v i =
    (pot n w k v - |v k|) + |v k / a k| * (w k + pot n w k a - |a k|) := by
  have e1 : ∀ f : Nat → ℚ, ∑ i ∈ range n, f i = f k + ∑ i ∈ (range n).erase k, f i := fun f =>
    (add_sum_erase _ f (mem_range.mpr hk)).symm
  unfold pot
  rw [e1 (bound w k a v), e1 (fun i => wt w k i * |v i|), e1 (fun i => wt w k i * |a i|)]
  rw [wt_self]
  have e2 : ∑ i ∈ (range n).erase k, bound w k a v i =
      ∑ i ∈ (range n).erase k, wt w k i * |v i| + (∑ i ∈ (range n).erase k, wt w k i * |a i|) * |v k / a k| := by
    rw [sum_mul, ← sum_add_distrib]
    refine sum_congr rfl fun i hi => ?_
    rw [bound, if_neg (ne_of_mem_erase hi)]
  rw [e2, bound, if_pos rfl]
  ring

/-- The pivot exceeds the rest of its column by `w k`. -/
theorem sum_bound_le (hk : k < n) (hwk : 0 < w k) (hw : ∀ i < n, 0 ≤ w i) (h : w k ≤ 2 * |a k| - pot n w k a) :
    |v k / a k| * (w k + pot n w k a - |a k|) ≤ |v k| ∧ 0 < |a k| := by
  have hp : 0 < |a k| := by
    have h1 := le_pot (k := k) (v := a) hw hk
    rw [wt_self] at h1
    linarith
  refine ⟨?_, hp⟩
  calc |v k / a k| * (w k + pot n w k a - |a k|) ≤ |v k / a k| * |a k| :=
        mul_le_mul_of_nonneg_left (by linarith) (abs_nonneg _)
    _ = |v k| := by rw [abs_div, div_mul_cancel₀ _ hp.ne']

theorem exact_le (hw : ∀ i < n, 0 ≤ w i) {i : Nat} (hi : i < n) : wt w (k + 1) i * |exact k a v i| ≤ bound w k a v i := by
  unfold exact bound
  by_cases h : i = k
  · rw [if_pos h, if_pos h, h, wt_succ_self]
  · rw [if_neg h, if_neg h, wt_succ_ne h]
    have h1 : |v i - a i * (v k / a k)| ≤ |v i| + |a i| * |v k / a k| := by
      rw [← abs_mul]
      exact abs_sub _ _
    calc wt w k i * |v i - a i * (v k / a k)| ≤ wt w k i * (|v i| + |a i| * |v k / a k|) :=
          mul_le_mul_of_nonneg_left h1 (wt_nonneg hw hi)
      _ = _ := by ring

theorem pot_exact (hk : k < n) (hwk : 0 < w k) (hw : ∀ i < n, 0 ≤ w i) (h : w k ≤ 2 * |a k| - pot n w k a) :
    pot n w (k + 1) (exact k a v) ≤ pot n w k v := by
  have h1 : pot n w (k + 1) (exact k a v) ≤ ∑ i ∈ range n, bound w k a v i :=
    sum_le_sum fun i hi => exact_le hw (mem_range.mp hi)
  rw [sum_bound hk] at h1
  have := (sum_bound_le (v := v) hk hwk hw h).1
  linarith

/-- A later column is dominated after the round as before. -/
theorem margin_exact (hk : k < n) (hwk : 0 < w k) (hw : ∀ i < n, 0 ≤ w i) (h : w k ≤ 2 * |a k| - pot n w k a) {j : Nat} (hj : j < n)
    (hkj : k < j) : 2 * |v j| - pot n w k v ≤ 2 * |exact k a v j| - pot n w (k + 1) (exact k a v) := by
  have h1 : bound w k a v j - wt w (k + 1) j * |exact k a v j| ≤
      ∑ i ∈ range n, (bound w k a v i - wt w (k + 1) i * |exact k a v i|) :=
    single_le_sum (f := fun i => bound w k a v i - wt w (k + 1) i * |exact k a v i|)
      (fun i hi => sub_nonneg.mpr (exact_le hw (mem_range.mp hi))) (mem_range.mpr hj)
  rw [sum_sub_distrib, sum_bound hk] at h1
  have h2 := (sum_bound_le (v := v) hk hwk hw h).1
  have h3 : bound w k a v j = |v j| + |a j| * |v k / a k| := by
    rw [bound, if_neg (by omega), wt_ge hkj.le, one_mul, one_mul]
  rw [h3, wt_ge (show k + 1 ≤ j by omega), one_mul] at h1
  have h4 : |v j| - |a j| * |v k / a k| ≤ |exact k a v j| := by
    rw [exact, if_neg (by omega), ← abs_mul]
    exact abs_sub_abs_le_abs_sub _ _
  unfold pot at *
  linarith

/-- A round carried out with errors. -/
theorem pot_next {v' : Nat → ℚ} (hk : k < n) (hwk : 0 < w k) (hw : ∀ i < n, 0 ≤ w i) (h : w k ≤ 2 * |a k| - pot n w k a) :
    pot n w (k + 1) v' ≤ pot n w k v + pot n w (k + 1) (fun i => v' i - exact k a v i) := by
  have h1 := pot_add (k := k + 1) (v := exact k a v) (e := fun i => v' i - exact k a v i) hw
  simp only [add_sub_cancel] at h1
  have := pot_exact (v := v) hk hwk hw h
  linarith

theorem margin_next {v' : Nat → ℚ} (hk : k < n) (hwk : 0 < w k) (hw : ∀ i < n, 0 ≤ w i) (h : w k ≤ 2 * |a k| - pot n w k a) {j : Nat}
    (hj : j < n) (hkj : k < j) :
    2 * |v j| - pot n w k v - 3 * pot n w (k + 1) (fun i => v' i - exact k a v i) ≤ 2 * |v' j| - pot n w (k + 1) v' := by
  have h1 := pot_add (k := k + 1) (v := exact k a v) (e := fun i => v' i - exact k a v i) hw
  simp only [add_sub_cancel] at h1
  have h2 := margin_exact (v := v) hk hwk hw h hj hkj
  have h3 := le_pot (k := k + 1) (v := fun i => v' i - exact k a v i) hw hj
  rw [wt_ge (show k + 1 ≤ j by omega), one_mul] at h3
  have h4 : |exact k a v j| ≤ |v' j| + |v' j - exact k a v j| := by
    have := abs_sub (v' j) (v' j - exact k a v j)
    rwa [sub_sub_cancel] at this
  linarith

/-- The rounding errors of a round, added up. -/
theorem pot_err {u η : ℚ} (hu : 0 ≤ u) (hη : 0 ≤ η) (hk : k < n) (hwk : 0 < w k) (hw : ∀ i < n, 0 ≤ w i)
    (h : w k ≤ 2 * |a k| - pot n w k a) (h1 : |e k| ≤ u * |v k / a k| + η)
    (h2 : ∀ i < n, i ≠ k → |e i| ≤ u * |v i| + 4 * u * |a i * (v k / a k)| + 16 * (|a i| + 1) * η) :
    pot n w (k + 1) e ≤ 4 * u * pot n w k v + 16 * η * (pot n w k a + ∑ i ∈ range n, (1 + w i)) := by
  have key : ∀ i ∈ range n, wt w (k + 1) i * |e i| ≤
      4 * u * bound w k a v i - (if i = k then 0 else 3 * u * (wt w k i * |v i|)) + 16 * η * (wt w k i * |a i| + (1 + w i)) := by
    intro i hi
    have hi := mem_range.mp hi
    have hw0 := hw i hi
    by_cases hik : i = k
    · subst hik
      rw [if_pos rfl, bound, if_pos rfl, wt_succ_self, wt_self]
      have := mul_le_mul_of_nonneg_left h1 hw0
      have p1 : 0 ≤ u * (w i * |v i / a i|) := by positivity
      have p2 : 0 ≤ η * |a i| := by positivity
      have p3 : 0 ≤ η * w i := by positivity
      nlinarith
    · rw [if_neg hik, bound, if_neg hik, wt_succ_ne hik]
      have hg := wt_nonneg (k := k) hw hi
      have := mul_le_mul_of_nonneg_left (h2 i hi hik) hg
      rw [abs_mul] at this
      have hle : wt w k i ≤ 1 + w i := by
        unfold wt
        split <;> linarith
      have p1 : 0 ≤ η * (1 + w i - wt w k i) := mul_nonneg hη (by linarith)
      nlinarith
  refine (sum_le_sum key).trans ?_
  rw [sum_add_distrib, sum_sub_distrib, ← mul_sum, ← mul_sum, sum_add_distrib, sum_bound hk]
  have h3 := (sum_bound_le (v := v) hk hwk hw h).1
  have h4 : 0 ≤ ∑ i ∈ range n, (if i = k then 0 else 3 * u * (wt w k i * |v i|)) := by
    refine sum_nonneg fun i hi => ?_
    have := wt_nonneg (k := k) hw (mem_range.mp hi)
    split
    · exact le_rfl
    · positivity
  have h5 := mul_le_mul_of_nonneg_left h3 (show 0 ≤ 4 * u by linarith)
  unfold pot at *
  linarith

/-- The columns of a dominated matrix are independent, with a bound. -/
theorem solve_le {A : Nat → Nat → ℚ} {x b δ : Nat → ℚ} (hx : ∀ i < n, ∑ j ∈ range n, A i j * x j = b i)
    (hδ : ∀ j < n, δ j ≤ 2 * |A j j| - ∑ i ∈ range n, |A i j|) : ∑ j ∈ range n, δ j * |x j| ≤ ∑ i ∈ range n, |b i| := by
  have h1 : ∀ i ∈ range n, 2 * (|A i i| * |x i|) - ∑ j ∈ range n, |A i j| * |x j| ≤ |b i| := by
    intro i hi
    rw [← hx i (mem_range.mp hi), ← add_sum_erase _ _ hi, ← add_sum_erase _ (fun j => A i j * x j) hi]
    have h2 : |∑ j ∈ (range n).erase i, A i j * x j| ≤ ∑ j ∈ (range n).erase i, |A i j| * |x j| := by
      refine (abs_sum_le_sum_abs _ _).trans (le_of_eq (sum_congr rfl fun j _ => abs_mul _ _))
    have h3 : |A i i * x i| ≤ |A i i * x i + ∑ j ∈ (range n).erase i, A i j * x j| + |∑ j ∈ (range n).erase i, A i j * x j| := by
      have := abs_sub (A i i * x i + ∑ j ∈ (range n).erase i, A i j * x j) (∑ j ∈ (range n).erase i, A i j * x j)
      rwa [add_sub_cancel_right] at this
    rw [abs_mul] at h3
    linarith
  calc ∑ j ∈ range n, δ j * |x j| ≤ ∑ j ∈ range n, (2 * |A j j| - ∑ i ∈ range n, |A i j|) * |x j| :=
        sum_le_sum fun j hj => mul_le_mul_of_nonneg_right (hδ j (mem_range.mp hj)) (abs_nonneg _)
    _ = ∑ i ∈ range n, (2 * (|A i i| * |x i|) - ∑ j ∈ range n, |A i j| * |x j|) := by
        rw [sum_sub_distrib, sum_comm (s := range n) (t := range n) (f := fun i j => |A i j| * |x j|), ← sum_sub_distrib]
        refine sum_congr rfl fun j _ => ?_
        rw [sub_mul, sum_mul, mul_assoc]
    _ ≤ _ := sum_le_sum h1

/-- The residual of a system after a round, from the errors. -/
theorem residual_eq {V W : Nat → Nat → ℚ} {b b' x : Nat → ℚ} (i : Nat) :
    (∑ j ∈ range n, W i j * x j - b' i) - exact k a (fun i => ∑ j ∈ range n, V i j * x j - b i) i =
      ∑ j ∈ range n, (W i j - exact k a (fun i => V i j) i) * x j - (b' i - exact k a b i) := by
  unfold exact
  split
  · simp only [sub_mul, sum_sub_distrib]
    rw [sub_div, sum_div, show ∑ j ∈ range n, V k j * x j / a k = ∑ j ∈ range n, V k j / a k * x j from
      sum_congr rfl fun j _ => by ring]
    ring
  · simp only [sub_mul, sum_sub_distrib]
    rw [sub_div, mul_sub, sum_div, mul_sum, show ∑ j ∈ range n, a i * (V k j * x j / a k) = ∑ j ∈ range n, a i * (V k j / a k) * x j from
      sum_congr rfl fun j _ => by ring]
    ring

/-- The residual of a system after a round. -/
theorem residual_next {V W : Nat → Nat → ℚ} {b b' x : Nat → ℚ} (hk : k < n) (hwk : 0 < w k) (hw : ∀ i < n, 0 ≤ w i)
    (h : w k ≤ 2 * |a k| - pot n w k a) :
    pot n w (k + 1) (fun i => ∑ j ∈ range n, W i j * x j - b' i) ≤ pot n w k (fun i => ∑ j ∈ range n, V i j * x j - b i) +
      ∑ j ∈ range n, |x j| * pot n w (k + 1) (fun i => W i j - exact k a (fun i => V i j) i) +
      pot n w (k + 1) (fun i => b' i - exact k a b i) := by
  refine (pot_next (a := a) (v := fun i => ∑ j ∈ range n, V i j * x j - b i) hk hwk hw h).trans ?_
  rw [add_assoc]
  refine add_le_add_right ?_ _
  simp only [residual_eq]
  unfold pot
  simp only [mul_sum]
  rw [sum_comm, ← sum_add_distrib]
  refine sum_le_sum fun i hi => ?_
  have h1 : |∑ j ∈ range n, (W i j - exact k a (fun i => V i j) i) * x j - (b' i - exact k a b i)| ≤
      ∑ j ∈ range n, |x j| * |W i j - exact k a (fun i => V i j) i| + |b' i - exact k a b i| := by
    refine (abs_sub _ _).trans (add_le_add_left ((abs_sum_le_sum_abs _ _).trans (le_of_eq (sum_congr rfl fun j _ => ?_))) _)
    rw [abs_mul, mul_comm]
  refine (mul_le_mul_of_nonneg_left h1 (wt_nonneg hw (mem_range.mp hi))).trans (le_of_eq ?_)
  rw [mul_add, mul_sum]
  congr 1
  refine sum_congr rfl fun j _ => ?_
  ring

end Jordan
end CppMaths
