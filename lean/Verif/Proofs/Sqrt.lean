import Verif.Model.Machine
import Verif.Proofs.Common
import Mathlib.Analysis.Real.Sqrt
/-!
# The square root of a `double` is the nearest `double`
-/

namespace CppMaths
namespace Double

/-- The integer mantissa picked by `sqrtAbs`. -/
def sqrtMant (q : ℚ) : Nat :=
  let f := Nat.sqrt ⌊q⌋₊
  if q < (f + 1 / 2 : ℚ) ^ 2 then f else if (f + 1 / 2 : ℚ) ^ 2 < q then f + 1 else if f % 2 = 0 then f else f + 1

theorem sqrtFloor {q : ℚ} (hq : 0 ≤ q) :
    ((Nat.sqrt ⌊q⌋₊ : Nat) : ℝ) ≤ √(q : ℝ) ∧ √(q : ℝ) < (Nat.sqrt ⌊q⌋₊ : Nat) + 1 := by
  have h1 : Nat.sqrt ⌊q⌋₊ ^ 2 ≤ ⌊q⌋₊ := Nat.sqrt_le' _
  have h2 : ⌊q⌋₊ < (Nat.sqrt ⌊q⌋₊ + 1) ^ 2 := Nat.lt_succ_sqrt' _
  set f := Nat.sqrt ⌊q⌋₊
  have h3 : ((⌊q⌋₊ : Nat) : ℚ) ≤ q := Nat.floor_le hq
  have h4 : q < ((⌊q⌋₊ : Nat) : ℚ) + 1 := Nat.lt_floor_add_one q
  constructor
  · refine Real.le_sqrt_of_sq_le ?_
    have : (f : ℚ) ^ 2 ≤ q := le_trans (by exact_mod_cast h1) h3
    exact_mod_cast this
  · rw [Real.sqrt_lt' (by positivity)]
    have : q < ((f : ℚ) + 1) ^ 2 := h4.trans_le (by exact_mod_cast h2)
    exact_mod_cast this

theorem sqrtMant_near {q : ℚ} (hq : 0 ≤ q) : |(sqrtMant q : ℝ) - √(q : ℝ)| ≤ 1 / 2 := by
  obtain ⟨h1, h2⟩ := sqrtFloor hq
  unfold sqrtMant
  dsimp only
  set f := Nat.sqrt ⌊q⌋₊
  have lo : q ≤ ((f : ℚ) + 1 / 2) ^ 2 → √(q : ℝ) ≤ f + 1 / 2 := fun h => by
    refine Real.sqrt_le_iff.mpr ⟨by positivity, ?_⟩
    have := (Rat.cast_le (K := ℝ)).mpr h
    push_cast at this; exact this
  have hi : ((f : ℚ) + 1 / 2) ^ 2 ≤ q → (f : ℝ) + 1 / 2 ≤ √(q : ℝ) := fun h => by
    refine Real.le_sqrt_of_sq_le ?_
    have := (Rat.cast_le (K := ℝ)).mpr h
    push_cast at this; exact this
  rw [abs_le]
  split_ifs with c1 c2 c3
  · have := lo c1.le; constructor <;> linarith
  · have := hi c2.le; push_cast; constructor <;> linarith
  · have := lo (not_lt.mp c2); constructor <;> linarith
  · have := hi (not_lt.mp c1); push_cast; constructor <;> linarith

theorem sqrtMant_nearest {q : ℚ} (hq : 0 ≤ q) (n : Int) : |(sqrtMant q : ℝ) - √(q : ℝ)| ≤ |(n : ℝ) - √(q : ℝ)| := by
  have h := sqrtMant_near hq
  by_cases e : n = (sqrtMant q : Int)
  · rw [e]; simp
  · have h1 : (1 : ℝ) ≤ |((n - (sqrtMant q : Int) : Int) : ℝ)| := by
      rw [← Int.cast_abs]
      exact_mod_cast Int.one_le_abs (sub_ne_zero.mpr e)
    push_cast at h1
    have h2 : |(n : ℝ) - sqrtMant q| ≤ |(n : ℝ) - √(q : ℝ)| + |(sqrtMant q : ℝ) - √(q : ℝ)| := by
      rw [abs_sub_comm (sqrtMant q : ℝ)]
      exact abs_sub_le _ _ _
    linarith

theorem two_zpow_posR (e : Int) : (0 : ℝ) < 2 ^ e := by positivity

/-- What `sqrtAbs` returns: a `double`, no `double` (and no number with 53 binary digits) is nearer to the root, and the
relative error is at most `2^-53`. -/
theorem sqrtAbs_spec {a : ℚ} (ha : 0 < a) (hlo : 2 ^ (-1074 : Int) ≤ a) (hhi : a < 2 ^ (1024 : Int)) :
    ∃ m e, sqrtAbs a = fin false m e ∧ (fin false m e).WF ∧ 2 ^ 52 ≤ m ∧
      (∀ (k : Int) (e' : Int), |k| ≤ 2 ^ 53 → |(m : ℝ) * 2 ^ e - √(a : ℝ)| ≤ |(k : ℝ) * 2 ^ e' - √(a : ℝ)|) ∧
      |(m : ℝ) * 2 ^ e - √(a : ℝ)| ≤ √(a : ℝ) / 2 ^ 53 := by
  have l1 : (2 : ℚ) ^ Int.log 2 a ≤ a := by exact_mod_cast Int.zpow_log_le_self (b := 2) (by norm_num) ha
  have l2 : a < (2 : ℚ) ^ (Int.log 2 a + 1) := by exact_mod_cast Int.lt_zpow_succ_log_self (b := 2) (by norm_num) a
  have b1 : -1074 < Int.log 2 a + 1 := (zpow_lt_zpow_iff_right₀ (by norm_num : (1 : ℚ) < 2)).mp (hlo.trans_lt l2)
  have b2 : Int.log 2 a < 1024 := (zpow_lt_zpow_iff_right₀ (by norm_num : (1 : ℚ) < 2)).mp (l1.trans_lt hhi)
  set L := Int.log 2 a with hL
  set e := L / 2 - 52 with he
  set q := a / 4 ^ e with hqd
  have h4 : (4 : ℚ) ^ e = 2 ^ (2 * e) := by rw [zpow_mul]; norm_num
  have hp : (0 : ℚ) < 4 ^ e := by positivity
  have hq0 : 0 < q := div_pos ha hp
  have hq1 : (2 : ℚ) ^ 104 ≤ q := by
    rw [hqd, le_div_iff₀ hp, h4, ← zpow_natCast, ← zpow_add₀ (by norm_num)]
    exact (two_zpow_le (by push_cast; omega)).trans l1
  have hq2 : q < (2 : ℚ) ^ 106 := by
    rw [hqd, div_lt_iff₀ hp, h4, ← zpow_natCast, ← zpow_add₀ (by norm_num)]
    exact l2.trans_le (two_zpow_le (by push_cast; omega))
  have ht1 : (2 : ℝ) ^ 52 ≤ √(q : ℝ) := by
    refine Real.le_sqrt_of_sq_le ?_
    have := (Rat.cast_le (K := ℝ)).mpr hq1
    push_cast at this
    rw [← pow_mul]; exact this
  have ht2 : √(q : ℝ) < 2 ^ 53 := by
    rw [Real.sqrt_lt' (by positivity), ← pow_mul]
    have := (Rat.cast_lt (K := ℝ)).mpr hq2
    push_cast at this
    exact this
  have hroot : √(a : ℝ) = √(q : ℝ) * 2 ^ e := by
    have : (a : ℝ) = q * (2 ^ e) ^ 2 := by
      rw [hqd]; push_cast
      rw [show ((2 : ℝ) ^ e) ^ 2 = 4 ^ e by rw [← zpow_natCast, ← zpow_mul, mul_comm, zpow_mul]; norm_num]
      field_simp
    rw [this, Real.sqrt_mul (by exact_mod_cast hq0.le), Real.sqrt_sq (two_zpow_posR e).le]
  obtain ⟨f1, f2⟩ := sqrtFloor hq0.le
  have fl : 2 ^ 52 ≤ Nat.sqrt ⌊q⌋₊ := by
    have : (2 : ℝ) ^ 52 < (Nat.sqrt ⌊q⌋₊ : Nat) + 1 := ht1.trans_lt f2
    have : 2 ^ 52 < Nat.sqrt ⌊q⌋₊ + 1 := by exact_mod_cast this
    omega
  have fu : Nat.sqrt ⌊q⌋₊ < 2 ^ 53 := by
    have : ((Nat.sqrt ⌊q⌋₊ : Nat) : ℝ) < 2 ^ 53 := f1.trans_lt ht2
    exact_mod_cast this
  have mle : 2 ^ 52 ≤ sqrtMant q ∧ sqrtMant q ≤ 2 ^ 53 := by
    unfold sqrtMant; dsimp only; split_ifs <;> omega
  have near := sqrtMant_near hq0.le
  have nearest := sqrtMant_nearest hq0.le
  have hpe := two_zpow_posR e
  -- the claims for the unnormalised result
  have claim1 : ∀ (k : Int) (e' : Int), |k| ≤ 2 ^ 53 → |(sqrtMant q : ℝ) * 2 ^ e - √(a : ℝ)| ≤ |(k : ℝ) * 2 ^ e' - √(a : ℝ)| := by
    intro k e' hk
    have scale : (k : ℝ) * 2 ^ e' = (k * 2 ^ (e' - e)) * 2 ^ e := by
      rw [mul_assoc, ← zpow_add₀ (by norm_num)]; congr 2; ring
    rw [hroot, scale, ← sub_mul, ← sub_mul, abs_mul, abs_mul, abs_of_pos hpe]
    refine mul_le_mul_of_nonneg_right ?_ hpe.le
    rcases le_or_gt e e' with hle | hlt
    · obtain ⟨j, hj⟩ := Int.eq_ofNat_of_zero_le (sub_nonneg.mpr hle)
      have := nearest (k * 2 ^ j)
      rw [hj]
      push_cast at this
      simpa using this
    · have h1 : (k : ℝ) * 2 ^ (e' - e) ≤ 2 ^ 52 := by
        have hk' : (k : ℝ) ≤ 2 ^ 53 := by exact_mod_cast (le_abs_self k).trans hk
        have h2 : (2 : ℝ) ^ (e' - e) ≤ 2 ^ (-1 : Int) := zpow_le_zpow_right₀ (by norm_num) (by omega)
        calc (k : ℝ) * 2 ^ (e' - e) ≤ 2 ^ 53 * 2 ^ (e' - e) := mul_le_mul_of_nonneg_right hk' (by positivity)
          _ ≤ 2 ^ 53 * 2 ^ (-1 : Int) := mul_le_mul_of_nonneg_left h2 (by positivity)
          _ = 2 ^ 52 := by norm_num
      have h2 := nearest (2 ^ 52)
      push_cast at h2
      refine h2.trans ?_
      rw [abs_of_nonpos (by linarith), abs_of_nonpos (by linarith)]
      linarith
  have claim2 : |(sqrtMant q : ℝ) * 2 ^ e - √(a : ℝ)| ≤ √(a : ℝ) / 2 ^ 53 := by
    rw [hroot, ← sub_mul, abs_mul, abs_of_pos hpe, mul_div_right_comm]
    refine mul_le_mul_of_nonneg_right (near.trans ?_) hpe.le
    rw [le_div_iff₀ (by positivity)]
    linarith
  have hs : sqrtAbs a = if sqrtMant q = 2 ^ 53 then fin false (2 ^ 52) (e + 1) else fin false (sqrtMant q) e := rfl
  by_cases hm : sqrtMant q = 2 ^ 53
  · rw [if_pos hm] at hs
    have hv : ((2 ^ 52 : Nat) : ℝ) * 2 ^ (e + 1) = (sqrtMant q : ℝ) * 2 ^ e := by
      rw [hm, zpow_add₀ (by norm_num)]; push_cast; ring
    refine ⟨2 ^ 52, e + 1, hs, ⟨by norm_num, by omega, by omega, .inl le_rfl⟩, le_rfl, ?_, ?_⟩
    · rw [hv]; exact claim1
    · rw [hv]; exact claim2
  · rw [if_neg hm] at hs
    exact ⟨sqrtMant q, e, hs, ⟨by omega, by omega, by omega, .inl mle.1⟩, mle.1, claim1, claim2⟩

end Double
end CppMaths
