import Verif.Model.Double
import Mathlib.Tactic.Linarith
import Mathlib.Tactic.NormNum
import Mathlib.Tactic.Ring
import Mathlib.Tactic.FieldSimp
import Mathlib.Tactic.Positivity
import Mathlib.Algebra.Order.Floor.Semiring
import Mathlib.Algebra.Order.Field.Power
/-!
# Lemmas about rounding to `double`
-/

namespace CppMaths
namespace Double

theorem halfEven_bounds {q : ℚ} (hq : 0 ≤ q) : (⌊q⌋₊ : ℚ) ≤ q ∧ q < ⌊q⌋₊ + 1 := ⟨Nat.floor_le hq, Nat.lt_floor_add_one q⟩

/-- The nearest integer is at distance at most one half. -/
theorem halfEven_near {q : ℚ} (hq : 0 ≤ q) : |(halfEven q : ℚ) - q| ≤ 1 / 2 := by
  obtain ⟨h1, h2⟩ := halfEven_bounds hq
  unfold halfEven
  dsimp only
  rw [abs_le]
  split_ifs <;> push_cast <;> constructor <;> linarith

/-- Rounding does not cross an integer. -/
theorem le_halfEven {q : ℚ} {k : Nat} (h : (k : ℚ) ≤ q) : k ≤ halfEven q := by
  have hf : k ≤ ⌊q⌋₊ := Nat.le_floor h
  unfold halfEven
  dsimp only
  split_ifs <;> omega

theorem halfEven_le {q : ℚ} (hq : 0 ≤ q) {k : Nat} (h : q ≤ k) : halfEven q ≤ k := by
  obtain ⟨h1, h2⟩ := halfEven_bounds hq
  have hf : ⌊q⌋₊ ≤ k := by
    by_contra hc
    have : (k : ℚ) + 1 ≤ ⌊q⌋₊ := by exact_mod_cast Nat.lt_of_not_le hc
    linarith
  rcases Nat.lt_or_eq_of_le hf with hlt | heq
  · unfold halfEven
    dsimp only
    split_ifs <;> omega
  · have : q - ⌊q⌋₊ < 1 / 2 := by rw [heq]; linarith
    unfold halfEven
    dsimp only
    rw [if_pos this]
    exact hf

theorem halfEven_nat (k : Nat) : halfEven (k : ℚ) = k :=
  Nat.le_antisymm (halfEven_le (by positivity) le_rfl) (le_halfEven le_rfl)

/-- `halfEven` determined on an interval between two integers. -/
theorem halfEven_between {q : ℚ} {k : Nat} (h1 : (k : ℚ) ≤ q) (h2 : q < k + 1) :
    halfEven q = if q < k + 1 / 2 then k else if (k : ℚ) + 1 / 2 < q then k + 1 else if k % 2 = 0 then k else k + 1 := by
  have hf : ⌊q⌋₊ = k := by
    rw [Nat.floor_eq_iff (le_trans (by positivity) h1)]
    exact ⟨h1, h2⟩
  unfold halfEven
  dsimp only
  rw [hf]
  have e1 : (q - k < 1 / 2) ↔ q < k + 1 / 2 := by constructor <;> intro h <;> linarith
  have e2 : (1 / 2 < q - k) ↔ (k : ℚ) + 1 / 2 < q := by constructor <;> intro h <;> linarith
  simp only [e1, e2]

theorem two_zpow_pos (e : Int) : (0 : ℚ) < 2 ^ e := by positivity

theorem two_zpow_le {a b : Int} (h : a ≤ b) : (2 : ℚ) ^ a ≤ 2 ^ b := zpow_le_zpow_right₀ (by norm_num) h

theorem two_zpow_add_nat (e : Int) (n : Nat) : (2 : ℚ) ^ (e + n) = 2 ^ e * 2 ^ n := by
  rw [zpow_add₀ (by norm_num), zpow_natCast]

/-- What the exponent chosen for a positive number satisfies. -/
theorem expOf_spec {a : ℚ} (ha : 0 < a) :
    -1074 ≤ expOf a ∧ a < 2 ^ (expOf a + 53) ∧ (expOf a = -1074 ∨ 2 ^ (expOf a + 52) ≤ a) := by
  have h1 : (2 : ℚ) ^ Int.log 2 a ≤ a := by exact_mod_cast Int.zpow_log_le_self (b := 2) (by norm_num) ha
  have h2 : a < (2 : ℚ) ^ (Int.log 2 a + 1) := by exact_mod_cast Int.lt_zpow_succ_log_self (b := 2) (by norm_num) a
  unfold expOf
  refine ⟨le_max_left _ _, h2.trans_le (two_zpow_le ?_), ?_⟩
  · have := le_max_right (-1074) (Int.log 2 a - 52); omega
  · rcases le_total (-1074) (Int.log 2 a - 52) with h | h
    · right; rw [max_eq_right h]; refine le_trans (two_zpow_le ?_) h1; omega
    · left; exact max_eq_left h

/-- The exponent is determined by the binade. -/
theorem expOf_eq {a : ℚ} {e : Int} (he : -1074 ≤ e) (h1 : 2 ^ (e + 52) ≤ a) (h2 : a < 2 ^ (e + 53)) : expOf a = e := by
  have ha : 0 < a := (two_zpow_pos _).trans_le h1
  obtain ⟨k1, k2, k3⟩ := expOf_spec ha
  have e1 : e + 52 < expOf a + 53 := (zpow_lt_zpow_iff_right₀ (by norm_num : (1 : ℚ) < 2)).mp (h1.trans_lt k2)
  rcases k3 with k3 | k3
  · omega
  · have e2 : expOf a + 52 < e + 53 := (zpow_lt_zpow_iff_right₀ (by norm_num : (1 : ℚ) < 2)).mp (k3.trans_lt h2)
    omega

/-- The nearest number with 53 bits and exponent at least -1074, without upper bound on the exponent. -/
def rnd (a : ℚ) : ℚ := halfEven (a / 2 ^ expOf a) * 2 ^ expOf a

/-- Rounding does not cross a representable number. -/
theorem le_rnd {a : ℚ} {k : Nat} {e : Int} (hk : k ≤ 2 ^ 53) (he : -1074 ≤ e) (ha : 0 < a) (h : (k : ℚ) * 2 ^ e ≤ a) :
    (k : ℚ) * 2 ^ e ≤ rnd a := by
  obtain ⟨k1, k2, k3⟩ := expOf_spec ha
  unfold rnd
  rcases le_or_gt (expOf a) e with hle | hlt
  · obtain ⟨n, hn⟩ := Int.eq_ofNat_of_zero_le (sub_nonneg.mpr hle)
    have hE : (2 : ℚ) ^ e = 2 ^ expOf a * 2 ^ n := by rw [← two_zpow_add_nat]; congr 1; omega
    have h' : ((k * 2 ^ n : Nat) : ℚ) ≤ a / 2 ^ expOf a := by
      rw [le_div_iff₀ (two_zpow_pos _)]
      push_cast
      rw [hE] at h
      linarith
    have := le_halfEven h'
    have h3 : ((k * 2 ^ n : Nat) : ℚ) ≤ halfEven (a / 2 ^ expOf a) := by exact_mod_cast this
    rw [hE]
    push_cast at h3
    nlinarith [two_zpow_pos (expOf a)]
  · have k3 : (2 : ℚ) ^ (expOf a + 52) ≤ a := by rcases k3 with k3 | k3; · omega
                                                 · exact k3
    have h' : ((2 ^ 52 : Nat) : ℚ) ≤ a / 2 ^ expOf a := by
      rw [le_div_iff₀ (two_zpow_pos _)]
      refine le_trans (le_of_eq ?_) k3
      rw [show expOf a + 52 = expOf a + (52 : Nat) from rfl, two_zpow_add_nat]
      push_cast; ring
    have h3 : ((2 ^ 52 : Nat) : ℚ) ≤ halfEven (a / 2 ^ expOf a) := by exact_mod_cast le_halfEven h'
    have hE : (2 : ℚ) ^ (e + (1 : Nat)) ≤ 2 ^ expOf a := two_zpow_le (by push_cast; omega)
    rw [two_zpow_add_nat] at hE
    have hk' : (k : ℚ) ≤ 2 ^ 53 := by exact_mod_cast hk
    calc (k : ℚ) * 2 ^ e ≤ 2 ^ 53 * 2 ^ e := by gcongr
      _ = ((2 ^ 52 : Nat) : ℚ) * (2 ^ e * 2 ^ 1) := by push_cast; ring
      _ ≤ halfEven (a / 2 ^ expOf a) * 2 ^ expOf a := by gcongr

theorem rnd_le {a : ℚ} {k : Nat} {e : Int} (hk : k ≤ 2 ^ 53) (he : -1074 ≤ e) (ha : 0 < a) (h : a ≤ (k : ℚ) * 2 ^ e) :
    rnd a ≤ (k : ℚ) * 2 ^ e := by
  obtain ⟨k1, k2, k3⟩ := expOf_spec ha
  have hk' : (k : ℚ) ≤ 2 ^ 53 := by exact_mod_cast hk
  have h53 : a ≤ (2 : ℚ) ^ (e + (53 : Nat)) := h.trans (by rw [two_zpow_add_nat]; nlinarith [two_zpow_pos e])
  have hpos : 0 ≤ a / 2 ^ expOf a := (div_pos ha (two_zpow_pos _)).le
  unfold rnd
  rcases le_or_gt (expOf a) e with hle | hlt
  · obtain ⟨n, hn⟩ := Int.eq_ofNat_of_zero_le (sub_nonneg.mpr hle)
    have hE : (2 : ℚ) ^ e = 2 ^ expOf a * 2 ^ n := by rw [← two_zpow_add_nat]; congr 1; omega
    have h' : a / 2 ^ expOf a ≤ ((k * 2 ^ n : Nat) : ℚ) := by
      rw [div_le_iff₀ (two_zpow_pos _)]
      push_cast
      rw [hE] at h
      linarith
    have h3 : (halfEven (a / 2 ^ expOf a) : ℚ) ≤ ((k * 2 ^ n : Nat) : ℚ) := by exact_mod_cast halfEven_le hpos h'
    rw [hE]
    push_cast at h3
    nlinarith [two_zpow_pos (expOf a)]
  · have k3 : (2 : ℚ) ^ (expOf a + 52) ≤ a := by rcases k3 with k3 | k3; · omega
                                                 · exact k3
    have e1 : expOf a + 52 ≤ e + (53 : Nat) := (zpow_le_zpow_iff_right₀ (by norm_num : (1 : ℚ) < 2)).mp (k3.trans h53)
    have e2 : expOf a = e + 1 := by push_cast at e1; omega
    have e3 : a = (2 : ℚ) ^ (expOf a + (52 : Nat)) := by
      refine le_antisymm (h53.trans (two_zpow_le ?_)) k3
      push_cast; omega
    have h' : a / 2 ^ expOf a = ((2 ^ 52 : Nat) : ℚ) := by
      rw [div_eq_iff (two_zpow_pos _).ne']
      conv_lhs => rw [e3]
      rw [two_zpow_add_nat]; push_cast; ring
    rw [h', halfEven_nat]
    refine le_trans (le_of_eq ?_) h
    rw [← h', div_mul_cancel₀ _ (two_zpow_pos _).ne']

theorem rnd_eq {a : ℚ} {k : Nat} {e : Int} (hk : k ≤ 2 ^ 53) (he : -1074 ≤ e) (ha : 0 < a) (h : a = (k : ℚ) * 2 ^ e) : rnd a = a :=
  le_antisymm (by rw [h] at ha ⊢; exact rnd_le hk he ha le_rfl) (by rw [h] at ha ⊢; exact le_rnd hk he ha le_rfl)

theorem halfEven_le_pow {a : ℚ} (ha : 0 < a) : halfEven (a / 2 ^ expOf a) ≤ 2 ^ 53 := by
  obtain ⟨k1, k2, k3⟩ := expOf_spec ha
  refine halfEven_le (div_pos ha (two_zpow_pos _)).le ?_
  rw [div_le_iff₀ (two_zpow_pos _)]
  refine k2.le.trans (le_of_eq ?_)
  rw [show expOf a + 53 = expOf a + (53 : Nat) from rfl, two_zpow_add_nat]
  push_cast; ring

theorem rnd_near {a : ℚ} (ha : 0 < a) : |rnd a - a| ≤ 2 ^ expOf a / 2 := by
  have h := halfEven_near (div_pos ha (two_zpow_pos (expOf a))).le
  have hp := two_zpow_pos (expOf a)
  have : rnd a - a = (halfEven (a / 2 ^ expOf a) - a / 2 ^ expOf a) * 2 ^ expOf a := by
    unfold rnd; field_simp
  rw [this, abs_mul, abs_of_pos hp]
  nlinarith

theorem halfEven_nearest {q : ℚ} (hq : 0 ≤ q) (n : Int) : |(halfEven q : ℚ) - q| ≤ |(n : ℚ) - q| := by
  by_contra hc
  have hc := not_le.mp hc
  have h1 := halfEven_near hq
  have h2 : |(halfEven q : ℚ) - n| < 1 := by
    have := abs_sub_abs_le_abs_sub (halfEven q - q) ((n : ℚ) - q)
    have h3 := abs_add_le ((halfEven q : ℚ) - q) (q - n)
    rw [abs_sub_comm q] at h3
    have h4 : (halfEven q : ℚ) - q + (q - n) = halfEven q - n := by ring
    rw [h4] at h3
    linarith
  have h3 : |((halfEven q : Int) - n)| < 1 := by exact_mod_cast h2
  have h4 : (halfEven q : Int) = n := by rw [Int.abs_lt_one_iff] at h3; omega
  have h5 : (n : ℚ) = halfEven q := by rw [← h4]; rfl
  rw [h5] at hc
  exact lt_irrefl _ hc

theorem halfEven_tie {q : ℚ} (hq : 0 ≤ q) (h : |(halfEven q : ℚ) - q| = 1 / 2) : halfEven q % 2 = 0 := by
  obtain ⟨h1, h2⟩ := halfEven_bounds hq
  have key : halfEven q % 2 = 0 ∨ |(halfEven q : ℚ) - q| < 1 / 2 := by
    unfold halfEven
    dsimp only
    split_ifs with c1 c2 c3
    · right; rw [abs_lt]; constructor <;> linarith
    · right; rw [abs_lt]; push_cast; constructor <;> linarith
    · left; exact c3
    · left; omega
  exact key.resolve_right (by rw [h]; exact lt_irrefl _)

/-- The rounded number is at least as near as every other number with 53 bits and exponent at least -1074. -/
theorem rnd_nearest {a : ℚ} (ha : 0 < a) {k : Nat} {e : Int} (hk : k < 2 ^ 53) (he : -1074 ≤ e) :
    |rnd a - a| ≤ |(k : ℚ) * 2 ^ e - a| := by
  obtain ⟨k1, k2, k3⟩ := expOf_spec ha
  have hp := two_zpow_pos (expOf a)
  -- compare with any multiple of the unit
  have grid : ∀ n : Int, |rnd a - a| ≤ |(n : ℚ) * 2 ^ expOf a - a| := by
    intro n
    have h := halfEven_nearest (div_pos ha hp).le n
    have e1 : rnd a - a = (halfEven (a / 2 ^ expOf a) - a / 2 ^ expOf a) * 2 ^ expOf a := by
      unfold rnd; field_simp
    have e2 : (n : ℚ) * 2 ^ expOf a - a = (n - a / 2 ^ expOf a) * 2 ^ expOf a := by field_simp
    rw [e1, e2, abs_mul, abs_mul]
    exact mul_le_mul_of_nonneg_right h (abs_nonneg _)
  rcases le_or_gt (expOf a) e with hle | hlt
  · obtain ⟨n, hn⟩ := Int.eq_ofNat_of_zero_le (sub_nonneg.mpr hle)
    have hE : (2 : ℚ) ^ e = 2 ^ expOf a * 2 ^ n := by rw [← two_zpow_add_nat]; congr 1; omega
    have := grid (k * 2 ^ n)
    rw [hE]
    push_cast at this
    rwa [show (k : ℚ) * (2 ^ expOf a * 2 ^ n) = k * 2 ^ n * 2 ^ expOf a by ring]
  · have h1 := k3.resolve_left (by omega)
    have h2 := grid (2 ^ 52)
    have h3 : (k : ℚ) * 2 ^ e ≤ 2 ^ (expOf a + 52) := by
      have hk' : (k : ℚ) ≤ 2 ^ 53 := by exact_mod_cast hk.le
      calc (k : ℚ) * 2 ^ e ≤ 2 ^ 53 * 2 ^ e := by gcongr
        _ = 2 ^ (e + (53 : Nat)) := by rw [two_zpow_add_nat]; ring
        _ ≤ 2 ^ (expOf a + 52) := two_zpow_le (by push_cast; omega)
    have h4 : ((2 ^ 52 : Int) : ℚ) * 2 ^ expOf a = 2 ^ (expOf a + 52) := by
      rw [show expOf a + 52 = expOf a + (52 : Nat) from rfl, two_zpow_add_nat]; push_cast; ring
    rw [h4] at h2
    rw [abs_of_nonpos (by linarith : (2 : ℚ) ^ (expOf a + 52) - a ≤ 0)] at h2
    rw [abs_of_nonpos (by linarith : (k : ℚ) * 2 ^ e - a ≤ 0)]
    linarith

theorem rnd_le_two_mul {a : ℚ} (ha : 0 < a) : |rnd a - a| ≤ a := by
  have := rnd_nearest ha (k := 0) (e := 0) (by norm_num) (by norm_num)
  simpa [abs_of_pos ha] using this

/-- What rounding returns. -/
theorem roundAbs_spec (s : Bool) {a : ℚ} (ha : 0 < a) :
    (roundAbs s a).WF ∧
    ((∃ m e, roundAbs s a = fin s m e ∧ (m : ℚ) * 2 ^ e = rnd a ∧ rnd a < 2 ^ (1024 : Int)) ∨
      (roundAbs s a = inf s ∧ 2 ^ (1024 : Int) ≤ rnd a)) := by
  obtain ⟨k1, k2, k3⟩ := expOf_spec ha
  have hm := halfEven_le_pow ha
  have hlow : expOf a ≠ -1074 → 2 ^ 52 ≤ halfEven (a / 2 ^ expOf a) := by
    intro hne
    refine le_halfEven ?_
    rw [le_div_iff₀ (two_zpow_pos _)]
    refine le_trans (le_of_eq ?_) (k3.resolve_left hne)
    rw [show expOf a + 52 = expOf a + (52 : Nat) from rfl, two_zpow_add_nat]
    push_cast; ring
  unfold roundAbs
  dsimp only
  by_cases hc : halfEven (a / 2 ^ expOf a) = 2 ^ 53
  · have hr : ((2 ^ 52 : Nat) : ℚ) * 2 ^ (expOf a + 1) = rnd a := by
      unfold rnd
      rw [hc, show expOf a + 1 = expOf a + (1 : Nat) from rfl, two_zpow_add_nat]; push_cast; ring
    have hr' : rnd a = 2 ^ (expOf a + (53 : Nat)) := by
      unfold rnd
      rw [hc, two_zpow_add_nat]; push_cast; ring
    simp only [hc, if_true]
    by_cases he : 971 < expOf a + 1
    · rw [if_pos he]
      refine ⟨trivial, .inr ⟨rfl, ?_⟩⟩
      rw [hr']
      exact two_zpow_le (by push_cast; omega)
    · rw [if_neg he]
      refine ⟨⟨by norm_num, by omega, by omega, .inl le_rfl⟩, .inl ⟨_, _, rfl, hr, ?_⟩⟩
      rw [hr']
      exact zpow_lt_zpow_right₀ (by norm_num) (by push_cast; omega)
  · simp only [hc, if_false]
    by_cases he : 971 < expOf a
    · rw [if_pos he]
      refine ⟨trivial, .inr ⟨rfl, ?_⟩⟩
      have h1 : ((2 ^ 52 : Nat) : ℚ) ≤ halfEven (a / 2 ^ expOf a) := by exact_mod_cast hlow (by omega)
      have h2 : (2 : ℚ) ^ (972 : Int) ≤ 2 ^ expOf a := two_zpow_le (by omega)
      unfold rnd
      have h3 : ∀ e : Int, (2 : ℚ) ^ (e + (52 : Nat)) = ((2 ^ 52 : Nat) : ℚ) * 2 ^ e := fun e => by
        rw [two_zpow_add_nat]; push_cast; ring
      calc (2 : ℚ) ^ (1024 : Int) = ((2 ^ 52 : Nat) : ℚ) * 2 ^ (972 : Int) := h3 972
        _ ≤ _ := by gcongr
    · rw [if_neg he]
      refine ⟨⟨lt_of_le_of_ne hm hc, k1, by omega, ?_⟩, .inl ⟨_, _, rfl, rfl, ?_⟩⟩
      · by_cases h : expOf a = -1074
        · exact .inr h
        · exact .inl (hlow h)
      · unfold rnd
        have h1 : (halfEven (a / 2 ^ expOf a) : ℚ) < 2 ^ 53 := by exact_mod_cast lt_of_le_of_ne hm hc
        have h2 : (2 : ℚ) ^ expOf a ≤ 2 ^ (971 : Int) := two_zpow_le (by omega)
        have h3 : ∀ e : Int, (2 : ℚ) ^ 53 * 2 ^ e = 2 ^ (e + (53 : Nat)) := fun e => by
          rw [two_zpow_add_nat]; ring
        calc (halfEven (a / 2 ^ expOf a) : ℚ) * 2 ^ expOf a < 2 ^ 53 * 2 ^ expOf a := by
              have := two_zpow_pos (expOf a); nlinarith
          _ ≤ 2 ^ 53 * 2 ^ (971 : Int) := by gcongr
          _ = 2 ^ (1024 : Int) := h3 971

/-! ### Thresholds

For a normal number `k * 2^e` with odd `k`, the numbers that are rounded to something greater or smaller. -/

theorem rnd_between {a : ℚ} {k : Nat} {e : Int} (he : -1074 ≤ e) (hk : 2 ^ 52 ≤ k) (hk' : k + 1 ≤ 2 ^ 53)
    (h1 : (k : ℚ) * 2 ^ e ≤ a) (h2 : a < (k + 1) * 2 ^ e) :
    rnd a = (if a < (k + 1 / 2) * 2 ^ e then k else if ((k : ℚ) + 1 / 2) * 2 ^ e < a then k + 1
      else if k % 2 = 0 then k else k + 1 : Nat) * 2 ^ e := by
  have hp := two_zpow_pos e
  have hE : expOf a = e := by
    refine expOf_eq he ?_ ?_
    · refine le_trans ?_ h1
      rw [show e + 52 = e + (52 : Nat) from rfl, two_zpow_add_nat, mul_comm]
      have : ((2 : ℚ) ^ 52) ≤ k := by exact_mod_cast hk
      gcongr
    · refine lt_of_lt_of_le h2 ?_
      rw [show e + 53 = e + (53 : Nat) from rfl, two_zpow_add_nat, mul_comm]
      have : ((k : ℚ) + 1) ≤ 2 ^ 53 := by exact_mod_cast hk'
      gcongr
  have h1' : (k : ℚ) ≤ a / 2 ^ e := by rwa [le_div_iff₀ hp]
  have h2' : a / 2 ^ e < (k : ℚ) + 1 := by rwa [div_lt_iff₀ hp]
  unfold rnd
  rw [hE, halfEven_between h1' h2']
  simp only [div_lt_iff₀ hp, lt_div_iff₀ hp]

/-- Rounded to more than an odd `k * 2^e`: from half a unit above it on. -/
theorem lt_rnd_iff {a : ℚ} {k : Nat} {e : Int} (he : -1074 ≤ e) (hk : 2 ^ 52 ≤ k) (hk' : k + 1 ≤ 2 ^ 53) (odd : k % 2 = 1) (ha : 0 < a) :
    (k : ℚ) * 2 ^ e < rnd a ↔ ((k : ℚ) + 1 / 2) * 2 ^ e ≤ a := by
  have hp := two_zpow_pos e
  rcases lt_or_ge a ((k : ℚ) * 2 ^ e) with h1 | h1
  · refine ⟨fun h => absurd h (not_lt.mpr (rnd_le (by omega) he ha h1.le)), fun h => ?_⟩
    nlinarith
  rcases lt_or_ge a (((k : ℚ) + 1) * 2 ^ e) with h2 | h2
  · rw [rnd_between he hk hk' h1 h2, if_neg (by omega : ¬k % 2 = 0)]
    by_cases hc : a < ((k : ℚ) + 1 / 2) * 2 ^ e
    · rw [if_pos hc]; exact ⟨fun h => absurd h (lt_irrefl _), fun h => absurd hc (not_lt.mpr h)⟩
    · rw [if_neg hc]
      simp only [ite_self]
      push_cast
      refine ⟨fun _ => not_lt.mp hc, fun _ => ?_⟩
      nlinarith
  · refine ⟨fun _ => by nlinarith, fun _ => ?_⟩
    have := le_rnd (k := k + 1) hk' he ha (by push_cast; exact h2)
    push_cast at this
    nlinarith

/-- Rounded to less than an odd `k * 2^e`: up to half a unit below it. -/
theorem rnd_lt_iff {a : ℚ} {k : Nat} {e : Int} (he : -1074 ≤ e) (hk : 2 ^ 52 ≤ k - 1) (hk' : k ≤ 2 ^ 53) (odd : k % 2 = 1) (ha : 0 < a) :
    rnd a < (k : ℚ) * 2 ^ e ↔ a ≤ ((k : ℚ) - 1 / 2) * 2 ^ e := by
  have hp := two_zpow_pos e
  obtain ⟨j, rfl⟩ : ∃ j, k = j + 1 := ⟨k - 1, by omega⟩
  have hj : (j + 1) - 1 = j := by omega
  rw [hj] at hk
  push_cast
  rcases lt_or_ge a ((j : ℚ) * 2 ^ e) with h1 | h1
  · have := rnd_le (k := j) (by omega) he ha h1.le
    exact ⟨fun _ => by nlinarith, fun _ => by nlinarith⟩
  rcases lt_or_ge a (((j : ℚ) + 1) * 2 ^ e) with h2 | h2
  · rw [rnd_between he hk (by omega) h1 h2, if_pos (by omega : j % 2 = 0)]
    by_cases hc : a < ((j : ℚ) + 1 / 2) * 2 ^ e
    · rw [if_pos hc]
      exact ⟨fun _ => by nlinarith, fun _ => by nlinarith⟩
    · rw [if_neg hc]
      by_cases hd : ((j : ℚ) + 1 / 2) * 2 ^ e < a
      · rw [if_pos hd]
        push_cast
        exact ⟨fun h => absurd h (lt_irrefl _), fun h => by nlinarith⟩
      · rw [if_neg hd]
        exact ⟨fun _ => by linarith [not_lt.mp hd], fun _ => by nlinarith⟩
  · have := le_rnd (k := j + 1) (by omega) he ha (by push_cast; exact h2)
    push_cast at this
    exact ⟨fun h => by nlinarith, fun h => by nlinarith⟩

end Double
end CppMaths
