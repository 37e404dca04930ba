import Verif.Proofs.IntDiv
import Mathlib.RingTheory.Coprime.Lemmas
/-!
# Division by a machine integer, modulo, exponentiation, `set_value`, `equals_int32`, `times_power_ten`
-/

namespace CppMaths.BigInt

/-! ### `divide_by_int` -/

theorem divByIntLoop_ok {y : Int} (hy0 : 0 < y) (hy1 : y ≤ 2147483647) (n : Nat) :
    ∀ {l acc : List Int} {r : Int}, l.length = n → BinsOK l → 0 ≤ r → r < y →
      ∃ qs, divByIntLoop y l.reverse r acc = .ok (qs ++ acc) ∧ BinsOK qs ∧ qs.length = l.length ∧
        mag qs = (B ^ l.length * r + mag l) / y := by
  induction n with
  | zero =>
    intro l acc r hl _ h0 h1
    rw [List.length_eq_zero_iff] at hl; subst hl
    exact ⟨[], rfl, by simp, rfl, by simp [Int.ediv_eq_zero_of_lt h0 h1]⟩
  | succ n ih =>
    intro l acc r hl hok h0 h1
    rcases eq_nil_or_snoc l with rfl | ⟨l', t, rfl⟩
    · simp at hl
    have hl' : l'.length = n := by simpa using hl
    rw [BinsOK_append] at hok
    have ht := hok.2 t (by simp)
    obtain ⟨g1, g2, g3⟩ := digit_split (rem := r) (t := t) hy0 (B_pow_pos l'.length) (mag_nonneg hok.1) (mag_lt hok.1)
    have d0 : 0 ≤ (1000000000 * r + t) / y := Int.ediv_nonneg (by omega) hy0.le
    have d1 : (1000000000 * r + t) / y < 1000000000 := Int.ediv_lt_of_lt_mul hy0 (by omega)
    obtain ⟨qs, q1, q2, q3, q4⟩ := ih (acc := (1000000000 * r + t) / y :: acc) hl' hok.1
      (Int.emod_nonneg (1000000000 * r + t) hy0.ne') (Int.emod_lt_of_pos (1000000000 * r + t) hy0)
    have e0 : (r * 1000000000 + t).tdiv y = (1000000000 * r + t) / y := by
      rw [Int.tdiv_eq_ediv_of_nonneg (by omega), mul_comm r]
    have e1 : (r * 1000000000 + t).tmod y = (1000000000 * r + t) % y := by
      rw [Int.tmod_eq_emod_of_nonneg (by omega), mul_comm r]
    refine ⟨qs ++ [(1000000000 * r + t) / y], ?_, ?_, by simp [q3], ?_⟩
    · rw [List.reverse_append, List.reverse_singleton, List.singleton_append]
      simp only [divByIntLoop, i64_ok (z := r * 1000000000) (by omega) (by omega), bind_ok,
        i64_ok (z := r * 1000000000 + t) (by omega) (by omega), e0, e1,
        i64_ok (z := (1000000000 * r + t) / y) (by omega) (by omega),
        toI32_id (z := (1000000000 * r + t) / y) (by omega) (by omega), q1]
      simp
    · simp only [BinsOK_append, BinsOK_cons, BinsOK_nil, and_true]; exact ⟨q2, d0, d1⟩
    · rw [mag_append, mag_append, q3, q4, List.length_append, List.length_singleton, pow_succ]
      simp only [mag_cons, mag_nil, mul_zero, add_zero]
      rw [g1]; ring

theorem divideByInt_ok {x res : BigInt} {y : Int} (hx : WF x) (hy0 : 0 < y) (hy1 : y ≤ 2147483647) :
    ∃ r, divideByInt x y res = .ok r ∧ WF r ∧ r.negative = res.negative ∧ r.bins.length = x.bins.length ∧
      mag r.bins = mag x.bins / y := by
  obtain ⟨qs, q1, q2, q3, q4⟩ := divByIntLoop_ok hy0 hy1 x.bins.length (l := x.bins) (acc := []) rfl hx.2 (le_refl 0) hy0
  have hp := hx.pos_length
  have hne : ¬qs.length = 0 := by omega
  refine ⟨{ res with bins := qs }, ?_, ⟨List.ne_nil_of_length_pos (by dsimp only; omega), q2⟩, rfl, q3, by simpa using q4⟩
  unfold divideByInt
  rw [List.append_nil] at q1
  simp [hy0.ne', q1, List.ne_nil_of_length_pos (show 0 < qs.length by omega)]

/-! ### Modulo -/

theorem fmod_unique {x y r k : Int} (h : x = y * k + r) (hr : (0 ≤ r ∧ r < y) ∨ (y < r ∧ r ≤ 0)) :
    x.fmod y = r := by
  rcases hr with ⟨h0, h1⟩ | ⟨h0, h1⟩
  · rw [Int.fmod_eq_emod_of_nonneg _ (by omega), h, Int.mul_add_emod_self_left, Int.emod_eq_of_lt h0 h1]
  · rw [Int.fmod_eq_emod, h, Int.mul_add_emod_self_left]
    by_cases hr0 : r = 0
    · subst hr0; simp
    · have hnd : ¬(0 ≤ y ∨ y ∣ y * k + r) := by
        rintro (h2 | h2)
        · omega
        · have h3 : y ∣ r := (Int.dvd_add_right (dvd_mul_right y k)).mp h2
          obtain ⟨c, hc⟩ := h3
          have hc1 : 0 < c := by
            by_contra hcn
            have : 0 ≤ y * c := by nlinarith
            omega
          nlinarith
      rw [if_neg hnd]
      have : r % y = r - y := by
        rw [← Int.sub_emod_right, ← Int.emod_neg, Int.emod_eq_of_lt (by omega) (by omega)]
      omega

/-- The exact outcome of `modulo` for all operands without leading zero bins. -/
theorem modulo_spec {x y : BigInt} (hx : Clean x) (hy : Clean y) :
    (y.val = 0 → modulo x y = .error .divideByZero) ∧
    (y.val ≠ 0 → DivTrips x y → modulo x y = .error .assertion) ∧
    (y.val ≠ 0 → ¬DivTrips x y → ∃ r, modulo x y = .ok r ∧ Canon r ∧ r.val = x.val.fmod y.val) := by
  have key : ∀ {z : BigInt}, Clean z → ∃ a, (if (ofShift z 0).negative = true then (ofShift z 0).negate else pure (ofShift z 0)) = .ok a ∧
      Clean a ∧ a.negative = false ∧ a.bins = z.bins := by
    intro z hz
    have e : ofShift z 0 = z := by simp [ofShift]
    rw [e]
    by_cases hn : z.negative = true
    · obtain ⟨a, a1, a2, a3, _, a5⟩ := negate_canon hz
      exact ⟨a, by simp [hn, a1], a2.clean, a5 hn, a3⟩
    · exact ⟨z, by simp [hn], hz, by simpa using hn, rfl⟩
  obtain ⟨a, a1, a2, a3, a4⟩ := key hx
  obtain ⟨b, b1, b2, b3, b4⟩ := key hy
  have va : a.val = mag x.bins := by rw [val_of_not_neg a3, a4]
  have vb : b.val = mag y.bins := by rw [val_of_not_neg b3, b4]
  obtain ⟨d1, d2, d3⟩ := divide_spec a2.1 b2.1
  have htr : DivTrips a b ↔ DivTrips x y := by unfold DivTrips; rw [a4, b4]
  rw [htr] at d2 d3
  have hbz : b.val = 0 ↔ y.val = 0 := by rw [vb, ← val_eq_zero_iff]
  rw [hbz] at d1
  rw [ne_eq, hbz] at d2 d3
  have hA := mag_nonneg hx.1.2
  have hB0 := mag_nonneg hy.1.2
  have hyv := abs_val hy.1
  unfold modulo
  simp only [a1, b1, bind_ok, opDiv_eq]
  refine ⟨fun h => by rw [d1 h]; rfl, fun h1 h2 => by rw [d2 h1 h2]; rfl, fun h1 h2 => ?_⟩
  obtain ⟨q, q1, q2, q3⟩ := d3 h1 h2
  have hY : 0 < mag y.bins := by
    have : mag y.bins ≠ 0 := by rwa [ne_eq, ← val_eq_zero_iff]
    omega
  obtain ⟨p, p1, p2, p3⟩ := opMul_ok q2.clean b2
  obtain ⟨r, r1, r2, r3⟩ := opSub_ok a2 p2.clean
  rw [va, vb] at q3
  rw [Int.tdiv_eq_ediv_of_nonneg hA] at q3
  rw [va, p3, q3, vb] at r3
  have hdm := Int.mul_ediv_add_emod (mag x.bins) (mag y.bins)
  have m0 := Int.emod_nonneg (mag x.bins) hY.ne'
  have m1 := Int.emod_lt_of_pos (mag x.bins) hY
  have hr : r.val = mag x.bins % mag y.bins := by rw [r3, mul_comm]; omega
  simp only [q1, bind_ok, p1, r1, equalsInt32_zero r2.1, ← val_eq_zero_iff, hr]
  generalize hm : mag x.bins % mag y.bins = m at *
  by_cases hz : m = 0
  · refine ⟨r, by simp [hz], r2, ?_⟩
    rw [hr, hz, eq_comm]
    unfold val
    cases hsx : x.negative <;> cases hsy : y.negative
    · exact fmod_unique (k := mag x.bins / mag y.bins) (by simp; omega) (by simp; omega)
    · exact fmod_unique (k := -(mag x.bins / mag y.bins)) (by simp; omega) (by simp; omega)
    · exact fmod_unique (k := -(mag x.bins / mag y.bins)) (by simp; omega) (by simp; omega)
    · exact fmod_unique (k := mag x.bins / mag y.bins) (by simp; omega) (by simp; omega)
  · simp only [hz, decide_false, Bool.false_eq_true, if_false]
    cases hsx : x.negative <;> cases hsy : y.negative
    · refine ⟨r, by simp, r2, ?_⟩
      rw [hr, val_of_not_neg hsx, val_of_not_neg hsy, eq_comm]
      exact fmod_unique (k := mag x.bins / mag y.bins) (by omega) (by omega)
    · obtain ⟨s, s1, s2, s3⟩ := addAssign_ok r2.clean hy
      refine ⟨s, by simp [s1], s2, ?_⟩
      rw [s3, hr, val_of_not_neg hsx, val_of_neg hsy, eq_comm]
      refine fmod_unique (k := -(mag x.bins / mag y.bins) - 1) ?_ (by omega)
      have : -mag y.bins * (-(mag x.bins / mag y.bins) - 1) = mag y.bins * (mag x.bins / mag y.bins) + mag y.bins := by ring
      omega
    · obtain ⟨s, s1, s2, s3⟩ := opSub_ok hy r2.clean
      refine ⟨s, by simp [s1], s2, ?_⟩
      rw [s3, hr, val_of_neg hsx, val_of_not_neg hsy, eq_comm]
      refine fmod_unique (k := -(mag x.bins / mag y.bins) - 1) ?_ (by omega)
      have : mag y.bins * (-(mag x.bins / mag y.bins) - 1) = -(mag y.bins * (mag x.bins / mag y.bins)) - mag y.bins := by ring
      omega
    · obtain ⟨s, s1, s2, _, s4, _⟩ := negate_canon r2.clean
      refine ⟨s, by simp [s1], s2, ?_⟩
      rw [s4, hr, val_of_neg hsx, val_of_neg hsy, eq_comm]
      refine fmod_unique (k := mag x.bins / mag y.bins) ?_ (by omega)
      have : -mag y.bins * (mag x.bins / mag y.bins) = -(mag y.bins * (mag x.bins / mag y.bins)) := by ring
      omega

/-! ### `equals_int32` -/

/-- What `equals_int32` really computes: it compares the most significant bin. -/
theorem equalsInt32_spec {a : BigInt} (h : WF a) {v : Int} (h1 : -2147483647 ≤ v) (h2 : v ≤ 2147483647) :
    ∃ r, a.equalsInt32 v = .ok r ∧ (r = true ↔ mag a.bins = |v| * B ^ (a.bins.length - 1) ∧ a.bins.getLast? = some |v| ∧
      (a.negative = decide (v < 0) ∨ v = 0)) := by
  obtain ⟨hne, hb⟩ := h
  rcases eq_nil_or_snoc a.bins with h0 | ⟨l, t, hl⟩
  · exact absurd h0 hne
  have habs : (if v < 0 then -v else v) = |v| := by
    split
    · rw [abs_of_neg (by omega)]
    · rw [abs_of_nonneg (by omega)]
  have hv0 : |v| = 0 ↔ v = 0 := abs_eq_zero
  have hr1 : 0 ≤ |v| := abs_nonneg v
  have hr2 : |v| ≤ 2147483647 := by rw [← habs]; split <;> omega
  unfold equalsInt32
  rw [habs, i32_ok (by omega) hr2]
  rw [hl, BinsOK_append] at hb
  simp only [bind_ok, hl, List.getLast?_append, List.getLast?_singleton, Option.some_or, List.dropLast_concat,
    List.length_append, List.length_singleton, Nat.add_sub_cancel]
  have hmag : mag (l ++ [t]) = mag l + B ^ l.length * t := by rw [mag_append]; simp
  rw [hmag]
  have hz := mag_eq_zero_iff hb.1
  have hm0 := mag_nonneg hb.1
  by_cases hany : l.any (· != 0) = true
  · rw [if_pos hany]
    refine ⟨false, rfl, ?_⟩
    simp only [Bool.false_eq_true, false_iff]
    rintro ⟨e1, e2, _⟩
    have e2 : t = |v| := by simpa using e2
    have : mag l = 0 := by rw [e2] at e1; linarith
    rw [hz] at this
    simp only [List.any_eq_true, bne_iff_ne] at hany
    obtain ⟨b, hb1, hb2⟩ := hany
    exact hb2 (this b hb1)
  · rw [if_neg hany]
    have hl0 : mag l = 0 := by
      rw [hz]; simpa using hany
    rw [hl0]
    by_cases ht : t = |v|
    · subst ht
      by_cases hs : a.negative = decide (v < 0)
      · exact ⟨true, by simp [hs], by simp [hs, mul_comm]⟩
      · by_cases hv : v = 0
        · subst hv; exact ⟨true, by simp, by simp⟩
        · have : |v| ≠ 0 := by rwa [ne_eq, hv0]
          refine ⟨false, ?_, by simp [hs, hv]⟩
          rw [if_neg (by simp [hs]), if_neg (by simp [hv])]; rfl
    · refine ⟨false, ?_, by simp [ht]⟩
      rw [if_neg (by simp [ht]), if_neg (by simp [ht])]; rfl

/-! ### Exponentiation -/

theorem isOdd_spec {y : BigInt} (h : WF y) : y.isOdd = .ok (decide (mag y.bins % 2 = 1)) := by
  obtain ⟨hne, hb⟩ := h
  cases hl : y.bins with
  | nil => exact absurd hl hne
  | cons b bs =>
    rw [hl, BinsOK_cons] at hb
    have e : b.tmod 2 = b % 2 := Int.tmod_eq_emod_of_nonneg hb.1.1
    have : (b + 1000000000 * mag bs) % 2 = b % 2 := by omega
    simp only [isOdd, hl, atR, List.getElem?_cons_zero, bind_ok, mag_cons, this, e, pure_ok, Except.ok.injEq]
    by_cases hb2 : b % 2 = 1 <;> simp [hb2]

theorem setValue_one : setValue 1 = .ok ⟨[1], false⟩ := rfl

theorem equalsInt32_one {y : BigInt} (h : WF y) (hs : y.negative = false) :
    y.equalsInt32 1 = .ok (decide (mag y.bins = B ^ (y.bins.length - 1))) := by
  obtain ⟨e, e1, e2⟩ := equalsInt32_spec h (v := 1) (by omega) (by omega)
  rw [e1]
  congr 1
  rw [Bool.eq_iff_iff, e2, decide_eq_true_eq]
  refine ⟨fun k => by simpa using k.1, fun k => ⟨by simpa using k, ?_, .inl (by rw [hs]; decide)⟩⟩
  rcases eq_nil_or_snoc y.bins with h0 | ⟨l, t, hl⟩
  · exact absurd h0 h.1
  have hb := h.2
  rw [hl, BinsOK_append] at hb
  have h0 := mag_nonneg hb.1
  have h1 := mag_lt hb.1
  have hp := B_pow_pos l.length
  rw [hl, mag_append] at k
  simp only [mag_cons, mag_nil, mul_zero, add_zero, List.length_append, List.length_singleton, Nat.add_sub_cancel] at k
  have ht : t = 1 := by
    have t0 : 0 < t := by
      by_contra hc
      have : (B : Int) ^ l.length * t ≤ 0 := by nlinarith
      omega
    have t1 : t < 2 := by
      by_contra hc
      have : (B : Int) ^ l.length * 2 ≤ B ^ l.length * t := by nlinarith
      omega
    omega
  rw [hl, ht]; simp

/-! #### Arithmetic of the exponents -/

theorem ten_pow_ne_two_pow {k m n : Nat} (hk : 1 ≤ k) : (B : Int) ^ k * 2 ^ m ≠ 2 ^ n := by
  intro h
  have h1 : (5 : Int) ∣ B ^ k := (show (5 : Int) ∣ B by norm_num).trans (dvd_pow_self _ (by omega))
  have hc : IsCoprime (5 : Int) 2 := ⟨1, -2, by norm_num⟩
  have hu := (hc.pow_right (n := n)).isUnit_of_dvd' dvd_rfl (h ▸ h1.mul_right _)
  rw [Int.isUnit_iff] at hu
  omega

theorem two_pow_inj {m n : Nat} (h : (2 : Int) ^ m = 2 ^ n) : m = n := by
  have : (2 : Nat) ^ m = 2 ^ n := by exact_mod_cast h
  exact Nat.pow_right_injective (le_refl 2) this

theorem odd_mul_ne_two_pow {e : Int} {i m : Nat} (ho : e % 2 = 1) (h1 : 1 < e) : e * 2 ^ i ≠ 2 ^ m := by
  intro h
  have hc : IsCoprime e 2 := ⟨1, -(e / 2), by omega⟩
  have hd : e ∣ 2 ^ m := ⟨2 ^ i, h.symm⟩
  have hu := (hc.pow_right (n := m)).isUnit_of_dvd' dvd_rfl hd
  rw [Int.isUnit_iff] at hu
  omega

/-- The point where the recursion stands: `e` was obtained from `c` by `i` halvings, and no exponent ahead is mistaken. -/
structure Ahead (c : Int) (i : Nat) (e : Int) : Prop where
  two : ∀ m : Nat, c = 2 ^ m → m < 30
  ten : ∀ k m : Nat, 1 ≤ k → m < 30 → c = B ^ k * 2 ^ m → m < i
  rest : ∀ j : Nat, e / 2 ^ j % 2 = 1 → ¬BadStart (e / 2 ^ j - 1)

theorem goodExp_iff {e : Int} : GoodExp e ↔ Ahead e 0 e := by
  constructor
  · rintro ⟨h1, h2⟩
    exact ⟨fun m hm => by by_contra hc; exact h1 (.inl ⟨m, by omega, hm⟩),
      fun k m hk hm h => absurd (.inr ⟨k, m, hk, hm, h⟩) h1, h2⟩
  · rintro ⟨h1, h2, h3⟩
    refine ⟨?_, h3⟩
    rintro (⟨m, hm, h⟩ | ⟨k, m, hk, hm, h⟩)
    · have := h1 m h; omega
    · have := h2 k m hk hm h; omega

theorem not_badStart_of_lt {c : Int} (h : c < 1000000000) : ¬BadStart c := by
  rintro (⟨m, hm, h1⟩ | ⟨k, m, hk, hm, h1⟩)
  · have : (2 : Int) ^ 30 ≤ 2 ^ m := pow_le_pow_right₀ (by norm_num) hm
    norm_num at this; omega
  · have h2 : (B : Int) ^ 1 ≤ B ^ k := pow_le_pow_right₀ (by norm_num) hk
    have h3 : (1 : Int) ≤ 2 ^ m := one_le_pow₀ (by norm_num)
    have : (B : Int) ^ k * 1 ≤ B ^ k * 2 ^ m := mul_le_mul_of_nonneg_left h3 (by positivity)
    norm_num at h2
    omega

theorem rest_of_lt {e : Int} (h0 : 0 ≤ e) (h : e < 1000000000) (j : Nat) : ¬BadStart (e / 2 ^ j - 1) := by
  have : e / 2 ^ j ≤ e := Int.ediv_le_self _ h0
  exact not_badStart_of_lt (by omega)

theorem GoodExp.of_lt {e : Int} (h0 : 0 ≤ e) (h : e < 1000000000) : GoodExp e :=
  ⟨not_badStart_of_lt h, fun j _ => rest_of_lt h0 h j⟩

theorem ahead_odd {c e : Int} {i : Nat} (hc : c = e * 2 ^ i) (ho : e % 2 = 1) (h1 : 1 < e) :
    Ahead c i e ↔ Ahead (e - 1) 0 (e - 1) := by
  have hx : ∀ j : Nat, (e - 1) / 2 ^ (j + 1) = e / 2 ^ (j + 1) := by
    intro j
    rw [pow_succ, mul_comm, ← Int.ediv_ediv_of_nonneg (by norm_num), ← Int.ediv_ediv_of_nonneg (by norm_num)]
    congr 1; omega
  rw [← goodExp_iff]
  constructor
  · intro h
    refine ⟨by simpa using h.rest 0 (by simpa using ho), fun j hj => ?_⟩
    cases j with
    | zero => simp only [pow_zero, Int.ediv_one] at hj; omega
    | succ j => rw [hx] at hj ⊢; exact h.rest (j + 1) hj
  · rintro ⟨g1, g2⟩
    refine ⟨fun m hm => absurd (hc ▸ hm) (odd_mul_ne_two_pow ho h1), fun k m hk _ h => ?_, fun j hj => ?_⟩
    · by_contra hmi
      obtain ⟨d, rfl⟩ : ∃ d, m = i + d := ⟨m - i, by omega⟩
      rw [hc, pow_add, mul_left_comm, mul_comm e, ] at h
      have h2 : e = B ^ k * 2 ^ d := mul_left_cancel₀ (show (2 : Int) ^ i ≠ 0 by positivity) h
      have : (2 : Int) ∣ e := by
        rw [h2]; exact ((show (2 : Int) ∣ B by norm_num).trans (dvd_pow_self _ (by omega))).mul_right _
      omega
    · cases j with
      | zero => simpa using g1
      | succ j => rw [← hx] at hj ⊢; exact g2 (j + 1) hj

theorem ahead_even {c e : Int} {i : Nat} (hc : c = e * 2 ^ i) (he : e % 2 = 0)
    (hns : ∀ k : Nat, 1 ≤ k → i < 30 → e ≠ B ^ k) : Ahead c i e ↔ Ahead c (i + 1) (e / 2) := by
  have hx : ∀ j : Nat, e / 2 / 2 ^ j = e / 2 ^ (j + 1) := by
    intro j; rw [Int.ediv_ediv_of_nonneg (by norm_num), pow_succ, mul_comm]
  constructor
  · rintro ⟨h1, h2, h3⟩
    exact ⟨h1, fun k m hk hm h => (h2 k m hk hm h).trans (Nat.lt_succ_self i), fun j hj => by rw [hx] at hj ⊢; exact h3 _ hj⟩
  · rintro ⟨h1, h2, h3⟩
    refine ⟨h1, fun k m hk hm h => ?_, fun j hj => ?_⟩
    · have := h2 k m hk hm h
      refine lt_of_le_of_ne (by omega) ?_
      rintro rfl
      rw [hc] at h
      exact hns k hk hm (mul_right_cancel₀ (show (2 : Int) ^ m ≠ 0 by positivity) h)
    · cases j with
      | zero => simp only [pow_zero, Int.ediv_one] at hj; omega
      | succ j => rw [← hx] at hj ⊢; exact h3 j hj

/-! #### The recursion -/

/-- The exponents that occur during the recursion: `i` halvings of `c`, stored in as many bins as `c` needs. -/
structure ExpOK (c : Int) (i : Nat) (y : BigInt) : Prop where
  wf : WF y
  sign : y.negative = false
  start : c = mag y.bins * 2 ^ i
  low : y.bins.length ≤ 1 ∨ B ^ (y.bins.length - 1) ≤ c
  high : c < B ^ y.bins.length

theorem ExpOK.of_canon {y : BigInt} (hy : WF y) (hn : NoLead y.bins) (hs : y.negative = false) : ExpOK (mag y.bins) 0 y :=
  ⟨hy, hs, by simp, (noLead_iff hy.2).mp hn, mag_lt hy.2⟩

theorem ExpOK.ten {c : Int} {i : Nat} {y : BigInt} (h : ExpOK c i y) {k : Nat} (hi : i < 30) (he : mag y.bins = B ^ k) :
    k = y.bins.length - 1 := by
  have hpl := h.wf.pos_length
  have h1 : (1 : Int) ≤ 2 ^ i := one_le_pow₀ (by norm_num)
  have h2 : (2 : Int) ^ i ≤ 2 ^ 29 := pow_le_pow_right₀ (by norm_num) (by omega)
  have hp := B_pow_pos k
  have hc : B ^ k ≤ c ∧ c < B ^ (k + 1) := by
    rw [h.start, he, pow_succ]
    norm_num at h2
    constructor <;> nlinarith
  have g1 : k < y.bins.length := (pow_lt_pow_iff_right₀ (by norm_num : (1 : Int) < B)).mp (hc.1.trans_lt h.high)
  rcases h.low with g | g
  · omega
  · have g2 : y.bins.length - 1 < k + 1 := (pow_lt_pow_iff_right₀ (by norm_num : (1 : Int) < B)).mp (g.trans_lt hc.2)
    omega

/-- Subtracting 1 from a 1 with leading zero bins runs into the assertion of `subtract`. -/
theorem sub_one_abort {y one : BigInt} (hy : WF y) (hs : y.negative = false) (h1 : mag y.bins = 1)
    (hl : y.bins.length ≠ 1) (ho : one = ⟨[1], false⟩) : opSub y one = .error .assertion := by
  subst ho
  have hg : y.gt ⟨[1], false⟩ = .ok false := by
    rw [gt_spec hy (by decide), val_of_not_neg hs, h1]; rfl
  have hlen : 1 < y.bins.length := by have := hy.pos_length; omega
  simp only [opSub, hs, Bool.false_and, Bool.and_false, Bool.not_false, Bool.false_eq_true, if_false, subNonneg, hg, bind_ok]
  have hn : ¬NoLead y.bins := by
    rw [noLead_iff hy.2, h1]
    have : (B : Int) ^ 1 ≤ B ^ (y.bins.length - 1) := pow_le_pow_right₀ (by norm_num) (by omega)
    norm_num at this
    omega
  have hc : assertTop (cleanBins [1]) = .ok () := by decide
  simp only [BigInt.subtract, hc, assertTop_fail hn, bind_ok]
  rfl

/-- What the recursion does: the exact power if nothing ahead is mistaken, otherwise the assertion fails or the power is
taken with a smaller exponent. -/
theorem exponentiateF_gen (f : Nat) :
    ∀ {c : Int} {i : Nat} {y : BigInt}, ExpOK c i y → mag y.bins < f →
      (Ahead c i (mag y.bins) → ∀ x, WF x →
        ∃ r, exponentiateF f x y = .ok r ∧ WF r ∧ (Canon x → Canon r) ∧ r.val = x.val ^ (mag y.bins).toNat) ∧
      (¬Ahead c i (mag y.bins) → (∀ x, WF x → exponentiateF f x y = .error .assertion) ∨
        ∃ n : Nat, 1 ≤ n ∧ n < (mag y.bins).toNat ∧ ∀ x, WF x →
          ∃ r, exponentiateF f x y = .ok r ∧ WF r ∧ (Canon x → Canon r) ∧ r.val = x.val ^ n) := by
  induction f with
  | zero =>
    intro c i y hy hf
    have := mag_nonneg hy.wf.2
    push_cast at hf; omega
  | succ f ih =>
    intro c i y hy hf
    have hm0 := mag_nonneg hy.wf.2
    have hpl := hy.wf.pos_length
    by_cases hz : mag y.bins = 0
    · have hc : c = 0 := by rw [hy.start, hz, zero_mul]
      have hs : ∀ x, exponentiateF (f + 1) x y = .ok ⟨[1], false⟩ := by
        intro x; unfold exponentiateF; rw [equalsInt32_zero hy.wf]; simp [hz, setValue_one]
      refine ⟨fun _ x _ => ⟨⟨[1], false⟩, hs x, by decide, fun _ => by decide, by rw [hz]; simp [val]⟩,
        fun h => absurd ⟨fun m hm => ?_, fun k m hk hm h' => ?_, fun j hj => ?_⟩ h⟩
      · have : (0 : Int) < 2 ^ m := by positivity
        omega
      · have : (0 : Int) < B ^ k * 2 ^ m := by positivity
        omega
      · rw [hz] at hj; simp at hj
    by_cases hst : mag y.bins = B ^ (y.bins.length - 1)
    · -- the exponent is taken for 1
      have hs : ∀ x, exponentiateF (f + 1) x y = .ok x := by
        intro x; unfold exponentiateF; rw [equalsInt32_zero hy.wf, equalsInt32_one hy.wf hy.sign]
        simp only [hz, decide_false, bind_ok, Bool.false_eq_true, if_false]
        simp only [hst, decide_true, if_true]; rfl
      have hi : i < 30 := by
        by_contra hi
        have h1 : (2 : Int) ^ 30 ≤ 2 ^ i := pow_le_pow_right₀ (by norm_num) (by omega)
        have h2 := hy.high
        have hp := B_pow_pos (y.bins.length - 1)
        rw [hy.start, hst, show y.bins.length = y.bins.length - 1 + 1 by omega, pow_succ] at h2
        simp only [Nat.add_sub_cancel] at h2
        norm_num at h1
        nlinarith
      by_cases hl : y.bins.length - 1 = 0
      · rw [hl, pow_zero] at hst
        have hc : c = 2 ^ i := by rw [hy.start, hst, one_mul]
        refine ⟨fun _ x hx => ⟨x, hs x, hx, id, by rw [hst]; simp⟩,
          fun h => absurd ⟨fun m hm => ?_, fun k m hk hm h' => ?_, fun j _ => ?_⟩ h⟩
        · have := two_pow_inj (hc.symm.trans hm); omega
        · exact absurd (h'.symm.trans hc) (ten_pow_ne_two_pow hk)
        · rw [hst]; exact rest_of_lt (by norm_num) (by norm_num) j
      · have h1 : 1 < mag y.bins := by
          have : (B : Int) ^ 1 ≤ B ^ (y.bins.length - 1) := pow_le_pow_right₀ (by norm_num) (by omega)
          norm_num at this; omega
        refine ⟨fun h => ?_, fun _ => .inr ⟨1, le_refl _, by omega, fun x hx => ⟨x, hs x, hx, id, by simp⟩⟩⟩
        have := h.ten _ i (Nat.one_le_iff_ne_zero.mpr hl) hi (by rw [hy.start, ← hst])
        omega
    by_cases hodd : mag y.bins % 2 = 1
    · obtain ⟨one, o1, o2, o3, o4⟩ := ofInt64_ok (x := 1) 0 (by omega) (by omega)
      have o3 : one.val = 1 := by simpa using o3
      have o4 := o4 (by omega)
      have hs : ∀ x, exponentiateF (f + 1) x y = (do
          let y1 ← opSub y one
          let a ← exponentiateF f x y1
          opMul x a) := by
        intro x; conv_lhs => unfold exponentiateF
        rw [equalsInt32_zero hy.wf, equalsInt32_one hy.wf hy.sign]
        simp only [hz, hst, decide_false, bind_ok, Bool.false_eq_true, if_false, isOdd_spec hy.wf, hodd, decide_true, if_true, o1]
      by_cases h1 : mag y.bins = 1
      · -- a 1 that is not recognised
        have hlen : y.bins.length ≠ 1 := by
          intro h; rw [h] at hst; exact hst (by simpa using h1)
        have hone : one = ⟨[1], false⟩ := by
          have : ofInt64 1 0 = .ok ⟨[1], false⟩ := by decide +kernel
          rw [o1] at this; simpa using this
        refine ⟨fun h => ?_, fun _ => .inl fun x _ => by rw [hs, sub_one_abort hy.wf hy.sign h1 hlen hone]; rfl⟩
        have hc : c = 2 ^ i := by rw [hy.start, h1, one_mul]
        have hi := h.two i hc
        have := hy.ten (k := 0) hi (by rw [h1]; simp)
        omega
      have hyv := val_of_not_neg hy.sign
      obtain ⟨y1, k1, k2, k3⟩ := subNonneg_ok hy.wf o2.1 hy.sign o4 (fun h => by omega) (fun _ => o2.2.1)
      have hsub : opSub y one = .ok y1 := by simp [opSub, hy.sign, o4, k1]
      rw [o3, hyv] at k3
      have hneg : y1.negative = false := by
        have := k2.neg_iff
        by_contra hc
        have := this.mp (by simpa using hc)
        omega
      have hmy1 : mag y1.bins = mag y.bins - 1 := by rw [← val_of_not_neg hneg, k3]
      obtain ⟨g, b⟩ := ih (ExpOK.of_canon k2.1 k2.2.1 hneg) (by rw [hmy1]; push_cast at hf; omega)
      have hah := ahead_odd hy.start hodd (by omega)
      rw [hmy1, ← hah] at g b
      simp only [hsub, bind_ok] at hs
      have up : ∀ (x : BigInt) (n : Nat), WF x → (∃ r, exponentiateF f x y1 = .ok r ∧ WF r ∧ (Canon x → Canon r) ∧ r.val = x.val ^ n) →
          ∃ r, exponentiateF (f + 1) x y = .ok r ∧ WF r ∧ (Canon x → Canon r) ∧ r.val = x.val ^ (n + 1) := by
        rintro x n hx ⟨r, r1, r2, rc, r3⟩
        obtain ⟨p, p1, p2, p3, _⟩ := opMul_wf hx r2
        refine ⟨p, by simp [hs, r1, p1], p2, fun hc => ?_, by rw [p3, r3, ← pow_succ']⟩
        obtain ⟨p', q1, q2, _⟩ := opMul_ok hc.clean (rc hc).clean
        rw [p1] at q1; cases q1; exact q2
      constructor
      · intro h x hx
        have := up x _ hx (g h x hx)
        rwa [show (mag y.bins - 1).toNat + 1 = (mag y.bins).toNat by omega] at this
      · intro h
        rcases b h with b | ⟨n, n1, n2, b⟩
        · exact .inl fun x hx => by rw [hs, b x hx]; rfl
        · exact .inr ⟨n + 1, by omega, by omega, fun x hx => up x n hx (b x hx)⟩
    · obtain ⟨hf', k1, k2, k3, k4, k5⟩ := divideByInt_ok (res := default) hy.wf (y := 2) (by omega) (by omega)
      have hs : ∀ x, exponentiateF (f + 1) x y = (do
          let r ← exponentiateF f x hf'
          opMul r r) := by
        intro x; conv_lhs => unfold exponentiateF
        rw [equalsInt32_zero hy.wf, equalsInt32_one hy.wf hy.sign]
        simp only [hz, hst, decide_false, bind_ok, Bool.false_eq_true, if_false, isOdd_spec hy.wf, hodd, k1]
      have hev : mag y.bins = mag hf'.bins * 2 := by omega
      obtain ⟨g, b⟩ := ih (c := c) (i := i + 1) (y := hf')
        ⟨k2, k3, by rw [hy.start, hev, pow_succ]; ring, by rw [k4]; exact hy.low, by rw [k4]; exact hy.high⟩
        (by rw [k5]; push_cast at hf; omega)
      have hah := ahead_even hy.start (by omega) (fun k _ hi he => hst (by rw [← hy.ten hi he]; exact he))
      rw [k5, ← hah, ← k5] at g b
      have up : ∀ (x : BigInt) (n : Nat), (∃ r, exponentiateF f x hf' = .ok r ∧ WF r ∧ (Canon x → Canon r) ∧ r.val = x.val ^ n) →
          ∃ r, exponentiateF (f + 1) x y = .ok r ∧ WF r ∧ (Canon x → Canon r) ∧ r.val = x.val ^ (n + n) := by
        rintro x n ⟨r, r1, r2, rc, r3⟩
        obtain ⟨p, p1, p2, p3, _⟩ := opMul_wf r2 r2
        refine ⟨p, by simp [hs, r1, p1], p2, fun hc => ?_, by rw [p3, r3, ← pow_add]⟩
        obtain ⟨p', q1, q2, _⟩ := opMul_ok (rc hc).clean (rc hc).clean
        rw [p1] at q1; cases q1; exact q2
      constructor
      · intro h x hx
        have := up x _ (g h x hx)
        rwa [show (mag hf'.bins).toNat + (mag hf'.bins).toNat = (mag y.bins).toNat by omega] at this
      · intro h
        rcases b h with b | ⟨n, n1, n2, b⟩
        · exact .inl fun x hx => by rw [hs, b x hx]; rfl
        · exact .inr ⟨n + n, by omega, by omega, fun x hx => up x n (b x hx)⟩

theorem exponentiateF_ok {x : BigInt} (hx : Canon x) (f : Nat) {c : Int} {i : Nat} {y : BigInt} (hy : ExpOK c i y)
    (ha : Ahead c i (mag y.bins)) (hf : mag y.bins < f) :
    ∃ r, exponentiateF f x y = .ok r ∧ Canon r ∧ r.val = x.val ^ (mag y.bins).toNat := by
  obtain ⟨r, r1, _, r3, r4⟩ := (exponentiateF_gen f hy hf).1 ha x hx.1
  exact ⟨r, r1, r3 hx, r4⟩

/-- The exact outcome for an exponent that is not negative. -/
theorem exponentiate_spec {y : BigInt} (hy : Canon y) (h0 : 0 ≤ y.val) :
    (GoodExp y.val → ∀ x, WF x →
      ∃ r, exponentiate x y = .ok r ∧ WF r ∧ (Canon x → Canon r) ∧ r.val = x.val ^ y.val.toNat) ∧
    (¬GoodExp y.val → (∀ x, WF x → exponentiate x y = .error .assertion) ∨
      ∃ n : Nat, 1 ≤ n ∧ n < y.val.toNat ∧ ∀ x, WF x →
        ∃ r, exponentiate x y = .ok r ∧ WF r ∧ (Canon x → Canon r) ∧ r.val = x.val ^ n) := by
  have hs : y.negative = false := by
    have := hy.neg_iff
    by_contra hc
    have := this.mp (by simpa using hc)
    omega
  have hv := val_of_not_neg hs
  rw [hv, goodExp_iff]
  refine exponentiateF_gen _ (ExpOK.of_canon hy.1 hy.2.1 hs) ?_
  have := mag_lt hy.1.2
  push_cast
  omega

/-- A base with leading zero bins or a negative zero as base. -/
theorem exponentiate_wf_ok {x y : BigInt} (hx : WF x) (hy : Canon y) (h0 : 0 ≤ y.val) (hg : GoodExp y.val) :
    ∃ r, exponentiate x y = .ok r ∧ WF r ∧ (Canon x → Canon r) ∧ r.val = x.val ^ y.val.toNat :=
  (exponentiate_spec hy h0).1 hg x hx

/-- Exponentiation is exact for the exponents that the code handles. -/
theorem exponentiate_ok {x y : BigInt} (hx : Canon x) (hy : Canon y) (h0 : 0 ≤ y.val) (hg : GoodExp y.val) :
    ∃ r, exponentiate x y = .ok r ∧ Canon r ∧ r.val = x.val ^ y.val.toNat := by
  obtain ⟨r, r1, _, r3, r4⟩ := exponentiate_wf_ok hx.1 hy h0 hg
  exact ⟨r, r1, r3 hx, r4⟩

/-- `F` computes the power with exponent `n` of every base. -/
def Pows (F : BigInt → Res BigInt) (n : Nat) : Prop :=
  ∀ x, WF x → ∃ r, F x = .ok r ∧ WF r ∧ (Canon x → Canon r) ∧ r.val = x.val ^ n

theorem goodNegExp_iff {e : Int} (h0 : e % 2 = 0) : GoodNegExp e ↔ Ahead e 1 (e / 2) := by
  have hx : ∀ j : Nat, e / 2 / 2 ^ j = e / 2 ^ (j + 1) := by
    intro j; rw [Int.ediv_ediv_of_nonneg (by norm_num), pow_succ, mul_comm]
  constructor
  · rintro ⟨h1, h2⟩
    refine ⟨fun m hm => ?_, fun k m hk hm h => ?_, fun j hj => by rw [hx] at hj ⊢; exact h2 _ hj⟩
    · by_contra hc
      rcases h1 with h1 | ⟨k, hk, h1⟩
      · exact h1 (.inl ⟨m, by omega, hm⟩)
      · exact ten_pow_ne_two_pow hk (m := 0) (n := m) (by rw [← hm, h1]; simp)
    · rcases h1 with h1 | ⟨k', hk', h1⟩
      · exact absurd (.inr ⟨k, m, hk, hm, h⟩) h1
      · by_contra hc
        rw [h1] at h
        -- `10^(9k')` and `10^(9k) * 2^m` with `1 ≤ m < 30`: compare sizes
        have g1 : (2 : Int) ^ 1 ≤ 2 ^ m := pow_le_pow_right₀ (by norm_num) (by omega)
        have g2 : (2 : Int) ^ m ≤ 2 ^ 29 := pow_le_pow_right₀ (by norm_num) (by omega)
        have hp := B_pow_pos k
        norm_num at g1 g2
        have l1 : k < k' := (pow_lt_pow_iff_right₀ (by norm_num : (1 : Int) < B)).mp (by rw [h]; nlinarith)
        have l2 : k' < k + 1 := (pow_lt_pow_iff_right₀ (by norm_num : (1 : Int) < B)).mp (by rw [h, pow_succ]; nlinarith)
        omega
  · rintro ⟨h1, h2, h3⟩
    refine ⟨?_, fun j hj => ?_⟩
    · by_cases hb : BadStart e
      · right
        rcases hb with ⟨m, hm, h⟩ | ⟨k, m, hk, hm, h⟩
        · have := h1 m h; omega
        · have := h2 k m hk hm h
          obtain rfl : m = 0 := by omega
          exact ⟨k, hk, by simpa using h⟩
      · exact .inl hb
    · cases j with
      | zero => simp only [pow_zero, Int.ediv_one] at hj; omega
      | succ j => rw [← hx] at hj ⊢; exact h3 j hj

/-- A negative exponent: the sign is lost when the exponent is halved. -/
theorem exponentiate_neg {y : BigInt} (hy : Canon y) (h0 : y.val < 0) {d e : Int} (hd : d = -y.val % 2) (he : e = -y.val + d) :
    (GoodNegExp e → Pows (exponentiate · y) (e + d).toNat) ∧
    (¬GoodNegExp e → (∀ x, WF x → exponentiate x y = .error .assertion) ∨
      ∃ n : Nat, 1 ≤ n ∧ (n : Int) < e + d ∧ Pows (exponentiate · y) n) := by
  have hs : y.negative = true := hy.neg_iff.mpr h0
  have hv := val_of_neg hs
  have hml := mag_lt hy.1.2
  have noone : ∀ {z : BigInt}, WF z → z.negative = true → z.equalsInt32 1 = .ok false := by
    intro z hz hzs
    obtain ⟨e, e1, e2⟩ := equalsInt32_spec hz (v := 1) (by omega) (by omega)
    have he : e = false := by
      rw [← Bool.not_eq_true, e2]
      rintro ⟨_, _, h | h⟩
      · rw [hzs] at h; simp at h
      · simp at h
    rw [e1, he]
  -- one halving of a clean negative exponent of even magnitude
  have even : ∀ (f : Nat) {z : BigInt}, Canon z → z.negative = true → 0 < mag z.bins →
      mag z.bins % 2 = 0 → mag z.bins ≤ f →
      (GoodNegExp (mag z.bins) → Pows (exponentiateF (f + 1) · z) (mag z.bins).toNat) ∧
      (¬GoodNegExp (mag z.bins) → (∀ x, WF x → exponentiateF (f + 1) x z = .error .assertion) ∨
        ∃ n : Nat, 1 ≤ n ∧ (n : Int) < mag z.bins ∧ Pows (exponentiateF (f + 1) · z) n) := by
    intro f z hz hzs hz0 hz2 hzf
    have hznz : ¬mag z.bins = 0 := by omega
    have hzo : ¬mag z.bins % 2 = 1 := by omega
    obtain ⟨hf', k1, k2, k3, k4, k5⟩ := divideByInt_ok (res := default) hz.1 (y := 2) (by omega) (by omega)
    have hs : ∀ x, exponentiateF (f + 1) x z = (do
        let r ← exponentiateF f x hf'
        opMul r r) := by
      intro x; conv_lhs => unfold exponentiateF
      rw [equalsInt32_zero hz.1, noone hz.1 hzs]
      simp only [hznz, decide_false, bind_ok, Bool.false_eq_true, if_false, isOdd_spec hz.1, hzo, k1]
    have hlow := (noLead_iff hz.1.2).mp hz.2.1
    have hhigh := mag_lt hz.1.2
    obtain ⟨g, b⟩ := exponentiateF_gen f (c := mag z.bins) (i := 1) (y := hf')
      ⟨k2, k3, by rw [k5]; omega, by rw [k4]; exact hlow, by rw [k4]; exact hhigh⟩ (by rw [k5]; omega)
    rw [k5, ← goodNegExp_iff hz2] at g b
    have up : ∀ n : Nat, Pows (exponentiateF f · hf') n → Pows (exponentiateF (f + 1) · z) (n + n) := by
      intro n h x hx
      obtain ⟨r, r1, r2, rc, r3⟩ := h x hx
      obtain ⟨p, p1, p2, p3, _⟩ := opMul_wf r2 r2
      refine ⟨p, by simp [hs, r1, p1], p2, fun hc => ?_, by rw [p3, r3, ← pow_add]⟩
      obtain ⟨p', q1, q2, _⟩ := opMul_ok (rc hc).clean (rc hc).clean
      rw [p1] at q1; cases q1; exact q2
    constructor
    · intro h
      have := up _ (g h)
      rwa [show (mag z.bins / 2).toNat + (mag z.bins / 2).toNat = (mag z.bins).toNat by omega] at this
    · intro h
      rcases b h with b | ⟨n, n1, n2, b⟩
      · exact .inl fun x hx => by rw [hs, b x hx]; rfl
      · exact .inr ⟨n + n, by omega, by omega, up n b⟩
  have habs : -y.val = mag y.bins := by omega
  rw [habs] at hd he
  unfold exponentiate
  by_cases hodd : mag y.bins % 2 = 1
  · have hynz : ¬mag y.bins = 0 := by omega
    obtain ⟨one, o1, o2, o3, o4⟩ := ofInt64_ok (x := 1) 0 (by omega) (by omega)
    have o3 : one.val = 1 := by simpa using o3
    obtain ⟨y1, k1, k2, k3⟩ := opSub_ok hy.clean o2.clean
    have hy1s : y1.negative = true := k2.neg_iff.mpr (by omega)
    have hy1v : mag y1.bins = e := by have := val_of_neg hy1s; omega
    have hfuel : mag y1.bins ≤ (2 * 1000000000 ^ y.bins.length + 2 : Nat) := by push_cast; omega
    obtain ⟨g, b⟩ := even (2 * 1000000000 ^ y.bins.length + 2) k2 hy1s (by omega) (by omega) hfuel
    rw [hy1v] at g b
    have hs : ∀ x, exponentiateF (2 * 1000000000 ^ y.bins.length + 4) x y = (do
        let a ← exponentiateF (2 * 1000000000 ^ y.bins.length + 2 + 1) x y1
        opMul x a) := by
      intro x; conv_lhs => unfold exponentiateF
      rw [equalsInt32_zero hy.1, noone hy.1 hs]
      simp only [hynz, decide_false, bind_ok, Bool.false_eq_true, if_false, isOdd_spec hy.1, hodd, decide_true, if_true, o1, k1]
    have up : ∀ n : Nat, Pows (exponentiateF (2 * 1000000000 ^ y.bins.length + 2 + 1) · y1) n →
        Pows (exponentiateF (2 * 1000000000 ^ y.bins.length + 4) · y) (n + 1) := by
      intro n h x hx
      obtain ⟨r, r1, r2, rc, r3⟩ := h x hx
      obtain ⟨p, p1, p2, p3, _⟩ := opMul_wf hx r2
      refine ⟨p, ?_, p2, fun hc => ?_, by rw [p3, r3, ← pow_succ']⟩
      · dsimp only at r1 ⊢; rw [hs, r1]; exact p1
      obtain ⟨p', q1, q2, _⟩ := opMul_ok hc.clean (rc hc).clean
      rw [p1] at q1; cases q1; exact q2
    constructor
    · intro h
      have := up _ (g h)
      rwa [show e.toNat + 1 = (e + d).toNat by omega] at this
    · intro h
      rcases b h with b | ⟨n, n1, n2, b⟩
      · exact .inl fun x hx => by rw [hs, b x hx]; rfl
      · exact .inr ⟨n + 1, by omega, by omega, up n b⟩
  · have hfuel : mag y.bins ≤ (2 * 1000000000 ^ y.bins.length + 3 : Nat) := by push_cast; omega
    have h := even (2 * 1000000000 ^ y.bins.length + 3) hy hs (by omega) (by omega) hfuel
    obtain rfl : d = 0 := by omega
    obtain rfl : e = mag y.bins := by omega
    rw [add_zero]
    exact h

/-! ### `times_power_ten` -/

theorem mulTenLoop_ok (n : Nat) : ∀ {a : BigInt}, Canon a →
    ∃ r, mulTenLoop n a = .ok r ∧ Canon r ∧ r.val = a.val * 10 ^ n := by
  induction n with
  | zero => intro a ha; exact ⟨a, rfl, ha, by simp⟩
  | succ n ih =>
    intro a ha
    obtain ⟨ten, t1, t2, t3, t4⟩ := ofInt64_ok (x := 10) 0 (by omega) (by omega)
    have t3 : ten.val = 10 := by simpa using t3
    have t4 := t4 (by omega)
    have hm10 : mag ten.bins = 10 := by rw [← val_of_not_neg t4, t3]
    obtain ⟨s, s1, s2, s3, s4⟩ := mulAssign_ok ha.1 t2.1
    have hlen : ten.bins.length = 1 := by
      have := noLead_length_le t2.1.2 t2.2.1 (k := 1) (le_refl _) (by rw [hm10]; norm_num)
      have := t2.1.pos_length
      omega
    have hc : Canon s := by
      obtain ⟨m, m1, m2, m3, m4⟩ := multiply_ok ha.1 t2.1
      have hn := multiply_noLead ha.clean t2.clean (.inr hlen) m1
      simp only [mulAssign, m1, bind_ok, pure_ok, Except.ok.injEq] at s1
      refine ⟨s2, by rw [← s1]; exact hn, fun h => ?_⟩
      rw [s4, t4] at h
      have : a.val ≠ 0 := by rw [ne_eq, val_eq_zero_iff]; exact ha.2.2 (by simpa using h)
      rw [ne_eq, ← val_eq_zero_iff, s3, t3]; omega
    obtain ⟨r, r1, r2, r3⟩ := ih hc
    refine ⟨r, by simp only [mulTenLoop, t1, bind_ok, s1, r1], r2, ?_⟩
    rw [r3, s3, t3, pow_succ]; ring

theorem timesPowerTen_pos {a : BigInt} (ha : Canon a) {p : Int} (hp : 0 < p) :
    ∃ r, timesPowerTen a p = .ok r ∧ WF r ∧ r.val = a.val * 10 ^ p.toNat ∧ (a.val ≠ 0 ∨ p < 9 → Canon r) := by
  obtain ⟨s, s1, s2, s3⟩ := mulTenLoop_ok (p.toNat % 9) ha
  obtain ⟨w1, w2, w3, w4⟩ := ofShift_wf s2.1 (p.toNat / 9)
  refine ⟨ofShift s (p.toNat / 9), ?_, w1, ?_, ?_⟩
  · simp only [timesPowerTen, hp, if_true, s1, bind_ok, pure_ok]
  · have : (ofShift s (p.toNat / 9)).val = B ^ (p.toNat / 9) * s.val := by
      unfold val; rw [w3, w2]; split <;> ring
    rw [this, s3, show (B : Int) = 10 ^ 9 by norm_num, ← pow_mul]
    have h9 : p.toNat = 9 * (p.toNat / 9) + p.toNat % 9 := by omega
    conv_rhs => rw [h9, pow_add]
    ring
  · intro h
    by_cases hv : a.val = 0
    · have hp9 : p < 9 := h.resolve_left (not_not.mpr hv)
      have : p.toNat / 9 = 0 := by omega
      rw [this]
      have e : ofShift s 0 = s := by simp [ofShift]
      rw [e]; exact s2
    · have hsv : s.val ≠ 0 := by rw [s3]; exact mul_ne_zero hv (by positivity)
      have hsm : mag s.bins ≠ 0 := by rwa [ne_eq, ← val_eq_zero_iff]
      refine ⟨w1, ?_, fun _ => ?_⟩
      · apply noLead_shift
        · have := getLast_pos_of_noLead s2.1.1 s2.1.2 s2.2.1 hsm
          rw [List.getLast?_eq_some_getLast s2.1.1]; simpa using this
        · exact s2.1.1
      · rw [w2]; exact mul_ne_zero (by positivity) hsm

theorem tdiv_tdiv_pos {a b c : Int} (hb : 0 ≤ b) : (a.tdiv b).tdiv c = a.tdiv (b * c) := by
  have pos : ∀ {a : Int}, 0 ≤ a → (a.tdiv b).tdiv c = a.tdiv (b * c) := by
    intro a ha
    rw [Int.tdiv_eq_ediv_of_nonneg ha, Int.tdiv_eq_ediv_of_nonneg ha, Int.tdiv_eq_ediv_of_nonneg (Int.ediv_nonneg ha hb),
      Int.ediv_ediv_of_nonneg hb]
  rcases le_total 0 a with h | h
  · exact pos h
  · have := pos (a := -a) (by omega)
    rw [Int.neg_tdiv, Int.neg_tdiv, Int.neg_tdiv] at this
    omega

theorem divTenLoop_ok (n : Nat) : ∀ {a : BigInt}, Canon a →
    (∃ r, divTenLoop n a = .ok r ∧ Canon r ∧ r.val = a.val.tdiv (10 ^ n)) ∨ divTenLoop n a = .error .assertion := by
  induction n with
  | zero => intro a ha; exact .inl ⟨a, rfl, ha, by simp⟩
  | succ n ih =>
    intro a ha
    obtain ⟨ten, t1, t2, t3, t4⟩ := ofInt64_ok (x := 10) 0 (by omega) (by omega)
    have t3 : ten.val = 10 := by simpa using t3
    obtain ⟨_, d2, d3⟩ := divide_spec ha.1 t2.1
    by_cases htr : DivTrips a ten
    · right
      simp only [divTenLoop, t1, bind_ok, divAssign_eq, d2 (by omega) htr, bind_err]
    · obtain ⟨s, s1, s2, s3⟩ := d3 (by omega) htr
      rcases ih s2 with ⟨r, r1, r2, r3⟩ | hr
      · left
        refine ⟨r, by simp only [divTenLoop, t1, bind_ok, divAssign_eq, s1, r1], r2, ?_⟩
        rw [r3, s3, t3, tdiv_tdiv_pos (by norm_num), pow_succ, mul_comm]
      · right
        simp only [divTenLoop, t1, bind_ok, divAssign_eq, s1, hr]

/-- Below 10^18 the divisions by ten cannot trip. -/
theorem divTenLoop_small (n : Nat) : ∀ {a : BigInt}, Canon a → a.bins.length ≤ 2 →
    ∃ r, divTenLoop n a = .ok r ∧ Canon r ∧ r.val = a.val.tdiv (10 ^ n) := by
  induction n with
  | zero => intro a ha _; exact ⟨a, rfl, ha, by simp⟩
  | succ n ih =>
    intro a ha hlen
    obtain ⟨ten, t1, t2, t3, t4⟩ := ofInt64_ok (x := 10) 0 (by omega) (by omega)
    have t3 : ten.val = 10 := by simpa using t3
    obtain ⟨_, _, d3⟩ := divide_spec ha.1 t2.1
    obtain ⟨s, s1, s2, s3⟩ := d3 (by omega) (by rintro ⟨_, j, j1, j2, _⟩; omega)
    have hsl : s.bins.length ≤ 2 := by
      have : mag s.bins ≤ mag a.bins := by
        rw [← abs_val s2.1, ← abs_val ha.1, s3, Int.abs_eq_natAbs, Int.abs_eq_natAbs, Int.natAbs_tdiv]
        exact_mod_cast Nat.div_le_self _ _
      have := length_le_of_mag_le s2.1.2 ha.1.2 s2.2.1 ha.1.1 this
      omega
    obtain ⟨r, r1, r2, r3⟩ := ih s2 hsl
    refine ⟨r, by simp only [divTenLoop, t1, bind_ok, divAssign_eq, s1, r1], r2, ?_⟩
    rw [r3, s3, t3, tdiv_tdiv_pos (by norm_num), pow_succ, mul_comm]

theorem mag_drop {l : List Int} (h : BinsOK l) (k : Nat) : mag (l.drop k) = mag l / B ^ k := by
  induction k generalizing l with
  | zero => simp
  | succ k ih =>
    cases l with
    | nil => simp
    | cons b bs =>
      rw [BinsOK_cons] at h
      rw [List.drop_succ_cons, ih h.2, mag_cons, pow_succ, mul_comm (B ^ k), ← Int.ediv_ediv_of_nonneg (by norm_num)]
      congr 1; omega

theorem BinsOK_drop {l : List Int} (h : BinsOK l) (k : Nat) : BinsOK (l.drop k) :=
  fun b hb => h b (List.mem_of_mem_drop hb)

theorem drop_canon {a : BigInt} (ha : Canon a) {k : Nat} (hk : k < a.bins.length) (hv : a.val ≠ 0) :
    Canon { a with bins := a.bins.drop k } ∧ BigInt.val { a with bins := a.bins.drop k } = a.val.tdiv (B ^ k) := by
  have hm : mag a.bins ≠ 0 := by rwa [ne_eq, ← val_eq_zero_iff]
  have hlast := getLast_pos_of_noLead ha.1.1 ha.1.2 ha.2.1 hm
  have hdne : a.bins.drop k ≠ [] := List.ne_nil_of_length_pos (by rw [List.length_drop]; omega)
  have hdok := BinsOK_drop ha.1.2 k
  have hlast' : (a.bins.drop k).getLast? ≠ some 0 := by
    rw [List.getLast?_drop, if_neg (by omega), List.getLast?_eq_some_getLast ha.1.1]; simpa using hlast
  have hmd : mag (a.bins.drop k) ≠ 0 := by
    intro h
    rw [mag_eq_zero_iff hdok] at h
    rw [List.getLast?_eq_some_getLast hdne] at hlast'
    exact hlast' (by rw [h _ (List.getLast_mem hdne)])
  refine ⟨⟨⟨hdne, hdok⟩, .inr hlast', fun _ => hmd⟩, ?_⟩
  have e : (mag a.bins).tdiv (B ^ k) = mag a.bins / B ^ k := Int.tdiv_eq_ediv_of_nonneg (mag_nonneg ha.1.2)
  unfold val
  dsimp only
  rw [mag_drop ha.1.2]
  split
  · rw [Int.neg_tdiv, e]
  · rw [e]

theorem tdiv_of_abs_lt {a b : Int} (h : |a| < b) : a.tdiv b = 0 := by
  rcases le_or_gt 0 a with h0 | h0
  · rw [abs_of_nonneg h0] at h; exact Int.tdiv_eq_zero_of_lt h0 h
  · rw [abs_of_neg h0] at h
    have := Int.tdiv_eq_zero_of_lt (a := -a) (by omega) h
    rwa [Int.neg_tdiv, neg_eq_zero] at this

theorem timesPowerTen_neg {a : BigInt} (ha : Canon a) {p : Int} (hp : p < 0) (hp2 : -2147483647 ≤ p) :
    ((∃ r, timesPowerTen a p = .ok r ∧ Canon r ∧ r.val = a.val.tdiv (10 ^ (-p).toNat)) ∨
      timesPowerTen a p = .error .assertion) ∧
    (a.bins.length ≤ 2 → ∃ r, timesPowerTen a p = .ok r ∧ Canon r ∧ r.val = a.val.tdiv (10 ^ (-p).toNat)) := by
  have h9 : (-p).toNat = 9 * ((-p).toNat / 9) + (-p).toNat % 9 := by omega
  have hpow : (10 : Int) ^ (-p).toNat = B ^ ((-p).toNat / 9) * 10 ^ ((-p).toNat % 9) := by
    conv_lhs => rw [h9, pow_add, pow_mul]
    norm_num
  unfold timesPowerTen
  rw [if_neg (by omega), if_pos hp, i32_ok (z := -p) (by omega) (by omega)]
  simp only [bind_ok]
  by_cases hlen : (-p).toNat / 9 < a.bins.length
  · have hne : (a.bins.drop ((-p).toNat / 9)).isEmpty = false := by
      rw [List.isEmpty_eq_false_iff]; exact List.ne_nil_of_length_pos (by rw [List.length_drop]; omega)
    rw [if_neg (by simp [hne])]
    obtain ⟨d, hdeq, hd, hdv⟩ : ∃ d, ({ a with bins := a.bins.drop ((-p).toNat / 9) } : BigInt) = d ∧ Canon d ∧ d.val = a.val.tdiv (B ^ ((-p).toNat / 9)) := by
      by_cases hv : a.val = 0
      · have hm : mag a.bins = 0 := val_eq_zero_iff.mp hv
        have h1 := noLead_length_le ha.1.2 ha.2.1 (k := 1) (le_refl _) (by rw [hm]; norm_num)
        have h0 : (-p).toNat / 9 = 0 := by omega
        rw [h0]
        exact ⟨a, by simp, ha, by simp⟩
      · obtain ⟨d1, d2⟩ := drop_canon ha hlen hv
        exact ⟨_, rfl, d1, d2⟩
    rw [hdeq]
    have hfin : d.val.tdiv (10 ^ ((-p).toNat % 9)) = a.val.tdiv (10 ^ (-p).toNat) := by
      rw [hdv, tdiv_tdiv_pos (by positivity), hpow]
    refine ⟨?_, fun hl2 => ?_⟩
    · rcases divTenLoop_ok ((-p).toNat % 9) hd with ⟨r, r1, r2, r3⟩ | hr
      · exact .inl ⟨r, r1, r2, by rw [r3, hfin]⟩
      · exact .inr hr
    · obtain ⟨r, r1, r2, r3⟩ := divTenLoop_small ((-p).toNat % 9) hd (by rw [← hdeq]; simp; omega)
      exact ⟨r, r1, r2, by rw [r3, hfin]⟩
  · have hnil : a.bins.drop ((-p).toNat / 9) = [] := List.drop_of_length_le (by omega)
    have hres : ∃ r, (if (a.bins.drop ((-p).toNat / 9)).isEmpty = true then setValue 0
        else divTenLoop ((-p).toNat % 9) { a with bins := a.bins.drop ((-p).toNat / 9) }) = .ok r ∧ Canon r ∧
        r.val = a.val.tdiv (10 ^ (-p).toNat) := by
      refine ⟨⟨[0], false⟩, by rw [hnil]; rfl, canon_zero, ?_⟩
      rw [tdiv_of_abs_lt]
      · rfl
      · rw [abs_val ha.1, hpow]
        have h1 := mag_lt ha.1.2
        have h2 : (B : Int) ^ a.bins.length ≤ B ^ ((-p).toNat / 9) := pow_le_pow_right₀ (by norm_num) (by omega)
        have h3 : (1 : Int) ≤ 10 ^ ((-p).toNat % 9) := one_le_pow₀ (by norm_num)
        nlinarith [B_pow_pos ((-p).toNat / 9)]
    exact ⟨.inl hres, fun _ => hres⟩

end CppMaths.BigInt
