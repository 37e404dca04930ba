import Verif.Proofs.Common
import Verif.Proofs.FracText
import Verif.Props.FracText
import Verif.Model.FracDouble
/-!
# Properties of the functions of `src/common.hpp` on `double`, and of `Frac::from_double` (C81, C87, C88)

`Denotes d q`: `d` is a finite `double` with value `q`; `eps`, `halfUlp`: `Verif/Spec/Common.lean`.
-/

namespace CppMaths
open Double

/-! ### The model of rounding is IEEE 754 -/

/-- The rounded value is nearest: no other `double` is closer. -/
theorem round_nearest (s : Bool) {a : ℚ} (ha : 0 < a) {m : Nat} {e : Int} (h : roundAbs s a = .fin s m e) {d : Double} {q : ℚ}
    (hd : d.Denotes q) : |(m : ℚ) * 2 ^ e - a| ≤ |q - a| := by
  have hr : (m : ℚ) * 2 ^ e = rnd a := by
    rcases (roundAbs_spec s ha).2 with ⟨m', e', h1, h2, _⟩ | ⟨h1, _⟩
    · rw [h] at h1
      injection h1 with _ h1 h1'
      subst h1; subst h1'; exact h2
    · rw [h] at h1; cases h1
  rw [hr]
  obtain ⟨hw, k, f, ⟨rfl, rfl⟩ | ⟨rfl, rfl⟩⟩ := hd
  · exact rnd_nearest ha hw.1 hw.2.1
  · refine (rnd_le_two_mul ha).trans ?_
    have : 0 ≤ (k : ℚ) * 2 ^ f := by positivity
    rw [abs_sub_comm, abs_of_nonneg (by linarith)]
    linarith

/-- `EPSILON` is the `double` nearest to 0.00001. -/
theorem EPSILON_nearest : roundAbs false (1 / 100000) = EPSILON ∧ EPSILON.WF ∧ EPSILON.Denotes eps := by
  refine ⟨by decide +kernel, by decide, ?_⟩
  have := denotes_fin (s := false) (m := 5902958103587057) (e := -69) (by decide)
  rwa [real_eps] at this

/-- Some numbers for the examples: 1/2, 1, 3/2. -/
private theorem ex_half : Denotes (.fin false (2 ^ 52) (-53)) (1 / 2) := ⟨by decide, 2 ^ 52, -53, .inl ⟨rfl, by norm_num⟩⟩
private theorem ex_one : Denotes (.fin false (2 ^ 52) (-52)) 1 := ⟨by decide, 2 ^ 52, -52, .inl ⟨rfl, by norm_num⟩⟩
private theorem ex_three_halves : Denotes (.fin false (3 * 2 ^ 51) (-52)) (3 / 2) := ⟨by decide, 3 * 2 ^ 51, -52, .inl ⟨rfl, by norm_num⟩⟩

/-! ### C81: comparison with tolerance -/

/-- C81, the part that holds: for all finite numbers the sign of `y - x` is returned if they differ by at least `EPSILON` plus
half a unit in its last place, and 0 otherwise. Missing: differences between `EPSILON` and that bound. -/
theorem C81_float_cmp_partial {x y : Double} {a b : ℚ} (hx : x.Denotes a) (hy : y.Denotes b) :
    floatCmp x y = if eps + halfUlp ≤ b - a then 1 else if b - a ≤ -(eps + halfUlp) then -1 else 0 := by
  rw [floatCmp_spec hx hy]
  have h1 := eps_pos
  have h2 := halfUlp_pos
  by_cases h : b = a
  · subst h
    rw [if_pos rfl, if_neg (by linarith), if_neg (by linarith)]
  · rw [if_neg h]
    have hpos : 0 < |b - a| := abs_pos.mpr (sub_ne_zero.mpr h)
    simp only [eps_lt_rnd hpos]
    rcases lt_or_gt_of_ne h with hlt | hlt
    · rw [abs_of_neg (by linarith), if_pos hlt, if_neg (by linarith : ¬eps + halfUlp ≤ b - a)]
      by_cases hc : eps + halfUlp ≤ -(b - a)
      · rw [if_pos hc, if_pos (by linarith)]
      · rw [if_neg hc, if_neg (by linarith)]
    · rw [abs_of_pos (by linarith), if_neg (not_lt.mpr hlt.le), if_neg (by linarith : ¬b - a ≤ -(eps + halfUlp))]

example : floatCmp (.fin false (2 ^ 52) (-52)) (.fin false (3 * 2 ^ 51) (-52)) = 1 := by
  rw [C81_float_cmp_partial ex_one ex_three_halves, if_pos]
  norm_num [eps, halfUlp]

/-- C81, exactly as stated, whenever the difference of the two numbers is itself a `double`. -/
theorem C81_exact_difference_partial {x y d : Double} {a b : ℚ} (hx : x.Denotes a) (hy : y.Denotes b) (hd : d.Denotes (b - a)) :
    (floatCmp x y = 0 ↔ |a - b| ≤ eps) ∧ (floatCmp x y = 1 ↔ eps < b - a) ∧ (floatCmp x y = -1 ↔ b - a < -eps) ∧
    (floatEquals x y = true ↔ |a - b| < eps) := by
  have hp := eps_pos
  have hr : b ≠ a → rnd |b - a| = |b - a| := by
    intro h
    have hpos : 0 < |b - a| := abs_pos.mpr (sub_ne_zero.mpr h)
    obtain ⟨hw, k, f, ⟨rfl, h1⟩ | ⟨rfl, h1⟩⟩ := hd
    · exact rnd_eq hw.1.le hw.2.1 hpos (by rw [h1, abs_of_nonneg (by positivity)])
    · exact rnd_eq hw.1.le hw.2.1 hpos (by rw [h1, abs_neg, abs_of_nonneg (by positivity)])
  rw [floatCmp_spec hx hy, floatEquals_spec hx hy, abs_sub_comm a b]
  by_cases h : b = a
  · subst h; simp [hp, hp.le, not_lt.mpr hp.le]
  · rw [hr h, if_neg h]
    rcases lt_or_gt_of_ne h with hlt | hlt
    · rw [abs_of_neg (by linarith), if_pos hlt]
      refine ⟨?_, ?_, ?_, by simp [Ne.symm h]⟩ <;> split_ifs <;> constructor <;> intro <;>
        first | contradiction | omega | linarith
    · rw [abs_of_pos (by linarith), if_neg (not_lt.mpr hlt.le)]
      refine ⟨?_, ?_, ?_, by simp [Ne.symm h]⟩ <;> split_ifs <;> constructor <;> intro <;>
        first | contradiction | omega | linarith

example : floatCmp (.fin false (2 ^ 52) (-52)) (.fin false (3 * 2 ^ 51) (-52)) = 1 :=
  (C81_exact_difference_partial ex_one ex_three_halves (d := .fin false (2 ^ 52) (-53)) (by norm_num; exact ex_half)).2.1.mpr
    (by norm_num [eps])

/-- C81 for `float_equals`: true exactly if the numbers differ by at most `EPSILON` minus half a unit in its last place. -/
theorem C81_float_equals_partial {x y : Double} {a b : ℚ} (hx : x.Denotes a) (hy : y.Denotes b) :
    floatEquals x y = true ↔ |a - b| ≤ eps - halfUlp := by
  rw [floatEquals_spec hx hy]
  have h1 := halfUlp_lt
  by_cases h : a = b
  · subst h; simp [h1.le]
  · rw [rnd_lt_eps (abs_pos.mpr (sub_ne_zero.mpr h))]
    simp [h]

example : floatEquals (.fin false (2 ^ 52) (-52)) (.fin false (3 * 2 ^ 51) (-52)) ≠ true := by
  rw [Ne, C81_float_equals_partial ex_one ex_three_halves]
  norm_num [eps, halfUlp, abs_of_neg]

/-- C81 as stated is false: the difference is rounded before it is compared, so that numbers further apart than `EPSILON` may
compare equal, and numbers closer than `EPSILON` need not be `float_equals`; NaN compares equal to everything; an infinity is
not `float_equals` to itself. -/
theorem C81_refuted :
    (∃ x y : Double, ∃ a b, x.Denotes a ∧ y.Denotes b ∧ eps < |a - b| ∧ floatCmp x y = 0) ∧
    (∃ x y : Double, ∃ a b, x.Denotes a ∧ y.Denotes b ∧ |a - b| < eps ∧ floatEquals x y = false) ∧
    (∀ x, floatCmp .nan x = 0 ∧ floatCmp x .nan = 0) ∧ ∀ s, floatEquals (.inf s) (.inf s) = false := by
  have tiny : (1 : ℚ) * 2 ^ (-1074 : Int) < halfUlp := by
    have : (2 : ℚ) ^ (-1074 : Int) < 2 ^ (-70 : Int) := zpow_lt_zpow_right₀ (by norm_num) (by norm_num)
    unfold halfUlp
    rw [one_mul]
    refine this.trans_le (le_of_eq (by norm_num))
  have tpos : (0 : ℚ) < 1 * 2 ^ (-1074 : Int) := by positivity
  have d1 : (Double.fin true 1 (-1074)).Denotes (-(1 * 2 ^ (-1074 : Int))) := by
    have := denotes_fin (s := true) (m := 1) (e := -1074) (by decide)
    rwa [real_true, Nat.cast_one] at this
  have d2 : (Double.fin false 1 (-1074)).Denotes (1 * 2 ^ (-1074 : Int)) := by
    have := denotes_fin (s := false) (m := 1) (e := -1074) (by decide)
    rwa [real_false, Nat.cast_one] at this
  have d3 := EPSILON_nearest.2.2
  have hp := eps_pos
  have hu := halfUlp_lt
  generalize (1 : ℚ) * 2 ^ (-1074 : Int) = t at *
  refine ⟨⟨_, _, _, _, d1, d3, ?_, ?_⟩, ⟨_, _, _, _, d3, d2, ?_, ?_⟩, fun x => ⟨?_, ?_⟩, fun s => by cases s <;> decide +kernel⟩
  · rw [abs_of_neg (by linarith)]; linarith
  · rw [C81_float_cmp_partial d1 d3, if_neg (by linarith), if_neg (by linarith)]
  · rw [abs_of_pos (by linarith)]; linarith
  · rw [Bool.eq_false_iff, Ne, C81_float_equals_partial d3 d2, abs_of_pos (by linarith)]; linarith
  · cases x <;> rfl
  · cases x <;> rfl

/-- C81: exchanging the arguments negates the result, for all `double`s including infinities and NaN, and `float_equals` is
symmetric. -/
theorem C81_antisymmetric (x y : Double) (hx : x.WF) (hy : y.WF) : floatCmp y x = -floatCmp x y ∧ floatEquals y x = floatEquals x y := by
  cases x with
  | nan => cases y <;> exact ⟨rfl, rfl⟩
  | inf s => cases y with
    | nan => exact ⟨rfl, rfl⟩
    | inf t => cases s <;> cases t <;> decide +kernel
    | fin t m e => cases s <;> exact ⟨rfl, rfl⟩
  | fin s m e => cases y with
    | nan => exact ⟨rfl, rfl⟩
    | inf t => cases t <;> exact ⟨rfl, rfl⟩
    | fin t m' e' =>
      have d1 := denotes_fin hx
      have d2 := denotes_fin hy
      have hp := eps_pos
      have hu := halfUlp_pos
      constructor
      · rw [C81_float_cmp_partial d1 d2, C81_float_cmp_partial d2 d1]
        split_ifs <;> first | rfl | (exfalso; linarith)
      · rw [Bool.eq_iff_iff, C81_float_equals_partial d1 d2, C81_float_equals_partial d2 d1, abs_sub_comm]

example : floatCmp (.fin false (2 ^ 52) (-52)) (.fin false (3 * 2 ^ 51) (-52)) = 1 ∧ Denotes (.fin false (3 * 2 ^ 51) (-52)) (3 / 2) :=
  ⟨by decide +kernel, by decide, 3 * 2 ^ 51, -52, .inl ⟨rfl, by norm_num⟩⟩
example : floatCmp (.fin false (2 ^ 52) (-52)) (.inf true) = -1 ∧ floatEquals (.fin false (2 ^ 52) (-52)) (.fin false (2 ^ 52 + 1) (-52)) = true := by
  decide +kernel

/-! ### C87: isFinite -/

/-- C87. True exactly for the finite numbers. -/
theorem C87_isFinite (d : Double) (hd : d.WF) : isFinite d = true ↔ ∃ q, d.Denotes q := by
  cases d with
  | nan =>
    refine ⟨fun h => ?_, fun ⟨q, _, m, e, h⟩ => by rcases h with ⟨h, _⟩ | ⟨h, _⟩ <;> cases h⟩
    cases h
  | inf s =>
    refine ⟨fun h => ?_, fun ⟨q, _, m, e, h⟩ => by rcases h with ⟨h, _⟩ | ⟨h, _⟩ <;> cases h⟩
    cases s <;> cases h
  | fin s m e => exact ⟨fun _ => ⟨_, denotes_fin hd⟩, fun _ => by simp [isFinite, Double.eq, neg]⟩

example : (Double.fin true 5 (-1074)).WF ∧ isFinite (.fin true 5 (-1074)) = true ∧ isFinite (.inf true) = false := by decide +kernel

/-! ### C88: `from_double` -/

/-- The text that is printed with at least one fractional digit. -/
theorem printFixed_spec {x : Double} {a : ℚ} (hx : x.Denotes a) {p : Nat} (hp : 1 ≤ p) :
    ∃ (ip fp : List Char) (n : Int), x.printFixed p = ip ++ '.' :: fp ∧ fp.length = p ∧ IntText (ip ++ fp) n ∧ (∀ c ∈ ip, c ≠ '.') ∧
      |(n : ℚ) - a * 10 ^ p| ≤ 1 / 2 ∧ (|(n : ℚ) - a * 10 ^ p| = 1 / 2 → n % 2 = 0) := by
  obtain ⟨s, m, e, rfl, rfl⟩ := hx.fin
  have hq : 0 ≤ (m : ℚ) * 2 ^ e * 10 ^ p := by positivity
  generalize hn : halfEven (m * 2 ^ e * 10 ^ p) = n
  have near := halfEven_near hq
  have tie := halfEven_tie hq
  rw [hn] at near tie
  generalize hds : List.replicate (p + 1 - (Nat.toDigits 10 n).length) '0' ++ Nat.toDigits 10 n = ds
  have hlen : p + 1 ≤ ds.length := by rw [← hds]; simp; omega
  have hdig : ∀ c ∈ ds, c.isDigit = true := by
    intro c hc
    rw [← hds, List.mem_append] at hc
    rcases hc with hc | hc
    · rw [List.eq_of_mem_replicate hc]; decide
    · exact Nat.isDigit_of_mem_toDigits (by norm_num) (by norm_num) hc
  have hval : Nat.ofDigitChars 10 ds 0 = n := by
    rw [← hds, Nat.ofDigitChars_append, Nat.ofDigitChars_replicate_zero, mul_zero, Nat.ofDigitChars_ten_toDigits]
  have hpr : (Double.fin s m e).printFixed p = (if s then ['-'] else []) ++ ds.take (ds.length - p) ++ '.' :: ds.drop (ds.length - p) := by
    unfold printFixed
    dsimp only
    rw [hn, hds, if_neg (show ¬p = 0 by omega), List.append_assoc]
  have hne : ds ≠ [] := by intro h; rw [h] at hlen; simp at hlen
  refine ⟨(if s then ['-'] else []) ++ ds.take (ds.length - p), ds.drop (ds.length - p), if s then -n else n, hpr, by simp; omega, ?_, ?_, ?_⟩
  · rw [List.append_assoc, List.take_append_drop]
    refine ⟨ds, ⟨hne, hdig⟩, ?_⟩
    cases s
    · left; simp [hval]
    · right; simp [hval]
  · intro c hc
    rw [List.mem_append] at hc
    rcases hc with hc | hc
    · cases s
      · simp at hc
      · simp at hc; rw [hc]; decide
    · intro h
      have := hdig c (List.mem_of_mem_take hc)
      rw [h] at this
      exact absurd this (by decide)
  · cases s
    · simp only [real_false, Bool.false_eq_true, if_false, Int.cast_natCast]
      exact ⟨near, fun h => by have := tie h; omega⟩
    · simp only [real_true, if_true, Int.cast_neg, Int.cast_natCast]
      have e1 : -(n : ℚ) - -((m : ℚ) * 2 ^ e) * 10 ^ p = -((n : ℚ) - m * 2 ^ e * 10 ^ p) := by ring
      rw [e1, abs_neg]
      exact ⟨near, fun h => by have := tie h; omega⟩

/-- C88, the part that holds: for every finite number and every precision `p ≥ 1` the result is the nearest multiple of `10^-p`
(of two, the even one), in lowest terms, unless reducing it aborts; for infinities and NaN `invalid_argument` is thrown.
Missing: the aborts (`C88_refuted`) and the precision 0 (`C88_refuted_precision_zero`). -/
theorem C88_from_double_partial {x : Double} {p : Nat} (h1 : 1 ≤ p) (h2 : p ≤ 2147483647) :
    (∀ a, x.Denotes a → ∃ n : Int, |(n : ℚ) - a * 10 ^ p| ≤ 1 / 2 ∧ (|(n : ℚ) - a * 10 ^ p| = 1 / 2 → n % 2 = 0) ∧
      Yields (Frac.ofDouble x p) ((n : ℚ) / 10 ^ p) n (10 ^ p)) ∧
    (x.WF → (∀ a, ¬x.Denotes a) → Frac.ofDouble x p = .error .invalidArgument) := by
  have hp : ¬((p : Int) < 0) := by omega
  constructor
  · intro a hx
    obtain ⟨ip, fp, n, t1, t2, t3, t4, t5, t6⟩ := printFixed_spec hx h1
    refine ⟨n, t5, t6, ?_⟩
    unfold Frac.ofDouble
    rw [if_neg hp, Int.toNat_natCast, t1, (C87_isFinite x hx.1).mpr ⟨a, hx⟩]
    subst t2
    exact (C43_from_double_partial t3 t4 h1 h2).1
  · intro hw hx
    have : isFinite x = false := by
      rw [Bool.eq_false_iff, Ne, C87_isFinite x hw]
      rintro ⟨a, ha⟩
      exact hx a ha
    unfold Frac.ofDouble
    rw [this]
    rfl

example : ∃ n : Int, |(n : ℚ) - 3 / 2 * 10 ^ 4| ≤ 1 / 2 ∧ (|(n : ℚ) - 3 / 2 * 10 ^ 4| = 1 / 2 → n % 2 = 0) ∧
    Yields (Frac.ofDouble (.fin false (3 * 2 ^ 51) (-52)) 4) ((n : ℚ) / 10 ^ 4) n (10 ^ 4) :=
  (C88_from_double_partial (p := 4) (by norm_num) (by norm_num)).1 _ ex_three_halves

/-- C88: a number within 10^-p / 2 of the argument, and the argument itself if it has at most `p` decimal places. -/
theorem C88_accuracy {x : Double} {a : ℚ} (hx : x.Denotes a) {p : Nat} (h1 : 1 ≤ p) (h2 : p ≤ 2147483647) {f : Frac}
    (h : Frac.ofDouble x p = .ok f) : f.Valid ∧ |f.value - a| ≤ 1 / (2 * 10 ^ p) ∧ ((∃ n : Int, a * 10 ^ p = n) → f.value = a) := by
  obtain ⟨n, n1, n2, n3⟩ := (C88_from_double_partial h1 h2).1 a hx
  by_cases hr : ReduceAborts n (10 ^ p)
  · rw [n3.2 hr] at h; cases h
  obtain ⟨g, g1, g2, g3⟩ := n3.1 hr
  rw [h] at g1
  injection g1 with g1
  subst g1
  have hp : (0 : ℚ) < 10 ^ p := by positivity
  refine ⟨g2, ?_, ?_⟩
  · have e1 : f.value - a = ((n : ℚ) - a * 10 ^ p) / 10 ^ p := by rw [g3]; field_simp
    rw [e1, abs_div, abs_of_pos hp, div_le_div_iff₀ hp (by positivity)]
    nlinarith
  · rintro ⟨k, hk⟩
    rw [hk] at n1
    have h3 : |(n - k : Int)| < 1 := by
      have : |((n - k : Int) : ℚ)| < 1 := by push_cast; linarith
      exact_mod_cast this
    have h4 : n = k := by rw [Int.abs_lt_one_iff] at h3; omega
    rw [g3, h4, ← hk]
    field_simp

example : Frac.value ⟨⟨[3], false⟩, ⟨[2], false⟩⟩ = 3 / 2 :=
  (C88_accuracy (p := 4) ex_three_halves (by norm_num) (by norm_num) (by decide +kernel)).2.2 ⟨15000, by norm_num⟩

/-- C88: with the default precision 15 nothing aborts for numbers below 999 in magnitude; more generally with at most 17
digits if the digits have magnitude below 10^18. -/
theorem C88_moderate {x : Double} {a : ℚ} (hx : x.Denotes a) {p : Nat} (h1 : 1 ≤ p) (h2 : p ≤ 17) (ha : |a| * 10 ^ p + 1 < 10 ^ 18) :
    ∃ f, Frac.ofDouble x p = .ok f ∧ f.Valid ∧ |f.value - a| ≤ 1 / (2 * 10 ^ p) := by
  obtain ⟨n, n1, n2, n3⟩ := (C88_from_double_partial (x := x) h1 (by omega)).1 a hx
  have hp : (0 : ℚ) < 10 ^ p := by positivity
  have hn : |n| < 1000000000000000000 := by
    have e1 : |(n : ℚ)| ≤ |(n : ℚ) - a * 10 ^ p| + |a * 10 ^ p| := by
      have := abs_add_le ((n : ℚ) - a * 10 ^ p) (a * 10 ^ p)
      rwa [sub_add_cancel] at this
    rw [abs_mul, abs_of_pos hp] at e1
    have : |(n : ℚ)| < 1000000000000000000 := by norm_num at ha; linarith
    exact_mod_cast this
  have hb : |(10 ^ p : Int)| < 1000000000000000000 := by
    rw [abs_of_nonneg (by positivity)]
    calc (10 : Int) ^ p ≤ 10 ^ 17 := pow_le_pow_right₀ (by norm_num) h2
      _ < 1000000000000000000 := by norm_num
  obtain ⟨f, f1, f2, f3⟩ := n3.1 (not_reduceAborts_small hn hb)
  exact ⟨f, f1, f2, (C88_accuracy hx h1 (by omega) f1).2.1⟩

example : ∃ f, Frac.ofDouble (.fin false (3 * 2 ^ 51) (-52)) 15 = .ok f ∧ f.Valid ∧ |f.value - 3 / 2| ≤ 1 / (2 * 10 ^ 15) :=
  C88_moderate ex_three_halves (by norm_num) (by norm_num) (by norm_num)

/-- C88 as stated is false: `from_double(1000.0)` aborts. -/
theorem C88_refuted : (Double.fin false 8796093022208000 (-43)).Denotes 1000 ∧
    Frac.ofDouble (.fin false 8796093022208000 (-43)) 15 = .error .assertion :=
  ⟨⟨by decide, 8796093022208000, -43, .inl ⟨rfl, by norm_num⟩⟩, by decide +kernel⟩

/-- C88 is also false for precision 0: every finite number leads to undefined behaviour. -/
theorem C88_refuted_precision_zero {x : Double} {a : ℚ} (hx : x.Denotes a) : Frac.ofDouble x 0 = .error .ub := by
  unfold Frac.ofDouble
  rw [(C87_isFinite x hx.1).mpr ⟨a, hx⟩]
  refine C43_refuted_precision_zero ?_
  obtain ⟨s, m, e, rfl, rfl⟩ := hx.fin
  intro c hc h
  simp only [printFixed] at hc
  rw [h] at hc
  have : ∀ c ∈ List.replicate (0 + 1 - (Nat.toDigits 10 (halfEven (m * 2 ^ e * 10 ^ 0))).length) '0' ++
      Nat.toDigits 10 (halfEven (m * 2 ^ e * 10 ^ 0)), c.isDigit = true := by
    intro c hc
    rw [List.mem_append] at hc
    rcases hc with hc | hc
    · rw [List.eq_of_mem_replicate hc]; decide
    · exact Nat.isDigit_of_mem_toDigits (by norm_num) (by norm_num) hc
  rw [List.mem_append, List.mem_append] at hc
  rcases hc with hc | hc | hc
  · cases s <;> simp at hc
  · exact absurd (this _ (List.mem_of_mem_take hc)) (by decide)
  · simp at hc

example : Frac.ofDouble (.fin true (11 * 2 ^ 49) (-50)) 4 = .ok ⟨⟨[11], true⟩, ⟨[2], false⟩⟩ := by decide +kernel
example : Double.Denotes (.fin true (11 * 2 ^ 49) (-50)) (-11 / 2) :=
  ⟨by decide, 11 * 2 ^ 49, -50, .inr ⟨rfl, by norm_num⟩⟩

end CppMaths
