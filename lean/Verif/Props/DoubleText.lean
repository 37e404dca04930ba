import Verif.Proofs.DoubleText
import Verif.Proofs.Witness
import Verif.Proofs.Machine
import Verif.Props.Vec
import Verif.Props.Mat
/-!
# Properties of the output of `Vec<double>` and `Mat<double>` (C133)

`DecimalText` and `RoundedTo` are in `Verif/Spec/Decimal.lean`; `Denotes` is the number that a finite `double` stands for.
-/

namespace CppMaths
open Double

/-- A decimal text denotes one number only. -/
theorem C133_text_unambiguous {cs : List Char} {q r : ℚ} (h : DecimalText cs q) (h' : DecimalText cs r) : q = r := h.unique h'

example : DecimalText "-12.5e-03".toList (-125 * 10 ^ (-3 - 1 : Int)) :=
  ⟨true, "12".toList, "5".toList, "e-03".toList, -3, ⟨by decide, by decide⟩, by decide, .inr ⟨"03".toList, ⟨by decide, by decide⟩, .inr ⟨rfl, by decide⟩⟩,
    rfl, by simp [Nat.ofDigitChars]⟩

/-- C133 for one entry: with precision `p` a finite `double` is written as a decimal text that denotes its value correctly rounded to `p`
significant digits, in the form described by `ShortForm`. -/
theorem C133_entry {x : Double} {a : ℚ} (hx : x.Denotes a) {p : Nat} (hp : 1 ≤ p) :
    ∃ q, DecimalText (x.print p) q ∧ RoundedTo p q a ∧ ShortForm p (x.print p) q := by
  by_cases ha : a = 0
  · obtain ⟨s, e, rfl⟩ : ∃ s e, x = .fin s 0 e := by
      obtain ⟨_, m, e, ⟨rfl, h⟩ | ⟨rfl, h⟩⟩ := hx
      · obtain rfl : m = 0 := by
          by_contra hm
          have : 0 < (m : ℚ) * 2 ^ e := by positivity
          linarith
        exact ⟨_, _, rfl⟩
      · obtain rfl : m = 0 := by
          by_contra hm
          have : 0 < (m : ℚ) * 2 ^ e := by positivity
          linarith
        exact ⟨_, _, rfl⟩
    refine ⟨0, ⟨s, ['0'], [], [], 0, ⟨by simp, by simp⟩, by simp, .inl ⟨rfl, rfl⟩, by simp [Double.print], ?_⟩, .inl ⟨ha, rfl⟩,
      ⟨s, ['0'], [], [], ⟨by simp, by simp⟩, by simp, by simp [Double.print], by simp, fun _ => ⟨rfl, .inl rfl⟩, fun h => absurd (.inl rfl) h⟩⟩
    rw [show Nat.ofDigitChars 10 (['0'] ++ []) 0 = 0 from rfl]
    simp
  · obtain ⟨s, x', n, h1, h2, h3, _, h5⟩ := print_spec hp hx ha
    rw [h1]
    exact ⟨_, layout_digits s hp x' h2 h3, h5, layout_short s hp x' h2 h3⟩

/-- 1/3 with six digits, the largest finite `double` with a minus sign, the smallest positive one, a carry into another digit, a tie. -/
example : (Double.round false (1 / 3)).print 6 = "0.333333".toList ∧ (Double.fin true (2 ^ 53 - 1) 971).print 6 = "-1.79769e+308".toList ∧
    (Double.fin false 1 (-1074)).print 17 = "4.9406564584124654e-324".toList ∧ (Double.round false (9999995 / 10)).print 6 = "1e+06".toList ∧
    (Double.fin false 5 (-2)).print 2 = "1.2".toList := by decide +kernel

/-- C133: no number with at most `p` significant digits is closer to `a` than `a` rounded to `p` digits; the relative error is at most
`5 * 10^-p`; and the rounded number is determined by `a`. -/
theorem C133_nearest {p : Nat} (hp : 1 ≤ p) {q a : ℚ} (h : RoundedTo p q a) :
    (∃ n k : Int, |n| < 10 ^ p ∧ q = n * 10 ^ k) ∧ (∀ n k : Int, |n| < 10 ^ p → |q - a| ≤ |n * 10 ^ k - a|) ∧
    |q - a| ≤ |a| * 5 / 10 ^ p ∧ ∀ r, RoundedTo p r a → r = q :=
  ⟨(h.nearest hp).1, (h.nearest hp).2.1, (h.nearest hp).2.2, fun _ hr => hr.unique h⟩

/-- 2/3 rounded to two digits is 0.67. -/
example : RoundedTo 2 (67 * 10 ^ (-2 : Int)) (2 / 3) :=
  .inr ⟨67, -2, by norm_num [abs_of_pos], by norm_num [abs_of_pos], by norm_num, by norm_num [abs_of_pos], by norm_num [abs_of_pos]⟩

/-- C133: a whole number other than zero with at most `p` digits is written as its numeral; a zero as `0` or `-0`. -/
theorem C133_whole {x : Double} {k : Int} (hx : x.Denotes k) {p : Nat} (hk : |k| < 10 ^ p) :
    x.print p = numeral k ∨ k = 0 ∧ x.print p = "-0".toList := by
  by_cases h0 : k = 0
  · subst h0
    obtain ⟨_, m, e, ⟨rfl, h⟩ | ⟨rfl, h⟩⟩ := hx
    · left
      obtain rfl : m = 0 := by
        by_contra hm
        have : 0 < (m : ℚ) * 2 ^ e := by positivity
        rw [Int.cast_zero] at h
        linarith
      simp [Double.print, numeral]
    · right
      obtain rfl : m = 0 := by
        by_contra hm
        have : 0 < (m : ℚ) * 2 ^ e := by positivity
        rw [Int.cast_zero] at h
        linarith
      simp [Double.print]
  left
  have hp : 1 ≤ p := by
    by_contra hc
    obtain rfl : p = 0 := by omega
    have := Int.one_le_abs h0
    simp at hk; omega
  obtain ⟨s, x', n, h1, h2, h3, h4, h5⟩ := print_spec hp hx (by exact_mod_cast h0)
  have hr := (h5.nearest hp).2.1 k 0 hk
  have e : (if s then (-1 : ℚ) else 1) * (n * 10 ^ (x' + 1 - p)) = k := by
    rw [zpow_zero, mul_one, sub_self, abs_zero] at hr
    exact sub_eq_zero.mp (abs_eq_zero.mp (le_antisymm hr (abs_nonneg _)))
  have hs : s = true ↔ k < 0 := by rw [h4]; exact_mod_cast Iff.rfl
  have hk' : k.natAbs < 10 ^ p := by
    have : (k.natAbs : Int) < ((10 ^ p : Nat) : Int) := by push_cast; exact hk
    exact_mod_cast this
  rw [h1, layout_whole hp h2 h3 hk' (by omega), numeral]
  · by_cases hn : k < 0
    · rw [if_pos (hs.mpr hn), if_pos hn]; rfl
    · rw [if_neg (by rw [hs]; exact hn), if_neg hn]; rfl
  · rw [Nat.cast_natAbs, Int.cast_abs, ← e, abs_mul, show |(if s then (-1 : ℚ) else 1)| = 1 by split <;> simp, one_mul]
    exact (abs_of_nonneg (by positivity)).symm

example : (Double.ofInt (-120)).print 6 = numeral (-120) ∧ (Double.ofInt (-120)).print 2 = "-1.2e+02".toList ∧
    (Double.fin true 0 (-1074)).print 6 = "-0".toList := by decide +kernel

/-- C133: two entries other than zero are written in the same way exactly if they round to the same number of `p` digits. -/
theorem C133_same_text {x y : Double} {a b : ℚ} (hx : x.Denotes a) (hy : y.Denotes b) {p : Nat} (hp : 1 ≤ p) (ha : a ≠ 0) (hb : b ≠ 0) :
    x.print p = y.print p ↔ ∃ q, RoundedTo p q a ∧ RoundedTo p q b := by
  obtain ⟨s, x', n, h1, h2, h3, _, h5⟩ := print_spec hp hx ha
  obtain ⟨s', y', n', h1', h2', h3', _, h5'⟩ := print_spec hp hy hb
  constructor
  · intro h
    rw [h1, h1'] at h
    have e := (layout_digits s hp x' h2 h3)
    rw [h] at e
    have := e.unique (layout_digits s' hp y' h2' h3')
    exact ⟨_, h5, this ▸ h5'⟩
  · rintro ⟨q, hq, hq'⟩
    have e := (h5.unique hq).trans (h5'.unique hq').symm
    have p1 : (0 : ℚ) < n * 10 ^ (x' + 1 - p) := by
      have : 0 < n := lt_of_lt_of_le (by positivity) h2
      positivity
    have p2 : (0 : ℚ) < n' * 10 ^ (y' + 1 - p) := by
      have : 0 < n' := lt_of_lt_of_le (by positivity) h2'
      positivity
    have hs : s = s' := by
      cases s <;> cases s' <;> simp at e ⊢ <;> linarith
    subst hs
    have e := mul_left_cancel₀ (by split <;> norm_num) e
    obtain ⟨rfl, rfl⟩ := lead_unique hp h2 h3 h2' h3' e
    rw [h1, h1']

/-- 1/3 and the next larger number look the same. -/
example : (Double.fin false 6004799503160661 (-54)).print 6 = (Double.fin false 6004799503160662 (-54)).print 6 ∧
    (Double.fin false 6004799503160661 (-54)).print 17 ≠ (Double.fin false 6004799503160662 (-54)).print 17 := by decide +kernel

/-- C133: with at least 17 digits `double`s of different value are written differently. -/
theorem C133_seventeen {x y : Double} {a b : ℚ} (hx : x.Denotes a) (hy : y.Denotes b) {p : Nat} (hp : 17 ≤ p) (hab : a ≠ b) :
    x.print p ≠ y.print p := by
  intro h
  obtain ⟨q, d1, r1, _⟩ := C133_entry hx (p := p) (by omega)
  obtain ⟨q', d2, r2, _⟩ := C133_entry hy (p := p) (by omega)
  rw [h] at d1
  obtain rfl := d1.unique d2
  have n1 := (r1.nearest (by omega)).2.2
  have n2 := (r2.nearest (by omega)).2.2
  have g1 := gap hx hy hab
  have g2 := gap hy hx (Ne.symm hab)
  rw [abs_sub_comm b a] at g2
  have tp : ∀ c : ℚ, |c| * 5 / 10 ^ p ≤ |c| * 5 / 10 ^ 17 := fun c =>
    div_le_div_of_nonneg_left (by positivity) (by positivity) (pow_le_pow_right₀ (by norm_num) hp)
  have n1 := le_trans n1 (tp a)
  have n2 := le_trans n2 (tp b)
  have tri : |a - b| ≤ |q - a| + |q - b| := by
    have := abs_sub_le a q b
    rwa [abs_sub_comm a q] at this
  have pos : 0 < |a| + |b| := by
    rcases eq_or_ne a 0 with rfl | ha
    · have := abs_pos.mpr (Ne.symm hab); simp only [abs_zero, zero_add]; exact this
    · have := abs_pos.mpr ha; have := abs_nonneg b; linarith
  norm_num at n1 n2 g1 g2
  linarith

/-- 16 digits are not enough. -/
example : (Double.fin false (2 ^ 52 + 1) (-52)).print 16 = "1".toList ∧ (Double.fin false (2 ^ 52) (-52)).print 16 = "1".toList ∧
    (Double.fin false (2 ^ 52 + 1) (-52)).print 17 = "1.0000000000000002".toList := by decide +kernel

/-- C133 for vectors. -/
theorem C133_vector (p : Nat) (x : List Double) :
    Vec.print (Double.print p) x = .ok ("(".toList ++ ", ".toList.intercalate (x.map (Double.print p)) ++ ")".toList) :=
  (C57_output _).2.2.2 x

example : Vec.print (Double.print 6) [Double.ofInt 3, Double.fin false 1 (-1), .inf true, .nan] = .ok "(3, 0.5, -inf, nan)".toList := by decide +kernel

/-- C133 for matrices. -/
theorem C133_matrix (p : Nat) {m : Mat Double} {r c : Nat} {M : Matrix (Fin r) (Fin c) Double} (hm : Mat.Is Eq m M) :
    m.print (Double.print p) =
      .ok ("\n".toList.intercalate (List.ofFn fun i => (List.ofFn fun j => (M i j).print p ++ " ".toList).flatten)) :=
  haveI : Inhabited Double := ⟨.nan⟩
  C83_output _ hm

example : Mat.print (Double.print 3) ⟨2, 2, [some (Double.ofInt 1), some (Double.fin false 5 (-3)), some (Double.ofInt (-1234)), some (.inf false)]⟩ =
    .ok "1 0.625 \n-1.23e+03 inf ".toList := by decide +kernel

end CppMaths
