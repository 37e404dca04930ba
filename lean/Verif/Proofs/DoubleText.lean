import Verif.Model.DoubleText
import Verif.Spec.Decimal
import Verif.Spec.Common
import Verif.Proofs.Double
import Verif.Proofs.OStreamAux
import Mathlib.Data.Nat.Digits.Lemmas
import Mathlib.Tactic.FieldSimp
/-!
# Lemmas about decimal texts and the output of a `double`
-/

namespace CppMaths
open Double

theorem digits_split {a b r s : List Char} (ha : ∀ c ∈ a, c.isDigit = true) (hb : ∀ c ∈ b, c.isDigit = true) (hr : NoDigitAhead r)
    (hs : NoDigitAhead s) (h : a ++ r = b ++ s) : a = b ∧ r = s := by
  induction a generalizing b with
  | nil =>
    cases b with
    | nil => exact ⟨rfl, h⟩
    | cons c b =>
      have := hr c (b ++ s) (by simpa using h)
      rw [hb c (by simp)] at this
      cases this
  | cons c a ih =>
    cases b with
    | nil =>
      have := hs c (a ++ r) (by simpa using h.symm)
      rw [ha c (by simp)] at this
      cases this
    | cons d b =>
      simp only [List.cons_append, List.cons.injEq] at h
      obtain ⟨h1, h2⟩ := ih (fun c hc => ha c (by simp [hc])) (fun c hc => hb c (by simp [hc])) h.2
      exact ⟨by rw [h.1, h1], h2⟩

theorem ExponentText.noDigit {cs : List Char} {x : Int} (h : ExponentText cs x) : NoDigitAhead cs := by
  intro c r hc
  rcases h with ⟨rfl, _⟩ | ⟨ds, _, ⟨rfl, _⟩ | ⟨rfl, _⟩⟩
  · cases hc
  · obtain ⟨rfl, _⟩ := List.cons.inj hc; decide
  · obtain ⟨rfl, _⟩ := List.cons.inj hc; decide

theorem ExponentText.unique {cs : List Char} {x y : Int} (h : ExponentText cs x) (h' : ExponentText cs y) : x = y := by
  rcases h with ⟨rfl, rfl⟩ | ⟨ds, _, ⟨rfl, rfl⟩ | ⟨rfl, rfl⟩⟩ <;> rcases h' with ⟨h1, rfl⟩ | ⟨ds', _, ⟨h1, rfl⟩ | ⟨h1, rfl⟩⟩ <;> simp_all

/-- A text denotes at most one number. -/
theorem DecimalText.unique {cs : List Char} {q r : ℚ} (h : DecimalText cs q) (h' : DecimalText cs r) : q = r := by
  obtain ⟨g, ip, fp, ex, x, h1, h2, h3, h4, rfl⟩ := h
  obtain ⟨g', ip', fp', ex', x', h1', h2', h3', h4', rfl⟩ := h'
  have first : ∀ {ip : List Char}, AllDigits ip → ∀ (l : List Char), ∃ c r, ip ++ l = c :: r ∧ c ≠ '-' := by
    intro ip hip l
    cases ip with
    | nil => exact absurd rfl hip.1
    | cons c cs =>
      refine ⟨c, cs ++ l, rfl, ?_⟩
      rintro rfl
      exact absurd (hip.2 '-' (by simp)) (by decide)
  have hg : g = g' := by
    rw [h4] at h4'
    obtain ⟨c, l, e, hc⟩ := first h1 ((if fp = [] then [] else '.' :: fp) ++ ex)
    obtain ⟨c', l', e', hc'⟩ := first h1' ((if fp' = [] then [] else '.' :: fp') ++ ex')
    simp only [List.append_assoc] at h4'
    rw [e, e'] at h4'
    cases g <;> cases g'
    · rfl
    · exact absurd (List.cons.inj h4').1 hc
    · exact absurd (List.cons.inj h4').1.symm hc'
    · rfl
  subst hg
  rw [h4] at h4'
  simp only [List.append_assoc, List.append_cancel_left_eq] at h4'
  have nd : ∀ {fp ex : List Char} {x : Int}, ExponentText ex x → NoDigitAhead ((if fp = [] then [] else '.' :: fp) ++ ex) := by
    intro fp ex x he
    split
    · simpa using he.noDigit
    · intro c r hc
      obtain ⟨rfl, _⟩ := List.cons.inj hc; decide
  obtain ⟨rfl, e⟩ := digits_split h1.2 h1'.2 (nd h3) (nd h3') h4'
  have dot : ∀ {ex : List Char} {x : Int}, ExponentText ex x → ∀ l, ex ≠ '.' :: l := by
    rintro ex x (⟨rfl, _⟩ | ⟨ds, _, ⟨rfl, _⟩ | ⟨rfl, _⟩⟩) l <;> simp
  have : fp = fp' ∧ ex = ex' := by
    by_cases hf : fp = [] <;> by_cases hf' : fp' = []
    · subst hf; subst hf'; exact ⟨rfl, by simpa using e⟩
    · subst hf
      rw [if_pos rfl, if_neg hf'] at e
      exact absurd e (dot h3 _)
    · subst hf'
      rw [if_pos rfl, if_neg hf] at e
      exact absurd e.symm (dot h3' _)
    · rw [if_neg hf, if_neg hf'] at e
      simp only [List.cons_append, List.cons.injEq, true_and] at e
      exact digits_split h2 h2' h3.noDigit h3'.noDigit e
  obtain ⟨rfl, rfl⟩ := this
  rw [h3.unique h3']

namespace Double

/-- The digits that the layout shows. -/
theorem layout_decimal (s : Bool) {p : Nat} (x : Int) {ds : List Char} (hd : AllDigits ds) :
    DecimalText ((if s then ['-'] else []) ++ layout p x ds)
      ((if s then -1 else 1) * Nat.ofDigitChars 10 ds 0 * 10 ^ (x + 1 - ds.length)) := by
  have h1 : 1 ≤ ds.length := List.length_pos_iff.mpr hd.1
  by_cases hx : -4 ≤ x ∧ x < 0
  · rw [layout, if_pos hx]
    refine ⟨s, ['0'], List.replicate (-x - 1).toNat '0' ++ ds, [], 0, ⟨by simp, by simp⟩, ?_, .inl ⟨rfl, rfl⟩, ?_, ?_⟩
    · intro c hc
      rcases List.mem_append.mp hc with hc | hc
      · rw [List.eq_of_mem_replicate hc]; decide
      · exact hd.2 c hc
    · have : List.replicate (-x - 1).toNat '0' ++ ds ≠ [] := by simp [hd.1]
      rw [if_neg this]
      simp
    · congr 1
      · congr 2
        rw [Nat.ofDigitChars_append, Nat.ofDigitChars_append, Nat.ofDigitChars_replicate_zero,
          show Nat.ofDigitChars 10 ['0'] 0 = 0 from rfl, mul_zero]
      · congr 1
        simp
        omega
  · by_cases hx' : 0 ≤ x ∧ x < p
    · rw [layout, if_neg hx, if_pos hx']
      dsimp only
      have hk : ((x.toNat + 1 : Nat) : Int) = x + 1 := by omega
      refine ⟨s, ds.take (x.toNat + 1) ++ List.replicate (x.toNat + 1 - ds.length) '0', ds.drop (x.toNat + 1), [], 0, ⟨?_, ?_⟩, ?_,
        .inl ⟨rfl, rfl⟩, ?_, ?_⟩
      · simp [hd.1]
      · intro c hc
        rcases List.mem_append.mp hc with hc | hc
        · exact hd.2 c (List.mem_of_mem_take hc)
        · rw [List.eq_of_mem_replicate hc]; decide
      · exact fun c hc => hd.2 c (List.mem_of_mem_drop hc)
      · simp only [List.drop_eq_nil_iff, List.append_nil, List.append_assoc]
      · by_cases hl : ds.length ≤ x.toNat + 1
        · rw [List.drop_eq_nil_of_le hl, List.take_of_length_le hl, List.append_nil, Nat.ofDigitChars_append,
            Nat.ofDigitChars_replicate_zero, List.length_nil]
          push_cast
          have : (10 : ℚ) ^ (x + 1 - ds.length) = 10 ^ (x.toNat + 1 - ds.length) := by
            rw [← zpow_natCast]; congr 1; omega
          rw [this]; ring
        · rw [show x.toNat + 1 - ds.length = 0 by omega, List.replicate_zero, List.append_nil, List.take_append_drop, List.length_drop]
          congr 2; omega
    · rw [layout, if_neg hx, if_neg hx']
      dsimp only
      have ha : AllDigits (if (Nat.toDigits 10 x.natAbs).length < 2 then '0' :: Nat.toDigits 10 x.natAbs else Nat.toDigits 10 x.natAbs) ∧
          Nat.ofDigitChars 10 (if (Nat.toDigits 10 x.natAbs).length < 2 then '0' :: Nat.toDigits 10 x.natAbs else Nat.toDigits 10 x.natAbs) 0 =
            x.natAbs := by
        have : ∀ c ∈ Nat.toDigits 10 x.natAbs, c.isDigit = true := fun c hc => Nat.isDigit_of_mem_toDigits (by norm_num) (by norm_num) hc
        split
        · refine ⟨⟨by simp, fun c hc => ?_⟩, ?_⟩
          · rcases List.mem_cons.mp hc with rfl | hc
            · decide
            · exact this c hc
          · rw [← List.singleton_append, Nat.ofDigitChars_append]
            exact Nat.ofDigitChars_ten_toDigits
        · exact ⟨⟨Nat.toDigits_ne_nil, this⟩, Nat.ofDigitChars_ten_toDigits⟩
      generalize (if (Nat.toDigits 10 x.natAbs).length < 2 then '0' :: Nat.toDigits 10 x.natAbs else Nat.toDigits 10 x.natAbs) = ex at ha
      refine ⟨s, ds.take 1, ds.drop 1, ['e', if x < 0 then '-' else '+'] ++ ex, x, ⟨?_, fun c hc => hd.2 c (List.mem_of_mem_take hc)⟩,
        fun c hc => hd.2 c (List.mem_of_mem_drop hc), .inr ⟨ex, ha.1, ?_⟩, ?_, ?_⟩
      · simp [hd.1]
      · rw [ha.2]
        by_cases h0 : x < 0
        · right; exact ⟨by simp [h0], by omega⟩
        · left; exact ⟨by simp [h0], by omega⟩
      · simp only [List.drop_eq_nil_iff, List.append_assoc]
      · rw [List.take_append_drop, List.length_drop]
        congr 2; omega

/-- Without trailing zeros. -/
def strip (l : List Char) : List Char := (l.reverse.dropWhile (· == '0')).reverse

theorem strip_append (l : List Char) : ∃ j, l = strip l ++ List.replicate j '0' := by
  refine ⟨(l.reverse.takeWhile (· == '0')).length, ?_⟩
  have h := List.takeWhile_append_dropWhile (p := (· == '0')) (l := l.reverse)
  have e : l.reverse.takeWhile (· == '0') = List.replicate (l.reverse.takeWhile (· == '0')).length '0' :=
    List.eq_replicate_of_mem fun c hc => by simpa using List.all_eq_true.mp List.all_takeWhile c hc
  have := congrArg List.reverse h
  rw [List.reverse_append, List.reverse_reverse, e] at this
  rw [List.reverse_replicate] at this
  unfold strip
  exact this.symm

theorem strip_last (l : List Char) : ∀ i c, strip l = i ++ [c] → c ≠ '0' := by
  rintro i c h rfl
  have := congrArg List.reverse h
  unfold strip at this
  rw [List.reverse_reverse, List.reverse_append] at this
  have h2 := List.head?_dropWhile_not (p := (· == '0')) l.reverse
  rw [this] at h2
  simp at h2

/-- The decimal point and the digits of a positive number, as `print` determines them. -/
theorem digits_spec {p : Nat} (hp : 1 ≤ p) {a : ℚ} (ha : 0 < a) : ∃ (x : Int) (n : Nat),
    (∀ (s : Bool) (m : Nat) (e : Int), (m : ℚ) * 2 ^ e = a →
      Double.print p (.fin s m e) = (if s then ['-'] else []) ++ layout p x (strip (Nat.toDigits 10 n))) ∧
    10 ^ (p - 1) ≤ n ∧ n < 10 ^ p ∧
    (n : ℚ) * 10 ^ (x + 1 - p) = halfEven (a / 10 ^ (Int.log 10 a + 1 - p)) * 10 ^ (Int.log 10 a + 1 - p) := by
  have t0 : (0 : ℚ) < 10 ^ (Int.log 10 a + 1 - p) := by positivity
  have l1 : (10 : ℚ) ^ Int.log 10 a ≤ a := by simpa using Int.zpow_log_le_self (R := ℚ) (b := 10) (by norm_num) ha
  have l2 : a < (10 : ℚ) ^ (Int.log 10 a + 1) := by simpa using Int.lt_zpow_succ_log_self (R := ℚ) (b := 10) (by norm_num) a
  have q1 : ((10 ^ (p - 1) : Nat) : ℚ) ≤ a / 10 ^ (Int.log 10 a + 1 - p) := by
    rw [le_div_iff₀ t0]
    refine le_trans (le_of_eq ?_) l1
    push_cast
    rw [← zpow_natCast, ← zpow_add₀ (by norm_num)]
    congr 1; omega
  have q2 : a / 10 ^ (Int.log 10 a + 1 - p) ≤ ((10 ^ p : Nat) : ℚ) := by
    rw [div_le_iff₀ t0]
    refine le_trans l2.le (le_of_eq ?_)
    push_cast
    rw [← zpow_natCast, ← zpow_add₀ (by norm_num)]
    congr 1; omega
  have n1 := le_halfEven q1
  have n2 := halfEven_le (le_trans (by positivity) q1) q2
  have ht : (10 : Nat) ^ p = 10 * 10 ^ (p - 1) := by rw [← pow_succ']; congr 1; omega
  have hpos : 0 < 10 ^ (p - 1) := by positivity
  refine ⟨if halfEven (a / 10 ^ (Int.log 10 a + 1 - p)) = 10 ^ p then Int.log 10 a + 1 else Int.log 10 a,
    if halfEven (a / 10 ^ (Int.log 10 a + 1 - p)) = 10 ^ p then 10 ^ (p - 1) else halfEven (a / 10 ^ (Int.log 10 a + 1 - p)), ?_, ?_, ?_, ?_⟩
  · rintro s m e rfl
    have hm : m ≠ 0 := by rintro rfl; simp at ha
    unfold Double.print strip
    simp only [if_neg hm]
  · split <;> omega
  · split <;> omega
  · split
    · next h =>
      rw [h]
      push_cast
      rw [show (10 : ℚ) ^ p = 10 ^ (p - 1) * 10 by rw [← pow_succ]; congr 1; omega, mul_assoc, ← zpow_one_add₀ (by norm_num)]
      congr 2; omega
    · rfl

theorem length_digits {p n : Nat} (hp : 1 ≤ p) (h1 : 10 ^ (p - 1) ≤ n) (h2 : n < 10 ^ p) : (Nat.toDigits 10 n).length = p := by
  have a := (Nat.length_toDigits_le_iff (b := 10) (n := n) (k := p) (by norm_num) (by omega)).mpr h2
  by_contra hc
  by_cases hp1 : p = 1
  · subst hp1
    have : (Nat.toDigits 10 n).length ≠ 0 := by simp [Nat.toDigits_ne_nil]
    omega
  · have := (Nat.length_toDigits_le_iff (b := 10) (n := n) (k := p - 1) (by norm_num) (by omega)).mp (by omega)
    omega

/-- The digits without trailing zeros. -/
theorem strip_digits {p n : Nat} (hp : 1 ≤ p) (h1 : 10 ^ (p - 1) ≤ n) (h2 : n < 10 ^ p) :
    AllDigits (strip (Nat.toDigits 10 n)) ∧ (strip (Nat.toDigits 10 n)).length ≤ p ∧
    n = Nat.ofDigitChars 10 (strip (Nat.toDigits 10 n)) 0 * 10 ^ (p - (strip (Nat.toDigits 10 n)).length) ∧
    Nat.toDigits 10 n = strip (Nat.toDigits 10 n) ++ List.replicate (p - (strip (Nat.toDigits 10 n)).length) '0' := by
  obtain ⟨j, hj⟩ := strip_append (Nat.toDigits 10 n)
  have hl := length_digits hp h1 h2
  have hd : ∀ c ∈ Nat.toDigits 10 n, c.isDigit = true := fun c hc => Nat.isDigit_of_mem_toDigits (by norm_num) (by norm_num) hc
  have hv : Nat.ofDigitChars 10 (Nat.toDigits 10 n) 0 = n := Nat.ofDigitChars_ten_toDigits
  generalize strip (Nat.toDigits 10 n) = ds at *
  rw [hj] at hl hd hv
  rw [List.length_append, List.length_replicate] at hl
  have hj' : j = p - ds.length := by omega
  rw [Nat.ofDigitChars_append, Nat.ofDigitChars_replicate_zero] at hv
  refine ⟨⟨?_, fun c hc => hd c (by simp [hc])⟩, by omega, by rw [← hj', ← hv]; ring, by rw [← hj']; exact hj⟩
  rintro rfl
  simp at hv
  have : 0 < 10 ^ (p - 1) := by positivity
  omega

theorem toDigits_mul_pow {m : Nat} (hm : 0 < m) (j : Nat) : Nat.toDigits 10 (m * 10 ^ j) = Nat.toDigits 10 m ++ List.replicate j '0' := by
  induction j with
  | zero => simp
  | succ j ih =>
    have := Nat.toDigits_append_toDigits (b := 10) (n := m * 10 ^ j) (d := 0) (by norm_num) (by positivity) (by norm_num)
    rw [show m * 10 ^ (j + 1) = 10 * (m * 10 ^ j) + 0 by ring, ← this, ih, List.replicate_succ', List.append_assoc]
    rfl

/-- The text and the number that is printed for a number other than zero. -/
theorem print_spec {p : Nat} (hp : 1 ≤ p) {d : Double} {a : ℚ} (hd : d.Denotes a) (ha : a ≠ 0) : ∃ (s : Bool) (x : Int) (n : Nat),
    d.print p = (if s then ['-'] else []) ++ layout p x (strip (Nat.toDigits 10 n)) ∧ 10 ^ (p - 1) ≤ n ∧ n < 10 ^ p ∧
    (s = true ↔ a < 0) ∧ RoundedTo p ((if s then -1 else 1) * (n * 10 ^ (x + 1 - p))) a := by
  obtain ⟨_, m, e, h⟩ := hd
  obtain ⟨s, rfl, rfl⟩ : ∃ s, d = .fin s m e ∧ a = (if s then -1 else 1) * (m * 2 ^ e) := by
    rcases h with ⟨rfl, rfl⟩ | ⟨rfl, rfl⟩
    · exact ⟨false, rfl, by simp⟩
    · exact ⟨true, rfl, by simp⟩
  have hm : m ≠ 0 := by rintro rfl; simp at ha
  have hpos : 0 < (m : ℚ) * 2 ^ e := by positivity
  obtain ⟨x, n, h1, h2, h3, h4⟩ := digits_spec hp hpos
  refine ⟨s, x, n, h1 s m e rfl, h2, h3, ?_, .inr ?_⟩
  · cases s
    · simp only [Bool.false_eq_true, if_false, false_iff]; linarith
    · simp only [if_true, true_iff]; linarith
  rw [h4]
  clear h1 h4 ha h
  generalize (m : ℚ) * 2 ^ e = a at *
  have t0 : (0 : ℚ) < 10 ^ (Int.log 10 a + 1 - p) := by positivity
  have habs : |(if s then (-1 : ℚ) else 1)| = 1 := by split <;> simp
  have l1 : (10 : ℚ) ^ Int.log 10 a ≤ a := by simpa using Int.zpow_log_le_self (R := ℚ) (b := 10) (by norm_num) hpos
  have l2 : a < (10 : ℚ) ^ (Int.log 10 a + 1) := by simpa using Int.lt_zpow_succ_log_self (R := ℚ) (b := 10) (by norm_num) a
  have q0 : 0 ≤ a / 10 ^ (Int.log 10 a + 1 - p) := by positivity
  have dist : |(if s then (-1 : ℚ) else 1) * (halfEven (a / 10 ^ (Int.log 10 a + 1 - p)) * 10 ^ (Int.log 10 a + 1 - p)) -
      (if s then -1 else 1) * a| = |(halfEven (a / 10 ^ (Int.log 10 a + 1 - p)) : ℚ) - a / 10 ^ (Int.log 10 a + 1 - p)| * 10 ^ (Int.log 10 a + 1 - p) := by
    rw [← mul_sub, abs_mul, habs, one_mul]
    conv_rhs => rw [← abs_of_pos t0, ← abs_mul, abs_of_pos t0, sub_mul, div_mul_cancel₀ _ t0.ne']
  refine ⟨(if s then -1 else 1) * halfEven (a / 10 ^ (Int.log 10 a + 1 - p)), Int.log 10 a + 1 - p, ?_, ?_, ?_, ?_, ?_⟩
  · rw [abs_mul, habs, one_mul, abs_of_pos hpos, show Int.log 10 a + 1 - p + p - 1 = Int.log 10 a by ring]
    exact l1
  · rw [abs_mul, habs, one_mul, abs_of_pos hpos, show Int.log 10 a + 1 - p + p = Int.log 10 a + 1 by ring]
    exact l2
  · split <;> push_cast <;> ring
  · rw [dist]
    have := halfEven_near q0
    nlinarith
  · rw [dist]
    intro h
    have := halfEven_tie q0 (by
      refine mul_right_cancel₀ t0.ne' ?_
      rw [h]; ring)
    split <;> omega

/-- The text denotes that number. -/
theorem layout_digits (s : Bool) {p : Nat} (hp : 1 ≤ p) (x : Int) {n : Nat} (h2 : 10 ^ (p - 1) ≤ n) (h3 : n < 10 ^ p) :
    DecimalText ((if s then ['-'] else []) ++ layout p x (strip (Nat.toDigits 10 n))) ((if s then -1 else 1) * (n * 10 ^ (x + 1 - p))) := by
  obtain ⟨k1, k2, k3, _⟩ := strip_digits hp h2 h3
  have := layout_decimal s (p := p) x k1
  convert this using 1
  rw [mul_assoc]
  congr 1
  generalize strip (Nat.toDigits 10 n) = ds at *
  rw [k3]
  push_cast
  rw [mul_assoc, ← zpow_natCast, ← zpow_add₀ (by norm_num)]
  congr 2; omega

/-- The first digit is the one of `10^x`. -/
theorem lead_bounds {p : Nat} (hp : 1 ≤ p) (x : Int) {n : Nat} (h2 : 10 ^ (p - 1) ≤ n) (h3 : n < 10 ^ p) :
    (10 : ℚ) ^ x ≤ n * 10 ^ (x + 1 - p) ∧ (n : ℚ) * 10 ^ (x + 1 - p) < 10 ^ (x + 1) := by
  have t0 : (0 : ℚ) < 10 ^ (x + 1 - p) := by positivity
  constructor
  · have : ((10 ^ (p - 1) : Nat) : ℚ) ≤ n := by exact_mod_cast h2
    refine le_trans (le_of_eq ?_) (mul_le_mul_of_nonneg_right this t0.le)
    push_cast
    rw [← zpow_natCast, ← zpow_add₀ (by norm_num)]
    congr 1; omega
  · have : (n : ℚ) < ((10 ^ p : Nat) : ℚ) := by exact_mod_cast h3
    refine lt_of_lt_of_eq (mul_lt_mul_of_pos_right this t0) ?_
    push_cast
    rw [← zpow_natCast, ← zpow_add₀ (by norm_num)]
    congr 1; omega

/-- Digits and position are determined by the number. -/
theorem lead_unique {p : Nat} (hp : 1 ≤ p) {x y : Int} {n m : Nat} (h2 : 10 ^ (p - 1) ≤ n) (h3 : n < 10 ^ p)
    (h2' : 10 ^ (p - 1) ≤ m) (h3' : m < 10 ^ p) (h : (n : ℚ) * 10 ^ (x + 1 - p) = m * 10 ^ (y + 1 - p)) : x = y ∧ n = m := by
  have a := lead_bounds hp x h2 h3
  have b := lead_bounds hp y h2' h3'
  have hxy : x = y := by
    have h1 : (10 : ℚ) ^ x < 10 ^ (y + 1) := lt_of_le_of_lt a.1 (h ▸ b.2)
    have h2 : (10 : ℚ) ^ y < 10 ^ (x + 1) := lt_of_le_of_lt b.1 (h ▸ a.2)
    have := (zpow_lt_zpow_iff_right₀ (by norm_num : (1 : ℚ) < 10)).mp h1
    have := (zpow_lt_zpow_iff_right₀ (by norm_num : (1 : ℚ) < 10)).mp h2
    omega
  subst hxy
  refine ⟨rfl, ?_⟩
  have t0 : (10 : ℚ) ^ (x + 1 - p) ≠ 0 := by positivity
  exact_mod_cast mul_right_cancel₀ t0 h

/-- The form of the text. -/
theorem layout_short (s : Bool) {p : Nat} (hp : 1 ≤ p) (x : Int) {n : Nat} (h2 : 10 ^ (p - 1) ≤ n) (h3 : n < 10 ^ p) :
    ShortForm p ((if s then ['-'] else []) ++ layout p x (strip (Nat.toDigits 10 n))) ((if s then -1 else 1) * (n * 10 ^ (x + 1 - p))) := by
  obtain ⟨k1, k2, k3, k4⟩ := strip_digits hp h2 h3
  have last := strip_last (Nat.toDigits 10 n)
  have hn : 0 < n := lt_of_lt_of_le (by positivity) h2
  have head := toDigits_head_ne n hn
  rw [k4] at head
  have hb := lead_bounds hp x h2 h3
  have hq : |(if s then (-1 : ℚ) else 1) * (n * 10 ^ (x + 1 - p))| = n * 10 ^ (x + 1 - p) := by
    rw [abs_mul, show |(if s then (-1 : ℚ) else 1)| = 1 by split <;> simp, one_mul]
    exact abs_of_nonneg (by positivity)
  have hq0 : (if s then (-1 : ℚ) else 1) * (n * 10 ^ (x + 1 - p)) ≠ 0 := by
    have : 0 < (n : ℚ) * 10 ^ (x + 1 - p) := by positivity
    split <;> linarith
  have plain : ((if s then (-1 : ℚ) else 1) * (n * 10 ^ (x + 1 - p)) = 0 ∨ (10 : ℚ) ^ (-4 : Int) ≤
      |(if s then (-1 : ℚ) else 1) * (n * 10 ^ (x + 1 - p))| ∧ |(if s then (-1 : ℚ) else 1) * (n * 10 ^ (x + 1 - p))| < 10 ^ p) ↔ -4 ≤ x ∧ x < p := by
    rw [hq]
    have e : (10 : ℚ) ^ p = 10 ^ (p : Int) := (zpow_natCast _ _).symm
    rw [e]
    constructor
    · rintro (h | ⟨g1, g2⟩)
      · exact absurd h hq0
      · have g1 := (zpow_lt_zpow_iff_right₀ (by norm_num : (1 : ℚ) < 10)).mp (lt_of_le_of_lt g1 hb.2)
        have g2 := (zpow_lt_zpow_iff_right₀ (by norm_num : (1 : ℚ) < 10)).mp (lt_of_le_of_lt hb.1 g2)
        omega
    · rintro ⟨g1, g2⟩
      exact .inr ⟨le_trans (zpow_le_zpow_right₀ (by norm_num) g1) hb.1, lt_of_lt_of_le hb.2 (zpow_le_zpow_right₀ (by norm_num) (by omega))⟩
  have hlast : ∀ k, ((strip (Nat.toDigits 10 n)).drop k).getLast? ≠ some '0' := by
    intro k hk
    rw [List.getLast?_drop] at hk
    split at hk
    · cases hk
    · obtain ⟨i, hi⟩ := List.getLast?_eq_some_iff.mp hk
      exact last i '0' hi rfl
  generalize strip (Nat.toDigits 10 n) = ds at *
  obtain ⟨c, r, rfl⟩ : ∃ c r, ds = c :: r := by
    cases ds with
    | nil => exact absurd rfl k1.1
    | cons c r => exact ⟨c, r, rfl⟩
  have hc : c ≠ '0' := by simpa using head
  by_cases hx : -4 ≤ x ∧ x < 0
  · rw [layout, if_pos hx]
    refine ⟨s, ['0'], List.replicate (-x - 1).toNat '0' ++ c :: r, [], ⟨by simp, by simp⟩, ?_, ?_, ?_, ?_, ?_⟩
    · intro d hd
      rcases List.mem_append.mp hd with hd | hd
      · rw [List.eq_of_mem_replicate hd]; decide
      · exact k1.2 d hd
    · rw [if_neg (show List.replicate (-x - 1).toNat '0' ++ c :: r ≠ [] by simp)]
      simp
    · have := hlast 0
      rw [List.getLast?_append]
      simpa using this
    · exact fun _ => ⟨rfl, .inl rfl⟩
    · exact fun h => absurd (plain.mpr ⟨by omega, by omega⟩) h
  · by_cases hx' : 0 ≤ x ∧ x < p
    · rw [layout, if_neg hx, if_pos hx']
      dsimp only
      refine ⟨s, (c :: r).take (x.toNat + 1) ++ List.replicate (x.toNat + 1 - (c :: r).length) '0', (c :: r).drop (x.toNat + 1), [], ⟨?_, ?_⟩, ?_,
        ?_, hlast _, ?_, ?_⟩
      · simp
      · intro d hd
        rcases List.mem_append.mp hd with hd | hd
        · exact k1.2 d (List.mem_of_mem_take hd)
        · rw [List.eq_of_mem_replicate hd]; decide
      · exact fun d hd => k1.2 d (List.mem_of_mem_drop hd)
      · simp only [List.drop_eq_nil_iff, List.append_nil, List.append_assoc]
      · exact fun _ => ⟨rfl, .inr (by simpa using hc)⟩
      · exact fun h => absurd (plain.mpr ⟨by omega, by omega⟩) h
    · rw [layout, if_neg hx, if_neg hx']
      dsimp only
      have hd : ∀ c ∈ Nat.toDigits 10 x.natAbs, c.isDigit = true := fun c hc => Nat.isDigit_of_mem_toDigits (by norm_num) (by norm_num) hc
      have ne : Nat.toDigits 10 x.natAbs ≠ [] := Nat.toDigits_ne_nil
      have pos : 1 ≤ (Nat.toDigits 10 x.natAbs).length := List.length_pos_iff.mpr ne
      have hex : AllDigits (if (Nat.toDigits 10 x.natAbs).length < 2 then '0' :: Nat.toDigits 10 x.natAbs else Nat.toDigits 10 x.natAbs) ∧
          2 ≤ (if (Nat.toDigits 10 x.natAbs).length < 2 then '0' :: Nat.toDigits 10 x.natAbs else Nat.toDigits 10 x.natAbs).length ∧
          (3 ≤ (if (Nat.toDigits 10 x.natAbs).length < 2 then '0' :: Nat.toDigits 10 x.natAbs else Nat.toDigits 10 x.natAbs).length →
            (if (Nat.toDigits 10 x.natAbs).length < 2 then '0' :: Nat.toDigits 10 x.natAbs else Nat.toDigits 10 x.natAbs).head? ≠ some '0') := by
        split
        · refine ⟨⟨by simp, fun d hd' => ?_⟩, by simp only [List.length_cons]; omega, by simp only [List.length_cons]; omega⟩
          rcases List.mem_cons.mp hd' with rfl | hd'
          · decide
          · exact hd d hd'
        · refine ⟨⟨ne, hd⟩, by omega, fun h => toDigits_head_ne _ ?_⟩
          rcases Nat.eq_zero_or_pos x.natAbs with h0 | h0
          · rw [h0] at h; simp at h
          · exact h0
      generalize (if (Nat.toDigits 10 x.natAbs).length < 2 then '0' :: Nat.toDigits 10 x.natAbs else Nat.toDigits 10 x.natAbs) = ex at hex
      refine ⟨s, [c], r, 'e' :: (if x < 0 then '-' else '+') :: ex, ⟨by simp, ?_⟩, ?_, ?_, ?_, ?_, ?_⟩
      · exact fun d hd => k1.2 d (by simp_all)
      · exact fun d hd => k1.2 d (by simp_all)
      · cases r <;> simp
      · simpa using hlast 1
      · exact fun h => absurd (plain.mp h) (by omega)
      · exact fun _ => ⟨rfl, by simpa using hc, _, ex, rfl, hex⟩

/-- Whole numbers. -/
theorem layout_whole {p : Nat} (hp : 1 ≤ p) {x : Int} {n k : Nat} (h2 : 10 ^ (p - 1) ≤ n) (h3 : n < 10 ^ p) (hk : k < 10 ^ p) (hk0 : 0 < k)
    (h : (n : ℚ) * 10 ^ (x + 1 - p) = k) : layout p x (strip (Nat.toDigits 10 n)) = Nat.toDigits 10 k := by
  have hb := lead_bounds hp x h2 h3
  rw [h] at hb
  have x0 : 0 ≤ x := by
    have : (1 : ℚ) < 10 ^ (x + 1) := lt_of_le_of_lt (by exact_mod_cast hk0) hb.2
    have := (zpow_lt_zpow_iff_right₀ (by norm_num : (1 : ℚ) < 10) (m := 0)).mp (by simpa using this)
    omega
  have xp : x < p := by
    have : (10 : ℚ) ^ x < 10 ^ (p : Int) := lt_of_le_of_lt hb.1 (by rw [zpow_natCast]; exact_mod_cast hk)
    exact (zpow_lt_zpow_iff_right₀ (by norm_num : (1 : ℚ) < 10)).mp this
  lift x to Nat using x0
  have xp : x < p := by exact_mod_cast xp
  have hn : n = k * 10 ^ (p - 1 - x) := by
    have : (n : ℚ) = k * 10 ^ (p - 1 - x) := by
      rw [← h, mul_assoc, ← zpow_natCast, ← zpow_add₀ (by norm_num), show (x : Int) + 1 - p + ((p - 1 - x : Nat) : Int) = 0 by omega]
      simp
    exact_mod_cast this
  have hl : (Nat.toDigits 10 k).length = x + 1 := by
    refine length_digits (by omega) ?_ ?_
    · have : ((10 ^ (x + 1 - 1) : Nat) : ℚ) ≤ k := by
        push_cast; simpa using hb.1
      exact_mod_cast this
    · have : (k : ℚ) < ((10 ^ (x + 1) : Nat) : ℚ) := by
        push_cast
        refine lt_of_lt_of_eq hb.2 ?_
        rw [← zpow_natCast]; push_cast; rfl
      exact_mod_cast this
  have hs : strip (Nat.toDigits 10 n) = strip (Nat.toDigits 10 k) := by
    rw [hn, toDigits_mul_pow hk0]
    unfold strip
    rw [List.reverse_append, List.reverse_replicate, List.dropWhile_append_of_pos]
    intro c hc
    rw [List.eq_of_mem_replicate hc]; rfl
  obtain ⟨j, hj⟩ := strip_append (Nat.toDigits 10 k)
  rw [hs, layout, if_neg (by omega), if_pos (by omega)]
  dsimp only
  generalize strip (Nat.toDigits 10 k) = ds at *
  rw [hj, List.length_append, List.length_replicate] at hl
  rw [hj, Int.toNat_natCast, if_pos (by omega), List.take_of_length_le (by omega), List.append_nil, show x + 1 - ds.length = j by omega]

end Double

theorem RoundedTo.unique {p : Nat} {q r a : ℚ} (h : RoundedTo p q a) (h' : RoundedTo p r a) : q = r := by
  rcases h with ⟨rfl, rfl⟩ | ⟨n, k, h1, h2, rfl, h3, h4⟩ <;> rcases h' with ⟨h0, rfl⟩ | ⟨n', k', h1', h2', rfl, h3', h4'⟩
  · rfl
  · have : (0 : ℚ) < 10 ^ (k' + p - 1) := by positivity
    simp at h1'; linarith
  · subst h0
    have : (0 : ℚ) < 10 ^ (k + p - 1) := by positivity
    simp at h1; linarith
  have hk : k = k' := by
    have := (zpow_lt_zpow_iff_right₀ (by norm_num : (1 : ℚ) < 10)).mp (lt_of_le_of_lt h1 h2')
    have := (zpow_lt_zpow_iff_right₀ (by norm_num : (1 : ℚ) < 10)).mp (lt_of_le_of_lt h1' h2)
    omega
  subst hk
  have t0 : (0 : ℚ) < 10 ^ k := by positivity
  by_contra hne
  have hnn : n ≠ n' := by rintro rfl; exact hne rfl
  wlog hlt : n < n' generalizing n n'
  · exact this n' h3' h4' n h3 h4 (Ne.symm hne) hnn.symm (by omega)
  have gap : (n : ℚ) + 1 ≤ n' := by exact_mod_cast hlt
  have a1 := abs_le.mp h3
  have a2 := abs_le.mp h3'
  have g : (n : ℚ) * 10 ^ k + 10 ^ k ≤ n' * 10 ^ k := by nlinarith
  have e1 : (n : ℚ) * 10 ^ k - a = -(10 ^ k / 2) := by linarith
  have e2 : (n' : ℚ) * 10 ^ k - a = 10 ^ k / 2 := by linarith
  have e3 : n' = n + 1 := by
    have : (n' : ℚ) * 10 ^ k = (n + 1) * 10 ^ k := by linarith
    exact_mod_cast mul_right_cancel₀ t0.ne' this
  have f1 := h4 (by rw [e1, abs_neg, abs_of_pos (by positivity)])
  have f2 := h4' (by rw [e2, abs_of_pos (by positivity)])
  omega

/-- A rounded number is at least as close as any other multiple of the unit. -/
theorem RoundedTo.unit {q a : ℚ} {n k : Int} (hq : q = n * 10 ^ k) (h : |q - a| ≤ 10 ^ k / 2) (m : Int) : |q - a| ≤ |m * 10 ^ k - a| := by
  have t0 : (0 : ℚ) < 10 ^ k := by positivity
  by_cases hm : m = n
  · rw [hm, hq]
  have h1 : (1 : ℚ) ≤ |(m : ℚ) - n| := by
    have : 1 ≤ |m - n| := Int.one_le_abs (by omega)
    exact_mod_cast this
  have h2 : (10 : ℚ) ^ k ≤ |m * 10 ^ k - q| := by
    rw [hq, ← sub_mul, abs_mul, abs_of_pos t0]
    nlinarith
  have h3 := abs_sub_abs_le_abs_sub (m * 10 ^ k - q) (a - q)
  rw [show (m : ℚ) * 10 ^ k - q - (a - q) = m * 10 ^ k - a by ring, abs_sub_comm a q] at h3
  linarith

theorem RoundedTo.nearest {p : Nat} (hp : 1 ≤ p) {q a : ℚ} (h : RoundedTo p q a) :
    (∃ n k : Int, |n| < 10 ^ p ∧ q = n * 10 ^ k) ∧ (∀ n k : Int, |n| < 10 ^ p → |q - a| ≤ |n * 10 ^ k - a|) ∧
    |q - a| ≤ |a| * 5 / 10 ^ p := by
  rcases h with ⟨rfl, rfl⟩ | ⟨n, k, h1, h2, hq, h3, -⟩
  · exact ⟨⟨0, 0, by positivity, by simp⟩, fun n k _ => by rw [sub_self, abs_zero]; exact abs_nonneg _, by simp⟩
  have t0 : (0 : ℚ) < 10 ^ k := by positivity
  have e1 : (10 : ℚ) ^ (k + p) = 10 ^ p * 10 ^ k := by rw [← zpow_natCast, ← zpow_add₀ (by norm_num)]; congr 1; omega
  have e2 : (10 : ℚ) ^ (k + p - 1) = 10 ^ (p - 1) * 10 ^ k := by rw [← zpow_natCast, ← zpow_add₀ (by norm_num)]; congr 1; omega
  refine ⟨?_, fun m j hm => ?_, ?_⟩
  · have hn : |n| ≤ 10 ^ p := by
      have a1 : |q| ≤ |a| + 10 ^ k / 2 := by
        have := abs_sub_abs_le_abs_sub q a; linarith
      rw [hq, abs_mul, abs_of_pos t0] at a1
      have : |(n : ℚ)| * 10 ^ k < (10 ^ p + 1) * 10 ^ k := by linarith
      have := lt_of_mul_lt_mul_right this t0.le
      have : |n| < 10 ^ p + 1 := by exact_mod_cast this
      omega
    rcases lt_or_eq_of_le hn with hn | hn
    · exact ⟨n, k, hn, hq⟩
    · have ep : (10 : Int) ^ p = 10 ^ (p - 1) * 10 := by rw [← pow_succ]; congr 1; omega
      have hpos : (0 : Int) < 10 ^ (p - 1) := by positivity
      have e3 : (10 : ℚ) ^ (k + 1) = 10 ^ k * 10 := by rw [zpow_add₀ (by norm_num)]; simp
      rcases abs_cases n with ⟨hc, _⟩ | ⟨hc, _⟩
      · refine ⟨10 ^ (p - 1), k + 1, by rw [abs_of_pos hpos]; omega, ?_⟩
        have : n = 10 ^ (p - 1) * 10 := by omega
        rw [hq, this, e3]; push_cast; ring
      · refine ⟨-10 ^ (p - 1), k + 1, by rw [abs_neg, abs_of_pos hpos]; omega, ?_⟩
        have : n = -(10 ^ (p - 1) * 10) := by omega
        rw [hq, this, e3]; push_cast; ring
  · by_cases hjk : k ≤ j
    · have := RoundedTo.unit hq h3 (m * 10 ^ (j - k).toNat)
      rwa [show ((m * 10 ^ (j - k).toNat : Int) : ℚ) * 10 ^ k = m * 10 ^ j by
        push_cast
        rw [← zpow_natCast, mul_assoc, ← zpow_add₀ (by norm_num)]; congr 2; omega] at this
    · have b1 : |(m : ℚ) * 10 ^ j| ≤ 10 ^ (p - 1) * 10 ^ k := by
        have hm' : |(m : ℚ)| ≤ 10 ^ p := by exact_mod_cast hm.le
        rw [abs_mul, abs_of_pos (show (0 : ℚ) < 10 ^ j by positivity), ← e2]
        refine le_trans (mul_le_mul_of_nonneg_right hm' (by positivity)) ?_
        rw [← zpow_natCast, ← zpow_add₀ (by norm_num)]
        exact zpow_le_zpow_right₀ (by norm_num) (by omega)
      have b2 : |a| - |(m : ℚ) * 10 ^ j| ≤ |m * 10 ^ j - a| := by rw [abs_sub_comm]; exact abs_sub_abs_le_abs_sub _ _
      rw [e2] at h1
      rcases abs_cases a with ⟨hc, _⟩ | ⟨hc, _⟩
      · have := RoundedTo.unit hq h3 (10 ^ (p - 1))
        refine le_trans this ?_
        push_cast
        rw [abs_of_nonpos (by linarith)]
        linarith
      · have := RoundedTo.unit hq h3 (-10 ^ (p - 1))
        refine le_trans this ?_
        push_cast
        rw [neg_mul, abs_of_nonneg (by linarith)]
        linarith
  · rw [e2] at h1
    have ep : (10 : ℚ) ^ p = 10 ^ (p - 1) * 10 := by rw [← pow_succ]; congr 1; omega
    rw [le_div_iff₀ (by positivity), ep]
    have : |q - a| * (10 ^ (p - 1) * 10) ≤ 10 ^ k / 2 * (10 ^ (p - 1) * 10) := mul_le_mul_of_nonneg_right h3 (by positivity)
    linarith

namespace Double

/-- The distance of two `double`s, relative to the larger one. -/
theorem mag_gap {m m' : Nat} {e e' : Int} (h1 : m < 2 ^ 53) (h2 : m' < 2 ^ 53) (he : -1074 ≤ e) (hn : 2 ^ 52 ≤ m' ∨ e' = -1074)
    (h : (m : ℚ) * 2 ^ e < m' * 2 ^ e') : (m' : ℚ) * 2 ^ e' / 2 ^ 53 ≤ m' * 2 ^ e' - m * 2 ^ e := by
  have t' : (0 : ℚ) < 2 ^ e' := by positivity
  have h2q : (m' : ℚ) ≤ 2 ^ 53 := by exact_mod_cast h2.le
  by_cases hee : e' ≤ e
  · have ee : (2 : ℚ) ^ e = 2 ^ (e - e').toNat * 2 ^ e' := by
      rw [← zpow_natCast, ← zpow_add₀ (by norm_num)]; congr 1; omega
    rw [ee] at h ⊢
    rw [← mul_assoc] at h
    have h3 := lt_of_mul_lt_mul_right h t'.le
    have h3 : m * 2 ^ (e - e').toNat + 1 ≤ m' := by exact_mod_cast h3
    have h3 : (m : ℚ) * 2 ^ (e - e').toNat + 1 ≤ m' := by exact_mod_cast h3
    have : (m' : ℚ) * 2 ^ e' / 2 ^ 53 ≤ 2 ^ e' := by
      rw [div_le_iff₀ (by positivity)]; nlinarith
    refine le_trans this ?_
    rw [← mul_assoc]
    nlinarith
  · have hm' : 2 ^ 52 ≤ m' := by omega
    have hm'q : (2 : ℚ) ^ 52 ≤ m' := by exact_mod_cast hm'
    have hmq : (m : ℚ) ≤ 2 ^ 53 - 1 := by
      have : m + 1 ≤ 2 ^ 53 := h1
      have : (m : ℚ) + 1 ≤ 2 ^ 53 := by exact_mod_cast this
      linarith
    have b1 : (2 : ℚ) ^ e ≤ 2 ^ (e' - 1) := zpow_le_zpow_right₀ (by norm_num) (by omega)
    have b2 : (2 : ℚ) ^ e' = 2 * 2 ^ (e' - 1) := by rw [← zpow_one_add₀ (by norm_num)]; congr 1; omega
    have t1 : (0 : ℚ) < 2 ^ (e' - 1) := by positivity
    have b3 : (m : ℚ) * 2 ^ e ≤ (2 ^ 53 - 1) * 2 ^ (e' - 1) := mul_le_mul hmq b1 (by positivity) (by norm_num)
    rw [b2]
    refine le_trans ?_ (sub_le_sub_left b3 _)
    rw [div_le_iff₀ (by positivity)]
    nlinarith

theorem gap {x y : Double} {a b : ℚ} (hx : x.Denotes a) (hy : y.Denotes b) (hab : a ≠ b) : |b| / 2 ^ 53 ≤ |a - b| := by
  obtain ⟨w, m, e, h⟩ := hx
  obtain ⟨w', m', e', h'⟩ := hy
  have k : ∃ s, x = .fin s m e ∧ |a| = m * 2 ^ e := by
    have : (0 : ℚ) ≤ m * 2 ^ e := by positivity
    rcases h with ⟨rfl, rfl⟩ | ⟨rfl, rfl⟩
    · exact ⟨_, rfl, abs_of_nonneg this⟩
    · exact ⟨_, rfl, by rw [abs_neg, abs_of_nonneg this]⟩
  have k' : ∃ s, y = .fin s m' e' ∧ |b| = m' * 2 ^ e' := by
    have : (0 : ℚ) ≤ m' * 2 ^ e' := by positivity
    rcases h' with ⟨rfl, rfl⟩ | ⟨rfl, rfl⟩
    · exact ⟨_, rfl, abs_of_nonneg this⟩
    · exact ⟨_, rfl, by rw [abs_neg, abs_of_nonneg this]⟩
  obtain ⟨s, rfl, ea⟩ := k
  obtain ⟨s', rfl, eb⟩ := k'
  obtain ⟨w1, w2, _, w4⟩ := w
  obtain ⟨w1', w2', _, w4'⟩ := w'
  rcases lt_trichotomy |a| |b| with hl | hl | hl
  · have := mag_gap w1 w1' w2 w4' (by rwa [← ea, ← eb])
    rw [← ea, ← eb] at this
    have := abs_sub_abs_le_abs_sub b a
    rw [abs_sub_comm] at this
    linarith
  · rcases abs_eq_abs.mp hl with rfl | rfl
    · exact absurd rfl hab
    · rw [show -b - b = -(2 * b) by ring, abs_neg, abs_mul, abs_of_pos (by norm_num : (0 : ℚ) < 2), div_le_iff₀ (by positivity)]
      have := abs_nonneg b
      linarith
  · have := mag_gap w1' w1 w2' w4 (by rwa [← ea, ← eb])
    rw [← ea, ← eb] at this
    have h2 := abs_sub_abs_le_abs_sub a b
    have h3 : |b| / 2 ^ 53 ≤ |a| / 2 ^ 53 := by
      rw [div_le_div_iff_of_pos_right (by positivity)]; exact hl.le
    linarith

end Double

end CppMaths
