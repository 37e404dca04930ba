import Verif.Proofs.Sqrt
import Verif.Proofs.Vec
import Verif.Spec.Machine
import Mathlib.Algebra.Order.BigOperators.Group.Finset
import Mathlib.Algebra.Order.BigOperators.Ring.Finset
/-!
# Machine integers as scalars; rounding errors of `double`
-/

namespace CppMaths

theorem signed_out (lim z : Int) : Out Overflows (signed lim z) (fun t => MachRel lim t z) := by
  unfold signed
  split
  · rename_i h; exact Out.ok ⟨rfl, h⟩
  · exact Out.err rfl

theorem signed_ok {lim z : Int} (h : |z| ≤ lim) : signed lim z = .ok z := by
  rw [abs_le] at h
  unfold signed
  rw [if_pos ⟨by omega, h.2⟩]

theorem exactRing_machine (lim : Int) : (Scalar.machine lim).ExactRing (MachRel lim) Overflows where
  ofInt n _ := by
    have := signed_out lim n
    simpa [Scalar.machine] using this
  add := by rintro x y _ _ ⟨rfl, _⟩ ⟨rfl, _⟩; exact signed_out _ _
  sub := by rintro x y _ _ ⟨rfl, _⟩ ⟨rfl, _⟩; exact signed_out _ _
  mul := by rintro x y _ _ ⟨rfl, _⟩ ⟨rfl, _⟩; exact signed_out _ _
  addA := by rintro x y _ _ ⟨rfl, _⟩ ⟨rfl, _⟩; exact signed_out _ _
  subA := by rintro x y _ _ ⟨rfl, _⟩ ⟨rfl, _⟩; exact signed_out _ _
  eq := by rintro x y _ _ ⟨rfl, _⟩ ⟨rfl, _⟩; exact Out.ok (by simp)
  ne := by rintro x y _ _ ⟨rfl, _⟩ ⟨rfl, _⟩; exact Out.ok (by simp)

theorem exactNeg_machine (lim : Int) : (Scalar.machine lim).ExactNeg (MachRel lim) Overflows := by
  rintro x _ ⟨rfl, _⟩; exact signed_out _ _

theorem exactMulA_machine (lim : Int) : (Scalar.machine lim).ExactMulA (MachRel lim) Overflows := by
  rintro x y _ _ ⟨rfl, _⟩ ⟨rfl, _⟩; exact signed_out _ _

namespace Vec

theorem is_ofFn {lim : Int} {n : Nat} {f : Fin n → Int} (h : ∀ i, Fits lim (f i)) : Is (MachRel lim) (List.ofFn f) f :=
  ⟨by simp, fun i => ⟨f i, by simp, rfl, h i⟩⟩

theorem Is.eq_ofFn {lim : Int} {n : Nat} {f : Fin n → Int} {x : List Int} (h : Is (MachRel lim) x f) : x = List.ofFn f := by
  refine List.ext_getElem? fun i => ?_
  by_cases hi : i < n
  · obtain ⟨t, h1, h2, _⟩ := h.2 ⟨i, hi⟩
    simp only at h1
    rw [h1, h2]; simp [hi]
  · have : x.length = n := h.1
    rw [List.getElem?_eq_none (by omega), List.getElem?_eq_none (by simp; omega)]

/-- The dot product of machine integers is exact if the sum of the absolute products fits. -/
theorem dot_machine {lim : Int} {n : Nat} (f g : Fin n → Int) (h : ∑ i, |f i * g i| ≤ lim) :
    dot (Scalar.machine lim) (List.ofFn f) (List.ofFn g) = .ok (∑ i, f i * g i) := by
  have h0 : 0 ≤ lim := (Finset.sum_nonneg (fun i _ => abs_nonneg _)).trans h
  unfold dot
  rw [if_neg (by simp)]
  have hz : (Scalar.machine lim).ofInt 0 = .ok 0 := signed_ok (by simpa using h0)
  rw [hz, bind_ok]
  have hb : ∀ i, i ≤ n → |∑ j ∈ Finset.range i, ext f j * ext g j| ≤ lim := fun i hi => by
    refine (Finset.abs_sum_le_sum_abs _ _).trans ?_
    refine le_trans (Finset.sum_le_sum_of_subset_of_nonneg (Finset.range_subset_range.mpr hi) fun _ _ _ => abs_nonneg _) ?_
    rw [Finset.sum_range]; simpa [ext_fin] using h
  have := forUp_ok (A := Never) (Inv := fun i r => r = ∑ j ∈ Finset.range i, ext f j * ext g j) (lo := 0) (n := n)
    (body := fun i r => do
      let a ← get (List.ofFn f) i
      let b ← get (List.ofFn g) i
      let p ← (Scalar.machine lim).mul a b
      (Scalar.machine lim).addA r p) (s := (0 : Int)) (by simp) (fun i r _ hi hr => by
        have hi' : i < n := by omega
        have e1 : get (List.ofFn f) i = .ok (ext f i) := by simp [get, hi', ext]
        have e2 : get (List.ofFn g) i = .ok (ext g i) := by simp [get, hi', ext]
        have e3 : (Scalar.machine lim).mul (ext f i) (ext g i) = .ok (ext f i * ext g i) := by
          refine signed_ok ?_
          rw [ext_lt f hi', ext_lt g hi']
          exact (Finset.single_le_sum (f := fun i => |f i * g i|) (fun _ _ => abs_nonneg _) (Finset.mem_univ (⟨i, hi'⟩ : Fin n))).trans h
        have e4 : (Scalar.machine lim).addA r (ext f i * ext g i) = .ok (r + ext f i * ext g i) := by
          refine signed_ok ?_
          have := hb (i + 1) hi'
          rwa [Finset.sum_range_succ, ← hr] at this
        simp only [e1, e2, e3, e4, bind_ok]
        refine Out.ok ?_
        rw [Finset.sum_range_succ, hr])
  obtain ⟨r, r1, r2⟩ := this.never
  rw [List.length_ofFn, r1, r2, zero_add, Finset.sum_range]
  simp [ext_fin]

/-- The squared length of a vector of machine integers: exact if it fits, otherwise undefined behaviour. -/
theorem dot_self_machine {lim : Int} {n : Nat} (f : Fin n → Int) (h : ∀ i, Fits lim (f i)) :
    dot (Scalar.machine lim) (List.ofFn f) (List.ofFn f) = if ∑ i, f i ^ 2 ≤ lim then .ok (∑ i, f i ^ 2) else .error .ub := by
  split
  · rename_i hs
    rw [dot_machine]
    · simp [pow_two]
    · simpa [abs_mul_abs_self, abs_mul, pow_two] using hs
  · rename_i hs
    rcases dot_ok (exactRing_machine lim) (is_ofFn h) (is_ofFn h) with ⟨t, h1, h2⟩ | ⟨e, h1, rfl⟩
    · have := h2.2.2
      rw [dotProduct] at this
      simp only [← pow_two] at this
      exact absurd this hs
    · exact h1

theorem out_iff {n : Nat} {lim : Int} {h : Fin n → Int} {r : Res (List Int)}
    (H : Out (fun e => e = .ub ∧ ¬∀ i, Fits lim (h i)) r (fun x => On (MachRel lim) x n (ext h))) :
    r = if ∀ i, Fits lim (h i) then .ok (List.ofFn h) else .error .ub := by
  rcases H with ⟨x, rfl, hx⟩ | ⟨e, rfl, he, hn⟩
  · have hi : Is (MachRel lim) x h := hx.is (ext_fin h)
    rw [if_pos fun i => (hi.2 i).choose_spec.2.2, hi.eq_ofFn]
  · rw [if_neg hn, he]

theorem signed_out' {n : Nat} {lim : Int} {h : Fin n → Int} {i : Nat} (hi : i < n) :
    Out (fun e => e = .ub ∧ ¬∀ i, Fits lim (h i)) (signed lim (ext h i)) (fun t => MachRel lim t (ext h i)) := by
  unfold signed
  rw [ext_lt h hi]
  split
  · rename_i hf; exact Out.ok ⟨rfl, hf⟩
  · rename_i hf; exact Out.err ⟨rfl, fun hall => hf (hall ⟨i, hi⟩)⟩

theorem add_machine {lim : Int} {n : Nat} (f g : Fin n → Int) (hf : ∀ i, Fits lim (f i)) (hg : ∀ i, Fits lim (g i)) :
    add (Scalar.machine lim) (List.ofFn f) (List.ofFn g) =
      if ∀ i, Fits lim (f i + g i) then .ok (List.ofFn (fun i => f i + g i)) else .error .ub := by
  refine out_iff ?_
  unfold add
  rw [if_neg (by simp), List.length_ofFn]
  refine zipLoop_ok (is_ofFn hf).on ?_ (fun i x' hi _ => ((is_ofFn hg).on).get hi)
  rintro a b i hi ⟨rfl, _⟩ ⟨rfl, _⟩
  have := signed_out' (lim := lim) (h := fun i => f i + g i) hi
  rw [ext_lt _ hi] at this ⊢
  rw [ext_lt _ hi, ext_lt _ hi]
  exact this

theorem sub_machine {lim : Int} {n : Nat} (f g : Fin n → Int) (hf : ∀ i, Fits lim (f i)) (hg : ∀ i, Fits lim (g i)) :
    sub (Scalar.machine lim) (List.ofFn f) (List.ofFn g) =
      if ∀ i, Fits lim (f i - g i) then .ok (List.ofFn (fun i => f i - g i)) else .error .ub := by
  refine out_iff ?_
  unfold sub
  rw [if_neg (by simp), List.length_ofFn]
  refine zipLoop_ok (is_ofFn hf).on ?_ (fun i x' hi _ => ((is_ofFn hg).on).get hi)
  rintro a b i hi ⟨rfl, _⟩ ⟨rfl, _⟩
  have := signed_out' (lim := lim) (h := fun i => f i - g i) hi
  rw [ext_lt _ hi] at this ⊢
  rw [ext_lt _ hi, ext_lt _ hi]
  exact this

theorem smul_machine {lim : Int} {n : Nat} (a : Int) (f : Fin n → Int) (hf : ∀ i, Fits lim (f i)) (ha : Fits lim a) :
    smul (Scalar.machine lim) a (List.ofFn f) =
      if ∀ i, Fits lim (f i * a) then .ok (List.ofFn (fun i => f i * a)) else .error .ub := by
  refine out_iff ?_
  refine mapLoop_ok (rel := MachRel lim) (c := a) (is_ofFn hf).on ?_ ⟨rfl, ha⟩
  rintro u i hi ⟨rfl, _⟩ _
  have := signed_out' (lim := lim) (h := fun i => f i * a) hi
  rw [ext_lt _ hi] at this ⊢
  rw [ext_lt _ hi]
  exact this

/-- Division by a scalar: truncated quotients; undefined behaviour for a zero divisor or if a quotient does not fit. -/
theorem div_machine {lim : Int} {n : Nat} (a : Int) (f : Fin n → Int) (hf : ∀ i, Fits lim (f i)) (ha : Fits lim a) (h0 : a ≠ 0) :
    divScalar (Scalar.machine lim) (List.ofFn f) a =
      if ∀ i, Fits lim ((f i).tdiv a) then .ok (List.ofFn (fun i => (f i).tdiv a)) else .error .ub := by
  refine out_iff ?_
  refine mapLoop_ok (rel := MachRel lim) (c := a) (is_ofFn hf).on ?_ ⟨rfl, ha⟩
  rintro u i hi ⟨rfl, _⟩ _
  have := signed_out' (lim := lim) (h := fun i => (f i).tdiv a) hi
  rw [ext_lt _ hi] at this ⊢
  rw [ext_lt _ hi]
  simp only [Scalar.machine, signedDiv, if_neg h0]
  exact this

theorem div_zero_machine {lim : Int} (x : List Int) (hx : x ≠ []) : divScalar (Scalar.machine lim) x 0 = .error .ub := by
  cases x with
  | nil => exact absurd rfl hx
  | cons a l => simp [divScalar, mapLoop, forUp, get, Scalar.machine, signedDiv]

end Vec

namespace Double

theorem eta_pos : 0 < eta := two_zpow_pos _

/-- The exact value of a finite result of `round`, and its error. -/
theorem round_spec (z : Bool) (q : ℚ) :
    (∃ r, (round z q).Denotes r ∧ |r - q| ≤ |q| / 2 ^ 53 + eta ∧ |r| = (if q = 0 then 0 else rnd |q|) ∧ (0 ≤ q → 0 ≤ r) ∧ (q ≤ 0 → r ≤ 0)) ∨
    (round z q = inf (decide (q < 0)) ∧ 2 ^ (1024 : Int) ≤ rnd |q|) := by
  unfold round
  by_cases h0 : q = 0
  · rw [if_pos h0]
    refine .inl ⟨0, ⟨⟨by norm_num, by norm_num, by norm_num, .inr rfl⟩, 0, -1074, ?_⟩, by rw [h0]; simpa using eta_pos.le, by simp [h0], fun _ => le_rfl, fun _ => le_rfl⟩
    cases z <;> simp
  · rw [if_neg h0]
    have ha : 0 < |q| := abs_pos.mpr h0
    obtain ⟨w, ⟨m, e, h1, h2, h3⟩ | ⟨h1, h2⟩⟩ := roundAbs_spec (decide (q < 0)) ha
    · left
      have hr0 : 0 ≤ rnd |q| := by
        rw [← h2]; exact mul_nonneg (Nat.cast_nonneg _) (two_zpow_pos _).le
      have herr : abs (rnd |q| - |q|) ≤ |q| / 2 ^ 53 + eta := by
        refine (rnd_near ha).trans ?_
        obtain ⟨_, _, k3 | k3⟩ := expOf_spec ha
        · rw [k3]
          have : (2 : ℚ) ^ (-1074 : Int) / 2 = eta := by
            unfold eta
            rw [show (-1074 : Int) = -1075 + 1 by norm_num, zpow_add₀ (by norm_num)]; simp
          rw [this]
          have : 0 ≤ |q| / 2 ^ 53 := by positivity
          linarith
        · have h5 : (2 : ℚ) ^ expOf |q| / 2 = 2 ^ (expOf |q| + 52) / 2 ^ 53 := by
            rw [show expOf |q| + 52 = expOf |q| + (52 : Nat) by rfl, two_zpow_add_nat]; field_simp
          rw [h5]
          have h6 : (2 : ℚ) ^ (expOf |q| + 52) / 2 ^ 53 ≤ |q| / 2 ^ 53 := by gcongr
          have : (0 : ℚ) ≤ eta := eta_pos.le
          linarith
      rw [h1] at w ⊢
      by_cases hn : q < 0
      · refine ⟨-rnd |q|, ⟨w, m, e, .inr ⟨by simp [hn], by rw [h2]⟩⟩, ?_, by rw [abs_neg, abs_of_nonneg hr0, if_neg h0], fun h => absurd h (not_le.mpr hn), fun _ => by linarith⟩
        rw [abs_of_neg hn] at herr hr0 ⊢
        rwa [show -rnd (-q) - q = -(rnd (-q) - -q) by ring, abs_neg]
      · refine ⟨rnd |q|, ⟨w, m, e, .inl ⟨by simp [hn], by rw [h2]⟩⟩, ?_, by rw [abs_of_nonneg hr0, if_neg h0], fun _ => hr0, fun h => absurd (le_antisymm h (not_lt.mp hn)) h0⟩
        rw [abs_of_nonneg (not_lt.mp hn)] at herr ⊢
        exact herr
    · exact .inr ⟨h1, h2⟩

/-- Numbers with at most 53 binary digits in range are kept. -/
theorem round_exact (z : Bool) {q : ℚ} {k : Int} {e : Int} (hk : |k| ≤ 2 ^ 53) (he : -1074 ≤ e) (hq : q = k * 2 ^ e)
    (hb : |q| < 2 ^ (1024 : Int)) : (round z q).Denotes q := by
  have hrnd : q ≠ 0 → rnd |q| = |q| := fun h0 =>
    rnd_eq (k := k.natAbs) (by zify; exact hk) he (abs_pos.mpr h0) (by
      rw [hq, abs_mul, abs_of_pos (two_zpow_pos e), Nat.cast_natAbs, Int.cast_abs])
  rcases round_spec z q with ⟨r, h1, _, h3, h4, h5⟩ | ⟨_, h2⟩
  · have : r = q := by
      by_cases h0 : q = 0
      · rw [if_pos h0] at h3; rw [abs_eq_zero.mp h3, h0]
      · rw [if_neg h0, hrnd h0] at h3
        rcases le_total 0 q with h | h
        · rwa [abs_of_nonneg (h4 h), abs_of_nonneg h] at h3
        · rw [abs_of_nonpos (h5 h), abs_of_nonpos h] at h3; linarith
    rwa [this] at h1
  · by_cases h0 : q = 0
    · have : round z q = fin z 0 (-1074) := by unfold round; rw [if_pos h0]
      rw [this, h0]
      refine ⟨⟨by norm_num, by norm_num, by norm_num, .inr rfl⟩, 0, -1074, ?_⟩
      cases z <;> simp
    · rw [hrnd h0] at h2
      exact absurd hb (not_lt.mpr h2)

theorem big_gt {n : Nat} (h : n < 1024) : (2 : ℚ) ^ n < 2 ^ (1024 : Int) := by
  rw [show (1024 : Int) = ((1024 : Nat) : Int) by rfl, zpow_natCast]
  exact pow_lt_pow_right₀ (by norm_num) h

theorem ofInt_denotes {k : Int} (hk : |k| ≤ 2 ^ 53) : (ofInt k).Denotes k := by
  refine round_exact false (e := 0) hk (by norm_num) (by simp) ?_
  have : |(k : ℚ)| ≤ 2 ^ 53 := by exact_mod_cast hk
  exact this.trans_lt (big_gt (by norm_num))

theorem Denotes.unique {d : Double} {a b : ℚ} (h : d.Denotes a) (h' : d.Denotes b) : a = b := by
  obtain ⟨_, m, e, ⟨rfl, rfl⟩ | ⟨rfl, rfl⟩⟩ := h <;>
  · obtain ⟨_, m', e', ⟨h1, rfl⟩ | ⟨h1, rfl⟩⟩ := h' <;> cases h1 <;> rfl

/-- The square root of a positive `double`. -/
theorem sqrt_spec {d : Double} {a : ℚ} (h : d.Denotes a) (ha : 0 < a) :
    ∃ r : ℚ, (sqrt d).Denotes r ∧ 0 < r ∧
      (∀ (k e : Int), |k| ≤ 2 ^ 53 → |(r : ℝ) - √(a : ℝ)| ≤ |(k : ℝ) * 2 ^ e - √(a : ℝ)|) ∧
      |(r : ℝ) - √(a : ℝ)| ≤ √(a : ℝ) / 2 ^ 53 := by
  obtain ⟨w, m, e, ⟨rfl, rfl⟩ | ⟨rfl, rfl⟩⟩ := h
  · have hm : m ≠ 0 := by rintro rfl; simp at ha
    obtain ⟨w1, w2, w3, _⟩ := w
    have hlo : (2 : ℚ) ^ (-1074 : Int) ≤ m * 2 ^ e := by
      have h1 : (1 : ℚ) ≤ m := by exact_mod_cast Nat.one_le_iff_ne_zero.mpr hm
      calc (2 : ℚ) ^ (-1074 : Int) ≤ 2 ^ e := two_zpow_le w2
        _ ≤ m * 2 ^ e := le_mul_of_one_le_left (two_zpow_pos e).le h1
    have hhi : (m : ℚ) * 2 ^ e < 2 ^ (1024 : Int) := by
      have h1 : (m : ℚ) < 2 ^ 53 := by exact_mod_cast w1
      calc (m : ℚ) * 2 ^ e < 2 ^ 53 * 2 ^ e := mul_lt_mul_of_pos_right h1 (two_zpow_pos e)
        _ ≤ 2 ^ 53 * 2 ^ (971 : Int) := mul_le_mul_of_nonneg_left (two_zpow_le w3) (by positivity)
        _ = 2 ^ (1024 : Int) := by
          rw [← zpow_natCast, ← zpow_add₀ (by norm_num)]; norm_num
    obtain ⟨m', e', h1, h2, h3, h4, h5⟩ := sqrtAbs_spec ha hlo hhi
    have hs : sqrt (fin false m e) = sqrtAbs (m * 2 ^ e) := by
      simp [sqrt, hm, real]
    refine ⟨m' * 2 ^ e', ⟨by rw [hs, h1]; exact h2, m', e', .inl ⟨by rw [hs, h1], rfl⟩⟩, ?_, ?_, ?_⟩
    · have : (0 : ℚ) < m' := by
        have : 0 < m' := lt_of_lt_of_le (by norm_num) h3
        exact_mod_cast this
      have := two_zpow_pos e'
      positivity
    · push_cast; push_cast at h4; exact h4
    · push_cast; push_cast at h5; exact h5
  · have : (0 : ℚ) ≤ m * 2 ^ e := by positivity
    linarith

end Double
end CppMaths
