import Verif.Proofs.MatMachine
/-!
# The length of a vector of machine integers
-/

namespace CppMaths
namespace Double

theorem Denotes.mant {d : Double} {q : ℚ} (h : d.Denotes q) : ∃ k e : Int, |k| ≤ 2 ^ 53 ∧ q = k * 2 ^ e := by
  obtain ⟨w, m, e, ⟨rfl, rfl⟩ | ⟨rfl, rfl⟩⟩ := h
  · exact ⟨m, e, by rw [abs_of_nonneg (by positivity)]; exact_mod_cast w.1.le, by simp⟩
  · exact ⟨-m, e, by rw [abs_neg, abs_of_nonneg (by positivity)]; exact_mod_cast w.1.le, by simp⟩

theorem sqrt_nearest {d : Double} {a : ℚ} (h : d.Denotes a) (ha : 0 ≤ a) : (sqrt d).IsNearest √(a : ℝ) := by
  rcases ha.eq_or_lt with h0 | h0
  · subst h0
    refine ⟨0, ?_, fun d' r' _ => by simp⟩
    obtain ⟨w, m, e, ⟨rfl, h1⟩ | ⟨rfl, h1⟩⟩ := h
    · have : m = 0 := by
        have := mul_eq_zero.mp h1.symm
        rcases this with h | h
        · exact_mod_cast h
        · exact absurd h (two_zpow_pos e).ne'
      subst this
      exact ⟨w, 0, e, .inl ⟨rfl, by simp⟩⟩
    · have : m = 0 := by
        have := mul_eq_zero.mp (neg_eq_zero.mp h1.symm)
        rcases this with h | h
        · exact_mod_cast h
        · exact absurd h (two_zpow_pos e).ne'
      subst this
      exact ⟨w, 0, e, .inr ⟨rfl, by simp⟩⟩
  · obtain ⟨r, h1, h2, h3, h4⟩ := sqrt_spec h h0
    refine ⟨r, h1, fun d' r' hd => ?_⟩
    obtain ⟨k, e, hk, rfl⟩ := hd.mant
    have := h3 k e hk
    push_cast
    exact this

/-- `(int) sqrt(s)` for an integer `s` that is an `int` is the integer square root. -/
theorem toSigned_sqrt {s : Int} (hs0 : 0 ≤ s) (hs : s ≤ intMax) :
    toSigned intMax (sqrt (ofInt s)) = .ok (Nat.sqrt s.toNat : Nat) := by
  obtain ⟨N, rfl⟩ := Int.eq_ofNat_of_zero_le hs0
  have hN : N < 2 ^ 31 := by unfold intMax at hs; omega
  simp only [Int.toNat_natCast]
  have hd : (ofInt (N : Int)).Denotes N := by
    have := ofInt_denotes (k := (N : Int)) (by rw [abs_of_nonneg hs0]; omega)
    simpa using this
  obtain ⟨r, hr, hnear⟩ := sqrt_nearest hd (by positivity)
  set f := Nat.sqrt N with hf
  have hf1 : f * f ≤ N := Nat.sqrt_le N
  have hf2 : N < (f + 1) * (f + 1) := Nat.lt_succ_sqrt N
  have hf3 : f < 2 ^ 16 := by nlinarith
  have hroot1 : (f : ℝ) ≤ √(((N : ℚ) : ℝ)) := by
    refine Real.le_sqrt_of_sq_le ?_
    push_cast; rw [pow_two]; exact_mod_cast hf1
  -- one can round neither below `f` ...
  have hlo : (f : ℝ) ≤ r := by
    by_contra hc
    have hc := not_le.mp hc
    have := hnear (ofInt f) f (by
      have := ofInt_denotes (k := (f : Int)) (by rw [abs_of_nonneg (by positivity)]; omega)
      simpa using this)
    push_cast at this hroot1
    rw [abs_of_nonpos (by linarith), abs_of_nonpos (by linarith)] at this
    linarith
  -- ... nor up to `f + 1`
  have hhi : (r : ℝ) < f + 1 := by
    set x : ℝ := √(((N : ℚ) : ℝ)) with hx
    have hx0 : 0 ≤ x := Real.sqrt_nonneg _
    have hxx : x * x = N := by rw [hx, Real.mul_self_sqrt (by positivity)]; simp
    have hlt : x ≤ f + 1 - 1 / 2 ^ 18 := by
      rw [hx, Real.sqrt_le_iff]
      have h1 : (N : ℝ) + 1 ≤ (f + 1) * (f + 1) := by exact_mod_cast hf2
      have h2 : (f : ℝ) ≤ 65536 := by exact_mod_cast hf3.le
      have h3 : (0 : ℝ) ≤ f := by positivity
      push_cast
      constructor
      · have : (1 : ℝ) / 2 ^ 18 ≤ 1 := by norm_num
        linarith
      · rw [show ((f : ℝ) + 1 - 1 / 2 ^ 18) ^ 2 = (f + 1) * (f + 1) - (f + 1) / 2 ^ 17 + 1 / 2 ^ 36 by ring]
        have : ((f : ℝ) + 1) / 2 ^ 17 ≤ 1 := by rw [div_le_one (by positivity)]; norm_num; linarith
        have : (0 : ℝ) < 1 / 2 ^ 36 := by positivity
        linarith
    have hrep : (round false ((f : ℚ) + 1 - 1 / 2 ^ 18)).Denotes ((f : ℚ) + 1 - 1 / 2 ^ 18) := by
      refine round_exact false (k := ((f : Int) + 1) * 2 ^ 18 - 1) (e := -18) ?_ (by norm_num) ?_ ?_
      · rw [abs_le]; constructor <;> omega
      · rw [zpow_neg, show (18 : Int) = ((18 : Nat) : Int) by rfl, zpow_natCast]; push_cast; field_simp; norm_num
      · have h2 : (f : ℚ) ≤ 2 ^ 16 := by exact_mod_cast hf3.le
        have h3 : (0 : ℚ) ≤ f := by positivity
        refine lt_of_le_of_lt ?_ (big_gt (n := 20) (by norm_num))
        rw [abs_le]
        constructor <;> linarith
    have := hnear _ _ hrep
    push_cast at this
    by_contra hc
    have hc := not_lt.mp hc
    rw [abs_of_nonneg (by linarith), abs_of_nonneg (by linarith)] at this
    have : (0 : ℝ) < 1 / 2 ^ 18 := by positivity
    linarith
  have hrQ : ⌊r⌋ = (f : Int) := by
    rw [Int.floor_eq_iff]
    constructor
    · have : ((f : ℚ) : ℝ) ≤ (r : ℝ) := by push_cast; exact hlo
      exact_mod_cast this
    · have : (r : ℝ) < (((f : ℚ) + 1 : ℚ) : ℝ) := by push_cast; exact hhi
      exact_mod_cast this
  have hr0 : ¬r < 0 := by
    have h1 : ((0 : ℚ) : ℝ) ≤ (r : ℝ) := le_trans (by simp) hlo
    exact not_lt.mpr (by exact_mod_cast h1)
  obtain ⟨s', m, e, h1, rfl⟩ := hr.fin
  rw [h1]
  simp only [toSigned, if_neg hr0, hrQ]
  refine signed_ok ?_
  rw [abs_of_nonneg (by positivity)]
  unfold intMax
  omega

end Double

namespace Vec
open Double

theorem sq_sum_nonneg {n : Nat} (f : Fin n → Int) : 0 ≤ ∑ i, f i ^ 2 := Finset.sum_nonneg fun i _ => by positivity

theorem sq_le_sum {n : Nat} (f : Fin n → Int) (i : Fin n) : f i ^ 2 ≤ ∑ i, f i ^ 2 :=
  Finset.single_le_sum (f := fun i => f i ^ 2) (fun i _ => by positivity) (Finset.mem_univ i)

theorem fits_of_sq {lim : Int} {n : Nat} (f : Fin n → Int) (h : ∑ i, f i ^ 2 ≤ lim) (i : Fin n) : Fits lim (f i) := by
  have h1 := (sq_le_sum f i).trans h
  unfold Fits
  constructor <;> nlinarith [sq_nonneg (f i - 1), sq_nonneg (f i + 1)]

theorem normInt_eq {n : Nat} (f : Fin n → Int) (h : ∀ i, Fits intMax (f i)) :
    normInt (List.ofFn f) = if ∑ i, f i ^ 2 ≤ intMax then .ok (Nat.sqrt (∑ i, f i ^ 2).toNat : Nat) else .error .ub := by
  unfold normInt norm Scalar.i32
  rw [dot_self_machine f h]
  split
  · rename_i hs
    rw [bind_ok, toSigned_sqrt (sq_sum_nonneg f) hs]
  · rfl

theorem normIntDouble_eq {n : Nat} (f : Fin n → Int) (h : ∀ i, Fits intMax (f i)) :
    normIntDouble (List.ofFn f) = if ∑ i, f i ^ 2 ≤ intMax then .ok (Double.sqrt (Double.ofInt (∑ i, f i ^ 2))) else .error .ub := by
  unfold normIntDouble norm Scalar.i32
  rw [dot_self_machine f h]
  split <;> rfl

end Vec
end CppMaths
