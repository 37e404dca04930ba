import Verif.Proofs.Double
import Verif.Spec.Common
/-!
# Lemmas about `float_cmp` and `float_equals`
-/

namespace CppMaths
open Double
namespace Double

theorem Denotes.fin {d : Double} {q : ℚ} (h : d.Denotes q) : ∃ s m e, d = .fin s m e ∧ q = real s m e := by
  obtain ⟨_, m, e, ⟨rfl, rfl⟩ | ⟨rfl, rfl⟩⟩ := h
  · exact ⟨false, m, e, rfl, by simp [real]⟩
  · exact ⟨true, m, e, rfl, by simp [real]⟩

theorem denotes_fin {s : Bool} {m : Nat} {e : Int} (h : (Double.fin s m e).WF) : (Double.fin s m e).Denotes (real s m e) := by
  refine ⟨h, m, e, ?_⟩
  cases s <;> simp [real]

theorem real_false (m : Nat) (e : Int) : real false m e = m * 2 ^ e := by simp [real]
theorem real_true (m : Nat) (e : Int) : real true m e = -(m * 2 ^ e) := by simp [real]

theorem real_eps : real false 5902958103587057 (-69) = eps := by
  rw [real_false]; unfold eps; norm_num

theorem real_neg_eps : real true 5902958103587057 (-69) = -eps := by
  rw [real_true]; unfold eps; norm_num

theorem eps_pos : 0 < eps := by unfold eps; positivity
theorem halfUlp_pos : 0 < halfUlp := by unfold halfUlp; positivity
theorem halfUlp_lt : halfUlp < eps := by unfold halfUlp eps; norm_num

theorem eps_lt_rnd {a : ℚ} (ha : 0 < a) : eps < rnd a ↔ eps + halfUlp ≤ a := by
  have h := lt_rnd_iff (a := a) (k := 5902958103587057) (e := -69) (by norm_num) (by norm_num) (by norm_num) (by norm_num) ha
  rw [show ((5902958103587057 : Nat) : ℚ) * 2 ^ (-69 : Int) = eps by unfold eps; norm_num] at h
  rw [h, show (((5902958103587057 : Nat) : ℚ) + 1 / 2) * 2 ^ (-69 : Int) = eps + halfUlp by unfold eps halfUlp; norm_num]

theorem rnd_lt_eps {a : ℚ} (ha : 0 < a) : rnd a < eps ↔ a ≤ eps - halfUlp := by
  have h := rnd_lt_iff (a := a) (k := 5902958103587057) (e := -69) (by norm_num) (by norm_num) (by norm_num) (by norm_num) ha
  rw [show ((5902958103587057 : Nat) : ℚ) * 2 ^ (-69 : Int) = eps by unfold eps; norm_num] at h
  rw [h, show (((5902958103587057 : Nat) : ℚ) - 1 / 2) * 2 ^ (-69 : Int) = eps - halfUlp by unfold eps halfUlp; norm_num]

theorem eps_lt_big : eps < 2 ^ (1024 : Int) := by
  have h1 : eps < 1 := by unfold eps; norm_num
  have h2 : (1 : ℚ) ≤ 2 ^ (1024 : Int) := one_le_zpow₀ (by norm_num) (by norm_num)
  exact h1.trans_le h2

/-- The difference of two finite numbers: finite with the rounded value, or infinite if that is too large. -/
theorem sub_spec {x y : Double} {a b : ℚ} (hx : x.Denotes a) (hy : y.Denotes b) :
    (a = b ∧ ∃ s, sub x y = .fin s 0 (-1074)) ∨
    (a ≠ b ∧ ∃ m e, sub x y = .fin (decide (a - b < 0)) m e ∧ (m : ℚ) * 2 ^ e = rnd |a - b|) ∨
    (a ≠ b ∧ sub x y = .inf (decide (a - b < 0)) ∧ 2 ^ (1024 : Int) ≤ rnd |a - b|) := by
  obtain ⟨s, m, e, rfl, rfl⟩ := hx.fin
  obtain ⟨s', m', e', rfl, rfl⟩ := hy.fin
  by_cases h : real s m e - real s' m' e' = 0
  · exact .inl ⟨sub_eq_zero.mp h, s && !s', by simp [sub, h]⟩
  · right
    have hs : sub (.fin s m e) (.fin s' m' e') = roundAbs (decide (real s m e - real s' m' e' < 0)) |real s m e - real s' m' e'| := by
      simp [sub, h]
    rw [hs]
    rcases (roundAbs_spec (decide (real s m e - real s' m' e' < 0)) (abs_pos.mpr h)).2 with ⟨m, e, h1, h2, _⟩ | ⟨h1, h2⟩
    · exact .inl ⟨sub_ne_zero.mp h, m, e, h1, h2⟩
    · exact .inr ⟨sub_ne_zero.mp h, h1, h2⟩

theorem floatCmp_spec {x y : Double} {a b : ℚ} (hx : x.Denotes a) (hy : y.Denotes b) :
    floatCmp x y = if b = a then 0 else if eps < rnd |b - a| then (if b < a then -1 else 1) else 0 := by
  have hp := eps_pos
  unfold floatCmp
  rcases sub_spec hy hx with ⟨h, s, hs⟩ | ⟨h, m, e, hs, hr⟩ | ⟨h, hs, hr⟩
  · rw [hs, if_pos h]
    simp only [EPSILON, neg, Double.lt, real_eps, Bool.not_false, real_neg_eps]
    rw [show real s 0 (-1074) = 0 by simp [real]]
    simp [not_lt.mpr hp.le]
  · rw [hs, if_neg h]
    simp only [EPSILON, neg, Double.lt, real_eps, Bool.not_false, real_neg_eps, sub_neg]
    have hpos : 0 ≤ rnd |b - a| := by rw [← hr]; positivity
    by_cases hlt : b < a
    · simp only [hlt, decide_true, real_true, hr, if_true, decide_eq_true_eq]
      by_cases hc : eps < rnd |b - a|
      · rw [if_pos (by linarith), if_pos hc]
      · rw [if_neg (by linarith), if_neg hc, if_neg (by linarith)]
    · simp only [hlt, decide_false, real_false, hr, if_false, decide_eq_true_eq]
      rw [if_neg (by linarith)]
  · rw [hs, if_neg h, if_pos (eps_lt_big.trans_le hr)]
    simp only [EPSILON, neg, Double.lt, Bool.not_false, sub_neg]
    by_cases hlt : b < a <;> simp [hlt]

theorem floatEquals_spec {x y : Double} {a b : ℚ} (hx : x.Denotes a) (hy : y.Denotes b) :
    floatEquals x y = true ↔ a = b ∨ rnd |a - b| < eps := by
  have hp := eps_pos
  unfold floatEquals
  rcases sub_spec hx hy with ⟨h, s, hs⟩ | ⟨h, m, e, hs, hr⟩ | ⟨h, hs, hr⟩
  · rw [hs]
    have h0 : ∀ s, real s 0 (-1074) = 0 := fun s => by simp [real]
    simp [absDouble, zero, Double.lt, h0, EPSILON, real_eps, h, hp]
  · rw [hs]
    have h0 : real false 0 (-1074) = 0 := by simp [real]
    have hpos : 0 ≤ rnd |a - b| := by rw [← hr]; positivity
    simp only [absDouble, zero, Double.lt, h0, EPSILON, h, false_or, sub_neg, decide_eq_true_eq]
    by_cases hlt : a < b
    · simp only [hlt, decide_true, real_true, hr, neg, Bool.not_true]
      by_cases hc : -rnd |a - b| < 0
      · rw [if_pos hc]; simp [Double.lt, real_false, hr, ← real_eps]
      · rw [if_neg hc]
        have hz : rnd |a - b| = 0 := by linarith
        simp [Double.lt, real_true, hr, real_eps, hz, hp]
    · simp only [hlt, decide_false, real_false, hr]
      rw [if_neg (by linarith)]
      simp [Double.lt, real_false, hr, ← real_eps]
  · rw [hs]
    have := eps_lt_big.trans_le hr
    by_cases hlt : a < b <;> simp [absDouble, zero, Double.lt, EPSILON, neg, hlt, h, not_lt.mpr this.le]

end Double
end CppMaths
