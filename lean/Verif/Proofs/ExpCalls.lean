import Verif.Proofs.IntTime4
import Mathlib.Data.Nat.Digits.Defs
import Mathlib.Data.Nat.Log
/-!
# The number of calls of `exponentiate`
-/

namespace CppMaths
namespace BigInt
open Cost

theorem exponentiateCallsF_res : ∀ (f : Nat) (x y : BigInt), (exponentiateCallsF f x y).res = exponentiateF f x y
  | 0, _, _ => rfl
  | f + 1, x, y => by
    unfold exponentiateCallsF exponentiateF
    rw [bind_res, tick_res, ok_bind', bind_res, free_res]
    refine bind_congr fun z => ?_
    split
    · rfl
    rw [bind_res, free_res]
    refine bind_congr fun o => ?_
    split
    · rfl
    rw [bind_res, free_res]
    refine bind_congr fun odd => ?_
    split
    · simp only [bind_res, free_res, exponentiateCallsF_res f]
    · simp only [bind_res, free_res, exponentiateCallsF_res f]

theorem free_bind_steps {α β : Type} (c : Cost α) (g : α → Res β) : (c >>= fun a => free (g a)).steps = c.steps := by
  cases h : c.res with
  | ok v => rw [bind_steps_ok _ h]; rfl
  | error e => show (match c.res with
    | .ok a => (⟨(free (g a)).res, c.steps + (free (g a)).steps⟩ : Cost β)
    | .error e => ⟨.error e, c.steps⟩).steps = _
               rw [h]

/-- The number of binary digits after the first one and the number of ones among all. -/
def callsFor (e : Nat) : Nat := if e = 0 then 1 else Nat.log 2 e + (Nat.digits 2 e).sum

theorem callsFor_even {e : Nat} (h : 1 ≤ e) : callsFor (2 * e) = callsFor e + 1 := by
  unfold callsFor
  rw [if_neg (by omega), if_neg (by omega), mul_comm, Nat.log_mul_base (by norm_num) (by omega), mul_comm, Nat.digits_base_mul (by norm_num) h]
  simp; omega

theorem callsFor_odd {e : Nat} (h : 1 ≤ e) : callsFor (2 * e + 1) = callsFor (2 * e) + 1 := by
  have h1 : Nat.log 2 (2 * e + 1) = Nat.log 2 e + 1 := by
    rw [Nat.log_of_one_lt_of_le (by norm_num) (by omega)]
    congr 2; omega
  have h2 : Nat.digits 2 (2 * e + 1) = 1 :: Nat.digits 2 e := by
    rw [Nat.digits_def' (by norm_num) (by omega)]
    congr 1
    · omega
    · congr 1; omega
  rw [callsFor_even h]
  unfold callsFor
  rw [if_neg (by omega), if_neg (by omega), h1, h2, List.sum_cons]
  omega

theorem callsFor_pos : ∀ e, 1 ≤ callsFor e := by
  intro e
  induction e using Nat.strong_induction_on with
  | _ e ih =>
    rcases Nat.lt_or_ge e 2 with h | h
    · obtain rfl | rfl : e = 0 ∨ e = 1 := by omega
      · decide
      · decide
    · rcases Nat.even_or_odd' e with ⟨m, rfl | rfl⟩
      · rw [callsFor_even (by omega)]; omega
      · rw [callsFor_odd (by omega)]; omega

theorem callsFor_le : ∀ e, 1 ≤ e → callsFor e ≤ 2 * Nat.log 2 e + 1 := by
  intro e
  induction e using Nat.strong_induction_on with
  | _ e ih =>
    intro he
    rcases Nat.lt_or_ge e 2 with h | h
    · obtain rfl : e = 1 := by omega
      decide
    · have hl : Nat.log 2 e = Nat.log 2 (e / 2) + 1 := Nat.log_of_one_lt_of_le (by norm_num) h
      rcases Nat.even_or_odd' e with ⟨m, rfl | rfl⟩
      · have := ih m (by omega) (by omega)
        rw [show 2 * m / 2 = m by omega] at hl
        rw [callsFor_even (by omega), hl]; omega
      · have := ih m (by omega) (by omega)
        rw [show (2 * m + 1) / 2 = m by omega] at hl
        rw [callsFor_odd (by omega), callsFor_even (by omega), hl]; omega

theorem exponentiateCallsF_gen (f : Nat) :
    ∀ {c : Int} {i : Nat} {y : BigInt}, ExpOK c i y → mag y.bins < f → ∀ {x : BigInt}, WF x →
      (exponentiateCallsF f x y).steps ≤ callsFor (mag y.bins).toNat ∧
      (Ahead c i (mag y.bins) → (exponentiateCallsF f x y).steps = callsFor (mag y.bins).toNat) := by
  induction f with
  | zero =>
    intro c i y hy hf
    have := mag_nonneg hy.wf.2
    push_cast at hf; omega
  | succ f ih =>
    intro c i y hy hf x hx
    have hm0 := mag_nonneg hy.wf.2
    have hpl := hy.wf.pos_length
    have hpos := callsFor_pos (mag y.bins).toNat
    have e0 : (exponentiateCallsF (f + 1) x y).steps = 1 + (if mag y.bins = 0 then free (setValue 1) else if mag y.bins = B ^ (y.bins.length - 1) then pure x
        else if mag y.bins % 2 = 1 then do
          let one ← free (ofInt64 1)
          let y1 ← free (opSub y one)
          let a ← exponentiateCallsF f x y1
          free (opMul x a)
        else do
          let half ← free (divideByInt y 2 default)
          let r ← exponentiateCallsF f x half
          free (opMul r r) : Cost BigInt).steps := by
      conv_lhs => unfold exponentiateCallsF
      rw [bind_steps_ok _ (tick_res _), bind_steps_ok _ (show (free (y.equalsInt32 0)).res = .ok _ from equalsInt32_zero hy.wf)]
      show 1 + (0 + _) = _
      rw [zero_add]
      congr 1
      by_cases hz : mag y.bins = 0
      · simp [hz]
      simp only [hz, decide_false, Bool.false_eq_true, if_false]
      rw [bind_steps_ok _ (show (free (y.equalsInt32 1)).res = .ok _ from equalsInt32_one hy.wf hy.sign)]
      show 0 + _ = _
      rw [zero_add]
      by_cases hst : mag y.bins = B ^ (y.bins.length - 1)
      · simp [hst]
      simp only [hst, decide_false, Bool.false_eq_true, if_false]
      rw [bind_steps_ok _ (show (free y.isOdd).res = .ok _ from isOdd_spec hy.wf)]
      show 0 + _ = _
      rw [zero_add]
      by_cases hodd : mag y.bins % 2 = 1 <;> simp [hodd]
    rw [e0]
    by_cases hz : mag y.bins = 0
    · rw [if_pos hz, hz]
      exact ⟨le_refl _, fun _ => rfl⟩
    rw [if_neg hz]
    by_cases hst : mag y.bins = B ^ (y.bins.length - 1)
    · rw [if_pos hst]
      refine ⟨hpos, fun h => ?_⟩
      have hi : i < 30 := by
        by_contra hi
        have h1 : (2 : Int) ^ 30 ≤ 2 ^ i := pow_le_pow_right₀ (by norm_num) (by omega)
        have h2 := hy.high
        have hp := B_pow_pos (y.bins.length - 1)
        rw [hy.start, hst, show y.bins.length = y.bins.length - 1 + 1 by omega, pow_succ] at h2
        simp only [Nat.add_sub_cancel] at h2
        norm_num at h1
        nlinarith
      by_cases hl : y.bins.length - 1 = 0
      · rw [hl, pow_zero] at hst
        rw [hst]; rfl
      · have := h.ten _ i (Nat.one_le_iff_ne_zero.mpr hl) hi (by rw [hy.start, ← hst])
        omega
    rw [if_neg hst]
    by_cases hodd : mag y.bins % 2 = 1
    · rw [if_pos hodd]
      obtain ⟨one, o1, o2, o3, o4⟩ := ofInt64_ok (x := 1) 0 (by omega) (by omega)
      have o3 : one.val = 1 := by simpa using o3
      have o4 := o4 (by omega)
      rw [bind_steps_ok _ (show (free (ofInt64 1)).res = .ok one from o1)]
      by_cases h1 : mag y.bins = 1
      · have hlen : y.bins.length ≠ 1 := by
          intro h; rw [h] at hst; exact hst (by simpa using h1)
        have hone : one = ⟨[1], false⟩ := by
          have : ofInt64 1 0 = .ok ⟨[1], false⟩ := by decide +kernel
          rw [o1] at this; simpa using this
        have ha := sub_one_abort hy.wf hy.sign h1 hlen hone
        rw [h1]
        unfold free
        rw [ha]
        exact ⟨show 1 ≤ callsFor 1 by decide, fun _ => show 1 = callsFor 1 by decide⟩
      have hyv := val_of_not_neg hy.sign
      obtain ⟨y1, k1, k2, k3⟩ := subNonneg_ok hy.wf o2.1 hy.sign o4 (fun h => by omega) (fun _ => o2.2.1)
      have hsub : opSub y one = .ok y1 := by simp [opSub, hy.sign, o4, k1]
      rw [o3, hyv] at k3
      have hneg : y1.negative = false := by
        have := k2.neg_iff
        by_contra hc
        have := this.mp (by simpa using hc)
        omega
      have hmy1 : mag y1.bins = mag y.bins - 1 := by rw [← val_of_not_neg hneg, k3]
      have g := ih (ExpOK.of_canon k2.1 k2.2.1 hneg) (by rw [hmy1]; push_cast at hf; omega) hx
      have hah := ahead_odd hy.start hodd (by omega)
      rw [hmy1, ← hah] at g
      rw [bind_steps_ok _ (show (free (opSub y one)).res = .ok y1 from hsub), free_bind_steps]
      have e : callsFor (mag y.bins).toNat = callsFor (mag y.bins - 1).toNat + 1 := by
        obtain ⟨e, he⟩ : ∃ e : Nat, mag y.bins = 2 * e + 1 := ⟨(mag y.bins / 2).toNat, by omega⟩
        rw [he, show (2 * (e : Int) + 1).toNat = 2 * e + 1 by omega, show (2 * (e : Int) + 1 - 1).toNat = 2 * e by omega, callsFor_odd (by omega)]
      rw [e]
      show 1 + (0 + (0 + _)) ≤ _ ∧ (_ → 1 + (0 + (0 + _)) = _)
      exact ⟨by have := g.1; omega, fun h => by have := g.2 h; omega⟩
    · rw [if_neg hodd]
      obtain ⟨hf', k1, k2, k3, k4, k5⟩ := divideByInt_ok (res := default) hy.wf (y := 2) (by omega) (by omega)
      have hev : mag y.bins = mag hf'.bins * 2 := by omega
      have g := ih (c := c) (i := i + 1) (y := hf')
        ⟨k2, k3, by rw [hy.start, hev, pow_succ]; ring, by rw [k4]; exact hy.low, by rw [k4]; exact hy.high⟩
        (by rw [k5]; push_cast at hf; omega) hx
      have hah := ahead_even hy.start (by omega) (fun k _ hi he => hst (by rw [← hy.ten hi he]; exact he))
      rw [k5, ← hah, ← k5] at g
      rw [bind_steps_ok _ (show (free (divideByInt y 2 default)).res = .ok hf' from k1), free_bind_steps]
      have e : callsFor (mag y.bins).toNat = callsFor (mag hf'.bins).toNat + 1 := by
        rw [← callsFor_even (by omega)]
        congr 1; omega
      rw [e]
      show 1 + (0 + _) ≤ _ ∧ (_ → 1 + (0 + _) = _)
      exact ⟨by have := g.1; omega, fun h => by have := g.2 h; omega⟩

end BigInt
end CppMaths
