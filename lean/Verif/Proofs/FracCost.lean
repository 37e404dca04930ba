import Verif.Model.FracCost
import Verif.Proofs.Frac
import Verif.Proofs.ExpCalls
import Mathlib.Data.Nat.Fib.Basic
/-!
# The number of rounds of Euclid's algorithm
-/

namespace CppMaths
namespace Frac
open BigInt Cost

theorem gcdRoundsLoop_res : ∀ (f : Nat) (a b : BigInt), (gcdRoundsLoop f a b).res = gcdLoop f a b
  | 0, _, _ => rfl
  | f + 1, a, b => by
    unfold gcdRoundsLoop gcdLoop
    rw [bind_res, free_res]
    refine bind_congr fun z => ?_
    split
    · rfl
    · simp only [bind_res, free_res, tick_res, ok_bind', gcdRoundsLoop_res f]

theorem gcdRounds_res (x y : BigInt) : (gcdRounds x y).res = gcd x y := by
  unfold gcdRounds gcd nochecksGcdRounds nochecksGcd
  simp only [bind_res, free_res]
  refine bind_congr fun a => bind_congr fun b => bind_congr fun l => ?_
  split <;> exact gcdRoundsLoop_res _ _ _

theorem gcdLoopC_res : ∀ (f : Nat) (a b : BigInt), (gcdLoopC f a b).res = gcdLoop f a b
  | 0, _, _ => rfl
  | f + 1, a, b => by
    unfold gcdLoopC gcdLoop
    rw [bind_res, equalsInt32C_res]
    refine bind_congr fun z => ?_
    split
    · rfl
    · rw [bind_res, show (opModC a b).res = opMod a b from moduloC_res a b]
      refine bind_congr fun r => ?_
      exact gcdLoopC_res f b r

theorem gcdC_res (x y : BigInt) : (gcdC x y).res = gcd x y := by
  unfold gcdC gcd nochecksGcd
  simp only [bind_res, absC_res, ltC_res]
  refine bind_congr fun a => bind_congr fun b => bind_congr fun l => ?_
  split <;> exact gcdLoopC_res _ _ _

/-- One round, seen from outside: remainder zero or a further pair. -/
theorem gcdRoundsLoop_succ {a b : BigInt} (ha : Canon a) (hb : Canon b) (ha0 : 0 ≤ a.val) (hb0 : 0 < b.val) (f : Nat) :
    (gcdRoundsLoop (f + 1) a b).steps = 1 ∨ ∃ r, Canon r ∧ r.val = a.val % b.val ∧ 
      (gcdRoundsLoop (f + 1) a b).steps = 1 + (gcdRoundsLoop f b r).steps := by
  have hz : b.val ≠ 0 := by omega
  have e : (gcdRoundsLoop (f + 1) a b).steps = 1 + (free (opMod a b) >>= fun r => gcdRoundsLoop f b r).steps := by
    conv_lhs => unfold gcdRoundsLoop
    rw [bind_steps_ok _ (show (free (b.equalsInt32 0)).res = .ok _ from equalsInt32_zero hb.1), if_neg (by simpa [val_eq_zero_iff] using hz),
      bind_steps_ok _ (tick_res _)]
    show 0 + (1 + _) = _
    rw [zero_add]
  rw [e]
  obtain ⟨_, m2, m3⟩ := modulo_exact ha hb
  by_cases hd : DivAborts a.val b.val
  · left
    rw [opMod_eq]
    unfold free
    rw [m2 hz hd]
    rfl
  · right
    obtain ⟨r, r1, r2, r3⟩ := m3 hz hd
    refine ⟨r, r2, by rw [r3, Int.fmod_eq_emod_of_nonneg _ hb0.le], ?_⟩
    rw [bind_steps_ok _ (show (free (opMod a b)).res = .ok r by rw [free_res, opMod_eq, r1])]
    show 1 + (0 + _) = _
    rw [zero_add]

theorem gcdRoundsLoop_zero {a b : BigInt} (hb : Canon b) (hz : b.val = 0) (f : Nat) : (gcdRoundsLoop f a b).steps = 0 := by
  cases f with
  | zero => rfl
  | succ f =>
    unfold gcdRoundsLoop
    rw [bind_steps_ok _ (show (free (b.equalsInt32 0)).res = .ok _ from equalsInt32_zero hb.1), if_pos (by simpa using val_eq_zero_iff.mp hz)]
    rfl

/-- Lamé: `n` rounds need numbers at least as large as Fibonacci numbers. -/
theorem lame : ∀ (f : Nat) {a b : BigInt}, Canon a → Canon b → 0 ≤ b.val → b.val < a.val → ∀ n, (gcdRoundsLoop f a b).steps = n + 1 →
    (Nat.fib (n + 2) : Int) ≤ b.val ∧ (Nat.fib (n + 3) : Int) ≤ a.val := by
  intro f
  induction f with
  | zero => intro a b _ _ _ _ n h; cases h
  | succ f ih =>
    intro a b ha hb hb0 hlt n h
    have hbp : 0 < b.val := by
      by_contra hc
      rw [gcdRoundsLoop_zero hb (by omega)] at h
      omega
    have base : n = 0 → (Nat.fib (n + 2) : Int) ≤ b.val ∧ (Nat.fib (n + 3) : Int) ≤ a.val := by
      rintro rfl
      exact ⟨by simp only [zero_add, Nat.fib_two]; push_cast; omega, by rw [show Nat.fib (0 + 3) = 2 from rfl]; push_cast; omega⟩
    rcases gcdRoundsLoop_succ ha hb (by omega) hbp f with h1 | ⟨r, r1, r2, r3⟩
    · exact base (by omega)
    · rcases Nat.eq_zero_or_pos n with hn | hn
      · exact base hn
      · obtain ⟨m, rfl⟩ : ∃ m, n = m + 1 := ⟨n - 1, by omega⟩
        have l0 := Int.emod_nonneg a.val hbp.ne'
        have l1 := Int.emod_lt_of_pos a.val hbp
        obtain ⟨i1, i2⟩ := ih hb r1 (by omega) (by omega) m (by omega)
        refine ⟨i2, ?_⟩
        have hd := Int.mul_ediv_add_emod a.val b.val
        have hq : 1 ≤ a.val / b.val := (Int.le_ediv_iff_mul_le hbp).mpr (by omega)
        have : b.val * 1 ≤ b.val * (a.val / b.val) := Int.mul_le_mul_of_nonneg_left hq hbp.le
        rw [show m + 1 + 3 = (m + 2) + 2 by omega, Nat.fib_add_two]
        push_cast
        rw [show m + 2 + 1 = m + 3 by omega]
        omega

theorem lame_rounds (f : Nat) {a b : BigInt} (ha : Canon a) (hb : Canon b) (hb0 : 0 ≤ b.val) (hle : b.val ≤ a.val) :
    (gcdRoundsLoop f a b).steps = 0 ∨ (Nat.fib ((gcdRoundsLoop f a b).steps + 1) : Int) ≤ b.val := by
  rcases Nat.eq_zero_or_pos (gcdRoundsLoop f a b).steps with h | h
  · exact .inl h
  right
  obtain ⟨n, hn⟩ : ∃ n, (gcdRoundsLoop f a b).steps = n + 1 := ⟨_, (Nat.succ_pred_eq_of_pos h).symm⟩
  rcases hle.lt_or_eq with hlt | heq
  · rw [hn]
    exact (lame f ha hb hb0 hlt n hn).1
  · -- equal numbers: one round
    cases f with
    | zero => cases hn
    | succ f =>
      have hbp : 0 < b.val := by
        by_contra hc
        rw [gcdRoundsLoop_zero hb (by omega)] at hn
        omega
      rcases gcdRoundsLoop_succ ha hb (by omega) hbp f with h1 | ⟨r, r1, r2, r3⟩
      · rw [h1]; simp; omega
      · rw [heq, Int.emod_self] at r2
        rw [gcdRoundsLoop_zero r1 r2] at r3
        rw [r3]; simp; omega

theorem gcdRounds_lame {x y : BigInt} (hx : Canon x) (hy : Canon y) :
    (gcdRounds x y).steps = 0 ∨ (Nat.fib ((gcdRounds x y).steps + 1) : Int) ≤ min |x.val| |y.val| := by
  obtain ⟨a, a1, a2, a3⟩ := canon_abs hx
  obtain ⟨b, b1, b2, b3⟩ := canon_abs hy
  have ha0 : 0 ≤ a.val := by rw [a3]; exact abs_nonneg _
  have hb0 : 0 ≤ b.val := by rw [b3]; exact abs_nonneg _
  unfold gcdRounds
  rw [bind_steps_ok _ (show (free x.abs).res = .ok a from a1), bind_steps_ok _ (show (free y.abs).res = .ok b from b1),
    bind_steps_ok _ (show (free (a.lt b)).res = .ok _ from BigInt.lt_spec a2.1 b2.1), ← a3, ← b3]
  have e0 : ∀ {α : Type} (r : Res α), (free r).steps = 0 := fun _ => rfl
  simp only [e0, zero_add]
  by_cases hl : a.val < b.val
  · rw [if_pos (by simpa using hl), min_eq_left hl.le]
    exact lame_rounds _ b2 a2 ha0 hl.le
  · rw [if_neg (by simpa using hl), min_eq_right (not_lt.mp hl)]
    exact lame_rounds _ a2 b2 hb0 (not_lt.mp hl)

/-- Five Fibonacci numbers further there is a decimal digit more. -/
theorem fib_digits : ∀ d : Nat, 10 ^ d ≤ Nat.fib (5 * d + 2)
  | 0 => by decide
  | d + 1 => by
    have ih := fib_digits d
    have h1 : Nat.fib (5 * d + 2) ≤ 2 * Nat.fib (5 * d + 1) := by
      rw [Nat.fib_add_two]
      have : Nat.fib (5 * d) ≤ Nat.fib (5 * d + 1) := Nat.fib_mono (by omega)
      omega
    have e3 : Nat.fib (5 * d + 3) = Nat.fib (5 * d + 1) + Nat.fib (5 * d + 2) := Nat.fib_add_two
    have e4 : Nat.fib (5 * d + 4) = Nat.fib (5 * d + 2) + Nat.fib (5 * d + 3) := Nat.fib_add_two
    have e5 : Nat.fib (5 * d + 5) = Nat.fib (5 * d + 3) + Nat.fib (5 * d + 4) := Nat.fib_add_two
    have e6 : Nat.fib (5 * d + 6) = Nat.fib (5 * d + 4) + Nat.fib (5 * d + 5) := Nat.fib_add_two
    have e7 : Nat.fib (5 * d + 7) = Nat.fib (5 * d + 5) + Nat.fib (5 * d + 6) := Nat.fib_add_two
    rw [show 5 * (d + 1) + 2 = 5 * d + 7 by ring, pow_succ]
    omega

theorem rounds_digits {n d : Nat} {z : Int} (h : n = 0 ∨ (Nat.fib (n + 1) : Int) ≤ z) (hz : z < 10 ^ d) : n ≤ 5 * d := by
  rcases h with h | h
  · omega
  · by_contra hc
    have h1 := fib_digits d
    have h2 : Nat.fib (5 * d + 2) ≤ Nat.fib (n + 1) := Nat.fib_mono (by omega)
    have : ((10 : Nat) ^ d : Int) ≤ (Nat.fib (n + 1) : Int) := by exact_mod_cast h1.trans h2
    push_cast at this
    omega

/-! ### Steps -/

/-- The steps of one round, for numbers of at most `n` bins. -/
def gcdRoundCost (n : Nat) : Nat := 18003 * n ^ 3 + 4 * n + 1

theorem gcdLoop_steps : ∀ (f : Nat) {a b : BigInt} {n : Nat}, Canon a → Canon b → 0 ≤ a.val → 0 ≤ b.val → a.bins.length ≤ n → b.bins.length ≤ n →
    (gcdLoopC f a b).steps ≤ (gcdRoundsLoop f a b).steps * gcdRoundCost n + n + 1
  | 0, _, _, _, _, _, _, _, _, _ => Nat.zero_le _
  | f + 1, a, b, n, ha, hb, ha0, hb0, la, lb => by
    have q1 := (bnd_equalsInt32 b 0).1
    have e1 : (equalsInt32C b 0).res = .ok (decide (mag b.bins = 0)) := by rw [equalsInt32C_res, equalsInt32_zero hb.1]
    have e0 : (free (b.equalsInt32 0)).res = .ok (decide (mag b.bins = 0)) := equalsInt32_zero hb.1
    unfold gcdLoopC gcdRoundsLoop
    rw [bind_steps_ok _ e1, bind_steps_ok _ e0]
    by_cases hz : b.val = 0
    · rw [if_pos (by simpa using val_eq_zero_iff.mp hz), if_pos (by simpa using val_eq_zero_iff.mp hz)]
      show _ + 0 ≤ (0 + 0) * _ + n + 1
      omega
    rw [if_neg (by simpa [val_eq_zero_iff] using hz), if_neg (by simpa [val_eq_zero_iff] using hz), bind_steps_ok _ (tick_res _)]
    have hmod : (opModC a b).steps ≤ 18003 * n ^ 3 := by
      have h := (opMod_steps ha.1 hb.1 rfl rfl).1
      have h1 : a.bins.length * b.bins.length ^ 2 ≤ n * n ^ 2 := Nat.mul_le_mul la (Nat.pow_le_pow_left lb 2)
      have h2 : a.bins.length ^ 2 * b.bins.length ≤ n ^ 2 * n := Nat.mul_le_mul (Nat.pow_le_pow_left la 2) lb
      have e1 : n * n ^ 2 = n ^ 3 := by ring
      have e2 : n ^ 2 * n = n ^ 3 := by ring
      omega
    obtain ⟨_, m2, m3⟩ := modulo_exact ha hb
    have hR : gcdRoundCost n = 18003 * n ^ 3 + 4 * n + 1 := rfl
    show _ ≤ (0 + (1 + _)) * _ + n + 1
    rw [zero_add, Nat.add_mul, one_mul]
    by_cases hd : DivAborts a.val b.val
    · have : (opModC a b >>= fun t => do
          let r ← copyC t
          let a ← copyC b
          let b ← copyC r
          gcdLoopC f a b).steps = (opModC a b).steps := by
        refine bind_steps_error _ (e := .assertion) ?_
        exact (moduloC_res a b).trans (m2 hz hd)
      omega
    · obtain ⟨r, r1, r2, r3⟩ := m3 hz hd
      have er : (opModC a b).res = .ok r := (moduloC_res a b).trans r1
      have ef : (free (opMod a b)).res = .ok r := by rw [free_res, opMod_eq, r1]
      rw [bind_steps_ok _ er, bind_steps_ok _ ef, bind_steps_ok _ (show (copyC r).res = .ok r from rfl), bind_steps_ok _ (show (copyC b).res = .ok b from rfl),
        bind_steps_ok _ (show (copyC r).res = .ok r from rfl)]
      have hrv : r.val = a.val % b.val := by rw [r3, Int.fmod_eq_emod_of_nonneg _ hb0]
      have l0 := Int.emod_nonneg a.val hz
      have l1 := Int.emod_lt_of_pos a.val (show 0 < b.val by omega)
      have lr : r.bins.length ≤ b.bins.length := by
        refine noLead_length_le r2.1.2 r2.2.1 hb.1.pos_length ?_
        rw [← abs_val r2.1, abs_of_nonneg (by omega), hrv]
        have := mag_lt hb.1.2
        rw [← abs_val hb.1, abs_of_nonneg hb0] at this
        omega
      have ih := gcdLoop_steps f (n := n) hb r2 hb0 (by omega) lb (by omega)
      show _ + (_ + (r.bins.length + (b.bins.length + (r.bins.length + _)))) ≤ _ + (0 + _) * _ + n + 1
      rw [zero_add]
      omega

theorem gcd_steps {x y : BigInt} (hx : Canon x) (hy : Canon y) {n k : Nat} (hn : max x.bins.length y.bins.length = n)
    (hk : min x.bins.length y.bins.length = k) : (gcdC x y).steps ≤ 810400 * (k * n ^ 3) := by
  have key : ∀ {a b : BigInt}, Canon a → Canon b → 0 ≤ b.val → b.val ≤ a.val → a.bins.length ≤ n → b.bins.length ≤ k →
      (nochecksGcdC a b).steps ≤ 45 * k * gcdRoundCost n + 2 * n + k + 1 := by
    intro a b ha hb hb0 hle la lb
    unfold nochecksGcdC
    rw [bind_steps_ok _ (show (copyC a).res = .ok a from rfl), bind_steps_ok _ (show (copyC b).res = .ok b from rfl)]
    have h1 := gcdLoop_steps (1000000000 ^ b.bins.length + 1) (n := n) ha hb (by omega) hb0 la (by omega)
    have h2 : (gcdRoundsLoop (1000000000 ^ b.bins.length + 1) a b).steps ≤ 5 * (9 * k) := by
      refine rounds_digits (lame_rounds _ ha hb hb0 hle) ?_
      have := mag_lt hb.1.2
      rw [← abs_val hb.1, abs_of_nonneg hb0] at this
      refine this.trans_le ?_
      rw [pow_mul]
      exact pow_le_pow_right₀ (by norm_num) lb
    have h3 : (gcdRoundsLoop (1000000000 ^ b.bins.length + 1) a b).steps * gcdRoundCost n ≤ 45 * k * gcdRoundCost n :=
      Nat.mul_le_mul_right _ (by omega)
    show a.bins.length + (b.bins.length + _) ≤ _
    omega
  obtain ⟨a, a1, a2, a3⟩ := canon_abs hx
  obtain ⟨b, b1, b2, b3⟩ := canon_abs hy
  have ha0 : 0 ≤ a.val := by rw [a3]; exact abs_nonneg _
  have hb0 : 0 ≤ b.val := by rw [b3]; exact abs_nonneg _
  have qa := bnd_abs x
  have qb := bnd_abs y
  have la : a.bins.length = x.bins.length := by rw [qa.2 a (by rw [absC_res]; exact a1)]
  have lb : b.bins.length = y.bins.length := by rw [qb.2 b (by rw [absC_res]; exact b1)]
  have px := hx.1.pos_length
  have py := hy.1.pos_length
  have ql := (bnd_lt a b).1
  have hfin : (gcdC x y).steps ≤ (4 * n + 4) + ((4 * n + 4) + ((3 * n + 1) + (45 * k * gcdRoundCost n + 2 * n + k + 1))) := by
    unfold gcdC
    rw [bind_steps_ok _ (show (absC x).res = .ok a by rw [absC_res]; exact a1), bind_steps_ok _ (show (absC y).res = .ok b by rw [absC_res]; exact b1),
      bind_steps_ok _ (show (ltC a b).res = .ok _ by rw [ltC_res]; exact BigInt.lt_spec a2.1 b2.1)]
    refine Nat.add_le_add (by have := qa.1; omega) (Nat.add_le_add (by have := qb.1; omega) (Nat.add_le_add (by omega) ?_))
    by_cases hl : a.val < b.val
    · rw [if_pos (by simpa using hl)]
      refine key b2 a2 ha0 hl.le (by omega) ?_
      have : a.bins.length ≤ b.bins.length := length_le_of_mag_le a2.1.2 b2.1.2 a2.2.1 b2.1.1 (by
        rw [← abs_val a2.1, ← abs_val b2.1, abs_of_nonneg ha0, abs_of_nonneg hb0]; omega)
      omega
    · rw [if_neg (by simpa using hl)]
      refine key a2 b2 hb0 (not_lt.mp hl) (by omega) ?_
      have : b.bins.length ≤ a.bins.length := length_le_of_mag_le b2.1.2 a2.1.2 b2.2.1 a2.1.1 (by
        rw [← abs_val a2.1, ← abs_val b2.1, abs_of_nonneg ha0, abs_of_nonneg hb0]; omega)
      omega
  have e : 45 * k * gcdRoundCost n = 810135 * (k * n ^ 3) + 180 * (k * n) + 45 * k := by unfold gcdRoundCost; ring
  have hnn : n ≤ n ^ 3 := Nat.le_self_pow (by omega) n
  have h1 : n ^ 3 ≤ k * n ^ 3 := Nat.le_mul_of_pos_left _ (by omega)
  have h2 : k * n ≤ k * n ^ 3 := Nat.mul_le_mul_left k hnn
  have h3 : k ≤ k * n := Nat.le_mul_of_pos_right k (by omega)
  omega

end Frac
end CppMaths
