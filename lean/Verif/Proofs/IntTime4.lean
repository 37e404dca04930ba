import Verif.Proofs.IntTime3
import Verif.Proofs.IntSafe
import Verif.Spec.Cost
/-!
# Steps of `/`, `/=`, `%` and `%=`, and numbers that take many
-/

namespace CppMaths
namespace BigInt
open Cost

/-! ### From above -/

theorem within_ok {α : Type} {x : Cost α} {r : Res α} {b : Nat} (h1 : x.res = r) (h2 : ∃ v, r = .ok v) (h3 : x.steps ≤ b) : x.Within r b := by
  obtain ⟨v, rfl⟩ := h2
  exact ⟨h1, by simp, h3⟩

theorem opDiv_steps {a x : BigInt} (ha : WF a) (hx : WF x) :
    (opDivC a x).steps ≤ a.bins.length * roundCost x.bins.length + 3 * a.bins.length + 4 * x.bins.length + 2 := by
  have := divide_steps ha hx
  have e : ofShift a 0 = a := by simp [ofShift]
  unfold opDivC
  rw [bind_steps_ok _ (ofShiftC_res _ _), e]
  show 0 + a.bins.length + _ ≤ _
  omega

theorem divAssign_steps {a x : BigInt} (ha : WF a) (hx : WF x) :
    (divAssignC a x).steps ≤ a.bins.length * roundCost x.bins.length + 2 * a.bins.length + 5 * x.bins.length + 2 := by
  have := divide_steps ha hx
  have e : ofShift x 0 = x := by simp [ofShift]
  unfold divAssignC
  rw [bind_steps_ok _ (ofShiftC_res _ _), e]
  show 0 + x.bins.length + _ ≤ _
  omega

/-- The quotient has no more bins than the dividend. -/
theorem opDiv_length {a x q : BigInt} (ha : WF a) (hx : WF x) (h : opDiv a x = .ok q) : WF q ∧ q.bins.length ≤ a.bins.length := by
  rw [opDiv_eq] at h
  obtain ⟨d1, d2, d3⟩ := divide_spec ha hx
  by_cases h0 : x.val = 0
  · rw [d1 h0] at h; cases h
  · by_cases ht : DivTrips a x
    · rw [d2 h0 ht] at h; cases h
    · obtain ⟨r, r1, r2, r3⟩ := d3 h0 ht
      rw [r1] at h
      cases h
      refine ⟨r2.1, noLead_length_le r2.1.2 r2.2.1 ha.pos_length ?_⟩
      rw [← abs_val r2.1, r3, ← Int.natCast_natAbs, Int.natAbs_tdiv]
      have h1 : a.val.natAbs.div x.val.natAbs ≤ a.val.natAbs := Nat.div_le_self _ _
      have h2 := mag_lt ha.2
      rw [← abs_val ha, ← Int.natCast_natAbs] at h2
      exact (Int.ofNat_le.mpr h1).trans_lt h2

/-- What `%` costs besides the division and the multiplication. -/
theorem bnd_modulo {x y : BigInt} (hx : WF x) (hy : WF y) {n k : Nat} (hn : n = x.bins.length) (hk : k = y.bins.length) :
    (moduloC x y).Bnd (n * roundCost k + 3 * (n * k * (n + k)) + 33 * (n * k) + 92 * n + 70 * k + 240) fun r => r.bins.length ≤ 2 * n + 2 * k + 10 := by
  have e0 : ∀ z : BigInt, ofShift z 0 = z := fun z => by simp [ofShift]
  have sign : ∀ z : BigInt, WF z → (if z.negative = true then negateC z else pure z : Cost BigInt).Bnd (z.bins.length + 1) fun r => r.bins = z.bins := by
    intro z _
    split
    · exact bnd_negate z
    · exact bnd_pure (P := fun r : BigInt => r.bins = z.bins) rfl
  unfold moduloC
  refine Bnd.le (a := (0 + n) + ((0 + k) + ((n + 1) + ((k + 1) + ((n * roundCost k + 3 * n + 4 * k + 2) + ((3 * (n * k * (n + k)) + 33 * (n * k) + 27 * n + k + 6) +
    ((19 * (2 * n + k + 4) + 18) + ((n + k + 5) + ((n + k + 6) + (19 * (n + 2 * k + 5) + 18 + n + 2 * k + 6)))))))))) ?_ (by omega)
  refine ((bnd_ofShift x 0).le (by rw [hn])).bind fun a ha => ((bnd_ofShift y 0).le (by rw [hk])).bind fun b hb => ?_
  rw [e0] at ha hb
  subst ha hb
  refine ((sign a hx).le (by rw [hn])).bind fun a' ha' => ((sign b hy).le (by rw [hk])).bind fun b' hb' => ?_
  have wa : WF a' := ⟨by rw [ha']; exact hx.1, by rw [ha']; exact hx.2⟩
  have wb : WF b' := ⟨by rw [hb']; exact hy.1, by rw [hb']; exact hy.2⟩
  have la : a'.bins.length = n := by rw [ha', hn]
  have lb : b'.bins.length = k := by rw [hb', hk]
  refine Bnd.bind (P := fun q => WF q ∧ q.bins.length ≤ n) ⟨?_, fun q hq => ?_⟩ fun q hq => ?_
  · have := opDiv_steps wa wb
    rw [la, lb] at this
    exact this
  · rw [opDivC_res] at hq
    rw [← la]
    exact opDiv_length wa wb hq
  obtain ⟨wq, lq⟩ := hq
  refine Bnd.bind (P := fun p => p.bins.length ≤ n + k + 4) ?_ fun p hp => ?_
  · refine (bnd_opMul wq.2.nonneg wb.2.nonneg rfl rfl).mono ?_ fun v hv => hv.trans (by rw [lb]; omega)
    rw [lb]
    set l := q.bins.length
    have h1 : min l k * max l k = l * k := min_mul_max l k
    have h2 : l * k ≤ n * k := Nat.mul_le_mul_right k lq
    have h3 : max l k ≤ n + k := by omega
    have h4 : min l k ≤ n := by omega
    have h5 : (l * k) * max l k ≤ n * k * (n + k) := Nat.mul_le_mul h2 h3
    have h6 : min l k * (3 * max l k * max l k + 33 * max l k + 25) = 3 * (l * k * max l k) + 33 * (l * k) + 25 * min l k := by
      rw [← h1]; ring
    have h7 : max l k + min l k = l + k := max_add_min l k
    omega
  refine ((bnd_opSub a' p).le (by rw [la]; omega)).bind fun t ht => ?_
  rw [la] at ht
  have lt : t.bins.length ≤ n + k + 5 := by omega
  refine ((bnd_copy t).le lt).bind fun r hr => ?_
  subst hr
  refine ((bnd_equalsInt32 r 0).le (by omega)).bind fun z _ => ?_
  split
  · exact bnd_pure (P := fun r : BigInt => r.bins.length ≤ 2 * n + 2 * k + 10) (by omega)
  split
  · exact (bnd_negate r).mono (by omega) fun v hv => by rw [hv]; omega
  split
  · exact (bnd_addAssign r b).mono (by omega) fun v hv => by omega
  split
  · refine Bnd.le (a := (19 * (n + 2 * k + 5) + 18) + (n + k + 6)) ?_ (by omega)
    refine ((bnd_opSub b r).le (by omega)).bind fun t ht => ?_
    exact (bnd_copy t).mono (by omega) fun v hv => by rw [hv]; omega
  · exact bnd_pure (P := fun r : BigInt => r.bins.length ≤ 2 * n + 2 * k + 10) (by omega)

theorem opMod_steps {x y : BigInt} (hx : WF x) (hy : WF y) {n k : Nat} (hn : n = x.bins.length) (hk : k = y.bins.length) :
    (opModC x y).steps ≤ 18000 * (n * k ^ 2) + 3 * (n ^ 2 * k) ∧ (modAssignC x y).steps ≤ 18000 * (n * k ^ 2) + 3 * (n ^ 2 * k) := by
  have px := hx.pos_length
  have py := hy.pos_length
  have hR := roundCost_le (k := k) (by omega)
  have hn1 : n * (roundCost k + 10) ≤ n * (17500 * (k * k)) := Nat.mul_le_mul_left n hR
  have e1 : n * (17500 * (k * k)) = 17500 * (n * k ^ 2) := by ring
  have e2 : n * (roundCost k + 10) = n * roundCost k + 10 * n := by ring
  have kk : k ≤ k ^ 2 := by rw [sq]; exact Nat.le_mul_self k
  have k2 : n * k ≤ n * k ^ 2 := Nat.mul_le_mul_left n kk
  have k3 : n ≤ n * k := Nat.le_mul_of_pos_right n (by omega)
  have k4 : k ≤ n * k := Nat.le_mul_of_pos_left k (by omega)
  have hm := bnd_modulo hx hy hn hk
  have e3 : 3 * (n * k * (n + k)) = 3 * (n * k ^ 2) + 3 * (n ^ 2 * k) := by ring
  refine ⟨by have h := hm.1; show (moduloC x y).steps ≤ _; omega, ?_⟩
  have : (modAssignC x y).Bnd ((n * roundCost k + 3 * (n * k * (n + k)) + 33 * (n * k) + 92 * n + 70 * k + 240) + (4 * n + 2 * k + 10)) fun _ => True :=
    hm.bind fun r hr => (bnd_swap x r).mono (by omega) fun _ _ => trivial
  have h := this.1
  omega

/-! ### Numbers whose division takes many steps -/

/-- `c` in each of `n` bins. -/
theorem mag_replicate (n : Nat) (c : Int) : (B - 1) * mag (List.replicate n c) = c * (B ^ n - 1) := by
  induction n with
  | zero => simp
  | succ n ih =>
    rw [List.replicate_succ, mag_cons, mul_add, show (B - 1) * (B * mag (List.replicate n c)) = B * ((B - 1) * mag (List.replicate n c)) by ring, ih,
      pow_succ]
    ring

/-- `10^(9k) - 1`. -/
def nines (k : Nat) : BigInt := ⟨List.replicate k 999999999, false⟩

/-- `2` in each of `k` bins. -/
def twos (k : Nat) : BigInt := ⟨List.replicate k 2, false⟩

/-- The product of `nines (k+1)` and `twos (k+1)`. -/
def hard (k : Nat) : BigInt := ⟨999999998 :: (List.replicate k 999999997 ++ 1 :: List.replicate k 2), false⟩

theorem nines_canon (k : Nat) : Canon (nines (k + 1)) := by
  refine ⟨⟨by simp [nines], fun b hb => ?_⟩, .inr ?_, by simp [nines]⟩
  · rw [List.eq_of_mem_replicate hb]; norm_num
  · simp only [nines]; rw [List.getLast?_replicate]; simp

theorem twos_canon (k : Nat) : Canon (twos (k + 1)) := by
  refine ⟨⟨by simp [twos], fun b hb => ?_⟩, .inr ?_, by simp [twos]⟩
  · rw [List.eq_of_mem_replicate hb]; norm_num
  · simp only [twos]; rw [List.getLast?_replicate]; simp

theorem hard_ne (k : Nat) : ∀ b ∈ (hard k).bins, b ≠ 0 := by
  intro b hb
  simp only [hard, List.mem_cons, List.mem_append, List.mem_replicate] at hb
  omega

theorem hard_canon (k : Nat) : Canon (hard k) := by
  refine ⟨⟨by simp [hard], fun b hb => ?_⟩, .inr fun h => ?_, by simp [hard]⟩
  · simp only [hard, List.mem_cons, List.mem_append, List.mem_replicate] at hb
    omega
  · exact hard_ne k 0 (List.mem_of_getLast? h) rfl

theorem hard_length (k : Nat) : (hard k).bins.length = 2 * (k + 1) := by simp [hard]; omega

theorem hard_val (k : Nat) : (hard k).val = (twos (k + 1)).val * (nines (k + 1)).val := by
  show mag (hard k).bins = mag (twos (k + 1)).bins * mag (nines (k + 1)).bins
  have h9 := mag_replicate (k + 1) 999999999
  have h2 := mag_replicate k 2
  have h7 := mag_replicate k 999999997
  have h22 := mag_replicate (k + 1) 2
  simp only [hard, twos, nines, mag_cons, mag_append, List.length_replicate]
  have e9 : mag (List.replicate (k + 1) 999999999) = B ^ (k + 1) - 1 := by linarith
  rw [e9]
  rw [pow_succ] at h22 ⊢
  generalize mag (List.replicate k (2 : Int)) = a at *
  generalize mag (List.replicate k (999999997 : Int)) = b at *
  generalize mag (List.replicate (k + 1) (2 : Int)) = c at *
  generalize (B : Int) ^ k = p at *
  have hc : c = 2 + B * a := by linarith
  subst hc
  have hb : b * 2 = 999999997 * a := by linarith
  have : (2 : Int) * (999999998 + B * (b + p * (1 + B * a))) = 2 * ((2 + B * a) * (p * B - 1)) := by linarith
  linarith

end BigInt
end CppMaths
