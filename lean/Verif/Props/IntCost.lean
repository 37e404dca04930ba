import Verif.Proofs.IntTime4
import Verif.Proofs.IntMem
import Verif.Proofs.FracCost
/-!
# C123–C127: running times of the operations of `Int` and of Euclid's algorithm

The functions of `Verif/Model/IntCost.lean` count a step for every bin that is read, written, pushed, popped or copied. `Within x r b`
says that the counted computation `x` has the result of the uncounted `r`, does not run forever, and takes at most `b` steps. A bin
holds nine decimal digits, so the number of bins of a canonical `Int` is a ninth of the number of its digits, rounded up.
-/

namespace CppMaths
namespace BigInt
open Cost

/-! ### C123: linear time -/

/-- C123. Comparing two numbers of `n` and `m` bins takes at most `2n + m + 1` steps, negating one `2n + 1`. -/
theorem C123_comparisons {x y : BigInt} (hx : WF x) (hy : WF y) {n m : Nat} (hn : x.bins.length = n) (hm : y.bins.length = m) :
    (cmpC x y).Within (cmp x y) (2 * n + m + 1) ∧ (eqC x y).Within (eq x y) (2 * n + m + 1) ∧ (neC x y).Within (ne x y) (2 * n + m + 1) ∧
    (ltC x y).Within (lt x y) (2 * n + m + 1) ∧ (leC x y).Within (le x y) (2 * n + m + 1) ∧ (gtC x y).Within (gt x y) (2 * n + m + 1) ∧
    (geC x y).Within (ge x y) (2 * n + m + 1) ∧ (negC x).Within x.neg (2 * n + 1) ∧ (negateC x).Within x.negate (n + 1) := by
  subst hn hm
  exact ⟨within_ok (cmpC_res x y) ⟨_, cmp_spec hx hy⟩ (bnd_cmp x y).1, within_ok (eqC_res x y) ⟨_, eq_spec hx hy⟩ (bnd_eq x y).1,
    within_ok (neC_res x y) ⟨_, ne_spec hx hy⟩ (bnd_ne x y).1, within_ok (ltC_res x y) ⟨_, lt_spec hx hy⟩ (bnd_lt x y).1,
    within_ok (leC_res x y) ⟨_, le_spec hx hy⟩ (bnd_le x y).1, within_ok (gtC_res x y) ⟨_, gt_spec hx hy⟩ (bnd_gt x y).1,
    within_ok (geC_res x y) ⟨_, ge_spec hx hy⟩ (bnd_ge x y).1, within_ok (negC_res x) ⟨_, neg_spec hx⟩ (bnd_neg x).1,
    within_ok (negateC_res x) ⟨_, negate_spec hx⟩ (bnd_negate x).1⟩

example := C123_comparisons (x := ⟨[999999999, 999999999, 999999999], false⟩) (y := ⟨[1, 0], true⟩) (by decide) (by decide) (n := 3) (m := 2) rfl rfl

/-- C123. Adding or subtracting two numbers of `n` and `m` bins takes at most `19(n + m) + 18` steps. -/
theorem C123_sums {x y : BigInt} (hx : Canon x) (hy : Canon y) {n m : Nat} (hn : x.bins.length = n) (hm : y.bins.length = m) :
    (opAddC x y).Within (opAdd x y) (19 * (n + m) + 18) ∧ (opSubC x y).Within (opSub x y) (19 * (n + m) + 18) ∧
    (addAssignC x y).Within (addAssign x y) (19 * (n + m) + 18) ∧ (subAssignC x y).Within (subAssign x y) (19 * (n + m) + 18) := by
  subst hn hm
  obtain ⟨a, a1, _⟩ := opAdd_ok hx.clean hy.clean
  obtain ⟨b, b1, _⟩ := opSub_ok hx.clean hy.clean
  obtain ⟨c, c1, _⟩ := addAssign_ok hx.clean hy.clean
  obtain ⟨d, d1, _⟩ := subAssign_ok hx.clean hy.clean
  exact ⟨within_ok (opAddC_res x y) ⟨_, a1⟩ (bnd_opAdd x y).1, within_ok (opSubC_res x y) ⟨_, b1⟩ (bnd_opSub x y).1,
    within_ok (addAssignC_res x y) ⟨_, c1⟩ (bnd_addAssign x y).1, within_ok (subAssignC_res x y) ⟨_, d1⟩ (bnd_subAssign x y).1⟩

example := C123_sums (x := ⟨[999999999, 999999999, 999999999], false⟩) (y := ⟨[1], true⟩) (by decide) (by decide) (n := 3) (m := 1) rfl rfl

/-- C123. The bound for sums and differences holds for all objects, whatever their bins, also when the call aborts. -/
theorem C123_all_objects (x y : BigInt) {n m : Nat} (hn : x.bins.length = n) (hm : y.bins.length = m) :
    (opAddC x y).steps ≤ 19 * (n + m) + 18 ∧ (opSubC x y).steps ≤ 19 * (n + m) + 18 ∧
    (addAssignC x y).steps ≤ 19 * (n + m) + 18 ∧ (subAssignC x y).steps ≤ 19 * (n + m) + 18 := by
  subst hn hm
  exact ⟨(bnd_opAdd x y).1, (bnd_opSub x y).1, (bnd_addAssign x y).1, (bnd_subAssign x y).1⟩

/-- Objects that no computation makes. -/
example := C123_all_objects ⟨[-5, 2000000000], true⟩ ⟨[], true⟩ (n := 2) (m := 0) rfl rfl

-- 10^27 - 1 + 1: the actual number of steps, three bins and one
example : Canon ⟨[999999999, 999999999, 999999999], false⟩ ∧ Canon ⟨[1], false⟩ ∧
    (opAddC ⟨[999999999, 999999999, 999999999], false⟩ ⟨[1], false⟩).res = .ok ⟨[0, 0, 0, 1], false⟩ ∧
    (opAddC ⟨[999999999, 999999999, 999999999], false⟩ ⟨[1], false⟩).steps = 11 ∧
    (opSubC ⟨[1], false⟩ ⟨[0, 0, 0, 1], false⟩).res = .ok ⟨[999999999, 999999999, 999999999], true⟩ ∧
    (opSubC ⟨[1], false⟩ ⟨[0, 0, 0, 1], false⟩).steps = 34 ∧ (ltC ⟨[0, 0, 0, 1], false⟩ ⟨[1], false⟩).steps = 1 := by decide +kernel

/-! ### C124: multiplication -/

/-- C124 as stated is false: for every constant `C` there are canonical numbers of `n` and `m` bins whose multiplication takes more than
`C n m` steps. -/
theorem C124_refuted (C : Nat) : ∃ x y : BigInt, Canon x ∧ Canon y ∧ C * (x.bins.length * y.bins.length) < (opMulC x y).steps := by
  refine ⟨nines (C + 1), nines (C + 1), nines_canon C, nines_canon C, ?_⟩
  have h0 : ∀ b ∈ (nines (C + 1)).bins, b ≠ 0 := fun b hb => by rw [List.eq_of_mem_replicate hb]; norm_num
  have hl : (nines (C + 1)).bins.length = C + 1 := by simp [nines]
  have := opMul_steps_ge (nines_canon C).1 (nines_canon C).1 h0 h0
  rw [min_self, max_self, hl] at this
  rw [hl]
  have h1 : C * ((C + 1) * (C + 1)) = C * C * C + 2 * (C * C) + C := by ring
  have h2 : (C + 1) * ((C + 1) * (5 * (C + 1) + 9)) = 5 * (C * C * C) + 24 * (C * C) + 33 * C + 14 := by ring
  omega

/-- C124, the part that holds. With `m` bins in the shorter and `n` bins in the longer factor, `x * y` takes at most `69 m n^2` steps;
`x *= y` takes at most `67 m n^2 + 3 m^2` for `n` bins in `x` and `m` in `y`, however long the two are. Missing: the factor `n` more than
in schoolbook multiplication, which is there for all factors without zero bins, see `C124_cubic_needed_partial`. -/
theorem C124_multiplication_partial {x y : BigInt} (hx : Canon x) (hy : Canon y) {n m : Nat} :
    (min x.bins.length y.bins.length = m → max x.bins.length y.bins.length = n → (opMulC x y).Within (opMul x y) (69 * (m * n ^ 2))) ∧
    (x.bins.length = n → y.bins.length = m → (mulAssignC x y).Within (mulAssign x y) (67 * (m * n ^ 2) + 3 * m ^ 2)) := by
  obtain ⟨a, a1, _⟩ := opMul_ok hx.clean hy.clean
  obtain ⟨b, b1, _⟩ := mulAssign_ok hx.1 hy.1
  have px := hx.1.pos_length
  have py := hy.1.pos_length
  have key : 1 ≤ m → 1 ≤ n → m ≤ m * n ^ 2 ∧ n ≤ m * n ^ 2 ∧ m * n ≤ m * n ^ 2 ∧ 1 ≤ m * n ^ 2 := fun h1 h2 => by
    have e : n ≤ n ^ 2 := by rw [sq]; exact Nat.le_mul_self n
    refine ⟨Nat.le_mul_of_pos_right m (by positivity), e.trans (Nat.le_mul_of_pos_left _ h1), Nat.mul_le_mul_left m e, Nat.mul_pos h1 (by positivity)⟩
  refine ⟨fun h1 h2 => within_ok (opMulC_res x y) ⟨_, a1⟩ ((bnd_opMul hx.1.2.nonneg hy.1.2.nonneg h1.symm h2.symm).1.trans ?_),
    fun h1 h2 => within_ok (mulAssignC_res x y) ⟨_, b1⟩ ((bnd_mulAssign hx.1.2.nonneg hy.1.2.nonneg h1.symm h2.symm).1.trans ?_)⟩
  · obtain ⟨k1, k2, k3, k4⟩ := key (by omega) (by omega)
    have e : m * (3 * n * n + 33 * n + 25) + m + n + 6 = 3 * (m * n ^ 2) + 33 * (m * n) + 26 * m + n + 6 := by ring
    omega
  · obtain ⟨k1, k2, k3, k4⟩ := key (by omega) (by omega)
    have hm : 1 ≤ m := by omega
    have e : m * (3 * n * n + 30 * n + 3 * m + 25) + 3 * n + m + 5 = 3 * (m * n ^ 2) + 30 * (m * n) + 3 * m ^ 2 + 26 * m + 3 * n + 5 := by ring
    have k5 : m ≤ m ^ 2 := by rw [sq]; exact Nat.le_mul_self m
    omega

example := (C124_multiplication_partial (x := nines 4) (y := nines 8) (nines_canon 3) (nines_canon 7) (n := 8) (m := 4)).1 (by decide) (by decide)

/-- C124: the time is of that order for all factors without zero bins. -/
theorem C124_cubic_needed_partial {x y : BigInt} (hx : Canon x) (hy : Canon y) (h0 : ∀ b ∈ x.bins, b ≠ 0) (h1 : ∀ b ∈ y.bins, b ≠ 0)
    {n m : Nat} (hm : min x.bins.length y.bins.length = m) (hn : max x.bins.length y.bins.length = n) :
    5 * (m * n ^ 2) ≤ 2 * (opMulC x y).steps := by
  have := opMul_steps_ge hx.1 hy.1 h0 h1
  rw [hm, hn] at this
  have e : m * (n * (5 * n + 9)) = 5 * (m * n ^ 2) + 9 * (m * n) := by ring
  omega

example : 5 * (4 * 8 ^ 2) ≤ 2 * (opMulC (nines 4) (nines 8)).steps :=
  C124_cubic_needed_partial (nines_canon 3) (nines_canon 7) (by decide) (by decide) (by decide) (by decide)

-- the square of a number of four bins takes 478 steps, with twice as many bins 2492, with four times as many 14968
example : Canon (nines 4) ∧ (∀ b ∈ (nines 4).bins, b ≠ 0) ∧ (opMulC (nines 4) (nines 4)).steps = 478 ∧
    (opMulC (nines 8) (nines 8)).steps = 2492 ∧ (opMulC (nines 16) (nines 16)).steps = 14968 := by decide +kernel

/-! ### C125: division -/

/-- C125 as stated is false: for every constant `C` there are canonical numbers of `n` and `k` bins whose division, which returns, takes
more than `C n k` steps. -/
theorem C125_refuted (C : Nat) : ∃ x y q : BigInt, Canon x ∧ Canon y ∧ opDiv x y = .ok q ∧
    C * (x.bins.length * y.bins.length) < (opDivC x y).steps := by
  have hd : divide (hard C) (nines (C + 1)) = .ok (twos (C + 1)) := by
    have h9 : (nines (C + 1)).val ≠ 0 := by
      have h9 := mag_replicate (C + 1) 999999999
      have hB : (1000000000 : Int) ≤ 1000000000 ^ (C + 1) := by
        have := pow_le_pow_right₀ (a := (1000000000 : Int)) (by norm_num) (show 1 ≤ C + 1 by omega)
        simpa using this
      show mag (List.replicate (C + 1) 999999999) ≠ 0
      intro h
      rw [h] at h9
      linarith
    obtain ⟨r, r1, r2, r3⟩ := (divide_spec (hard_canon C).1 (nines_canon C).1).2.2 h9 (by
      rintro ⟨_, j, _, _, h, _⟩
      exact hard_ne C 0 (List.mem_of_getElem? h) rfl)
    rw [r1]
    congr 1
    refine Canon.eq_of_val_eq r2 (twos_canon C) ?_
    rw [r3, hard_val, Int.mul_tdiv_cancel _ h9]
  refine ⟨hard C, nines (C + 1), twos (C + 1), hard_canon C, nines_canon C, by rw [opDiv_eq]; exact hd, ?_⟩
  have h0 : ∀ b ∈ (nines (C + 1)).bins, b ≠ 0 := fun b hb => by rw [List.eq_of_mem_replicate hb]; norm_num
  have hl : (nines (C + 1)).bins.length = C + 1 := by simp [nines]
  have hle : mag (nines (C + 1)).bins ≤ mag (hard C).bins := by
    have h1 := hard_val C
    change mag (hard C).bins = mag (twos (C + 1)).bins * mag (nines (C + 1)).bins at h1
    have h2 := mag_nonneg (nines_canon C).1.2
    have h3 := mag_nonneg (show BinsOK (List.replicate C 2) from fun b hb => by rw [List.eq_of_mem_replicate hb]; norm_num)
    have h4 : mag (twos (C + 1)).bins = 2 + 1000000000 * mag (List.replicate C 2) := by simp [twos, List.replicate_succ]
    rw [h1]
    exact le_mul_of_one_le_left h2 (by rw [h4]; linarith)
  have := divide_steps_ge (nines_canon C).1 h0 hle (hard_canon C).1 hd
  have hz : nonzeroBins (twos (C + 1)).bins = C + 1 := by simp [nonzeroBins, twos, List.countP_replicate]
  rw [hz, hl] at this
  have hs : (divideC (hard C) (nines (C + 1))).steps ≤ (opDivC (hard C) (nines (C + 1))).steps := by
    unfold opDivC
    rw [bind_steps_ok _ (ofShiftC_res _ _), ofShift_zero]
    exact Nat.le_add_left _ _
  rw [hl, hard_length]
  have h1 : C * (2 * (C + 1) * (C + 1)) = 2 * (C * C * C) + 4 * (C * C) + 2 * C := by ring
  have h2 : (C + 1) * ((C + 1) * (5 * (C + 1) + 9)) = 5 * (C * C * C) + 24 * (C * C) + 33 * C + 14 := by ring
  omega

/-- C125, the part that holds: `x / y` and `x /= y` take at most `17510 n k^2` steps for `n` bins in `x` and `k` in `y`, `x % y` and
`x %= y` at most `18000 n k^2 + 3 n^2 k`; also when they throw or abort. Missing: the factor `k` more than in schoolbook division, which is there
for every nonzero bin of the quotient if the divisor has no zero bins, see `C125_cubic_needed_partial`. -/
theorem C125_division_partial {x y : BigInt} (hx : WF x) (hy : WF y) {n k : Nat} (hn : x.bins.length = n) (hk : y.bins.length = k) :
    (opDivC x y).Within (opDiv x y) (17510 * (n * k ^ 2)) ∧ (divAssignC x y).Within (divAssign x y) (17510 * (n * k ^ 2)) ∧
    (opModC x y).Within (opMod x y) (18000 * (n * k ^ 2) + 3 * (n ^ 2 * k)) ∧
    (modAssignC x y).Within (modAssign x y) (18000 * (n * k ^ 2) + 3 * (n ^ 2 * k)) := by
  have px := hx.pos_length
  have py := hy.pos_length
  have hR := roundCost_le (k := k) (by omega)
  have hn1 : n * (roundCost k + 10) ≤ n * (17500 * (k * k)) := Nat.mul_le_mul_left n hR
  have e1 : n * (17500 * (k * k)) = 17500 * (n * k ^ 2) := by ring
  have e2 : n * (roundCost k + 10) = n * roundCost k + 10 * n := by ring
  have kk : k ≤ k ^ 2 := by rw [sq]; exact Nat.le_mul_self k
  have k2 : n * k ≤ n * k ^ 2 := Nat.mul_le_mul_left n kk
  have k3 : n ≤ n * k := Nat.le_mul_of_pos_right n (by omega)
  have k4 : k ≤ n * k := Nat.le_mul_of_pos_left k (by omega)
  have hdiv : divide x y ≠ .error .diverge := by
    obtain ⟨d1, d2, d3⟩ := divide_spec hx hy
    by_cases h0 : y.val = 0
    · rw [d1 h0]; simp
    · by_cases ht : DivTrips x y
      · rw [d2 h0 ht]; simp
      · obtain ⟨r, r1, _⟩ := d3 h0 ht
        rw [r1]; simp
  have hmod : modulo x y ≠ .error .diverge := by
    obtain ⟨d1, d2⟩ := modulo_wf hx hy
    by_cases h0 : y.val = 0
    · rw [d1 h0]; simp
    · rcases d2 h0 with ⟨r, r1, _⟩ | h
      · rw [r1]; simp
      · rw [h]; simp
  have hm := opMod_steps hx hy hn.symm hk.symm
  have hs := opDiv_steps hx hy
  have ha := divAssign_steps hx hy
  rw [hn, hk] at hs ha
  exact ⟨⟨opDivC_res x y, by rw [opDiv_eq]; exact hdiv, by omega⟩, ⟨divAssignC_res x y, by rw [divAssign_eq]; exact hdiv, by omega⟩,
    ⟨moduloC_res x y, hmod, hm.1⟩, ⟨modAssignC_res x y, hmod, hm.2⟩⟩

example := C125_division_partial (x := ⟨[5, 6, 7], true⟩) (y := ⟨[3, 1], false⟩) (by decide) (by decide) (n := 3) (k := 2) rfl rfl

/-- C125: the time is of that order for every nonzero bin of the quotient if the divisor has no zero bins. -/
theorem C125_cubic_needed_partial {x y q : BigInt} (hx : Canon x) (hy : Canon y) (h0 : ∀ b ∈ y.bins, b ≠ 0) (hq : opDiv x y = .ok q) :
    5 * (q.bins.countP (· != 0) * y.bins.length ^ 2) ≤ 2 * (opDivC x y).steps := by
  have hz : y.val ≠ 0 := fun h => by rw [opDiv_eq, (divide_spec hx.1 hy.1).1 h] at hq; cases hq
  have hs : (divideC x y).steps ≤ (opDivC x y).steps := by
    unfold opDivC
    rw [bind_steps_ok _ (ofShiftC_res _ _), ofShift_zero]
    exact Nat.le_add_left _ _
  rw [opDiv_eq] at hq
  by_cases hle : mag y.bins ≤ mag x.bins
  · have := divide_steps_ge hy.1 h0 hle hx.1 hq
    unfold nonzeroBins at this
    have e : q.bins.countP (· != 0) * (y.bins.length * (5 * y.bins.length + 9)) =
        5 * (q.bins.countP (· != 0) * y.bins.length ^ 2) + 9 * (q.bins.countP (· != 0) * y.bins.length) := by ring
    omega
  · have hzero : q = ⟨[0], false⟩ := by
      obtain ⟨r, r1, r2, r3⟩ := (divide_spec hx.1 hy.1).2.2 hz (fun h => hle h.1)
      rw [r1] at hq
      cases hq
      refine Canon.eq_of_val_eq r2 (by decide) ?_
      have h1 := mag_nonneg hx.1.2
      rw [r3, tdiv_val hx.1 hy.1, Int.ediv_eq_zero_of_lt h1 (by omega)]
      split <;> rfl
    subst hzero
    simp

example : 5 * (2 * 2 ^ 2) ≤ 2 * (opDivC (hard 1) (nines 2)).steps :=
  C125_cubic_needed_partial (x := hard 1) (y := nines 2) (q := ⟨[2, 2], false⟩) (by decide) (by decide) (by decide) (by decide +kernel)

-- The numbers of `C125_refuted` for 2, 3, 4 and 5 bins in the divisor: their quotient has as many bins, all of them 2.
example : Canon (hard 4) ∧ Canon (nines 5) ∧ (∀ b ∈ (nines 5).bins, b ≠ 0) ∧ opDiv (hard 4) (nines 5) = .ok ⟨[2, 2, 2, 2, 2], false⟩ ∧
    (opDivC (hard 1) (nines 2)).steps = 4296 ∧ (opDivC (hard 2) (nines 3)).steps = 9315 ∧ (opDivC (hard 3) (nines 4)).steps = 16873 ∧
    (opDivC (hard 4) (nines 5)).steps = 27438 ∧ (opModC (hard 4) (nines 5)).steps = 28377 := by decide +kernel

/-! ### C126: the recursion of `exponentiate` -/

/-- C126. For an exponent `e ≥ 1` the function makes at most `2 log2 e + 1` calls of itself, counting the first one, whatever the base and the
outcome. -/
theorem C126_calls {x y : BigInt} (hx : WF x) (hy : Canon y) {e : Nat} (he : y.val = e) (h1 : 1 ≤ e) :
    (exponentiateCalls x y).Within (opPow x y) (2 * Nat.log 2 e + 1) := by
  have hs : y.negative = false := by
    have := hy.neg_iff
    by_contra hc
    have := this.mp (by simpa using hc)
    omega
  have hv := val_of_not_neg hs
  have hm : (mag y.bins).toNat = e := by omega
  have g := (exponentiateCallsF_gen (2 * 1000000000 ^ y.bins.length + 4) (ExpOK.of_canon hy.1 hy.2.1 hs) (by
    have := mag_lt hy.1.2
    push_cast
    omega) hx).1
  rw [hm] at g
  refine ⟨exponentiateCallsF_res _ _ _, ?_, g.trans (callsFor_le e h1)⟩
  obtain ⟨a, b⟩ := exponentiate_spec hy (by omega)
  show exponentiate x y ≠ _
  by_cases hg : GoodExp y.val
  · obtain ⟨r, r1, _⟩ := a hg x hx
    rw [r1]; simp
  · rcases b hg with b | ⟨n, _, _, b⟩
    · rw [b x hx]; simp
    · obtain ⟨r, r1, _⟩ := b x hx
      rw [r1]; simp

example := C126_calls (x := ⟨[0, 3], true⟩) (y := ⟨[5, 7], false⟩) (e := 7000000005) (by decide) (by decide) (by decide) (by decide)

/-- C126. The exact number for the exponents for which the power is right: one call for each binary digit of the exponent after the first and
one for each digit that is 1. -/
theorem C126_exact_number {x y : BigInt} (hx : WF x) (hy : Canon y) {e : Nat} (he : y.val = e) (h1 : 1 ≤ e) (hg : GoodExp y.val) :
    (exponentiateCalls x y).steps = Nat.log 2 e + (Nat.digits 2 e).sum := by
  have hs : y.negative = false := by
    have := hy.neg_iff
    by_contra hc
    have := this.mp (by simpa using hc)
    omega
  have hv := val_of_not_neg hs
  have hm : (mag y.bins).toNat = e := by omega
  have g := (exponentiateCallsF_gen (2 * 1000000000 ^ y.bins.length + 4) (ExpOK.of_canon hy.1 hy.2.1 hs) (by
    have := mag_lt hy.1.2
    push_cast
    omega) hx).2
  rw [← hv, ← goodExp_iff] at g
  rw [exponentiateCalls, g hg, show y.val.toNat = e by omega, callsFor, if_neg (by omega)]

-- 3^255: 15 calls for seven binary digits after the first and eight ones
example : WF ⟨[3], false⟩ ∧ Canon ⟨[255], false⟩ ∧ BigInt.val ⟨[255], false⟩ = (255 : Nat) ∧ GoodExp (BigInt.val ⟨[255], false⟩) ∧
    (exponentiateCalls ⟨[3], false⟩ ⟨[255], false⟩).steps = 15 := by
  refine ⟨by decide, by decide, by decide, GoodExp.of_lt (by decide) (by decide), ?_⟩
  rw [C126_exact_number (e := 255) (by decide) (by decide) (by decide) (by norm_num) (GoodExp.of_lt (by decide) (by decide))]
  decide +kernel

end BigInt

namespace Frac
open BigInt Cost

/-! ### C127: Euclid's algorithm -/

/-- C127. The number `n` of remainders that are computed to reduce a fraction is at most five times the number of decimal digits of the
smaller one of numerator and denominator. More exactly (Lamé), if there are any then the smaller number is at least the `n+1`st Fibonacci
number. -/
theorem C127_rounds {x y : BigInt} (hx : Canon x) (hy : Canon y) {d : Nat} (hd : min |x.val| |y.val| < 10 ^ d) :
    (gcdRounds x y).Within (gcd x y) (5 * d) ∧
    ((gcdRounds x y).steps ≠ 0 → (Nat.fib ((gcdRounds x y).steps + 1) : Int) ≤ min |x.val| |y.val|) := by
  have h := gcdRounds_lame hx hy
  refine ⟨⟨gcdRounds_res x y, ?_, rounds_digits h hd⟩, fun h0 => h.resolve_left h0⟩
  obtain ⟨a, b⟩ := gcd_spec hx hy
  by_cases he : EuclidAborts (max |x.val| |y.val|) (min |x.val| |y.val|)
  · rw [b he]; simp
  · obtain ⟨r, r1, _⟩ := a he
    rw [r1]; simp

example := C127_rounds (x := ⟨[832040], false⟩) (y := ⟨[514229, 5], true⟩) (d := 6) (by decide) (by decide) (by decide)

/-- C127. The steps: at most `810400 k n^3` for `n` bins in the longer and `k` in the shorter one. -/
theorem C127_steps {x y : BigInt} (hx : Canon x) (hy : Canon y) {n k : Nat} (hn : max x.bins.length y.bins.length = n)
    (hk : min x.bins.length y.bins.length = k) : (gcdC x y).Within (gcd x y) (810400 * (k * n ^ 3)) := by
  refine ⟨gcdC_res x y, ?_, gcd_steps hx hy hn hk⟩
  obtain ⟨a, b⟩ := gcd_spec hx hy
  by_cases he : EuclidAborts (max |x.val| |y.val|) (min |x.val| |y.val|)
  · rw [b he]; simp
  · obtain ⟨r, r1, _⟩ := a he
    rw [r1]; simp

example := C127_steps (x := ⟨[832040], false⟩) (y := ⟨[514229, 5], true⟩) (n := 2) (k := 1) (by decide) (by decide) rfl rfl

-- consecutive Fibonacci numbers take the most rounds: 832040 and 514229, the 30th and the 29th
example : Canon ⟨[832040], false⟩ ∧ Canon ⟨[514229], true⟩ ∧ min |BigInt.val ⟨[832040], false⟩| |BigInt.val ⟨[514229], true⟩| < 10 ^ 6 ∧
    (gcdRounds ⟨[832040], false⟩ ⟨[514229], true⟩).res = .ok ⟨[1], false⟩ ∧ (gcdRounds ⟨[832040], false⟩ ⟨[514229], true⟩).steps = 28 ∧
    Nat.fib 29 = 514229 := by decide +kernel

end Frac
end CppMaths
