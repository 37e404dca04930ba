import Verif.Proofs.IntAux
import Verif.Proofs.IntMem
/-!
# Properties of `Int` arithmetic (C01-C11, C16-C26)

`x.val` is the integer an object stands for, `Canon x` says that its representation is canonical, `WF x` that it is
well formed (leading zero bins and a negative zero allowed); see `Verif/Spec/Int.lean`. Every theorem is followed by
examples of objects that meet its hypotheses.
-/

namespace CppMaths
open BigInt

/-! ### C01, C02, C03: exact addition, subtraction, multiplication -/

/-- C01. `x + y` and `x += y` return the canonical representation of the exact sum. -/
theorem C01_addition_exact {x y : BigInt} (hx : Canon x) (hy : Canon y) :
    (∃ r, opAdd x y = .ok r ∧ Canon r ∧ r.val = x.val + y.val) ∧
    (∃ r, addAssign x y = .ok r ∧ Canon r ∧ r.val = x.val + y.val) :=
  ⟨opAdd_ok hx.clean hy.clean, addAssign_ok hx.clean hy.clean⟩

-- 999999999999999999 + 1, a carry through two bins
example : Canon ⟨[999999999, 999999999], false⟩ ∧ Canon ⟨[1], false⟩ ∧
    opAdd ⟨[999999999, 999999999], false⟩ ⟨[1], false⟩ = .ok ⟨[0, 0, 1], false⟩ := by decide
-- (-5) + 5 is an unsigned zero
example : opAdd ⟨[5], true⟩ ⟨[5], false⟩ = .ok ⟨[0], false⟩ ∧ addAssign ⟨[5], true⟩ ⟨[5], false⟩ = .ok ⟨[0], false⟩ := by decide

/-- C02. `x - y` and `x -= y` return the canonical representation of the exact difference; no assertion fires. -/
theorem C02_subtraction_exact {x y : BigInt} (hx : Canon x) (hy : Canon y) :
    (∃ r, opSub x y = .ok r ∧ Canon r ∧ r.val = x.val - y.val) ∧
    (∃ r, subAssign x y = .ok r ∧ Canon r ∧ r.val = x.val - y.val) :=
  ⟨opSub_ok hx.clean hy.clean, subAssign_ok hx.clean hy.clean⟩

-- 10^18 - 1, a borrow through two bins; 1 - 10^18
example : Canon ⟨[0, 0, 1], false⟩ ∧ opSub ⟨[0, 0, 1], false⟩ ⟨[1], false⟩ = .ok ⟨[999999999, 999999999], false⟩ ∧
    opSub ⟨[1], false⟩ ⟨[0, 0, 1], false⟩ = .ok ⟨[999999999, 999999999], true⟩ := by decide

/-- C03. `x * y` returns the canonical representation of the exact product. -/
theorem C03_multiplication_exact {x y : BigInt} (hx : Canon x) (hy : Canon y) :
    ∃ r, opMul x y = .ok r ∧ Canon r ∧ r.val = x.val * y.val := opMul_ok hx.clean hy.clean

example : Canon ⟨[999999999, 999999999], false⟩ ∧ Canon ⟨[999999999], true⟩ ∧
    opMul ⟨[999999999, 999999999], false⟩ ⟨[999999999], true⟩ = .ok ⟨[1, 999999999, 999999998], true⟩ := by decide

/-! ### C04: compound multiplication -/

/-- C04 as stated is false: `x = 0; x *= -5` leaves a negative zero. -/
theorem C04_refuted : ¬∀ x y : BigInt, Canon x → Canon y → ∀ r, mulAssign x y = .ok r → Canon r := by
  intro h
  have := h ⟨[0], false⟩ ⟨[5], true⟩ (by decide) (by decide) ⟨[0], true⟩ (by decide)
  exact absurd this (by decide)

/-- C04 as stated is false for printing, too: `0 * -5` prints `0`, but after `x *= -5` a zero `x` prints `-0`. -/
theorem C04_refuted_print : ∃ x y r s : BigInt, Canon x ∧ Canon y ∧ mulAssign x y = .ok r ∧ opMul x y = .ok s ∧
    print r ≠ print s :=
  ⟨⟨[0], false⟩, ⟨[5], true⟩, ⟨[0], true⟩, ⟨[0], false⟩, by decide, by decide, by decide, by decide, by decide⟩

/-- The zero left by `*=` can make later operations abort: `x = 0; x *= 10^9; x -= 1`. -/
theorem C04_refuted_abort : ∃ x y r : BigInt, Canon x ∧ Canon y ∧ mulAssign x y = .ok r ∧
    subAssign r ⟨[1], false⟩ = .error .assertion :=
  ⟨⟨[0], false⟩, ⟨[0, 1], false⟩, ⟨[0, 0], false⟩, by decide, by decide, by decide, by decide⟩

/-- C04, the part that holds. `x *= y` always has the value of `x * y` and compares equal to it. It is the identical
canonical object when the product is not zero; and also for a zero product when the sign flags agree and `x` is nonzero
or `y` has a single bin.
Missing: a zero product otherwise (see `C04_refuted`). -/
theorem C04_compound_multiplication_partial {x y : BigInt} (hx : Canon x) (hy : Canon y) :
    ∃ r s, mulAssign x y = .ok r ∧ opMul x y = .ok s ∧ r.val = x.val * y.val ∧ eq r s = .ok true ∧
      (x.val * y.val ≠ 0 ∨ (x.negative = y.negative ∧ (x.val ≠ 0 ∨ |y.val| < 1000000000)) → r = s) := by
  obtain ⟨r, r1, r2, r3, r4⟩ := mulAssign_ok hx.1 hy.1
  obtain ⟨s, s1, s2, s3⟩ := opMul_ok hx.clean hy.clean
  refine ⟨r, s, r1, s1, r3, by rw [eq_spec r2 s2.1, r3, s3]; simp, ?_⟩
  have hcan : NoLead r.bins → (r.negative = true → mag r.bins ≠ 0) → r = s := fun h1 h2 =>
    Canon.eq_of_val_eq ⟨r2, h1, h2⟩ s2 (by rw [r3, s3])
  obtain ⟨t, t1, t2, t3, t4⟩ := multiply_ok hx.1 hy.1
  have hrb : r.bins = t.bins := by
    simp only [mulAssign, t1, bind_ok, pure_ok, Except.ok.injEq] at r1; rw [← r1]
  rintro (h | ⟨h1, h2⟩)
  · have hx0 : x.val ≠ 0 := left_ne_zero_of_mul h
    have hn := multiply_noLead hx.clean hy.clean (.inl (by rwa [ne_eq, ← val_eq_zero_iff])) t1
    refine hcan (by rw [hrb]; exact hn) (fun _ hz => h ?_)
    rw [← r3, val_eq_zero_iff]; exact hz
  · have hn : NoLead t.bins := by
      refine multiply_noLead hx.clean hy.clean ?_ t1
      rcases h2 with h2 | h2
      · exact .inl (by rwa [ne_eq, ← val_eq_zero_iff])
      · right
        rw [abs_val hy.1] at h2
        have h3 := noLead_length_le hy.1.2 hy.2.1 (k := 1) (le_refl _) (by simpa using h2)
        have h4 := hy.1.pos_length
        omega
    refine hcan (by rw [hrb]; exact hn) ?_
    rw [r4, h1]; simp

example : Canon ⟨[7, 3], true⟩ ∧ Canon ⟨[999999999], false⟩ ∧
    mulAssign ⟨[7, 3], true⟩ ⟨[999999999], false⟩ = opMul ⟨[7, 3], true⟩ ⟨[999999999], false⟩ := by decide

/-! ### C05, C06, C07: division and modulo -/

/-- C05. Division throws exactly for a zero divisor; whenever it returns, the result is canonical and the quotient
truncated toward zero. Leading zero bins and negative zeros are allowed in the operands. -/
theorem C05_division_truncates {x y : BigInt} (hx : WF x) (hy : WF y) :
    (opDiv x y = .error .divideByZero ↔ y.val = 0) ∧
    (∀ r, opDiv x y = .ok r → Canon r ∧ r.val = x.val.tdiv y.val) ∧
    divAssign x y = opDiv x y := by
  rw [opDiv_eq, divAssign_eq]
  obtain ⟨d1, d2, d3⟩ := divide_spec hx hy
  by_cases h : y.val = 0
  · rw [d1 h]; simp [h]
  · by_cases ht : DivTrips x y
    · rw [d2 h ht]; simp [h]
    · obtain ⟨r, r1, r2, r3⟩ := d3 h ht
      rw [r1]; simp only [h, iff_false, and_true]
      exact ⟨by simp, fun s hs => by cases hs; exact ⟨r2, r3⟩⟩

example : Canon ⟨[7, 3], true⟩ ∧ opDiv ⟨[7, 3], true⟩ ⟨[2], false⟩ = .ok ⟨[500000003, 1], true⟩ := by decide +kernel
-- truncation toward zero, not floor
example : opDiv ⟨[7], true⟩ ⟨[2], false⟩ = .ok ⟨[3], true⟩ ∧ opDiv ⟨[7], true⟩ ⟨[0], false⟩ = .error .divideByZero := by
  decide +kernel

/-- C06 as stated is false: `10^18 / 3` fails an assertion. -/
theorem C06_refuted : ¬∀ x y : BigInt, Canon x → Canon y → y.val ≠ 0 → ∃ r, opDiv x y = .ok r := by
  intro h
  obtain ⟨r, hr⟩ := h ⟨[0, 0, 1], false⟩ ⟨[3], false⟩ (by decide) (by decide) (by decide)
  have : opDiv ⟨[0, 0, 1], false⟩ ⟨[3], false⟩ = .error .assertion := by decide +kernel
  rw [this] at hr; cases hr

/-- C06, the part that holds: the exact set of operands for which division by a nonzero number returns. For canonical
operands it returns exactly when the pair of integers is not in `DivAborts`; otherwise an assertion fails. In particular
it returns whenever `|x| < 10^18` or `|x| < |y|`.
Missing: the pairs in `DivAborts` (see `C06_refuted`). -/
theorem C06_division_returns_partial {x y : BigInt} (hx : Canon x) (hy : Canon y) (h0 : y.val ≠ 0) :
    ((∃ r, opDiv x y = .ok r) ↔ ¬DivAborts x.val y.val) ∧
    (DivAborts x.val y.val → opDiv x y = .error .assertion) ∧
    (|x.val| < 1000000000000000000 ∨ |x.val| < |y.val| → ∃ r, opDiv x y = .ok r) := by
  rw [opDiv_eq]
  obtain ⟨_, d2, d3⟩ := divide_exact hx hy
  refine ⟨⟨?_, ?_⟩, d2 h0, ?_⟩
  · rintro ⟨r, hr⟩ ha
    rw [d2 h0 ha] at hr; cases hr
  · intro h; obtain ⟨r, hr, _⟩ := d3 h0 h; exact ⟨r, hr⟩
  · intro h
    have : ¬DivAborts x.val y.val := by
      rcases h with h | h
      · exact not_divAborts_small h
      · rintro ⟨h2, _⟩; omega
    obtain ⟨r, hr, _⟩ := d3 h0 this; exact ⟨r, hr⟩

example : Canon ⟨[999999999, 999999999], true⟩ ∧ Canon ⟨[7], false⟩ ∧
    |BigInt.val ⟨[999999999, 999999999], true⟩| < 1000000000000000000 := by decide
-- a dividend beyond 10^18 on which it does return
example : opDiv ⟨[3, 2, 1], false⟩ ⟨[0, 1], false⟩ = .ok ⟨[2, 1], false⟩ := by decide +kernel

/-- C07. `x % y` throws exactly for `y = 0`; whenever it returns, the result `r` satisfies `x = y*k + r` for an integer
`k`, and lies in `[0, y)` for positive and in `(y, 0]` for negative `y`; it is then `Int.fmod x y`. For canonical operands
the result is canonical. `x %= y` behaves identically. -/
theorem C07_modulo_floored {x y : BigInt} (hx : WF x) (hy : WF y) :
    (opMod x y = .error .divideByZero ↔ y.val = 0) ∧
    (∀ r, opMod x y = .ok r → WF r ∧ r.val = x.val.fmod y.val ∧ (∃ k, x.val = y.val * k + r.val) ∧
      ((0 < y.val ∧ 0 ≤ r.val ∧ r.val < y.val) ∨ (y.val < 0 ∧ y.val < r.val ∧ r.val ≤ 0))) ∧
    (Canon x → Canon y → ∀ r, opMod x y = .ok r → Canon r) ∧
    modAssign x y = opMod x y := by
  unfold opMod modAssign
  obtain ⟨d1, d2⟩ := modulo_wf hx hy
  refine ⟨⟨fun h => ?_, d1⟩, fun r hr => ?_, fun cx cy r hr => ?_, rfl⟩
  · by_contra h0
    rcases d2 h0 with ⟨a, ha, _⟩ | ha <;> rw [ha] at h <;> cases h
  · have h0 : y.val ≠ 0 := fun h0 => by rw [d1 h0] at hr; cases hr
    rcases d2 h0 with ⟨a, ha, a2, a3, _⟩ | ha
    · rw [ha] at hr; cases hr
      refine ⟨a2, a3, ⟨x.val.fdiv y.val, ?_⟩, ?_⟩
      · rw [a3]; have := Int.mul_fdiv_add_fmod x.val y.val; omega
      · rw [a3]
        rcases lt_or_gt_of_ne h0 with h | h
        · right
          have h1 := Int.fmod_nonneg_of_pos (-x.val) (b := -y.val) (by omega)
          have h2 := Int.fmod_lt_of_pos (-x.val) (b := -y.val) (by omega)
          rw [Int.neg_fmod_neg] at h1 h2
          omega
        · left
          exact ⟨h, Int.fmod_nonneg_of_pos _ h, Int.fmod_lt_of_pos _ h⟩
    · rw [ha] at hr; cases hr
  · have h0 : y.val ≠ 0 := fun h0 => by rw [d1 h0] at hr; cases hr
    obtain ⟨_, e2, e3⟩ := modulo_spec cx.clean cy.clean
    by_cases ht : DivTrips x y
    · rw [e2 h0 ht] at hr; cases hr
    · obtain ⟨a, ha, a2, _⟩ := e3 h0 ht
      rw [ha] at hr; cases hr; exact a2

example : opMod ⟨[7], true⟩ ⟨[3], false⟩ = .ok ⟨[2], false⟩ ∧ opMod ⟨[7], false⟩ ⟨[3], true⟩ = .ok ⟨[2], true⟩ ∧
    opMod ⟨[7], true⟩ ⟨[3], true⟩ = .ok ⟨[1], true⟩ ∧ opMod ⟨[0, 5], false⟩ ⟨[7], false⟩ = .ok ⟨[2], false⟩ := by
  decide +kernel

/-! ### C08, C09: exponentiation -/

/-- C08 as stated is false: `2 ^ 10^9` is computed as `2`, because `equals_int32(1)` holds for 10^9. -/
theorem C08_refuted : ∃ x y r : BigInt, Canon x ∧ Canon y ∧ 0 ≤ y.val ∧ opPow x y = .ok r ∧ r.val ≠ x.val ^ y.val.toNat := by
  refine ⟨⟨[1], true⟩, ⟨[0, 1], false⟩, ⟨[1], true⟩, by decide, by decide, by decide, rfl, ?_⟩
  have e1 : BigInt.val ⟨[1], true⟩ = -1 := rfl
  have e2 : BigInt.val ⟨[0, 1], false⟩ = 1000000000 := rfl
  rw [e1, e2]
  have : ((1000000000 : Int).toNat) = 2 * 500000000 := rfl
  rw [this, pow_mul]
  norm_num

/-- The same for every base: an exponent `10^9` gives back the base. -/
theorem C08_refuted_every_base (x : BigInt) : opPow x ⟨[0, 1], false⟩ = .ok x := rfl

set_option maxRecDepth 100000 in
/-- Another way in which C08 fails: for every base, the exponent `2^30` ends in an assertion. -/
theorem C08_refuted_abort (x : BigInt) : opPow x ⟨[73741824, 1], false⟩ = .error .assertion := rfl

/-- C08, the part that holds: `x ^ y` and `x ^= y` are the exact canonical power for every exponent that satisfies
`GoodExp`; all exponents below 10^9 do.
Missing: the other exponents (see `C08_refuted` and `C08_other_exponents_partial`). -/
theorem C08_power_exact_partial {x y : BigInt} (hx : Canon x) (hy : Canon y) (h0 : 0 ≤ y.val) :
    (GoodExp y.val → ∃ r, opPow x y = .ok r ∧ powAssign x y = .ok r ∧ Canon r ∧ r.val = x.val ^ y.val.toNat) ∧
    (y.val < 1000000000 → GoodExp y.val) :=
  ⟨fun h => by
    obtain ⟨r, r1, r2, r3⟩ := exponentiate_ok hx hy h0 h
    exact ⟨r, r1, r1, r2, r3⟩, fun h => GoodExp.of_lt h0 h⟩

example := C08_power_exact_partial (x := ⟨[0, 3], true⟩) (y := ⟨[7], false⟩) (by decide) (by decide) (by decide)

/-- C08, what happens for all other exponents: with every base the program aborts, or with every base the result is the
power with the same smaller positive exponent. So for a base other than 0, 1 and -1 the power is right exactly for the
exponents that satisfy `GoodExp`.
Missing: the claimed value for these exponents. -/
theorem C08_other_exponents_partial {y : BigInt} (hy : Canon y) (h0 : 0 ≤ y.val) :
    (¬GoodExp y.val → (∀ x, Canon x → opPow x y = .error .assertion) ∨
      ∃ n : Nat, 1 ≤ n ∧ (n : Int) < y.val ∧ ∀ x, Canon x → ∃ r, opPow x y = .ok r ∧ Canon r ∧ r.val = x.val ^ n) ∧
    (∀ x, Canon x → 2 ≤ |x.val| → ((∃ r, opPow x y = .ok r ∧ r.val = x.val ^ y.val.toNat) ↔ GoodExp y.val)) := by
  obtain ⟨s1, s2⟩ := exponentiate_spec hy h0
  have s2' : ¬GoodExp y.val → (∀ x, Canon x → opPow x y = .error .assertion) ∨
      ∃ n : Nat, 1 ≤ n ∧ (n : Int) < y.val ∧ ∀ x, Canon x → ∃ r, opPow x y = .ok r ∧ Canon r ∧ r.val = x.val ^ n := by
    intro h
    rcases s2 h with e | ⟨n, n1, n2, e⟩
    · exact .inl fun x hx => e x hx.1
    · refine .inr ⟨n, n1, by omega, fun x hx => ?_⟩
      obtain ⟨r, r1, _, r2, r3⟩ := e x hx.1
      exact ⟨r, r1, r2 hx, r3⟩
  refine ⟨s2', fun x hx h2 => ⟨fun ⟨r, r1, r2⟩ => ?_, fun h => ?_⟩⟩
  · by_contra hg
    rcases s2' hg with e | ⟨n, n1, n2, e⟩
    · rw [e x hx] at r1; cases r1
    · obtain ⟨r', k1, _, k5⟩ := e x hx
      rw [r1] at k1
      cases k1
      rw [r2] at k5
      have h3 := congrArg (fun z : Int => |z|) k5
      rw [abs_pow, abs_pow] at h3
      have := (pow_lt_pow_iff_right₀ (show (1 : Int) < |x.val| by omega)).mpr (show n < y.val.toNat by omega)
      omega
  · obtain ⟨r, r1, _, _, r4⟩ := s1 h x hx.1
    exact ⟨r, r1, r4⟩

/-- An exponent above 2^64 that is handled, though it comes by 10^9: there it has a leading zero bin. -/
example : Canon ⟨[0, 73741824, 1], false⟩ ∧ opPow ⟨[1], true⟩ ⟨[0, 73741824, 1], false⟩ = .ok ⟨[1], false⟩ := by
  decide +kernel

example : ¬GoodExp (BigInt.val ⟨[1, 2], false⟩) ∧ opPow ⟨[2], false⟩ ⟨[1, 2], false⟩ = .ok ⟨[8], false⟩ :=
  ⟨fun h => h.2 0 (by decide +kernel) (.inr ⟨1, 1, by norm_num, by norm_num, by decide +kernel⟩), by decide +kernel⟩

example : Canon ⟨[10], true⟩ ∧ Canon ⟨[21], false⟩ ∧ opPow ⟨[10], true⟩ ⟨[21], false⟩ = .ok ⟨[0, 0, 1000], true⟩ := by
  decide +kernel

/-- C09 as stated is false: `2 ^ -1` is 8. It is neither an exception nor the truncated reciprocal (0). -/
theorem C09_refuted : opPow ⟨[2], false⟩ ⟨[1], true⟩ = .ok ⟨[8], false⟩ := by decide +kernel

/-- C09: what a negative exponent does. The result is the power with the positive exponent, or that exponent plus two if it
is odd; the exponent -1 gives the cube. This holds for all exponents that satisfy `GoodNegExp` after the magnitude is made
even, in particular for all above -10^9; for the others the program aborts with every base or uses a smaller exponent.
Only for the bases 1 and -1 the result is the reciprocal power.
Missing: the claimed meaning of negative exponents (see `C09_refuted`). -/
theorem C09_negative_exponent_partial {y : BigInt} (hy : Canon y) (h0 : y.val < 0) :
    (GoodNegExp (-y.val + -y.val % 2) → ∀ x, Canon x → ∃ r, opPow x y = .ok r ∧ Canon r ∧
      r.val = x.val ^ ((-y.val).toNat + if (-y.val) % 2 = 1 then 2 else 0) ∧
      (|x.val| = 1 → r.val * x.val ^ (-y.val).toNat = 1)) ∧
    (¬GoodNegExp (-y.val + -y.val % 2) → (∀ x, Canon x → opPow x y = .error .assertion) ∨
      ∃ n : Nat, 1 ≤ n ∧ (n : Int) < -y.val + 2 * (-y.val % 2) ∧ ∀ x, Canon x → ∃ r, opPow x y = .ok r ∧ Canon r ∧ r.val = x.val ^ n) ∧
    (-1000000000 < y.val → GoodNegExp (-y.val + -y.val % 2)) := by
  obtain ⟨g, b⟩ := exponentiate_neg hy h0 rfl rfl
  refine ⟨fun hg x hx => ?_, fun hg => ?_, fun h1 => ⟨?_, fun j _ => ?_⟩⟩
  · obtain ⟨r, r1, _, r2, r3⟩ := g hg x hx.1
    have r3 : r.val = x.val ^ ((-y.val).toNat + if (-y.val) % 2 = 1 then 2 else 0) := by
      rw [r3]; congr 1; split <;> omega
    refine ⟨r, r1, r2 hx, r3, fun h => ?_⟩
    rw [r3, ← pow_add]
    generalize hk : (-y.val).toNat + (if (-y.val) % 2 = 1 then 2 else 0) + (-y.val).toNat = k
    have he : Even k := by
      rw [← hk]; split
      · exact ⟨(-y.val).toNat + 1, by omega⟩
      · exact ⟨(-y.val).toNat, by omega⟩
    rcases (abs_eq (by norm_num)).mp h with h | h <;> rw [h]
    · exact one_pow k
    · exact he.neg_one_pow
  · rcases b hg with e | ⟨n, n1, n2, e⟩
    · exact .inl fun x hx => e x hx.1
    · refine .inr ⟨n, n1, by omega, fun x hx => ?_⟩
      obtain ⟨r, r1, _, r2, r3⟩ := e x hx.1
      exact ⟨r, r1, r2 hx, r3⟩
  · by_cases h2 : -y.val + -y.val % 2 = 1000000000
    · exact .inr ⟨1, le_refl _, by rw [h2]; norm_num⟩
    · exact .inl (not_badStart_of_lt (by omega))
  · have : (-y.val + -y.val % 2) / 2 ^ j ≤ -y.val + -y.val % 2 := Int.ediv_le_self _ (by omega)
    exact not_badStart_of_lt (by omega)

example : ¬GoodNegExp (-BigInt.val ⟨[0, 2], true⟩ + -BigInt.val ⟨[0, 2], true⟩ % 2) ∧
    opPow ⟨[2], false⟩ ⟨[0, 2], true⟩ = .ok ⟨[4], false⟩ :=
  ⟨fun h => by
    rcases h.1 with h | ⟨k, hk, h⟩
    · exact h (.inr ⟨1, 1, by norm_num, by norm_num, by decide +kernel⟩)
    · exact two_ten_ne k (by rw [← h]; decide +kernel), by decide +kernel⟩

example : Canon ⟨[1], true⟩ ∧ Canon ⟨[3], true⟩ ∧ opPow ⟨[1], true⟩ ⟨[3], true⟩ = .ok ⟨[1], true⟩ := by decide +kernel

/-! ### C10, C11: comparison, negation, absolute value -/

/-- C10. All comparison operators agree with the order of the integers, for every well-formed object. -/
theorem C10_comparisons {x y : BigInt} (hx : WF x) (hy : WF y) :
    lt x y = .ok (decide (x.val < y.val)) ∧ gt x y = .ok (decide (x.val > y.val)) ∧
    le x y = .ok (decide (x.val ≤ y.val)) ∧ ge x y = .ok (decide (x.val ≥ y.val)) ∧
    eq x y = .ok (decide (x.val = y.val)) ∧ ne x y = .ok (decide (x.val ≠ y.val)) ∧
    ∃ c, cmp x y = .ok c ∧ (c < 0 ↔ x.val < y.val) ∧ (c = 0 ↔ x.val = y.val) ∧ (c > 0 ↔ x.val > y.val) :=
  ⟨lt_spec hx hy, gt_spec hx hy, le_spec hx hy, ge_spec hx hy, eq_spec hx hy, ne_spec hx hy,
    _, cmp_spec hx hy, by unfold cmpInts; split <;> (try split) <;> omega,
    by unfold cmpInts; split <;> (try split) <;> omega, by unfold cmpInts; split <;> (try split) <;> omega⟩

-- leading zero bins and a negative zero
example : WF ⟨[7, 1, 0, 0], true⟩ ∧ WF ⟨[7, 1], true⟩ ∧ eq ⟨[7, 1, 0, 0], true⟩ ⟨[7, 1], true⟩ = .ok true ∧
    eq ⟨[0, 0], true⟩ ⟨[0], false⟩ = .ok true ∧ lt ⟨[8, 1], true⟩ ⟨[7, 1, 0, 0], true⟩ = .ok true := by decide

/-- C11. `-x` and `negate()` have the negated value, never give a negative zero, are canonical for canonical `x`, and
undo each other; `abs(x)` is the absolute value, in the canonical form. -/
theorem C11_negation_abs {x : BigInt} (hx : WF x) :
    (∃ r, x.neg = .ok r ∧ x.negate = .ok r ∧ WF r ∧ r.val = -x.val ∧ (r.val = 0 → r.negative = false) ∧
      (Canon x → Canon r ∧ r.neg = .ok x)) ∧
    (∃ r, x.abs = .ok r ∧ WF r ∧ r.val = |x.val| ∧ (Canon x → Canon r)) := by
  constructor
  · obtain ⟨r, r1, r2, r3, r4, r5, _⟩ := neg_ok hx
    refine ⟨r, r1, r1, r2, r4, ?_, fun hc => ?_⟩
    · intro h
      by_contra hn
      rw [val_eq_zero_iff] at h
      exact r5 (by simpa using hn) h
    · have hr : Canon r := ⟨r2, r3 ▸ hc.2.1, r5⟩
      obtain ⟨s, s1, s2, _, s4, _⟩ := neg_canon hr.clean
      exact ⟨hr, by rw [s1, Canon.eq_of_val_eq s2 hc (by rw [s4, r4, neg_neg])]⟩
  · obtain ⟨r, r1, r2, r3, r4⟩ := abs_ok hx
    refine ⟨r, r1, r2, by rw [r4, abs_val hx], fun hc => ⟨r2, r3 ▸ hc.2.1, ?_⟩⟩
    intro hn
    unfold BigInt.abs at r1
    rw [ofInt64_zero, bind_ok, lt_spec hx WF_zero, bind_ok] at r1
    split at r1
    · obtain ⟨r', q1, _, _, _, q5, _⟩ := neg_ok hx
      rw [q1] at r1; cases r1; exact q5 hn
    · cases r1; exact hc.2.2 hn

example : Canon ⟨[0, 1], true⟩ ∧ BigInt.neg ⟨[0, 1], true⟩ = .ok ⟨[0, 1], false⟩ ∧ BigInt.abs ⟨[0, 1], true⟩ = .ok ⟨[0, 1], false⟩ ∧
    BigInt.neg ⟨[0], false⟩ = .ok ⟨[0], false⟩ := by decide

/-! ### C16, C17, C18: machine integers, powers of ten -/

/-- C16. `Int(k, s)` is canonical with value `k * 10^(9 s)` for every 64-bit `k` except INT64_MIN. -/
theorem C16_from_machine_integer {k : Int} (s : Nat) (h1 : -9223372036854775807 ≤ k) (h2 : k ≤ 9223372036854775807) :
    ∃ r, ofInt64 k s = .ok r ∧ Canon r ∧ r.val = k * 10 ^ (9 * s) := by
  obtain ⟨r, r1, r2, r3, _⟩ := ofInt64_ok s h1 h2
  refine ⟨r, r1, r2, ?_⟩
  rw [r3, pow_mul]; norm_num

example : ofInt64 (-9223372036854775807) 1 = .ok ⟨[0, 854775807, 223372036, 9], true⟩ := by decide

/-- C16. `Int(INT64_MIN)` negates INT64_MIN: undefined behaviour. -/
theorem C16_int64_min (s : Nat) : ofInt64 (-9223372036854775808) s = .error .ub := rfl

/-- C17 as stated is false for `set_value`: `set_value(1000000000)` stores an invalid bin. -/
theorem C17_refuted_set_value : ∃ r, setValue 1000000000 = .ok r ∧ ¬WF r := ⟨⟨[1000000000], false⟩, rfl, by decide⟩

/-- The invalid object compares different from the Int of the same value. -/
theorem C17_refuted_set_value_observable : ∃ r s, setValue 1000000000 = .ok r ∧ ofInt64 1000000000 = .ok s ∧
    eq r s = .ok false := ⟨⟨[1000000000], false⟩, ⟨[0, 1], false⟩, rfl, rfl, by decide⟩

/-- C17 as stated is false for `equals_int32`: it says that 10^9 equals 1. -/
theorem C17_refuted_equals : ∃ a : BigInt, Canon a ∧ a.val = 1000000000 ∧ a.equalsInt32 1 = .ok true ∧
    a.equalsInt32 1000000000 = .ok false := ⟨⟨[0, 1], false⟩, by decide, by decide, by decide, by decide⟩

/-- C17, the part that holds: below 10^9 in magnitude `set_value` is right; `equals_int32` is right for single-bin numbers
and for the argument 0. INT_MIN is undefined behaviour for both.
Missing: numbers and arguments of magnitude 10^9 or more (see the refutations). -/
theorem C17_set_equals_partial :
    (∀ v : Int, |v| < 1000000000 → ∃ r, setValue v = .ok r ∧ Canon r ∧ r.val = v) ∧
    (∀ (a : BigInt) (v : Int), Canon a → |a.val| < 1000000000 → -2147483647 ≤ v → v ≤ 2147483647 →
      a.equalsInt32 v = .ok (decide (a.val = v))) ∧
    (∀ a : BigInt, WF a → a.equalsInt32 0 = .ok (decide (a.val = 0))) ∧
    setValue (-2147483648) = .error .ub ∧ (∀ a : BigInt, a.equalsInt32 (-2147483648) = .error .ub) := by
  refine ⟨fun v hv => ?_, fun a v ha hb h1 h2 => ?_, fun a ha => ?_, rfl, fun a => rfl⟩
  · rw [abs_lt] at hv
    rcases lt_or_ge v 0 with h | h
    · refine ⟨⟨[-v], true⟩, ?_, ?_, ?_⟩
      · simp only [setValue, h, if_true, i32_ok (z := -v) (by omega) (by omega), bind_ok, decide_true, pure_ok]
      · refine ⟨⟨by simp, ?_⟩, .inl (by simp), fun _ => ?_⟩
        · intro b hb; simp only [List.mem_singleton] at hb; omega
        · simp only [mag]; omega
      · simp [val, mag]
    · refine ⟨⟨[v], false⟩, ?_, ?_, ?_⟩
      · simp only [setValue, not_lt.mpr h, if_false, i32_ok (z := v) (by omega) (by omega), bind_ok, decide_false, pure_ok]
      · refine ⟨⟨by simp, ?_⟩, .inl (by simp), by simp⟩
        intro b hb; simp only [List.mem_singleton] at hb; omega
      · simp [val, mag]
  · obtain ⟨r, r1, r2⟩ := equalsInt32_spec ha.1 h1 h2
    rw [r1]
    congr 1
    rw [Bool.eq_iff_iff, r2, decide_eq_true_iff]
    rw [abs_val ha.1] at hb
    have hl := noLead_length_le ha.1.2 ha.2.1 (k := 1) (le_refl _) (by simpa using hb)
    have hp := ha.1.pos_length
    obtain ⟨b, hb'⟩ := List.length_eq_one_iff.mp (show a.bins.length = 1 by omega)
    have hneg := ha.neg_iff
    have hb0 := mag_nonneg ha.1.2
    have hab := abs_val ha.1
    rw [hb'] at hb0 hab ⊢
    simp only [mag, mul_zero, add_zero, List.length_singleton, List.getLast?_singleton] at hb0 hab ⊢
    rw [Nat.sub_self, pow_zero, mul_one, Option.some.injEq, and_self_left]
    constructor
    · rintro ⟨e, h | h⟩
      · rw [← hab] at e
        have hs : a.val < 0 ↔ v < 0 := by rw [← hneg, h, decide_eq_true_iff]
        rcases abs_eq_abs.mp e with e | e <;> omega
      · rw [h, abs_zero] at e
        rw [e] at hab
        rw [h]; exact abs_eq_zero.mp hab
    · intro h
      refine ⟨by rw [← h, hab], .inl ?_⟩
      rw [Bool.eq_iff_iff, hneg, h, decide_eq_true_iff]
  · rw [equalsInt32_zero ha]; simp only [val_eq_zero_iff]

example : Canon ⟨[5], true⟩ ∧ |BigInt.val ⟨[5], true⟩| < 1000000000 ∧ BigInt.equalsInt32 ⟨[5], true⟩ (-5) = .ok true ∧
    BigInt.equalsInt32 ⟨[5], true⟩ 5 = .ok false := by decide

/-- C18 as stated is false: `times_power_ten(-1)` of `5 * 10^18` fails an assertion. -/
theorem C18_refuted : ∃ a : BigInt, Canon a ∧ timesPowerTen a (-1) = .error .assertion :=
  ⟨⟨[0, 0, 5], false⟩, by decide, by decide +kernel⟩

/-- C18, the part that holds: for `p >= 0` the value is multiplied by `10^p`; for `p < 0`, whenever it returns, it is
divided by `10^-p` and truncated, and it does return for numbers below 10^18. The result is canonical unless the number
is zero and `p >= 9`.
Missing: `p < 0` and larger numbers, where an assertion may fail (see `C18_refuted`, and `C18_returns_iff_partial` for when). -/
theorem C18_times_power_ten_partial {a : BigInt} (ha : Canon a) {p : Int} (h1 : -2147483647 ≤ p) :
    (0 ≤ p → ∃ r, timesPowerTen a p = .ok r ∧ WF r ∧ r.val = a.val * 10 ^ p.toNat ∧ (a.val ≠ 0 ∨ p < 9 → Canon r)) ∧
    (p < 0 → ∀ r, timesPowerTen a p = .ok r → Canon r ∧ r.val = a.val.tdiv (10 ^ (-p).toNat)) ∧
    (p < 0 → |a.val| < 1000000000000000000 → ∃ r, timesPowerTen a p = .ok r) := by
  refine ⟨fun h => ?_, fun h r hr => ?_, fun h hs => ?_⟩
  · rcases h.eq_or_lt with h | h
    · subst h; exact ⟨a, rfl, ha.1, by simp, fun _ => ha⟩
    · exact timesPowerTen_pos ha h
  · rcases (timesPowerTen_neg ha h h1).1 with ⟨s, s1, s2, s3⟩ | he
    · rw [s1] at hr; cases hr; exact ⟨s2, s3⟩
    · rw [he] at hr; cases hr
  · rw [abs_val ha.1] at hs
    have := noLead_length_le ha.1.2 ha.2.1 (k := 2) (by norm_num) (by simpa using hs)
    obtain ⟨r, r1, _⟩ := (timesPowerTen_neg ha h h1).2 this
    exact ⟨r, r1⟩

example : Canon ⟨[123456789, 7], true⟩ ∧ timesPowerTen ⟨[123456789, 7], true⟩ 10 = .ok ⟨[0, 234567890, 71], true⟩ ∧
    timesPowerTen ⟨[123456789, 7], true⟩ (-3) = .ok ⟨[7123456], true⟩ := by decide +kernel

/-- C18: exactly when a negative power aborts. It never does if the power is a multiple of nine. `INT_MIN` cannot be negated. -/
theorem C18_returns_iff_partial {a : BigInt} (ha : Canon a) {p : Int} (h : p < 0) :
    (-2147483647 ≤ p → ((∃ r, timesPowerTen a p = .ok r) ↔ ¬TenAborts a.val p) ∧ (TenAborts a.val p → timesPowerTen a p = .error .assertion)) ∧
    (-2147483647 ≤ p → p % 9 = 0 → ∃ r, timesPowerTen a p = .ok r) ∧
    timesPowerTen a (-2147483648) = .error .ub := by
  refine ⟨fun h1 => ?_, fun h1 h9 => ?_, rfl⟩
  · obtain ⟨k1, k2⟩ := timesPowerTen_exact ha h h1
    refine ⟨⟨?_, fun hn => ?_⟩, k1⟩
    · rintro ⟨r, hr⟩ ht
      rw [k1 ht] at hr
      cases hr
    · obtain ⟨r, hr, _⟩ := k2 hn
      exact ⟨r, hr⟩
  · obtain ⟨r, hr, _⟩ := (timesPowerTen_exact ha h h1).2 (by rintro ⟨i, hi, _⟩; omega)
    exact ⟨r, hr⟩

-- the first division returns, the second one aborts: the number left by the first one has a zero digit in the middle
example : let a : BigInt := ⟨[5, 1, 10], false⟩
    Canon a ∧ timesPowerTen a (-1) = .ok ⟨[100000000, 0, 1], false⟩ ∧ timesPowerTen a (-2) = .error .assertion ∧
    timesPowerTen a (-9) = .ok ⟨[1, 10], false⟩ := by decide +kernel

/-! ### C19: no undefined behaviour -/

/-- The call returns a well-formed object, throws `divide_by_zero_error`, or fails an assertion; no machine integer
overflows, no deque is indexed out of range, no loop runs forever. -/
def Tame (r : Res BigInt) : Prop :=
  (∃ a, r = .ok a ∧ WF a) ∨ r = .error .divideByZero ∨ r = .error .assertion

/-- C19. All arithmetic operators on well-formed objects are tame. -/
theorem C19_no_undefined_behaviour {x y : BigInt} (hx : WF x) (hy : WF y) :
    Tame (opAdd x y) ∧ Tame (opSub x y) ∧ Tame (opMul x y) ∧ Tame (opDiv x y) ∧ Tame (opMod x y) ∧ Tame (opPow x y) ∧
    Tame (addAssign x y) ∧ Tame (subAssign x y) ∧ Tame (mulAssign x y) ∧ Tame (divAssign x y) ∧ Tame (modAssign x y) ∧
    Tame (powAssign x y) ∧ Tame x.neg ∧ Tame x.negate ∧ Tame x.abs ∧
    (∃ c, cmp x y = .ok c) ∧ (∃ b, isOdd x = .ok b) ∧
    (∀ v : Int, -2147483647 ≤ v → v ≤ 2147483647 → ∃ b, equalsInt32 x v = .ok b) ∧
    (∀ p : Int, -2147483647 ≤ p → Tame (timesPowerTen x p)) ∧
    (∀ (k : Int) (r : BigInt), 0 ≤ k → k ≤ 2147483647 → Tame (divideByInt x k r)) := by
  have good : ∀ {r : Res BigInt} {v : Int}, Good r v → Tame r := by
    rintro r v (⟨a, h1, h2, _⟩ | h)
    · exact .inl ⟨a, h1, h2⟩
    · exact .inr (.inr h)
  have refi : ∀ {r : Res BigInt} {z : Option Int}, Refines r z → Tame r := by
    rintro r z (h | h)
    · exact .inr (.inr h)
    · cases z with
      | none => exact .inr (.inl h)
      | some z => obtain ⟨a, h1, h2, _⟩ := h; exact .inl ⟨a, h1, h2⟩
  have expo : Tame (exponentiate x y) := by
    rcases exponentiate_wf hx hy with h | h
    · exact .inl h
    · exact .inr (.inr h)
  refine ⟨good (opAdd_wf hx hy), good (opSub_wf hx hy), refi (IOp.mul.run_refines hx hy), refi (IOp.div.run_refines hx hy),
    refi (IOp.mod.run_refines hx hy), expo, good (addAssign_wf hx hy), good (subAssign_wf hx hy),
    refi (IOp.mul.asgVal_refines hx hy), refi (IOp.div.asgVal_refines hx hy), refi (IOp.mod.asgVal_refines hx hy), expo,
    ?_, ?_, ?_, ⟨_, cmp_spec hx hy⟩, ⟨_, isOdd_spec hx⟩, ?_, ?_, ?_⟩
  · obtain ⟨r, r1, r2, _⟩ := neg_ok hx; exact .inl ⟨r, r1, r2⟩
  · obtain ⟨r, r1, r2, _⟩ := negate_ok hx; exact .inl ⟨r, r1, r2⟩
  · obtain ⟨r, r1, r2, _⟩ := abs_ok hx; exact .inl ⟨r, r1, r2⟩
  · intro v h1 h2
    obtain ⟨r, r1, _⟩ := equalsInt32_spec hx h1 h2
    exact ⟨r, r1⟩
  · intro p hp
    rcases timesPowerTen_wf hx hp with ⟨r, r1, r2, _⟩ | h
    · exact .inl ⟨r, r1, r2⟩
    · exact .inr (.inr h)
  · intro k r h0 h1
    rcases h0.eq_or_lt with h | h
    · subst h; exact .inr (.inl rfl)
    · obtain ⟨s, s1, s2, _⟩ := divideByInt_ok (res := r) hx h h1
      exact .inl ⟨s, s1, s2⟩

-- objects that are well formed but not canonical, with all three outcomes
example : WF ⟨[0, 0], true⟩ ∧ WF ⟨[5, 0], true⟩ ∧ opSub ⟨[6], false⟩ ⟨[5, 0], false⟩ = .error .assertion ∧
    opDiv ⟨[5, 0], true⟩ ⟨[0, 0], true⟩ = .error .divideByZero ∧ opAdd ⟨[5, 0], true⟩ ⟨[6], true⟩ = .ok ⟨[11, 0], true⟩ := by
  decide +kernel

/-! ### C20, C21: aliasing, binary and compound forms -/

/-- C20. `x op= x` does what `x op= y` does for a separate copy `y` of `x`, in memory: same outcome, same variable
changed to the same object, and no other variable touched. -/
theorem C20_aliasing_safe {m : Mem} {d c : Nat} (h : m c = m d) :
    addAssignMem m d d = addAssignMem m d c ∧ subAssignMem m d d = subAssignMem m d c ∧
    mulAssignMem m d d = mulAssignMem m d c ∧ divAssignMem m d d = divAssignMem m d c ∧
    modAssignMem m d d = modAssignMem m d c ∧ powAssignMem m d d = powAssignMem m d c := by
  simp only [addAssignMem_eq, subAssignMem_eq, mulAssignMem_eq, divAssignMem_eq, modAssignMem_eq, powAssignMem_eq, h,
    and_self]

/-- Objects 1 and 2 have equal values. -/
example := C20_aliasing_safe (m := fun i => ⟨[5, i / 3], true⟩) (d := 1) (c := 2) rfl

/-- C20, on values: for canonical `x`, `x += x` doubles, `x -= x` clears, `x *= x` squares, `x /= x` gives 1 and
`x %= x` gives 0 (when they return), leaving the other variables alone. -/
theorem C20_aliasing_values {m m' : Mem} {d : Nat} (h : Canon (m d)) :
    (addAssignMem m d d = .ok m' → (m' d).val = 2 * (m d).val ∧ ∀ i, i ≠ d → m' i = m i) ∧
    (subAssignMem m d d = .ok m' → (m' d).val = 0 ∧ ∀ i, i ≠ d → m' i = m i) ∧
    (mulAssignMem m d d = .ok m' → (m' d).val = (m d).val ^ 2 ∧ ∀ i, i ≠ d → m' i = m i) ∧
    (divAssignMem m d d = .ok m' → (m' d).val = 1 ∧ ∀ i, i ≠ d → m' i = m i) ∧
    (modAssignMem m d d = .ok m' → (m' d).val = 0 ∧ ∀ i, i ≠ d → m' i = m i) := by
  have key : ∀ {r : Res BigInt} {z : Int}, (∀ a, r = .ok a → a.val = z) → (do let v ← r; return m.set d v) = .ok m' →
      (m' d).val = z ∧ ∀ i, i ≠ d → m' i = m i := by
    intro r z hr he
    cases hc : r with
    | error e => rw [hc] at he; cases he
    | ok a =>
      rw [hc] at he
      simp only [bind_ok, pure_ok, Except.ok.injEq] at he
      subst he
      exact ⟨by rw [Mem.set_same]; exact hr a hc, fun i hi => Mem.set_other m a hi⟩
  simp only [addAssignMem_eq, subAssignMem_eq, mulAssignMem_eq, divAssignMem_eq, modAssignMem_eq]
  refine ⟨key fun a ha => ?_, key fun a ha => ?_, key fun a ha => ?_, key fun a ha => ?_, key fun a ha => ?_⟩
  · obtain ⟨r, r1, _, r3⟩ := addAssign_ok h.clean h.clean
    rw [r1] at ha; cases ha; omega
  · obtain ⟨r, r1, _, r3⟩ := subAssign_ok h.clean h.clean
    rw [r1] at ha; cases ha; omega
  · obtain ⟨r, r1, _, r3, _⟩ := mulAssign_ok h.1 h.1
    rw [r1] at ha; cases ha; rw [r3, sq]
  · have := C05_division_truncates h.1 h.1
    rw [this.2.2] at ha
    rw [(this.2.1 a ha).2]
    exact Int.tdiv_self (fun h0 => by rw [this.1.mpr h0] at ha; cases ha)
  · have := C07_modulo_floored h.1 h.1
    rw [this.2.2.2] at ha
    rw [(this.2.1 a ha).2.1, Int.fmod_self]

-- a negative number added to itself, a number divided by itself
example : Canon ⟨[999999999], true⟩ ∧
    (addAssignMem (fun _ => ⟨[999999999], true⟩) 3 3).map (fun m => (m 3, m 4)) = .ok (⟨[999999998, 1], true⟩, ⟨[999999999], true⟩) ∧
    (divAssignMem (fun _ => ⟨[999999999], true⟩) 3 3).map (fun m => m 3) = .ok ⟨[1], false⟩ := by decide +kernel

/-- Two calls end in the same way: same failure, or both return and the results compare equal with `==`. -/
def SameOutcome (r s : Res BigInt) : Prop :=
  match r, s with
  | .ok a, .ok b => eq a b = .ok true
  | .error e, .error f => e = f
  | _, _ => False

/-- C21. For canonical operands `x op y` and `x op= y` have the same outcome. -/
theorem C21_binary_compound_agree {x y : BigInt} (hx : Canon x) (hy : Canon y) :
    SameOutcome (opAdd x y) (addAssign x y) ∧ SameOutcome (opSub x y) (subAssign x y) ∧
    SameOutcome (opMul x y) (mulAssign x y) ∧ SameOutcome (opDiv x y) (divAssign x y) ∧
    SameOutcome (opMod x y) (modAssign x y) ∧ SameOutcome (opPow x y) (powAssign x y) := by
  have same : ∀ {r : Res BigInt}, (∀ a, r = .ok a → WF a) → SameOutcome r r := by
    intro r hr
    cases hc : r with
    | error e => rfl
    | ok a => have := hr a hc; show eq a a = .ok true; rw [eq_spec this this]; simp
  refine ⟨?_, ?_, ?_, ?_, same ?_, same ?_⟩
  · obtain ⟨r, r1, r2, r3⟩ := opAdd_ok hx.clean hy.clean
    obtain ⟨s, s1, s2, s3⟩ := addAssign_ok hx.clean hy.clean
    rw [r1, s1]; show eq r s = .ok true; rw [eq_spec r2.1 s2.1, r3, s3]; simp
  · obtain ⟨r, r1, r2, r3⟩ := opSub_ok hx.clean hy.clean
    obtain ⟨s, s1, s2, s3⟩ := subAssign_ok hx.clean hy.clean
    rw [r1, s1]; show eq r s = .ok true; rw [eq_spec r2.1 s2.1, r3, s3]; simp
  · obtain ⟨r, r1, r2, r3⟩ := opMul_ok hx.clean hy.clean
    obtain ⟨s, s1, s2, s3, _⟩ := mulAssign_ok hx.1 hy.1
    rw [r1, s1]; show eq r s = .ok true; rw [eq_spec r2.1 s2, r3, s3]; simp
  · rw [(C05_division_truncates hx.1 hy.1).2.2]
    exact same fun a ha => ((C05_division_truncates hx.1 hy.1).2.1 a ha).1.1
  · exact fun a ha => ((C07_modulo_floored hx.1 hy.1).2.1 a ha).1
  · intro a ha
    rcases exponentiate_wf hx.1 hy.1 with ⟨b, hb, hw⟩ | hb
    · rw [show opPow x y = exponentiate x y from rfl, hb] at ha; cases ha; exact hw
    · rw [show opPow x y = exponentiate x y from rfl, hb] at ha; cases ha

example : Canon ⟨[0], false⟩ ∧ Canon ⟨[5], true⟩ ∧ opMul ⟨[0], false⟩ ⟨[5], true⟩ = .ok ⟨[0], false⟩ ∧
    mulAssign ⟨[0], false⟩ ⟨[5], true⟩ = .ok ⟨[0], true⟩ ∧ eq ⟨[0], false⟩ ⟨[0], true⟩ = .ok true := by decide

/-! ### C22: histories -/

/-- C22. Every run of every legal program, from every well-formed memory, ends with well-formed variables whose values
are those of the same program over the integers, or is ended by a failed assertion (or is still running after `f` steps,
and then so is the program over the integers). Nothing else can happen: no undefined behaviour, no uncaught exception. -/
theorem C22_histories_refine (f : Nat) {p : IProg} (hp : p.Legal) {m : Mem} (hm : m.WF) :
    (∃ m', p.exec f m = .ok m' ∧ m'.WF ∧ p.sem f m.vals = some m'.vals) ∨
    (p.exec f m = .error .diverge ∧ p.sem f m.vals = none) ∨
    p.exec f m = .error .assertion := IProg.exec_refines f hp hm

/-- C22, exactly: for programs that use neither `*=` nor `times_power_ten`, started from canonical variables, the run
ends in an assertion exactly when the program over the integers reaches a division in `DivAborts`, and otherwise the
variables are canonical with the values of the program over the integers. -/
theorem C22_histories_exact (f : Nat) {p : IProg} (hl : p.Legal) (hp : p.Plain) {m : Mem} (hm : m.Canon) :
    match p.semA f m.vals with
    | .done v => ∃ m', p.exec f m = .ok m' ∧ m'.Canon ∧ m'.vals = v
    | .abort => p.exec f m = .error .assertion
    | .timeout => p.exec f m = .error .diverge := by
  have h := IProg.exec_exact f hl hp hm
  revert h
  cases p.exec f m with
  | ok m' =>
    cases p.semA f m.vals with
    | done v => exact fun h => ⟨m', rfl, h⟩
    | abort => exact fun h => absurd h id
    | timeout => exact fun h => absurd h id
  | error e =>
    cases p.semA f m.vals with
    | done v => cases e <;> exact fun h => absurd h id
    | abort => cases e <;> first | exact fun _ => rfl | exact fun h => absurd h id
    | timeout => cases e <;> first | exact fun _ => rfl | exact fun h => absurd h id

/-- A factorial program: `v1 = 1; v2 = 1; while (v2 <= v0) { v1 = v1 * v2; v2 += v3; }` with `v3 = 1`. -/
def factProg : IProg :=
  .seq (.stmt (.lit 1 1)) (.seq (.stmt (.lit 2 1)) (.seq (.stmt (.lit 3 1))
    (.while .le 2 0 (.seq (.stmt (.bin .mul 1 1 2)) (.stmt (.asg .add 2 3))))))

example : factProg.Legal ∧ factProg.Plain := by
  simp [factProg, IProg.Legal, IProg.Plain, IStmt.Legal, IStmt.Plain]
example : (factProg.exec 40 (fun _ => ⟨[20], false⟩)).map (fun m => m 1) = .ok ⟨[176640000, 432902008, 2], false⟩ := by
  decide +kernel
-- a caught division by zero leaves the variables unchanged; x -= x on aliased operands
example : ((IProg.seq (.stmt (.asg .sub 0 0)) (.stmt (.asg .div 1 0))).exec 5 (fun _ => ⟨[20], true⟩)).map
    (fun m => (m 0, m 1)) = .ok (⟨[0], false⟩, ⟨[20], true⟩) := by decide +kernel

/-! ### C23: ring laws -/

/-- C23. The ring laws, observed through `==`. -/
theorem C23_ring_laws {x y z : BigInt} (hx : Canon x) (hy : Canon y) (hz : Canon z) :
    (do let a ← opAdd x y; let b ← opAdd y x; eq a b) = .ok true ∧
    (do let a ← opMul x y; let b ← opMul y x; eq a b) = .ok true ∧
    (do let a ← opAdd (← opAdd x y) z; let b ← opAdd x (← opAdd y z); eq a b) = .ok true ∧
    (do let a ← opMul (← opMul x y) z; let b ← opMul x (← opMul y z); eq a b) = .ok true ∧
    (do let a ← opMul x (← opAdd y z); let b ← opAdd (← opMul x y) (← opMul x z); eq a b) = .ok true ∧
    (do let a ← opAdd x (← ofInt64 0); eq a x) = .ok true ∧
    (do let a ← opMul x (← ofInt64 1); eq a x) = .ok true ∧
    (do let a ← opSub x y; let b ← opAdd x (← y.neg); eq a b) = .ok true ∧
    (do let a ← opSub x x; eq a (← ofInt64 0)) = .ok true := by
  obtain ⟨xy, xy1, xy2, xy3⟩ := opAdd_ok hx.clean hy.clean
  obtain ⟨yx, yx1, yx2, yx3⟩ := opAdd_ok hy.clean hx.clean
  obtain ⟨mxy, mxy1, mxy2, mxy3⟩ := opMul_ok hx.clean hy.clean
  obtain ⟨myx, myx1, myx2, myx3⟩ := opMul_ok hy.clean hx.clean
  obtain ⟨mxz, mxz1, mxz2, mxz3⟩ := opMul_ok hx.clean hz.clean
  obtain ⟨yz, yz1, yz2, yz3⟩ := opAdd_ok hy.clean hz.clean
  obtain ⟨myz, myz1, myz2, myz3⟩ := opMul_ok hy.clean hz.clean
  obtain ⟨a1, a11, a12, a13⟩ := opAdd_ok xy2.clean hz.clean
  obtain ⟨a2, a21, a22, a23⟩ := opAdd_ok hx.clean yz2.clean
  obtain ⟨b1, b11, b12, b13⟩ := opMul_ok mxy2.clean hz.clean
  obtain ⟨b2, b21, b22, b23⟩ := opMul_ok hx.clean myz2.clean
  obtain ⟨c1, c11, c12, c13⟩ := opMul_ok hx.clean yz2.clean
  obtain ⟨c2, c21, c22, c23⟩ := opAdd_ok mxy2.clean mxz2.clean
  obtain ⟨o, o1, o2, o3, _⟩ := ofInt64_ok (x := 0) 0 (by omega) (by omega)
  obtain ⟨i, i1, i2, i3, _⟩ := ofInt64_ok (x := 1) 0 (by omega) (by omega)
  have o3 : o.val = 0 := by simpa using o3
  have i3 : i.val = 1 := by simpa using i3
  obtain ⟨d1, d11, d12, d13⟩ := opAdd_ok hx.clean o2.clean
  obtain ⟨e1, e11, e12, e13⟩ := opMul_ok hx.clean i2.clean
  obtain ⟨ny, n1, n2, _, n3, _⟩ := neg_canon hy.clean
  obtain ⟨s1, s11, s12, s13⟩ := opSub_ok hx.clean hy.clean
  obtain ⟨s2, s21, s22, s23⟩ := opAdd_ok hx.clean n2.clean
  obtain ⟨t, t1, t2, t3⟩ := opSub_ok hx.clean hx.clean
  refine ⟨?_, ?_, ?_, ?_, ?_, ?_, ?_, ?_, ?_⟩
  · simp only [xy1, yx1, bind_ok, eq_spec xy2.1 yx2.1, xy3, yx3, add_comm, decide_true]
  · simp only [mxy1, myx1, bind_ok, eq_spec mxy2.1 myx2.1, mxy3, myx3, mul_comm, decide_true]
  · simp only [xy1, yz1, a11, a21, bind_ok, eq_spec a12.1 a22.1, a13, a23, xy3, yz3, add_assoc, decide_true]
  · simp only [mxy1, myz1, b11, b21, bind_ok, eq_spec b12.1 b22.1, b13, b23, mxy3, myz3, mul_assoc, decide_true]
  · simp only [yz1, mxy1, mxz1, c11, c21, bind_ok, eq_spec c12.1 c22.1, c13, c23, yz3, mxy3, mxz3, mul_add, decide_true]
  · simp only [o1, d11, bind_ok, eq_spec d12.1 hx.1, d13, o3, add_zero, decide_true]
  · simp only [i1, e11, bind_ok, eq_spec e12.1 hx.1, e13, i3, mul_one, decide_true]
  · simp only [s11, n1, s21, bind_ok, eq_spec s12.1 s22.1, s13, s23, n3, ← sub_eq_add_neg, decide_true]
  · simp only [t1, o1, bind_ok, eq_spec t2.1 o2.1, t3, o3, sub_self, decide_true]

example : Canon ⟨[999999999, 5], true⟩ ∧ Canon ⟨[1], false⟩ ∧ Canon ⟨[0, 0, 7], false⟩ := by decide

/-! ### C24, C25, C26: division helpers and consistency -/

/-- C24. `quotient_and_remainder(y, x)` for `0 < x <= y < 10^9 x`: the exact quotient and the canonical remainder. -/
theorem C24_quotient_and_remainder {x y r0 : BigInt} (hx : Canon x) (hy : Canon y) (h0 : 0 < x.val) (h1 : x.val ≤ y.val)
    (h2 : y.val < 1000000000 * x.val) :
    ∃ q r, quotientAndRemainder y x r0 = .ok (q, r) ∧ Canon r ∧ y.val = q * x.val + r.val ∧ 0 ≤ r.val ∧ r.val < x.val ∧
      0 < q ∧ q < 1000000000 := by
  have sx : x.negative = false := by
    by_contra h; have := hx.neg_iff.mp (by simpa using h); omega
  have sy : y.negative = false := by
    by_contra h; have := hy.neg_iff.mp (by simpa using h); omega
  rw [val_of_not_neg sx] at h0 h1 h2 ⊢
  rw [val_of_not_neg sy] at h1 h2 ⊢
  obtain ⟨r, r1, r2, _, r4⟩ := quotientAndRemainder_ok (r0 := r0) hy.clean hx.1 sy sx h1 h2
  refine ⟨_, r, r1, r2, ?_, ?_, ?_, ?_, ?_⟩
  · rw [r4, mul_comm, Int.mul_ediv_add_emod]
  · rw [r4]; exact Int.emod_nonneg _ h0.ne'
  · rw [r4]; exact Int.emod_lt_of_pos _ h0
  · have := Int.le_ediv_of_mul_le h0 (show 1 * mag x.bins ≤ mag y.bins by omega); omega
  · exact Int.ediv_lt_of_lt_mul h0 h2

example : Canon ⟨[0, 3], false⟩ ∧ Canon ⟨[5, 7, 2], false⟩ ∧
    0 < BigInt.val ⟨[0, 3], false⟩ ∧ BigInt.val ⟨[0, 3], false⟩ ≤ BigInt.val ⟨[5, 7, 2], false⟩ ∧
    BigInt.val ⟨[5, 7, 2], false⟩ < 1000000000 * BigInt.val ⟨[0, 3], false⟩ := by decide

/-- C25. `divide_by_int(x, d, result)` for `0 < d < 2^31`: magnitude `floor(|x|/d)` with the sign flag `result` had;
`divide_by_zero_error` for `d = 0`, with the bins of `result` left empty. -/
theorem C25_divide_by_int {x res : BigInt} {d : Int} (hx : WF x) (h0 : 0 ≤ d) (h1 : d ≤ 2147483647) :
    (0 < d → ∃ r, divideByInt x d res = .ok r ∧ WF r ∧ |r.val| = |x.val| / d ∧ r.negative = res.negative) ∧
    (d = 0 → divideByInt x d res = .error .divideByZero) ∧
    (divideByIntThrown res).bins = [] := by
  refine ⟨fun h => ?_, fun h => by subst h; rfl, rfl⟩
  obtain ⟨r, r1, r2, r3, _, r5⟩ := divideByInt_ok (res := res) hx h h1
  exact ⟨r, r1, r2, by rw [abs_val r2, abs_val hx, r5], r3⟩

example : divideByInt ⟨[7, 1], true⟩ 2 default = .ok ⟨[500000003, 0], false⟩ := by decide

/-- C26. Whenever `x / y` and `x % y` return: `(x/y)*y` plus a remainder smaller than `y` in magnitude and of the sign of
`x` is `x`; `x - x % y` is a multiple of `y`; and if `x` and `y` have the same sign, computing `(x/y)*y + x%y` with the
operators of the library gives a number that compares equal to `x`. -/
theorem C26_consistency {x y q r : BigInt} (hx : Canon x) (hy : Canon y) (hq : opDiv x y = .ok q) (hr : opMod x y = .ok r) :
    (∃ t : Int, x.val = q.val * y.val + t ∧ |t| < |y.val| ∧ (0 ≤ x.val → 0 ≤ t) ∧ (x.val ≤ 0 → t ≤ 0)) ∧
    (y.val ∣ x.val - r.val) ∧
    ((0 ≤ x.val ∧ 0 < y.val) ∨ (x.val ≤ 0 ∧ y.val < 0) →
      (do let p ← opMul q y; let s ← opAdd p r; eq s x) = .ok true) := by
  obtain ⟨d1, d2, _⟩ := C05_division_truncates hx.1 hy.1
  obtain ⟨m1, m2, m3, _⟩ := C07_modulo_floored hx.1 hy.1
  obtain ⟨q2, q3⟩ := d2 q hq
  obtain ⟨_, r3, ⟨k, hk⟩, hb⟩ := m2 r hr
  have r2 := m3 hx hy r hr
  have h0 : y.val ≠ 0 := by rcases hb with h | h <;> omega
  have ht := Int.mul_tdiv_add_tmod x.val y.val
  refine ⟨⟨x.val.tmod y.val, ?_, ?_, ?_, ?_⟩, ⟨k, by omega⟩, ?_⟩
  · rw [q3, mul_comm]; omega
  · rw [← Int.natCast_natAbs, ← Int.natCast_natAbs, Int.natAbs_tmod]
    exact_mod_cast Nat.mod_lt _ (Int.natAbs_pos.mpr h0)
  · exact fun h => Int.tmod_nonneg _ h
  · intro h
    have := Int.tmod_nonneg (a := -x.val) y.val (by omega)
    rw [Int.neg_tmod] at this
    omega
  · intro hs
    obtain ⟨p, p1, p2, p3⟩ := opMul_ok q2.clean hy.clean
    obtain ⟨s, s1, s2, s3⟩ := opAdd_ok p2.clean r2.clean
    have hsum : s.val = x.val := by
      rw [s3, p3, q3, r3]
      have e : x.val.tmod y.val = x.val.fmod y.val := by
        rcases hs with ⟨h1, h2⟩ | ⟨h1, h2⟩
        · rw [Int.tmod_eq_emod_of_nonneg h1, Int.fmod_eq_emod_of_nonneg _ h2.le]
        · have h3 := Int.tmod_nonneg (a := -x.val) y.val (by omega)
          have h4 := Int.tmod_lt_of_pos (-x.val) (b := -y.val) (by omega)
          rw [Int.tmod_neg] at h4
          rw [Int.neg_tmod] at h3 h4
          exact (fmod_unique ht.symm (.inr ⟨by omega, by omega⟩)).symm
      rw [← e, mul_comm]; exact ht
    simp only [p1, s1, bind_ok, eq_spec s2.1 hx.1, hsum, decide_true]

example : Canon ⟨[7, 3], true⟩ ∧ Canon ⟨[2], true⟩ ∧ opDiv ⟨[7, 3], true⟩ ⟨[2], true⟩ = .ok ⟨[500000003, 1], false⟩ ∧
    opMod ⟨[7, 3], true⟩ ⟨[2], true⟩ = .ok ⟨[1], true⟩ := by decide +kernel

end CppMaths

