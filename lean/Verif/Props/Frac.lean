import Verif.Proofs.FracAux
import Verif.Proofs.FracBuilt
/-!
# Properties of `Frac` arithmetic (C30-C39, C44-C47)

`f.value` is the rational number an object stands for, `f.Valid` says that it is in lowest terms with canonical parts and
positive denominator, `ReduceAborts t b` that the division of `Int` aborts while `t / b` is reduced, and `Yields r q t b`
that `r` is `q` in lowest terms unless reducing `t / b` aborts (in which case `r` is an abort); see
`Verif/Spec/Frac.lean`. `drop` turns the outcome of a compound assignment into the value it leaves in the variable.
-/

namespace CppMaths
open BigInt Frac

/-! ### C30: lowest terms -/

/-- C30 as stated is false: `x = 1; x /= 0` returns and leaves `1/0`. -/
theorem C30_refuted : ∃ x y f : Frac, x.Valid ∧ y.Valid ∧ divAssign x y = .ok f ∧ ¬f.Valid :=
  ⟨⟨⟨[1], false⟩, ⟨[1], false⟩⟩, ⟨⟨[0], false⟩, ⟨[1], false⟩⟩, ⟨⟨[1], false⟩, ⟨[0], false⟩⟩, by decide, by decide,
    by decide +kernel, by decide⟩

/-- C30, the part that holds. Every object that any sequence of constructors, operators, compound assignments, powers with
arbitrary exponents and extractions from arbitrary streams produces is in lowest terms.
Missing: compound division by zero and extraction of a ratio with denominator zero (see `C34_refuted`, `C42_refuted`). -/
theorem C30_lowest_terms_partial {f : Frac} (h : Built f) : f.Valid := h.valid

-- 6 / -4 is stored as -3 / 2; then (-3/2) ^ -3 is -8 / 27
example : Built ⟨⟨[3], true⟩, ⟨[2], false⟩⟩ :=
  .mk (a := ⟨[6], false⟩) (b := ⟨[4], true⟩) (by decide) (by decide) (by decide +kernel)
example : Built ⟨⟨[8], true⟩, ⟨[27], false⟩⟩ :=
  .pow (x := ⟨⟨[3], true⟩, ⟨[2], false⟩⟩) (a := ⟨[3], true⟩)
    (.mk (a := ⟨[6], false⟩) (b := ⟨[4], true⟩) (by decide) (by decide) (by decide +kernel)) (by decide) (by decide +kernel)

/-- C30. Objects in lowest terms that stand for the same number are identical. -/
theorem C30_unique_representation {f g : Frac} (hf : f.Valid) (hg : g.Valid) (h : f.value = g.value) : f = g :=
  hf.eq_of_value_eq hg h

example : mk' ⟨[6], false⟩ ⟨[4], true⟩ = mk' ⟨[9], true⟩ ⟨[6], false⟩ ∧ Valid ⟨⟨[3], true⟩, ⟨[2], false⟩⟩ := by decide +kernel

/-! ### C31: construction -/

/-- C31. `Frac(a, b)` throws `divide_by_zero_error` exactly if `b` is zero; otherwise it is `a / b` in lowest terms, or an
abort exactly if reducing `a / b` aborts. -/
theorem C31_construction {a b : BigInt} (ha : Canon a) (hb : Canon b) :
    (mk' a b = .error .divideByZero ↔ b.val = 0) ∧
    (b.val ≠ 0 → Yields (mk' a b) ((a.val : ℚ) / b.val) a.val b.val) := by
  have h := red_mk' ha hb
  refine ⟨⟨fun he => ?_, h.1⟩, fun h0 => h.yields h0 rfl⟩
  by_contra h0
  by_cases hr : ReduceAborts a.val b.val
  · rw [h.2.2 h0 hr] at he; cases he
  · obtain ⟨f, f1, _⟩ := h.2.1 h0 hr
    rw [f1] at he; cases he

/-- 6 / -4 -/
example := C31_construction (a := ⟨[6], false⟩) (b := ⟨[4], true⟩) (by decide) (by decide)

/-- C31. `Frac()` is 0 and `Frac(a)` is `a`; they always return. -/
theorem C31_construction_integer {a : BigInt} (ha : Canon a) :
    (∃ f, Frac.default = .ok f ∧ f.Valid ∧ f.value = 0) ∧ ∃ f, Frac.ofInt a = .ok f ∧ f.Valid ∧ f.value = a.val :=
  ⟨⟨_, default_eq, default_valid, by simp [value, BigInt.val]⟩, ⟨_, rfl, ofInt_valid ha, ofInt_value a⟩⟩

example : mk' ⟨[6], false⟩ ⟨[4], true⟩ = .ok ⟨⟨[3], true⟩, ⟨[2], false⟩⟩ ∧
    mk' ⟨[6], false⟩ ⟨[0], false⟩ = .error .divideByZero ∧
    mk' ⟨[0], false⟩ ⟨[7], true⟩ = .ok ⟨⟨[0], false⟩, ⟨[1], false⟩⟩ := by decide +kernel
-- the abort is real: Frac(0, 10^18)
example : mk' ⟨[0], false⟩ ⟨[0, 0, 1], false⟩ = .error .assertion := by decide +kernel

/-! ### C32, C33: exact arithmetic -/

/-- C32. `x + y`, `x - y`, `x * y` and `x += y`, `x -= y`, `x *= y` give the exact sum, difference, product in lowest
terms, unless the reduction of the unreduced result aborts. -/
theorem C32_arithmetic_exact {x y : Frac} (hx : x.Valid) (hy : y.Valid) :
    Yields (opAdd x y) (x.value + y.value) (x.tt.val * y.bb.val + y.tt.val * x.bb.val) (x.bb.val * y.bb.val) ∧
    Yields (opSub x y) (x.value - y.value) (x.tt.val * y.bb.val - y.tt.val * x.bb.val) (x.bb.val * y.bb.val) ∧
    Yields (opMul x y) (x.value * y.value) (x.tt.val * y.tt.val) (x.bb.val * y.bb.val) ∧
    Yields (drop (addAssign x y)) (x.value + y.value) (x.tt.val * y.bb.val + y.tt.val * x.bb.val) (x.bb.val * y.bb.val) ∧
    Yields (drop (subAssign x y)) (x.value - y.value) (x.tt.val * y.bb.val - y.tt.val * x.bb.val) (x.bb.val * y.bb.val) ∧
    Yields (drop (mulAssign x y)) (x.value * y.value) (x.tt.val * y.tt.val) (x.bb.val * y.bb.val) := by
  have hxb : (x.bb.val : ℚ) ≠ 0 := by exact_mod_cast hx.bb_ne
  have hyb : (y.bb.val : ℚ) ≠ 0 := by exact_mod_cast hy.bb_ne
  have h0 : x.bb.val * y.bb.val ≠ 0 := mul_ne_zero hx.bb_ne hy.bb_ne
  have e1 : ((x.tt.val * y.bb.val + y.tt.val * x.bb.val : Int) : ℚ) / (x.bb.val * y.bb.val : Int) = x.value + y.value := by
    unfold value; push_cast; field_simp
  have e2 : ((x.tt.val * y.bb.val - y.tt.val * x.bb.val : Int) : ℚ) / (x.bb.val * y.bb.val : Int) = x.value - y.value := by
    unfold value; push_cast; field_simp
  have e3 : ((x.tt.val * y.tt.val : Int) : ℚ) / (x.bb.val * y.bb.val : Int) = x.value * y.value := by
    unfold value; push_cast; field_simp
  exact ⟨(opAdd_red hx hy).yields h0 e1, (opSub_red hx hy).yields h0 e2, (opMul_red hx hy).yields h0 e3,
    (addAssign_red hx hy).yields e1, (subAssign_red hx hy).yields e2, (mulAssign_red hx hy).yields e3⟩

example := C32_arithmetic_exact (x := ⟨⟨[1], false⟩, ⟨[6], false⟩⟩) (y := ⟨⟨[1], true⟩, ⟨[10], false⟩⟩) (by decide) (by decide)

/-- C32. A compound assignment leaves exactly what the operator returns. -/
theorem C32_compound_agrees {x y : Frac} (hx : x.Valid) (hy : y.Valid) :
    drop (addAssign x y) = opAdd x y ∧ drop (subAssign x y) = opSub x y ∧ drop (mulAssign x y) = opMul x y := by
  obtain ⟨a, b, c, d, e, f⟩ := C32_arithmetic_exact hx hy
  exact ⟨d.unique a, e.unique b, f.unique c⟩

-- 1/6 + 1/10 = 4/15 by way of 16/60
example : Valid ⟨⟨[1], false⟩, ⟨[6], false⟩⟩ ∧ Valid ⟨⟨[1], false⟩, ⟨[10], false⟩⟩ ∧
    opAdd ⟨⟨[1], false⟩, ⟨[6], false⟩⟩ ⟨⟨[1], false⟩, ⟨[10], false⟩⟩ = .ok ⟨⟨[4], false⟩, ⟨[15], false⟩⟩ ∧
    opSub ⟨⟨[1], false⟩, ⟨[6], false⟩⟩ ⟨⟨[1], false⟩, ⟨[6], false⟩⟩ = .ok ⟨⟨[0], false⟩, ⟨[1], false⟩⟩ := by decide +kernel
-- an abort on valid operands: x * 1 with x = (10^18 + 5*10^8) / 7
example : Valid ⟨⟨[500000000, 0, 1], false⟩, ⟨[7], false⟩⟩ ∧
    opMul ⟨⟨[500000000, 0, 1], false⟩, ⟨[7], false⟩⟩ ⟨⟨[1], false⟩, ⟨[1], false⟩⟩ = .error .assertion := by decide +kernel

/-- C33. `x / y` throws `divide_by_zero_error` exactly if `y` is zero; otherwise it is the exact quotient in lowest terms,
unless the reduction aborts. -/
theorem C33_division_exact {x y : Frac} (hx : x.Valid) (hy : y.Valid) :
    (opDiv x y = .error .divideByZero ↔ y.value = 0) ∧
    (y.value ≠ 0 → Yields (opDiv x y) (x.value / y.value) (x.tt.val * y.bb.val) (x.bb.val * y.tt.val)) := by
  have h := opDiv_red hx hy
  have hxb : (x.bb.val : ℚ) ≠ 0 := by exact_mod_cast hx.bb_ne
  have hyb : (y.bb.val : ℚ) ≠ 0 := by exact_mod_cast hy.bb_ne
  have hY : y.value ≠ 0 → Yields (opDiv x y) (x.value / y.value) (x.tt.val * y.bb.val) (x.bb.val * y.tt.val) := by
    intro h0
    have ht : y.tt.val ≠ 0 := fun hz => h0 (hy.tt_zero.mp hz)
    have ht' : (y.tt.val : ℚ) ≠ 0 := by exact_mod_cast ht
    exact h.yields (mul_ne_zero hx.bb_ne ht) (by unfold value; push_cast; field_simp)
  refine ⟨⟨fun he => ?_, fun h0 => h.1 (by rw [hy.tt_zero.mpr h0, mul_zero])⟩, hY⟩
  by_contra h0
  obtain ⟨k1, k2⟩ := hY h0
  by_cases hr : ReduceAborts (x.tt.val * y.bb.val) (x.bb.val * y.tt.val)
  · rw [k2 hr] at he; cases he
  · obtain ⟨f, f1, _⟩ := k1 hr
    rw [f1] at he; cases he

example : opDiv ⟨⟨[1], false⟩, ⟨[6], false⟩⟩ ⟨⟨[5], true⟩, ⟨[3], false⟩⟩ = .ok ⟨⟨[1], true⟩, ⟨[10], false⟩⟩ ∧
    opDiv ⟨⟨[1], false⟩, ⟨[6], false⟩⟩ ⟨⟨[0], false⟩, ⟨[1], false⟩⟩ = .error .divideByZero := by decide +kernel

/-! ### C34: compound division -/

/-- C34 as stated is false: `1 /= 0` does not throw and leaves `1/0`, for a `Frac` and for an `Int` zero. -/
theorem C34_refuted : (∃ x y f : Frac, x.Valid ∧ y.Valid ∧ y.value = 0 ∧ divAssign x y = .ok f ∧ f.bb.val = 0) ∧
    (∃ (x : Frac) (a : BigInt) (f : Frac), x.Valid ∧ Canon a ∧ a.val = 0 ∧ divAssignInt x a = .ok f ∧ f.bb.val = 0) :=
  ⟨⟨⟨⟨[1], false⟩, ⟨[1], false⟩⟩, ⟨⟨[0], false⟩, ⟨[1], false⟩⟩, ⟨⟨[1], false⟩, ⟨[0], false⟩⟩, by decide, by decide,
      by simp [value, BigInt.val], by decide +kernel, by decide⟩,
    ⟨⟨⟨[1], false⟩, ⟨[1], false⟩⟩, ⟨[0], false⟩, ⟨⟨[1], false⟩, ⟨[0], false⟩⟩, by decide, by decide, by decide,
      by decide +kernel, by decide⟩⟩

/-- C34, how general the failure is: `x /= y` with `y` zero never throws if `x` is not zero. It leaves `1/0` or `-1/0`
(or aborts). If `x` is zero it throws, but leaves `x` with denominator zero. -/
theorem C34_refuted_always {x y : Frac} (hx : x.Valid) (hy : y.Valid) (h0 : y.value = 0) :
    (x.value ≠ 0 → (∃ f, divAssign x y = .ok f ∧ f.tt.val = x.tt.val.sign ∧ f.bb.val = 0) ∨
      ∃ s, divAssign x y = .error (.assertion, s)) ∧
    (x.value = 0 → ∃ f, divAssign x y = .error (.divideByZero, f) ∧ f.tt.val = 0 ∧ f.bb.val = 0) := by
  have ht0 := hy.tt_zero.mpr h0
  have hneg : ∀ {a : BigInt}, Canon a → 0 ≤ a.val → a.negative = false := by
    intro a ha h
    cases hh : a.negative
    · rfl
    · have := ha.neg_iff.mp hh; omega
  obtain ⟨d, d1, d2, d3, d4⟩ := mulAssign_ok hx.2.1.1 hy.1.1
  have ds : d.negative = false := by
    rw [d4, hneg hx.2.1 hx.2.2.1.le, hneg hy.1 ht0.ge]; rfl
  have d0 : d.val = 0 := by rw [d3, ht0, mul_zero]
  constructor
  · intro hne
    have hxt : x.tt.val ≠ 0 := fun hz => hne (hx.tt_zero.mp hz)
    obtain ⟨t, t1, t2, t3⟩ := mulAssign_canon hx.1.clean hy.2.1.clean hxt hy.bb_ne
    have e : divAssign x y = normalize ⟨t, d⟩ := by
      unfold Frac.divAssign; simp only [t1, d1, at'_ok, mbind_ok]
    rw [e]
    rcases normalize_zero_den t2 (by rw [t3]; exact mul_ne_zero hxt hy.bb_ne) d2 d0 ds with ⟨f, f1, _, _, f4, f5⟩ | h
    · exact .inl ⟨f, f1, by rw [f4, t3, Int.sign_mul, Int.sign_eq_one_of_pos hy.2.2.1, mul_one], f5⟩
    · exact .inr h
  · intro hz
    have hxt := hx.tt_zero.mpr hz
    obtain ⟨t, t1, t2, t3, _⟩ := mulAssign_ok hx.1.1 hy.2.1.1
    have t0 : t.val = 0 := by rw [t3, hxt, zero_mul]
    refine ⟨⟨t, d⟩, ?_, t0, d0⟩
    unfold Frac.divAssign; simp only [t1, d1, at'_ok, mbind_ok]
    exact normalize_zero_zero t2 t0 d2 d0 ds

/-- C34, the part that holds: for a nonzero divisor `x /= y` leaves what `x / y` returns, also for an `Int` divisor.
Missing: the divisor zero (see `C34_refuted_always`). -/
theorem C34_compound_division_partial {x y : Frac} {a : BigInt} (hx : x.Valid) (hy : y.Valid) (ha : Canon a) :
    (y.value ≠ 0 → drop (divAssign x y) = opDiv x y ∧
      Yields (drop (divAssign x y)) (x.value / y.value) (x.tt.val * y.bb.val) (x.bb.val * y.tt.val)) ∧
    (a.val ≠ 0 → drop (divAssignInt x a) = divInt x a ∧
      Yields (drop (divAssignInt x a)) (x.value / a.val) x.tt.val (x.bb.val * a.val)) := by
  have hxb : (x.bb.val : ℚ) ≠ 0 := by exact_mod_cast hx.bb_ne
  have hyb : (y.bb.val : ℚ) ≠ 0 := by exact_mod_cast hy.bb_ne
  constructor
  · intro h0
    have ht : y.tt.val ≠ 0 := fun hz => h0 (hy.tt_zero.mp hz)
    have ht' : (y.tt.val : ℚ) ≠ 0 := by exact_mod_cast ht
    have k : Yields (drop (divAssign x y)) (x.value / y.value) (x.tt.val * y.bb.val) (x.bb.val * y.tt.val) :=
      (divAssign_red hx hy ht).yields (by unfold value; push_cast; field_simp)
    exact ⟨k.unique ((C33_division_exact hx hy).2 h0), k⟩
  · intro h0
    have h0' : (a.val : ℚ) ≠ 0 := by exact_mod_cast h0
    have e : ((x.tt.val : Int) : ℚ) / ((x.bb.val * a.val : Int) : ℚ) = x.value / a.val := by
      unfold value; push_cast; field_simp
    have k := (divAssignInt_red hx ha h0).yields e
    exact ⟨k.unique ((divInt_red ha hx).yields (mul_ne_zero hx.bb_ne h0) e), k⟩

example : divAssign ⟨⟨[1], false⟩, ⟨[6], false⟩⟩ ⟨⟨[5], true⟩, ⟨[3], false⟩⟩ = .ok ⟨⟨[1], true⟩, ⟨[10], false⟩⟩ ∧
    divAssignInt ⟨⟨[4], false⟩, ⟨[3], false⟩⟩ ⟨[2], true⟩ = .ok ⟨⟨[2], true⟩, ⟨[3], false⟩⟩ := by decide +kernel
example : divAssign ⟨⟨[0], false⟩, ⟨[1], false⟩⟩ ⟨⟨[0], false⟩, ⟨[1], false⟩⟩ =
    .error (.divideByZero, ⟨⟨[0], false⟩, ⟨[0], false⟩⟩) := by decide +kernel

/-! ### C35: comparisons -/

/-- C35. The six comparison operators always return and agree with equality and order of the rational numbers. -/
theorem C35_comparisons {x y : Frac} (hx : x.Valid) (hy : y.Valid) :
    Frac.eq x y = .ok (decide (x.value = y.value)) ∧ Frac.ne x y = .ok (decide (x.value ≠ y.value)) ∧
    Frac.lt x y = .ok (decide (x.value < y.value)) ∧ Frac.gt x y = .ok (decide (x.value > y.value)) ∧
    Frac.le x y = .ok (decide (x.value ≤ y.value)) ∧ Frac.ge x y = .ok (decide (x.value ≥ y.value)) :=
  ⟨ICmp.runFrac_eq .eq hx hy, ICmp.runFrac_eq .ne hx hy, ICmp.runFrac_eq .lt hx hy, ICmp.runFrac_eq .gt hx hy,
    ICmp.runFrac_eq .le hx hy, ICmp.runFrac_eq .ge hx hy⟩

-- -1/2 < 1/3, although 1 < 3 and 2 < 3; numbers beyond 64 bits
example : Frac.lt ⟨⟨[1], true⟩, ⟨[2], false⟩⟩ ⟨⟨[1], false⟩, ⟨[3], false⟩⟩ = .ok true ∧
    Frac.lt ⟨⟨[1], false⟩, ⟨[0, 0, 0, 1], false⟩⟩ ⟨⟨[1], false⟩, ⟨[999999999, 999999999, 999999999], false⟩⟩ = .ok true := by decide

/-! ### C36: greatest common divisor -/

/-- C36. `GCD(a, b)` is the greatest common divisor in canonical form, or an abort exactly if Euclid's algorithm meets a
pair on which `%` aborts. In particular the loop ends. -/
theorem C36_gcd {a b : BigInt} (ha : Canon a) (hb : Canon b) :
    (¬EuclidAborts (max |a.val| |b.val|) (min |a.val| |b.val|) →
      ∃ r, Frac.gcd a b = .ok r ∧ Canon r ∧ 0 ≤ r.val ∧ r.val ∣ a.val ∧ r.val ∣ b.val ∧
        ∀ d, d ∣ a.val → d ∣ b.val → d ∣ r.val) ∧
    (EuclidAborts (max |a.val| |b.val|) (min |a.val| |b.val|) → Frac.gcd a b = .error .assertion) := by
  obtain ⟨h1, h2⟩ := gcd_spec ha hb
  refine ⟨fun h => ?_, h2⟩
  obtain ⟨r, r1, r2, r3⟩ := h1 h
  exact ⟨r, r1, r2, by rw [r3]; exact Int.natCast_nonneg _, by rw [r3]; exact Int.gcd_dvd_left .., by rw [r3]; exact Int.gcd_dvd_right ..,
    fun d h1 h2 => by rw [r3]; exact Int.dvd_coe_gcd h1 h2⟩

example := C36_gcd (a := ⟨[0, 6], true⟩) (b := ⟨[18], false⟩) (by decide) (by decide)

/-- C36. No abort if both magnitudes are below 10^18; then `GCD` is the greatest common divisor. -/
theorem C36_gcd_moderate {a b : BigInt} (ha : Canon a) (hb : Canon b) (h1 : |a.val| < 1000000000000000000)
    (h2 : |b.val| < 1000000000000000000) : ∃ r, Frac.gcd a b = .ok r ∧ Canon r ∧ r.val = Int.gcd a.val b.val :=
  (gcd_spec ha hb).1 (not_euclidAborts_small (le_max_of_le_left (abs_nonneg _)) (max_lt h1 h2)
    (le_min (abs_nonneg _) (abs_nonneg _)) (lt_of_le_of_lt (min_le_left _ _) h1))

example : Frac.gcd ⟨[12], true⟩ ⟨[18], false⟩ = .ok ⟨[6], false⟩ ∧ Frac.gcd ⟨[0], false⟩ ⟨[0], false⟩ = .ok ⟨[0], false⟩ ∧
    Frac.gcd ⟨[0, 6], false⟩ ⟨[0, 4], false⟩ = .ok ⟨[0, 2], false⟩ := by decide +kernel

/-! ### C37, C38: powers -/

/-- C37 as stated is false: `(-1) ^ 10^9` is -1. -/
theorem C37_refuted : ∃ (x : Frac) (a : BigInt) (f : Frac), x.Valid ∧ Canon a ∧ x.value = -1 ∧ Even a.val ∧
    opPow x a = .ok f ∧ f.value = -1 :=
  ⟨⟨⟨[1], true⟩, ⟨[1], false⟩⟩, ⟨[0, 1], false⟩, ⟨⟨[1], true⟩, ⟨[1], false⟩⟩, by decide, by decide,
    by simp [value, BigInt.val], ⟨500000000, by decide⟩, by decide +kernel, by simp [value, BigInt.val]⟩

/-- C37, the part that holds: if the magnitude of the exponent is good (in particular below 10^9, `GoodExp.of_lt`), `x ^ a`
is the exact power for positive, zero and negative exponents, unless the reduction aborts, and a negative power of zero
throws `divide_by_zero_error`.
Missing: exponents for which the power of an `Int` is wrong (see `C08_refuted`). -/
theorem C37_power_partial {x : Frac} {a : BigInt} (hx : x.Valid) (ha : Canon a) (hg : GoodExp |a.val|) :
    (0 ≤ a.val → Yields (opPow x a) (x.value ^ a.val) (x.tt.val ^ a.val.natAbs) (x.bb.val ^ a.val.natAbs)) ∧
    (a.val < 0 → x.value ≠ 0 → Yields (opPow x a) (x.value ^ a.val) (x.bb.val ^ a.val.natAbs) (x.tt.val ^ a.val.natAbs)) ∧
    (a.val < 0 → x.value = 0 → opPow x a = .error .divideByZero) := by
  refine ⟨fun h0 => ?_, fun h0 hne => ?_, fun h0 hz => ?_⟩
  · rw [abs_of_nonneg h0] at hg
    have := opPow_red_nonneg ha hx h0 hg
    rw [show a.val.toNat = a.val.natAbs by omega] at this
    refine this.yields (pow_ne_zero _ hx.bb_ne) ?_
    obtain ⟨n, hn⟩ := Int.eq_ofNat_of_zero_le h0
    rw [hn, zpow_natCast, Int.natAbs_natCast]
    unfold value; push_cast; rw [div_pow]
  · rw [abs_of_neg h0] at hg
    have := opPow_red_neg ha hx h0 hg
    rw [show (-a.val).toNat = a.val.natAbs by omega] at this
    refine this.yields (pow_ne_zero _ (fun hz => hne (hx.tt_zero.mp hz))) ?_
    obtain ⟨n, hn⟩ : ∃ n : Nat, a.val = -n := ⟨(-a.val).toNat, by omega⟩
    rw [hn, zpow_neg, zpow_natCast, Int.natAbs_neg, Int.natAbs_natCast]
    unfold value; push_cast; rw [div_pow, inv_div]
  · rw [abs_of_neg h0] at hg
    exact (opPow_red_neg ha hx h0 hg).1 (by rw [hx.tt_zero.mpr hz, zero_pow (by omega)])

example : GoodExp |BigInt.val ⟨[3], true⟩| := GoodExp.of_lt (by decide) (by decide)
example : opPow ⟨⟨[2], true⟩, ⟨[3], false⟩⟩ ⟨[3], true⟩ = .ok ⟨⟨[27], true⟩, ⟨[8], false⟩⟩ ∧
    opPow ⟨⟨[0], false⟩, ⟨[1], false⟩⟩ ⟨[3], true⟩ = .error .divideByZero ∧
    opPow ⟨⟨[2], true⟩, ⟨[3], false⟩⟩ ⟨[0], false⟩ = .ok ⟨⟨[1], false⟩, ⟨[1], false⟩⟩ := by decide +kernel

/-- C38 as stated is false: `2 ^ -1` is 1/2, but `x = 2; x ^= -1` leaves 2. And `x = 0; x ^= -1` does not throw. -/
theorem C38_refuted : (∃ (x : Frac) (a : BigInt) (f g : Frac), x.Valid ∧ Canon a ∧ opPow x a = .ok f ∧
      powAssign x a = .ok g ∧ f.value = 1 / 2 ∧ g.value = 2) ∧
    (∃ (x : Frac) (a : BigInt) (g : Frac), x.Valid ∧ Canon a ∧ opPow x a = .error .divideByZero ∧ powAssign x a = .ok g) :=
  ⟨⟨⟨⟨[2], false⟩, ⟨[1], false⟩⟩, ⟨[1], true⟩, ⟨⟨[1], false⟩, ⟨[2], false⟩⟩, ⟨⟨[2], false⟩, ⟨[1], false⟩⟩, by decide,
      by decide, by decide +kernel, by decide +kernel, by simp [value, BigInt.val], by simp [value, BigInt.val]⟩,
    ⟨⟨⟨[0], false⟩, ⟨[1], false⟩⟩, ⟨[1], true⟩, ⟨⟨[0], false⟩, ⟨[1], false⟩⟩, by decide, by decide, by decide +kernel,
      by decide +kernel⟩⟩

/-- C38, the part that holds: for a good exponent `x ^= a` computes the power with exponent `|a|`; so for nonnegative `a`
it leaves exactly what `x ^ a` returns.
Missing: negative exponents (the sign of the exponent is ignored). -/
theorem C38_compound_power_partial {x : Frac} {a : BigInt} (hx : x.Valid) (ha : Canon a) (hg : GoodExp |a.val|) :
    Yields (drop (powAssign x a)) (x.value ^ |a.val|) (x.tt.val ^ a.val.natAbs) (x.bb.val ^ a.val.natAbs) ∧
    (0 ≤ a.val → drop (powAssign x a) = opPow x a) := by
  have k : Yields (drop (powAssign x a)) (x.value ^ |a.val|) (x.tt.val ^ a.val.natAbs) (x.bb.val ^ a.val.natAbs) := by
    refine (powAssign_red hx ha hg).yields ?_
    rw [Int.abs_eq_natAbs, zpow_natCast]
    unfold value; push_cast; rw [div_pow]
  refine ⟨k, fun h0 => ?_⟩
  have := (C37_power_partial hx ha hg).1 h0
  rw [abs_of_nonneg h0] at k
  exact k.unique this

example : powAssign ⟨⟨[2], true⟩, ⟨[3], false⟩⟩ ⟨[3], false⟩ = .ok ⟨⟨[8], true⟩, ⟨[27], false⟩⟩ := by decide +kernel

/-- C37 and C38, what happens for all other exponents: every power aborts, or every power is taken with the same smaller
positive exponent.
Missing: the claimed value for these exponents. -/
theorem C37_other_exponents_partial {a : BigInt} (ha : Canon a) (hg : ¬GoodExp |a.val|) :
    (∀ x : Frac, x.Valid → opPow x a = .error .assertion ∧ drop (powAssign x a) = .error .assertion) ∨
    ∃ n : Nat, 1 ≤ n ∧ (n : Int) < |a.val| ∧ ∀ x : Frac, x.Valid →
      (0 ≤ a.val → Yields (opPow x a) (x.value ^ n) (x.tt.val ^ n) (x.bb.val ^ n)) ∧
      (a.val < 0 → x.value ≠ 0 → Yields (opPow x a) (x.value ^ (-(n : Int))) (x.bb.val ^ n) (x.tt.val ^ n)) ∧
      (a.val < 0 → x.value = 0 → opPow x a = .error .divideByZero) ∧
      Yields (drop (powAssign x a)) (x.value ^ n) (x.tt.val ^ n) (x.bb.val ^ n) := by
  have hval : ∀ (x : Frac) (n : Nat), x.value ^ n = ((x.tt.val ^ n : Int) : Rat) / ((x.bb.val ^ n : Int) : Rat) := by
    intro x n; unfold value; push_cast; rw [div_pow]
  rcases lt_or_ge a.val 0 with h0 | h0
  · rw [abs_of_neg h0] at hg
    obtain ⟨m, n1, n2, _, n4, _⟩ := neg_canon ha.clean
    rw [← n4] at hg
    rcases powIs_bad n2 (by omega) hg with e | ⟨n, k1, k2, hp⟩
    · refine .inl fun x hx => ⟨?_, ?_⟩
      · simp [Frac.opPow, ha.neg_iff.mpr h0, n1, BigInt.opPow, e _ hx.2.1]
      · simp [Frac.powAssign, ha.neg_iff.mpr h0, n1, BigInt.powAssign, e _ hx.2.1, drop, at']
    · refine .inr ⟨n, k1, by rw [abs_of_neg h0, ← n4]; exact k2, fun x hx => ?_⟩
      have r1 := opPow_red_is_neg ha hx h0 n1 hp
      refine ⟨fun h => by omega, fun _ hne => ?_, fun _ hz => r1.1 (by rw [hx.tt_zero.mpr hz, zero_pow (by omega)]), ?_⟩
      · refine r1.yields (pow_ne_zero _ (fun hz => hne (hx.tt_zero.mp hz))) ?_
        rw [zpow_neg, zpow_natCast, hval, inv_div]
      · exact (powAssign_red_is_neg hx ha h0 n1 hp).yields (hval x n).symm
  · rw [abs_of_nonneg h0] at hg
    rcases powIs_bad ha h0 hg with e | ⟨n, k1, k2, hp⟩
    · refine .inl fun x hx => ⟨?_, ?_⟩
      · simp [Frac.opPow, negative_of_nonneg ha h0, BigInt.opPow, e _ hx.1]
      · simp [Frac.powAssign, negative_of_nonneg ha h0, BigInt.powAssign, e _ hx.2.1, drop, at']
    · refine .inr ⟨n, k1, by rw [abs_of_nonneg h0]; exact k2, fun x hx => ?_⟩
      exact ⟨fun _ => (opPow_red_is ha hx h0 hp).yields (pow_ne_zero _ hx.bb_ne) (hval x n).symm, fun h => by omega,
        fun h => by omega, (powAssign_red_is hx ha h0 hp).yields (hval x n).symm⟩

example : ¬GoodExp |BigInt.val ⟨[0, 1], true⟩| ∧ opPow ⟨⟨[2], true⟩, ⟨[3], false⟩⟩ ⟨[0, 1], true⟩ = .ok ⟨⟨[3], true⟩, ⟨[2], false⟩⟩ :=
  ⟨fun h => h.1 (.inr ⟨1, 0, by norm_num, by norm_num, by decide +kernel⟩), by decide +kernel⟩

/-! ### C39: mixed operators -/

/-- C39. An operator with an `Int` on either side gives the same outcome as the operator on `Frac`s after conversion with
`Frac(a)`: value, exception and abort are all the same. -/
theorem C39_mixed_operators {x c : Frac} {a : BigInt} (hx : x.Valid) (ha : Canon a) (hc : Frac.ofInt a = .ok c) :
    intAdd a x = opAdd c x ∧ intSub a x = opSub c x ∧ intMul a x = opMul c x ∧ intDiv a x = opDiv c x ∧
    addInt x a = opAdd x c ∧ subInt x a = opSub x c ∧ mulInt x a = opMul x c ∧ divInt x a = opDiv x c := by
  have hc' : c = ⟨a, ⟨[1], false⟩⟩ := by
    simp only [Frac.ofInt, ofInt64_one, bind_ok, pure_ok, Except.ok.injEq] at hc; exact hc.symm
  have hv : c.Valid := hc' ▸ ofInt_valid ha
  have ht : c.tt.val = a.val := by rw [hc']
  have hb : c.bb.val = 1 := by rw [hc']; rfl
  have same : ∀ {r s : Res Frac} {t b : Int}, Red r t b → Red s t b → r = s := by
    intro r s t b h1 h2
    by_cases h0 : b = 0
    · rw [h1.1 h0, h2.1 h0]
    · exact (h1.yields h0 rfl).unique (h2.yields h0 rfl)
  refine ⟨?_, ?_, ?_, ?_, ?_, ?_, ?_, ?_⟩
  · have h := opAdd_red hv hx; rw [ht, hb, mul_one, one_mul] at h; exact same (intAdd_red ha hx) h
  · have h := opSub_red hv hx; rw [ht, hb, mul_one, one_mul] at h; exact same (intSub_red ha hx) h
  · have h := opMul_red hv hx; rw [ht, hb, one_mul] at h; exact same (intMul_red ha hx) h
  · have h := opDiv_red hv hx; rw [ht, hb, one_mul] at h; exact same (intDiv_red ha hx) h
  · have h := opAdd_red hx hv; rw [ht, hb, mul_one, mul_one] at h; exact same (addInt_red ha hx) h
  · have h := opSub_red hx hv; rw [ht, hb, mul_one, mul_one] at h; exact same (subInt_red ha hx) h
  · have h := opMul_red hx hv; rw [ht, hb, mul_one, mul_comm] at h; exact same (mulInt_red ha hx) h
  · have h := opDiv_red hx hv; rw [ht, hb, mul_one] at h; exact same (divInt_red ha hx) h

example := C39_mixed_operators (x := ⟨⟨[4], false⟩, ⟨[3], false⟩⟩) (a := ⟨[5], true⟩) (c := ⟨⟨[5], true⟩, ⟨[1], false⟩⟩) (by decide) (by decide)
  (by decide +kernel)

/-- C39. A compound assignment with an `Int` on the right leaves the same as the compound assignment with `Frac(a)`. For
division that includes `a` zero, where both do the same (wrong) thing. -/
theorem C39_mixed_compound {x c : Frac} {a : BigInt} (hx : x.Valid) (ha : Canon a) (hc : Frac.ofInt a = .ok c) :
    drop (addAssignInt x a) = drop (addAssign x c) ∧ drop (subAssignInt x a) = drop (subAssign x c) ∧
    drop (mulAssignInt x a) = drop (mulAssign x c) ∧ drop (divAssignInt x a) = drop (divAssign x c) := by
  have hc' : c = ⟨a, ⟨[1], false⟩⟩ := by
    simp only [Frac.ofInt, ofInt64_one, bind_ok, pure_ok, Except.ok.injEq] at hc; exact hc.symm
  have hv : c.Valid := hc' ▸ ofInt_valid ha
  have ht : c.tt.val = a.val := by rw [hc']
  have hb : c.bb.val = 1 := by rw [hc']; rfl
  refine ⟨?_, ?_, ?_, ?_⟩
  · have h := addAssign_red hx hv; rw [ht, hb, mul_one, mul_one] at h
    have h' := addAssignInt_red hx ha; rw [mul_comm x.bb.val] at h'
    exact (h'.yields rfl).unique (h.yields rfl)
  · have h := subAssign_red hx hv; rw [ht, hb, mul_one, mul_one] at h
    have h' := subAssignInt_red hx ha; rw [mul_comm x.bb.val] at h'
    exact (h'.yields rfl).unique (h.yields rfl)
  · have h := mulAssign_red hx hv; rw [ht, hb, mul_one] at h
    exact ((mulAssignInt_red hx ha).yields rfl).unique (h.yields rfl)
  · rw [hc']
    unfold divAssignInt Frac.divAssign
    simp only [mulAssign_one hx.1, at'_ok, mbind_ok]

example : Frac.ofInt ⟨[5], true⟩ = .ok ⟨⟨[5], true⟩, ⟨[1], false⟩⟩ ∧
    intSub ⟨[5], true⟩ ⟨⟨[1], false⟩, ⟨[3], false⟩⟩ = .ok ⟨⟨[16], true⟩, ⟨[3], false⟩⟩ ∧
    subInt ⟨⟨[1], false⟩, ⟨[3], false⟩⟩ ⟨[5], true⟩ = .ok ⟨⟨[16], false⟩, ⟨[3], false⟩⟩ ∧
    divInt ⟨⟨[4], false⟩, ⟨[3], false⟩⟩ ⟨[0], false⟩ = .error .divideByZero := by decide +kernel

/-! ### C44: aliasing -/

/-- C44. `m[d] op= m[s]` has the effect of the operation on separate copies of the two objects, whether `d` and `s` are
the same object or not; all other objects are untouched. -/
theorem C44_aliasing (m : FMem) (d s : Nat) :
    Frac.addAssignMem m d s = m.update d (addAssign (m d) (m s)) ∧ Frac.subAssignMem m d s = m.update d (subAssign (m d) (m s)) ∧
    Frac.mulAssignMem m d s = m.update d (mulAssign (m d) (m s)) ∧ Frac.divAssignMem m d s = m.update d (divAssign (m d) (m s)) :=
  ⟨Frac.addAssignMem_eq m d s, Frac.subAssignMem_eq m d s, Frac.mulAssignMem_eq m d s, Frac.divAssignMem_eq m d s⟩

example := C44_aliasing (fun i => ⟨⟨[1], i = 3⟩, ⟨[6], false⟩⟩) 3 3

/-- C44. `x op= x` leaves `2 x`, `0`, `x^2` and (for nonzero `x`) `1`, if it returns. -/
theorem C44_self_assignment {m m' : FMem} {d : Nat} (h : (m d).Valid) :
    (Frac.addAssignMem m d d = .ok m' → (m' d).Valid ∧ (m' d).value = 2 * (m d).value) ∧
    (Frac.subAssignMem m d d = .ok m' → (m' d).Valid ∧ (m' d).value = 0) ∧
    (Frac.mulAssignMem m d d = .ok m' → (m' d).Valid ∧ (m' d).value = (m d).value ^ 2) ∧
    ((m d).value ≠ 0 → Frac.divAssignMem m d d = .ok m' → (m' d).Valid ∧ (m' d).value = 1) := by
  have up : ∀ {r : MRes Frac Frac}, m.update d r = .ok m' → r = .ok (m' d) := by
    intro r hr
    cases r with
    | error e => cases hr
    | ok f =>
      simp only [FMem.update, Except.ok.injEq] at hr
      rw [← hr, FMem.set_same]
  have dr : ∀ {r : MRes Frac Frac}, r = .ok (m' d) → drop r = .ok (m' d) := by rintro r rfl; rfl
  obtain ⟨_, _, _, k1, k2, k3⟩ := C32_arithmetic_exact h h
  refine ⟨fun he => ?_, fun he => ?_, fun he => ?_, fun h0 he => ?_⟩
  · rw [Frac.addAssignMem_eq] at he
    obtain ⟨v1, v2⟩ := k1.valid (dr (up he))
    exact ⟨v1, by rw [v2]; ring⟩
  · rw [Frac.subAssignMem_eq] at he
    obtain ⟨v1, v2⟩ := k2.valid (dr (up he))
    exact ⟨v1, by rw [v2]; ring⟩
  · rw [Frac.mulAssignMem_eq] at he
    obtain ⟨v1, v2⟩ := k3.valid (dr (up he))
    exact ⟨v1, by rw [v2]; ring⟩
  · rw [Frac.divAssignMem_eq] at he
    obtain ⟨v1, v2⟩ := ((C34_compound_division_partial h h canon_one).1 h0).2.valid (dr (up he))
    exact ⟨v1, by rw [v2, div_self h0]⟩

example : (drop (Frac.addAssignMem (fun _ => ⟨⟨[1], false⟩, ⟨[6], false⟩⟩) 3 3)).map (· 3) = .ok ⟨⟨[1], false⟩, ⟨[3], false⟩⟩ ∧
    (drop (Frac.divAssignMem (fun _ => ⟨⟨[5], true⟩, ⟨[6], false⟩⟩) 3 3)).map (· 3) = .ok ⟨⟨[1], false⟩, ⟨[1], false⟩⟩ := by decide +kernel

/-! ### C45: moderate operands -/

/-- Both parts are below 7 * 10^8 in magnitude. -/
def Frac.Moderate (x : Frac) : Prop := |x.tt.val| < 700000000 ∧ |x.bb.val| < 700000000

/-- C45. With numerators and denominators below 7 * 10^8 every operator returns the exact result. -/
theorem C45_no_abort {x y : Frac} (hx : x.Valid) (hy : y.Valid) (mx : x.Moderate) (my : y.Moderate) :
    (∃ f, opAdd x y = .ok f ∧ f.Valid ∧ f.value = x.value + y.value) ∧
    (∃ f, opSub x y = .ok f ∧ f.Valid ∧ f.value = x.value - y.value) ∧
    (∃ f, opMul x y = .ok f ∧ f.Valid ∧ f.value = x.value * y.value) ∧
    (y.value ≠ 0 → ∃ f, opDiv x y = .ok f ∧ f.Valid ∧ f.value = x.value / y.value) ∧
    (∃ f, addAssign x y = .ok f ∧ f.Valid ∧ f.value = x.value + y.value) ∧
    (∃ f, subAssign x y = .ok f ∧ f.Valid ∧ f.value = x.value - y.value) ∧
    (∃ f, mulAssign x y = .ok f ∧ f.Valid ∧ f.value = x.value * y.value) ∧
    (y.value ≠ 0 → ∃ f, divAssign x y = .ok f ∧ f.Valid ∧ f.value = x.value / y.value) ∧
    (x.value ≠ 0 → ∃ f, reciprocal x = .ok f ∧ f.Valid ∧ f.value = 1 / x.value) := by
  have mul : ∀ {a b : Int}, |a| < 700000000 → |b| < 700000000 → |a * b| < 490000000000000000 := by
    intro a b ha hb
    rw [abs_mul]
    nlinarith [abs_nonneg a, abs_nonneg b]
  have low : ∀ {a : Int}, |a| < 490000000000000000 → |a| < 1000000000000000000 := fun h => lt_trans h (by norm_num)
  have add : ∀ {a b : Int}, |a| < 490000000000000000 → |b| < 490000000000000000 → |a + b| < 1000000000000000000 :=
    fun ha hb => lt_of_le_of_lt (abs_add_le _ _) (by linarith)
  have sub : ∀ {a b : Int}, |a| < 490000000000000000 → |b| < 490000000000000000 → |a - b| < 1000000000000000000 :=
    fun ha hb => lt_of_le_of_lt (abs_sub _ _) (by linarith)
  have r1 := not_reduceAborts_small (add (mul mx.1 my.2) (mul my.1 mx.2)) (low (mul mx.2 my.2))
  have r2 := not_reduceAborts_small (sub (mul mx.1 my.2) (mul my.1 mx.2)) (low (mul mx.2 my.2))
  have r3 := not_reduceAborts_small (low (mul mx.1 my.1)) (low (mul mx.2 my.2))
  have r4 := not_reduceAborts_small (low (mul mx.1 my.2)) (low (mul mx.2 my.1))
  have r5 := not_reduceAborts_small (lt_trans mx.2 (by norm_num)) (lt_trans mx.1 (by norm_num))
  have un : ∀ {r : MRes Frac Frac} {q : ℚ}, (∃ f, drop r = .ok f ∧ f.Valid ∧ f.value = q) →
      ∃ f, r = .ok f ∧ f.Valid ∧ f.value = q := fun ⟨f, f1, f2⟩ => ⟨f, drop_eq_ok f1, f2⟩
  obtain ⟨a1, a2, a3, a4, a5, a6⟩ := C32_arithmetic_exact hx hy
  refine ⟨a1.1 r1, a2.1 r2, a3.1 r3, fun h0 => ((C33_division_exact hx hy).2 h0).1 r4, un (a4.1 r1), un (a5.1 r2),
    un (a6.1 r3), fun h0 => un (((C34_compound_division_partial hx hy canon_one).1 h0).2.1 r4), fun h0 => ?_⟩
  have ht : x.tt.val ≠ 0 := fun hz => h0 (hx.tt_zero.mp hz)
  have := (reciprocal_red hx).2.1 ht r5
  rwa [show (x.bb.val : ℚ) / x.tt.val = 1 / x.value by unfold value; rw [one_div_div]] at this

example := C45_no_abort (x := ⟨⟨[699999999], true⟩, ⟨[2], false⟩⟩) (y := ⟨⟨[1], false⟩, ⟨[699999999], false⟩⟩) (by decide) (by decide)
  (by unfold Frac.Moderate; decide) (by unfold Frac.Moderate; decide)

/-- C45, operators with an `Int` operand. -/
theorem C45_no_abort_int {x : Frac} {a : BigInt} (hx : x.Valid) (ha : Canon a) (mx : x.Moderate) (ma : |a.val| < 700000000) :
    (∃ f, addInt x a = .ok f ∧ f.Valid ∧ f.value = x.value + a.val) ∧
    (∃ f, subInt x a = .ok f ∧ f.Valid ∧ f.value = x.value - a.val) ∧
    (∃ f, mulInt x a = .ok f ∧ f.Valid ∧ f.value = x.value * a.val) ∧
    (a.val ≠ 0 → ∃ f, divInt x a = .ok f ∧ f.Valid ∧ f.value = x.value / a.val) ∧
    (∃ f, intAdd a x = .ok f ∧ f.Valid ∧ f.value = a.val + x.value) ∧
    (∃ f, intSub a x = .ok f ∧ f.Valid ∧ f.value = a.val - x.value) ∧
    (∃ f, intMul a x = .ok f ∧ f.Valid ∧ f.value = a.val * x.value) ∧
    (x.value ≠ 0 → ∃ f, intDiv a x = .ok f ∧ f.Valid ∧ f.value = a.val / x.value) := by
  obtain ⟨i1, i2, i3, i4, i5, i6, i7, i8⟩ := C39_mixed_operators hx ha rfl
  have hc := ofInt_valid ha
  have mc : Frac.Moderate ⟨a, ⟨[1], false⟩⟩ := ⟨ma, by rw [val_one]; norm_num⟩
  have hv := ofInt_value a
  obtain ⟨a1, a2, a3, a4, _⟩ := C45_no_abort hx hc mx mc
  obtain ⟨b1, b2, b3, b4, _⟩ := C45_no_abort hc hx mc mx
  rw [hv] at a1 a2 a3 a4 b1 b2 b3 b4
  rw [i1, i2, i3, i4, i5, i6, i7, i8]
  exact ⟨a1, a2, a3, fun h => a4 (by exact_mod_cast h), b1, b2, b3, b4⟩

example : Frac.Moderate ⟨⟨[699999999], true⟩, ⟨[699999998], false⟩⟩ ∧ Valid ⟨⟨[699999999], true⟩, ⟨[699999998], false⟩⟩ :=
  ⟨by constructor <;> decide, by decide +kernel⟩

/-! ### C46: reciprocal -/

/-- C46 as stated is false: for `x = Frac(2*10^18 + 10^9, 14)`, which is (10^18 + 5*10^8)/7, the reciprocal aborts. -/
theorem C46_refuted : ∃ x : Frac, Built x ∧ x.value ≠ 0 ∧ reciprocal x = .error .assertion := by
  have hb : Built ⟨⟨[500000000, 0, 1], false⟩, ⟨[7], false⟩⟩ :=
    .mk (a := ⟨[0, 1, 2], false⟩) (b := ⟨[14], false⟩) (by decide) (by decide) (by decide +kernel)
  refine ⟨_, hb, ?_, by decide +kernel⟩
  intro h
  exact absurd (hb.valid.tt_zero.mpr h) (by decide)

/-- C46, the part that holds: the reciprocal of a nonzero number is `1 / x` unless the reduction aborts, the reciprocal of
zero throws `divide_by_zero_error`, and taking the reciprocal of a reciprocal always gives back the identical object.
Missing: the aborts (see `C46_refuted`). -/
theorem C46_reciprocal_partial {x : Frac} (hx : x.Valid) :
    (reciprocal x = .error .divideByZero ↔ x.value = 0) ∧
    (x.value ≠ 0 → Yields (reciprocal x) (1 / x.value) x.bb.val x.tt.val) ∧
    (∀ r, reciprocal x = .ok r → reciprocal r = .ok x) := by
  have h := reciprocal_red hx
  have hY : x.value ≠ 0 → Yields (reciprocal x) (1 / x.value) x.bb.val x.tt.val := fun h0 =>
    h.yields (fun hz => h0 (hx.tt_zero.mp hz)) (by unfold value; rw [one_div_div])
  have h2 : x.value = 0 → reciprocal x = .error .divideByZero := fun h0 => h.1 (hx.tt_zero.mpr h0)
  refine ⟨⟨fun he => ?_, h2⟩, hY, fun r hr => ?_⟩
  · by_contra h0
    obtain ⟨k1, k2⟩ := hY h0
    by_cases hra : ReduceAborts x.bb.val x.tt.val
    · rw [k2 hra] at he; cases he
    · obtain ⟨f, f1, _⟩ := k1 hra
      rw [f1] at he; cases he
  · by_cases h0 : x.value = 0
    · rw [h2 h0] at hr; cases hr
    · have hra : ¬ReduceAborts x.bb.val x.tt.val := by
        intro hra; rw [(hY h0).2 hra] at hr; cases hr
      obtain ⟨rv, re⟩ := (hY h0).valid hr
      have ht : x.tt.val ≠ 0 := fun hz => h0 (hx.tt_zero.mp hz)
      -- the parts of `r` are those of `x` swapped, up to sign
      have num : r.tt.val = x.tt.val.sign * x.bb.val ∧ r.bb.val = |x.tt.val| := by
        have e1 := rv.num
        have e2 := rv.den
        rw [re, one_div] at e1 e2
        rw [Rat.num_inv, hx.num, hx.den] at e1
        rw [Rat.den_inv_of_ne_zero h0, hx.num] at e2
        exact ⟨e1.symm, by rw [← e2, Int.abs_eq_natAbs]⟩
      have hra' : ¬ReduceAborts r.bb.val r.tt.val := by
        rw [num.1, num.2]
        rcases lt_or_gt_of_ne ht with hneg | hpos
        · rw [Int.sign_eq_neg_one_of_neg hneg, abs_of_neg hneg, neg_one_mul, reduceAborts_neg]
          exact fun hh => hra (reduceAborts_comm.mp hh)
        · rw [Int.sign_eq_one_of_pos hpos, abs_of_pos hpos, one_mul]
          exact fun hh => hra (reduceAborts_comm.mp hh)
      have hr0 : r.value ≠ 0 := by rw [re]; exact one_div_ne_zero h0
      obtain ⟨f, f1, f2, f3⟩ := (reciprocal_red rv).2.1 (fun hz => hr0 (rv.tt_zero.mp hz)) hra'
      rw [f1, f2.eq_of_value_eq hx ?_]
      rw [f3, show (r.bb.val : ℚ) / r.tt.val = 1 / r.value by unfold value; rw [one_div_div], re, one_div_one_div]

example : reciprocal ⟨⟨[5], true⟩, ⟨[3], false⟩⟩ = .ok ⟨⟨[3], true⟩, ⟨[5], false⟩⟩ ∧
    reciprocal ⟨⟨[3], true⟩, ⟨[5], false⟩⟩ = .ok ⟨⟨[5], true⟩, ⟨[3], false⟩⟩ := by decide +kernel

/-! ### C47: programs -/

/-- C47. Any program over `Frac` variables (constants, strings, operators, compound assignments with aliasing, powers,
reciprocals, branches, loops, exceptions caught at each statement) behaves as the same program over rational numbers: it
ends with every variable in lowest terms and equal to the rational number, it aborts exactly when a reduction of
unreduced parts does, and it runs equally long. No claim is made after an in-place division by zero or an in-place power
with negative exponent. -/
theorem C47_program_refinement {p : FProg} (hp : p.Legal) {m : FMem} (hm : ∀ i, (m i).Valid) (depth : Nat) :
    match p.sem depth (fun i => (m i).value) with
    | .done v => ∃ m', p.exec depth m = .ok m' ∧ ∀ i, (m' i).Valid ∧ (m' i).value = v i
    | .abort => p.exec depth m = .error .assertion
    | .timeout => p.exec depth m = .error .diverge
    | .bad => True := by
  have h := FProg.exec_matches depth hp (m := m) hm
  change QMatches (p.exec depth m) (p.sem depth m.vals) at h
  change match p.sem depth m.vals with
    | .done v => ∃ m', p.exec depth m = .ok m' ∧ ∀ i, (m' i).Valid ∧ (m' i).value = v i
    | .abort => p.exec depth m = .error .assertion
    | .timeout => p.exec depth m = .error .diverge
    | .bad => True
  revert h
  cases p.sem depth m.vals with
  | bad => intro _; trivial
  | done v =>
    cases p.exec depth m with
    | ok m' => exact fun h => ⟨m', rfl, fun i => ⟨h.1 i, congrFun h.2 i⟩⟩
    | error e => cases e <;> exact fun h => absurd h id
  | abort =>
    cases p.exec depth m with
    | ok m' => exact fun h => absurd h id
    | error e => cases e <;> first | exact fun _ => rfl | exact fun h => absurd h id
  | timeout =>
    cases p.exec depth m with
    | ok m' => exact fun h => absurd h id
    | error e => cases e <;> first | exact fun _ => rfl | exact fun h => absurd h id

/-- The harmonic sum: `while (v1 < v2) { v1 += 1; v3 = v1.reciprocal(); v0 += v3; }`. -/
def harmonic : FProg := .while .lt 1 2 (.seq (.stmt (.asgInt .add 1 1)) (.seq (.stmt (.recip 3 1)) (.stmt (.asg .add 0 3))))

-- 1 + 1/2 + 1/3 + 1/4 = 25/12
example : harmonic.Legal ∧ (harmonic.exec 20 (fun i => if i = 2 then ⟨⟨[4], false⟩, ⟨[1], false⟩⟩ else
    ⟨⟨[0], false⟩, ⟨[1], false⟩⟩)).map (· 0) = .ok ⟨⟨[25], false⟩, ⟨[12], false⟩⟩ :=
  ⟨by simp [harmonic, FProg.Legal, FStmt.Legal], by decide +kernel⟩

end CppMaths

