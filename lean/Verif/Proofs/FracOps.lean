import Verif.Proofs.Frac
import Mathlib.RingTheory.Coprime.Lemmas
/-!
# The operators of `Frac`
-/

namespace CppMaths
open BigInt

namespace Frac

/-- The outcome of an operation that has to deliver `t / b` in lowest terms. -/
def Red (r : Res Frac) (t b : Int) : Prop :=
  (b = 0 → r = .error .divideByZero) ∧
  (b ≠ 0 → ¬ReduceAborts t b → ∃ f, r = .ok f ∧ f.Valid ∧ f.value = (t : ℚ) / b) ∧
  (b ≠ 0 → ReduceAborts t b → r = .error .assertion)

/-- The outcome of an operation that changes an object to `t / b` (`b` not zero) in lowest terms. -/
def MRed (r : MRes Frac Frac) (t b : Int) : Prop :=
  (¬ReduceAborts t b → ∃ f, r = .ok f ∧ f.Valid ∧ f.value = (t : ℚ) / b) ∧
  (ReduceAborts t b → ∃ s, r = .error (.assertion, s))

theorem red_mk' {t b : BigInt} (ht : Canon t) (hb : Canon b) : Red (mk' t b) t.val b.val := mk'_spec (.inl ht) hb

theorem mred_normalize {t b : BigInt} (ht : Almost t) (hb : Canon b) (hb0 : b.val ≠ 0) :
    MRed (normalize ⟨t, b⟩) t.val b.val := normalize_spec ht hb hb0

theorem almost_mul {x y : BigInt} (hx : Canon x) (hy : Canon y) :
    ∃ r, BigInt.mulAssign x y = .ok r ∧ Almost r ∧ r.val = x.val * y.val := by
  by_cases h : x.val = 0 ∨ y.val = 0
  · obtain ⟨r, r1, r2, r3, _⟩ := mulAssign_ok hx.1 hy.1
    refine ⟨r, r1, .inr ⟨r2, ?_⟩, r3⟩
    rw [r3]; rcases h with h | h <;> simp [h]
  · push Not at h
    obtain ⟨r, r1, r2, r3⟩ := mulAssign_canon hx.clean hy.clean h.1 h.2
    exact ⟨r, r1, .inl r2, r3⟩

theorem canon_mul {x y : BigInt} (hx : Canon x) (hy : Canon y) (hx0 : x.val ≠ 0) (hy0 : y.val ≠ 0) :
    ∃ r, BigInt.mulAssign x y = .ok r ∧ Canon r ∧ r.val = x.val * y.val :=
  mulAssign_canon hx.clean hy.clean hx0 hy0

theorem Valid.bb_ne {x : Frac} (h : x.Valid) : x.bb.val ≠ 0 := h.2.2.1.ne'

theorem Valid.tt_zero {x : Frac} (h : x.Valid) : x.tt.val = 0 ↔ x.value = 0 := by
  have hb : (x.bb.val : ℚ) ≠ 0 := by exact_mod_cast h.bb_ne
  unfold value
  rw [div_eq_zero_iff]
  simp [hb]

/-! ### Operators that return a new object -/

theorem opAdd_red {x y : Frac} (hx : x.Valid) (hy : y.Valid) :
    Red (opAdd x y) (x.tt.val * y.bb.val + y.tt.val * x.bb.val) (x.bb.val * y.bb.val) := by
  obtain ⟨a, a1, a2, a3⟩ := opMul_ok hx.1.clean hy.2.1.clean
  obtain ⟨b, b1, b2, b3⟩ := opMul_ok hy.1.clean hx.2.1.clean
  obtain ⟨s, s1, s2, s3⟩ := opAdd_ok a2.clean b2.clean
  obtain ⟨d, d1, d2, d3⟩ := opMul_ok hx.2.1.clean hy.2.1.clean
  unfold opAdd
  rw [a1, bind_ok, b1, bind_ok, s1, bind_ok, d1, bind_ok, ← a3, ← b3, ← s3, ← d3]
  exact red_mk' s2 d2

theorem opSub_red {x y : Frac} (hx : x.Valid) (hy : y.Valid) :
    Red (opSub x y) (x.tt.val * y.bb.val - y.tt.val * x.bb.val) (x.bb.val * y.bb.val) := by
  obtain ⟨a, a1, a2, a3⟩ := opMul_ok hx.1.clean hy.2.1.clean
  obtain ⟨b, b1, b2, b3⟩ := opMul_ok hy.1.clean hx.2.1.clean
  obtain ⟨s, s1, s2, s3⟩ := opSub_ok a2.clean b2.clean
  obtain ⟨d, d1, d2, d3⟩ := opMul_ok hx.2.1.clean hy.2.1.clean
  unfold opSub
  rw [a1, bind_ok, b1, bind_ok, s1, bind_ok, d1, bind_ok, ← a3, ← b3, ← s3, ← d3]
  exact red_mk' s2 d2

theorem opMul_red {x y : Frac} (hx : x.Valid) (hy : y.Valid) :
    Red (opMul x y) (x.tt.val * y.tt.val) (x.bb.val * y.bb.val) := by
  obtain ⟨a, a1, a2, a3⟩ := opMul_ok hx.1.clean hy.1.clean
  obtain ⟨d, d1, d2, d3⟩ := opMul_ok hx.2.1.clean hy.2.1.clean
  unfold opMul
  rw [a1, bind_ok, d1, bind_ok, ← a3, ← d3]
  exact red_mk' a2 d2

theorem opDiv_red {x y : Frac} (hx : x.Valid) (hy : y.Valid) :
    Red (opDiv x y) (x.tt.val * y.bb.val) (x.bb.val * y.tt.val) := by
  obtain ⟨a, a1, a2, a3⟩ := opMul_ok hx.1.clean hy.2.1.clean
  obtain ⟨d, d1, d2, d3⟩ := opMul_ok hx.2.1.clean hy.1.clean
  unfold opDiv
  rw [a1, bind_ok, d1, bind_ok, ← a3, ← d3]
  exact red_mk' a2 d2

theorem reciprocal_red {x : Frac} (hx : x.Valid) : Red (reciprocal x) x.bb.val x.tt.val := red_mk' hx.2.1 hx.1

theorem intAdd_red {a : BigInt} {x : Frac} (ha : Canon a) (hx : x.Valid) :
    Red (intAdd a x) (a.val * x.bb.val + x.tt.val) x.bb.val := by
  obtain ⟨p, p1, p2, p3⟩ := opMul_ok ha.clean hx.2.1.clean
  obtain ⟨s, s1, s2, s3⟩ := opAdd_ok p2.clean hx.1.clean
  unfold intAdd
  rw [p1, bind_ok, s1, bind_ok, ← p3, ← s3]
  exact red_mk' s2 hx.2.1

theorem intSub_red {a : BigInt} {x : Frac} (ha : Canon a) (hx : x.Valid) :
    Red (intSub a x) (a.val * x.bb.val - x.tt.val) x.bb.val := by
  obtain ⟨p, p1, p2, p3⟩ := opMul_ok ha.clean hx.2.1.clean
  obtain ⟨s, s1, s2, s3⟩ := opSub_ok p2.clean hx.1.clean
  unfold intSub
  rw [p1, bind_ok, s1, bind_ok, ← p3, ← s3]
  exact red_mk' s2 hx.2.1

theorem intMul_red {a : BigInt} {x : Frac} (ha : Canon a) (hx : x.Valid) :
    Red (intMul a x) (a.val * x.tt.val) x.bb.val := by
  obtain ⟨p, p1, p2, p3⟩ := opMul_ok ha.clean hx.1.clean
  unfold intMul
  rw [p1, bind_ok, ← p3]
  exact red_mk' p2 hx.2.1

theorem intDiv_red {a : BigInt} {x : Frac} (ha : Canon a) (hx : x.Valid) :
    Red (intDiv a x) (a.val * x.bb.val) x.tt.val := by
  obtain ⟨p, p1, p2, p3⟩ := opMul_ok ha.clean hx.2.1.clean
  unfold intDiv
  rw [p1, bind_ok, ← p3]
  exact red_mk' p2 hx.1

theorem addInt_red {a : BigInt} {x : Frac} (ha : Canon a) (hx : x.Valid) :
    Red (addInt x a) (x.tt.val + a.val * x.bb.val) x.bb.val := by
  obtain ⟨p, p1, p2, p3⟩ := opMul_ok ha.clean hx.2.1.clean
  obtain ⟨s, s1, s2, s3⟩ := opAdd_ok hx.1.clean p2.clean
  unfold addInt
  rw [p1, bind_ok, s1, bind_ok, ← p3, ← s3]
  exact red_mk' s2 hx.2.1

theorem subInt_red {a : BigInt} {x : Frac} (ha : Canon a) (hx : x.Valid) :
    Red (subInt x a) (x.tt.val - a.val * x.bb.val) x.bb.val := by
  obtain ⟨p, p1, p2, p3⟩ := opMul_ok ha.clean hx.2.1.clean
  obtain ⟨s, s1, s2, s3⟩ := opSub_ok hx.1.clean p2.clean
  unfold subInt
  rw [p1, bind_ok, s1, bind_ok, ← p3, ← s3]
  exact red_mk' s2 hx.2.1

theorem mulInt_red {a : BigInt} {x : Frac} (ha : Canon a) (hx : x.Valid) :
    Red (mulInt x a) (a.val * x.tt.val) x.bb.val := intMul_red ha hx

theorem divInt_red {a : BigInt} {x : Frac} (ha : Canon a) (hx : x.Valid) :
    Red (divInt x a) x.tt.val (x.bb.val * a.val) := by
  obtain ⟨p, p1, p2, p3⟩ := opMul_ok hx.2.1.clean ha.clean
  unfold divInt
  rw [p1, bind_ok, ← p3]
  exact red_mk' hx.1 p2

/-- The power of an `Int` with exponent `a` is the power with exponent `n`, for every base. -/
def PowIs (a : BigInt) (n : Nat) : Prop := ∀ x, Canon x → ∃ r, exponentiate x a = .ok r ∧ Canon r ∧ r.val = x.val ^ n

theorem powIs_good {a : BigInt} (ha : Canon a) (h0 : 0 ≤ a.val) (hg : GoodExp a.val) : PowIs a a.val.toNat :=
  fun _ hx => exponentiate_ok hx ha h0 hg

/-- For every exponent that is not negative: powers abort for every base, or there is one exponent that is used for every
base. -/
theorem powIs_bad {a : BigInt} (ha : Canon a) (h0 : 0 ≤ a.val) (hg : ¬GoodExp a.val) :
    (∀ x, Canon x → exponentiate x a = .error .assertion) ∨ ∃ n : Nat, 1 ≤ n ∧ (n : Int) < a.val ∧ PowIs a n := by
  rcases (exponentiate_spec ha h0).2 hg with e | ⟨n, n1, n2, e⟩
  · exact .inl fun x hx => e x hx.1
  · refine .inr ⟨n, n1, by omega, fun x hx => ?_⟩
    obtain ⟨r, r1, _, r2, r3⟩ := e x hx.1
    exact ⟨r, r1, r2 hx, r3⟩

theorem negative_of_nonneg {a : BigInt} (ha : Canon a) (h0 : 0 ≤ a.val) : a.negative = false := by
  have := ha.neg_iff
  cases h : a.negative
  · rfl
  · have := this.mp h; omega

theorem opPow_red_is {a : BigInt} {x : Frac} {n : Nat} (ha : Canon a) (hx : x.Valid) (h0 : 0 ≤ a.val) (hp : PowIs a n) :
    Red (opPow x a) (x.tt.val ^ n) (x.bb.val ^ n) := by
  obtain ⟨t, t1, t2, t3⟩ := hp _ hx.1
  obtain ⟨b, b1, b2, b3⟩ := hp _ hx.2.1
  unfold opPow
  rw [negative_of_nonneg ha h0]
  simp only [Bool.false_eq_true, if_false, BigInt.opPow, t1, b1, bind_ok]
  rw [← t3, ← b3]
  exact red_mk' t2 b2

theorem opPow_red_is_neg {a m : BigInt} {x : Frac} {n : Nat} (ha : Canon a) (hx : x.Valid) (h0 : a.val < 0)
    (hm : a.neg = .ok m) (hp : PowIs m n) : Red (opPow x a) (x.bb.val ^ n) (x.tt.val ^ n) := by
  obtain ⟨t, t1, t2, t3⟩ := hp _ hx.1
  obtain ⟨b, b1, b2, b3⟩ := hp _ hx.2.1
  unfold opPow
  rw [ha.neg_iff.mpr h0]
  simp only [if_true, BigInt.opPow, hm, t1, b1, bind_ok]
  rw [← t3, ← b3]
  exact red_mk' b2 t2

theorem opPow_red_nonneg {a : BigInt} {x : Frac} (ha : Canon a) (hx : x.Valid) (h0 : 0 ≤ a.val) (hg : GoodExp a.val) :
    Red (opPow x a) (x.tt.val ^ a.val.toNat) (x.bb.val ^ a.val.toNat) := opPow_red_is ha hx h0 (powIs_good ha h0 hg)

theorem opPow_red_neg {a : BigInt} {x : Frac} (ha : Canon a) (hx : x.Valid) (h0 : a.val < 0) (hg : GoodExp (-a.val)) :
    Red (opPow x a) (x.bb.val ^ (-a.val).toNat) (x.tt.val ^ (-a.val).toNat) := by
  obtain ⟨m, n1, n2, _, n4, _⟩ := neg_canon ha.clean
  rw [← n4] at hg ⊢
  exact opPow_red_is_neg ha hx h0 n1 (powIs_good n2 (by omega) hg)

/-! ### Operators that change their left operand -/

theorem addAssign_red {x y : Frac} (hx : x.Valid) (hy : y.Valid) :
    MRed (addAssign x y) (x.tt.val * y.bb.val + y.tt.val * x.bb.val) (x.bb.val * y.bb.val) := by
  obtain ⟨a, a1, a2, a3⟩ := opMul_ok hx.1.clean hy.2.1.clean
  obtain ⟨b, b1, b2, b3⟩ := opMul_ok hy.1.clean hx.2.1.clean
  obtain ⟨s, s1, s2, s3⟩ := opAdd_ok a2.clean b2.clean
  obtain ⟨d, d1, d2, d3⟩ := canon_mul hx.2.1 hy.2.1 hx.bb_ne hy.bb_ne
  unfold addAssign
  simp only [a1, bind_ok, b1, s1, d1, at'_ok, mbind_ok, ← a3, ← b3, ← s3, ← d3]
  exact mred_normalize (.inl s2) d2 (by rw [d3]; exact mul_ne_zero hx.bb_ne hy.bb_ne)

theorem subAssign_red {x y : Frac} (hx : x.Valid) (hy : y.Valid) :
    MRed (subAssign x y) (x.tt.val * y.bb.val - y.tt.val * x.bb.val) (x.bb.val * y.bb.val) := by
  obtain ⟨a, a1, a2, a3⟩ := opMul_ok hx.1.clean hy.2.1.clean
  obtain ⟨b, b1, b2, b3⟩ := opMul_ok hy.1.clean hx.2.1.clean
  obtain ⟨s, s1, s2, s3⟩ := opSub_ok a2.clean b2.clean
  obtain ⟨d, d1, d2, d3⟩ := canon_mul hx.2.1 hy.2.1 hx.bb_ne hy.bb_ne
  unfold subAssign
  simp only [a1, bind_ok, b1, s1, d1, at'_ok, mbind_ok, ← a3, ← b3, ← s3, ← d3]
  exact mred_normalize (.inl s2) d2 (by rw [d3]; exact mul_ne_zero hx.bb_ne hy.bb_ne)

theorem mulAssign_red {x y : Frac} (hx : x.Valid) (hy : y.Valid) :
    MRed (mulAssign x y) (x.tt.val * y.tt.val) (x.bb.val * y.bb.val) := by
  obtain ⟨t, t1, t2, t3⟩ := almost_mul hx.1 hy.1
  obtain ⟨d, d1, d2, d3⟩ := canon_mul hx.2.1 hy.2.1 hx.bb_ne hy.bb_ne
  unfold mulAssign
  simp only [t1, d1, at'_ok, mbind_ok, ← t3, ← d3]
  exact mred_normalize t2 d2 (by rw [d3]; exact mul_ne_zero hx.bb_ne hy.bb_ne)

theorem divAssign_red {x y : Frac} (hx : x.Valid) (hy : y.Valid) (h0 : y.tt.val ≠ 0) :
    MRed (divAssign x y) (x.tt.val * y.bb.val) (x.bb.val * y.tt.val) := by
  obtain ⟨t, t1, t2, t3⟩ := almost_mul hx.1 hy.2.1
  obtain ⟨d, d1, d2, d3⟩ := canon_mul hx.2.1 hy.1 hx.bb_ne h0
  unfold divAssign
  simp only [t1, d1, at'_ok, mbind_ok, ← t3, ← d3]
  exact mred_normalize t2 d2 (by rw [d3]; exact mul_ne_zero hx.bb_ne h0)

theorem addAssignInt_red {x : Frac} {a : BigInt} (hx : x.Valid) (ha : Canon a) :
    MRed (addAssignInt x a) (x.tt.val + x.bb.val * a.val) x.bb.val := by
  obtain ⟨p, p1, p2, p3⟩ := opMul_ok hx.2.1.clean ha.clean
  obtain ⟨t, t1, t2, t3⟩ := addAssign_ok hx.1.clean p2.clean
  unfold addAssignInt
  simp only [p1, t1, at'_ok, mbind_ok, ← p3, ← t3]
  exact mred_normalize (.inl t2) hx.2.1 hx.bb_ne

theorem subAssignInt_red {x : Frac} {a : BigInt} (hx : x.Valid) (ha : Canon a) :
    MRed (subAssignInt x a) (x.tt.val - x.bb.val * a.val) x.bb.val := by
  obtain ⟨p, p1, p2, p3⟩ := opMul_ok hx.2.1.clean ha.clean
  obtain ⟨t, t1, t2, t3⟩ := subAssign_ok hx.1.clean p2.clean
  unfold subAssignInt
  simp only [p1, t1, at'_ok, mbind_ok, ← p3, ← t3]
  exact mred_normalize (.inl t2) hx.2.1 hx.bb_ne

theorem mulAssignInt_red {x : Frac} {a : BigInt} (hx : x.Valid) (ha : Canon a) :
    MRed (mulAssignInt x a) (x.tt.val * a.val) x.bb.val := by
  obtain ⟨t, t1, t2, t3⟩ := almost_mul hx.1 ha
  unfold mulAssignInt
  simp only [t1, at'_ok, mbind_ok, ← t3]
  exact mred_normalize t2 hx.2.1 hx.bb_ne

theorem divAssignInt_red {x : Frac} {a : BigInt} (hx : x.Valid) (ha : Canon a) (h0 : a.val ≠ 0) :
    MRed (divAssignInt x a) x.tt.val (x.bb.val * a.val) := by
  obtain ⟨d, d1, d2, d3⟩ := canon_mul hx.2.1 ha hx.bb_ne h0
  unfold divAssignInt
  simp only [d1, at'_ok, mbind_ok, ← d3]
  exact mred_normalize (.inl hx.1) d2 (by rw [d3]; exact mul_ne_zero hx.bb_ne h0)

theorem powAssign_red_is {x : Frac} {a : BigInt} {n : Nat} (hx : x.Valid) (ha : Canon a) (h0 : 0 ≤ a.val) (hp : PowIs a n) :
    MRed (powAssign x a) (x.tt.val ^ n) (x.bb.val ^ n) := by
  obtain ⟨t, t1, t2, t3⟩ := hp _ hx.1
  obtain ⟨b, b1, b2, b3⟩ := hp _ hx.2.1
  unfold powAssign
  rw [negative_of_nonneg ha h0]
  simp only [Bool.false_eq_true, if_false, BigInt.powAssign, t1, b1, at'_ok, mbind_ok, ← t3, ← b3]
  exact mred_normalize (.inl t2) b2 (by rw [b3]; exact pow_ne_zero _ hx.bb_ne)

theorem powAssign_red_is_neg {x : Frac} {a m : BigInt} {n : Nat} (hx : x.Valid) (ha : Canon a) (h0 : a.val < 0)
    (hm : a.neg = .ok m) (hp : PowIs m n) : MRed (powAssign x a) (x.tt.val ^ n) (x.bb.val ^ n) := by
  obtain ⟨t, t1, t2, t3⟩ := hp _ hx.1
  obtain ⟨b, b1, b2, b3⟩ := hp _ hx.2.1
  unfold powAssign
  rw [ha.neg_iff.mpr h0]
  simp only [if_true, BigInt.powAssign, hm, t1, b1, at'_ok, mbind_ok, ← t3, ← b3]
  exact mred_normalize (.inl t2) b2 (by rw [b3]; exact pow_ne_zero _ hx.bb_ne)

/-- `^=` raises both parts to the absolute value of the exponent. -/
theorem powAssign_red {x : Frac} {a : BigInt} (hx : x.Valid) (ha : Canon a) (hg : GoodExp |a.val|) :
    MRed (powAssign x a) (x.tt.val ^ a.val.natAbs) (x.bb.val ^ a.val.natAbs) := by
  rcases lt_or_ge a.val 0 with h0 | h0
  · rw [abs_of_neg h0] at hg
    obtain ⟨m, n1, n2, _, n4, _⟩ := neg_canon ha.clean
    rw [← n4] at hg
    have := powAssign_red_is_neg hx ha h0 n1 (powIs_good n2 (by omega) hg)
    rwa [show m.val.toNat = a.val.natAbs by omega] at this
  · rw [abs_of_nonneg h0] at hg
    have := powAssign_red_is hx ha h0 (powIs_good ha h0 hg)
    rwa [show a.val.toNat = a.val.natAbs by omega] at this

/-! ### Denominator zero -/

/-- What `normalize` does to `t / 0` for `t ≠ 0`: it aborts or leaves `1 / 0` or `-1 / 0`. -/
theorem normalize_zero_den {t b : BigInt} (ht : Canon t) (ht0 : t.val ≠ 0) (hb : WF b) (hb0 : b.val = 0)
    (hs : b.negative = false) :
    (∃ f, normalize ⟨t, b⟩ = .ok f ∧ Canon f.tt ∧ Canon f.bb ∧ f.tt.val = t.val.sign ∧ f.bb.val = 0) ∨
    (∃ s, normalize ⟨t, b⟩ = .error (.assertion, s)) := by
  obtain ⟨a, a1, a2, a3⟩ := canon_abs ht
  obtain ⟨z, z1, z2, z3, z4⟩ := abs_ok hb
  rw [← abs_val hb, hb0, abs_zero] at z4
  have hg : gcd t b = .ok a := by
    unfold gcd
    have hl : ¬a.val < z.val := by rw [a3, z4]; exact not_lt.mpr (abs_nonneg _)
    rw [a1, z1, bind_ok, bind_ok, lt_spec a2.1 z2, bind_ok, if_neg (by simpa using hl)]
    unfold nochecksGcd gcdLoop
    rw [equalsInt32_zero z2, bind_ok, if_pos (by simpa [val_eq_zero_iff] using z4)]
    rfl
  have ha0 : a.val ≠ 0 := by rw [a3]; exact abs_ne_zero.mpr ht0
  have hn : ¬DivTrips b a := by
    rintro ⟨h, _⟩
    rw [← abs_val hb, ← abs_val a2.1, hb0, abs_zero] at h
    exact absurd (abs_pos.mpr ha0) (not_lt.mpr h)
  obtain ⟨b', b1, b2, b3⟩ := (divide_spec hb a2.1).2.2 ha0 hn
  have e : normalize ⟨t, b⟩ = (do
      let t' ← at' (⟨t, b⟩ : Frac) (t.divAssign a)
      let b' ← at' (⟨t', b⟩ : Frac) (b.divAssign a)
      return (⟨t', b'⟩ : Frac)) := by
    simp [normalize, hs, hg]
  rw [e, divAssign_eq, divAssign_eq]
  by_cases hd : DivAborts t.val a.val
  · right
    rw [(divide_exact ht a2).2.1 ha0 hd]
    exact ⟨_, rfl⟩
  · left
    obtain ⟨t', t1, t2, t3⟩ := (divide_exact ht a2).2.2 ha0 hd
    refine ⟨⟨t', b'⟩, ?_, t2, b2, ?_, ?_⟩
    · rw [t1]; simp [b1]
    · rw [t3, a3]
      rcases lt_trichotomy t.val 0 with h | h | h
      · rw [abs_of_neg h, Int.tdiv_neg, Int.tdiv_self ht0, Int.sign_eq_neg_one_of_neg h]
      · exact absurd h ht0
      · rw [abs_of_pos h, Int.tdiv_self ht0, Int.sign_eq_one_of_pos h]
    · rw [b3, hb0, Int.zero_tdiv]

/-- What `normalize` does to `0 / 0`: it throws and leaves it as it is. -/
theorem normalize_zero_zero {t b : BigInt} (ht : WF t) (ht0 : t.val = 0) (hb : WF b) (hb0 : b.val = 0)
    (hs : b.negative = false) : normalize ⟨t, b⟩ = .error (.divideByZero, ⟨t, b⟩) := by
  obtain ⟨a, a1, a2, a3, a4⟩ := abs_ok ht
  obtain ⟨z, z1, z2, z3, z4⟩ := abs_ok hb
  rw [← abs_val hb, hb0, abs_zero] at z4
  rw [← abs_val ht, ht0, abs_zero] at a4
  have hg : gcd t b = .ok a := by
    unfold gcd
    have hl : ¬a.val < z.val := by rw [a4, z4]; exact lt_irrefl _
    rw [a1, z1, bind_ok, bind_ok, lt_spec a2 z2, bind_ok, if_neg (by simpa using hl)]
    unfold nochecksGcd gcdLoop
    rw [equalsInt32_zero z2, bind_ok, if_pos (by simpa [val_eq_zero_iff] using z4)]
    rfl
  have e : normalize ⟨t, b⟩ = (do
      let t' ← at' (⟨t, b⟩ : Frac) (t.divAssign a)
      let b' ← at' (⟨t', b⟩ : Frac) (b.divAssign a)
      return (⟨t', b'⟩ : Frac)) := by
    simp [normalize, hs, hg]
  rw [e, divAssign_eq, (divide_spec ht a2).1 a4]
  rfl

/-! ### Comparisons -/

/-- Two fractions in lowest terms with the same value are the same object. -/
theorem Valid.eq_of_value_eq {x y : Frac} (hx : x.Valid) (hy : y.Valid) (h : x.value = y.value) : x = y := by
  have hxb : (x.bb.val : ℚ) ≠ 0 := by exact_mod_cast hx.bb_ne
  have hyb : (y.bb.val : ℚ) ≠ 0 := by exact_mod_cast hy.bb_ne
  unfold value at h
  rw [div_eq_div_iff hxb hyb] at h
  have h' : x.tt.val * y.bb.val = y.tt.val * x.bb.val := by exact_mod_cast h
  have gx : IsCoprime x.bb.val x.tt.val := (Int.isCoprime_iff_gcd_eq_one.mpr hx.2.2.2).symm
  have gy : IsCoprime y.bb.val y.tt.val := (Int.isCoprime_iff_gcd_eq_one.mpr hy.2.2.2).symm
  have d1 : x.bb.val ∣ y.bb.val := gx.dvd_of_dvd_mul_left ⟨y.tt.val, by rw [h']; ring⟩
  have d2 : y.bb.val ∣ x.bb.val := gy.dvd_of_dvd_mul_left ⟨x.tt.val, by rw [← h']; ring⟩
  have eb : x.bb.val = y.bb.val := Int.dvd_antisymm hx.2.2.1.le hy.2.2.1.le d1 d2
  have et : x.tt.val = y.tt.val := by
    rw [eb] at h'
    exact mul_right_cancel₀ hy.bb_ne h'
  have e1 := hx.1.eq_of_val_eq hy.1 et
  have e2 := hx.2.1.eq_of_val_eq hy.2.1 eb
  cases x; cases y
  simp only at e1 e2
  rw [e1, e2]

theorem eq_spec {x y : Frac} (hx : x.Valid) (hy : y.Valid) : eq x y = .ok (decide (x.value = y.value)) := by
  unfold eq
  rw [BigInt.eq_spec hx.1.1 hy.1.1, bind_ok]
  by_cases h : x.value = y.value
  · have := hx.eq_of_value_eq hy h
    subst this
    simp [BigInt.eq_spec hx.2.1.1 hx.2.1.1]
  · by_cases ht : x.tt.val = y.tt.val
    · rw [if_pos (by simpa using ht), BigInt.eq_spec hx.2.1.1 hy.2.1.1]
      have hb : ¬x.bb.val = y.bb.val := fun hb => h (by unfold value; rw [ht, hb])
      simp [h, hb]
    · rw [if_neg (by simpa using ht)]
      simp [h]

theorem lt_spec {x y : Frac} (hx : x.Valid) (hy : y.Valid) : lt x y = .ok (decide (x.value < y.value)) := by
  obtain ⟨a, a1, a2, a3⟩ := opMul_ok hx.1.clean hy.2.1.clean
  obtain ⟨b, b1, b2, b3⟩ := opMul_ok hy.1.clean hx.2.1.clean
  unfold lt
  rw [a1, bind_ok, b1, bind_ok, BigInt.lt_spec a2.1 b2.1, a3, b3]
  congr 1
  have hxb : (0 : ℚ) < x.bb.val := by exact_mod_cast hx.2.2.1
  have hyb : (0 : ℚ) < y.bb.val := by exact_mod_cast hy.2.2.1
  rw [decide_eq_decide]
  unfold value
  rw [div_lt_div_iff₀ hxb hyb]
  exact_mod_cast Iff.rfl

end Frac
end CppMaths
