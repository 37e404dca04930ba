import Verif.Proofs.FracRelease
/-!
# The operators of `Frac` without assertions
-/

namespace CppMaths
open BigInt

namespace Frac

theorem opMulR_canon {x y : BigInt} (hx : Clean x) (hy : Clean y) :
    ∃ r, BigInt.opMulR x y = .ok r ∧ Canon r ∧ r.val = x.val * y.val := by
  obtain ⟨r, r1, r2⟩ := opMul_ok hx hy
  exact ⟨r, opMul_keeps _ _ _ r1, r2⟩

theorem opAddR_canon {x y : BigInt} (hx : Clean x) (hy : Clean y) :
    ∃ r, BigInt.opAddR x y = .ok r ∧ Canon r ∧ r.val = x.val + y.val := by
  obtain ⟨r, r1, r2⟩ := opAdd_ok hx hy
  exact ⟨r, opAdd_keeps _ _ _ r1, r2⟩

theorem opSubR_canon {x y : BigInt} (hx : Clean x) (hy : Clean y) :
    ∃ r, BigInt.opSubR x y = .ok r ∧ Canon r ∧ r.val = x.val - y.val := by
  obtain ⟨r, r1, r2⟩ := opSub_ok hx hy
  exact ⟨r, opSub_keeps _ _ _ r1, r2⟩

theorem addAssignU_canon {x y : BigInt} (hx : Clean x) (hy : Clean y) :
    ∃ r, BigInt.addAssignU x y = .ok r ∧ Canon r ∧ r.val = x.val + y.val := by
  obtain ⟨r, r1, r2⟩ := addAssign_ok hx hy
  exact ⟨r, addAssign_keeps _ _ _ r1, r2⟩

theorem subAssignU_canon {x y : BigInt} (hx : Clean x) (hy : Clean y) :
    ∃ r, BigInt.subAssignU x y = .ok r ∧ Canon r ∧ r.val = x.val - y.val := by
  obtain ⟨r, r1, r2⟩ := subAssign_ok hx hy
  exact ⟨r, subAssign_keeps _ _ _ r1, r2⟩

theorem almost_mulU {x y : BigInt} (hx : Canon x) (hy : Canon y) :
    ∃ r, BigInt.mulAssignU x y = .ok r ∧ Almost r ∧ r.val = x.val * y.val := by
  obtain ⟨r, r1, r2⟩ := almost_mul hx hy
  exact ⟨r, mulAssign_keeps _ _ _ r1, r2⟩

theorem canon_mulU {x y : BigInt} (hx : Canon x) (hy : Canon y) (hx0 : x.val ≠ 0) (hy0 : y.val ≠ 0) :
    ∃ r, BigInt.mulAssignU x y = .ok r ∧ Canon r ∧ r.val = x.val * y.val := by
  obtain ⟨r, r1, r2⟩ := canon_mul hx hy hx0 hy0
  exact ⟨r, mulAssign_keeps _ _ _ r1, r2⟩

/-! ### Operators that return a new object -/

theorem opAddR_red {x y : Frac} (hx : x.Valid) (hy : y.Valid) :
    RedR (opAddR x y) (x.tt.val * y.bb.val + y.tt.val * x.bb.val) (x.bb.val * y.bb.val) := by
  obtain ⟨a, a1, a2, a3⟩ := opMulR_canon hx.1.clean hy.2.1.clean
  obtain ⟨b, b1, b2, b3⟩ := opMulR_canon hy.1.clean hx.2.1.clean
  obtain ⟨s, s1, s2, s3⟩ := opAddR_canon a2.clean b2.clean
  obtain ⟨d, d1, d2, d3⟩ := opMulR_canon hx.2.1.clean hy.2.1.clean
  unfold opAddR
  rw [a1, bind_ok, b1, bind_ok, s1, bind_ok, d1, bind_ok, ← a3, ← b3, ← s3, ← d3]
  exact red_mkR s2 d2

theorem opSubR_red {x y : Frac} (hx : x.Valid) (hy : y.Valid) :
    RedR (opSubR x y) (x.tt.val * y.bb.val - y.tt.val * x.bb.val) (x.bb.val * y.bb.val) := by
  obtain ⟨a, a1, a2, a3⟩ := opMulR_canon hx.1.clean hy.2.1.clean
  obtain ⟨b, b1, b2, b3⟩ := opMulR_canon hy.1.clean hx.2.1.clean
  obtain ⟨s, s1, s2, s3⟩ := opSubR_canon a2.clean b2.clean
  obtain ⟨d, d1, d2, d3⟩ := opMulR_canon hx.2.1.clean hy.2.1.clean
  unfold opSubR
  rw [a1, bind_ok, b1, bind_ok, s1, bind_ok, d1, bind_ok, ← a3, ← b3, ← s3, ← d3]
  exact red_mkR s2 d2

theorem opMulR_red {x y : Frac} (hx : x.Valid) (hy : y.Valid) :
    RedR (opMulR x y) (x.tt.val * y.tt.val) (x.bb.val * y.bb.val) := by
  obtain ⟨a, a1, a2, a3⟩ := opMulR_canon hx.1.clean hy.1.clean
  obtain ⟨d, d1, d2, d3⟩ := opMulR_canon hx.2.1.clean hy.2.1.clean
  unfold opMulR
  rw [a1, bind_ok, d1, bind_ok, ← a3, ← d3]
  exact red_mkR a2 d2

theorem opDivR_red {x y : Frac} (hx : x.Valid) (hy : y.Valid) :
    RedR (opDivR x y) (x.tt.val * y.bb.val) (x.bb.val * y.tt.val) := by
  obtain ⟨a, a1, a2, a3⟩ := opMulR_canon hx.1.clean hy.2.1.clean
  obtain ⟨d, d1, d2, d3⟩ := opMulR_canon hx.2.1.clean hy.1.clean
  unfold opDivR
  rw [a1, bind_ok, d1, bind_ok, ← a3, ← d3]
  exact red_mkR a2 d2

theorem reciprocalR_red {x : Frac} (hx : x.Valid) : RedR (reciprocalR x) x.bb.val x.tt.val := red_mkR hx.2.1 hx.1

theorem intAddR_red {a : BigInt} {x : Frac} (ha : Canon a) (hx : x.Valid) :
    RedR (intAddR a x) (a.val * x.bb.val + x.tt.val) x.bb.val := by
  obtain ⟨p, p1, p2, p3⟩ := opMulR_canon ha.clean hx.2.1.clean
  obtain ⟨s, s1, s2, s3⟩ := opAddR_canon p2.clean hx.1.clean
  unfold intAddR
  rw [p1, bind_ok, s1, bind_ok, ← p3, ← s3]
  exact red_mkR s2 hx.2.1

theorem intSubR_red {a : BigInt} {x : Frac} (ha : Canon a) (hx : x.Valid) :
    RedR (intSubR a x) (a.val * x.bb.val - x.tt.val) x.bb.val := by
  obtain ⟨p, p1, p2, p3⟩ := opMulR_canon ha.clean hx.2.1.clean
  obtain ⟨s, s1, s2, s3⟩ := opSubR_canon p2.clean hx.1.clean
  unfold intSubR
  rw [p1, bind_ok, s1, bind_ok, ← p3, ← s3]
  exact red_mkR s2 hx.2.1

theorem intMulR_red {a : BigInt} {x : Frac} (ha : Canon a) (hx : x.Valid) :
    RedR (intMulR a x) (a.val * x.tt.val) x.bb.val := by
  obtain ⟨p, p1, p2, p3⟩ := opMulR_canon ha.clean hx.1.clean
  unfold intMulR
  rw [p1, bind_ok, ← p3]
  exact red_mkR p2 hx.2.1

theorem intDivR_red {a : BigInt} {x : Frac} (ha : Canon a) (hx : x.Valid) :
    RedR (intDivR a x) (a.val * x.bb.val) x.tt.val := by
  obtain ⟨p, p1, p2, p3⟩ := opMulR_canon ha.clean hx.2.1.clean
  unfold intDivR
  rw [p1, bind_ok, ← p3]
  exact red_mkR p2 hx.1

theorem addIntR_red {a : BigInt} {x : Frac} (ha : Canon a) (hx : x.Valid) :
    RedR (addIntR x a) (x.tt.val + a.val * x.bb.val) x.bb.val := by
  obtain ⟨p, p1, p2, p3⟩ := opMulR_canon ha.clean hx.2.1.clean
  obtain ⟨s, s1, s2, s3⟩ := opAddR_canon hx.1.clean p2.clean
  unfold addIntR
  rw [p1, bind_ok, s1, bind_ok, ← p3, ← s3]
  exact red_mkR s2 hx.2.1

theorem subIntR_red {a : BigInt} {x : Frac} (ha : Canon a) (hx : x.Valid) :
    RedR (subIntR x a) (x.tt.val - a.val * x.bb.val) x.bb.val := by
  obtain ⟨p, p1, p2, p3⟩ := opMulR_canon ha.clean hx.2.1.clean
  obtain ⟨s, s1, s2, s3⟩ := opSubR_canon hx.1.clean p2.clean
  unfold subIntR
  rw [p1, bind_ok, s1, bind_ok, ← p3, ← s3]
  exact red_mkR s2 hx.2.1

theorem mulIntR_red {a : BigInt} {x : Frac} (ha : Canon a) (hx : x.Valid) :
    RedR (mulIntR x a) (a.val * x.tt.val) x.bb.val := intMulR_red ha hx

theorem divIntR_red {a : BigInt} {x : Frac} (ha : Canon a) (hx : x.Valid) :
    RedR (divIntR x a) x.tt.val (x.bb.val * a.val) := by
  obtain ⟨p, p1, p2, p3⟩ := opMulR_canon hx.2.1.clean ha.clean
  unfold divIntR
  rw [p1, bind_ok, ← p3]
  exact red_mkR hx.1 p2

/-- The power of an `Int` with exponent `a` is the power with exponent `n`, for every base. -/
def PowIsR (a : BigInt) (n : Nat) : Prop := ∀ x, Canon x → ∃ r, exponentiateR x a = .ok r ∧ Canon r ∧ r.val = x.val ^ n

theorem PowIs.release {a : BigInt} {n : Nat} (h : PowIs a n) : PowIsR a n := fun x hx => by
  obtain ⟨r, r1, r2⟩ := h x hx
  exact ⟨r, exponentiate_keeps _ _ _ r1, r2⟩

theorem opPowR_red_is {a : BigInt} {x : Frac} {n : Nat} (ha : Canon a) (hx : x.Valid) (h0 : 0 ≤ a.val) (hp : PowIsR a n) :
    RedR (opPowR x a) (x.tt.val ^ n) (x.bb.val ^ n) := by
  obtain ⟨t, t1, t2, t3⟩ := hp _ hx.1
  obtain ⟨b, b1, b2, b3⟩ := hp _ hx.2.1
  unfold opPowR
  rw [negative_of_nonneg ha h0]
  simp only [Bool.false_eq_true, if_false, BigInt.opPowR, t1, b1, bind_ok]
  rw [← t3, ← b3]
  exact red_mkR t2 b2

theorem opPowR_red_is_neg {a m : BigInt} {x : Frac} {n : Nat} (ha : Canon a) (hx : x.Valid) (h0 : a.val < 0)
    (hm : a.neg = .ok m) (hp : PowIsR m n) : RedR (opPowR x a) (x.bb.val ^ n) (x.tt.val ^ n) := by
  obtain ⟨t, t1, t2, t3⟩ := hp _ hx.1
  obtain ⟨b, b1, b2, b3⟩ := hp _ hx.2.1
  unfold opPowR
  rw [ha.neg_iff.mpr h0]
  simp only [if_true, BigInt.opPowR, hm, t1, b1, bind_ok]
  rw [← t3, ← b3]
  exact red_mkR b2 t2

theorem opPowR_red_nonneg {a : BigInt} {x : Frac} (ha : Canon a) (hx : x.Valid) (h0 : 0 ≤ a.val) (hg : GoodExp a.val) :
    RedR (opPowR x a) (x.tt.val ^ a.val.toNat) (x.bb.val ^ a.val.toNat) := opPowR_red_is ha hx h0 (powIs_good ha h0 hg).release

theorem opPowR_red_neg {a : BigInt} {x : Frac} (ha : Canon a) (hx : x.Valid) (h0 : a.val < 0) (hg : GoodExp (-a.val)) :
    RedR (opPowR x a) (x.bb.val ^ (-a.val).toNat) (x.tt.val ^ (-a.val).toNat) := by
  obtain ⟨m, n1, n2, _, n4, _⟩ := neg_canon ha.clean
  rw [← n4] at hg ⊢
  exact opPowR_red_is_neg ha hx h0 n1 (powIs_good n2 (by omega) hg).release

/-! ### Operators that change their left operand -/

theorem addAssignU_red {x y : Frac} (hx : x.Valid) (hy : y.Valid) :
    MRedU (addAssignU x y) (x.tt.val * y.bb.val + y.tt.val * x.bb.val) (x.bb.val * y.bb.val) := by
  obtain ⟨a, a1, a2, a3⟩ := opMulR_canon hx.1.clean hy.2.1.clean
  obtain ⟨b, b1, b2, b3⟩ := opMulR_canon hy.1.clean hx.2.1.clean
  obtain ⟨s, s1, s2, s3⟩ := opAddR_canon a2.clean b2.clean
  obtain ⟨d, d1, d2, d3⟩ := canon_mulU hx.2.1 hy.2.1 hx.bb_ne hy.bb_ne
  unfold addAssignU
  simp only [a1, bind_ok, b1, s1, d1, at'_ok, atTop_ok, atBottom_ok, mbind_ok, ← a3, ← b3, ← s3, ← d3]
  exact mred_normalizeU (.inl s2) d2 (by rw [d3]; exact mul_ne_zero hx.bb_ne hy.bb_ne)

theorem subAssignU_red {x y : Frac} (hx : x.Valid) (hy : y.Valid) :
    MRedU (subAssignU x y) (x.tt.val * y.bb.val - y.tt.val * x.bb.val) (x.bb.val * y.bb.val) := by
  obtain ⟨a, a1, a2, a3⟩ := opMulR_canon hx.1.clean hy.2.1.clean
  obtain ⟨b, b1, b2, b3⟩ := opMulR_canon hy.1.clean hx.2.1.clean
  obtain ⟨s, s1, s2, s3⟩ := opSubR_canon a2.clean b2.clean
  obtain ⟨d, d1, d2, d3⟩ := canon_mulU hx.2.1 hy.2.1 hx.bb_ne hy.bb_ne
  unfold subAssignU
  simp only [a1, bind_ok, b1, s1, d1, at'_ok, atTop_ok, atBottom_ok, mbind_ok, ← a3, ← b3, ← s3, ← d3]
  exact mred_normalizeU (.inl s2) d2 (by rw [d3]; exact mul_ne_zero hx.bb_ne hy.bb_ne)

theorem mulAssignU_red {x y : Frac} (hx : x.Valid) (hy : y.Valid) :
    MRedU (mulAssignU x y) (x.tt.val * y.tt.val) (x.bb.val * y.bb.val) := by
  obtain ⟨t, t1, t2, t3⟩ := almost_mulU hx.1 hy.1
  obtain ⟨d, d1, d2, d3⟩ := canon_mulU hx.2.1 hy.2.1 hx.bb_ne hy.bb_ne
  unfold mulAssignU
  simp only [t1, d1, at'_ok, atTop_ok, atBottom_ok, mbind_ok, ← t3, ← d3]
  exact mred_normalizeU t2 d2 (by rw [d3]; exact mul_ne_zero hx.bb_ne hy.bb_ne)

theorem divAssignU_red {x y : Frac} (hx : x.Valid) (hy : y.Valid) (h0 : y.tt.val ≠ 0) :
    MRedU (divAssignU x y) (x.tt.val * y.bb.val) (x.bb.val * y.tt.val) := by
  obtain ⟨t, t1, t2, t3⟩ := almost_mulU hx.1 hy.2.1
  obtain ⟨d, d1, d2, d3⟩ := canon_mulU hx.2.1 hy.1 hx.bb_ne h0
  unfold divAssignU
  simp only [t1, d1, at'_ok, atTop_ok, atBottom_ok, mbind_ok, ← t3, ← d3]
  exact mred_normalizeU t2 d2 (by rw [d3]; exact mul_ne_zero hx.bb_ne h0)

theorem addAssignIntU_red {x : Frac} {a : BigInt} (hx : x.Valid) (ha : Canon a) :
    MRedU (addAssignIntU x a) (x.tt.val + x.bb.val * a.val) x.bb.val := by
  obtain ⟨p, p1, p2, p3⟩ := opMulR_canon hx.2.1.clean ha.clean
  obtain ⟨t, t1, t2, t3⟩ := addAssignU_canon hx.1.clean p2.clean
  unfold addAssignIntU
  simp only [p1, t1, at'_ok, atTop_ok, atBottom_ok, mbind_ok, ← p3, ← t3]
  exact mred_normalizeU (.inl t2) hx.2.1 hx.bb_ne

theorem subAssignIntU_red {x : Frac} {a : BigInt} (hx : x.Valid) (ha : Canon a) :
    MRedU (subAssignIntU x a) (x.tt.val - x.bb.val * a.val) x.bb.val := by
  obtain ⟨p, p1, p2, p3⟩ := opMulR_canon hx.2.1.clean ha.clean
  obtain ⟨t, t1, t2, t3⟩ := subAssignU_canon hx.1.clean p2.clean
  unfold subAssignIntU
  simp only [p1, t1, at'_ok, atTop_ok, atBottom_ok, mbind_ok, ← p3, ← t3]
  exact mred_normalizeU (.inl t2) hx.2.1 hx.bb_ne

theorem mulAssignIntU_red {x : Frac} {a : BigInt} (hx : x.Valid) (ha : Canon a) :
    MRedU (mulAssignIntU x a) (x.tt.val * a.val) x.bb.val := by
  obtain ⟨t, t1, t2, t3⟩ := almost_mulU hx.1 ha
  unfold mulAssignIntU
  simp only [t1, at'_ok, atTop_ok, atBottom_ok, mbind_ok, ← t3]
  exact mred_normalizeU t2 hx.2.1 hx.bb_ne

theorem divAssignIntU_red {x : Frac} {a : BigInt} (hx : x.Valid) (ha : Canon a) (h0 : a.val ≠ 0) :
    MRedU (divAssignIntU x a) x.tt.val (x.bb.val * a.val) := by
  obtain ⟨d, d1, d2, d3⟩ := canon_mulU hx.2.1 ha hx.bb_ne h0
  unfold divAssignIntU
  simp only [d1, at'_ok, atTop_ok, atBottom_ok, mbind_ok, ← d3]
  exact mred_normalizeU (.inl hx.1) d2 (by rw [d3]; exact mul_ne_zero hx.bb_ne h0)

theorem powAssignU_red_is {x : Frac} {a : BigInt} {n : Nat} (hx : x.Valid) (ha : Canon a) (h0 : 0 ≤ a.val) (hp : PowIsR a n) :
    MRedU (powAssignU x a) (x.tt.val ^ n) (x.bb.val ^ n) := by
  obtain ⟨t, t1, t2, t3⟩ := hp _ hx.1
  obtain ⟨b, b1, b2, b3⟩ := hp _ hx.2.1
  unfold powAssignU
  rw [negative_of_nonneg ha h0]
  simp only [Bool.false_eq_true, if_false, BigInt.powAssignU, keeping_ok, t1, b1, at'_ok, atTop_ok, atBottom_ok, keeping_ok, mbind_ok]
  rw [← t3, ← b3]
  exact mred_normalizeU (.inl t2) b2 (by rw [b3]; exact pow_ne_zero _ hx.bb_ne)

theorem powAssignU_red_is_neg {x : Frac} {a m : BigInt} {n : Nat} (hx : x.Valid) (ha : Canon a) (h0 : a.val < 0)
    (hm : a.neg = .ok m) (hp : PowIsR m n) : MRedU (powAssignU x a) (x.tt.val ^ n) (x.bb.val ^ n) := by
  obtain ⟨t, t1, t2, t3⟩ := hp _ hx.1
  obtain ⟨b, b1, b2, b3⟩ := hp _ hx.2.1
  unfold powAssignU
  rw [ha.neg_iff.mpr h0]
  simp only [if_true, BigInt.powAssignU, keeping_ok, hm, t1, b1, at'_ok, atTop_ok, atBottom_ok, keeping_ok, mbind_ok]
  rw [← t3, ← b3]
  exact mred_normalizeU (.inl t2) b2 (by rw [b3]; exact pow_ne_zero _ hx.bb_ne)

/-- `^=` raises both parts to the absolute value of the exponent. -/
theorem powAssignU_red {x : Frac} {a : BigInt} (hx : x.Valid) (ha : Canon a) (hg : GoodExp |a.val|) :
    MRedU (powAssignU x a) (x.tt.val ^ a.val.natAbs) (x.bb.val ^ a.val.natAbs) := by
  rcases lt_or_ge a.val 0 with h0 | h0
  · rw [abs_of_neg h0] at hg
    obtain ⟨m, n1, n2, _, n4, _⟩ := neg_canon ha.clean
    rw [← n4] at hg
    have := powAssignU_red_is_neg hx ha h0 n1 (powIs_good n2 (by omega) hg).release
    rwa [show m.val.toNat = a.val.natAbs by omega] at this
  · rw [abs_of_nonneg h0] at hg
    have := powAssignU_red_is hx ha h0 (powIs_good ha h0 hg).release
    rwa [show a.val.toNat = a.val.natAbs by omega] at this

end Frac
end CppMaths
