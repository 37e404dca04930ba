import Verif.Proofs.Release
/-!
# Properties of `Int` compiled without assertions (C109, C110)
-/

namespace CppMaths
open BigInt

/-! ### C109: what a build without assertions computes -/

/-- C109, part 1. Whatever the build with assertions returns, for any objects at all, the build without assertions returns too. -/
theorem C109_same_results (x y : BigInt) (p : Int) (r : BigInt) :
    (opAdd x y = .ok r → opAddR x y = .ok r) ∧ (opSub x y = .ok r → opSubR x y = .ok r) ∧
    (opMul x y = .ok r → opMulR x y = .ok r) ∧ (opDiv x y = .ok r → opDivR x y = .ok r) ∧
    (opMod x y = .ok r → opModR x y = .ok r) ∧ (opPow x y = .ok r → opPowR x y = .ok r) ∧
    (addAssign x y = .ok r → addAssignU x y = .ok r) ∧ (subAssign x y = .ok r → subAssignU x y = .ok r) ∧
    (mulAssign x y = .ok r → mulAssignU x y = .ok r) ∧ (divAssign x y = .ok r → divAssignU x y = .ok r) ∧
    (modAssign x y = .ok r → modAssignU x y = .ok r) ∧ (powAssign x y = .ok r → powAssignU x y = .ok r) ∧
    (timesPowerTen x p = .ok r → timesPowerTenU x p = .ok r) :=
  ⟨opAdd_keeps x y r, opSub_keeps x y r, opMul_keeps x y r, opDiv_keeps x y r, modulo_keeps x y r, exponentiate_keeps x y r,
    addAssign_keeps x y r, subAssign_keeps x y r, mulAssign_keeps x y r, divAssign_keeps x y r, (modulo_keeps x y).keeping r,
    (exponentiate_keeps x y).keeping r, timesPowerTen_keeps x p r⟩

example : opMod ⟨[7], true⟩ ⟨[5], false⟩ = .ok ⟨[3], false⟩ ∧ opModR ⟨[7], true⟩ ⟨[5], false⟩ = .ok ⟨[3], false⟩ ∧
    opDiv ⟨[1, 2], true⟩ ⟨[2], false⟩ = .ok ⟨[0, 1], true⟩ ∧ opDivR ⟨[1, 2], true⟩ ⟨[2], false⟩ = .ok ⟨[0, 1], true⟩ := by decide +kernel

/-- C109, part 2. For well-formed operands the build without assertions never returns a wrong number: each operation returns an
object with the exact value or throws `out_of_range`; multiplication always returns; division and remainder by zero throw
`divide_by_zero_error`. -/
theorem C109_never_wrong {x y : BigInt} (hx : WF x) (hy : WF y) :
    RightOrThrows (opAddR x y) (x.val + y.val) ∧ RightOrThrows (outcome (addAssignU x y)) (x.val + y.val) ∧
    RightOrThrows (opSubR x y) (x.val - y.val) ∧ RightOrThrows (outcome (subAssignU x y)) (x.val - y.val) ∧
    (∃ r, opMulR x y = .ok r ∧ WF r ∧ r.val = x.val * y.val) ∧ (∃ r, mulAssignU x y = .ok r ∧ WF r ∧ r.val = x.val * y.val) ∧
    (y.val = 0 → opDivR x y = .error .divideByZero ∧ divAssignU x y = .error (.divideByZero, x) ∧
      opModR x y = .error .divideByZero ∧ modAssignU x y = .error (.divideByZero, x)) ∧
    (y.val ≠ 0 → RightOrThrows (opDivR x y) (x.val.tdiv y.val) ∧ RightOrThrows (outcome (divAssignU x y)) (x.val.tdiv y.val) ∧
      RightOrThrows (opModR x y) (x.val.fmod y.val) ∧ RightOrThrows (outcome (modAssignU x y)) (x.val.fmod y.val)) ∧
    ∀ p : Int, -2147483647 ≤ p →
      RightOrThrows (outcome (timesPowerTenU x p)) (if 0 ≤ p then x.val * 10 ^ p.toNat else x.val.tdiv (10 ^ (-p).toNat)) := by
  refine ⟨opAddR_right hx hy, addAssignU_right hx hy, opSubR_right hx hy, subAssignU_right hx hy, opMulR_ok hx hy, mulAssignU_ok hx hy,
    fun h => ?_, fun h => ?_, fun p hp => ?_⟩
  · refine ⟨?_, ?_, moduloR_zero hx hy h, ?_⟩
    · rw [opDivR_eq, (divideU_spec hx hy).1 h]; rfl
    · rw [divAssignU_eq, (divideU_spec hx hy).1 h]
    · rw [modAssignU, moduloR_zero hx hy h]; rfl
  · refine ⟨?_, ?_, moduloR_right hx hy h, ?_⟩
    · rw [opDivR_eq]; exact divideU_right hx hy h
    · rw [divAssignU_eq]; exact divideU_right hx hy h
    · have := moduloR_right hx hy h
      rwa [show outcome (modAssignU x y) = moduloR x y from by unfold modAssignU; cases moduloR x y <;> rfl]
  · rcases timesPowerTenU_rightU hx hp with ⟨r, r1, r2, r3⟩ | ⟨s, s1, _⟩
    · exact .inl ⟨r, by rw [r1]; rfl, r2, r3⟩
    · exact .inr (by rw [s1]; rfl)

-- `[7, 0] -= [5]` aborts with assertions and is 2 without; `(10^18 + 1) / 10^18 ..` and `5 - [0, 0, 0]` throw
example : subAssign ⟨[7, 0], false⟩ ⟨[5], false⟩ = .error .assertion ∧
    subAssignU ⟨[7, 0], false⟩ ⟨[5], false⟩ = .ok ⟨[2], false⟩ ∧
    opSubR ⟨[5], false⟩ ⟨[0, 0, 0], false⟩ = .error .outOfRange ∧
    WF ⟨[7, 0], false⟩ ∧ WF ⟨[0, 0, 0], false⟩ ∧ (⟨[0, 0, 0], false⟩ : BigInt).val = 0 := by decide +kernel
example : opDivR ⟨[0, 0, 5], true⟩ ⟨[0, 0, 3], false⟩ = .error .outOfRange := by decide +kernel

/-- C109, part 3. Exactly when sums and differences throw: when magnitudes are subtracted and the smaller one is stored with leading
zero bins reaching beyond the other (`SubThrows`; for the compound forms: is stored in more bins, `SubAssignThrows`). -/
theorem C109_sums_exact {x y : BigInt} (hx : WF x) (hy : WF y) :
    (opAddR x y = .error .outOfRange ↔ x.negative ≠ y.negative ∧ SubThrows x y) ∧
    (opSubR x y = .error .outOfRange ↔ x.negative = y.negative ∧ SubThrows x y) ∧
    (outcome (addAssignU x y) = .error .outOfRange ↔ x.negative ≠ y.negative ∧ SubAssignThrows x y) ∧
    (outcome (subAssignU x y) = .error .outOfRange ↔ x.negative = y.negative ∧ SubAssignThrows x y) := by
  obtain ⟨a1, a2⟩ := opAddR_spec hx hy
  obtain ⟨b1, b2⟩ := opSubR_spec hx hy
  obtain ⟨c1, c2⟩ := addAssignU_spec hx hy
  obtain ⟨d1, d2⟩ := subAssignU_spec hx hy
  refine ⟨⟨fun h => ?_, a1⟩, ⟨fun h => ?_, b1⟩, ⟨fun h => ?_, fun h => ?_⟩, ⟨fun h => ?_, fun h => ?_⟩⟩
  · by_contra hn; obtain ⟨r, hr, _⟩ := a2 hn; rw [hr] at h; cases h
  · by_contra hn; obtain ⟨r, hr, _⟩ := b2 hn; rw [hr] at h; cases h
  · by_contra hn; obtain ⟨r, hr, _⟩ := c2 hn; rw [hr] at h; cases h
  · obtain ⟨s, hs, _⟩ := c1 h; rw [hs]; rfl
  · by_contra hn; obtain ⟨r, hr, _⟩ := d2 hn; rw [hr] at h; cases h
  · obtain ⟨s, hs, _⟩ := d1 h; rw [hs]; rfl

example : SubThrows ⟨[5], false⟩ ⟨[0, 0, 0], false⟩ ∧ SubAssignThrows ⟨[5], false⟩ ⟨[2, 0], false⟩ ∧
    ¬SubThrows ⟨[5], false⟩ ⟨[2], false⟩ := by
  refine ⟨.inl ⟨by decide, by decide, by decide⟩, .inl ⟨by decide, by decide⟩, ?_⟩
  rintro (⟨_, h, _⟩ | ⟨h, _⟩)
  · exact absurd h (by decide)
  · exact absurd h (by decide)

/-- C109, part 4. For canonical operands sums and differences never throw, and the other operations throw `out_of_range`
exactly where the build with assertions aborts. -/
theorem C109_canonical_exact {x y : BigInt} (hx : Canon x) (hy : Canon y) :
    (∃ r, opAddR x y = .ok r ∧ Canon r ∧ r.val = x.val + y.val) ∧ (∃ r, addAssignU x y = .ok r ∧ Canon r ∧ r.val = x.val + y.val) ∧
    (∃ r, opSubR x y = .ok r ∧ Canon r ∧ r.val = x.val - y.val) ∧ (∃ r, subAssignU x y = .ok r ∧ Canon r ∧ r.val = x.val - y.val) ∧
    (opDivR x y = .error .outOfRange ↔ opDiv x y = .error .assertion) ∧
    (opDiv x y = .error .assertion ↔ y.val ≠ 0 ∧ DivAborts x.val y.val) ∧
    (opModR x y = .error .outOfRange ↔ y.val ≠ 0 ∧ DivAborts x.val y.val) ∧
    (opPowR x y = .error .outOfRange ↔ opPow x y = .error .assertion) ∧
    ∀ p : Int, -2147483647 ≤ p → p < 0 → (outcome (timesPowerTenU x p) = .error .outOfRange ↔ TenAborts x.val p) := by
  have hdR : opDivR x y = .error .outOfRange ↔ y.val ≠ 0 ∧ DivAborts x.val y.val := by
    rw [opDivR_eq, ← divTrips_iff hx.clean hy.1]
    obtain ⟨d1, d2, d3⟩ := divideU_spec hx.1 hy.1
    constructor
    · intro h
      have h0 : y.val ≠ 0 := fun h0 => by rw [d1 h0] at h; cases h
      refine ⟨h0, ?_⟩
      by_contra hn
      obtain ⟨r, hr, _⟩ := d3 h0 hn
      rw [hr] at h; cases h
    · rintro ⟨h0, ht⟩
      obtain ⟨k, s, _, hs, _⟩ := d2 h0 ht
      rw [hs]; rfl
  have hd : opDiv x y = .error .assertion ↔ y.val ≠ 0 ∧ DivAborts x.val y.val := by
    rw [opDiv_eq, ← divTrips_iff hx.clean hy.1]
    obtain ⟨d1, d2, d3⟩ := divide_spec hx.1 hy.1
    constructor
    · intro h
      have h0 : y.val ≠ 0 := fun h0 => by rw [d1 h0] at h; cases h
      refine ⟨h0, ?_⟩
      by_contra hn
      obtain ⟨r, hr, _⟩ := d3 h0 hn
      rw [hr] at h; cases h
    · rintro ⟨h0, ht⟩
      exact d2 h0 ht
  refine ⟨?_, ?_, ?_, ?_, hdR.trans hd.symm, hd, ?_, ⟨fun h => ?_, (exponentiateF_match hx.1 _ hy.1).2⟩,
    fun p hp hp0 => ⟨fun h => ?_, fun h => ?_⟩⟩
  · obtain ⟨r, r1, r2⟩ := opAdd_ok hx.clean hy.clean
    exact ⟨r, opAdd_keeps _ _ _ r1, r2⟩
  · obtain ⟨r, r1, r2⟩ := addAssign_ok hx.clean hy.clean
    exact ⟨r, addAssign_keeps _ _ _ r1, r2⟩
  · obtain ⟨r, r1, r2⟩ := opSub_ok hx.clean hy.clean
    exact ⟨r, opSub_keeps _ _ _ r1, r2⟩
  · obtain ⟨r, r1, r2⟩ := subAssign_ok hx.clean hy.clean
    exact ⟨r, subAssign_keeps _ _ _ r1, r2⟩
  · obtain ⟨m1, m2, m3⟩ := moduloR_exact hx hy
    constructor
    · intro h
      have h0 : y.val ≠ 0 := fun h0 => by rw [opModR, m1 h0] at h; cases h
      refine ⟨h0, ?_⟩
      by_contra hn
      obtain ⟨r, hr, _⟩ := m3 h0 hn
      rw [opModR, hr] at h; cases h
    · rintro ⟨h0, ht⟩
      exact m2 h0 ht
  · rcases exponentiate_wf hx.1 hy.1 with ⟨b, hb, _⟩ | hb
    · rw [opPowR, exponentiate_keeps _ _ _ hb] at h; cases h
    · exact hb
  · by_contra hn
    obtain ⟨r, r1, _⟩ := (timesPowerTen_exact hx hp0 hp).2 hn
    rw [timesPowerTen_keeps _ _ _ r1] at h; cases h
  · obtain ⟨s, hs⟩ := timesPowerTenU_throws hx hp0 hp h
    rw [hs]; rfl

example : Canon ⟨[0, 0, 5], false⟩ ∧ Canon ⟨[0, 0, 3], false⟩ ∧ opDiv ⟨[0, 0, 5], false⟩ ⟨[0, 0, 3], false⟩ = .error .assertion ∧
    opModR ⟨[0, 0, 5], false⟩ ⟨[0, 0, 3], false⟩ = .error .outOfRange ∧
    outcome (timesPowerTenU ⟨[3, 1, 5], false⟩ (-1)) = .ok ⟨[100000000, 500000000], false⟩ ∧
    outcome (timesPowerTenU ⟨[0, 0, 5], false⟩ (-1)) = .error .outOfRange := by decide +kernel
set_option maxRecDepth 100000 in
example (x : BigInt) : opPowR x ⟨[73741824, 1], false⟩ = .error .outOfRange := rfl

/-- C109, part 5. Every run of every legal program, from every well-formed memory, in which `out_of_range` is not
caught: it ends with well-formed variables whose values are those of the same program over the integers, or is ended by
`out_of_range` (or is still running after `f` steps, and then so is the program over the integers). -/
theorem C109_histories (f : Nat) {p : IProg} (hp : p.Legal) {m : Mem} (hm : m.WF) :
    (∃ m', p.execR false f m = .ok m' ∧ m'.WF ∧ p.sem f m.vals = some m'.vals) ∨
    (p.execR false f m = .error .diverge ∧ p.sem f m.vals = none) ∨
    p.execR false f m = .error .outOfRange := IProg.execR_refines f hp hm

/-- `v1 = 1; v2 = 1; v3 = 1; while (v2 <= v0) { v1 = v1 * v2; v2 += v3; }` -/
def factProgR : IProg :=
  .seq (.stmt (.lit 1 1)) (.seq (.stmt (.lit 2 1)) (.seq (.stmt (.lit 3 1))
    (.while .le 2 0 (.seq (.stmt (.bin .mul 1 1 2)) (.stmt (.asg .add 2 3))))))

example : factProgR.Legal := by simp [factProgR, IProg.Legal, IStmt.Legal]
example : (factProgR.execR false 40 (fun _ => ⟨[20], false⟩)).map (fun m => m 1) = .ok ⟨[176640000, 432902008, 2], false⟩ := by
  decide +kernel
example : ((IProg.stmt (.asg .div 0 1)).execR false 5 fun i => if i = 0 then ⟨[0, 0, 5], false⟩ else ⟨[0, 0, 3], false⟩).map
    (fun m => m 0) = .error .outOfRange := by decide +kernel

/-! ### C110: objects after an exception -/

/-- C110 as stated is false. After a caught exception from `x /= y` the variable `x = -5 * 10^18` holds a negative zero; after one
from `x -= y` the variable `x = -7` holds 2 (`y = -5`) or 7 (`x = [7, 0]`, `y = -9`). -/
theorem C110_refuted :
    divAssignU ⟨[0, 0, 5], true⟩ ⟨[0, 0, 3], false⟩ = .error (.outOfRange, ⟨[0], true⟩) ∧
    subAssignU ⟨[7], true⟩ ⟨[5, 0], true⟩ = .error (.outOfRange, ⟨[2], false⟩) ∧
    addAssignU ⟨[7], true⟩ ⟨[5, 0], false⟩ = .error (.outOfRange, ⟨[2], false⟩) ∧
    subAssignU ⟨[7, 0], true⟩ ⟨[9], true⟩ = .error (.outOfRange, ⟨[7, 0], false⟩) ∧
    Canon ⟨[0, 0, 5], true⟩ ∧ Canon ⟨[0, 0, 3], false⟩ := by decide +kernel

/-- C110, the part that holds, operation by operation. `*=` does not throw. A throwing `%=` or `^=`, and a `/=` that throws
`divide_by_zero_error`, leave the variable as it was.
Missing: `/=`, `+=` and `-=` that throw `out_of_range` (see `C110_refuted` and the two theorems below). -/
theorem C110_unchanged_partial {x y : BigInt} (hx : WF x) (hy : WF y) (e : Err) (s : BigInt) :
    mulAssignU x y ≠ .error (e, s) ∧ (modAssignU x y = .error (e, s) → s = x) ∧ (powAssignU x y = .error (e, s) → s = x) ∧
    (divAssignU x y = .error (.divideByZero, s) → s = x) := by
  refine ⟨fun h => ?_, fun h => ?_, fun h => ?_, fun h => ?_⟩
  · obtain ⟨r, hr, _⟩ := mulAssignU_ok hx hy
    rw [hr] at h; cases h
  · unfold modAssignU at h
    cases hm : moduloR x y with
    | ok v => rw [hm] at h; cases h
    | error e => rw [hm] at h; cases h; rfl
  · unfold powAssignU at h
    cases hm : exponentiateR x y with
    | ok v => rw [hm] at h; cases h
    | error e => rw [hm] at h; cases h; rfl
  · rw [divAssignU_eq] at h
    obtain ⟨d1, d2, d3⟩ := divideU_spec hx hy
    by_cases h0 : y.val = 0
    · rw [d1 h0] at h; cases h; rfl
    · by_cases ht : DivTrips x y
      · obtain ⟨k, s, _, hs, _⟩ := d2 h0 ht
        rw [hs] at h; cases h
      · obtain ⟨r, hr, _⟩ := d3 h0 ht
        rw [hr] at h; cases h

example : modAssignU ⟨[0, 0, 5], true⟩ ⟨[0, 0, 3], false⟩ = .error (.outOfRange, ⟨[0, 0, 5], true⟩) ∧
    divAssignU ⟨[7], true⟩ ⟨[0], false⟩ = .error (.divideByZero, ⟨[7], true⟩) := by decide +kernel

/-- C110, what `x /= y` leaves behind when it throws `out_of_range`: the lowest `k` bins of `x` with the sign of `x`, where `k` is
the place at which the division loses a bin (`LostAt`; there is only one such place). In particular a canonical `x` always changes. -/
theorem C110_division_leftover_partial {x y s : BigInt} (hx : WF x) (hy : WF y) (h : divAssignU x y = .error (.outOfRange, s)) :
    ∃ k, LostAt x y k ∧ (∀ j, LostAt x y j → j = k) ∧ WF s ∧ s.negative = x.negative ∧
      s.val = x.val.tmod (1000000000 ^ k) ∧ (Canon x → |s.val| < |x.val|) := by
  rw [divAssignU_eq] at h
  obtain ⟨d1, d2, d3⟩ := divideU_spec hx hy
  by_cases h0 : y.val = 0
  · rw [d1 h0] at h; cases h
  · by_cases ht : DivTrips x y
    · obtain ⟨k, s', hk, hs, s1, s2, s3⟩ := d2 h0 ht
      rw [hs] at h; cases h
      refine ⟨k, hk, fun j hj => ?_, s1, s2, s3, fun hc => ?_⟩
      · rcases lt_trichotomy j k with hlt | rfl | hlt
        · exact absurd hk.1.2 (hj.2 k hlt)
        · rfl
        · exact absurd hj.1.2 (hk.2 j hlt)
      · have hB : (0 : Int) < 1000000000 ^ k := by positivity
        have hlow : (1000000000 : Int) ^ k ≤ |x.val| := by
          rw [abs_val hx]
          rcases (noLead_iff hx.2).mp hc.2.1 with hl | hl
          · have := hk.1.2.1; omega
          · exact le_trans (pow_le_pow_right₀ (by norm_num) (by have := hk.1.2.1; omega)) hl
        rw [s3]
        refine lt_of_lt_of_le ?_ hlow
        rw [abs_lt]
        refine ⟨?_, Int.tmod_lt_of_pos _ hB⟩
        have := Int.tmod_lt_of_pos (-x.val) hB
        rw [Int.neg_tmod] at this
        omega
    · obtain ⟨r, hr, _⟩ := d3 h0 ht
      rw [hr] at h; cases h

example := C110_division_leftover_partial (x := ⟨[1, 2, 0, 5], true⟩) (y := ⟨[0, 0, 0, 3], false⟩) (s := ⟨[1, 2], true⟩) (by decide) (by decide)
  (by decide +kernel)

/-- C110, what `x += y` and `x -= y` leave behind when they throw: `|x| - |y|` if `|y| < |x|` and otherwise `|x|`. -/
theorem C110_sum_leftover_partial {x y s : BigInt} (hx : WF x) (hy : WF y)
    (h : addAssignU x y = .error (.outOfRange, s) ∨ subAssignU x y = .error (.outOfRange, s)) :
    WF s ∧ s.val = if |y.val| < |x.val| then |x.val| - |y.val| else |x.val| := by
  rcases h with h | h
  · obtain ⟨c1, c2⟩ := addAssignU_spec hx hy
    by_cases hc : x.negative ≠ y.negative ∧ SubAssignThrows x y
    · obtain ⟨s', hs, s1, s2⟩ := c1 hc
      rw [hs] at h; cases h
      exact ⟨s1, s2⟩
    · obtain ⟨r, hr, _⟩ := c2 hc
      rw [hr] at h; cases h
  · obtain ⟨c1, c2⟩ := subAssignU_spec hx hy
    by_cases hc : x.negative = y.negative ∧ SubAssignThrows x y
    · obtain ⟨s', hs, s1, s2⟩ := c1 hc
      rw [hs] at h; cases h
      exact ⟨s1, s2⟩
    · obtain ⟨r, hr, _⟩ := c2 hc
      rw [hr] at h; cases h

example : divAssignU ⟨[1, 2, 0, 5], true⟩ ⟨[0, 0, 0, 3], false⟩ = .error (.outOfRange, ⟨[1, 2], true⟩) ∧
    subAssignU ⟨[7, 0], true⟩ ⟨[9], true⟩ = .error (.outOfRange, ⟨[7, 0], false⟩) := by decide +kernel

/-- C110 for whole programs that catch every exception and go on: the values may be wrong from then on, but every variable is
a well-formed object at all times, and nothing but non-termination can happen: no undefined behaviour. -/
theorem C110_histories_partial (f : Nat) {p : IProg} (hp : p.Legal) {m : Mem} (hm : m.WF) :
    (∃ m', p.execR true f m = .ok m' ∧ m'.WF) ∨ p.execR true f m = .error .diverge := IProg.execR_wf f hp hm

example : ((IProg.seq (.stmt (.asg .div 0 1)) (.stmt (.asg .add 0 1))).execR true 5
    fun i => if i = 0 then ⟨[1, 2, 0, 5], true⟩ else ⟨[0, 0, 0, 3], false⟩).map (fun m => m 0) =
      .ok ⟨[999999999, 999999997, 999999999, 2], false⟩ := by decide +kernel

end CppMaths
