import Verif.Proofs.FracReleaseMem
/-!
# `Frac` without assertions on whatever earlier exceptions have left behind
-/

namespace CppMaths
open BigInt

namespace Frac

theorem Valid.parts {f : Frac} (h : f.Valid) : f.PartsOK := ⟨h.1.1, h.2.1.1, h.2.2.1.le⟩

/-! ### Reduction -/

theorem gcdLoopR_right : ∀ (f : Nat) {a b : BigInt}, WF a → WF b → 0 ≤ a.val → 0 ≤ b.val → b.val < f →
    BigInt.RightOrThrows (gcdLoopR f a b) (Int.gcd a.val b.val) := by
  intro f
  induction f with
  | zero => intro a b _ _ _ h0 hf; push_cast at hf; omega
  | succ f ih =>
    intro a b ha hb ha0 hb0 hf
    unfold gcdLoopR
    rw [equalsInt32_zero hb, bind_ok]
    by_cases hz : b.val = 0
    · rw [if_pos (by simpa [val_eq_zero_iff] using hz)]
      refine .inl ⟨a, rfl, ha, ?_⟩
      rw [hz, Int.gcd_zero_right, ← Int.abs_eq_natAbs, abs_of_nonneg ha0]
    · rw [if_neg (by simpa [val_eq_zero_iff] using hz)]
      refine RightOrThrows.bind_ok (P := fun r => BigInt.RightOrThrows r _) (moduloR_right ha hb hz) (.inr rfl) fun r hr hv => ?_
      rw [Int.fmod_eq_emod_of_nonneg _ hb0] at hv
      have l0 := Int.emod_nonneg a.val hz
      have l1 := Int.emod_lt_of_pos a.val (show 0 < b.val by omega)
      have := ih hb hr hb0 (by omega) (by push_cast at hf; omega)
      rwa [hv, Int.gcd_comm, Int.gcd_emod] at this

theorem gcdR_right {x y : BigInt} (hx : WF x) (hy : WF y) : BigInt.RightOrThrows (gcdR x y) (Int.gcd x.val y.val) := by
  obtain ⟨a, a1, a2, _, a3⟩ := abs_ok hx
  obtain ⟨b, b1, b2, _, b3⟩ := abs_ok hy
  rw [← abs_val hx] at a3
  rw [← abs_val hy] at b3
  have ha0 : 0 ≤ a.val := by rw [a3]; exact abs_nonneg _
  have hb0 : 0 ≤ b.val := by rw [b3]; exact abs_nonneg _
  have hg : Int.gcd x.val y.val = Int.gcd a.val b.val := by
    rw [a3, b3]; simp only [Int.gcd, Int.natAbs_abs]
  have key : ∀ {a b : BigInt}, WF a → WF b → 0 ≤ a.val → 0 ≤ b.val →
      BigInt.RightOrThrows (nochecksGcdR a b) (Int.gcd a.val b.val) := by
    intro a b ha hb ha0 hb0
    refine gcdLoopR_right _ ha hb ha0 hb0 ?_
    have := mag_lt hb.2
    rw [← abs_val hb, abs_of_nonneg hb0] at this
    push_cast; omega
  unfold gcdR
  rw [a1, b1, bind_ok, bind_ok, BigInt.lt_spec a2 b2, bind_ok, hg]
  by_cases hl : a.val < b.val
  · rw [if_pos (by simpa using hl), Int.gcd_comm]
    exact key b2 a2 hb0 ha0
  · rw [if_neg (by simpa using hl)]
    exact key a2 b2 ha0 hb0

/-- The exceptions that a `catch` for `std::exception` catches. -/
def Caught (e : Err) : Prop := e = .divideByZero ∨ e = .invalidArgument ∨ e = .outOfRange

/-- A function that changes an object ends with well-formed parts, by returning or by an exception. -/
def Lands (u : MRes Frac Frac) : Prop :=
  (∃ f, u = .ok f ∧ f.PartsOK) ∨ ∃ e s, u = .error (e, s) ∧ Caught e ∧ s.PartsOK

/-- The same for a function that returns a new object. -/
def RLands (r : Res Frac) : Prop := (∃ f, r = .ok f ∧ f.PartsOK) ∨ ∃ e, r = .error e ∧ Caught e

theorem RightOrThrowsU.lands {u : MRes Frac Frac} {q : ℚ} (h : RightOrThrowsU u q) : Lands u := by
  rcases h with ⟨f, h1, h2, _⟩ | ⟨s, h1, h2⟩
  · exact .inl ⟨f, h1, h2.parts⟩
  · exact .inr ⟨_, s, h1, .inr (.inr rfl), h2⟩

theorem RightOrThrows.lands {r : Res Frac} {q : ℚ} (h : Frac.RightOrThrows r q) : RLands r := by
  rcases h with ⟨f, h1, h2, _⟩ | h1
  · exact .inl ⟨f, h1, h2.parts⟩
  · exact .inr ⟨_, h1, .inr (.inr rfl)⟩

/-- The part of `normalize` behind the sign change. -/
def reduceU (t b : BigInt) : MRes Frac Frac := do
  let c ← at' (⟨t, b⟩ : Frac) (gcdR t b)
  let f ← atTop (⟨t, b⟩ : Frac) (t.divAssignU c)
  atBottom f (f.bb.divAssignU c)

theorem normalizeU_cases {t b : BigInt} (ht : WF t) (hb : WF b) :
    ∃ t' b', normalizeU ⟨t, b⟩ = reduceU t' b' ∧ WF t' ∧ WF b' ∧ 0 ≤ b'.val ∧
      ((t'.val = t.val ∧ b'.val = b.val) ∨ (t'.val = -t.val ∧ b'.val = -b.val)) := by
  cases hs : b.negative
  · refine ⟨t, b, by simp [normalizeU, reduceU, hs], ht, hb, ?_, .inl ⟨rfl, rfl⟩⟩
    rw [val_of_not_neg hs]; exact mag_nonneg hb.2
  · obtain ⟨b', b1, b2, b3, b4, b5, b6⟩ := negate_ok hb
    obtain ⟨t', t1, t2, t3, t4, t5, t6⟩ := negate_ok ht
    refine ⟨t', b', by simp [normalizeU, reduceU, hs, b1, t1], t2, b2, ?_, .inr ⟨t4, b4⟩⟩
    rw [val_of_not_neg (b6 hs)]; exact mag_nonneg b2.2

theorem reduceU_right {t b : BigInt} (ht : WF t) (hb : WF b) (h0 : 0 < b.val) : RightOrThrowsU (reduceU t b) ((t.val : ℚ) / b.val) := by
  have hg : 0 < Int.gcd t.val b.val := Int.gcd_pos_of_ne_zero_right _ h0.ne'
  have hg' : ((Int.gcd t.val b.val : ℕ) : Int) ≠ 0 := by exact_mod_cast hg.ne'
  unfold reduceU
  rcases gcdR_right ht hb with ⟨c, c1, c2, c3⟩ | h
  · rw [c1, at'_ok, mbind_ok, divAssignU_eq]
    have hc0 : c.val ≠ 0 := by rw [c3]; exact hg'
    by_cases hd : DivTrips t c
    · obtain ⟨k, s, _, k2, k3, _⟩ := (divideU_spec ht c2).2.1 hc0 hd
      exact .inr ⟨⟨s, b⟩, by rw [k2]; rfl, k3, hb, h0.le⟩
    · obtain ⟨t', t1, t2, t3⟩ := (divideU_spec ht c2).2.2 hc0 hd
      have e : (do let f ← atTop (⟨t, b⟩ : Frac) (t.divideU c); atBottom f (f.bb.divAssignU c)) =
          atBottom ⟨t', b⟩ (b.divideU c) := by rw [t1, atTop_ok, mbind_ok, divAssignU_eq]
      rw [e]
      by_cases hd : DivTrips b c
      · obtain ⟨k, s, _, k2, k3, _, k5⟩ := (divideU_spec hb c2).2.1 hc0 hd
        refine .inr ⟨⟨t', s⟩, by rw [k2]; rfl, t2.1, k3, ?_⟩
        show 0 ≤ s.val
        rw [k5]; exact Int.tmod_nonneg _ h0.le
      · obtain ⟨b', b1, b2, b3⟩ := (divideU_spec hb c2).2.2 hc0 hd
        obtain ⟨e1, e2⟩ := tdiv_exact hg' (Int.gcd_dvd_left t.val b.val)
        obtain ⟨e3, e4⟩ := tdiv_exact hg' (Int.gcd_dvd_right t.val b.val)
        rw [c3, e1] at t3
        rw [c3, e3] at b3
        have hb' : 0 < b'.val := by
          rw [b3]
          have : (0 : Int) < ((Int.gcd t.val b.val : ℕ) : Int) * (b.val / (Int.gcd t.val b.val : ℕ)) := by rw [← e4]; exact h0
          exact pos_of_mul_pos_right this (by positivity)
        refine .inl ⟨⟨t', b'⟩, by rw [b1]; rfl, ⟨t2, b2, hb', ?_⟩, ?_⟩
        · show Int.gcd t'.val b'.val = 1
          rw [t3, b3]
          exact Int.gcd_ediv_gcd_ediv_gcd hg
        · show (t'.val : ℚ) / b'.val = _
          rw [t3, b3]
          have q2 := congrArg (Int.cast : Int → ℚ) e2
          have q4 := congrArg (Int.cast : Int → ℚ) e4
          rw [Int.cast_mul] at q2 q4
          rw [q2, q4, mul_div_mul_left]
          exact_mod_cast hg.ne'
  · rw [h]
    exact .inr ⟨⟨t, b⟩, rfl, ht, hb, h0.le⟩

theorem normalizeU_right {t b : BigInt} (ht : WF t) (hb : WF b) (h0 : b.val ≠ 0) :
    RightOrThrowsU (normalizeU ⟨t, b⟩) ((t.val : ℚ) / b.val) := by
  obtain ⟨t', b', e, h1, h2, h3, ⟨h4, h5⟩ | ⟨h4, h5⟩⟩ := normalizeU_cases ht hb
  · rw [e, ← h4, ← h5]
    exact reduceU_right h1 h2 (by omega)
  · rw [e]
    have := reduceU_right h1 h2 (by omega)
    rw [h4, h5] at this
    push_cast at this
    rwa [neg_div_neg_eq] at this

theorem normalizeU_lands {t b : BigInt} (ht : WF t) (hb : WF b) : Lands (normalizeU ⟨t, b⟩) := by
  by_cases h0 : b.val = 0
  · obtain ⟨t', b', e, h1, h2, h3, h4⟩ := normalizeU_cases ht hb
    have h5 : b'.val = 0 := by rcases h4 with ⟨_, h⟩ | ⟨_, h⟩ <;> omega
    rw [e]
    unfold reduceU
    rcases gcdR_right h1 h2 with ⟨c, c1, c2, c3⟩ | h
    · rw [c1, at'_ok, mbind_ok, divAssignU_eq]
      by_cases hc : c.val = 0
      · rw [(divideU_spec h1 c2).1 hc]
        exact .inr ⟨_, _, rfl, .inl rfl, h1, h2, h3⟩
      · by_cases hd : DivTrips t' c
        · obtain ⟨k, s, _, k2, k3, _⟩ := (divideU_spec h1 c2).2.1 hc hd
          exact .inr ⟨_, ⟨s, b'⟩, by rw [k2]; rfl, .inr (.inr rfl), k3, h2, h3⟩
        · obtain ⟨t'', t1, t2, t3⟩ := (divideU_spec h1 c2).2.2 hc hd
          have e : (do let f ← atTop (⟨t', b'⟩ : Frac) (t'.divideU c); atBottom f (f.bb.divAssignU c)) =
              atBottom ⟨t'', b'⟩ (b'.divideU c) := by rw [t1, atTop_ok, mbind_ok, divAssignU_eq]
          rw [e]
          by_cases hd : DivTrips b' c
          · obtain ⟨k, s, _, k2, k3, _, k5⟩ := (divideU_spec h2 c2).2.1 hc hd
            refine .inr ⟨_, ⟨t'', s⟩, by rw [k2]; rfl, .inr (.inr rfl), t2.1, k3, ?_⟩
            show 0 ≤ s.val
            rw [k5]; exact Int.tmod_nonneg _ h3
          · obtain ⟨b'', b1, b2, b3⟩ := (divideU_spec h2 c2).2.2 hc hd
            refine .inl ⟨⟨t'', b''⟩, by rw [b1]; rfl, t2.1, b2.1, ?_⟩
            show 0 ≤ b''.val
            rw [b3, h5, Int.zero_tdiv]
    · rw [h]
      exact .inr ⟨_, ⟨t', b'⟩, rfl, .inr (.inr rfl), h1, h2, h3⟩
  · exact (normalizeU_right ht hb h0).lands

/-- `Frac(top, bottom)`. -/
theorem mkR_right {t b : BigInt} (ht : WF t) (hb : WF b) :
    (b.val = 0 → mkR t b = .error .divideByZero) ∧ (b.val ≠ 0 → Frac.RightOrThrows (mkR t b) ((t.val : ℚ) / b.val)) := by
  unfold mkR
  rw [equalsInt32_zero hb, bind_ok]
  refine ⟨fun h => ?_, fun h => ?_⟩
  · rw [if_pos (by simpa [val_eq_zero_iff] using h)]
  · rw [if_neg (by simpa [val_eq_zero_iff] using h)]
    rcases normalizeU_right ht hb h with ⟨f, f1, f2, f3⟩ | ⟨s, s1, _⟩
    · exact .inl ⟨f, by rw [f1]; rfl, f2, f3⟩
    · exact .inr (by rw [s1]; rfl)

/-- The outcome of an operation that has to deliver `t / b`, on any well-formed parts. -/
def MadeR (r : Res Frac) (t b : Int) : Prop :=
  r = .error .outOfRange ∨ ((b = 0 → r = .error .divideByZero) ∧ (b ≠ 0 → Frac.RightOrThrows r ((t : ℚ) / b)))

theorem madeR_mk {t b : BigInt} (ht : WF t) (hb : WF b) : MadeR (mkR t b) t.val b.val := .inr (mkR_right ht hb)

theorem MadeR.lands {r : Res Frac} {t b : Int} (h : MadeR r t b) : RLands r := by
  rcases h with h | ⟨h1, h2⟩
  · exact .inr ⟨_, h, .inr (.inr rfl)⟩
  · by_cases hb : b = 0
    · exact .inr ⟨_, h1 hb, .inl rfl⟩
    · exact (h2 hb).lands

theorem MadeR.bind {r : Res BigInt} {v : Int} {k : BigInt → Res Frac} {t b : Int} (h : BigInt.RightOrThrows r v)
    (hk : ∀ z, WF z → z.val = v → MadeR (k z) t b) : MadeR (r >>= k) t b :=
  RightOrThrows.bind_ok (P := fun r => MadeR r t b) h (.inl rfl) hk

theorem opMulR_right {x y : BigInt} (hx : WF x) (hy : WF y) : BigInt.RightOrThrows (BigInt.opMulR x y) (x.val * y.val) := .inl (opMulR_ok hx hy)

/-! ### Operators that return a new object -/

theorem opAddR_made {x y : Frac} (hx : x.PartsOK) (hy : y.PartsOK) :
    MadeR (opAddR x y) (x.tt.val * y.bb.val + y.tt.val * x.bb.val) (x.bb.val * y.bb.val) := by
  refine MadeR.bind (opMulR_right hx.1 hy.2.1) fun a ha av => MadeR.bind (opMulR_right hy.1 hx.2.1) fun b hb bv =>
    MadeR.bind (opAddR_right ha hb) fun s hs sv => MadeR.bind (opMulR_right hx.2.1 hy.2.1) fun d hd dv => ?_
  rw [← av, ← bv, ← sv, ← dv]
  exact madeR_mk hs hd

theorem opSubR_made {x y : Frac} (hx : x.PartsOK) (hy : y.PartsOK) :
    MadeR (opSubR x y) (x.tt.val * y.bb.val - y.tt.val * x.bb.val) (x.bb.val * y.bb.val) := by
  refine MadeR.bind (opMulR_right hx.1 hy.2.1) fun a ha av => MadeR.bind (opMulR_right hy.1 hx.2.1) fun b hb bv =>
    MadeR.bind (opSubR_right ha hb) fun s hs sv => MadeR.bind (opMulR_right hx.2.1 hy.2.1) fun d hd dv => ?_
  rw [← av, ← bv, ← sv, ← dv]
  exact madeR_mk hs hd

theorem opMulR_made {x y : Frac} (hx : x.PartsOK) (hy : y.PartsOK) :
    MadeR (opMulR x y) (x.tt.val * y.tt.val) (x.bb.val * y.bb.val) := by
  refine MadeR.bind (opMulR_right hx.1 hy.1) fun a ha av => MadeR.bind (opMulR_right hx.2.1 hy.2.1) fun d hd dv => ?_
  rw [← av, ← dv]
  exact madeR_mk ha hd

theorem opDivR_made {x y : Frac} (hx : x.PartsOK) (hy : y.PartsOK) :
    MadeR (opDivR x y) (x.tt.val * y.bb.val) (x.bb.val * y.tt.val) := by
  refine MadeR.bind (opMulR_right hx.1 hy.2.1) fun a ha av => MadeR.bind (opMulR_right hx.2.1 hy.1) fun d hd dv => ?_
  rw [← av, ← dv]
  exact madeR_mk ha hd

theorem intAddR_made {a : BigInt} {x : Frac} (ha : WF a) (hx : x.PartsOK) :
    MadeR (intAddR a x) (a.val * x.bb.val + x.tt.val) x.bb.val := by
  refine MadeR.bind (opMulR_right ha hx.2.1) fun p hp pv => MadeR.bind (opAddR_right hp hx.1) fun s hs sv => ?_
  rw [← pv, ← sv]
  exact madeR_mk hs hx.2.1

theorem intSubR_made {a : BigInt} {x : Frac} (ha : WF a) (hx : x.PartsOK) :
    MadeR (intSubR a x) (a.val * x.bb.val - x.tt.val) x.bb.val := by
  refine MadeR.bind (opMulR_right ha hx.2.1) fun p hp pv => MadeR.bind (opSubR_right hp hx.1) fun s hs sv => ?_
  rw [← pv, ← sv]
  exact madeR_mk hs hx.2.1

theorem intMulR_made {a : BigInt} {x : Frac} (ha : WF a) (hx : x.PartsOK) :
    MadeR (intMulR a x) (a.val * x.tt.val) x.bb.val := by
  refine MadeR.bind (opMulR_right ha hx.1) fun p hp pv => ?_
  rw [← pv]
  exact madeR_mk hp hx.2.1

theorem intDivR_made {a : BigInt} {x : Frac} (ha : WF a) (hx : x.PartsOK) :
    MadeR (intDivR a x) (a.val * x.bb.val) x.tt.val := by
  refine MadeR.bind (opMulR_right ha hx.2.1) fun p hp pv => ?_
  rw [← pv]
  exact madeR_mk hp hx.1

theorem addIntR_made {a : BigInt} {x : Frac} (ha : WF a) (hx : x.PartsOK) :
    MadeR (addIntR x a) (x.tt.val + a.val * x.bb.val) x.bb.val := by
  refine MadeR.bind (opMulR_right ha hx.2.1) fun p hp pv => MadeR.bind (opAddR_right hx.1 hp) fun s hs sv => ?_
  rw [← pv, ← sv]
  exact madeR_mk hs hx.2.1

theorem subIntR_made {a : BigInt} {x : Frac} (ha : WF a) (hx : x.PartsOK) :
    MadeR (subIntR x a) (x.tt.val - a.val * x.bb.val) x.bb.val := by
  refine MadeR.bind (opMulR_right ha hx.2.1) fun p hp pv => MadeR.bind (opSubR_right hx.1 hp) fun s hs sv => ?_
  rw [← pv, ← sv]
  exact madeR_mk hs hx.2.1

theorem divIntR_made {a : BigInt} {x : Frac} (ha : WF a) (hx : x.PartsOK) :
    MadeR (divIntR x a) x.tt.val (x.bb.val * a.val) := by
  refine MadeR.bind (opMulR_right hx.2.1 ha) fun p hp pv => ?_
  rw [← pv]
  exact madeR_mk hx.1 hp

/-- The power of an `Int` with exponent `a` is the power with exponent `n`, for every well-formed base. -/
def PowW (a : BigInt) (n : Nat) : Prop := ∀ x, WF x → ∃ r, exponentiateR x a = .ok r ∧ WF r ∧ r.val = x.val ^ n

theorem powW_good {a : BigInt} (ha : Canon a) (h0 : 0 ≤ a.val) (hg : GoodExp a.val) : PowW a a.val.toNat := fun _ hx => by
  obtain ⟨r, r1, r2, _, r3⟩ := exponentiate_wf_ok hx ha h0 hg
  exact ⟨r, exponentiate_keeps _ _ _ r1, r2, r3⟩

theorem opPowR_made {a : BigInt} {x : Frac} (ha : Canon a) (hx : x.PartsOK) (hg : GoodExp |a.val|) :
    MadeR (opPowR x a) (if a.val < 0 then x.bb.val ^ a.val.natAbs else x.tt.val ^ a.val.natAbs)
      (if a.val < 0 then x.tt.val ^ a.val.natAbs else x.bb.val ^ a.val.natAbs) := by
  unfold opPowR
  by_cases h0 : a.val < 0
  · rw [if_pos h0, if_pos h0, ha.neg_iff.mpr h0]
    obtain ⟨m, n1, n2, _, n4, _⟩ := neg_canon ha.clean
    rw [abs_of_neg h0, ← n4] at hg
    have hp := powW_good n2 (by omega) hg
    rw [show m.val.toNat = a.val.natAbs by omega] at hp
    obtain ⟨t, t1, t2, t3⟩ := hp _ hx.1
    obtain ⟨b, b1, b2, b3⟩ := hp _ hx.2.1
    simp only [if_true, BigInt.opPowR, n1, t1, b1, bind_ok]
    rw [← t3, ← b3]
    exact madeR_mk b2 t2
  · have h0' : 0 ≤ a.val := by omega
    rw [if_neg h0, if_neg h0, negative_of_nonneg ha h0']
    rw [abs_of_nonneg h0'] at hg
    have hp := powW_good ha h0' hg
    rw [show a.val.toNat = a.val.natAbs by omega] at hp
    obtain ⟨t, t1, t2, t3⟩ := hp _ hx.1
    obtain ⟨b, b1, b2, b3⟩ := hp _ hx.2.1
    simp only [Bool.false_eq_true, if_false, BigInt.opPowR, t1, b1, bind_ok]
    rw [← t3, ← b3]
    exact madeR_mk t2 b2

/-! ### Operators that change their left operand -/

/-- The outcome of an operation that changes an object to `t / b`, on any well-formed parts. -/
def MadeU (u : MRes Frac Frac) (t b : Int) : Prop := Lands u ∧ (b ≠ 0 → RightOrThrowsU u ((t : ℚ) / b))

theorem madeU_normalize {t b : BigInt} (ht : WF t) (hb : WF b) : MadeU (normalizeU ⟨t, b⟩) t.val b.val :=
  ⟨normalizeU_lands ht hb, normalizeU_right ht hb⟩

theorem madeU_throws {s : Frac} {t b : Int} (hs : s.PartsOK) : MadeU (.error (.outOfRange, s)) t b :=
  ⟨.inr ⟨_, s, rfl, .inr (.inr rfl), hs⟩, fun _ => .inr ⟨s, rfl, hs⟩⟩

theorem MadeU.bind {r : Res BigInt} {v : Int} {k : BigInt → MRes Frac Frac} {x : Frac} {t b : Int} (hx : x.PartsOK)
    (h : BigInt.RightOrThrows r v) (hk : ∀ z, WF z → z.val = v → MadeU (k z) t b) : MadeU (at' x r >>= k) t b := by
  rcases h with ⟨z, h1, h2, h3⟩ | h
  · rw [h1]; exact hk z h2 h3
  · rw [h]; exact madeU_throws hx

theorem addAssignU_made {x y : Frac} (hx : x.PartsOK) (hy : y.PartsOK) :
    MadeU (addAssignU x y) (x.tt.val * y.bb.val + y.tt.val * x.bb.val) (x.bb.val * y.bb.val) := by
  unfold addAssignU
  refine MadeU.bind (v := x.tt.val * y.bb.val + y.tt.val * x.bb.val) hx ?_ fun t ht tv => ?_
  · obtain ⟨a, a1, a2, a3⟩ := opMulR_ok hx.1 hy.2.1
    obtain ⟨b, b1, b2, b3⟩ := opMulR_ok hy.1 hx.2.1
    rw [a1, bind_ok, b1, bind_ok, ← a3, ← b3]
    exact BigInt.opAddR_right a2 b2
  · obtain ⟨d, d1, d2, d3⟩ := mulAssignU_ok hx.2.1 hy.2.1
    simp only [d1, atBottom_ok, mbind_ok]
    rw [← tv, ← d3]
    exact madeU_normalize ht d2

theorem subAssignU_made {x y : Frac} (hx : x.PartsOK) (hy : y.PartsOK) :
    MadeU (subAssignU x y) (x.tt.val * y.bb.val - y.tt.val * x.bb.val) (x.bb.val * y.bb.val) := by
  unfold subAssignU
  refine MadeU.bind (v := x.tt.val * y.bb.val - y.tt.val * x.bb.val) hx ?_ fun t ht tv => ?_
  · obtain ⟨a, a1, a2, a3⟩ := opMulR_ok hx.1 hy.2.1
    obtain ⟨b, b1, b2, b3⟩ := opMulR_ok hy.1 hx.2.1
    rw [a1, bind_ok, b1, bind_ok, ← a3, ← b3]
    exact BigInt.opSubR_right a2 b2
  · obtain ⟨d, d1, d2, d3⟩ := mulAssignU_ok hx.2.1 hy.2.1
    simp only [d1, atBottom_ok, mbind_ok]
    rw [← tv, ← d3]
    exact madeU_normalize ht d2

theorem mulAssignU_made {x y : Frac} (hx : x.PartsOK) (hy : y.PartsOK) :
    MadeU (mulAssignU x y) (x.tt.val * y.tt.val) (x.bb.val * y.bb.val) := by
  unfold mulAssignU
  obtain ⟨t, t1, t2, t3⟩ := mulAssignU_ok hx.1 hy.1
  obtain ⟨d, d1, d2, d3⟩ := mulAssignU_ok hx.2.1 hy.2.1
  simp only [t1, d1, atTop_ok, atBottom_ok, mbind_ok]
  rw [← t3, ← d3]
  exact madeU_normalize t2 d2

theorem divAssignU_made {x y : Frac} (hx : x.PartsOK) (hy : y.PartsOK) :
    MadeU (divAssignU x y) (x.tt.val * y.bb.val) (x.bb.val * y.tt.val) := by
  unfold divAssignU
  obtain ⟨t, t1, t2, t3⟩ := mulAssignU_ok hx.1 hy.2.1
  obtain ⟨d, d1, d2, d3⟩ := mulAssignU_ok hx.2.1 hy.1
  simp only [t1, d1, atTop_ok, atBottom_ok, mbind_ok]
  rw [← t3, ← d3]
  exact madeU_normalize t2 d2

theorem addAssignIntU_made {x : Frac} {a : BigInt} (hx : x.PartsOK) (ha : WF a) :
    MadeU (addAssignIntU x a) (x.tt.val + x.bb.val * a.val) x.bb.val := by
  unfold addAssignIntU
  obtain ⟨p, p1, p2, p3⟩ := opMulR_ok hx.2.1 ha
  rw [p1, at'_ok, mbind_ok, ← p3]
  rcases addAssignU_rightU hx.1 p2 with ⟨t, t1, t2, t3⟩ | ⟨s, s1, s2⟩
  · simp only [t1, atTop_ok, mbind_ok]
    rw [← t3]
    exact madeU_normalize t2 hx.2.1
  · rw [s1]
    exact madeU_throws (s := ⟨s, x.bb⟩) ⟨s2, hx.2⟩

theorem subAssignIntU_made {x : Frac} {a : BigInt} (hx : x.PartsOK) (ha : WF a) :
    MadeU (subAssignIntU x a) (x.tt.val - x.bb.val * a.val) x.bb.val := by
  unfold subAssignIntU
  obtain ⟨p, p1, p2, p3⟩ := opMulR_ok hx.2.1 ha
  rw [p1, at'_ok, mbind_ok, ← p3]
  rcases subAssignU_rightU hx.1 p2 with ⟨t, t1, t2, t3⟩ | ⟨s, s1, s2⟩
  · simp only [t1, atTop_ok, mbind_ok]
    rw [← t3]
    exact madeU_normalize t2 hx.2.1
  · rw [s1]
    exact madeU_throws (s := ⟨s, x.bb⟩) ⟨s2, hx.2⟩

theorem mulAssignIntU_made {x : Frac} {a : BigInt} (hx : x.PartsOK) (ha : WF a) :
    MadeU (mulAssignIntU x a) (x.tt.val * a.val) x.bb.val := by
  unfold mulAssignIntU
  obtain ⟨t, t1, t2, t3⟩ := mulAssignU_ok hx.1 ha
  simp only [t1, atTop_ok, mbind_ok]
  rw [← t3]
  exact madeU_normalize t2 hx.2.1

theorem divAssignIntU_made {x : Frac} {a : BigInt} (hx : x.PartsOK) (ha : WF a) :
    MadeU (divAssignIntU x a) x.tt.val (x.bb.val * a.val) := by
  unfold divAssignIntU
  obtain ⟨d, d1, d2, d3⟩ := mulAssignU_ok hx.2.1 ha
  simp only [d1, atBottom_ok, mbind_ok]
  rw [← d3]
  exact madeU_normalize hx.1 d2

/-- `^=` raises both parts to the absolute value of the exponent. -/
theorem powAssignU_made {x : Frac} {a : BigInt} (hx : x.PartsOK) (ha : Canon a) (hg : GoodExp |a.val|) :
    MadeU (powAssignU x a) (x.tt.val ^ a.val.natAbs) (x.bb.val ^ a.val.natAbs) := by
  unfold powAssignU
  by_cases h0 : a.val < 0
  · rw [ha.neg_iff.mpr h0]
    obtain ⟨m, n1, n2, _, n4, _⟩ := neg_canon ha.clean
    rw [abs_of_neg h0, ← n4] at hg
    have hp := powW_good n2 (by omega) hg
    rw [show m.val.toNat = a.val.natAbs by omega] at hp
    obtain ⟨t, t1, t2, t3⟩ := hp _ hx.1
    obtain ⟨b, b1, b2, b3⟩ := hp _ hx.2.1
    simp only [if_true, BigInt.powAssignU, keeping_ok, n1, t1, b1, at'_ok, atTop_ok, atBottom_ok, mbind_ok]
    rw [← t3, ← b3]
    exact madeU_normalize t2 b2
  · have h0' : 0 ≤ a.val := by omega
    rw [negative_of_nonneg ha h0']
    rw [abs_of_nonneg h0'] at hg
    have hp := powW_good ha h0' hg
    rw [show a.val.toNat = a.val.natAbs by omega] at hp
    obtain ⟨t, t1, t2, t3⟩ := hp _ hx.1
    obtain ⟨b, b1, b2, b3⟩ := hp _ hx.2.1
    simp only [Bool.false_eq_true, if_false, BigInt.powAssignU, keeping_ok, t1, b1, atTop_ok, atBottom_ok, mbind_ok]
    rw [← t3, ← b3]
    exact madeU_normalize t2 b2

/-! ### Comparisons -/

theorem ltR_parts {x y : Frac} (hx : x.PartsOK) (hy : y.PartsOK) :
    ltR x y = .ok (decide (x.tt.val * y.bb.val < y.tt.val * x.bb.val)) := by
  obtain ⟨a, a1, a2, a3⟩ := opMulR_ok hx.1 hy.2.1
  obtain ⟨b, b1, b2, b3⟩ := opMulR_ok hy.1 hx.2.1
  unfold ltR
  rw [a1, bind_ok, b1, bind_ok, BigInt.lt_spec a2 b2, a3, b3]

theorem ltR_right {x y : Frac} (hx : x.PartsOK) (hy : y.PartsOK) (hx0 : x.bb.val ≠ 0) (hy0 : y.bb.val ≠ 0) :
    ltR x y = .ok (decide (x.value < y.value)) := by
  rw [ltR_parts hx hy]
  congr 1
  have hxp : 0 < x.bb.val := by have := hx.2.2; omega
  have hyp : 0 < y.bb.val := by have := hy.2.2; omega
  have hxb : (0 : ℚ) < x.bb.val := by exact_mod_cast hxp
  have hyb : (0 : ℚ) < y.bb.val := by exact_mod_cast hyp
  rw [decide_eq_decide]
  unfold value
  rw [div_lt_div_iff₀ hxb hyb]
  exact_mod_cast Iff.rfl

theorem eq_parts {x y : Frac} (hx : x.PartsOK) (hy : y.PartsOK) :
    eq x y = .ok (decide (x.tt.val = y.tt.val ∧ x.bb.val = y.bb.val)) := by
  unfold eq
  rw [BigInt.eq_spec hx.1 hy.1, bind_ok]
  by_cases ht : x.tt.val = y.tt.val
  · rw [if_pos (by simpa using ht), BigInt.eq_spec hx.2.1 hy.2.1]
    simp [ht]
  · rw [if_neg (by simpa using ht)]
    simp [ht]

end Frac

open Frac

theorem ICmp.runFracR_parts (c : ICmp) {x y : Frac} (hx : x.PartsOK) (hy : y.PartsOK) : ∃ b, c.runFracR x y = .ok b := by
  cases c
  · exact ⟨_, ltR_parts hx hy⟩
  · exact ⟨_, ltR_parts hy hx⟩
  · simp only [runFracR]; unfold Frac.leR; rw [ltR_parts hy hx]; exact ⟨_, rfl⟩
  · simp only [runFracR]; unfold Frac.geR; rw [ltR_parts hx hy]; exact ⟨_, rfl⟩
  · exact ⟨_, eq_parts hx hy⟩
  · simp only [runFracR]; unfold Frac.ne; rw [eq_parts hx hy]; exact ⟨_, rfl⟩

/-! ### Programs that catch every exception -/

/-- All variables have well-formed parts. -/
def FMem.PartsOK (m : FMem) : Prop := ∀ i, (m i).PartsOK

theorem FMem.PartsOK.set {m : FMem} (h : m.PartsOK) (d : Nat) {v : Frac} (hv : v.PartsOK) : (m.set d v).PartsOK := by
  intro i; simp only [FMem.set]; split
  · exact hv
  · exact h i

theorem FStmt.lands_store {s : FStmt} {m : FMem} (hm : m.PartsOK) {d : Nat} {r : Res Frac} (hstep : s.stepU m = m.store d r)
    (hr : RLands r) : ∃ m', s.tryStepR true m = .ok m' ∧ m'.PartsOK := by
  unfold tryStepR
  rw [hstep]
  rcases hr with ⟨f, h1, h2⟩ | ⟨e, h1, rfl | rfl | rfl⟩ <;> rw [h1]
  · exact ⟨_, rfl, hm.set d h2⟩
  · exact ⟨m, rfl, hm⟩
  · exact ⟨m, rfl, hm⟩
  · exact ⟨m, rfl, hm⟩

theorem FStmt.lands_update {s : FStmt} {m : FMem} (hm : m.PartsOK) {d : Nat} {u : MRes Frac Frac} (hstep : s.stepU m = m.update d u)
    (hu : Lands u) : ∃ m', s.tryStepR true m = .ok m' ∧ m'.PartsOK := by
  unfold tryStepR
  rw [hstep]
  rcases hu with ⟨f, h1, h2⟩ | ⟨e, f, h1, rfl | rfl | rfl, h2⟩ <;> rw [h1]
  · exact ⟨_, rfl, hm.set d h2⟩
  · exact ⟨_, rfl, hm.set d h2⟩
  · exact ⟨_, rfl, hm.set d h2⟩
  · exact ⟨_, rfl, hm.set d h2⟩

theorem FStmt.tryStepR_lands {s : FStmt} (hl : s.Legal) {m : FMem} (hm : m.PartsOK) :
    ∃ m', s.tryStepR true m = .ok m' ∧ m'.PartsOK := by
  have const : ∀ {k : Int}, -9223372036854775807 ≤ k → k ≤ 9223372036854775807 → ∃ t, ofInt64 k = .ok t ∧ Canon t ∧ t.val = k := by
    intro k h1 h2
    obtain ⟨t, t1, t2, t3, _⟩ := ofInt64_ok (x := k) 0 h1 h2
    exact ⟨t, t1, t2, by simpa using t3⟩
  cases s with
  | lit d a b =>
    obtain ⟨t, t1, t2, _⟩ := const hl.1.1 hl.1.2
    obtain ⟨u, u1, u2, _⟩ := const hl.2.1 hl.2.2
    refine lands_store hm (d := d) (r := mkR t u) ?_ (madeR_mk t2.1 u2.1).lands
    simp only [stepU, t1, u1, bind_ok]
  | str d s =>
    refine lands_store hm (d := d) rfl ?_
    by_cases hs : s = []
    · subst hs
      exact .inl ⟨_, rfl, default_valid.parts⟩
    · by_cases h : ∃ z : Int × Int, RatioText s z.1 z.2
      · obtain ⟨z, hz⟩ := h
        obtain ⟨k1, k2, k3⟩ := ofStringR_ratio hz hs
        by_cases h0 : z.2 = 0
        · exact .inr ⟨_, k1 h0, .inr (.inl rfl)⟩
        · by_cases ha : ReduceAborts z.1 z.2
          · exact .inr ⟨_, k3 h0 ha, .inr (.inr rfl)⟩
          · obtain ⟨f, f1, f2, _⟩ := k2 h0 ha
            exact .inl ⟨f, f1, f2.parts⟩
      · exact .inr ⟨_, ofStringR_not_ratio fun t b hz => h ⟨(t, b), hz⟩, .inr (.inl rfl)⟩
  | copy d a => exact ⟨_, rfl, hm.set d (hm a)⟩
  | bin op d a b =>
    refine lands_store hm (d := d) rfl ?_
    cases op
    · exact (opAddR_made (hm a) (hm b)).lands
    · exact (opSubR_made (hm a) (hm b)).lands
    · exact (opMulR_made (hm a) (hm b)).lands
    · exact (opDivR_made (hm a) (hm b)).lands
  | binInt op d a k =>
    obtain ⟨t, t1, t2, _⟩ := const hl.1 hl.2
    refine lands_store hm (d := d) (r := op.runIntR (m a) t) (by simp only [stepU, t1, bind_ok]) ?_
    cases op
    · exact (addIntR_made t2.1 (hm a)).lands
    · exact (subIntR_made t2.1 (hm a)).lands
    · exact (intMulR_made t2.1 (hm a)).lands
    · exact (divIntR_made t2.1 (hm a)).lands
  | intBin op d k a =>
    obtain ⟨t, t1, t2, _⟩ := const hl.1 hl.2
    refine lands_store hm (d := d) (r := op.intRunR t (m a)) (by simp only [stepU, t1, bind_ok]) ?_
    cases op
    · exact (intAddR_made t2.1 (hm a)).lands
    · exact (intSubR_made t2.1 (hm a)).lands
    · exact (intMulR_made t2.1 (hm a)).lands
    · exact (intDivR_made t2.1 (hm a)).lands
  | asg op d a =>
    refine lands_update hm (d := d) (op.assignU_eq m d a) ?_
    cases op
    · exact (addAssignU_made (hm d) (hm a)).1
    · exact (subAssignU_made (hm d) (hm a)).1
    · exact (mulAssignU_made (hm d) (hm a)).1
    · exact (divAssignU_made (hm d) (hm a)).1
  | asgInt op d k =>
    obtain ⟨t, t1, t2, _⟩ := const hl.1 hl.2
    refine lands_update hm (d := d) (u := op.asgIntU (m d) t) (by simp only [stepU, t1, at'_ok, mbind_ok]) ?_
    cases op
    · exact (addAssignIntU_made (hm d) t2.1).1
    · exact (subAssignIntU_made (hm d) t2.1).1
    · exact (mulAssignIntU_made (hm d) t2.1).1
    · exact (divAssignIntU_made (hm d) t2.1).1
  | pow d a k =>
    have hl : -1000000000 < k ∧ k < 1000000000 := hl
    obtain ⟨t, t1, t2, t3⟩ := const (k := k) (by omega) (by omega)
    refine lands_store hm (d := d) (r := opPowR (m a) t) (by simp only [stepU, t1, bind_ok]) ?_
    refine (opPowR_made t2 (hm a) ?_).lands
    rw [t3]
    exact GoodExp.of_lt (abs_nonneg _) (abs_lt.mpr ⟨by omega, by omega⟩)
  | powAsg d k =>
    have hl : -1000000000 < k ∧ k < 1000000000 := hl
    obtain ⟨t, t1, t2, t3⟩ := const (k := k) (by omega) (by omega)
    refine lands_update hm (d := d) (u := powAssignU (m d) t) (by simp only [stepU, t1, at'_ok, mbind_ok]) ?_
    refine (powAssignU_made (hm d) t2 ?_).1
    rw [t3]
    exact GoodExp.of_lt (abs_nonneg _) (abs_lt.mpr ⟨by omega, by omega⟩)
  | recip d a =>
    refine lands_store hm (d := d) rfl ?_
    exact (madeR_mk (hm a).2.1 (hm a).1).lands

/-- Programs that catch every exception: the variables keep well-formed parts. -/
theorem FProg.execR_parts (f : Nat) : ∀ {p : FProg}, p.Legal → ∀ {m : FMem}, m.PartsOK →
    (∃ m', p.execR true f m = .ok m' ∧ m'.PartsOK) ∨ p.execR true f m = .error .diverge := by
  induction f with
  | zero => intro p _ m _; exact .inr rfl
  | succ f ih =>
    intro p hl m hm
    have seq : ∀ {p q : FProg}, p.Legal → q.Legal →
        (∃ m', (do let m ← p.execR true f m; q.execR true f m) = .ok m' ∧ m'.PartsOK) ∨
        (do let m ← p.execR true f m; q.execR true f m) = .error .diverge := by
      intro p q hp hq
      rcases ih hp hm with ⟨m', h1, h2⟩ | h1
      · rw [h1]; exact ih hq h2
      · rw [h1]; exact .inr rfl
    cases p with
    | stmt s => exact .inl (FStmt.tryStepR_lands hl hm)
    | seq p q => exact seq hl.1 hl.2
    | ite c a b p q =>
      obtain ⟨t, ht⟩ := c.runFracR_parts (hm a) (hm b)
      simp only [execR, ht, bind_ok]
      cases t
      · simpa using ih hl.2 hm
      · simpa using ih hl.1 hm
    | «while» c a b p =>
      obtain ⟨t, ht⟩ := c.runFracR_parts (hm a) (hm b)
      simp only [execR, ht, bind_ok]
      cases t
      · exact .inl ⟨m, by simp, hm⟩
      · have := seq (p := p) (q := .while c a b p) hl hl
        simpa using this

end CppMaths
