import Verif.Spec.Frac
import Verif.Proofs.IntMem
import Mathlib.Tactic.FieldSimp
import Mathlib.Tactic.Linarith
import Mathlib.Tactic.Ring
import Mathlib.Algebra.Order.Ring.Rat
/-!
# Greatest common divisors and reduction to lowest terms
-/

namespace CppMaths
open BigInt

namespace Frac

@[simp] theorem at'_ok {σ α : Type} (s : σ) (a : α) : at' s (.ok a : Res α) = .ok a := rfl
@[simp] theorem at'_err {σ α : Type} (s : σ) (e : Err) : at' s (.error e : Res α) = .error (e, s) := rfl
@[simp] theorem mbind_ok {σ α β : Type} (a : α) (f : α → MRes σ β) : ((Except.ok a : MRes σ α) >>= f) = f a := rfl
@[simp] theorem mbind_err {σ α β : Type} (e : Err × σ) (f : α → MRes σ β) :
    ((Except.error e : MRes σ α) >>= f) = Except.error e := rfl
@[simp] theorem mpure_ok {σ α : Type} (a : α) : (pure a : MRes σ α) = Except.ok a := rfl
@[simp] theorem drop_ok {σ α : Type} (a : α) : drop (.ok a : MRes σ α) = .ok a := rfl
@[simp] theorem drop_err {σ α : Type} (e : Err × σ) : drop (.error e : MRes σ α) = .error e.1 := rfl

theorem opMod_eq (x y : BigInt) : opMod x y = modulo x y := by
  rfl

theorem not_euclidAborts_zero {a : Int} : ¬EuclidAborts a 0 := by
  intro h; cases h <;> contradiction

theorem euclidAborts_iff {a b : Int} (hb : b ≠ 0) : EuclidAborts a b ↔ DivAborts a b ∨ EuclidAborts b (a % b) := by
  constructor
  · intro h
    cases h with
    | here _ h => exact .inl h
    | next _ h => exact .inr h
  · rintro (h | h)
    · exact .here hb h
    · exact .next hb h

/-- The `while` loop of `nochecks_gcd`. -/
theorem gcdLoop_ok : ∀ (f : Nat) {a b : BigInt}, Canon a → Canon b → 0 ≤ a.val → 0 ≤ b.val → b.val < f →
    (¬EuclidAborts a.val b.val → ∃ r, gcdLoop f a b = .ok r ∧ Canon r ∧ r.val = Int.gcd a.val b.val) ∧
    (EuclidAborts a.val b.val → gcdLoop f a b = .error .assertion) := by
  intro f
  induction f with
  | zero => intro a b _ _ _ h0 hf; push_cast at hf; omega
  | succ f ih =>
    intro a b ha hb ha0 hb0 hf
    unfold gcdLoop
    rw [equalsInt32_zero hb.1, bind_ok]
    by_cases hz : b.val = 0
    · rw [if_pos (by simpa using val_eq_zero_iff.mp hz), hz]
      refine ⟨fun _ => ⟨a, rfl, ha, ?_⟩, fun h => absurd h not_euclidAborts_zero⟩
      rw [Int.gcd_zero_right]; omega
    · rw [if_neg (by simpa [val_eq_zero_iff] using hz), opMod_eq, euclidAborts_iff hz]
      obtain ⟨_, m2, m3⟩ := modulo_exact ha hb
      have hfm : a.val.fmod b.val = a.val % b.val := by rw [Int.fmod_eq_emod_of_nonneg _ hb0]
      by_cases hd : DivAborts a.val b.val
      · rw [m2 hz hd]
        exact ⟨fun h => absurd (.inl hd) h, fun _ => rfl⟩
      · obtain ⟨r, r1, r2, r3⟩ := m3 hz hd
        rw [r1, bind_ok]
        rw [hfm] at r3
        have l0 := Int.emod_nonneg a.val hz
        have l1 := Int.emod_lt_of_pos a.val (show 0 < b.val by omega)
        have := ih hb r2 hb0 (by omega) (by push_cast at hf; omega)
        rw [r3] at this
        refine ⟨fun h => ?_, fun h => this.2 (h.resolve_left hd)⟩
        obtain ⟨s, s1, s2, s3⟩ := this.1 (fun hc => h (.inr hc))
        refine ⟨s, s1, s2, ?_⟩
        rw [s3, Int.gcd_comm, Int.gcd_emod]

theorem canon_abs {a : BigInt} (h : Canon a) : ∃ r, a.abs = .ok r ∧ Canon r ∧ r.val = |a.val| := by
  obtain ⟨r, r1, r2, r3, r4⟩ := abs_ok h.1
  refine ⟨r, r1, ⟨r2, ?_, ?_⟩, by rw [r4, abs_val h.1]⟩
  · rw [r3]; exact h.2.1
  · intro hn hm
    -- a canonical number whose absolute value is zero is returned unchanged
    have hz : a.val = 0 := val_eq_zero_iff.mpr (by rw [← r3]; exact hm)
    unfold BigInt.abs at r1
    rw [ofInt64_zero, bind_ok, lt_spec h.1 WF_zero, bind_ok, hz] at r1
    simp [val] at r1
    subst r1
    exact h.2.2 hn hm

theorem nochecksGcd_ok {a b : BigInt} (ha : Canon a) (hb : Canon b) (ha0 : 0 ≤ a.val) (hb0 : 0 ≤ b.val) :
    (¬EuclidAborts a.val b.val → ∃ r, nochecksGcd a b = .ok r ∧ Canon r ∧ r.val = Int.gcd a.val b.val) ∧
    (EuclidAborts a.val b.val → nochecksGcd a b = .error .assertion) := by
  apply gcdLoop_ok _ ha hb ha0 hb0
  have := mag_lt hb.1.2
  rw [← abs_val hb.1, abs_of_nonneg hb0] at this
  push_cast; omega

/-- `GCD` on canonical numbers. -/
theorem gcd_spec {x y : BigInt} (hx : Canon x) (hy : Canon y) :
    (¬EuclidAborts (max |x.val| |y.val|) (min |x.val| |y.val|) →
      ∃ r, gcd x y = .ok r ∧ Canon r ∧ r.val = Int.gcd x.val y.val) ∧
    (EuclidAborts (max |x.val| |y.val|) (min |x.val| |y.val|) → gcd x y = .error .assertion) := by
  obtain ⟨a, a1, a2, a3⟩ := canon_abs hx
  obtain ⟨b, b1, b2, b3⟩ := canon_abs hy
  have ha0 : 0 ≤ a.val := by rw [a3]; exact abs_nonneg _
  have hb0 : 0 ≤ b.val := by rw [b3]; exact abs_nonneg _
  have hg : Int.gcd x.val y.val = Int.gcd a.val b.val := by
    rw [a3, b3]; simp only [Int.gcd, Int.natAbs_abs]
  unfold gcd
  rw [a1, b1, bind_ok, bind_ok, lt_spec a2.1 b2.1, bind_ok, ← a3, ← b3, hg]
  by_cases hl : a.val < b.val
  · rw [if_pos (by simpa using hl), max_eq_right hl.le, min_eq_left hl.le, Int.gcd_comm]
    exact nochecksGcd_ok b2 a2 hb0 ha0
  · rw [if_neg (by simpa using hl), max_eq_left (not_lt.mp hl), min_eq_right (not_lt.mp hl)]
    exact nochecksGcd_ok a2 b2 ha0 hb0

/-- Numbers as `*=` leaves them: canonical, or a zero that need not be. -/
def Almost (a : BigInt) : Prop := Canon a ∨ (WF a ∧ a.val = 0)

theorem Almost.wf {a : BigInt} (h : Almost a) : WF a := h.elim (fun h => h.1) (fun h => h.1)

theorem gcd_zero_almost {x y : BigInt} (hx : WF x) (hx0 : x.val = 0) (hy : Canon y) (hy0 : y.val ≠ 0) :
    ∃ r, gcd x y = .ok r ∧ Canon r ∧ r.val = Int.gcd x.val y.val := by
  obtain ⟨a, a1, a2, a3, a4⟩ := abs_ok hx
  obtain ⟨b, b1, b2, b3⟩ := canon_abs hy
  rw [← abs_val hx, hx0, abs_zero] at a4
  have hl : a.val < b.val := by rw [a4, b3]; exact abs_pos.mpr hy0
  refine ⟨b, ?_, b2, ?_⟩
  · unfold gcd
    rw [a1, b1, bind_ok, bind_ok, lt_spec a2 b2.1, bind_ok, if_pos (by simpa using hl)]
    unfold nochecksGcd gcdLoop
    rw [equalsInt32_zero a2, bind_ok, if_pos (by simpa [val_eq_zero_iff] using a4)]
    rfl
  · rw [b3, hx0, Int.gcd_zero_left, Int.abs_eq_natAbs]

theorem not_divAborts_zero {y : Int} (hy : y ≠ 0) : ¬DivAborts 0 y := by
  rintro ⟨h, _⟩
  rw [abs_zero] at h
  exact absurd (abs_pos.mpr hy) (not_lt.mpr h)

theorem divAborts_neg {x y : Int} : DivAborts (-x) y ↔ DivAborts x y := by
  unfold DivAborts; rw [abs_neg]

theorem reduceAborts_neg {t b : Int} : ReduceAborts (-t) (-b) ↔ ReduceAborts t b := by
  unfold ReduceAborts; rw [abs_neg, abs_neg, divAborts_neg, divAborts_neg, Int.gcd_neg, Int.neg_gcd]

/-- Dividing by a divisor. -/
theorem tdiv_exact {t g : Int} (hg : g ≠ 0) (hd : g ∣ t) : t.tdiv g = t / g ∧ t = g * (t / g) := by
  obtain ⟨k, rfl⟩ := hd
  rw [Int.mul_tdiv_cancel_left _ hg, Int.mul_ediv_cancel_left _ hg]
  exact ⟨rfl, rfl⟩

/-- `normalize` when the denominator is positive. -/
theorem reduce_spec {t b : BigInt} (ht : Almost t) (hb : Canon b) (hb0 : 0 < b.val) :
    (¬ReduceAborts t.val b.val → ∃ c t' b', gcd t b = .ok c ∧ t.divAssign c = .ok t' ∧ b.divAssign c = .ok b' ∧
      Valid ⟨t', b'⟩ ∧ (⟨t', b'⟩ : Frac).value = (t.val : ℚ) / b.val) ∧
    (ReduceAborts t.val b.val → gcd t b = .error .assertion ∨ (∃ c, gcd t b = .ok c ∧ t.divAssign c = .error .assertion) ∨
      (∃ c t', gcd t b = .ok c ∧ t.divAssign c = .ok t' ∧ b.divAssign c = .error .assertion)) := by
  have hg : 0 < Int.gcd t.val b.val := Int.gcd_pos_of_ne_zero_right _ hb0.ne'
  -- the divisor
  have key : (¬EuclidAborts (max |t.val| |b.val|) (min |t.val| |b.val|) →
      ∃ r, gcd t b = .ok r ∧ Canon r ∧ r.val = Int.gcd t.val b.val) ∧
      (EuclidAborts (max |t.val| |b.val|) (min |t.val| |b.val|) → gcd t b = .error .assertion) := by
    rcases ht with ht | ⟨ht, ht0⟩
    · exact gcd_spec ht hb
    · refine ⟨fun _ => gcd_zero_almost ht ht0 hb hb0.ne', fun h => ?_⟩
      rw [ht0, abs_zero, min_eq_left (abs_nonneg _)] at h
      exact absurd h not_euclidAborts_zero
  have divt : ∀ c, Canon c → c.val = Int.gcd t.val b.val → (DivAborts t.val c.val → t.divAssign c = .error .assertion) ∧
      (¬DivAborts t.val c.val → ∃ r, t.divAssign c = .ok r ∧ Canon r ∧ r.val = t.val.tdiv c.val) := by
    intro c hc hcv
    have hc0 : c.val ≠ 0 := by rw [hcv]; exact_mod_cast hg.ne'
    rw [divAssign_eq]
    rcases ht with ht | ⟨ht, ht0⟩
    · exact ⟨(divide_exact ht hc).2.1 hc0, (divide_exact ht hc).2.2 hc0⟩
    · rw [ht0]
      refine ⟨fun h => absurd h (not_divAborts_zero hc0), fun _ => ?_⟩
      have hn : ¬DivTrips t c := by
        rintro ⟨h, _⟩
        rw [← abs_val ht, ← abs_val hc.1, ht0, abs_zero] at h
        exact absurd (abs_pos.mpr hc0) (not_lt.mpr h)
      have := (divide_spec ht hc.1).2.2 hc0 hn
      rwa [ht0] at this
  have divb : ∀ c, Canon c → c.val = Int.gcd t.val b.val → (DivAborts b.val c.val → b.divAssign c = .error .assertion) ∧
      (¬DivAborts b.val c.val → ∃ r, b.divAssign c = .ok r ∧ Canon r ∧ r.val = b.val.tdiv c.val) := by
    intro c hc hcv
    have hc0 : c.val ≠ 0 := by rw [hcv]; exact_mod_cast hg.ne'
    rw [divAssign_eq]
    exact ⟨(divide_exact hb hc).2.1 hc0, (divide_exact hb hc).2.2 hc0⟩
  unfold ReduceAborts
  constructor
  · intro h
    push Not at h
    obtain ⟨c, c1, c2, c3⟩ := key.1 h.1
    obtain ⟨t', t1, t2, t3⟩ := (divt c c2 c3).2 (by rw [c3]; exact h.2.1)
    obtain ⟨b', b1, b2, b3⟩ := (divb c c2 c3).2 (by rw [c3]; exact h.2.2)
    have hg' : ((Int.gcd t.val b.val : ℕ) : Int) ≠ 0 := by exact_mod_cast hg.ne'
    obtain ⟨e1, e2⟩ := tdiv_exact hg' (Int.gcd_dvd_left t.val b.val)
    obtain ⟨e3, e4⟩ := tdiv_exact hg' (Int.gcd_dvd_right t.val b.val)
    rw [c3, e1] at t3
    rw [c3, e3] at b3
    have hb' : 0 < b'.val := by
      rw [b3]
      have : (0 : Int) < ((Int.gcd t.val b.val : ℕ) : Int) * (b.val / (Int.gcd t.val b.val : ℕ)) := by rw [← e4]; exact hb0
      exact pos_of_mul_pos_right this (by positivity)
    refine ⟨c, t', b', c1, t1, b1, ⟨t2, b2, hb', ?_⟩, ?_⟩
    · show Int.gcd t'.val b'.val = 1
      rw [t3, b3]
      exact Int.gcd_ediv_gcd_ediv_gcd hg
    · show (t'.val : ℚ) / b'.val = _
      rw [t3, b3]
      have q2 := congrArg (Int.cast : Int → ℚ) e2
      have q4 := congrArg (Int.cast : Int → ℚ) e4
      rw [Int.cast_mul] at q2 q4
      rw [q2, q4, mul_div_mul_left]
      exact_mod_cast hg.ne'
  · intro h
    by_cases h1 : EuclidAborts (max |t.val| |b.val|) (min |t.val| |b.val|)
    · exact .inl (key.2 h1)
    · obtain ⟨c, c1, c2, c3⟩ := key.1 h1
      refine .inr ?_
      by_cases h2 : DivAborts t.val c.val
      · exact .inl ⟨c, c1, (divt c c2 c3).1 h2⟩
      · obtain ⟨t', t1, t2, t3⟩ := (divt c c2 c3).2 h2
        refine .inr ⟨c, t', c1, t1, (divb c c2 c3).1 ?_⟩
        rw [← c3] at h
        exact (h.resolve_left h1).resolve_left h2

/-- `normalize` on `t / b` with a canonical nonzero denominator. -/
theorem normalize_spec {t b : BigInt} (ht : Almost t) (hb : Canon b) (hb0 : b.val ≠ 0) :
    (¬ReduceAborts t.val b.val → ∃ f, normalize ⟨t, b⟩ = .ok f ∧ f.Valid ∧ f.value = (t.val : ℚ) / b.val) ∧
    (ReduceAborts t.val b.val → ∃ s, normalize ⟨t, b⟩ = .error (.assertion, s)) := by
  -- after the sign has been moved to the top
  have key : ∀ {t b : BigInt}, Almost t → Canon b → 0 < b.val → b.negative = false →
      (¬ReduceAborts t.val b.val → ∃ f, normalize ⟨t, b⟩ = .ok f ∧ f.Valid ∧ f.value = (t.val : ℚ) / b.val) ∧
      (ReduceAborts t.val b.val → ∃ s, normalize ⟨t, b⟩ = .error (.assertion, s)) := by
    intro t b ht hb hb0 hs
    have e : normalize ⟨t, b⟩ = (do
        let c ← at' (⟨t, b⟩ : Frac) (gcd t b)
        let t' ← at' (⟨t, b⟩ : Frac) (t.divAssign c)
        let b' ← at' (⟨t', b⟩ : Frac) (b.divAssign c)
        return (⟨t', b'⟩ : Frac)) := by
      simp [normalize, hs]
    rw [e]
    obtain ⟨h1, h2⟩ := reduce_spec ht hb hb0
    constructor
    · intro h
      obtain ⟨c, t', b', c1, c2, c3, c4, c5⟩ := h1 h
      exact ⟨⟨t', b'⟩, by simp [c1, c2, c3], c4, c5⟩
    · intro h
      rcases h2 h with h | ⟨c, c1, c2⟩ | ⟨c, t', c1, c2, c3⟩
      · exact ⟨⟨t, b⟩, by simp [h]⟩
      · exact ⟨⟨t, b⟩, by simp [c1, c2]⟩
      · exact ⟨⟨t', b⟩, by simp [c1, c2, c3]⟩
  cases hs : b.negative
  · have := (not_congr hb.neg_iff).mp (by simp [hs])
    exact key ht hb (by omega) hs
  · have hlt := hb.neg_iff.mp hs
    obtain ⟨b', b1, b2, b3, b4, b5⟩ := negate_canon hb.clean
    obtain ⟨t', t1, t2, t3, t4, t5, t6⟩ := negate_ok ht.wf
    have ht' : Almost t' := by
      rcases ht with ht | ⟨ht, ht0⟩
      · obtain ⟨t'', k1, k2, _⟩ := negate_canon ht.clean
        rw [t1, Except.ok.injEq] at k1
        exact .inl (k1 ▸ k2)
      · exact .inr ⟨t2, by rw [t4, ht0, neg_zero]⟩
    have e : normalize ⟨t, b⟩ = normalize ⟨t', b'⟩ := by
      simp [normalize, hs, b1, t1, b5 hs]
    have := key ht' b2 (by omega) (b5 hs)
    rw [e]
    rw [t4, b4, reduceAborts_neg] at this
    push_cast at this
    rwa [neg_div_neg_eq] at this

/-- `Frac(top, bottom)`. -/
theorem mk'_spec {t b : BigInt} (ht : Almost t) (hb : Canon b) :
    (b.val = 0 → mk' t b = .error .divideByZero) ∧
    (b.val ≠ 0 → ¬ReduceAborts t.val b.val → ∃ f, mk' t b = .ok f ∧ f.Valid ∧ f.value = (t.val : ℚ) / b.val) ∧
    (b.val ≠ 0 → ReduceAborts t.val b.val → mk' t b = .error .assertion) := by
  unfold mk'
  rw [equalsInt32_zero hb.1, bind_ok]
  refine ⟨fun h => ?_, fun h hr => ?_, fun h hr => ?_⟩
  · rw [if_pos (by simpa [val_eq_zero_iff] using h)]
  · rw [if_neg (by simpa [val_eq_zero_iff] using h)]
    obtain ⟨f, f1, f2⟩ := (normalize_spec ht hb h).1 hr
    exact ⟨f, by rw [f1, drop_ok], f2⟩
  · rw [if_neg (by simpa [val_eq_zero_iff] using h)]
    obtain ⟨s, s1⟩ := (normalize_spec ht hb h).2 hr
    rw [s1, drop_err]

end Frac
end CppMaths
