import Verif.Model.FracRelease
import Verif.Proofs.Release
import Verif.Proofs.FracOps
/-!
# `Frac` without assertions: helper lemmas
-/

namespace CppMaths
open BigInt

namespace Frac

@[simp] theorem atTop_ok (f : Frac) (t : BigInt) : atTop f (.ok t) = .ok { f with tt := t } := rfl
@[simp] theorem atTop_err (f : Frac) (e : Err) (t : BigInt) : atTop f (.error (e, t)) = .error (e, { f with tt := t }) := rfl
@[simp] theorem atBottom_ok (f : Frac) (b : BigInt) : atBottom f (.ok b) = .ok { f with bb := b } := rfl
@[simp] theorem atBottom_err (f : Frac) (e : Err) (b : BigInt) : atBottom f (.error (e, b)) = .error (e, { f with bb := b }) := rfl

/-! ### Greatest common divisors -/

theorem gcdLoop_keeps : ∀ (n : Nat) (a b : BigInt), Keeps (gcdLoop n a b) (gcdLoopR n a b)
  | 0, _, _ => Keeps.fail
  | n + 1, a, b => by
    unfold gcdLoop gcdLoopR
    refine (Keeps.refl _).bind fun z => Keeps.ite Keeps.ok ((modulo_keeps a b).bind fun r => gcdLoop_keeps n b r)

theorem gcd_keeps (a b : BigInt) : Keeps (gcd a b) (gcdR a b) :=
  (Keeps.refl _).bind fun _ => (Keeps.refl _).bind fun _ => (Keeps.refl _).bind fun _ =>
    Keeps.ite (gcdLoop_keeps _ _ _) (gcdLoop_keeps _ _ _)

theorem gcdLoopR_throws : ∀ (f : Nat) {a b : BigInt}, Canon a → Canon b → 0 ≤ a.val → 0 ≤ b.val → b.val < f →
    EuclidAborts a.val b.val → gcdLoopR f a b = .error .outOfRange := by
  intro f
  induction f with
  | zero => intro a b _ _ _ h0 hf; push_cast at hf; omega
  | succ f ih =>
    intro a b ha hb ha0 hb0 hf he
    unfold gcdLoopR
    have hb1 : b.val ≠ 0 := fun h => not_euclidAborts_zero (by rwa [h] at he)
    rw [equalsInt32_zero hb.1, bind_ok, if_neg (by simpa [val_eq_zero_iff] using hb1)]
    have hm := moduloR_exact ha hb
    by_cases hd : DivAborts a.val b.val
    · show opModR a b >>= _ = _
      unfold opModR
      rw [hm.2.1 hb1 hd]; rfl
    · obtain ⟨r, r1, r2, r3⟩ := hm.2.2 hb1 hd
      have e : r.val = a.val % b.val := by rw [r3, Int.fmod_eq_emod_of_nonneg _ hb0]
      have h1 := Int.emod_nonneg a.val hb1
      have h2 := Int.emod_lt_of_pos a.val (show 0 < b.val by omega)
      show opModR a b >>= _ = _
      unfold opModR
      rw [r1, bind_ok]
      refine ih hb r2 hb0 (by omega) (by push_cast at hf; omega) ?_
      rw [e]
      exact ((euclidAborts_iff hb1).mp he).resolve_left hd

theorem gcdR_throws {x y : BigInt} (hx : Canon x) (hy : Canon y) (h : EuclidAborts (max |x.val| |y.val|) (min |x.val| |y.val|)) :
    gcdR x y = .error .outOfRange := by
  obtain ⟨a, a1, a2, a3⟩ := canon_abs hx
  obtain ⟨b, b1, b2, b3⟩ := canon_abs hy
  have ha0 : 0 ≤ a.val := by rw [a3]; exact abs_nonneg _
  have hb0 : 0 ≤ b.val := by rw [b3]; exact abs_nonneg _
  have key : ∀ {a b : BigInt}, Canon a → Canon b → 0 ≤ a.val → 0 ≤ b.val → EuclidAborts a.val b.val →
      nochecksGcdR a b = .error .outOfRange := by
    intro a b ha hb ha0 hb0 he
    refine gcdLoopR_throws _ ha hb ha0 hb0 ?_ he
    have := mag_lt hb.1.2
    rw [← abs_val hb.1, abs_of_nonneg hb0] at this
    push_cast; omega
  unfold gcdR
  rw [a1, b1, bind_ok, bind_ok, BigInt.lt_spec a2.1 b2.1, bind_ok]
  rw [← a3, ← b3] at h
  by_cases hl : a.val < b.val
  · rw [max_eq_right hl.le, min_eq_left hl.le] at h
    rw [if_pos (by simpa using hl)]
    exact key b2 a2 hb0 ha0 h
  · rw [max_eq_left (not_lt.mp hl), min_eq_right (not_lt.mp hl)] at h
    rw [if_neg (by simpa using hl)]
    exact key a2 b2 ha0 hb0 h

/-- If Euclid's algorithm returns and a part cannot be divided by the result, then that part divides the other. -/
theorem dvd_of_trips {x y : Int} (hx : 0 < x) (hy : 0 ≤ y) (hn : ¬EuclidAborts (max x y) (min x y))
    (hd : DivAborts x (Int.gcd x y)) : x ∣ y := by
  have hg : (0 : Int) < Int.gcd x y := by exact_mod_cast Int.gcd_pos_of_ne_zero_left y hx.ne'
  have mono : ∀ d : Int, (Int.gcd x y : Int) ≤ d → d ≤ x → DivAborts x d := by
    intro d h1 h2
    obtain ⟨_, j, j1, j2, j3, j4⟩ := hd
    refine ⟨by rw [abs_of_pos hx, abs_of_pos (by omega)]; exact h2, j, j1, j2, j3, lt_of_le_of_lt ?_ j4⟩
    rw [abs_of_pos hx, abs_of_pos (show 0 < d by omega), abs_of_pos hg]
    have e : d * (x / d) ≤ x := Int.mul_ediv_self_le (by omega)
    have q0 : 0 ≤ x / d := Int.ediv_nonneg hx.le (by omega)
    exact Int.le_ediv_of_mul_le hg (by nlinarith)
  rcases le_or_gt y x with h | h
  · rcases eq_or_lt_of_le hy with h0 | h0
    · rw [← h0]; exact dvd_zero x
    · exfalso
      rw [max_eq_left h, min_eq_right h] at hn
      exact hn (.here h0.ne' (mono y (Int.le_of_dvd h0 (Int.gcd_dvd_right _ _)) h))
  · rw [max_eq_right h.le, min_eq_left h.le] at hn
    by_contra hdv
    have h0 : y % x ≠ 0 := fun h => hdv (Int.dvd_of_emod_eq_zero h)
    have h1 := Int.emod_nonneg y hx.ne'
    have h2 := Int.emod_lt_of_pos y hx
    have h3 : (Int.gcd x y : Int) ∣ y % x := (Int.dvd_iff_emod_eq_zero.mpr (by rw [Int.emod_emod_of_dvd _ (Int.gcd_dvd_left _ _)]; exact Int.emod_eq_zero_of_dvd (Int.gcd_dvd_right _ _)))
    exact hn (.next hx.ne' (.here h0 (mono _ (Int.le_of_dvd (by omega) h3) h2.le)))

/-! ### Reduction to lowest terms -/

theorem highestZero_of_lostAt {x c : BigInt} {k : Nat} (hx : Canon x) (hc : |c.val| = |x.val|) (hx0 : x.val ≠ 0) (h : LostAt x c k) :
    HighestZero x.val k := by
  have one : ∀ j, |x.val| / |c.val| < 1000000000 ^ (j + 1) := by
    intro j
    rw [hc, Int.ediv_self (abs_pos.mpr hx0).ne']
    exact one_lt_pow₀ (by norm_num) (by omega)
  have key : ∀ j, 1 ≤ j → ((j + 1 < x.bins.length ∧ x.bins[j]? = some 0) ↔
      (1000000000 ^ (j + 1) ≤ |x.val| ∧ |x.val| / 1000000000 ^ j % 1000000000 = 0)) := by
    intro j hj
    rw [abs_val hx.1, lt_length_iff hx.1.2 hx.2.1 (by omega)]
    refine and_congr_right fun h => ?_
    have hl : j + 1 < x.bins.length := (lt_length_iff hx.1.2 hx.2.1 (by omega)).mpr h
    rw [bin_eq hx.1.2 (by omega), Option.some.injEq]
  obtain ⟨⟨h1, h2, h3, _⟩, h5⟩ := h
  refine ⟨⟨h1, (key k h1).mp ⟨h2, h3⟩⟩, fun j hj hc => ?_⟩
  obtain ⟨c1, c2⟩ := (key j (by omega)).mpr hc
  exact h5 j hj ⟨c1, c2, one j⟩

/-- `normalize` when the denominator is positive and the reduction does not go through. -/
theorem reduceU_throws {t b : BigInt} (ht : Almost t) (hb : Canon b) (hb0 : 0 < b.val) (hs : b.negative = false)
    (h : ReduceAborts t.val b.val) :
    ∃ s, normalizeU ⟨t, b⟩ = .error (.outOfRange, s) ∧ s.PartsOK ∧
      ((EuclidAborts (max |t.val| |b.val|) (min |t.val| |b.val|) ∧ s.tt.val = t.val ∧ s.bb.val = b.val) ∨
       (t.val ∣ b.val ∧ s.bb.val = b.val ∧ ∃ k, HighestZero t.val k ∧ s.tt.val = t.val.tmod (1000000000 ^ k)) ∨
       (b.val ∣ t.val ∧ s.tt.val = t.val / b.val ∧ ∃ k, HighestZero b.val k ∧ s.bb.val = b.val % 1000000000 ^ k)) := by
  have e : normalizeU ⟨t, b⟩ = (do
      let c ← at' (⟨t, b⟩ : Frac) (gcdR t b)
      let f ← atTop (⟨t, b⟩ : Frac) (t.divAssignU c)
      atBottom f (f.bb.divAssignU c)) := by
    simp [normalizeU, hs]
  rw [e]
  by_cases he : EuclidAborts (max |t.val| |b.val|) (min |t.val| |b.val|)
  · have htc : Canon t := by
      rcases ht with ht | ⟨_, ht0⟩
      · exact ht
      · rw [ht0, abs_zero, min_eq_left (abs_nonneg _)] at he
        exact absurd he not_euclidAborts_zero
    rw [gcdR_throws htc hb he]
    exact ⟨⟨t, b⟩, rfl, ⟨ht.wf, hb.1, hb0.le⟩, .inl ⟨he, rfl, rfl⟩⟩
  · have hg : 0 < Int.gcd t.val b.val := Int.gcd_pos_of_ne_zero_right _ hb0.ne'
    obtain ⟨c, c1, c2, c3⟩ : ∃ r, gcdR t b = .ok r ∧ Canon r ∧ r.val = Int.gcd t.val b.val := by
      rcases ht with ht | ⟨ht, ht0⟩
      · obtain ⟨r, r1, r2⟩ := (gcd_spec ht hb).1 he
        exact ⟨r, gcd_keeps _ _ _ r1, r2⟩
      · obtain ⟨r, r1, r2⟩ := gcd_zero_almost ht ht0 hb hb0.ne'
        exact ⟨r, gcd_keeps _ _ _ r1, r2⟩
    have hc0 : c.val ≠ 0 := by rw [c3]; exact_mod_cast hg.ne'
    rw [c1, at'_ok, mbind_ok, divAssignU_eq]
    unfold ReduceAborts at h
    rw [← c3] at h
    by_cases hd : DivAborts t.val c.val
    · -- the numerator
      have ht0 : t.val ≠ 0 := fun h => not_divAborts_zero hc0 (h ▸ hd)
      have htc : Canon t := ht.resolve_right fun h => ht0 h.2
      have hdv : |t.val| ∣ |b.val| := by
        refine dvd_of_trips (abs_pos.mpr ht0) (abs_nonneg _) he ?_
        rw [c3] at hd
        unfold DivAborts at hd ⊢
        rw [abs_abs, Int.gcd, Int.natAbs_abs, Int.natAbs_abs]
        exact hd
      have hdv' : t.val ∣ b.val := (abs_dvd_abs _ _).mp hdv
      obtain ⟨k, s, k1, k2, k3, k4, k5⟩ := (divideU_spec htc.1 c2.1).2.1 hc0 ((divTrips_iff htc.clean c2.1).mpr hd)
      refine ⟨⟨s, b⟩, by rw [k2]; rfl, ⟨k3, hb.1, hb0.le⟩, .inr (.inl ⟨hdv', rfl, k, ?_, k5⟩)⟩
      refine highestZero_of_lostAt htc ?_ ht0 k1
      rw [c3, Int.gcd_eq_natAbs_left hdv', Int.abs_eq_natAbs, Int.abs_eq_natAbs, Int.natAbs_natCast]
    · -- the denominator
      have hdb : DivAborts b.val c.val := (h.resolve_left he).resolve_left hd
      have hdv : |b.val| ∣ |t.val| := by
        refine dvd_of_trips (abs_pos.mpr hb0.ne') (abs_nonneg _) (by rwa [max_comm, min_comm]) ?_
        rw [c3] at hdb
        unfold DivAborts at hdb ⊢
        rw [abs_abs, Int.gcd, Int.natAbs_abs, Int.natAbs_abs, Nat.gcd_comm]
        exact hdb
      have hdv' : b.val ∣ t.val := (abs_dvd_abs _ _).mp hdv
      have hcb : c.val = b.val := by
        rw [c3, Int.gcd_eq_natAbs_right hdv', ← Int.abs_eq_natAbs, abs_of_pos hb0]
      have hn : ¬DivTrips t c := by
        rcases ht with ht | ⟨ht, ht0⟩
        · rwa [divTrips_iff ht.clean c2.1]
        · rintro ⟨h, _⟩
          rw [← abs_val ht, ← abs_val c2.1, ht0, abs_zero] at h
          exact absurd (abs_pos.mpr hc0) (not_lt.mpr h)
      obtain ⟨t', t1, t2, t3⟩ := (divideU_spec ht.wf c2.1).2.2 hc0 hn
      obtain ⟨k, s, k1, k2, k3, k4, k5⟩ := (divideU_spec hb.1 c2.1).2.1 hc0 ((divTrips_iff hb.clean c2.1).mpr hdb)
      have hmod : s.val = b.val % 1000000000 ^ k := by rw [k5, Int.tmod_eq_emod_of_nonneg hb0.le]
      refine ⟨⟨t', s⟩, ?_, ⟨t2.1, k3, by show 0 ≤ s.val; rw [hmod]; exact Int.emod_nonneg _ (by positivity)⟩, .inr (.inr ⟨hdv', ?_, k, ?_, ?_⟩)⟩
      · rw [t1, atTop_ok, mbind_ok]
        show atBottom _ (b.divAssignU c) = _
        rw [divAssignU_eq, k2]; rfl
      · show t'.val = _
        rw [t3, hcb, (tdiv_exact hb0.ne' hdv').1]
      · exact highestZero_of_lostAt hb (by rw [hcb]) hb0.ne' k1
      · exact hmod

theorem normalize_keeps {f g : Frac} (h : normalize f = .ok g) : normalizeU f = .ok g := by
  unfold normalize at h
  unfold normalizeU
  cases h1 : (if f.bb.negative = true then do
      let b ← at' f f.bb.negate
      let f := { f with bb := b }
      let t ← at' f f.tt.negate
      pure { f with tt := t }
    else pure f : MRes Frac Frac) with
  | error e => rw [h1] at h; cases h
  | ok f =>
    rw [h1] at h
    simp only [mbind_ok] at h ⊢
    cases h2 : gcd f.tt f.bb with
    | error e => rw [h2] at h; cases h
    | ok c =>
      rw [h2] at h
      rw [gcd_keeps _ _ _ h2]
      simp only [at'_ok, mbind_ok] at h ⊢
      cases h3 : f.tt.divAssign c with
      | error e => rw [h3] at h; cases h
      | ok t =>
        rw [h3] at h
        rw [divAssign_keeps _ _ _ h3]
        simp only [at'_ok, mbind_ok, atTop_ok] at h ⊢
        cases h4 : f.bb.divAssign c with
        | error e => rw [h4] at h; cases h
        | ok b =>
          rw [h4] at h
          rw [divAssign_keeps _ _ _ h4]
          exact h

theorem normalizeU_flip {t b t' b' : BigInt} (hs : b.negative = true) (b1 : b.negate = .ok b') (t1 : t.negate = .ok t')
    (b5 : b'.negative = false) : normalizeU ⟨t, b⟩ = normalizeU ⟨t', b'⟩ := by
  simp [normalizeU, hs, b1, t1, b5]

/-- The outcome of an operation that has to deliver `t / b` in lowest terms. -/
def RedR (r : Res Frac) (t b : Int) : Prop :=
  (b = 0 → r = .error .divideByZero) ∧
  (b ≠ 0 → ¬ReduceAborts t b → ∃ f, r = .ok f ∧ f.Valid ∧ f.value = (t : ℚ) / b) ∧
  (b ≠ 0 → ReduceAborts t b → r = .error .outOfRange)

/-- The outcome of an operation that changes an object to `t / b` (`b` not zero) in lowest terms. -/
def MRedU (r : MRes Frac Frac) (t b : Int) : Prop :=
  (¬ReduceAborts t b → ∃ f, r = .ok f ∧ f.Valid ∧ f.value = (t : ℚ) / b) ∧
  (ReduceAborts t b → ∃ s, r = .error (.outOfRange, s) ∧ s.PartsOK ∧ LeftUnreduced s t b)

theorem mred_normalizeU {t b : BigInt} (ht : Almost t) (hb : Canon b) (hb0 : b.val ≠ 0) :
    MRedU (normalizeU ⟨t, b⟩) t.val b.val := by
  refine ⟨fun h => ?_, fun h => ?_⟩
  · obtain ⟨f, f1, f2⟩ := (normalize_spec ht hb hb0).1 h
    exact ⟨f, normalize_keeps f1, f2⟩
  · cases hs : b.negative
    · have hpos : 0 < b.val := by have := (not_congr hb.neg_iff).mp (by simp [hs]); omega
      obtain ⟨s, s1, s2, s3⟩ := reduceU_throws ht hb hpos hs h
      refine ⟨s, s1, s2, ?_⟩
      unfold LeftUnreduced
      rw [Int.sign_eq_one_of_pos hpos, one_mul, abs_of_pos hpos]
      rwa [abs_of_pos hpos] at s3
    · have hlt := hb.neg_iff.mp hs
      obtain ⟨b', b1, b2, b3, b4, b5⟩ := negate_canon hb.clean
      obtain ⟨t', t1, t2, t3, t4, t5, t6⟩ := negate_ok ht.wf
      have ht' : Almost t' := by
        rcases ht with ht | ⟨ht, ht0⟩
        · obtain ⟨t'', k1, k2, _⟩ := negate_canon ht.clean
          rw [t1, Except.ok.injEq] at k1
          exact .inl (k1 ▸ k2)
        · exact .inr ⟨t2, by rw [t4, ht0, neg_zero]⟩
      rw [normalizeU_flip hs b1 t1 (b5 hs)]
      obtain ⟨s, s1, s2, s3⟩ := reduceU_throws ht' b2 (by omega) (b5 hs) (by rw [t4, b4]; exact reduceAborts_neg.mpr h)
      refine ⟨s, s1, s2, ?_⟩
      unfold LeftUnreduced
      rw [Int.sign_eq_neg_one_of_neg hlt, abs_of_neg hlt, neg_one_mul]
      rw [t4, b4, abs_neg, abs_neg, abs_of_neg hlt, neg_dvd, dvd_neg, neg_dvd, dvd_neg] at s3
      unfold HighestZero at s3 ⊢
      rw [abs_neg, abs_neg] at s3
      rcases s3 with h | h | ⟨h1, h2, h3⟩
      · exact .inl h
      · exact .inr (.inl h)
      · refine .inr (.inr ⟨h1, ?_, h3⟩)
        rw [h2, Int.neg_ediv_of_dvd (by rwa [neg_dvd]), Int.ediv_neg, neg_neg]

theorem red_mkR {t b : BigInt} (ht : Canon t) (hb : Canon b) : RedR (mkR t b) t.val b.val := by
  unfold mkR
  rw [equalsInt32_zero hb.1, bind_ok]
  refine ⟨fun h => ?_, fun h hr => ?_, fun h hr => ?_⟩
  · rw [if_pos (by simpa [val_eq_zero_iff] using h)]
  · rw [if_neg (by simpa [val_eq_zero_iff] using h)]
    obtain ⟨f, f1, f2⟩ := (mred_normalizeU (.inl ht) hb h).1 hr
    exact ⟨f, by rw [f1, drop_ok], f2⟩
  · rw [if_neg (by simpa [val_eq_zero_iff] using h)]
    obtain ⟨s, s1, _⟩ := (mred_normalizeU (.inl ht) hb h).2 hr
    rw [s1, drop_err]

end Frac
end CppMaths
