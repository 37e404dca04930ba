import Verif.Proofs.IntArith
/-!
# Division
-/

namespace CppMaths.BigInt

theorem opMul_wf {x y : BigInt} (hx : WF x) (hy : WF y) :
    ∃ r, opMul x y = .ok r ∧ WF r ∧ r.val = x.val * y.val ∧ (r.negative = true → mag r.bins ≠ 0) := by
  have hmul : ∃ r, (if x.bins.length > y.bins.length then multiply x y else multiply y x) = .ok r ∧ WF r ∧
      r.negative = false ∧ mag r.bins = mag x.bins * mag y.bins := by
    split
    · exact multiply_ok hx hy
    · obtain ⟨r, r1, r2, r3, r4⟩ := multiply_ok hy hx
      exact ⟨r, r1, r2, r3, by rw [r4, mul_comm]⟩
  obtain ⟨r, r1, r2, r3, r4⟩ := hmul
  have vr := val_of_not_neg r3
  unfold opMul
  rw [r1, bind_ok]
  by_cases hs : x.negative = y.negative
  · refine ⟨r, by simp [hs], r2, ?_, by simp [r3]⟩
    rw [vr, r4]; unfold val; rw [hs]; split <;> ring
  · obtain ⟨s, k1, k2, _, k4, k5, _⟩ := negate_ok r2
    refine ⟨s, ?_, k2, ?_, k5⟩
    · have : (x.negative != y.negative) = true := by simpa using hs
      rw [this]; exact k1
    · rw [k4, vr, r4]; unfold val
      cases hx' : x.negative <;> cases hy' : y.negative <;> simp_all

theorem Canon.neg_iff {a : BigInt} (h : Canon a) : a.negative = true ↔ a.val < 0 := by
  have h0 := mag_nonneg h.1.2
  unfold val
  constructor
  · intro hn
    have := h.2.2 hn
    rw [if_pos hn]; omega
  · intro hv
    by_contra hn
    rw [if_neg hn] at hv; omega

/-! ### The quotient digit -/

/-- The digit search by repeated addition of `step`: it stops at the last `q` of the form `b + k*step` below
the quotient `Q`. -/
theorem iterQuotientLoop_ok {y x : BigInt} (hy : Clean y) (hx : WF x) (sy : y.negative = false) {Q step : Int}
    (hQ1 : Q < 1000000000) (hs : 1 ≤ step) (hs2 : step ≤ 500000000)
    (hlow : Q * mag x.bins ≤ mag y.bins) (hhigh : mag y.bins < (Q + 1) * mag x.bins) :
    ∀ (f : Nat) {b : Int}, 0 ≤ b → b < Q → Q - b ≤ f →
      ∃ q r, iterQuotientLoop y x step f b = .ok (q, r) ∧ Canon r ∧ 0 ≤ q ∧ q < Q ∧ Q ≤ q + step ∧
        r.val = mag y.bins - (q + step) * mag x.bins := by
  have hX : 0 < mag x.bins := by
    have := mag_nonneg hx.2
    by_contra h
    have : mag x.bins = 0 := by omega
    rw [this] at hlow hhigh; omega
  intro f
  induction f with
  | zero => intro b h1 h2 h3; exfalso; push_cast at h3; omega
  | succ f ih =>
    intro b hb0 hbQ hf
    obtain ⟨p, p1, p2, p3, p4⟩ := multiplyByInt_ok (x := x) (y := b + step) hx.2 (by omega) (by omega)
    obtain ⟨r, r1, r2, r3⟩ := opSub_ok hy p2.clean
    rw [val_of_not_neg sy, val_of_not_neg p3, p4] at r3
    have hneg := r2.neg_iff
    unfold iterQuotientLoop
    rw [i32_ok (z := b + step) (by omega) (by omega)]
    simp only [bind_ok, p1, r1]
    by_cases hrn : r.negative = true
    · refine ⟨b, r, by simp [hrn], r2, hb0, hbQ, ?_, r3⟩
      rw [hneg, r3] at hrn
      by_contra hc
      have : (b + step) * mag x.bins ≤ Q * mag x.bins := by nlinarith
      omega
    · have hrn' : r.negative = false := by simpa using hrn
      have hrm := val_of_not_neg hrn'
      simp only [hrn', Bool.false_eq_true, if_false, cmpBins_spec hx.2 r2.1.2, bind_ok]
      rw [hneg, not_lt, r3] at hrn
      by_cases hc : mag x.bins ≤ mag r.bins
      · have hcmp : cmpInts (mag x.bins) (mag r.bins) ≤ 0 := by
          unfold cmpInts; split <;> (try split) <;> omega
        simp only [hcmp, if_true]
        have hlt : b + step < Q := by
          by_contra hge
          rw [← hrm, r3] at hc
          have : (Q + 1) * mag x.bins ≤ (b + step + 1) * mag x.bins := by nlinarith
          have : (b + step + 1) * mag x.bins = (b + step) * mag x.bins + mag x.bins := by ring
          omega
        exact ih (by omega) hlt (by push_cast at hf; omega)
      · have hcmp : ¬cmpInts (mag x.bins) (mag r.bins) ≤ 0 := by
          rw [cmpInts_gt (by omega)]; decide
        refine ⟨b, r, by simp [hcmp], r2, hb0, hbQ, ?_, r3⟩
        by_contra hge
        rw [← hrm, r3] at hc
        have : (b + step + 1) * mag x.bins ≤ Q * mag x.bins := by nlinarith
        have : (b + step + 1) * mag x.bins = (b + step) * mag x.bins + mag x.bins := by ring
        omega

theorem qrLoop_ok {y x : BigInt} (hy : Clean y) (hx : WF x) (sy : y.negative = false) {Q : Int}
    (hQ1 : Q < 1000000000)
    (hlow : Q * mag x.bins ≤ mag y.bins) (hhigh : mag y.bins < (Q + 1) * mag x.bins) :
    ∀ (f : Nat) {step q : Int} {r : BigInt}, 1 < step → step ≤ 1000000000 → step < 2 ^ f → 0 ≤ q → q < Q →
      ∃ r', qrLoop y x f step q r = .ok (Q - 1, r') ∧ Canon r' ∧ r'.val = mag y.bins - Q * mag x.bins := by
  intro f
  induction f with
  | zero => intro step q r h1 _ h2; simp at h2; omega
  | succ f ih =>
    intro step q r h1 h2 h3 hq0 hqQ
    have e : step.tdiv 2 = step / 2 := Int.tdiv_eq_ediv_of_nonneg (by omega)
    obtain ⟨q', r', k1, k2, k3, k4, k5, k6⟩ := iterQuotientLoop_ok hy hx sy (step := step / 2) hQ1 (by omega) (by omega)
      hlow hhigh 4294967296 hq0 hqQ (by omega)
    unfold qrLoop
    rw [pow_succ] at h3
    simp only [h1, if_true, e, iterQuotient, k1, bind_ok]
    by_cases hs : step / 2 = 1
    · rw [hs] at k5 k6 ⊢
      have hq : q' = Q - 1 := by omega
      cases f with
      | zero => simp at h3; omega
      | succ f => exact ⟨r', by simp [qrLoop, hq], k2, by rw [k6, hq]; ring⟩
    · exact ih (by omega) (by omega) (by omega) k3 k4

/-- `quotient_and_remainder` computes the quotient digit and the remainder. -/
theorem quotientAndRemainder_ok {y x r0 : BigInt} (hy : Clean y) (hx : WF x) (sy : y.negative = false)
    (sx : x.negative = false) (hle : mag x.bins ≤ mag y.bins) (hlt : mag y.bins < 1000000000 * mag x.bins) :
    ∃ r, quotientAndRemainder y x r0 = .ok (mag y.bins / mag x.bins, r) ∧ Canon r ∧ r.negative = false ∧
      r.val = mag y.bins % mag x.bins := by
  have hX : 0 < mag x.bins := by
    have := mag_nonneg hx.2
    have := mag_nonneg hy.1.2
    omega
  set Q := mag y.bins / mag x.bins with hQ
  have hdm := Int.mul_ediv_add_emod (mag y.bins) (mag x.bins)
  have hm0 := Int.emod_nonneg (mag y.bins) hX.ne'
  have hm1 := Int.emod_lt_of_pos (mag y.bins) hX
  rw [← hQ] at hdm
  have hlow : Q * mag x.bins ≤ mag y.bins := by rw [mul_comm]; omega
  have hhigh : mag y.bins < (Q + 1) * mag x.bins := by
    have : (Q + 1) * mag x.bins = mag x.bins * Q + mag x.bins := by ring
    omega
  have hQ0 : 1 ≤ Q := Int.le_ediv_of_mul_le hX (by omega)
  have hQ1 : Q < 1000000000 := Int.ediv_lt_of_lt_mul hX hlt
  obtain ⟨lim, l1, l2, l3, _⟩ := ofInt64_ok (x := 1000000000) 0 (by omega) (by omega)
  obtain ⟨bx, b1, b2, b3, _⟩ := opMul_wf l2.1 hx
  rw [l3, val_of_not_neg sx] at b3
  obtain ⟨r, r1, r2, r3⟩ := qrLoop_ok hy hx sy hQ1 hlow hhigh 64 (step := 1000000000) (q := 0) (r := r0)
    (by omega) (by omega) (by norm_num) (by omega) (by omega)
  have hrv : r.val = mag y.bins % mag x.bins := by rw [r3]; rw [mul_comm]; omega
  refine ⟨r, ?_, r2, ?_, hrv⟩
  · have e1 : BIN_LIMIT = 1000000000 := rfl
    have hlt' : mag y.bins < 1000000000 * B ^ 0 * mag x.bins := by simpa using hlt
    simp only [quotientAndRemainder, sx, sy, Bool.not_false, assertR_true, bind_ok, le_spec hx hy.1,
      val_of_not_neg sx, val_of_not_neg sy, hle, decide_true, if_true, e1, l1, b1, lt_spec hy.1 b2, b3, hlt', r1,
      sub_add_cancel, i32_ok (z := Q) (by omega) (by omega), pure_ok]
  · have := r2.neg_iff
    rw [hrv] at this
    by_contra h
    have := this.mp (by simpa using h)
    omega

/-! ### Long division -/

theorem set_snoc {l qs : List Int} {t q : Int} : (l ++ [t] ++ qs).set l.length q = l ++ [q] ++ qs := by
  rw [List.append_assoc, List.set_append_right (h := le_refl _)]; simp

theorem atR_snoc {l qs : List Int} {t : Int} : atR (l ++ [t] ++ qs) l.length = .ok t := by
  unfold atR; rw [List.append_assoc, List.getElem?_append_right (le_refl _)]; simp

/-- The state of `current` between two rounds: the remainder so far, moved up by one bin. -/
structure CurOK (cur : BigInt) (rem : Int) : Prop where
  clean : Clean cur
  sign : cur.negative = false
  head : ∃ t, cur.bins = 0 :: t
  value : mag cur.bins = 1000000000 * rem

theorem CurOK.init : CurOK default 0 := ⟨clean_zero, rfl, ⟨[], rfl⟩, by simp [default]⟩

/-- After `current.bins.at(0) = b`. -/
theorem CurOK.set {cur : BigInt} {rem b : Int} (h : CurOK cur rem) (h0 : 0 ≤ b) (h1 : b < 1000000000) :
    Clean { cur with bins := cur.bins.set 0 b } ∧ mag (cur.bins.set 0 b) = 1000000000 * rem + b ∧
      0 < cur.bins.length ∧ ∃ c, atR cur.bins 0 = .ok c := by
  obtain ⟨t, ht⟩ := h.head
  have hc := h.clean
  have hv := h.value
  unfold Clean WF at *
  rw [ht] at hc hv ⊢
  rw [BinsOK_cons] at hc
  simp only [List.set_cons_zero, mag_cons] at *
  refine ⟨⟨⟨by simp, ?_⟩, ?_⟩, by omega, by simp, 0, rfl⟩
  · rw [BinsOK_cons]; exact ⟨⟨h0, h1⟩, hc.1.2.2⟩
  · cases t with
    | nil => left; simp
    | cons => simpa [NoLead] using hc.2

theorem CurOK.shift {cur : BigInt} (hc : Clean cur) (hs : cur.negative = false) :
    CurOK { cur with bins := cleanBins (0 :: cur.bins) } (mag cur.bins) := by
  refine ⟨⟨⟨cleanBins_ne (by simp), cleanBins_ok ?_⟩, cleanBins_noLead _⟩, hs, ?_, by simp⟩
  · rw [BinsOK_cons]; exact ⟨by omega, hc.1.2⟩
  · dsimp only
    -- the least significant bin is never removed
    have : ∀ l : List Int, ∀ z : Int, ∃ t, (cleanRev (l ++ [z])).reverse = z :: t := by
      intro l z
      induction l with
      | nil => exact ⟨[], rfl⟩
      | cons a l ih =>
        cases hl : l ++ [z] with
        | nil => simp at hl
        | cons c r =>
          rw [List.cons_append, hl]
          simp only [cleanRev]
          split
          · rwa [hl] at ih
          · rw [← hl]; simp
    unfold cleanBins
    rw [List.reverse_cons]
    exact this _ _

/-- One round of `divide`, for both cases of its `if`. -/
theorem divideLoop_step {xn : BigInt} (hx : WF xn) (sx : xn.negative = false) (hX : 0 < mag xn.bins)
    {l qs : List Int} {t rem : Int} {cur r : BigInt} (hc : CurOK cur rem) (h0 : 0 ≤ rem) (h1 : rem < mag xn.bins)
    (ht0 : 0 ≤ t) (ht1 : t < 1000000000) :
    ∃ cur' r', CurOK cur' ((1000000000 * rem + t) % mag xn.bins) ∧
      divideLoop xn (l.length + 1) (l ++ [t] ++ qs) cur r =
        if (1000000000 * rem + t) / mag xn.bins = 0 then
          divideLoop xn l.length (cleanBins (l ++ [0] ++ qs)) cur' r'
        else divideLoop xn l.length (l ++ [(1000000000 * rem + t) / mag xn.bins] ++ qs) cur' r' := by
  obtain ⟨c1, c2, c3, z, c4⟩ := hc.set ht0 ht1
  conv => enter [1, cur', 1, r', 2, 1]; unfold divideLoop
  have hlen : l.length < (l ++ [t] ++ qs).length := by simp
  simp only [gt_iff_lt, c3, hlen, decide_true, assertR_true, bind_ok, atR_snoc, c4, set_snoc]
  rw [cmpBins_spec hx.2 c1.1.2]
  dsimp only
  rw [c2]
  by_cases hle : mag xn.bins ≤ 1000000000 * rem + t
  · have hcmp : cmpInts (mag xn.bins) (1000000000 * rem + t) ≤ 0 := by
      unfold cmpInts; split <;> (try split) <;> omega
    obtain ⟨r', q1, q2, q3, q4⟩ := quotientAndRemainder_ok (r0 := r) c1 hx hc.sign sx (by dsimp only; omega) (by dsimp only; omega)
    dsimp only at q1 q4
    rw [c2] at q1 q4
    have hq0 : (1000000000 * rem + t) / mag xn.bins ≠ 0 := by
      have : 1 ≤ (1000000000 * rem + t) / mag xn.bins := Int.le_ediv_of_mul_le hX (by omega)
      omega
    have hq0' : ((1000000000 * rem + t) / mag xn.bins != 0) = true := by simpa using hq0
    refine ⟨{ r' with bins := cleanBins (0 :: r'.bins) }, r', ?_, ?_⟩
    · rw [← q4, val_of_not_neg q3]; exact CurOK.shift q2.clean q3
    · simp only [bind_ok, hcmp, if_true, q1, hq0', assertR_true, hq0, if_false]
  · have hcmp : ¬cmpInts (mag xn.bins) (1000000000 * rem + t) ≤ 0 := by
      rw [cmpInts_gt (by omega)]; decide
    have hq0 : (1000000000 * rem + t) / mag xn.bins = 0 := Int.ediv_eq_zero_of_lt (by omega) (by omega)
    have hr0 : (1000000000 * rem + t) % mag xn.bins = 1000000000 * rem + t := Int.emod_eq_of_lt (by omega) (by omega)
    refine ⟨{ cur with bins := cleanBins (0 :: cur.bins.set 0 t) }, r, ?_, ?_⟩
    · rw [hr0, ← c2]
      exact CurOK.shift (cur := { cur with bins := cur.bins.set 0 t }) c1 hc.sign
    · simp only [bind_ok, hcmp, if_false, hq0, if_true]

/-- The arithmetic of one digit of long division. -/
theorem digit_split {X rem t P m : Int} (hX : 0 < X) (hP : 0 < P) (hm0 : 0 ≤ m) (hm1 : m < P) :
    (P * 1000000000 * rem + (m + P * t)) / X =
      P * ((1000000000 * rem + t) / X) + (P * ((1000000000 * rem + t) % X) + m) / X ∧
    0 ≤ (P * ((1000000000 * rem + t) % X) + m) / X ∧ (P * ((1000000000 * rem + t) % X) + m) / X < P := by
  have hdm := Int.mul_ediv_add_emod (1000000000 * rem + t) X
  have e0 := Int.emod_nonneg (1000000000 * rem + t) hX.ne'
  have e1 := Int.emod_lt_of_pos (1000000000 * rem + t) hX
  generalize (1000000000 * rem + t) / X = d at *
  generalize (1000000000 * rem + t) % X = s at *
  refine ⟨?_, ?_, ?_⟩
  · have : P * 1000000000 * rem + (m + P * t) = P * s + m + P * d * X := by
      have : P * 1000000000 * rem + (m + P * t) = P * (1000000000 * rem + t) + m := by ring
      rw [this, ← hdm]; ring
    rw [this, Int.add_mul_ediv_right _ _ hX.ne']; ring
  · exact Int.ediv_nonneg (by positivity) hX.le
  · apply Int.ediv_lt_of_lt_mul hX
    nlinarith

/-- Once a nonzero digit has been written, the remaining rounds go through. -/
theorem divideLoop_B {xn : BigInt} (hx : WF xn) (sx : xn.negative = false) (hX : 0 < mag xn.bins) (n : Nat) :
    ∀ {l qs : List Int} {rem : Int} {cur r : BigInt}, l.length = n → BinsOK l → BinsOK qs → qs ≠ [] →
      qs.getLast? ≠ some 0 → CurOK cur rem → 0 ≤ rem → rem < mag xn.bins →
      ∃ bins, divideLoop xn l.length (l ++ qs) cur r = .ok bins ∧ BinsOK bins ∧
        bins.length = l.length + qs.length ∧ bins.getLast? = qs.getLast? ∧
        mag bins = (B ^ l.length * rem + mag l) / mag xn.bins + B ^ l.length * mag qs := by
  induction n with
  | zero =>
    intro l qs rem cur r hl hlok hqok hqne hq hc h0 h1
    rw [List.length_eq_zero_iff] at hl; subst hl
    refine ⟨qs, rfl, hqok, by simp, rfl, ?_⟩
    simp [Int.ediv_eq_zero_of_lt h0 h1]
  | succ n ih =>
    intro l qs rem cur r hl hlok hqok hqne hq hc h0 h1
    rcases eq_nil_or_snoc l with rfl | ⟨l', t, rfl⟩
    · simp at hl
    have hl' : l'.length = n := by simpa using hl
    rw [BinsOK_append] at hlok
    have ht := hlok.2 t (by simp)
    obtain ⟨cur', r', hc', hstep⟩ := divideLoop_step hx sx hX (l := l') (qs := qs) (r := r) hc h0 h1 ht.1 ht.2
    have m0 := mag_nonneg hlok.1
    have m1 := mag_lt hlok.1
    obtain ⟨g1, g2, g3⟩ := digit_split (rem := rem) (t := t) hX (B_pow_pos l'.length) m0 m1
    have d0 : 0 ≤ (1000000000 * rem + t) / mag xn.bins := Int.ediv_nonneg (by omega) hX.le
    have d1 : (1000000000 * rem + t) / mag xn.bins < 1000000000 := Int.ediv_lt_of_lt_mul hX (by omega)
    have hrest : divideLoop xn (l' ++ [t]).length (l' ++ [t] ++ qs) cur r =
        divideLoop xn l'.length (l' ++ ((1000000000 * rem + t) / mag xn.bins :: qs)) cur' r' := by
      rw [List.length_append, List.length_singleton, hstep]
      split
      · rename_i hz
        rw [hz, cleanBins_of_noLead]
        · simp
        · right; rw [List.getLast?_append_of_ne_nil _ hqne]; exact hq
      · simp
    have hlast : ((1000000000 * rem + t) / mag xn.bins :: qs).getLast? = qs.getLast? :=
      List.getLast?_cons_of_ne_nil hqne
    obtain ⟨bins, b1, b2, b3, b4, b5⟩ := ih (l := l') (qs := (1000000000 * rem + t) / mag xn.bins :: qs) (r := r') hl' hlok.1
      (by rw [BinsOK_cons]; exact ⟨⟨d0, d1⟩, hqok⟩) (by simp) (by rw [hlast]; exact hq) hc'
      (Int.emod_nonneg _ hX.ne') (Int.emod_lt_of_pos _ hX)
    refine ⟨bins, by rw [hrest, b1], b2, ?_, by rw [b4, hlast], ?_⟩
    · rw [b3]; simp; omega
    · rw [b5, mag_append, List.length_append, List.length_singleton, pow_succ]
      simp only [mag_cons, mag_nil, mul_zero, add_zero]
      rw [g1]; ring

/-- The condition under which `divide` trips over its own assertion, in terms of the dividend's bins `l`, the remainder
carried in, and the divisor's magnitude `X`: while the quotient digits are still zero, `cleanBins` removes a zero bin of the
dividend that has not been processed yet. -/
def Trips (l : List Int) (rem X : Int) : Prop :=
  ∃ j, 1 ≤ j ∧ j + 1 < l.length ∧ l[j]? = some 0 ∧ (B ^ l.length * rem + mag l) / X < B ^ (j + 1)

theorem cleanBins_snoc_zero {l : List Int} (h : l ≠ []) : cleanBins (l ++ [0]) = cleanBins l := by
  unfold cleanBins
  rw [List.reverse_append, List.reverse_singleton, List.singleton_append]
  cases hr : l.reverse with
  | nil => simp at hr; exact absurd hr h
  | cons c r => simp [cleanRev]

/-- Long division from the start: the exact outcome. -/
theorem divideLoop_A {xn : BigInt} (hx : WF xn) (sx : xn.negative = false) (hX : 0 < mag xn.bins) (n : Nat) :
    ∀ {l : List Int} {rem : Int} {cur r : BigInt}, l.length = n → BinsOK l → CurOK cur rem → 0 ≤ rem →
      rem < mag xn.bins → 1 ≤ (B ^ l.length * rem + mag l) / mag xn.bins →
      (Trips l rem (mag xn.bins) → divideLoop xn l.length l cur r = .error .assertion) ∧
      (¬Trips l rem (mag xn.bins) → ∃ bins, divideLoop xn l.length l cur r = .ok bins ∧ BinsOK bins ∧ bins ≠ [] ∧
        NoLead bins ∧ mag bins = (B ^ l.length * rem + mag l) / mag xn.bins) := by
  induction n with
  | zero =>
    intro l rem cur r hl hlok hc h0 h1 hQ
    rw [List.length_eq_zero_iff] at hl; subst hl
    simp [Int.ediv_eq_zero_of_lt h0 h1] at hQ
  | succ n ih =>
    intro l rem cur r hl hlok hc h0 h1 hQ
    rcases eq_nil_or_snoc l with rfl | ⟨l', t, rfl⟩
    · simp at hl
    have hl' : l'.length = n := by simpa using hl
    rw [BinsOK_append] at hlok
    have ht := hlok.2 t (by simp)
    obtain ⟨cur', r', hc', hstep⟩ := divideLoop_step hx sx hX (l := l') (qs := []) (r := r) hc h0 h1 ht.1 ht.2
    simp only [List.append_nil] at hstep
    have m0 := mag_nonneg hlok.1
    have m1 := mag_lt hlok.1
    obtain ⟨g1, g2, g3⟩ := digit_split (rem := rem) (t := t) hX (B_pow_pos l'.length) m0 m1
    have hP := B_pow_pos l'.length
    have d0 : 0 ≤ (1000000000 * rem + t) / mag xn.bins := Int.ediv_nonneg (by omega) hX.le
    have d1 : (1000000000 * rem + t) / mag xn.bins < 1000000000 := Int.ediv_lt_of_lt_mul hX (by omega)
    have s0 := Int.emod_nonneg (1000000000 * rem + t) hX.ne'
    have s1 := Int.emod_lt_of_pos (1000000000 * rem + t) hX
    have hQs : (B ^ (l' ++ [t]).length * rem + mag (l' ++ [t])) / mag xn.bins =
        B ^ l'.length * ((1000000000 * rem + t) / mag xn.bins) +
        (B ^ l'.length * ((1000000000 * rem + t) % mag xn.bins) + mag l') / mag xn.bins := by
      rw [mag_append, List.length_append, List.length_singleton, pow_succ]
      simp only [mag_cons, mag_nil, mul_zero, add_zero]
      exact g1
    unfold Trips
    rw [hQs] at hQ ⊢
    rw [List.length_append, List.length_singleton, hstep]
    by_cases hz : (1000000000 * rem + t) / mag xn.bins = 0
    · rw [if_pos hz]
      rw [hz, mul_zero, zero_add] at hQ ⊢
      have hne : l' ≠ [] := by
        rintro rfl
        simp [Int.ediv_eq_zero_of_lt s0 s1] at hQ
      rw [cleanBins_snoc_zero hne]
      rcases eq_nil_or_snoc l' with rfl | ⟨l2, u, rfl⟩
      · exact absurd rfl hne
      by_cases hu : l2 ≠ [] ∧ u = 0
      · -- the next bin is popped although it has not been processed
        obtain ⟨hl2, rfl⟩ := hu
        have hl2' := List.length_pos_of_ne_nil hl2
        have htrip : ∃ j, 1 ≤ j ∧ j + 1 < (l2 ++ [0]).length + 1 ∧ (l2 ++ [0] ++ [t])[j]? = some 0 ∧
            (B ^ (l2 ++ [0]).length * ((1000000000 * rem + t) % mag xn.bins) + mag (l2 ++ [0])) / mag xn.bins < B ^ (j + 1) := by
          refine ⟨l2.length, hl2', by simp, ?_, ?_⟩
          · rw [List.append_assoc, List.getElem?_append_right (le_refl _)]; simp
          · simpa using g3
        refine ⟨fun _ => ?_, fun h => absurd htrip h⟩
        have hshort : (cleanBins (l2 ++ [0])).length ≤ l2.length := by
          rw [cleanBins_snoc_zero hl2]; exact cleanBins_length l2
        rw [List.length_append, List.length_singleton]
        unfold divideLoop
        obtain ⟨z, hz'⟩ := hc'.head
        have hcl : 0 < cur'.bins.length := by rw [hz']; simp
        simp only [gt_iff_lt, hcl, decide_true, assertR_true, bind_ok, not_lt.mpr hshort, decide_false,
          assertR_false, bind_err]
      · have hnl : NoLead (l2 ++ [u]) := by
          rw [noLead_append_singleton]; by_contra hc; push Not at hc; exact hu hc
        rw [cleanBins_of_noLead hnl]
        obtain ⟨i1, i2⟩ := ih (r := r') hl' hlok.1 hc' s0 s1 hQ
        have hiff : (∃ j, 1 ≤ j ∧ j + 1 < (l2 ++ [u]).length + 1 ∧ (l2 ++ [u] ++ [t])[j]? = some 0 ∧
            (B ^ (l2 ++ [u]).length * ((1000000000 * rem + t) % mag xn.bins) + mag (l2 ++ [u])) / mag xn.bins < B ^ (j + 1)) ↔
            Trips (l2 ++ [u]) ((1000000000 * rem + t) % mag xn.bins) (mag xn.bins) := by
          constructor
          · rintro ⟨j, j1, j2, j3, j4⟩
            rw [List.getElem?_append_left (by omega)] at j3
            refine ⟨j, j1, ?_, j3, j4⟩
            by_contra hj
            simp only [List.length_append, List.length_singleton] at hj j2
            have hj : j = l2.length := by omega
            subst hj
            rw [List.getElem?_append_right (le_refl _)] at j3
            simp only [Nat.sub_self, List.getElem?_cons_zero, Option.some.injEq] at j3
            exact hu ⟨List.ne_nil_of_length_pos (by omega), j3⟩
          · rintro ⟨j, j1, j2, j3, j4⟩
            refine ⟨j, j1, by omega, ?_, j4⟩
            rw [List.getElem?_append_left (by omega)]; exact j3
        rw [hiff]
        exact ⟨i1, i2⟩
    · rw [if_neg hz]
      have hd1 : 1 ≤ (1000000000 * rem + t) / mag xn.bins := by omega
      refine ⟨?_, fun _ => ?_⟩
      · rintro ⟨j, j1, j2, j3, j4⟩
        exfalso
        have : (B ^ (j + 1) : Int) ≤ B ^ l'.length := pow_le_pow_right₀ (by norm_num) (by omega)
        nlinarith
      · obtain ⟨bins, b1, b2, b3, b4, b5⟩ := divideLoop_B hx sx hX n (l := l')
          (qs := [(1000000000 * rem + t) / mag xn.bins]) (r := r') hl' hlok.1
          (by simp only [BinsOK_cons, BinsOK_nil, and_true]; exact ⟨d0, d1⟩) (by simp) (by simpa using hz) hc' s0 s1
        refine ⟨bins, b1, b2, List.ne_nil_of_length_pos (by rw [b3]; simp), ?_, ?_⟩
        · right; rw [b4]; simpa using hz
        · rw [b5]; simp only [mag_cons, mag_nil, mul_zero, add_zero]; ring

/-! ### `Int::divide` -/

/-- The dividend bins and divisor for which `x / y` aborts. -/
def DivTrips (x y : BigInt) : Prop :=
  mag y.bins ≤ mag x.bins ∧ ∃ j, 1 ≤ j ∧ j + 1 < x.bins.length ∧ x.bins[j]? = some 0 ∧
    mag x.bins / mag y.bins < B ^ (j + 1)

theorem tdiv_val {a x : BigInt} (ha : WF a) (hx : WF x) :
    a.val.tdiv x.val = if a.negative != x.negative then -(mag a.bins / mag x.bins) else mag a.bins / mag x.bins := by
  have h1 := mag_nonneg ha.2
  have h2 := mag_nonneg hx.2
  have e : (mag a.bins).tdiv (mag x.bins) = mag a.bins / mag x.bins := Int.tdiv_eq_ediv_of_nonneg h1
  unfold val
  cases a.negative <;> cases x.negative <;> simp [Int.neg_tdiv, Int.tdiv_neg, e]

/-- The exact outcome of `divide` for every well-formed dividend and divisor. -/
theorem divide_spec {a x : BigInt} (ha : WF a) (hx : WF x) :
    (x.val = 0 → divide a x = .error .divideByZero) ∧
    (x.val ≠ 0 → DivTrips a x → divide a x = .error .assertion) ∧
    (x.val ≠ 0 → ¬DivTrips a x → ∃ r, divide a x = .ok r ∧ Canon r ∧ r.val = a.val.tdiv x.val) := by
  unfold divide
  rw [equalsInt32_zero hx]
  simp only [ne_eq, val_eq_zero_iff]
  have ha0 := mag_nonneg ha.2
  have hx0 := mag_nonneg hx.2
  by_cases hz : mag x.bins = 0
  · simp [hz]
  have hX : 0 < mag x.bins := by omega
  simp only [hz, decide_false, bind_ok, Bool.false_eq_true, if_false, cmpBins_spec ha.2 hx.2, not_false_eq_true,
    forall_true_left, false_imp_iff, true_and]
  by_cases hlt : mag a.bins < mag x.bins
  · rw [cmpInts_lt hlt]
    refine ⟨fun h => absurd h.1 (by omega), fun _ => ⟨⟨[0], false⟩, by simp [setValue_zero], canon_zero, ?_⟩⟩
    rw [tdiv_val ha hx, Int.ediv_eq_zero_of_lt ha0 hlt]; simp [val]
  · have hc : ¬cmpInts (mag a.bins) (mag x.bins) < 0 := by
      unfold cmpInts; rw [if_neg hlt]; split <;> omega
    rw [if_neg hc]
    obtain ⟨xn, n1, n2, n3, n4⟩ : ∃ xn, (if x.negative = true then x.neg else pure x) = .ok xn ∧ WF xn ∧
        xn.negative = false ∧ xn.bins = x.bins := by
      by_cases hn : x.negative = true
      · obtain ⟨r, r1, r2, r3, _, _, r6⟩ := neg_ok hx
        exact ⟨r, by simp [hn, r1], r2, r6 hn, r3⟩
      · exact ⟨x, by simp [hn], hx, by simpa using hn, rfl⟩
    rw [n1, bind_ok]
    have hQ : 1 ≤ (B ^ a.bins.length * 0 + mag a.bins) / mag xn.bins := by
      rw [mul_zero, zero_add, n4]; exact Int.le_ediv_of_mul_le hX (by omega)
    obtain ⟨t1, t2⟩ := divideLoop_A n2 n3 (by rw [n4]; exact hX) a.bins.length (l := a.bins) (r := default) rfl ha.2 CurOK.init
      (le_refl 0) (by rw [n4]; exact hX) hQ
    have htr : Trips a.bins 0 (mag xn.bins) ↔ DivTrips a x := by
      unfold Trips DivTrips
      rw [n4, mul_zero, zero_add]
      exact ⟨fun h => ⟨by omega, h⟩, fun h => h.2⟩
    rw [htr] at t1 t2
    refine ⟨fun h => by rw [t1 h, bind_err], fun h => ?_⟩
    obtain ⟨bins, b1, b2, b3, b4, b5⟩ := t2 h
    rw [mul_zero, zero_add, n4] at b5
    have hq1 : 1 ≤ mag bins := by rw [b5]; exact Int.le_ediv_of_mul_le hX (by omega)
    refine ⟨⟨bins, a.negative != x.negative⟩, by rw [b1, bind_ok]; rfl, ⟨⟨b3, b2⟩, b4, fun _ => by dsimp only; omega⟩, ?_⟩
    rw [tdiv_val ha hx, ← b5]; unfold val; dsimp only

theorem opDiv_eq (x y : BigInt) : opDiv x y = divide x y := by
  have e : ofShift x 0 = x := by simp [ofShift]
  rw [opDiv, e]

theorem divAssign_eq (x y : BigInt) : divAssign x y = divide x y := by
  have e : ofShift y 0 = y := by simp [ofShift]
  rw [divAssign, e]

end CppMaths.BigInt
