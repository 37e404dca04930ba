import Verif.Proofs.IntTime2
/-!
# Bounds for the number of steps of division of `Int`s
-/

namespace CppMaths
namespace BigInt
open Cost

theorem BinsOK.nonneg {l : List Int} (h : BinsOK l) : ∀ b ∈ l, 0 ≤ b := fun b hb => (h b hb).1

/-! ### From above -/

/-- What one multiplication and subtraction in the search for a quotient digit costs at most, for a divisor of `k` bins. -/
def tryCost (k : Nat) : Nat := k * (3 * k + 24) + 41 * k + 124

/-- One round of the search: `k` bins in the divisor and at most `k + 1` in the dividend. -/
theorem iterQuotientLoop_steps {y x : BigInt} (hy : Clean y) (hx : WF x) (sy : y.negative = false) (hl : y.bins.length ≤ x.bins.length + 1)
    {Q st : Int} (hQ1 : Q < 1000000000) (hs : 1 ≤ st) (hs2 : st ≤ 500000000)
    (hlow : Q * mag x.bins ≤ mag y.bins) (hhigh : mag y.bins < (Q + 1) * mag x.bins) :
    ∀ (t f : Nat) {b : Int}, 0 ≤ b → b < Q → Q ≤ b + t * st → (iterQuotientLoopC y x st f b).steps ≤ t * tryCost x.bins.length := by
  have hX : 0 < mag x.bins := by
    have := mag_nonneg hx.2
    by_contra h
    have : mag x.bins = 0 := by omega
    rw [this] at hlow hhigh; omega
  intro t
  induction t with
  | zero => intro f b h1 h2 h3; exfalso; push_cast at h3; omega
  | succ t ih =>
    intro f b hb0 hbQ hf
    cases f with
    | zero => exact Nat.zero_le _
    | succ f =>
    obtain ⟨p, p1, p2, p3, p4⟩ := multiplyByInt_ok (x := x) (y := b + st) hx.2 (by omega) (by omega)
    obtain ⟨r, r1, r2, r3⟩ := opSub_ok hy p2.clean
    rw [val_of_not_neg sy, val_of_not_neg p3, p4] at r3
    have hneg := r2.neg_iff
    have hp := bnd_multiplyByInt (x := x) (y := b + st) hx.2.nonneg (by omega)
    have hpl := (hp.2 p (by rw [multiplyByIntC_res]; exact p1)).1
    have hr := bnd_opSub y p
    have hrl := hr.2 r (by rw [opSubC_res]; exact r1)
    have hc := (bnd_cmpBins x r).1
    unfold iterQuotientLoopC
    have e1 : (free (i32 (b + st))).res = .ok (b + st) := i32_ok (by omega) (by omega)
    have e2 : (multiplyByIntC x (b + st)).res = .ok p := by rw [multiplyByIntC_res]; exact p1
    have e3 : (opSubC y p).res = .ok r := by rw [opSubC_res]; exact r1
    dsimp only
    rw [bind_steps_ok _ e1, bind_steps_ok _ e2, bind_steps_ok _ e3, bind_steps_ok _ (copyC_res r)]
    have h1 := hp.1
    have h2 := hr.1
    have hcost : (free (i32 (b + st))).steps + ((multiplyByIntC x (b + st)).steps + ((opSubC y p).steps + ((copyC r).steps + (cmpBinsC x r).steps))) ≤
        tryCost x.bins.length := by
      show 0 + (_ + (_ + (r.bins.length + _))) ≤ _
      unfold tryCost
      omega
    rw [Nat.add_mul, one_mul]
    by_cases hrn : r.negative = true
    · rw [if_pos hrn]
      show _ + (_ + (_ + (_ + 0))) ≤ _
      omega
    · have hrn' : r.negative = false := by simpa using hrn
      have hrm := val_of_not_neg hrn'
      have e4 : (cmpBinsC x r).res = .ok (cmpInts (mag x.bins) (mag r.bins)) := by rw [cmpBinsC_res]; exact cmpBins_spec hx.2 r2.1.2
      rw [if_neg hrn, bind_steps_ok _ e4]
      rw [hneg, not_lt, r3] at hrn
      by_cases hcm : mag x.bins ≤ mag r.bins
      · have hcmp : cmpInts (mag x.bins) (mag r.bins) ≤ 0 := by
          unfold cmpInts; split <;> (try split) <;> omega
        rw [if_pos hcmp]
        have hlt : b + st < Q := by
          by_contra hge
          rw [← hrm, r3] at hcm
          have : (Q + 1) * mag x.bins ≤ (b + st + 1) * mag x.bins := by nlinarith
          have : (b + st + 1) * mag x.bins = (b + st) * mag x.bins + mag x.bins := by ring
          omega
        have := ih f (b := b + st) (by omega) hlt (by push_cast at hf; linarith)
        omega
      · have hcmp : ¬cmpInts (mag x.bins) (mag r.bins) ≤ 0 := by
          rw [cmpInts_gt (by omega)]; decide
        rw [if_neg hcmp]
        show _ + (_ + (_ + (_ + (_ + 0)))) ≤ _
        omega

theorem qrLoop_steps {y x : BigInt} (hy : Clean y) (hx : WF x) (sy : y.negative = false) (hl : y.bins.length ≤ x.bins.length + 1) {Q : Int}
    (hQ1 : Q < 1000000000)
    (hlow : Q * mag x.bins ≤ mag y.bins) (hhigh : mag y.bins < (Q + 1) * mag x.bins) :
    ∀ (g f : Nat) {st q : Int} {r : BigInt}, 1 ≤ st → st ≤ 1000000000 → st < 2 ^ g → 0 ≤ q → q < Q → Q ≤ q + st →
      (qrLoopC y x f st q r).steps ≤ g * (3 * tryCost x.bins.length) := by
  intro g
  induction g with
  | zero => intro f st q r h1 _ h2; simp at h2; omega
  | succ g ih =>
    intro f st q r h1 h2 h3 hq0 hqQ hq
    cases f with
    | zero => exact Nat.zero_le _
    | succ f =>
    unfold qrLoopC
    by_cases h4 : st > 1
    · rw [if_pos h4]
      have e : st.tdiv 2 = st / 2 := Int.tdiv_eq_ediv_of_nonneg (by omega)
      dsimp only
      rw [e]
      have hs : (iterQuotientC y x q (st / 2)).steps ≤ 3 * tryCost x.bins.length :=
        iterQuotientLoop_steps hy hx sy hl (st := st / 2) hQ1 (by omega) (by omega) hlow hhigh 3 4294967296 hq0 hqQ (by push_cast; omega)
      obtain ⟨q', r', k1, k2, k3, k4, k5, k6⟩ := iterQuotientLoop_ok hy hx sy (step := st / 2) hQ1 (by omega) (by omega)
        hlow hhigh 4294967296 hq0 hqQ (by omega)
      have e2 : (iterQuotientC y x q (st / 2)).res = .ok (q', r') := by rw [iterQuotientC_res]; exact k1
      rw [bind_steps_ok _ e2]
      rw [pow_succ] at h3
      have := ih f (st := st / 2) (q := q') (r := r') (by omega) (by omega) (by omega) k3 k4 k5
      dsimp only
      rw [Nat.add_mul, one_mul]
      omega
    · rw [if_neg h4]
      exact Nat.zero_le _

/-- What a quotient digit costs at most. -/
def digitCost (k : Nat) : Nat := 6 * k * k + 73 * k + 73 + 90 * tryCost k

theorem quotientAndRemainder_steps {y x r0 : BigInt} (hy : Clean y) (hx : WF x) (sy : y.negative = false)
    (sx : x.negative = false) (hle : mag x.bins ≤ mag y.bins) (hlt : mag y.bins < 1000000000 * mag x.bins) (hl : y.bins.length ≤ x.bins.length + 1) :
    (quotientAndRemainderC y x r0).steps ≤ digitCost x.bins.length := by
  have hX : 0 < mag x.bins := by
    have := mag_nonneg hx.2
    have := mag_nonneg hy.1.2
    omega
  set Q := mag y.bins / mag x.bins with hQ
  have hdm := Int.mul_ediv_add_emod (mag y.bins) (mag x.bins)
  have hm0 := Int.emod_nonneg (mag y.bins) hX.ne'
  have hm1 := Int.emod_lt_of_pos (mag y.bins) hX
  rw [← hQ] at hdm
  have hlow : Q * mag x.bins ≤ mag y.bins := by rw [mul_comm]; omega
  have hhigh : mag y.bins < (Q + 1) * mag x.bins := by
    have : (Q + 1) * mag x.bins = mag x.bins * Q + mag x.bins := by ring
    omega
  have hQ0 : 1 ≤ Q := Int.le_ediv_of_mul_le hX (by omega)
  have hQ1 : Q < 1000000000 := Int.ediv_lt_of_lt_mul hX hlt
  have hk := hx.pos_length
  have hlim : (ofInt64C BIN_LIMIT).Bnd 2 (· = ⟨[0, 1], false⟩) := ⟨by decide, fun v hv => by cases hv; rfl⟩
  have hq := qrLoop_steps hy hx sy hl hQ1 hlow hhigh 30 64 (st := 1000000000) (q := 0) (r := r0)
    (by omega) (by omega) (by norm_num) (by omega) (by omega) (by omega)
  have key : (quotientAndRemainderC y x r0).Bnd (0 + (0 + ((3 * x.bins.length + 2) + ((6 * x.bins.length * x.bins.length + 67 * x.bins.length + 60 +
      (3 * x.bins.length + 9)) + (0 + (30 * (3 * tryCost x.bins.length) + 0)))))) fun _ => True := by
    refine (bnd_free _).bind fun _ _ => (bnd_free _).bind fun _ _ => ((bnd_le x y).le (by omega)).bind fun l1 _ =>
      (show (if l1 = true then do
        let lim ← ofInt64C BIN_LIMIT
        let bx ← opMulC lim x
        ltC y bx
      else pure false : Cost Bool).Bnd _ fun _ => True from ?_).bind fun ok _ => (bnd_free _).bind fun _ _ =>
        (show (qrLoopC y x 64 BIN_LIMIT 0 r0).Bnd _ fun _ => True from ⟨hq, fun _ _ => trivial⟩).bind fun qr _ =>
        (bnd_free _).bind (b := 0) fun _ _ => bnd_pure trivial
    split
    · refine Bnd.le (a := 2 + ((6 * x.bins.length * x.bins.length + 67 * x.bins.length + 58) + (3 * x.bins.length + 9))) ?_ (by omega)
      refine hlim.bind fun lim h => ?_
      subst h
      have hm := bnd_opMul (x := ⟨[0, 1], false⟩) (y := x) (by simp) hx.2.nonneg rfl rfl
      simp only [List.length_cons, List.length_nil, Nat.zero_add, Nat.reduceAdd] at hm
      refine (hm.le ?_).bind fun bx hbx => ?_
      · generalize x.bins.length = k at *
        rcases Nat.lt_or_ge k 2 with h | h
        · obtain rfl : k = 1 := by omega
          decide
        · rw [min_eq_left h, max_eq_right h]
          ring_nf
          omega
      · exact (bnd_lt y bx).mono (by omega) fun _ _ => trivial
    · exact bnd_pure trivial
  refine key.1.trans ?_
  unfold digitCost
  omega

/-- What a round of long division costs at most, not counting the bins taken off the dividend. -/
def roundCost (k : Nat) : Nat := digitCost k + 4 * k + 8

theorem divideLoop_steps {xn : BigInt} (hx : WF xn) (sx : xn.negative = false) (hX : 0 < mag xn.bins) :
    ∀ (i : Nat) {bins : List Int} {rem : Int} {cur r : BigInt}, BinsOK bins → CurOK cur rem → 0 ≤ rem → rem < mag xn.bins →
      (divideLoopC xn i bins cur r).steps ≤ i * roundCost xn.bins.length + bins.length
  | 0, _, _, _, _, _, _, _, _ => Nat.zero_le _
  | i + 1, bins, rem, cur, r, hb, hc, h0, h1 => by
    rw [Nat.add_mul, one_mul]
    by_cases hi : i < bins.length
    swap
    · have e : ¬ (decide (i < bins.length)) = true := by simpa using hi
      have hpos : 0 < cur.bins.length := by obtain ⟨t, ht⟩ := hc.head; rw [ht]; simp
      have : (divideLoopC xn (i + 1) bins cur r).steps = 0 := by
        unfold divideLoopC
        have e1 : (free (assertR (decide (cur.bins.length > 0)))).res = .ok () := by simp [free_res, hpos, assertR]
        have e2 : free (assertR (decide (i < bins.length))) = fail .assertion := by simp [free, fail, assertR, hi]
        rw [bind_steps_ok _ e1, e2]
        rfl
      omega
    have ht := hb _ (List.getElem_mem hi)
    set t := bins[i] with htdef
    obtain ⟨c1, c2, c3, z, c4⟩ := hc.set ht.1 ht.2
    have hXlt := mag_lt hx.2
    have hcl : (cur.bins.set 0 t).length ≤ xn.bins.length + 1 := by
      refine noLead_length_le c1.1.2 c1.2 (by omega) ?_
      rw [c2, pow_succ]
      omega
    have e1 : (free (assertR (decide (cur.bins.length > 0)))).res = .ok () := by simp [free_res, c3, assertR]
    have e2 : (free (assertR (decide (i < bins.length)))).res = .ok () := by simp [free_res, hi, assertR]
    have e3 : (step (atR bins i)).res = .ok t := by simp [step_res, atR, hi, htdef]
    have e4 : (step (atR cur.bins 0)).res = .ok z := c4
    have e5 : (cmpBinsC xn { cur with bins := cur.bins.set 0 t }).res = .ok (cmpInts (mag xn.bins) (1000000000 * rem + t)) := by
      rw [cmpBinsC_res, cmpBins_spec hx.2 c1.1.2]; dsimp only; rw [c2]
    have l5 := (bnd_cmpBins xn { cur with bins := cur.bins.set 0 t }).1
    dsimp only at l5
    unfold divideLoopC
    dsimp only
    rw [bind_steps_ok _ e1, bind_steps_ok _ e2, bind_steps_ok _ e3, bind_steps_ok _ e4, bind_steps_ok _ e5]
    show 0 + (0 + (1 + (1 + (_ + _)))) ≤ _
    have hR : roundCost xn.bins.length = digitCost xn.bins.length + 4 * xn.bins.length + 8 := rfl
    by_cases hle : mag xn.bins ≤ 1000000000 * rem + t
    · have hcmp : cmpInts (mag xn.bins) (1000000000 * rem + t) ≤ 0 := by
        unfold cmpInts; split <;> (try split) <;> omega
      rw [if_pos hcmp]
      obtain ⟨r', q1, q2, q3, q4⟩ := quotientAndRemainder_ok (r0 := r) c1 hx hc.sign sx (by dsimp only; omega) (by dsimp only; omega)
      have lq := quotientAndRemainder_steps (r0 := r) c1 hx hc.sign sx (by dsimp only; omega) (by dsimp only; omega) hcl
      dsimp only at q1 q4
      rw [c2] at q1 q4
      have d0 : 0 ≤ (1000000000 * rem + t) / mag xn.bins := Int.ediv_nonneg (by omega) hX.le
      have d1 : (1000000000 * rem + t) / mag xn.bins < 1000000000 := Int.ediv_lt_of_lt_mul hX (by omega)
      have hq0 : (1000000000 * rem + t) / mag xn.bins ≠ 0 := by
        have : 1 ≤ (1000000000 * rem + t) / mag xn.bins := Int.le_ediv_of_mul_le hX (by omega)
        omega
      have s1 := Int.emod_lt_of_pos (1000000000 * rem + t) hX
      have s0 := Int.emod_nonneg (1000000000 * rem + t) hX.ne'
      rw [val_of_not_neg q3] at q4
      have hrl : r'.bins.length ≤ xn.bins.length :=
        noLead_length_le q2.1.2 q2.2.1 hx.pos_length (by rw [q4]; omega)
      have e6 : (quotientAndRemainderC { cur with bins := cur.bins.set 0 t } xn r).res = .ok ((1000000000 * rem + t) / mag xn.bins, r') := by
        rw [quotientAndRemainderC_res]; exact q1
      have e7 : (free (assertR ((1000000000 * rem + t) / mag xn.bins != 0))).res = .ok () := by
        have : ((1000000000 * rem + t) / mag xn.bins != 0) = true := by simpa using hq0
        rw [this]; rfl
      rw [bind_steps_ok _ e6]
      dsimp only
      rw [bind_steps_ok _ e7, bind_steps_ok _ (tick_res _), bind_steps_ok _ (copyC_res _), bind_steps_ok _ (tick_res _),
        bind_steps_ok _ (cleanBinsC_res _)]
      have l8 := (bnd_cleanBins (0 :: r'.bins)).1
      simp only [List.length_cons] at l8
      have hnext : CurOK { r' with bins := cleanBins (0 :: r'.bins) } ((1000000000 * rem + t) % mag xn.bins) := by
        rw [← q4]; exact CurOK.shift q2.clean q3
      have ih := divideLoop_steps hx sx hX i (bins := bins.set i ((1000000000 * rem + t) / mag xn.bins)) (r := r') (by
        intro b hb'
        rcases List.mem_or_eq_of_mem_set hb' with h | h
        · exact hb b h
        · rw [h]; exact ⟨d0, d1⟩) hnext s0 s1
      rw [List.length_set] at ih
      show 0 + (0 + (1 + (1 + (_ + (_ + (0 + (1 + (r'.bins.length + (1 + (_ + _)))))))))) ≤ _
      omega
    · have hcmp : ¬cmpInts (mag xn.bins) (1000000000 * rem + t) ≤ 0 := by
        rw [cmpInts_gt (by omega)]; decide
      rw [if_neg hcmp, bind_steps_ok _ (tick_res _), bind_steps_ok _ (cleanBinsC_res _), bind_steps_ok _ (tick_res _), bind_steps_ok _ (cleanBinsC_res _)]
      have l8 := (bnd_cleanBins (0 :: cur.bins.set 0 t)).1
      simp only [List.length_cons] at l8
      have l9 := cleanBins_steps (bins.set i 0)
      rw [List.length_set] at l9
      have hnext : CurOK { cur with bins := cleanBins (0 :: cur.bins.set 0 t) } (1000000000 * rem + t) := by
        rw [← c2]; exact CurOK.shift (cur := { cur with bins := cur.bins.set 0 t }) c1 hc.sign
      have ih := divideLoop_steps hx sx hX i (bins := cleanBins (bins.set i 0)) (r := r) (cleanBins_ok (by
        intro b hb'
        rcases List.mem_or_eq_of_mem_set hb' with h | h
        · exact hb b h
        · rw [h]; exact ⟨le_refl _, by norm_num⟩)) hnext (by omega) (by omega)
      show 0 + (0 + (1 + (1 + (_ + (1 + (_ + (1 + (_ + _)))))))) ≤ _
      omega

theorem roundCost_le {k : Nat} (hk : 1 ≤ k) : roundCost k + 10 ≤ 17500 * (k * k) := by
  have : k ≤ k * k := Nat.le_mul_self k
  unfold roundCost digitCost tryCost
  ring_nf
  ring_nf at this
  omega

theorem divide_steps {a x : BigInt} (ha : WF a) (hx : WF x) :
    (divideC a x).steps ≤ a.bins.length * roundCost x.bins.length + 2 * a.bins.length + 4 * x.bins.length + 2 := by
  unfold divideC
  have l1 := (bnd_equalsInt32 x 0).1
  have e1 : (equalsInt32C x 0).res = .ok (decide (mag x.bins = 0)) := by rw [equalsInt32C_res, equalsInt32_zero hx]
  rw [bind_steps_ok _ e1]
  by_cases hz : mag x.bins = 0
  · simp only [hz, decide_true, if_true]
    show _ + 0 ≤ _
    omega
  simp only [hz, decide_false, Bool.false_eq_true, if_false]
  have hX : 0 < mag x.bins := by have := mag_nonneg hx.2; omega
  have l2 := (bnd_cmpBins a x).1
  have e2 : (cmpBinsC a x).res = .ok (cmpInts (mag a.bins) (mag x.bins)) := by rw [cmpBinsC_res]; exact cmpBins_spec ha.2 hx.2
  rw [bind_steps_ok _ e2]
  have hp := ha.pos_length
  by_cases hc : cmpInts (mag a.bins) (mag x.bins) < 0
  · rw [if_pos hc]
    show _ + (_ + 1) ≤ _
    omega
  rw [if_neg hc]
  obtain ⟨xn, n1, n2, n3, n4⟩ : ∃ xn, (if x.negative = true then negC x else copyC x).res = .ok xn ∧ WF xn ∧
      xn.negative = false ∧ xn.bins = x.bins := by
    by_cases hn : x.negative = true
    · obtain ⟨r, r1, r2, r3, _, _, r6⟩ := neg_ok hx
      exact ⟨r, by simp [hn, negC_res, r1], r2, r6 hn, r3⟩
    · exact ⟨x, by simp [hn, copyC_res], hx, by simpa using hn, rfl⟩
  have l3 : (if x.negative = true then negC x else copyC x).steps ≤ 2 * x.bins.length + 1 := by
    split
    · exact (bnd_neg x).1
    · exact (bnd_copy x).1.trans (by omega)
  rw [bind_steps_ok _ n1]
  have l4 := divideLoop_steps n2 n3 (by rw [n4]; exact hX) a.bins.length (bins := a.bins) (r := default) ha.2 CurOK.init (le_refl 0) (by rw [n4]; exact hX)
  rw [n4] at l4
  have l5 : ((divideLoopC xn a.bins.length a.bins default default) >>= fun bins => pure ⟨bins, a.negative != x.negative⟩ : Cost BigInt).Bnd
      (a.bins.length * roundCost x.bins.length + a.bins.length + 0) fun _ => True :=
    (show (divideLoopC xn a.bins.length a.bins default default).Bnd _ fun _ => True from ⟨l4, fun _ _ => trivial⟩).bind fun _ _ => bnd_pure trivial
  have := l5.1
  omega

/-! ### From below -/

/-- The number of bins that are not zero. -/
def nonzeroBins (l : List Int) : Nat := l.countP (· != 0)

theorem cleanRev_suffix : ∀ l : List Int, cleanRev l <:+ l
  | [] => List.suffix_rfl
  | [_] => List.suffix_rfl
  | b :: c :: r => by
    unfold cleanRev
    split
    · exact (cleanRev_suffix (c :: r)).trans (List.suffix_cons _ _)
    · exact List.suffix_rfl

theorem cleanBins_prefix (l : List Int) : cleanBins l <+: l := by
  have := cleanRev_suffix l.reverse
  unfold cleanBins
  rwa [← List.reverse_suffix, List.reverse_reverse]

theorem nonzero_drop_clean (l : List Int) (i : Nat) : nonzeroBins ((cleanBins l).drop i) ≤ nonzeroBins (l.drop i) := by
  obtain ⟨t, ht⟩ := cleanBins_prefix l
  unfold nonzeroBins
  conv_rhs => rw [← ht, List.drop_append, List.countP_append]
  omega

theorem nonzero_drop_set (l : List Int) (i : Nat) (v : Int) : nonzeroBins ((l.set i v).drop i) ≤ nonzeroBins (l.drop (i + 1)) + if v = 0 then 0 else 1 := by
  by_cases hi : i < l.length
  · have : (l.set i v).drop i = v :: l.drop (i + 1) := by
      rw [List.drop_set, if_neg (by omega), Nat.sub_self, List.drop_eq_getElem_cons hi]
      rfl
    rw [this]
    unfold nonzeroBins
    rw [List.countP_cons]
    by_cases hv : v = 0 <;> simp [hv]
  · rw [List.drop_eq_nil_of_le (by rw [List.length_set]; omega)]
    exact Nat.zero_le _

theorem quotientAndRemainder_steps_ge {y x r : BigInt} (hx : BinsOK x.bins) (h0 : ∀ b ∈ x.bins, b ≠ 0) {v : Int × BigInt}
    (h : (quotientAndRemainderC y x r).res = .ok v) : x.bins.length * (5 * x.bins.length + 9) ≤ 2 * (quotientAndRemainderC y x r).steps := by
  have hm := multiplyByInt_steps_ge (y := 500000000) hx h0 (by norm_num) (by norm_num)
  have hq : (multiplyByIntC x 500000000).steps ≤ (qrLoopC y x 64 BIN_LIMIT 0 r).steps := by
    have e : ((1000000000 : Int).tdiv 2) = 500000000 := by decide
    have e1 : (free (i32 (0 + 500000000))).res = .ok 500000000 := i32_ok (z := 500000000) (by norm_num) (by norm_num)
    show _ ≤ (qrLoopC y x (63 + 1) 1000000000 0 r).steps
    unfold qrLoopC
    rw [if_pos (by norm_num)]
    dsimp only
    rw [e]
    refine le_trans ?_ (bind_steps_ge _ _)
    show _ ≤ (iterQuotientLoopC y x 500000000 (4294967295 + 1) 0).steps
    unfold iterQuotientLoopC
    dsimp only
    rw [bind_steps_ok _ e1]
    exact (bind_steps_ge _ _).trans (Nat.le_add_left _ _)
  have key : (qrLoopC y x 64 BIN_LIMIT 0 r).steps ≤ (quotientAndRemainderC y x r).steps := by
    unfold quotientAndRemainderC at h ⊢
    have peel : ∀ {α β : Type} {x : Cost α} {f : α → Cost β} {w : β} {n : Nat}, (x >>= f).res = .ok w →
        (∀ a, (f a).res = .ok w → n ≤ (f a).steps) → n ≤ (x >>= f).steps := by
      intro α β x f w n h1 h2
      cases hx : x.res with
      | error e => rw [bind_res, hx] at h1; cases h1
      | ok a =>
        rw [bind_res, hx] at h1
        rw [bind_steps_ok _ hx]
        exact (h2 a h1).trans (Nat.le_add_left _ _)
    refine peel h fun _ h => peel h fun _ h => peel h fun _ h => peel h fun _ h => peel h fun _ h => ?_
    exact bind_steps_ge _ _
  omega

theorem divideLoop_steps_ge {xn : BigInt} (hx : BinsOK xn.bins) (h0 : ∀ b ∈ xn.bins, b ≠ 0) : ∀ (i : Nat) {bins out : List Int} {cur r : BigInt},
    (divideLoopC xn i bins cur r).res = .ok out →
    nonzeroBins out * (xn.bins.length * (5 * xn.bins.length + 9)) ≤ nonzeroBins (bins.drop i) * (xn.bins.length * (5 * xn.bins.length + 9)) +
      2 * (divideLoopC xn i bins cur r).steps
  | 0, bins, out, _, _, h => by cases h; simp
  | i + 1, bins, out, cur, r, h => by
    generalize hK : xn.bins.length * (5 * xn.bins.length + 9) = K at *
    unfold divideLoopC at h ⊢
    have peel : ∀ {α β : Type} {x : Cost α} {f : α → Cost β} {w : β} {n m : Nat}, (x >>= f).res = .ok w →
        (∀ a, x.res = .ok a → (f a).res = .ok w → n ≤ m + 2 * (f a).steps) → n ≤ m + 2 * (x >>= f).steps := by
      intro α β x f w n m h1 h2
      cases hx : x.res with
      | error e => rw [bind_res, hx] at h1; cases h1
      | ok a =>
        rw [bind_res, hx] at h1
        rw [bind_steps_ok _ hx]
        have := h2 a hx h1
        omega
    refine peel h fun _ _ h => peel h fun _ _ h => peel h fun b _ h => peel h fun _ _ h => peel h fun c _ h => ?_
    split at h
    · rename_i hc
      rw [if_pos hc]
      cases hqr : (quotientAndRemainderC { cur with bins := cur.bins.set 0 b } xn r).res with
      | error e => rw [bind_res, hqr] at h; cases h
      | ok qr =>
        have hge := quotientAndRemainder_steps_ge hx h0 hqr
        rw [hK] at hge
        rw [bind_res, hqr, ok_bind'] at h
        rw [bind_steps_ok _ hqr]
        obtain ⟨q, r'⟩ := qr
        dsimp only at h ⊢
        rw [Nat.mul_add, ← Nat.add_assoc]
        refine le_trans (peel (m := nonzeroBins (List.drop (i + 1) bins) * K + K) h fun _ _ h => peel h fun _ _ h => peel h fun _ _ h =>
          peel h fun _ _ h => peel h fun cb _ h => ?_) (Nat.add_le_add_right (Nat.add_le_add_left hge _) _)
        have ih := divideLoop_steps_ge hx h0 i h
        rw [hK] at ih
        have hs := nonzero_drop_set bins i q
        have hs' : nonzeroBins ((bins.set i q).drop i) ≤ nonzeroBins (bins.drop (i + 1)) + 1 := hs.trans (by split <;> omega)
        have := Nat.mul_le_mul_right K hs'
        rw [Nat.add_mul, one_mul] at this
        omega
    · rename_i hc
      rw [if_neg hc]
      refine peel h fun _ _ h => peel h fun bins' hb h => peel h fun _ _ h => peel h fun cb _ h => ?_
      have ih := divideLoop_steps_ge hx h0 i h
      rw [hK] at ih
      rw [cleanBinsC_res] at hb
      cases hb
      have hs := (nonzero_drop_clean (bins.set i 0) i).trans (nonzero_drop_set bins i 0)
      simp only [if_true, Nat.add_zero] at hs
      have := Nat.mul_le_mul_right K hs
      omega

theorem divide_steps_ge {a x q : BigInt} (hx : WF x) (h0 : ∀ b ∈ x.bins, b ≠ 0) (hle : mag x.bins ≤ mag a.bins) (ha : WF a) (h : divide a x = .ok q) :
    nonzeroBins q.bins * (x.bins.length * (5 * x.bins.length + 9)) ≤ 2 * (divideC a x).steps := by
  rw [← divideC_res] at h
  unfold divideC at h ⊢
  have e1 : (equalsInt32C x 0).res = .ok (decide (mag x.bins = 0)) := by rw [equalsInt32C_res, equalsInt32_zero hx]
  have e2 : (cmpBinsC a x).res = .ok (cmpInts (mag a.bins) (mag x.bins)) := by rw [cmpBinsC_res]; exact cmpBins_spec ha.2 hx.2
  rw [bind_res, e1, ok_bind'] at h
  rw [bind_steps_ok _ e1]
  have hc : ¬cmpInts (mag a.bins) (mag x.bins) < 0 := by
    unfold cmpInts; rw [if_neg (by omega)]; split <;> omega
  by_cases hz : mag x.bins = 0
  · simp only [hz, decide_true, if_true] at h
    cases h
  simp only [hz, decide_false, Bool.false_eq_true, if_false] at h ⊢
  rw [bind_res, e2, ok_bind', if_neg hc, bind_res] at h
  rw [bind_steps_ok _ e2, if_neg hc]
  cases hn : (if x.negative = true then negC x else copyC x).res with
  | error e => rw [hn] at h; cases h
  | ok xn =>
    rw [hn, ok_bind', bind_res] at h
    have hxn : xn.bins = x.bins := by
      have : (if x.negative = true then negC x else copyC x).Bnd (2 * x.bins.length + 1) fun r => r.bins = x.bins := by
        split
        · exact bnd_neg x
        · exact (bnd_copy x).mono (by omega) fun v hv => by rw [hv]
      exact this.2 xn hn
    rw [bind_steps_ok _ hn]
    cases hd : (divideLoopC xn a.bins.length a.bins default default).res with
    | error e => rw [hd] at h; cases h
    | ok out =>
      rw [hd] at h
      cases h
      have hg := divideLoop_steps_ge (hxn ▸ hx.2) (hxn ▸ h0) a.bins.length hd
      rw [List.drop_length, hxn] at hg
      have : nonzeroBins [] = 0 := rfl
      rw [this, Nat.zero_mul, Nat.zero_add] at hg
      have := bind_steps_ge (divideLoopC xn a.bins.length a.bins default default) fun bins => (pure ⟨bins, a.negative != x.negative⟩ : Cost BigInt)
      dsimp only
      omega

end BigInt
end CppMaths
