import Verif.Proofs.IntTime
import Mathlib.Tactic.Linarith
/-!
# Bounds for the number of steps of multiplication and division of `Int`s
-/

namespace CppMaths
namespace BigInt
open Cost

/-! ### Multiplication, from above -/

theorem bnd_mulByIntLoop {y : Int} (hy : 0 ≤ y) : ∀ {bs : List Int} {i : Nat} {r : BigInt}, (∀ b ∈ bs, 0 ≤ b) → r.negative = false →
    r.bins.length ≤ i + 4 → (mulByIntLoopC bs y i r).Bnd (bs.length * (6 * i + 3 * bs.length + 24)) fun r' =>
      r'.bins.length ≤ i + bs.length + 4 ∧ r'.negative = false
  | [], i, r, _, hr, hl => bnd_pure ⟨by simpa using hl, hr⟩
  | b :: bs, i, r, hb, hr, hl => by
    have h0 : 0 ≤ y * b := Int.mul_nonneg hy (hb b (by simp))
    refine Bnd.le (a := 1 + (0 + ((i + 4) + ((5 * (i + 4) + 2) + bs.length * (6 * (i + 1) + 3 * bs.length + 24))))) ?_ ?_
    · refine (bnd_tick 1).bind fun _ _ => (show (free (i64 (y * b))).Bnd 0 (· = y * b) from ⟨le_refl _, fun v hv => ?_⟩).bind fun p hp => ?_
      · change i64 (y * b) = .ok v at hv
        unfold i64 at hv
        split at hv
        · cases hv; rfl
        · cases hv
      · subst hp
        refine (bnd_ofInt64 (y * b) i).bind fun t ht => ?_
        have ht2 := ht.2 h0
        have e : addAssignC r t = addAssignNonnegC r t := by simp [addAssignC, hr, ht2]
        rw [e]
        refine ((bnd_addAssignNonneg r t).le (by have := ht.1; omega)).bind fun s hs => ?_
        exact (bnd_mulByIntLoop hy (fun b hb' => hb b (by simp [hb'])) (hs.2.trans hr) (by have := hs.1; have := ht.1; omega)).mono (le_refl _)
          fun r' h => ⟨by have := h.1; simp only [List.length_cons]; omega, h.2⟩
    · simp only [List.length_cons]; ring_nf; omega

theorem bnd_multiplyByInt {x : BigInt} {y : Int} (hx : ∀ b ∈ x.bins, 0 ≤ b) (hy : 0 ≤ y) :
    (multiplyByIntC x y).Bnd (x.bins.length * (3 * x.bins.length + 24) + 1) fun r => r.bins.length ≤ x.bins.length + 4 ∧ r.negative = false := by
  refine (bnd_setZero.bind fun r hr => ?_).le (Nat.add_comm _ _).le
  subst hr
  exact (bnd_mulByIntLoop hy hx rfl (by simp)).mono (by simp) fun r' h => ⟨by have := h.1; omega, h.2⟩

theorem bnd_multiplyLoop {x : BigInt} (hx : ∀ b ∈ x.bins, 0 ≤ b) : ∀ {bs : List Int} {i : Nat} {r : BigInt}, (∀ b ∈ bs, 0 ≤ b) → r.negative = false →
    r.bins.length ≤ i + x.bins.length + 4 →
    (multiplyLoopC x bs i r).Bnd (bs.length * (x.bins.length * (3 * x.bins.length + 30) + 6 * i + 3 * bs.length + 25)) fun r' =>
      r'.bins.length ≤ i + bs.length + x.bins.length + 4 ∧ r'.negative = false
  | [], i, r, _, hr, hl => bnd_pure ⟨by simpa using hl, hr⟩
  | b :: bs, i, r, hb, hr, hl => by
    generalize hn : x.bins.length = n at *
    refine Bnd.le (a := 1 + ((n * (3 * n + 24) + 1) + ((i + (n + 4)) + ((5 * (i + n + 4) + 2) +
      bs.length * (n * (3 * n + 30) + 6 * (i + 1) + 3 * bs.length + 25))))) ?_ ?_
    · refine (bnd_tick 1).bind fun _ _ => ((bnd_multiplyByInt hx (hb b (by simp))).le (by rw [hn])).bind fun p hp => ?_
      rw [hn] at hp
      refine ((bnd_ofShift p i).le (by have := hp.1; omega)).bind fun t ht => ?_
      have ht2 : t.negative = false := by rw [ht]; exact hp.2
      have hl2 : t.bins.length = i + p.bins.length := by rw [ht]; simp [ofShift]
      have e : addAssignC r t = addAssignNonnegC r t := by simp [addAssignC, hr, ht2]
      rw [e]
      refine ((bnd_addAssignNonneg r t).le (by have := hp.1; omega)).bind fun s hs => ?_
      have := bnd_multiplyLoop hx (bs := bs) (i := i + 1) (r := s) (fun b hb' => hb b (by simp [hb'])) (hs.2.trans hr)
        (by have := hs.1; have := hp.1; omega)
      rw [hn] at this
      exact this.mono (le_refl _) fun r' h => ⟨by have := h.1; simp only [List.length_cons]; omega, h.2⟩
    · simp only [List.length_cons]; ring_nf; omega

theorem bnd_multiply {x y : BigInt} (hx : ∀ b ∈ x.bins, 0 ≤ b) (hy : ∀ b ∈ y.bins, 0 ≤ b) :
    (multiplyC x y).Bnd (y.bins.length * (x.bins.length * (3 * x.bins.length + 30) + 3 * y.bins.length + 25) + 1) fun r =>
      r.bins.length ≤ x.bins.length + y.bins.length + 4 := by
  refine (bnd_setZero.bind fun r hr => ?_).le (Nat.add_comm _ _).le
  subst hr
  exact (bnd_multiplyLoop hx hy rfl (by simp)).mono (by simp) fun r' h => by have := h.1; omega

theorem bnd_opMul {x y : BigInt} (hx : ∀ b ∈ x.bins, 0 ≤ b) (hy : ∀ b ∈ y.bins, 0 ≤ b) {m n : Nat} (hm : m = min x.bins.length y.bins.length)
    (hn : n = max x.bins.length y.bins.length) : (opMulC x y).Bnd (m * (3 * n * n + 33 * n + 25) + m + n + 6) fun r => r.bins.length ≤ m + n + 4 := by
  have hmn : m ≤ n := by omega
  have key : m * (n * (3 * n + 30) + 3 * m + 25) ≤ m * (3 * n * n + 33 * n + 25) := by
    apply Nat.mul_le_mul_left
    have : n * (3 * n + 30) = 3 * n * n + 30 * n := by ring
    omega
  refine Bnd.le (a := (m * (3 * n * n + 33 * n + 25) + 1) + (m + n + 5)) ?_ (by omega)
  refine (show (if x.bins.length > y.bins.length then multiplyC x y else multiplyC y x : Cost BigInt).Bnd (m * (3 * n * n + 33 * n + 25) + 1)
    (fun r => r.bins.length ≤ m + n + 4) from ?_).bind fun r hr => ?_
  · split
    · have h1 : x.bins.length = n := by omega
      have h2 : y.bins.length = m := by omega
      have := bnd_multiply hx hy
      rw [h1, h2] at this
      exact this.mono (by omega) fun r hr => by omega
    · have h1 : x.bins.length = m := by omega
      have h2 : y.bins.length = n := by omega
      have := bnd_multiply hy hx
      rw [h1, h2] at this
      exact this.mono (by omega) fun r hr => by omega
  · split
    · exact (bnd_negate r).mono (by omega) fun s hs => by rw [hs]; exact hr
    · exact bnd_pure hr

theorem bnd_mulAssign {x y : BigInt} (hx : ∀ b ∈ x.bins, 0 ≤ b) (hy : ∀ b ∈ y.bins, 0 ≤ b) {n m : Nat} (hn : n = x.bins.length)
    (hm : m = y.bins.length) : (mulAssignC x y).Bnd (m * (3 * n * n + 30 * n + 3 * m + 25) + 3 * n + m + 5) fun r => r.bins.length ≤ n + m + 4 := by
  refine Bnd.le (a := (m * (n * (3 * n + 30) + 3 * m + 25) + 1) + (2 * n + (n + m + 4))) ?_ ?_
  · have := bnd_multiply hx hy
    rw [← hn, ← hm] at this
    refine this.bind fun r hr => ?_
    exact (bnd_swap x _).mono (by dsimp only; omega) fun s hs => by rw [hs]; exact hr
  · have : n * (3 * n + 30) = 3 * n * n + 30 * n := by ring
    rw [this]; omega

/-! ### Multiplication, from below -/

theorem addLoop_steps_ge : ∀ (l m : List Int) (c : Int) {v : List Int × Int}, (addLoopC l m c).res = .ok v → 3 * m.length ≤ (addLoopC l m c).steps
  | _, [], _, _, _ => by simp
  | [], _ :: _, _, _, h => by cases h
  | b :: bs, x :: xs, c, v, h => by
    simp only [addLoopC] at h ⊢
    rw [bind_res, tick_res, ok_bind', bind_res] at h
    rw [bind_steps_ok _ (tick_res _)]
    cases h1 : (free (i32 (b + x))).res with
    | error e => rw [h1] at h; cases h
    | ok s =>
      rw [h1, ok_bind', bind_res] at h
      rw [bind_steps_ok _ h1]
      cases h2 : (free (i32 (s + c))).res with
      | error e => rw [h2] at h; cases h
      | ok s2 =>
        rw [h2, ok_bind', bind_res] at h
        rw [bind_steps_ok _ h2]
        cases h3 : (addLoopC bs xs (max32 0 (s2.tdiv BIN_LIMIT))).res with
        | error e => rw [h3] at h; cases h
        | ok w =>
          have := addLoop_steps_ge bs xs _ h3
          rw [bind_steps_ok _ h3]
          show _ ≤ 3 + (0 + (0 + _))
          simp only [List.length_cons]
          omega

theorem add_steps_ge {a x : BigInt} {v : BigInt} (h : add a x = .ok v) : 3 * x.bins.length + 1 ≤ (addC a x).steps := by
  rw [← addC_res] at h
  simp only [addC] at h ⊢
  rw [bind_res, tick_res, ok_bind', bind_res] at h
  rw [bind_steps_ok _ (tick_res _)]
  cases h1 : (addLoopC (a.bins ++ List.replicate (x.bins.length - a.bins.length) 0) x.bins 0).res with
  | error e => rw [h1] at h; cases h
  | ok w =>
    have := addLoop_steps_ge _ _ _ h1
    rw [bind_steps_ok _ h1]
    show _ ≤ _ + (_ + 1)
    omega

theorem pushBins_steps_pos {f : Nat} {x : Int} (hx : 0 < x) : 1 ≤ (pushBinsC (f + 1) x).steps := by
  unfold pushBinsC
  split
  · rw [bind_steps_ok _ (tick_res _)]
    exact Nat.le_add_right 1 _
  · exact le_refl 1

theorem pushBins_pos {f : Nat} {x : Int} (hx : 0 < x) {l : List Int} (h : pushBins (f + 1) x = .ok l) : 1 ≤ l.length := by
  unfold pushBins at h
  split at h
  · cases hp : pushBins f (x.tdiv BIN_LIMIT) with
    | error e => rw [hp] at h; cases h
    | ok r => rw [hp] at h; cases h; simp
  · cases h; simp

theorem ofInt64_steps_ge {x : Int} (hx : 0 < x) (s : Nat) : s + 1 ≤ (ofInt64C x s).steps := by
  unfold ofInt64C
  rw [bind_steps_ok _ (tick_res _), if_neg (by omega), if_neg (by simp; omega)]
  exact Nat.add_le_add_left ((pushBins_steps_pos hx).trans (bind_steps_ge _ _)) s

theorem ofInt64_length_ge {x : Int} (hx : 0 < x) {s : Nat} {t : BigInt} (h : ofInt64 x s = .ok t) : s + 1 ≤ t.bins.length := by
  unfold ofInt64 at h
  rw [if_neg (by omega), if_neg (by simp; omega)] at h
  cases hp : pushBins 4 x with
  | error e => rw [hp] at h; cases h
  | ok l =>
    rw [hp] at h
    cases h
    have := pushBins_pos hx hp
    simp only [List.length_append, List.length_replicate]
    omega

theorem addAssignNonneg_steps_ge {r t v : BigInt} (h : add r t = .ok v) : 4 * t.bins.length + 1 ≤ (addAssignNonnegC r t).steps := by
  unfold addAssignNonnegC
  rw [bind_steps_ok _ (ofShiftC_res _ _)]
  have e : ofShift t 0 = t := by simp [ofShift]
  rw [e]
  have := add_steps_ge h
  show _ ≤ 0 + t.bins.length + _
  omega

theorem mulByIntLoop_steps_ge {y : Int} (hy0 : 1 ≤ y) (hy1 : y ≤ 2147483647) : ∀ {bs : List Int} {i : Nat} {r : BigInt}, BinsOK bs → (∀ b ∈ bs, b ≠ 0) →
    Clean r → r.negative = false → bs.length * (10 * i + 5 * bs.length + 9) ≤ 2 * (mulByIntLoopC bs y i r).steps
  | [], _, _, _, _, _, _ => by simp
  | b :: bs, i, r, hb, h0, hc, hr => by
    rw [BinsOK_cons] at hb
    have hb0 : 1 ≤ b := by have := hb.1.1; have := h0 b (by simp); omega
    have p0 : 0 < y * b := by nlinarith
    have p2 : y * b ≤ 2147483647 * 1000000000 := by nlinarith
    obtain ⟨t, t1, t2, t3, t4⟩ := ofInt64_ok (x := y * b) i (by omega) (by omega)
    have t5 := t4 p0.le
    obtain ⟨s, s1, s2, s3, s4⟩ := add_clean hc t2.clean
    have ih := mulByIntLoop_steps_ge hy0 hy1 (i := i + 1) (r := s) hb.2 (fun b' hb' => h0 b' (by simp [hb'])) s2 (s3.trans hr)
    simp only [mulByIntLoopC]
    have r1 : (free (i64 (y * b))).res = .ok (y * b) := i64_ok (by omega) (by omega)
    have r2 : (ofInt64C (y * b) i).res = .ok t := by rw [ofInt64C_res]; exact t1
    have r3 : (addAssignC r t).res = .ok s := by rw [addAssignC_res, addAssign_nonneg hr t5]; exact s1
    rw [bind_steps_ok _ (tick_res _), bind_steps_ok _ r1, bind_steps_ok _ r2, bind_steps_ok _ r3]
    have e : addAssignC r t = addAssignNonnegC r t := by simp [addAssignC, hr, t5]
    rw [e]
    have l1 := ofInt64_steps_ge p0 i
    have l2 := ofInt64_length_ge p0 t1
    have l3 := addAssignNonneg_steps_ge s1
    have l4 : 5 * i + 7 + (mulByIntLoopC bs y (i + 1) s).steps ≤ (tick 1).steps + ((free (i64 (y * b))).steps + ((ofInt64C (y * b) i).steps +
      ((addAssignNonnegC r t).steps + (mulByIntLoopC bs y (i + 1) s).steps))) := by
      show _ ≤ 1 + (0 + _)
      omega
    refine le_trans ?_ (Nat.mul_le_mul_left 2 l4)
    simp only [List.length_cons]
    have e2 : (bs.length + 1) * (10 * i + 5 * (bs.length + 1) + 9) = bs.length * (10 * (i + 1) + 5 * bs.length + 9) + 10 * i + 14 := by ring
    omega

theorem multiplyByInt_steps_ge {x : BigInt} {y : Int} (hx : BinsOK x.bins) (h0 : ∀ b ∈ x.bins, b ≠ 0) (hy0 : 1 ≤ y) (hy1 : y ≤ 2147483647) :
    x.bins.length * (5 * x.bins.length + 9) ≤ 2 * (multiplyByIntC x y).steps := by
  unfold multiplyByIntC
  rw [bind_steps_ok _ (show (setValueC 0).res = .ok ⟨[0], false⟩ from rfl)]
  have := mulByIntLoop_steps_ge hy0 hy1 (i := 0) hx h0 clean_zero rfl
  simp only [mul_zero, zero_add] at this
  omega

theorem multiplyLoop_steps_ge {x : BigInt} (hx : WF x) (h0 : ∀ b ∈ x.bins, b ≠ 0) : ∀ {bs : List Int} {i : Nat} {r : BigInt}, BinsOK bs →
    (∀ b ∈ bs, b ≠ 0) → WF r → r.negative = false → bs.length * (x.bins.length * (5 * x.bins.length + 9)) ≤ 2 * (multiplyLoopC x bs i r).steps
  | [], _, _, _, _, _, _ => by simp
  | b :: bs, i, r, hb, h1, hr, hn => by
    rw [BinsOK_cons] at hb
    have hb0 : 1 ≤ b := by have := hb.1.1; have := h1 b (by simp); omega
    obtain ⟨p, p1, p2, p3, p4⟩ := multiplyByInt_ok (y := b) hx.2 (by omega) (by omega)
    obtain ⟨q1, q2, q3, q4⟩ := ofShift_wf p2.1 i
    obtain ⟨s, s1, s2, s3, s4, s5⟩ := add_ok hr q1
    have ih := multiplyLoop_steps_ge hx h0 (i := i + 1) (r := s) hb.2 (fun b' hb' => h1 b' (by simp [hb'])) s2 (s3.trans hn)
    have l1 := multiplyByInt_steps_ge (y := b) hx.2 h0 hb0 (by omega)
    simp only [multiplyLoopC]
    have r1 : (multiplyByIntC x b).res = .ok p := by rw [multiplyByIntC_res]; exact p1
    have r3 : (addAssignC r (ofShift p i)).res = .ok s := by rw [addAssignC_res, addAssign_nonneg hn (q3.trans p3)]; exact s1
    rw [bind_steps_ok _ (tick_res _), bind_steps_ok _ r1, bind_steps_ok _ (ofShiftC_res _ _), bind_steps_ok _ r3]
    simp only [List.length_cons, Nat.add_mul, one_mul]
    omega

theorem multiply_steps_ge {x y : BigInt} (hx : WF x) (hy : WF y) (h0 : ∀ b ∈ x.bins, b ≠ 0) (h1 : ∀ b ∈ y.bins, b ≠ 0) :
    y.bins.length * (x.bins.length * (5 * x.bins.length + 9)) ≤ 2 * (multiplyC x y).steps := by
  unfold multiplyC
  rw [bind_steps_ok _ (show (setValueC 0).res = .ok ⟨[0], false⟩ from rfl)]
  have := multiplyLoop_steps_ge hx h0 (i := 0) hy.2 h1 WF_zero rfl
  omega

theorem opMul_steps_ge {x y : BigInt} (hx : WF x) (hy : WF y) (h0 : ∀ b ∈ x.bins, b ≠ 0) (h1 : ∀ b ∈ y.bins, b ≠ 0) :
    min x.bins.length y.bins.length * (max x.bins.length y.bins.length * (5 * max x.bins.length y.bins.length + 9)) ≤ 2 * (opMulC x y).steps := by
  refine le_trans ?_ (Nat.mul_le_mul_left 2 (bind_steps_ge _ _))
  split
  · rw [min_eq_right (by omega), max_eq_left (by omega)]
    exact multiply_steps_ge hx hy h0 h1
  · rw [min_eq_left (by omega), max_eq_right (by omega)]
    exact multiply_steps_ge hy hx h1 h0

end BigInt
end CppMaths
