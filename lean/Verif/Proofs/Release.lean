import Verif.Model.Release
import Verif.Spec.Release
import Verif.Proofs.IntMem
/-!
# `Int` without assertions: helper lemmas
-/

namespace CppMaths.BigInt

/-! ### Whatever the build with assertions returns, the build without them returns -/

/-- `u` returns whatever `r` returns. -/
def Keeps {α ε : Type} (r : Res α) (u : Except ε α) : Prop := ∀ v, r = .ok v → u = .ok v

theorem Keeps.refl {α : Type} (r : Res α) : Keeps r r := fun _ h => h
theorem Keeps.keeping {α σ : Type} {r r' : Res α} {s : σ} (h : Keeps r r') : Keeps r (keeping s r') := by
  intro v hv; rw [h v hv]; rfl
theorem Keeps.keep {α σ : Type} {r : Res α} {s : σ} : Keeps r (BigInt.keeping s r) := (Keeps.refl r).keeping
theorem Keeps.outcome {α σ : Type} {r : Res α} {u : Except (Err × σ) α} (h : Keeps r u) : Keeps r (outcome u) := by
  intro v hv; rw [h v hv]; rfl
theorem Keeps.bind {α β ε : Type} {r : Res α} {u : Except ε α} {f : α → Res β} {g : α → Except ε β} (h : Keeps r u)
    (hf : ∀ a, Keeps (f a) (g a)) : Keeps (r >>= f) (u >>= g) := by
  intro v hv
  cases hr : r with
  | error e => rw [hr] at hv; cases hv
  | ok a =>
    rw [hr] at hv
    rw [h a hr]
    exact hf a v hv
/-- A step that only the build with assertions performs. -/
theorem Keeps.drop {α β ε : Type} {r : Res α} {u : Except ε β} {f : α → Res β} (hf : ∀ a, Keeps (f a) u) :
    Keeps (r >>= f) u := by
  intro v hv
  cases hr : r with
  | error e => rw [hr] at hv; cases hv
  | ok a => rw [hr] at hv; exact hf a v hv
theorem Keeps.ite {α ε : Type} {c : Prop} [Decidable c] {r r' : Res α} {u u' : Except ε α} (h : Keeps r u) (h' : Keeps r' u') :
    Keeps (if c then r else r') (if c then u else u') := by split <;> assumption
theorem Keeps.ok {α ε : Type} {a : α} : Keeps (.ok a) (.ok a : Except ε α) := fun v h => by cases h; rfl
theorem Keeps.fail {α ε : Type} {e : Err} {u : Except ε α} : Keeps (.error e) u := fun v h => by cases h

theorem Keeps.behind {r : Res (List Int)} {u : Upd (List Int)} {d : Int} (h : Keeps r u) :
    Keeps (r >>= fun r => pure (d :: r)) (behind d u) := by
  intro v hv
  cases hr : r with
  | error e => rw [hr] at hv; cases hv
  | ok a => rw [hr] at hv; cases hv; rw [h a hr]; rfl

theorem subLoop_keeps : ∀ (l xs : List Int) (w : Int), Keeps (subLoop l xs w) (subLoopU l xs w)
  | l, [], w => by cases l <;> exact Keeps.keep
  | [], _ :: _, _ => Keeps.fail
  | b :: bs, x :: xs, w => by
    unfold subLoop subLoopU
    refine Keeps.keep.bind fun t => Keeps.keep.bind fun diff => Keeps.ite (Keeps.keep.bind fun d => ?_) ?_
    · exact (subLoop_keeps bs xs 1).behind
    · exact (subLoop_keeps bs xs 0).behind

theorem subtract_keeps (a x : BigInt) : Keeps (subtract a x) (subtractU a x) := by
  unfold subtract
  refine Keeps.drop fun _ => Keeps.drop fun _ => Keeps.drop fun _ => Keeps.drop fun _ => Keeps.drop fun _ => Keeps.drop fun _ => ?_
  intro v hv
  unfold subtractU
  cases hr : subLoop a.bins x.bins 0 with
  | error e => rw [hr] at hv; cases hv
  | ok r => rw [hr] at hv; cases hv; rw [subLoop_keeps _ _ _ r hr]

theorem subNonneg_keeps (x y : BigInt) : Keeps (subNonneg x y) (subNonnegR x y) :=
  (Keeps.refl _).bind fun _ => Keeps.ite (subtract_keeps _ _).outcome ((subtract_keeps _ _).outcome.bind fun _ => Keeps.refl _)

theorem opAdd_keeps (x y : BigInt) : Keeps (opAdd x y) (opAddR x y) := by
  unfold opAdd opAddR
  refine Keeps.ite (Keeps.refl _) (Keeps.ite ((Keeps.refl _).bind fun _ => (subNonneg_keeps _ _).bind fun _ => Keeps.refl _)
    (Keeps.ite ((Keeps.refl _).bind fun _ => subNonneg_keeps _ _) (Keeps.refl _)))

theorem opSub_keeps (x y : BigInt) : Keeps (opSub x y) (opSubR x y) := by
  unfold opSub opSubR
  refine Keeps.ite ((Keeps.refl _).bind fun _ => (Keeps.refl _).bind fun _ => (subNonneg_keeps _ _).bind fun _ => Keeps.refl _)
    (Keeps.ite (Keeps.refl _) (Keeps.ite (Keeps.refl _) (subNonneg_keeps _ _)))

theorem subAssignNonneg_keeps (x y : BigInt) : Keeps (subAssignNonneg x y) (subAssignNonnegU x y) :=
  Keeps.keep.bind fun _ => Keeps.ite (subtract_keeps _ _) ((subtract_keeps _ _).outcome.keeping.bind fun _ => Keeps.keep)

theorem addAssign_keeps (x y : BigInt) : Keeps (addAssign x y) (addAssignU x y) := by
  unfold addAssign addAssignU
  refine Keeps.ite (Keeps.keep.bind fun _ => Keeps.keep.bind fun _ => Keeps.keep.bind fun _ => Keeps.keep)
    (Keeps.ite (Keeps.keep.bind fun _ => (subAssignNonneg_keeps _ _).bind fun _ => Keeps.keep)
      (Keeps.ite (Keeps.keep.bind fun _ => subAssignNonneg_keeps _ _) Keeps.keep))

theorem subAssign_keeps (x y : BigInt) : Keeps (subAssign x y) (subAssignU x y) := by
  unfold subAssign subAssignU
  refine Keeps.ite (Keeps.keep.bind fun _ => Keeps.keep.bind fun _ => (subAssignNonneg_keeps _ _).bind fun _ => Keeps.keep)
    (Keeps.ite (Keeps.keep.bind fun _ => Keeps.keep.bind fun _ => Keeps.keep)
      (Keeps.ite (Keeps.keep.bind fun _ => Keeps.keep) (subAssignNonneg_keeps _ _)))

theorem mulByIntLoop_keeps (y : Int) : ∀ (l : List Int) (i : Nat) (r : BigInt), Keeps (mulByIntLoop l y i r) (mulByIntLoopR l y i r)
  | [], _, _ => Keeps.refl _
  | _ :: bs, i, _ => (Keeps.refl _).bind fun _ => (Keeps.refl _).bind fun _ => (addAssign_keeps _ _).outcome.bind fun r =>
      mulByIntLoop_keeps y bs (i + 1) r

theorem multiplyByInt_keeps (x : BigInt) (y : Int) : Keeps (multiplyByInt x y) (multiplyByIntR x y) :=
  (Keeps.refl _).bind fun r => mulByIntLoop_keeps y x.bins 0 r

theorem multiplyLoop_keeps (x : BigInt) : ∀ (l : List Int) (i : Nat) (r : BigInt), Keeps (multiplyLoop x l i r) (multiplyLoopR x l i r)
  | [], _, _ => Keeps.refl _
  | _ :: bs, i, _ => (multiplyByInt_keeps _ _).bind fun _ => (addAssign_keeps _ _).outcome.bind fun r =>
      multiplyLoop_keeps x bs (i + 1) r

theorem multiply_keeps (x y : BigInt) : Keeps (multiply x y) (multiplyR x y) :=
  (Keeps.refl _).bind fun r => multiplyLoop_keeps x y.bins 0 r

theorem opMul_keeps (x y : BigInt) : Keeps (opMul x y) (opMulR x y) :=
  (Keeps.ite (multiply_keeps _ _) (multiply_keeps _ _)).bind fun _ => Keeps.refl _

theorem mulAssign_keeps (x y : BigInt) : Keeps (mulAssign x y) (mulAssignU x y) :=
  (multiply_keeps _ _).keeping.bind fun _ => Keeps.ok

theorem iterQuotientLoop_keeps (y x : BigInt) (step : Int) : ∀ (f : Nat) (b : Int),
    Keeps (iterQuotientLoop y x step f b) (iterQuotientLoopR y x step f b)
  | 0, _ => Keeps.refl _
  | f + 1, _ => (Keeps.refl _).bind fun _ => (multiplyByInt_keeps _ _).bind fun _ => (opSub_keeps _ _).bind fun _ =>
      Keeps.ite (Keeps.refl _) ((Keeps.refl _).bind fun _ => Keeps.ite (iterQuotientLoop_keeps y x step f _) (Keeps.refl _))

theorem qrLoop_keeps (y x : BigInt) : ∀ (f : Nat) (step q : Int) (r : BigInt), Keeps (qrLoop y x f step q r) (qrLoopR y x f step q r)
  | 0, _, _, _ => Keeps.refl _
  | f + 1, _, _, _ => Keeps.ite ((iterQuotientLoop_keeps _ _ _ _ _).bind fun _ => qrLoop_keeps y x f _ _ _) (Keeps.refl _)

theorem quotientAndRemainder_keeps (y x r : BigInt) : Keeps (quotientAndRemainder y x r) (quotientAndRemainderR y x r) :=
  Keeps.drop fun _ => Keeps.drop fun _ => Keeps.drop fun _ => Keeps.drop fun _ => Keeps.drop fun _ =>
    (qrLoop_keeps y x _ _ _ _).bind fun _ => Keeps.refl _

theorem divideLoop_keeps (xn : BigInt) : ∀ (i : Nat) (bins : List Int) (cur r : BigInt),
    Keeps (divideLoop xn i bins cur r) (divideLoopU xn i bins cur r)
  | 0, _, _, _ => Keeps.ok
  | i + 1, _, _, _ => Keeps.drop fun _ => Keeps.drop fun _ => Keeps.keep.bind fun _ => Keeps.keep.bind fun _ =>
      Keeps.keep.bind fun _ => Keeps.ite
        ((quotientAndRemainder_keeps _ _ _).keeping.bind fun _ => Keeps.drop fun _ => divideLoop_keeps xn i _ _ _)
        (divideLoop_keeps xn i _ _ _)

theorem divide_keeps (a x : BigInt) : Keeps (divide a x) (divideU a x) := by
  unfold divide divideU
  refine Keeps.keep.bind fun _ => Keeps.ite Keeps.fail (Keeps.keep.bind fun _ => Keeps.ite Keeps.keep (Keeps.keep.bind fun xn => ?_))
  intro v hv
  cases hr : divideLoop xn a.bins.length a.bins default default with
  | error e => rw [hr] at hv; cases hv
  | ok r => rw [hr] at hv; cases hv; rw [divideLoop_keeps _ _ _ _ _ r hr]

theorem opDiv_keeps (x y : BigInt) : Keeps (opDiv x y) (opDivR x y) := (divide_keeps _ _).outcome
theorem divAssign_keeps (x y : BigInt) : Keeps (divAssign x y) (divAssignU x y) := divide_keeps _ _

theorem modulo_keeps (x y : BigInt) : Keeps (modulo x y) (moduloR x y) :=
  (Keeps.refl _).bind fun _ => (Keeps.refl _).bind fun _ => (opDiv_keeps _ _).bind fun _ => (opMul_keeps _ _).bind fun _ =>
    (opSub_keeps _ _).bind fun _ => (Keeps.refl _).bind fun _ => Keeps.ite (Keeps.refl _) (Keeps.ite (Keeps.refl _)
      (Keeps.ite (addAssign_keeps _ _).outcome (Keeps.ite (opSub_keeps _ _) (Keeps.refl _))))

theorem exponentiateF_keeps (x : BigInt) : ∀ (f : Nat) (y : BigInt), Keeps (exponentiateF f x y) (exponentiateFR f x y)
  | 0, _ => Keeps.refl _
  | f + 1, _ => (Keeps.refl _).bind fun _ => Keeps.ite (Keeps.refl _) ((Keeps.refl _).bind fun _ => Keeps.ite (Keeps.refl _)
      ((Keeps.refl _).bind fun _ => Keeps.ite
        ((Keeps.refl _).bind fun _ => (opSub_keeps _ _).bind fun _ => (exponentiateF_keeps x f _).bind fun _ => opMul_keeps _ _)
        ((Keeps.refl _).bind fun _ => (exponentiateF_keeps x f _).bind fun _ => opMul_keeps _ _)))

theorem exponentiate_keeps (x y : BigInt) : Keeps (exponentiate x y) (exponentiateR x y) := exponentiateF_keeps _ _ _

theorem mulTenLoop_keeps : ∀ (n : Nat) (a : BigInt), Keeps (mulTenLoop n a) (mulTenLoopU n a)
  | 0, _ => Keeps.ok
  | n + 1, _ => Keeps.keep.bind fun _ => (mulAssign_keeps _ _).bind fun a => mulTenLoop_keeps n a

theorem divTenLoop_keeps : ∀ (n : Nat) (a : BigInt), Keeps (divTenLoop n a) (divTenLoopU n a)
  | 0, _ => Keeps.ok
  | n + 1, _ => Keeps.keep.bind fun _ => (divAssign_keeps _ _).bind fun a => divTenLoop_keeps n a

theorem timesPowerTen_keeps (a : BigInt) (p : Int) : Keeps (timesPowerTen a p) (timesPowerTenU a p) :=
  Keeps.ite ((mulTenLoop_keeps _ _).bind fun _ => Keeps.ok)
    (Keeps.ite (Keeps.keep.bind fun _ => Keeps.ite Keeps.keep (divTenLoop_keeps _ _)) Keeps.ok)

/-! ### Subtraction -/

@[simp] theorem outcome_ok {σ α : Type} (v : α) : outcome (.ok v : Except (Err × σ) α) = .ok v := rfl
@[simp] theorem outcome_error {σ α : Type} (e : Err) (s : σ) : outcome (.error (e, s) : Except (Err × σ) α) = .error e := rfl
@[simp] theorem keeping_ok {σ α : Type} (s : σ) (v : α) : keeping s (.ok v) = .ok v := rfl
@[simp] theorem keeping_error {σ α : Type} (s : σ) (e : Err) : keeping s (.error e : Res α) = .error (e, s) := rfl
@[simp] theorem bindU_ok {σ α β : Type} (a : α) (f : α → Except (Err × σ) β) : ((Except.ok a : Except (Err × σ) α) >>= f) = f a := rfl
@[simp] theorem bindU_err {σ α β : Type} (e : Err × σ) (f : α → Except (Err × σ) β) :
    ((Except.error e : Except (Err × σ) α) >>= f) = Except.error e := rfl

theorem subLoopU_ok {l xs : List Int} (hl : BinsOK l) (hx : BinsOK xs) (hlen : xs.length ≤ l.length) (hm : mag xs ≤ mag l) :
    ∃ r, subLoopU l xs 0 = .ok r ∧ BinsOK r ∧ r.length = l.length ∧ mag r = mag l - mag xs := by
  obtain ⟨r, w, hr, hok, hrl, hw, hm'⟩ := subLoop_spec (w := 0) hl hx hlen (.inl rfl)
  have := mag_lt hok
  rw [hrl] at this
  have hw0 : w = 0 := by
    rcases hw with hw | hw
    · exact hw
    · subst hw; omega
  exact ⟨r, subLoop_keeps _ _ _ r hr, hok, hrl, by rw [hm', hw0]; ring⟩

/-- When the subtrahend has more bins, the loop runs through all bins of the minuend and then throws. -/
theorem subLoopU_throws : ∀ {l xs : List Int} {w : Int}, BinsOK l → BinsOK xs → l.length < xs.length → (w = 0 ∨ w = 1) →
    ∃ r w', subLoopU l xs w = .error (.outOfRange, r) ∧ BinsOK r ∧ r.length = l.length ∧ (w' = 0 ∨ w' = 1) ∧
      mag r = mag l - mag (xs.take l.length) - w + w' * B ^ l.length := by
  intro l
  induction l with
  | nil =>
    intro xs w _ _ hlen hw
    cases xs with
    | nil => simp at hlen
    | cons x xs => exact ⟨[], w, rfl, by simp, rfl, hw, by simp⟩
  | cons b bs ih =>
    intro xs w hl hx hlen hw
    cases xs with
    | nil => simp at hlen
    | cons x xs =>
      rw [BinsOK_cons] at hl hx
      by_cases hneg : b - w - x < 0
      · obtain ⟨r, w', hr, hok, hlen', hw', hm⟩ := ih (w := 1) hl.2 hx.2 (by simpa using hlen) (.inr rfl)
        refine ⟨(b - w - x + 1000000000) :: r, w', ?_, ?_, by simp [hlen'], hw', ?_⟩
        · simp only [subLoopU, i32_ok (z := b - w) (by omega) (by omega), bindU_ok, keeping_ok,
            i32_ok (z := b - w - x) (by omega) (by omega), hneg, if_true,
            i32_ok (z := b - w - x + 1000000000) (by omega) (by omega), hr, behind]
        · rw [BinsOK_cons]; exact ⟨by omega, hok⟩
        · simp only [mag_cons, List.length_cons, List.take_succ_cons, pow_succ, hm]; ring
      · obtain ⟨r, w', hr, hok, hlen', hw', hm⟩ := ih (w := 0) hl.2 hx.2 (by simpa using hlen) (.inl rfl)
        refine ⟨(b - w - x) :: r, w', ?_, ?_, by simp [hlen'], hw', ?_⟩
        · simp only [subLoopU, i32_ok (z := b - w) (by omega) (by omega), bindU_ok, keeping_ok,
            i32_ok (z := b - w - x) (by omega) (by omega), hneg, if_false, hr, behind]
        · rw [BinsOK_cons]; exact ⟨by omega, hok⟩
        · simp only [mag_cons, List.length_cons, List.take_succ_cons, pow_succ, hm]; ring

theorem mag_take_of_lt {l : List Int} (h : BinsOK l) {n : Nat} (hn : n ≤ l.length) (hm : mag l < B ^ n) : mag (l.take n) = mag l := by
  have hs := List.take_append_drop n l
  have e : mag l = mag (l.take n) + B ^ n * mag (l.drop n) := by
    conv_lhs => rw [← hs]
    rw [mag_append, List.length_take, min_eq_left hn]
  have h1 : BinsOK (l.take n) := fun b hb => h b (List.mem_of_mem_take hb)
  have h2 := mag_nonneg (BinsOK_drop h n)
  have h0 := mag_nonneg h1
  have hz : mag (l.drop n) = 0 := by
    by_contra hc
    have : 1 ≤ mag (l.drop n) := by omega
    have hp := B_pow_pos n
    nlinarith
  rw [e, hz]; ring

/-- `Int::subtract` without its assertions, for magnitudes that it can subtract. -/
theorem subtractU_spec {a x : BigInt} (ha : WF a) (hx : WF x) (hge : mag x.bins ≤ mag a.bins) :
    (x.bins.length ≤ a.bins.length → ∃ r, subtractU a x = .ok r ∧ Clean r ∧ r.negative = a.negative ∧
      mag r.bins = mag a.bins - mag x.bins) ∧
    (a.bins.length < x.bins.length → ∃ s, subtractU a x = .error (.outOfRange, s) ∧ WF s ∧ s.negative = a.negative ∧
      mag s.bins = mag a.bins - mag x.bins) := by
  have hpos := ha.pos_length
  constructor
  · intro hlen
    obtain ⟨r, h1, h2, h3, h4⟩ := subLoopU_ok ha.2 hx.2 hlen hge
    refine ⟨{ a with bins := cleanBins r }, by rw [subtractU, h1], ⟨⟨cleanBins_ne (List.ne_nil_of_length_pos (by omega)), cleanBins_ok h2⟩,
      cleanBins_noLead r⟩, rfl, by simp [h4]⟩
  · intro hlen
    obtain ⟨r, w, h1, h2, h3, h4, h5⟩ := subLoopU_throws (w := 0) ha.2 hx.2 hlen (.inl rfl)
    rw [mag_take_of_lt hx.2 hlen.le (lt_of_le_of_lt hge (mag_lt ha.2))] at h5
    have hlt := mag_lt h2
    rw [h3] at hlt
    have hw0 : w = 0 := by
      rcases h4 with hw | hw
      · exact hw
      · subst hw; omega
    refine ⟨{ a with bins := r }, by rw [subtractU, h1], ⟨List.ne_nil_of_length_pos (by dsimp only; omega), h2⟩, rfl, ?_⟩
    rw [h5, hw0]; ring

theorem padded_iff {x y : BigInt} (hx : WF x) (hy : WF y) : Padded y x ↔ (cleanBins x.bins).length < y.bins.length := by
  have hpos := List.length_pos_of_ne_nil (cleanBins_ne hx.1)
  have hok := cleanBins_ok hx.2
  unfold Padded
  rw [abs_val hx, ← mag_cleanBins x.bins]
  constructor
  · rintro ⟨h1, h2⟩
    have := noLead_length_le hok (cleanBins_noLead _) (k := y.bins.length - 1) (by omega) h2
    omega
  · intro h
    refine ⟨by omega, lt_of_lt_of_le (mag_lt hok) (pow_le_pow_right₀ (by norm_num) (by omega))⟩

theorem Padded.congr {x x' y y' : BigInt} (hx : |x'.val| = |x.val|) (by' : y'.bins = y.bins) : Padded y' x' ↔ Padded y x := by
  unfold Padded; rw [hx, by']

theorem SubThrows.congr {x x' y y' : BigInt} (hx : |x'.val| = |x.val|) (bx : x'.bins = x.bins) (hy : |y'.val| = |y.val|)
    (by' : y'.bins = y.bins) : SubThrows x' y' ↔ SubThrows x y := by
  unfold SubThrows; rw [hx, hy, Padded.congr hx by', Padded.congr hy bx]

theorem SubAssignThrows.congr {x x' y y' : BigInt} (hx : |x'.val| = |x.val|) (bx : x'.bins = x.bins) (hy : |y'.val| = |y.val|)
    (by' : y'.bins = y.bins) : SubAssignThrows x' y' ↔ SubAssignThrows x y := by
  unfold SubAssignThrows; rw [hx, hy, bx, by']

theorem subNonnegR_spec {x y : BigInt} (hx : WF x) (hy : WF y) (sx : x.negative = false) (sy : y.negative = false) :
    (SubThrows x y → subNonnegR x y = .error .outOfRange) ∧
    (¬SubThrows x y → ∃ r, subNonnegR x y = .ok r ∧ Canon r ∧ r.val = x.val - y.val) := by
  have vx := val_of_not_neg sx
  have vy := val_of_not_neg sy
  have ax := abs_val hx
  have ay := abs_val hy
  unfold SubThrows subNonnegR
  rw [padded_iff hx hy, padded_iff hy hx, gt_spec hx hy]
  by_cases h : x.val > y.val
  · have hc := cleaned hx
    obtain ⟨k1, k2⟩ := subtractU_spec hc.1 hy (by dsimp only; rw [mag_cleanBins]; omega)
    dsimp only at k1 k2
    constructor
    · intro ht
      have hlen : (cleanBins x.bins).length < y.bins.length := by
        rcases ht with ht | ht
        · exact ht.2
        · omega
      obtain ⟨s, s1, _⟩ := k2 hlen
      simp [h, s1]
    · intro ht
      push Not at ht
      obtain ⟨r, r1, r2, r3, r4⟩ := k1 (ht.1 (by omega))
      rw [sx] at r3
      refine ⟨r, by simp [h, r1], r2.canon_of_not_neg r3, ?_⟩
      rw [val_of_not_neg r3, r4, vx, vy, mag_cleanBins]
  · have hc := cleaned hy
    obtain ⟨k1, k2⟩ := subtractU_spec hc.1 hx (by dsimp only; rw [mag_cleanBins]; omega)
    dsimp only at k1 k2
    constructor
    · intro ht
      have hlen : (cleanBins y.bins).length < x.bins.length := by
        rcases ht with ht | ht
        · omega
        · exact ht.2
      obtain ⟨s, s1, _⟩ := k2 hlen
      simp [h, s1]
    · intro ht
      push Not at ht
      obtain ⟨r, r1, r2, r3, r4⟩ := k1 (ht.2 (by omega))
      rw [sy] at r3
      obtain ⟨s, m1, m2, _, m4, _⟩ := neg_canon r2
      refine ⟨s, by simp [h, r1, m1], m2, ?_⟩
      rw [m4, val_of_not_neg r3, r4, vx, vy, mag_cleanBins]; ring

/-- `operator-` without assertions: the exact outcome for all well-formed operands. -/
theorem opSubR_spec {x y : BigInt} (hx : WF x) (hy : WF y) :
    (x.negative = y.negative ∧ SubThrows x y → opSubR x y = .error .outOfRange) ∧
    (¬(x.negative = y.negative ∧ SubThrows x y) → ∃ r, opSubR x y = .ok r ∧ WF r ∧ r.val = x.val - y.val) := by
  obtain ⟨nx, x1, x2, x3, x4, _, x5⟩ := neg_ok hx
  obtain ⟨ny, y1, y2, y3, y4, _, y5⟩ := neg_ok hy
  have ax : |nx.val| = |x.val| := by rw [x4, abs_neg]
  have ay : |ny.val| = |y.val| := by rw [y4, abs_neg]
  unfold opSubR
  cases sx : x.negative <;> cases sy : y.negative
  · obtain ⟨k1, k2⟩ := subNonnegR_spec hx hy sx sy
    refine ⟨fun h => by simpa using k1 h.2, fun h => ?_⟩
    obtain ⟨r, r1, r2, r3⟩ := k2 (fun hh => h ⟨rfl, hh⟩)
    exact ⟨r, by simpa using r1, r2.1, r3⟩
  · refine ⟨fun h => absurd h.1 (by decide), fun _ => ?_⟩
    obtain ⟨r, r1, r2, _, r3⟩ := addNonneg_wf hx y2 sx (y5 sy)
    exact ⟨r, by simp [y1, r1], r2, by rw [r3, y4]; ring⟩
  · refine ⟨fun h => absurd h.1 (by decide), fun _ => ?_⟩
    obtain ⟨r, r1, r2, _, r3⟩ := addNonneg_wf x2 hy (x5 sx) sy
    obtain ⟨s, s1, s2, _, s4, _⟩ := neg_ok r2
    exact ⟨s, by simp [x1, r1, s1], s2, by rw [s4, r3, x4]; ring⟩
  · obtain ⟨k1, k2⟩ := subNonnegR_spec x2 y2 (x5 sx) (y5 sy)
    rw [SubThrows.congr ax x3 ay y3] at k1 k2
    refine ⟨fun h => by simp [x1, y1, k1 h.2], fun h => ?_⟩
    obtain ⟨r, r1, r2, r3⟩ := k2 (fun hh => h ⟨rfl, hh⟩)
    obtain ⟨s, s1, s2, _, s4, _⟩ := neg_ok r2.1
    exact ⟨s, by simp [x1, y1, r1, s1], s2, by rw [s4, r3, x4, y4]; ring⟩

/-- `operator+` without assertions: the exact outcome for all well-formed operands. -/
theorem opAddR_spec {x y : BigInt} (hx : WF x) (hy : WF y) :
    (x.negative ≠ y.negative ∧ SubThrows x y → opAddR x y = .error .outOfRange) ∧
    (¬(x.negative ≠ y.negative ∧ SubThrows x y) → ∃ r, opAddR x y = .ok r ∧ WF r ∧ r.val = x.val + y.val) := by
  obtain ⟨nx, x1, x2, x3, x4, _, x5⟩ := neg_ok hx
  obtain ⟨ny, y1, y2, y3, y4, _, y5⟩ := neg_ok hy
  have ax : |nx.val| = |x.val| := by rw [x4, abs_neg]
  have ay : |ny.val| = |y.val| := by rw [y4, abs_neg]
  unfold opAddR
  cases sx : x.negative <;> cases sy : y.negative
  · refine ⟨fun h => absurd rfl h.1, fun _ => ?_⟩
    obtain ⟨r, r1, r2, _, r3⟩ := addNonneg_wf hx hy sx sy
    exact ⟨r, by simp [r1], r2, r3⟩
  · obtain ⟨k1, k2⟩ := subNonnegR_spec hx y2 sx (y5 sy)
    rw [SubThrows.congr rfl rfl ay y3] at k1 k2
    refine ⟨fun h => by simp [y1, k1 h.2], fun h => ?_⟩
    obtain ⟨r, r1, r2, r3⟩ := k2 (fun hh => h ⟨by decide, hh⟩)
    exact ⟨r, by simp [y1, r1], r2.1, by rw [r3, y4]; ring⟩
  · obtain ⟨k1, k2⟩ := subNonnegR_spec x2 hy (x5 sx) sy
    rw [SubThrows.congr ax x3 rfl rfl] at k1 k2
    refine ⟨fun h => by simp [x1, k1 h.2], fun h => ?_⟩
    obtain ⟨r, r1, r2, r3⟩ := k2 (fun hh => h ⟨by decide, hh⟩)
    obtain ⟨s, s1, s2, _, s4, _⟩ := neg_ok r2.1
    exact ⟨s, by simp [x1, r1, s1], s2, by rw [s4, r3, x4]; ring⟩
  · refine ⟨fun h => absurd rfl h.1, fun _ => ?_⟩
    obtain ⟨r, r1, r2, _, r3⟩ := addNonneg_wf x2 y2 (x5 sx) (y5 sy)
    obtain ⟨s, s1, s2, _, s4, _⟩ := neg_ok r2
    exact ⟨s, by simp [x1, y1, r1, s1], s2, by rw [s4, r3, x4, y4]; ring⟩

/-- What `x -= y` leaves in `x` when it throws. -/
def subLeft (x y : Int) : Int := if |y| < |x| then |x| - |y| else |x|

theorem subAssignNonnegU_spec {x y : BigInt} (hx : WF x) (hy : WF y) (sx : x.negative = false) (sy : y.negative = false) :
    (SubAssignThrows x y → ∃ s, subAssignNonnegU x y = .error (.outOfRange, s) ∧ WF s ∧ s.val = subLeft x.val y.val) ∧
    (¬SubAssignThrows x y → ∃ r, subAssignNonnegU x y = .ok r ∧ Canon r ∧ r.val = x.val - y.val) := by
  have vx := val_of_not_neg sx
  have vy := val_of_not_neg sy
  have ax := abs_val hx
  have ay := abs_val hy
  unfold SubAssignThrows subAssignNonnegU subLeft
  rw [gt_spec hx hy]
  by_cases h : x.val > y.val
  · obtain ⟨k1, k2⟩ := subtractU_spec hx hy (by omega)
    constructor
    · intro ht
      have hlen : x.bins.length < y.bins.length := by
        rcases ht with ht | ht
        · exact ht.2
        · omega
      obtain ⟨s, s1, s2, s3, s4⟩ := k2 hlen
      rw [sx] at s3
      exact ⟨s, by simp [h, s1], s2, by rw [if_pos (by omega), val_of_not_neg s3, s4, ax, ay]⟩
    · intro ht
      push Not at ht
      obtain ⟨r, r1, r2, r3, r4⟩ := k1 (ht.1 (by omega))
      rw [sx] at r3
      refine ⟨r, by simp [h, r1], r2.canon_of_not_neg r3, ?_⟩
      rw [val_of_not_neg r3, r4, vx, vy]
  · obtain ⟨k1, k2⟩ := subtractU_spec hy hx (by omega)
    constructor
    · intro ht
      have hlen : y.bins.length < x.bins.length := by
        rcases ht with ht | ht
        · omega
        · exact ht.2
      obtain ⟨s, s1, _⟩ := k2 hlen
      exact ⟨x, by simp [h, s1], hx, by rw [if_neg (by omega), ax, vx]⟩
    · intro ht
      push Not at ht
      obtain ⟨r, r1, r2, r3, r4⟩ := k1 (ht.2 (by omega))
      rw [sy] at r3
      obtain ⟨s, m1, m2, _, m4, _⟩ := negate_canon r2
      refine ⟨s, by simp [h, r1, m1], m2, ?_⟩
      rw [m4, val_of_not_neg r3, r4, vx, vy]; ring

theorem addAssignNonnegU_spec {x y : BigInt} (hx : WF x) (hy : WF y) (sx : x.negative = false) (sy : y.negative = false) :
    ∃ r, addAssignNonnegU x y = .ok r ∧ WF r ∧ r.val = x.val + y.val := by
  have e : ofShift y 0 = y := by simp [ofShift]
  unfold addAssignNonnegU addAssignNonneg
  rw [e]
  obtain ⟨r, h1, h2, h3, h4, _⟩ := add_ok hx hy
  rw [sx] at h3
  exact ⟨r, by rw [h1]; rfl, h2, by rw [val_of_not_neg h3, val_of_not_neg sx, val_of_not_neg sy, h4]⟩

theorem subLeft_congr {x x' y y' : Int} (hx : |x'| = |x|) (hy : |y'| = |y|) : subLeft x' y' = subLeft x y := by
  unfold subLeft; rw [hx, hy]

/-- `-=` without assertions: the exact outcome for all well-formed operands, and what a throw leaves behind. -/
theorem subAssignU_spec {x y : BigInt} (hx : WF x) (hy : WF y) :
    (x.negative = y.negative ∧ SubAssignThrows x y →
      ∃ s, subAssignU x y = .error (.outOfRange, s) ∧ WF s ∧ s.val = subLeft x.val y.val) ∧
    (¬(x.negative = y.negative ∧ SubAssignThrows x y) → ∃ r, subAssignU x y = .ok r ∧ WF r ∧ r.val = x.val - y.val) := by
  obtain ⟨nx, x1, x2, x3, x4, _, x5⟩ := negate_ok hx
  obtain ⟨ny, y1, y2, y3, y4, _, y5⟩ := neg_ok hy
  have ax : |nx.val| = |x.val| := by rw [x4, abs_neg]
  have ay : |ny.val| = |y.val| := by rw [y4, abs_neg]
  unfold subAssignU
  cases sx : x.negative <;> cases sy : y.negative
  · obtain ⟨k1, k2⟩ := subAssignNonnegU_spec hx hy sx sy
    refine ⟨fun h => by simpa using k1 h.2, fun h => ?_⟩
    obtain ⟨r, r1, r2, r3⟩ := k2 (fun hh => h ⟨rfl, hh⟩)
    exact ⟨r, by simpa using r1, r2.1, r3⟩
  · refine ⟨fun h => absurd h.1 (by decide), fun _ => ?_⟩
    obtain ⟨r, r1, r2, r3⟩ := addAssignNonnegU_spec hx y2 sx (y5 sy)
    exact ⟨r, by simp [y1, r1], r2, by rw [r3, y4]; ring⟩
  · refine ⟨fun h => absurd h.1 (by decide), fun _ => ?_⟩
    obtain ⟨r, r1, r2, r3⟩ := addAssignNonnegU_spec x2 hy (x5 sx) sy
    obtain ⟨s, s1, s2, _, s4, _⟩ := negate_ok r2
    exact ⟨s, by simp [x1, r1, s1], s2, by rw [s4, r3, x4]; ring⟩
  · obtain ⟨k1, k2⟩ := subAssignNonnegU_spec x2 y2 (x5 sx) (y5 sy)
    rw [SubAssignThrows.congr ax x3 ay y3] at k1 k2
    rw [subLeft_congr ax ay] at k1
    refine ⟨fun h => ?_, fun h => ?_⟩
    · obtain ⟨s, s1, s2⟩ := k1 h.2
      exact ⟨s, by simp [x1, y1, s1], s2⟩
    obtain ⟨r, r1, r2, r3⟩ := k2 (fun hh => h ⟨rfl, hh⟩)
    obtain ⟨s, s1, s2, _, s4, _⟩ := negate_ok r2.1
    exact ⟨s, by simp [x1, y1, r1, s1], s2, by rw [s4, r3, x4, y4]; ring⟩

/-- `+=` without assertions: the exact outcome for all well-formed operands, and what a throw leaves behind. -/
theorem addAssignU_spec {x y : BigInt} (hx : WF x) (hy : WF y) :
    (x.negative ≠ y.negative ∧ SubAssignThrows x y →
      ∃ s, addAssignU x y = .error (.outOfRange, s) ∧ WF s ∧ s.val = subLeft x.val y.val) ∧
    (¬(x.negative ≠ y.negative ∧ SubAssignThrows x y) → ∃ r, addAssignU x y = .ok r ∧ WF r ∧ r.val = x.val + y.val) := by
  obtain ⟨nx, x1, x2, x3, x4, _, x5⟩ := negate_ok hx
  obtain ⟨ny, y1, y2, y3, y4, _, y5⟩ := neg_ok hy
  have ax : |nx.val| = |x.val| := by rw [x4, abs_neg]
  have ay : |ny.val| = |y.val| := by rw [y4, abs_neg]
  unfold addAssignU
  cases sx : x.negative <;> cases sy : y.negative
  · refine ⟨fun h => absurd rfl h.1, fun _ => ?_⟩
    obtain ⟨r, r1, r2, r3⟩ := addAssignNonnegU_spec hx hy sx sy
    exact ⟨r, by simp [r1], r2, r3⟩
  · obtain ⟨k1, k2⟩ := subAssignNonnegU_spec hx y2 sx (y5 sy)
    rw [SubAssignThrows.congr rfl rfl ay y3] at k1 k2
    rw [subLeft_congr rfl ay] at k1
    refine ⟨fun h => ?_, fun h => ?_⟩
    · obtain ⟨s, s1, s2⟩ := k1 h.2
      exact ⟨s, by simp [y1, s1], s2⟩
    obtain ⟨r, r1, r2, r3⟩ := k2 (fun hh => h ⟨by decide, hh⟩)
    exact ⟨r, by simp [y1, r1], r2.1, by rw [r3, y4]; ring⟩
  · obtain ⟨k1, k2⟩ := subAssignNonnegU_spec x2 hy (x5 sx) sy
    rw [SubAssignThrows.congr ax x3 rfl rfl] at k1 k2
    rw [subLeft_congr ax rfl] at k1
    refine ⟨fun h => ?_, fun h => ?_⟩
    · obtain ⟨s, s1, s2⟩ := k1 h.2
      exact ⟨s, by simp [x1, s1], s2⟩
    obtain ⟨r, r1, r2, r3⟩ := k2 (fun hh => h ⟨by decide, hh⟩)
    obtain ⟨s, s1, s2, _, s4, _⟩ := negate_ok r2.1
    exact ⟨s, by simp [x1, r1, s1], s2, by rw [s4, r3, x4]; ring⟩
  · refine ⟨fun h => absurd rfl h.1, fun _ => ?_⟩
    obtain ⟨r, r1, r2, r3⟩ := addAssignNonnegU_spec x2 y2 (x5 sx) (y5 sy)
    obtain ⟨s, s1, s2, _, s4, _⟩ := negate_ok r2
    exact ⟨s, by simp [x1, y1, r1, s1], s2, by rw [s4, r3, x4, y4]; ring⟩

/-! ### Division -/

theorem quotientAndRemainderR_ok {y x r0 : BigInt} (hy : Clean y) (hx : WF x) (sy : y.negative = false)
    (sx : x.negative = false) (hle : mag x.bins ≤ mag y.bins) (hlt : mag y.bins < 1000000000 * mag x.bins) :
    ∃ r, quotientAndRemainderR y x r0 = .ok (mag y.bins / mag x.bins, r) ∧ Canon r ∧ r.negative = false ∧
      r.val = mag y.bins % mag x.bins := by
  obtain ⟨r, r1, r2⟩ := quotientAndRemainder_ok (r0 := r0) hy hx sy sx hle hlt
  exact ⟨r, quotientAndRemainder_keeps _ _ _ _ r1, r2⟩

/-- One round of `divide` without assertions. -/
theorem divideLoopU_step {xn : BigInt} (hx : WF xn) (sx : xn.negative = false)
    {l : List Int} {t rem : Int} {cur r : BigInt} (hc : CurOK cur rem) (h0 : 0 ≤ rem)
    (ht0 : 0 ≤ t) (ht1 : t < 1000000000) (hz : (1000000000 * rem + t) / mag xn.bins = 0) (hX : 0 < mag xn.bins) :
    ∃ cur' r', CurOK cur' ((1000000000 * rem + t) % mag xn.bins) ∧
      divideLoopU xn (l.length + 1) (l ++ [t]) cur r = divideLoopU xn l.length (cleanBins (l ++ [0])) cur' r' := by
  obtain ⟨c1, c2, c3, z, c4⟩ := hc.set ht0 ht1
  have hgt : 1000000000 * rem + t < mag xn.bins := by
    by_contra hge
    have : 1 ≤ (1000000000 * rem + t) / mag xn.bins := Int.le_ediv_of_mul_le hX (by omega)
    omega
  have hcmp : ¬cmpInts (mag xn.bins) (1000000000 * rem + t) ≤ 0 := by
    rw [cmpInts_gt (by omega)]; decide
  have hr0 : (1000000000 * rem + t) % mag xn.bins = 1000000000 * rem + t := Int.emod_eq_of_lt (by omega) (by omega)
  have hat : atR (l ++ [t]) l.length = .ok t := by simpa using atR_snoc (l := l) (t := t) (qs := [])
  have hset : (l ++ [t]).set l.length 0 = l ++ [0] := by simpa using set_snoc (l := l) (t := t) (q := 0) (qs := [])
  refine ⟨{ cur with bins := cleanBins (0 :: cur.bins.set 0 t) }, r, ?_, ?_⟩
  · rw [hr0, ← c2]
    exact CurOK.shift (cur := { cur with bins := cur.bins.set 0 t }) c1 hc.sign
  · conv_lhs => unfold divideLoopU
    simp only [hat, keeping_ok, bindU_ok, c4, hset]
    rw [cmpBins_spec hx.2 c1.1.2]
    dsimp only
    rw [c2]
    simp only [keeping_ok, bindU_ok, hcmp, if_false]

/-- The condition of `Trips` at the bin with index `k`. -/
def TripsAt (l : List Int) (rem X : Int) (k : Nat) : Prop :=
  1 ≤ k ∧ k + 1 < l.length ∧ l[k]? = some 0 ∧ (B ^ l.length * rem + mag l) / X < B ^ (k + 1)

/-- Where the build with assertions aborts, the one without them throws and leaves only the bins below the one it missed. -/
theorem divideLoopU_trips {xn : BigInt} (hx : WF xn) (sx : xn.negative = false) (hX : 0 < mag xn.bins) (n : Nat) :
    ∀ {l : List Int} {rem : Int} {cur r : BigInt}, l.length = n → BinsOK l → CurOK cur rem → 0 ≤ rem →
      rem < mag xn.bins → 1 ≤ (B ^ l.length * rem + mag l) / mag xn.bins → Trips l rem (mag xn.bins) →
      ∃ k bins, TripsAt l rem (mag xn.bins) k ∧ (∀ j, k < j → ¬TripsAt l rem (mag xn.bins) j) ∧
        divideLoopU xn l.length l cur r = .error (.outOfRange, bins) ∧ BinsOK bins ∧ bins ≠ [] ∧ mag bins = mag (l.take k) := by
  induction n with
  | zero =>
    intro l rem cur r hl hlok hc h0 h1 hQ
    rw [List.length_eq_zero_iff] at hl; subst hl
    simp [Int.ediv_eq_zero_of_lt h0 h1] at hQ
  | succ n ih =>
    intro l rem cur r hl hlok hc h0 h1 hQ htr
    rcases eq_nil_or_snoc l with rfl | ⟨l', t, rfl⟩
    · simp at hl
    have hl' : l'.length = n := by simpa using hl
    rw [BinsOK_append] at hlok
    have ht := hlok.2 t (by simp)
    have m0 := mag_nonneg hlok.1
    have m1 := mag_lt hlok.1
    obtain ⟨g1, g2, g3⟩ := digit_split (rem := rem) (t := t) hX (B_pow_pos l'.length) m0 m1
    have hP := B_pow_pos l'.length
    have d0 : 0 ≤ (1000000000 * rem + t) / mag xn.bins := Int.ediv_nonneg (by omega) hX.le
    have s0 := Int.emod_nonneg (1000000000 * rem + t) hX.ne'
    have s1 := Int.emod_lt_of_pos (1000000000 * rem + t) hX
    have hQs : (B ^ (l' ++ [t]).length * rem + mag (l' ++ [t])) / mag xn.bins =
        B ^ l'.length * ((1000000000 * rem + t) / mag xn.bins) +
        (B ^ l'.length * ((1000000000 * rem + t) % mag xn.bins) + mag l') / mag xn.bins := by
      rw [mag_append, List.length_append, List.length_singleton, pow_succ]
      simp only [mag_cons, mag_nil, mul_zero, add_zero]
      exact g1
    unfold TripsAt
    unfold Trips at htr
    rw [hQs] at hQ htr ⊢
    have hz : (1000000000 * rem + t) / mag xn.bins = 0 := by
      by_contra hz
      have hd1 : 1 ≤ (1000000000 * rem + t) / mag xn.bins := by omega
      obtain ⟨j, j1, j2, j3, j4⟩ := htr
      rw [List.length_append, List.length_singleton] at j2
      have : (B ^ (j + 1) : Int) ≤ B ^ l'.length := pow_le_pow_right₀ (by norm_num) (by omega)
      nlinarith
    obtain ⟨cur', r', hc', hstep⟩ := divideLoopU_step (l := l') (r := r) hx sx hc h0 ht.1 ht.2 hz hX
    rw [hz, mul_zero, zero_add] at hQ htr ⊢
    rw [List.length_append, List.length_singleton] at htr ⊢
    rw [hstep]
    have hne : l' ≠ [] := by
      rintro rfl
      simp [Int.ediv_eq_zero_of_lt s0 s1] at hQ
    rw [cleanBins_snoc_zero hne]
    rcases eq_nil_or_snoc l' with rfl | ⟨l2, u, rfl⟩
    · exact absurd rfl hne
    have hget : ∀ j, j < (l2 ++ [u]).length → (l2 ++ [u] ++ [t])[j]? = (l2 ++ [u])[j]? := fun j hj =>
      List.getElem?_append_left hj
    by_cases hu : l2 ≠ [] ∧ u = 0
    · obtain ⟨hl2, rfl⟩ := hu
      have hl2' := List.length_pos_of_ne_nil hl2
      rw [cleanBins_snoc_zero hl2]
      refine ⟨l2.length, cleanBins l2, ⟨hl2', by simp, ?_, by simpa using g3⟩, ?_, ?_, cleanBins_ok ?_, cleanBins_ne hl2, ?_⟩
      · rw [hget _ (by simp)]; simp
      · rintro j hj ⟨_, hj2, _⟩
        simp only [List.length_append, List.length_singleton] at hj2
        omega
      · have hshort : (cleanBins l2).length ≤ l2.length := cleanBins_length l2
        rw [List.length_append, List.length_singleton]
        unfold divideLoopU
        have : atR (cleanBins l2) l2.length = .error .outOfRange := by
          unfold atR; rw [List.getElem?_eq_none hshort]
        rw [this]; rfl
      · exact fun b hb => hlok.1 b (by simp [hb])
      · rw [mag_cleanBins, List.append_assoc, List.take_left']
        rfl
    · have hnl : NoLead (l2 ++ [u]) := by
        rw [noLead_append_singleton]; by_contra hc; push Not at hc; exact hu hc
      rw [cleanBins_of_noLead hnl]
      have key : ∀ j, (1 ≤ j ∧ j + 1 < (l2 ++ [u]).length + 1 ∧ (l2 ++ [u] ++ [t])[j]? = some 0 ∧
          (B ^ (l2 ++ [u]).length * ((1000000000 * rem + t) % mag xn.bins) + mag (l2 ++ [u])) / mag xn.bins < B ^ (j + 1)) ↔
          TripsAt (l2 ++ [u]) ((1000000000 * rem + t) % mag xn.bins) (mag xn.bins) j := by
        intro j
        constructor
        · rintro ⟨j1, j2, j3, j4⟩
          rw [hget j (by omega)] at j3
          refine ⟨j1, ?_, j3, j4⟩
          by_contra hj
          simp only [List.length_append, List.length_singleton] at hj j2
          have hj : j = l2.length := by omega
          subst hj
          rw [List.getElem?_append_right (le_refl _)] at j3
          simp only [Nat.sub_self, List.getElem?_cons_zero, Option.some.injEq] at j3
          exact hu ⟨List.ne_nil_of_length_pos (by omega), j3⟩
        · rintro ⟨j1, j2, j3, j4⟩
          exact ⟨j1, by omega, by rw [hget j (by omega)]; exact j3, j4⟩
      simp only [key] at htr ⊢
      obtain ⟨k, bins, k1, k2, k3, k4, k5, k6⟩ := ih (r := r') hl' hlok.1 hc' s0 s1 hQ htr
      refine ⟨k, bins, k1, k2, k3, k4, k5, ?_⟩
      rw [k6, List.take_append_of_le_length (l₁ := l2 ++ [u]) (by have := k1.2.1; omega)]

theorem mag_take {l : List Int} (h : BinsOK l) {k : Nat} (hk : k ≤ l.length) : mag (l.take k) = mag l % B ^ k := by
  have e : mag l = mag (l.take k) + B ^ k * mag (l.drop k) := by
    conv_lhs => rw [← List.take_append_drop k l]
    rw [mag_append, List.length_take, min_eq_left hk]
  have h1 : BinsOK (l.take k) := fun b hb => h b (List.mem_of_mem_take hb)
  have h2 := mag_lt h1
  rw [List.length_take, min_eq_left hk] at h2
  rw [e, Int.add_mul_emod_self_left, Int.emod_eq_of_lt (mag_nonneg h1) h2]

/-- The exact outcome of `divide` without assertions for every well-formed dividend and divisor. -/
theorem divideU_spec {a x : BigInt} (ha : WF a) (hx : WF x) :
    (x.val = 0 → divideU a x = .error (.divideByZero, a)) ∧
    (x.val ≠ 0 → DivTrips a x → ∃ k s, LostAt a x k ∧ divideU a x = .error (.outOfRange, s) ∧ WF s ∧ s.negative = a.negative ∧
      s.val = a.val.tmod (B ^ k)) ∧
    (x.val ≠ 0 → ¬DivTrips a x → ∃ r, divideU a x = .ok r ∧ Canon r ∧ r.val = a.val.tdiv x.val) := by
  refine ⟨fun h => ?_, fun h htr => ?_, fun h hn => ?_⟩
  · unfold divideU
    rw [equalsInt32_zero hx]
    rw [val_eq_zero_iff] at h
    simp [h]
  · unfold divideU
    rw [equalsInt32_zero hx]
    simp only [ne_eq, val_eq_zero_iff] at h
    have ha0 := mag_nonneg ha.2
    have hx0 := mag_nonneg hx.2
    have hX : 0 < mag x.bins := by omega
    simp only [h, decide_false, keeping_ok, bindU_ok, Bool.false_eq_true, if_false, cmpBins_spec ha.2 hx.2]
    have hle := htr.1
    have hc : ¬cmpInts (mag a.bins) (mag x.bins) < 0 := by
      unfold cmpInts; rw [if_neg (by omega)]; split <;> omega
    rw [if_neg hc]
    obtain ⟨xn, n1, n2, n3, n4⟩ : ∃ xn, (if x.negative = true then x.neg else pure x) = .ok xn ∧ WF xn ∧
        xn.negative = false ∧ xn.bins = x.bins := by
      by_cases hn : x.negative = true
      · obtain ⟨r, r1, r2, r3, _, _, r6⟩ := neg_ok hx
        exact ⟨r, by simp [hn, r1], r2, r6 hn, r3⟩
      · exact ⟨x, by simp [hn], hx, by simpa using hn, rfl⟩
    rw [n1, keeping_ok, bindU_ok]
    have hQ : 1 ≤ (B ^ a.bins.length * 0 + mag a.bins) / mag xn.bins := by
      rw [mul_zero, zero_add, n4]; exact Int.le_ediv_of_mul_le hX (by omega)
    have htr' : Trips a.bins 0 (mag xn.bins) := by
      unfold Trips
      rw [n4, mul_zero, zero_add]
      exact htr.2
    obtain ⟨k, bins, k1, k2, k3, k4, k5, k6⟩ := divideLoopU_trips n2 n3 (by rw [n4]; exact hX) a.bins.length (l := a.bins)
      (r := default) rfl ha.2 CurOK.init (le_refl 0) (by rw [n4]; exact hX) hQ htr'
    unfold TripsAt at k1 k2
    rw [n4, mul_zero, zero_add] at k1 k2
    refine ⟨k, { a with bins := bins }, ⟨by rw [abs_val ha, abs_val hx]; exact k1, fun j hj => ?_⟩, by rw [k3], ⟨k5, k4⟩, rfl, ?_⟩
    · rw [abs_val ha, abs_val hx]
      exact fun hh => k2 j hj ⟨by omega, hh⟩
    · rw [mag_take ha.2 (by omega)] at k6
      unfold val
      dsimp only
      rw [k6]
      have := Int.tmod_eq_emod_of_nonneg (b := B ^ k) ha0
      split
      · rw [Int.neg_tmod, this]
      · rw [this]
  · obtain ⟨r, r1, r2⟩ := (divide_spec ha hx).2.2 h hn
    exact ⟨r, divide_keeps _ _ _ r1, r2⟩

theorem opDivR_eq (x y : BigInt) : opDivR x y = outcome (divideU x y) := by
  have e : ofShift x 0 = x := by simp [ofShift]
  rw [opDivR, e]

theorem divAssignU_eq (x y : BigInt) : divAssignU x y = divideU x y := by
  have e : ofShift y 0 = y := by simp [ofShift]
  rw [divAssignU, e]

/-! ### Remainder, power, powers of ten -/

theorem RightOrThrows.bind_ok {r : Res BigInt} {v : Int} {β : Type} {f : BigInt → Res β} {P : Res β → Prop} (h : RightOrThrows r v)
    (he : P (.error .outOfRange)) (hok : ∀ z, WF z → z.val = v → P (f z)) : P (r >>= f) := by
  rcases h with ⟨z, h1, h2, h3⟩ | h
  · rw [h1]; exact hok z h2 h3
  · rw [h]; exact he

theorem opSubR_right {x y : BigInt} (hx : WF x) (hy : WF y) : RightOrThrows (opSubR x y) (x.val - y.val) := by
  obtain ⟨h1, h2⟩ := opSubR_spec hx hy
  by_cases h : x.negative = y.negative ∧ SubThrows x y
  · exact .inr (h1 h)
  · exact .inl (h2 h)

theorem opAddR_right {x y : BigInt} (hx : WF x) (hy : WF y) : RightOrThrows (opAddR x y) (x.val + y.val) := by
  obtain ⟨h1, h2⟩ := opAddR_spec hx hy
  by_cases h : x.negative ≠ y.negative ∧ SubThrows x y
  · exact .inr (h1 h)
  · exact .inl (h2 h)

theorem subAssignU_right {x y : BigInt} (hx : WF x) (hy : WF y) : RightOrThrows (outcome (subAssignU x y)) (x.val - y.val) := by
  obtain ⟨h1, h2⟩ := subAssignU_spec hx hy
  by_cases h : x.negative = y.negative ∧ SubAssignThrows x y
  · obtain ⟨s, s1, _⟩ := h1 h
    exact .inr (by rw [s1]; rfl)
  · obtain ⟨r, r1, r2⟩ := h2 h
    exact .inl ⟨r, by rw [r1]; rfl, r2⟩

theorem addAssignU_right {x y : BigInt} (hx : WF x) (hy : WF y) : RightOrThrows (outcome (addAssignU x y)) (x.val + y.val) := by
  obtain ⟨h1, h2⟩ := addAssignU_spec hx hy
  by_cases h : x.negative ≠ y.negative ∧ SubAssignThrows x y
  · obtain ⟨s, s1, _⟩ := h1 h
    exact .inr (by rw [s1]; rfl)
  · obtain ⟨r, r1, r2⟩ := h2 h
    exact .inl ⟨r, by rw [r1]; rfl, r2⟩

theorem opMulR_ok {x y : BigInt} (hx : WF x) (hy : WF y) : ∃ r, opMulR x y = .ok r ∧ WF r ∧ r.val = x.val * y.val := by
  obtain ⟨r, r1, r2, r3, _⟩ := opMul_wf hx hy
  exact ⟨r, opMul_keeps _ _ _ r1, r2, r3⟩

theorem mulAssignU_ok {x y : BigInt} (hx : WF x) (hy : WF y) : ∃ r, mulAssignU x y = .ok r ∧ WF r ∧ r.val = x.val * y.val := by
  obtain ⟨r, r1, r2, r3, r4⟩ := multiply_ok hx hy
  refine ⟨{ r with negative := x.negative != y.negative }, mulAssign_keeps _ _ _ (by unfold mulAssign; rw [r1]; rfl), r2, ?_⟩
  unfold val
  dsimp only
  rw [r4]
  cases x.negative <;> cases y.negative <;> simp

theorem divideU_right {x y : BigInt} (hx : WF x) (hy : WF y) (h : y.val ≠ 0) :
    RightOrThrows (outcome (divideU x y)) (x.val.tdiv y.val) := by
  obtain ⟨_, h1, h2⟩ := divideU_spec hx hy
  by_cases ht : DivTrips x y
  · obtain ⟨k, s, _, s1, _⟩ := h1 h ht
    exact .inr (by rw [s1]; rfl)
  · obtain ⟨r, r1, r2, r3⟩ := h2 h ht
    exact .inl ⟨r, by rw [r1]; rfl, r2.1, r3⟩

theorem absCopy {z : BigInt} (hz : WF z) :
    ∃ a, (if (ofShift z 0).negative = true then (ofShift z 0).negate else pure (ofShift z 0)) = .ok a ∧
      WF a ∧ a.negative = false ∧ a.bins = z.bins := by
  have e : ofShift z 0 = z := by simp [ofShift]
  rw [e]
  by_cases hn : z.negative = true
  · obtain ⟨a, a1, a2, a3, _, _, a5⟩ := negate_ok hz
    exact ⟨a, by simp [hn, a1], a2, a5 hn, a3⟩
  · exact ⟨z, by simp [hn], hz, by simpa using hn, rfl⟩

theorem moduloR_zero {x y : BigInt} (hx : WF x) (hy : WF y) (h : y.val = 0) : moduloR x y = .error .divideByZero := by
  obtain ⟨a, a1, a2, a3, a4⟩ := absCopy hx
  obtain ⟨b, b1, b2, b3, b4⟩ := absCopy hy
  have hb : b.val = 0 := by rw [val_eq_zero_iff, b4, ← val_eq_zero_iff]; exact h
  unfold moduloR
  simp only [a1, b1, bind_ok, opDivR_eq, (divideU_spec a2 b2).1 hb]
  rfl

theorem moduloR_right {x y : BigInt} (hx : WF x) (hy : WF y) (h : y.val ≠ 0) :
    RightOrThrows (moduloR x y) (x.val.fmod y.val) := by
  obtain ⟨a, a1, a2, a3, a4⟩ := absCopy hx
  obtain ⟨b, b1, b2, b3, b4⟩ := absCopy hy
  have va : a.val = mag x.bins := by rw [val_of_not_neg a3, a4]
  have vb : b.val = mag y.bins := by rw [val_of_not_neg b3, b4]
  have hb : b.val ≠ 0 := by rw [ne_eq, val_eq_zero_iff, b4, ← val_eq_zero_iff]; exact h
  have hA := mag_nonneg hx.2
  have hB0 := mag_nonneg hy.2
  have hY : 0 < mag y.bins := by rw [vb] at hb; omega
  unfold moduloR
  simp only [a1, b1, bind_ok, opDivR_eq]
  refine (divideU_right a2 b2 hb).bind_ok (P := (RightOrThrows · _)) (.inr rfl) fun q q2 q3 => ?_
  rw [va, vb, Int.tdiv_eq_ediv_of_nonneg hA] at q3
  obtain ⟨p, p1, p2, p3⟩ := opMulR_ok q2 b2
  rw [p1, bind_ok]
  refine (opSubR_right a2 p2).bind_ok (P := (RightOrThrows · _)) (.inr rfl) fun r r2 r3 => ?_
  rw [va, p3, q3, vb] at r3
  have hdm := Int.mul_ediv_add_emod (mag x.bins) (mag y.bins)
  have m0 := Int.emod_nonneg (mag x.bins) hY.ne'
  have m1 := Int.emod_lt_of_pos (mag x.bins) hY
  have hr : r.val = mag x.bins % mag y.bins := by rw [r3, mul_comm]; omega
  simp only [equalsInt32_zero r2, ← val_eq_zero_iff, hr, bind_ok]
  generalize hm : mag x.bins % mag y.bins = m at *
  by_cases hz : m = 0
  · refine .inl ⟨r, by simp [hz], r2, ?_⟩
    rw [hr, hz, eq_comm]
    unfold val
    cases hsx : x.negative <;> cases hsy : y.negative
    · exact fmod_unique (k := mag x.bins / mag y.bins) (by simp; omega) (by simp; omega)
    · exact fmod_unique (k := -(mag x.bins / mag y.bins)) (by simp; omega) (by simp; omega)
    · exact fmod_unique (k := -(mag x.bins / mag y.bins)) (by simp; omega) (by simp; omega)
    · exact fmod_unique (k := mag x.bins / mag y.bins) (by simp; omega) (by simp; omega)
  · simp only [hz, decide_false, Bool.false_eq_true, if_false]
    cases hsx : x.negative <;> cases hsy : y.negative
    · refine .inl ⟨r, by simp, r2, ?_⟩
      rw [hr, val_of_not_neg hsx, val_of_not_neg hsy, eq_comm]
      exact fmod_unique (k := mag x.bins / mag y.bins) (by omega) (by omega)
    · have := addAssignU_right r2 hy
      have e : x.val.fmod y.val = r.val + y.val := by
        rw [hr, val_of_not_neg hsx, val_of_neg hsy]
        refine fmod_unique (k := -(mag x.bins / mag y.bins) - 1) ?_ (by omega)
        have : -mag y.bins * (-(mag x.bins / mag y.bins) - 1) = mag y.bins * (mag x.bins / mag y.bins) + mag y.bins := by ring
        omega
      rw [e]
      simpa using this
    · have := opSubR_right hy r2
      have e : x.val.fmod y.val = y.val - r.val := by
        rw [hr, val_of_neg hsx, val_of_not_neg hsy]
        refine fmod_unique (k := -(mag x.bins / mag y.bins) - 1) ?_ (by omega)
        have : mag y.bins * (-(mag x.bins / mag y.bins) - 1) = -(mag y.bins * (mag x.bins / mag y.bins)) - mag y.bins := by ring
        omega
      rw [e]
      simpa using this
    · obtain ⟨s, s1, s2, _, s4, _⟩ := negate_ok r2
      refine .inl ⟨s, by simp [s1], s2, ?_⟩
      rw [s4, hr, val_of_neg hsx, val_of_neg hsy, eq_comm]
      refine fmod_unique (k := mag x.bins / mag y.bins) ?_ (by omega)
      have : -mag y.bins * (mag x.bins / mag y.bins) = -(mag y.bins * (mag x.bins / mag y.bins)) := by ring
      omega

/-- For canonical operands `%` throws exactly where the build with assertions aborts. -/
theorem moduloR_exact {x y : BigInt} (hx : Canon x) (hy : Canon y) :
    (y.val = 0 → moduloR x y = .error .divideByZero) ∧
    (y.val ≠ 0 → DivAborts x.val y.val → moduloR x y = .error .outOfRange) ∧
    (y.val ≠ 0 → ¬DivAborts x.val y.val → ∃ r, moduloR x y = .ok r ∧ Canon r ∧ r.val = x.val.fmod y.val) := by
  refine ⟨moduloR_zero hx.1 hy.1, fun h ht => ?_, fun h ht => ?_⟩
  · rw [← divTrips_iff hx.clean hy.1] at ht
    obtain ⟨a, a1, a2, a3, a4⟩ := absCopy hx.1
    obtain ⟨b, b1, b2, b3, b4⟩ := absCopy hy.1
    have hb : b.val ≠ 0 := by rw [ne_eq, val_eq_zero_iff, b4, ← val_eq_zero_iff]; exact h
    have htr : DivTrips a b := by unfold DivTrips at ht ⊢; rw [a4, b4]; exact ht
    obtain ⟨k, s, _, s1, _⟩ := (divideU_spec a2 b2).2.1 hb htr
    unfold moduloR
    simp only [a1, b1, bind_ok, opDivR_eq, s1]
    rfl
  · obtain ⟨r, r1, r2⟩ := (modulo_exact hx hy).2.2 h ht
    exact ⟨r, modulo_keeps _ _ _ r1, r2⟩

/-- `1`, stored with leading zero bins, minus `1`. -/
theorem opSubR_one {y one : BigInt} (hy : WF y) (h1 : WF one) (v1 : one.val = 1) (n1 : one.negative = false)
    (l1 : one.bins.length = 1) : (∃ r, opSub y one = .ok r ∧ WF r) ∨
      (opSub y one = .error .assertion ∧ opSubR y one = .error .outOfRange) := by
  rcases opSub_wf hy h1 with ⟨r, r1, r2, _⟩ | he
  · exact .inl ⟨r, r1, r2⟩
  · refine .inr ⟨he, ?_⟩
    rcases opSubR_right hy h1 with ⟨r, r1, r2, r3⟩ | h
    · exfalso
      obtain ⟨k1, k2⟩ := opSubR_spec hy h1
      have hnt : ¬(y.negative = one.negative ∧ SubThrows y one) := by
        intro hh; rw [k1 hh] at r1; cases r1
      -- the build with assertions would return as well
      have m1 : mag one.bins = 1 := by rw [← v1, val_of_not_neg n1]
      have nl1 : NoLead one.bins := .inl (by omega)
      cases sy : y.negative with
      | true =>
        obtain ⟨ny, y1, y2, y3, y4, _, y5⟩ := neg_ok hy
        obtain ⟨w, w1, w2, _⟩ := addNonneg_wf y2 h1 (y5 sy) n1
        obtain ⟨z, z1, _⟩ := neg_ok w2
        rw [opSub] at he
        simp [sy, n1, y1, w1, z1] at he
      | false =>
        have hnt' : ¬SubThrows y one := fun hh => hnt ⟨by rw [sy, n1], hh⟩
        have := subNonneg_ok hy h1 sy n1 (fun hle => ?_) (fun _ => nl1)
        · obtain ⟨w, w1, _⟩ := this
          rw [opSub] at he
          simp [sy, n1, w1] at he
        · unfold SubThrows Padded at hnt'
          rw [abs_val hy, abs_val h1, m1] at hnt'
          push Not at hnt'
          have hle' : mag y.bins ≤ 1 := by rw [v1, val_of_not_neg sy] at hle; exact hle
          left
          by_contra hl
          have := hnt'.2 hle' (by omega)
          have hp : (1 : Int) < 1000000000 ^ (y.bins.length - 1) := one_lt_pow₀ (by norm_num) (by omega)
          omega
    · exact h

/-- Raising to a power: the same result, and `out_of_range` where the build with assertions aborts. -/
theorem exponentiateF_match {x : BigInt} (hx : WF x) : ∀ (f : Nat) {y : BigInt}, WF y →
    (∀ v, exponentiateF f x y = .ok v → WF v) ∧
    (exponentiateF f x y = .error .assertion → exponentiateFR f x y = .error .outOfRange) := by
  intro f
  induction f with
  | zero => intro y _; exact ⟨(fun v hv => nomatch hv), fun h => by cases h⟩
  | succ f ih =>
    intro y hy
    unfold exponentiateF exponentiateFR
    obtain ⟨is1, hi1, _⟩ := equalsInt32_spec hy (v := 1) (by omega) (by omega)
    have e1 : ofInt64 1 = .ok ⟨[1], false⟩ := rfl
    rw [e1]
    have hone : WF ⟨[1], false⟩ := by decide
    rw [equalsInt32_zero hy, hi1, isOdd_spec hy]
    simp only [bind_ok]
    split
    · exact ⟨fun v hv => by cases hv; decide, fun h => by cases h⟩
    split
    · exact ⟨fun v hv => by cases hv; exact hx, fun h => by cases h⟩
    split
    · rcases opSubR_one hy hone (by decide) rfl rfl with ⟨r, r1, r2⟩ | ⟨h1, h2⟩
      · obtain ⟨i1, i2⟩ := ih r2
        rw [r1, opSub_keeps _ _ _ r1]
        simp only [bind_ok]
        cases he : exponentiateF f x r with
        | error e =>
          simp only [bind_err]
          refine ⟨(fun v hv => nomatch hv), fun h => ?_⟩
          have : exponentiateF f x r = .error .assertion := by rw [he]; exact h
          rw [i2 this]; rfl
        | ok w =>
          obtain ⟨z, z1, z2, _⟩ := opMul_wf hx (i1 w he)
          simp only [bind_ok, z1]
          exact ⟨fun v hv => by cases hv; exact z2, fun h => by cases h⟩
      · rw [h1, h2]
        exact ⟨(fun v hv => nomatch hv), fun _ => rfl⟩
    · obtain ⟨h, h1, h2, _⟩ := divideByInt_ok (res := default) hy (y := 2) (by omega) (by omega)
      rw [h1]
      simp only [bind_ok]
      obtain ⟨i1, i2⟩ := ih h2
      cases he : exponentiateF f x h with
      | error e =>
        simp only [bind_err]
        refine ⟨(fun v hv => nomatch hv), fun hh => ?_⟩
        have : exponentiateF f x h = .error .assertion := by rw [he]; exact hh
        rw [i2 this]; rfl
      | ok w =>
        obtain ⟨z, z1, z2, _⟩ := opMul_wf (i1 w he) (i1 w he)
        simp only [bind_ok, z1]
        exact ⟨fun v hv => by cases hv; exact z2, fun h => by cases h⟩

/-- Repeated division by ten. -/
theorem divTenLoopU_exact (n : Nat) : ∀ {a : BigInt}, Canon a → (∃ i < n, DivAborts (a.val.tdiv (10 ^ i)) 10) →
    ∃ s, divTenLoopU n a = .error (.outOfRange, s) := by
  induction n with
  | zero => intro a ha ⟨i, hi, _⟩; omega
  | succ n ih =>
    intro a ha hex
    obtain ⟨ten, t1, t2, t3, t4⟩ := ofInt64_ok (x := 10) 0 (by omega) (by omega)
    have t3 : ten.val = 10 := by simpa using t3
    by_cases htr : DivAborts a.val 10
    · rw [← t3, ← divTrips_iff ha.clean t2.1] at htr
      obtain ⟨k, s, _, s1, _⟩ := (divideU_spec ha.1 t2.1).2.1 (by omega) htr
      exact ⟨s, by simp only [divTenLoopU, t1, keeping_ok, bindU_ok, divAssignU_eq, s1, bindU_err]⟩
    · obtain ⟨s, s1, s2, s3⟩ := (divide_exact ha t2).2.2 (by omega) (by rw [t3]; exact htr)
      rw [t3] at s3
      have e : divTenLoopU (n + 1) a = divTenLoopU n s := by
        simp only [divTenLoopU, t1, keeping_ok, bindU_ok, divAssignU_eq, divide_keeps _ _ _ s1]
      rw [e]
      apply ih s2
      obtain ⟨i, hi, h⟩ := hex
      cases i with
      | zero => exact absurd (by simpa using h) htr
      | succ i => exact ⟨i, by omega, by rwa [s3, tdiv_tdiv_pos (by norm_num), mul_comm, ← pow_succ]⟩

/-- `times_power_ten` with a negative power throws exactly where the build with assertions aborts. -/
theorem timesPowerTenU_throws {a : BigInt} (ha : Canon a) {p : Int} (hp : p < 0) (hp2 : -2147483647 ≤ p) (ht : TenAborts a.val p) :
    ∃ s, timesPowerTenU a p = .error (.outOfRange, s) := by
  have hret : timesPowerTenU a p = (if (a.bins.drop ((-p).toNat / 9)).isEmpty = true then keeping a (setValue 0)
        else divTenLoopU ((-p).toNat % 9) { a with bins := a.bins.drop ((-p).toNat / 9) }) := by
    unfold timesPowerTenU
    rw [if_neg (by omega), if_pos hp, i32_ok (z := -p) (by omega) (by omega)]
    simp only [keeping_ok, bindU_ok]
  have hsplit : ∀ i, (10 : Int) ^ (9 * ((-p).toNat / 9) + i) = 1000000000 ^ ((-p).toNat / 9) * 10 ^ i := fun i => by
    rw [pow_add, pow_mul]
    norm_num
  have habort := (timesPowerTen_exact ha hp hp2).1 ht
  have hret' : timesPowerTen a p = (if (a.bins.drop ((-p).toNat / 9)).isEmpty = true then setValue 0
        else divTenLoop ((-p).toNat % 9) { a with bins := a.bins.drop ((-p).toNat / 9) }) := by
    unfold timesPowerTen
    rw [if_neg (by omega), if_pos hp, i32_ok (z := -p) (by omega) (by omega)]
    simp only [bind_ok]
  have hne : ¬(a.bins.drop ((-p).toNat / 9)).isEmpty = true := by
    intro he
    rw [hret', if_pos he] at habort
    exact absurd habort (by decide +kernel)
  have hlen : (-p).toNat / 9 < a.bins.length := by
    by_contra hl
    exact hne (by rw [List.drop_of_length_le (by omega)]; rfl)
  have hv : a.val ≠ 0 := by
    intro hv
    obtain ⟨i, _, h, _⟩ := ht
    rw [hv] at h
    norm_num at h
  obtain ⟨d1, d2⟩ := drop_canon ha hlen hv
  rw [hret, if_neg hne]
  refine divTenLoopU_exact _ d1 ?_
  obtain ⟨i, hi, h⟩ := ht
  exact ⟨i, hi, by rw [d2, tdiv_tdiv_pos (by positivity), ← hsplit]; exact h⟩

/-! ### Programs -/

/-- An in-place operation: the right value, or `out_of_range` and a well-formed object. -/
def RightU (u : Upd BigInt) (v : Int) : Prop :=
  (∃ z, u = .ok z ∧ WF z ∧ z.val = v) ∨ ∃ s, u = .error (.outOfRange, s) ∧ WF s

theorem addAssignU_rightU {x y : BigInt} (hx : WF x) (hy : WF y) : RightU (addAssignU x y) (x.val + y.val) := by
  obtain ⟨h1, h2⟩ := addAssignU_spec hx hy
  by_cases h : x.negative ≠ y.negative ∧ SubAssignThrows x y
  · obtain ⟨s, s1, s2, _⟩ := h1 h
    exact .inr ⟨s, s1, s2⟩
  · exact .inl (h2 h)

theorem subAssignU_rightU {x y : BigInt} (hx : WF x) (hy : WF y) : RightU (subAssignU x y) (x.val - y.val) := by
  obtain ⟨h1, h2⟩ := subAssignU_spec hx hy
  by_cases h : x.negative = y.negative ∧ SubAssignThrows x y
  · obtain ⟨s, s1, s2, _⟩ := h1 h
    exact .inr ⟨s, s1, s2⟩
  · exact .inl (h2 h)

theorem divAssignU_rightU {x y : BigInt} (hx : WF x) (hy : WF y) (h : y.val ≠ 0) : RightU (divAssignU x y) (x.val.tdiv y.val) := by
  rw [divAssignU_eq]
  obtain ⟨_, h1, h2⟩ := divideU_spec hx hy
  by_cases ht : DivTrips x y
  · obtain ⟨k, s, _, s1, s2, _⟩ := h1 h ht
    exact .inr ⟨s, s1, s2⟩
  · obtain ⟨r, r1, r2, r3⟩ := h2 h ht
    exact .inl ⟨r, r1, r2.1, r3⟩

theorem divTenLoopU_rightU (n : Nat) : ∀ {a : BigInt}, WF a → RightU (divTenLoopU n a) (a.val.tdiv (10 ^ n)) := by
  induction n with
  | zero => intro a ha; exact .inl ⟨a, rfl, ha, by simp⟩
  | succ n ih =>
    intro a ha
    obtain ⟨ten, t1, t2, t3, _⟩ := ofInt64_ok (x := 10) 0 (by omega) (by omega)
    have t3 : ten.val = 10 := by simpa using t3
    have e : divTenLoopU (n + 1) a = (a.divAssignU ten >>= fun a => divTenLoopU n a) := by
      simp only [divTenLoopU, t1, keeping_ok, bindU_ok]
    rw [e]
    rcases divAssignU_rightU ha t2.1 (by omega) with ⟨s, s1, s2, s3⟩ | ⟨s, s1, s2⟩
    · rw [s1, bindU_ok]
      have := ih s2
      rwa [s3, t3, tdiv_tdiv_pos (by norm_num), mul_comm, ← pow_succ] at this
    · exact .inr ⟨s, by rw [s1]; rfl, s2⟩

/-- `times_power_ten` without assertions on arbitrary well-formed objects. -/
theorem timesPowerTenU_rightU {a : BigInt} (ha : WF a) {p : Int} (hp : -2147483647 ≤ p) :
    RightU (timesPowerTenU a p) (if 0 ≤ p then a.val * 10 ^ p.toNat else a.val.tdiv (10 ^ (-p).toNat)) := by
  by_cases h : p < 0
  · rcases timesPowerTen_wf ha hp with ⟨r, r1, r2, r3⟩ | hab
    · exact .inl ⟨r, timesPowerTen_keeps _ _ _ r1, r2, r3⟩
    have h9 : (-p).toNat = 9 * ((-p).toNat / 9) + (-p).toNat % 9 := by omega
    have hpow : (10 : Int) ^ (-p).toNat = B ^ ((-p).toNat / 9) * 10 ^ ((-p).toNat % 9) := by
      conv_lhs => rw [h9, pow_add, pow_mul]
      norm_num
    unfold timesPowerTen at hab
    rw [if_neg (by omega), if_pos h, i32_ok (z := -p) (by omega) (by omega)] at hab
    simp only [bind_ok] at hab
    unfold timesPowerTenU
    rw [if_neg (by omega), if_pos h, i32_ok (z := -p) (by omega) (by omega), if_neg (by omega)]
    simp only [keeping_ok, bindU_ok]
    have hne : ¬(a.bins.drop ((-p).toNat / 9)).isEmpty = true := by
      intro he
      rw [if_pos he] at hab
      exact absurd hab (by decide +kernel)
    rw [if_neg hne]
    have hdne : a.bins.drop ((-p).toNat / 9) ≠ [] := by rwa [List.isEmpty_iff] at hne
    have hv : BigInt.val { a with bins := a.bins.drop ((-p).toNat / 9) } = a.val.tdiv (B ^ ((-p).toNat / 9)) := by
      have e : (mag a.bins).tdiv (B ^ ((-p).toNat / 9)) = mag a.bins / B ^ ((-p).toNat / 9) :=
        Int.tdiv_eq_ediv_of_nonneg (mag_nonneg ha.2)
      unfold val
      dsimp only
      rw [mag_drop ha.2]
      split
      · rw [Int.neg_tdiv, e]
      · rw [e]
    have := divTenLoopU_rightU ((-p).toNat % 9) (a := { a with bins := a.bins.drop ((-p).toNat / 9) }) ⟨hdne, BinsOK_drop ha.2 _⟩
    rwa [hv, tdiv_tdiv_pos (by positivity), ← hpow] at this
  · rcases timesPowerTen_wf ha hp with ⟨r, r1, r2, r3⟩ | hab
    · exact .inl ⟨r, timesPowerTen_keeps _ _ _ r1, r2, r3⟩
    · exfalso
      rcases eq_or_lt_of_le (not_lt.mp h) with h0 | h0
      · subst h0; cases hab
      · obtain ⟨s, s1, _⟩ := mulTenLoop_wf (p.toNat % 9) ha
        simp only [timesPowerTen, h0, if_true, s1, bind_ok, pure_ok] at hab
        cases hab

end CppMaths.BigInt

namespace CppMaths

open BigInt

/-- What a call without assertions computes, compared with the integer operation; `s` is the object it works on. -/
def RefinesU (u : Upd BigInt) (z : Option Int) (s : BigInt) : Prop :=
  (∃ e, u = .error (.outOfRange, e) ∧ BigInt.WF e) ∨
  match z with
  | some z => ∃ a, u = .ok a ∧ BigInt.WF a ∧ a.val = z
  | none => u = .error (.divideByZero, s)

theorem RightU.refines {u : Upd BigInt} {z : Int} {s : BigInt} (h : RightU u z) : RefinesU u (some z) s := by
  rcases h with h | h
  · exact .inr h
  · exact .inl h

theorem RightOrThrows.refines {r : Res BigInt} {z : Int} {s : BigInt} (hs : BigInt.WF s) (h : RightOrThrows r z) :
    RefinesU (keeping s r) (some z) s := by
  rcases h with ⟨a, h1, h2, h3⟩ | h
  · exact .inr ⟨a, by rw [h1]; rfl, h2, h3⟩
  · exact .inl ⟨s, by rw [h]; rfl, hs⟩

theorem IOp.runR_refines (op : IOp) {x y s : BigInt} (hx : BigInt.WF x) (hy : BigInt.WF y) (hs : BigInt.WF s) :
    RefinesU (keeping s (op.runR x y)) (op.sem x.val y.val) s := by
  cases op
  · exact RightOrThrows.refines hs (opAddR_right hx hy)
  · exact RightOrThrows.refines hs (opSubR_right hx hy)
  · exact RightOrThrows.refines hs (.inl (opMulR_ok hx hy))
  · simp only [IOp.sem, IOp.runR, opDivR_eq]
    by_cases h : y.val = 0
    · rw [if_pos h, (divideU_spec hx hy).1 h]; exact .inr rfl
    · rw [if_neg h]; exact RightOrThrows.refines hs (divideU_right hx hy h)
  · simp only [IOp.sem, IOp.runR, opModR]
    by_cases h : y.val = 0
    · rw [if_pos h, moduloR_zero hx hy h]; exact .inr rfl
    · rw [if_neg h]; exact RightOrThrows.refines hs (moduloR_right hx hy h)

theorem IOp.assignU_refines (op : IOp) {x y : BigInt} (hx : BigInt.WF x) (hy : BigInt.WF y) :
    RefinesU (op.assignU x y) (op.sem x.val y.val) x := by
  cases op
  · exact RightU.refines (addAssignU_rightU hx hy)
  · exact RightU.refines (subAssignU_rightU hx hy)
  · exact RightU.refines (.inl (mulAssignU_ok hx hy))
  · simp only [IOp.sem, IOp.assignU]
    by_cases h : y.val = 0
    · rw [if_pos h, divAssignU_eq, (divideU_spec hx hy).1 h]; exact .inr rfl
    · rw [if_neg h]; exact RightU.refines (divAssignU_rightU hx hy h)
  · simp only [IOp.sem, IOp.assignU, modAssignU]
    by_cases h : y.val = 0
    · rw [if_pos h, moduloR_zero hx hy h]; exact .inr rfl
    · rw [if_neg h]; exact RightOrThrows.refines hx (moduloR_right hx hy h)

theorem Mem.set_self (m : Mem) (d : Nat) : m.set d (m d) = m := by
  funext i; simp only [Mem.set]; split <;> simp_all

/-- One protected statement. -/
theorem IStmt.tryStepR_refines {s : IStmt} (hl : s.Legal) {m : Mem} (hm : m.WF) (all : Bool) :
    (∃ m', s.tryStepR all m = .ok m' ∧ m'.WF ∧ m'.vals = s.next m.vals) ∨
    (if all then ∃ m', s.tryStepR all m = .ok m' ∧ m'.WF else s.tryStepR all m = .error .outOfRange) := by
  -- the statement's effect on one variable
  have key : ∀ {d : Nat} {u : Upd BigInt} {z : Option Int}, s.stepU m = m.update d u → s.sem m.vals = z.map (d, ·) →
      RefinesU u z (m d) →
      (∃ m', s.tryStepR all m = .ok m' ∧ m'.WF ∧ m'.vals = s.next m.vals) ∨
      (if all then ∃ m', s.tryStepR all m = .ok m' ∧ m'.WF else s.tryStepR all m = .error .outOfRange) := by
    intro d u z h1 h2 h3
    unfold tryStepR next
    rw [h1, h2]
    rcases h3 with ⟨e, rfl, he⟩ | h3
    · right
      cases all
      · rfl
      · exact ⟨m.set d e, rfl, hm.set d he⟩
    · left
      cases z with
      | some z =>
        obtain ⟨a, rfl, a2, a3⟩ := h3
        exact ⟨m.set d a, rfl, hm.set d a2, by rw [Mem.vals_set, a3]; rfl⟩
      | none =>
        rw [show u = _ from h3]
        exact ⟨m, by simp [Mem.update, Mem.set_self], hm, rfl⟩
  -- statements that the assertions do not affect
  have same : s.stepU m = keeping m (s.step m) → (∀ e, s.tryStep m ≠ .error e) →
      (∃ m', s.tryStepR all m = .ok m' ∧ m'.WF ∧ m'.vals = s.next m.vals) ∨
      (if all then ∃ m', s.tryStepR all m = .ok m' ∧ m'.WF else s.tryStepR all m = .error .outOfRange) := by
    intro h1 h2
    rcases IStmt.tryStep_refines hl hm with ⟨m', k1, k2, k3⟩ | k
    · left
      refine ⟨m', ?_, k2, k3⟩
      unfold tryStepR
      rw [h1]
      unfold tryStep at k1
      cases hs : s.step m with
      | ok w => rw [hs] at k1; simpa using k1
      | error e =>
        rw [hs] at k1
        cases e <;> first | exact k1 | cases k1
    · exact absurd k (h2 _)
  have comp : ∀ {d : Nat} {r : Res BigInt}, (do let v ← keeping m r; return m.set d v : Upd Mem) = m.update d (keeping (m d) r) := by
    intro d r
    cases r with
    | ok v => rfl
    | error e => simp [Mem.update, Mem.set_self]
  cases s with
  | lit d k =>
    obtain ⟨r, r1, _⟩ := ofInt64_ok 0 hl.1 hl.2
    exact same rfl fun e => by simp [tryStep, step, r1]
  | str d s =>
    refine same rfl fun e => ?_
    cases h : textVal s with
    | some z =>
      obtain ⟨r, r1, _⟩ := ofString_ok (textVal_some h)
      simp [tryStep, step, r1]
    | none => simp [tryStep, step, ofString_fail (textVal_none h)]
  | copy d a => exact same rfl fun e => by simp [tryStep, step]
  | bin op d a b => exact key (d := d) comp rfl (op.runR_refines (hm a) (hm b) (hm d))
  | asg op d a => exact key (d := d) rfl rfl (op.assignU_refines (hm d) (hm a))
  | neg d a =>
    obtain ⟨r, r1, _⟩ := neg_ok (hm a)
    exact same rfl fun e => by simp [tryStep, step, r1]
  | negate d =>
    obtain ⟨r, r1, _⟩ := negate_ok (hm d)
    exact same rfl fun e => by simp [tryStep, step, r1]
  | abs d a =>
    obtain ⟨r, r1, _⟩ := abs_ok (hm a)
    exact same rfl fun e => by simp [tryStep, step, r1]
  | pow d a e =>
    have hl : e < 1000000000 := hl
    obtain ⟨y, y1, y2, y3, _⟩ := ofInt64_ok (x := e) 0 (by omega) (by omega)
    have y3 : y.val = e := by simpa using y3
    obtain ⟨r, r1, r2, _, r4⟩ := exponentiate_wf_ok (hm a) y2 (by omega) (GoodExp.of_lt (by omega) (by omega))
    refine key (d := d) (u := .ok r) (z := some (m.vals a ^ e)) ?_ rfl (.inr ⟨r, rfl, r2, by rw [r4, y3]; rfl⟩)
    simp only [stepU, y1, keeping_ok, bindU_ok, opPowR, exponentiate_keeps _ _ _ r1]
    rfl
  | ten d p => exact key (d := d) (z := some _) rfl rfl (RightU.refines (timesPowerTenU_rightU (hm d) hl.1))

/-- Programs without assertions in which `out_of_range` is not caught. -/
theorem IProg.execR_refines (f : Nat) : ∀ {p : IProg}, p.Legal → ∀ {m : Mem}, m.WF →
    (∃ m', p.execR false f m = .ok m' ∧ m'.WF ∧ p.sem f m.vals = some m'.vals) ∨
    (p.execR false f m = .error .diverge ∧ p.sem f m.vals = none) ∨
    p.execR false f m = .error .outOfRange := by
  induction f with
  | zero => intro p _ m _; exact .inr (.inl ⟨rfl, rfl⟩)
  | succ f ih =>
    intro p hl m hm
    have seq : ∀ {p q : IProg}, p.Legal → q.Legal →
        (∃ m', (do let m ← p.execR false f m; q.execR false f m) = .ok m' ∧ m'.WF ∧ (p.sem f m.vals).bind (q.sem f) = some m'.vals) ∨
        ((do let m ← p.execR false f m; q.execR false f m) = .error .diverge ∧ (p.sem f m.vals).bind (q.sem f) = none) ∨
        (do let m ← p.execR false f m; q.execR false f m) = .error .outOfRange := by
      intro p q hp hq
      rcases ih hp hm with ⟨m', h1, h2, h3⟩ | ⟨h1, h2⟩ | h1
      · rw [h1, h3]; exact ih hq h2
      · rw [h1, h2]; exact .inr (.inl ⟨rfl, rfl⟩)
      · rw [h1]; exact .inr (.inr rfl)
    cases p with
    | stmt s =>
      rcases IStmt.tryStepR_refines hl hm false with ⟨m', h1, h2, h3⟩ | h
      · exact .inl ⟨m', h1, h2, by rw [sem, h3]⟩
      · exact .inr (.inr h)
    | seq p q => exact seq hl.1 hl.2
    | ite c a b p q =>
      simp only [execR, sem, c.run_eq (hm a) (hm b), bind_ok]
      have e : c.sem (m.vals a) (m.vals b) = c.sem (m a).val (m b).val := rfl
      rw [e]
      cases c.sem (m a).val (m b).val
      · simpa using ih hl.2 hm
      · simpa using ih hl.1 hm
    | «while» c a b p =>
      simp only [execR, sem, c.run_eq (hm a) (hm b), bind_ok]
      have e : c.sem (m.vals a) (m.vals b) = c.sem (m a).val (m b).val := rfl
      rw [e]
      cases c.sem (m a).val (m b).val
      · exact .inl ⟨m, by simp, hm, by simp⟩
      · have := seq (p := p) (q := .while c a b p) hl hl
        simpa using this

/-- Programs without assertions that catch every exception: the variables stay well formed. -/
theorem IProg.execR_wf (f : Nat) : ∀ {p : IProg}, p.Legal → ∀ {m : Mem}, m.WF →
    (∃ m', p.execR true f m = .ok m' ∧ m'.WF) ∨ p.execR true f m = .error .diverge := by
  induction f with
  | zero => intro p _ m _; exact .inr rfl
  | succ f ih =>
    intro p hl m hm
    have seq : ∀ {p q : IProg}, p.Legal → q.Legal →
        (∃ m', (do let m ← p.execR true f m; q.execR true f m) = .ok m' ∧ m'.WF) ∨
        (do let m ← p.execR true f m; q.execR true f m) = .error .diverge := by
      intro p q hp hq
      rcases ih hp hm with ⟨m', h1, h2⟩ | h1
      · rw [h1]; exact ih hq h2
      · rw [h1]; exact .inr rfl
    cases p with
    | stmt s =>
      rcases IStmt.tryStepR_refines hl hm true with ⟨m', h1, h2, _⟩ | h
      · exact .inl ⟨m', h1, h2⟩
      · exact .inl h
    | seq p q => exact seq hl.1 hl.2
    | ite c a b p q =>
      simp only [execR, c.run_eq (hm a) (hm b), bind_ok]
      cases c.sem (m a).val (m b).val
      · simpa using ih hl.2 hm
      · simpa using ih hl.1 hm
    | «while» c a b p =>
      simp only [execR, c.run_eq (hm a) (hm b), bind_ok]
      cases c.sem (m a).val (m b).val
      · exact .inl ⟨m, by simp, hm⟩
      · have := seq (p := p) (q := .while c a b p) hl hl
        simpa using this

end CppMaths
