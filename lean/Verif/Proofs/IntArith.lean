import Verif.Proofs.IntBasic
/-!
# Addition, subtraction and multiplication of signed `Int`s
-/

namespace CppMaths.BigInt

/-- Well formed without leading zero bins; a negative zero is still allowed. -/
def Clean (a : BigInt) : Prop := WF a ∧ NoLead a.bins

theorem Canon.clean {a : BigInt} (h : Canon a) : Clean a := ⟨h.1, h.2.1⟩
theorem Clean.wf {a : BigInt} (h : Clean a) : WF a := h.1
theorem Canon.wf {a : BigInt} (h : Canon a) : WF a := h.1
theorem Clean.canon_of_not_neg {a : BigInt} (h : Clean a) (hn : a.negative = false) : Canon a :=
  ⟨h.1, h.2, by simp [hn]⟩

theorem neg_canon {a : BigInt} (h : Clean a) : ∃ r, a.neg = .ok r ∧ Canon r ∧ r.bins = a.bins ∧ r.val = -a.val ∧
    (a.negative = true → r.negative = false) := by
  obtain ⟨r, h1, h2, h3, h4, h5, h6⟩ := neg_ok h.1
  exact ⟨r, h1, ⟨h2, h3 ▸ h.2, h5⟩, h3, h4, h6⟩

theorem negate_canon {a : BigInt} (h : Clean a) : ∃ r, a.negate = .ok r ∧ Canon r ∧ r.bins = a.bins ∧
    r.val = -a.val ∧ (a.negative = true → r.negative = false) := neg_canon h

theorem clean_zero : Clean ⟨[0], false⟩ := ⟨by decide, by decide⟩
theorem canon_zero : Canon ⟨[0], false⟩ := by decide

theorem add_clean {a x : BigInt} (ha : Clean a) (hx : Clean x) :
    ∃ r, add a x = .ok r ∧ Clean r ∧ r.negative = a.negative ∧ mag r.bins = mag a.bins + mag x.bins := by
  obtain ⟨r, h1, h2, h3, h4, h5⟩ := add_ok ha.1 hx.1
  refine ⟨r, h1, ⟨h2, ?_⟩, h3, h4⟩
  exact add_noLead h2.2 (mag_nonneg ha.1.2) (mag_nonneg hx.1.2) ((noLead_iff ha.1.2).mp ha.2)
    ((noLead_iff hx.1.2).mp hx.2) h4 h5

theorem addNonneg_ok {x y : BigInt} (hx : Clean x) (hy : Clean y) (sx : x.negative = false)
    (sy : y.negative = false) : ∃ r, addNonneg x y = .ok r ∧ Canon r ∧ r.val = x.val + y.val := by
  unfold addNonneg
  split
  · obtain ⟨r, h1, h2, h3, h4⟩ := add_clean hx hy
    rw [sx] at h3
    exact ⟨r, h1, h2.canon_of_not_neg h3, by rw [val_of_not_neg h3, val_of_not_neg sx, val_of_not_neg sy, h4]⟩
  · obtain ⟨r, h1, h2, h3, h4⟩ := add_clean hy hx
    rw [sy] at h3
    exact ⟨r, h1, h2.canon_of_not_neg h3, by rw [val_of_not_neg h3, val_of_not_neg sx, val_of_not_neg sy, h4, add_comm]⟩

theorem cleaned {x : BigInt} (h : WF x) : Clean { x with bins := cleanBins x.bins } :=
  ⟨⟨cleanBins_ne h.1, cleanBins_ok h.2⟩, cleanBins_noLead _⟩

/-- Subtraction of nonnegative numbers; only the smaller operand must be free of leading zeros. -/
theorem subNonneg_ok {x y : BigInt} (hx : WF x) (hy : WF y) (sx : x.negative = false) (sy : y.negative = false)
    (nx : x.val ≤ y.val → NoLead x.bins) (ny : y.val < x.val → NoLead y.bins) :
    ∃ r, subNonneg x y = .ok r ∧ Canon r ∧ r.val = x.val - y.val := by
  have vx := val_of_not_neg sx
  have vy := val_of_not_neg sy
  unfold subNonneg
  rw [gt_spec hx hy]
  by_cases h : x.val > y.val
  · have hc := cleaned hx
    obtain ⟨r, h1, h2, h3, h4, h5⟩ := subtract_ok hc.1 hy hc.2 (ny h) (by dsimp only; rw [mag_cleanBins]; omega)
    dsimp only at h3 h4
    rw [sx] at h3
    refine ⟨r, by simp [h, h1], Clean.canon_of_not_neg ⟨h2, h5⟩ h3, ?_⟩
    rw [val_of_not_neg h3, h4, vx, vy, mag_cleanBins]
  · have hc := cleaned hy
    obtain ⟨r, h1, h2, h3, h4, h5⟩ := subtract_ok hc.1 hx hc.2 (nx (not_lt.mp h)) (by dsimp only; rw [mag_cleanBins]; omega)
    dsimp only at h3 h4
    rw [sy] at h3
    obtain ⟨s, k1, k2, k3, k4, _⟩ := neg_canon (a := r) ⟨h2, h5⟩
    refine ⟨s, by simp [h, h1, k1], k2, ?_⟩
    rw [k4, val_of_not_neg h3, h4, vx, vy, mag_cleanBins]; ring

theorem opAdd_ok {x y : BigInt} (hx : Clean x) (hy : Clean y) :
    ∃ r, opAdd x y = .ok r ∧ Canon r ∧ r.val = x.val + y.val := by
  obtain ⟨nx, x1, x2, _, x4, x5⟩ := neg_canon hx
  obtain ⟨ny, y1, y2, _, y4, y5⟩ := neg_canon hy
  unfold opAdd
  cases sx : x.negative <;> cases sy : y.negative
  · obtain ⟨r, h1, h2, h3⟩ := addNonneg_ok hx hy sx sy
    exact ⟨r, by simp [h1], h2, h3⟩
  · obtain ⟨r, h1, h2, h3⟩ := subNonneg_ok hx.1 y2.1 sx (y5 sy) (fun _ => hx.2) (fun _ => y2.2.1)
    exact ⟨r, by simp [y1, h1], h2, by rw [h3, y4]; ring⟩
  · obtain ⟨r, h1, h2, h3⟩ := subNonneg_ok x2.1 hy.1 (x5 sx) sy (fun _ => x2.2.1) (fun _ => hy.2)
    obtain ⟨s, k1, k2, _, k4, _⟩ := neg_canon h2.clean
    exact ⟨s, by simp [x1, h1, k1], k2, by rw [k4, h3, x4]; ring⟩
  · obtain ⟨r, h1, h2, h3⟩ := addNonneg_ok x2.clean y2.clean (x5 sx) (y5 sy)
    obtain ⟨s, k1, k2, _, k4, _⟩ := neg_canon h2.clean
    exact ⟨s, by simp [x1, y1, h1, k1], k2, by rw [k4, h3, x4, y4]; ring⟩

theorem opSub_ok {x y : BigInt} (hx : Clean x) (hy : Clean y) :
    ∃ r, opSub x y = .ok r ∧ Canon r ∧ r.val = x.val - y.val := by
  obtain ⟨nx, x1, x2, _, x4, x5⟩ := neg_canon hx
  obtain ⟨ny, y1, y2, _, y4, y5⟩ := neg_canon hy
  unfold opSub
  cases sx : x.negative <;> cases sy : y.negative
  · obtain ⟨r, h1, h2, h3⟩ := subNonneg_ok hx.1 hy.1 sx sy (fun _ => hx.2) (fun _ => hy.2)
    exact ⟨r, by simp [h1], h2, h3⟩
  · obtain ⟨r, h1, h2, h3⟩ := addNonneg_ok hx y2.clean sx (y5 sy)
    exact ⟨r, by simp [y1, h1], h2, by rw [h3, y4]; ring⟩
  · obtain ⟨r, h1, h2, h3⟩ := addNonneg_ok x2.clean hy (x5 sx) sy
    obtain ⟨s, k1, k2, _, k4, _⟩ := neg_canon h2.clean
    exact ⟨s, by simp [x1, h1, k1], k2, by rw [k4, h3, x4]; ring⟩
  · obtain ⟨r, h1, h2, h3⟩ := subNonneg_ok x2.1 y2.1 (x5 sx) (y5 sy) (fun _ => x2.2.1) (fun _ => y2.2.1)
    obtain ⟨s, k1, k2, _, k4, _⟩ := neg_canon h2.clean
    exact ⟨s, by simp [x1, y1, h1, k1], k2, by rw [k4, h3, x4, y4]; ring⟩

theorem addAssignNonneg_ok {x y : BigInt} (hx : Clean x) (hy : Clean y) (sx : x.negative = false)
    (sy : y.negative = false) : ∃ r, addAssignNonneg x y = .ok r ∧ Canon r ∧ r.val = x.val + y.val := by
  have e : ofShift y 0 = y := by simp [ofShift]
  unfold addAssignNonneg
  rw [e]
  obtain ⟨r, h1, h2, h3, h4⟩ := add_clean hx hy
  rw [sx] at h3
  exact ⟨r, h1, h2.canon_of_not_neg h3, by rw [val_of_not_neg h3, val_of_not_neg sx, val_of_not_neg sy, h4]⟩

theorem subAssignNonneg_ok {x y : BigInt} (hx : Clean x) (hy : Clean y) (sx : x.negative = false)
    (sy : y.negative = false) : ∃ r, subAssignNonneg x y = .ok r ∧ Canon r ∧ r.val = x.val - y.val := by
  have vx := val_of_not_neg sx
  have vy := val_of_not_neg sy
  unfold subAssignNonneg
  rw [gt_spec hx.1 hy.1]
  by_cases h : x.val > y.val
  · obtain ⟨r, h1, h2, h3, h4, h5⟩ := subtract_ok hx.1 hy.1 hx.2 hy.2 (by omega)
    rw [sx] at h3
    refine ⟨r, by simp [h, h1], Clean.canon_of_not_neg ⟨h2, h5⟩ h3, ?_⟩
    rw [val_of_not_neg h3, h4, vx, vy]
  · obtain ⟨r, h1, h2, h3, h4, h5⟩ := subtract_ok hy.1 hx.1 hy.2 hx.2 (by omega)
    rw [sy] at h3
    obtain ⟨s, k1, k2, k3, k4, _⟩ := negate_canon (a := r) ⟨h2, h5⟩
    refine ⟨s, by simp [h, h1, k1], k2, ?_⟩
    rw [k4, val_of_not_neg h3, h4, vx, vy]; ring

theorem addAssign_ok {x y : BigInt} (hx : Clean x) (hy : Clean y) :
    ∃ r, addAssign x y = .ok r ∧ Canon r ∧ r.val = x.val + y.val := by
  obtain ⟨nx, x1, x2, _, x4, x5⟩ := negate_canon hx
  obtain ⟨ny, y1, y2, _, y4, y5⟩ := neg_canon hy
  unfold addAssign
  cases sx : x.negative <;> cases sy : y.negative
  · obtain ⟨r, h1, h2, h3⟩ := addAssignNonneg_ok hx hy sx sy
    exact ⟨r, by simp [h1], h2, h3⟩
  · obtain ⟨r, h1, h2, h3⟩ := subAssignNonneg_ok hx y2.clean sx (y5 sy)
    exact ⟨r, by simp [y1, h1], h2, by rw [h3, y4]; ring⟩
  · obtain ⟨r, h1, h2, h3⟩ := subAssignNonneg_ok x2.clean hy (x5 sx) sy
    obtain ⟨s, k1, k2, _, k4, _⟩ := negate_canon h2.clean
    exact ⟨s, by simp [x1, h1, k1], k2, by rw [k4, h3, x4]; ring⟩
  · obtain ⟨r, h1, h2, h3⟩ := addAssignNonneg_ok x2.clean y2.clean (x5 sx) (y5 sy)
    obtain ⟨s, k1, k2, _, k4, _⟩ := negate_canon h2.clean
    exact ⟨s, by simp [x1, y1, h1, k1], k2, by rw [k4, h3, x4, y4]; ring⟩

theorem subAssign_ok {x y : BigInt} (hx : Clean x) (hy : Clean y) :
    ∃ r, subAssign x y = .ok r ∧ Canon r ∧ r.val = x.val - y.val := by
  obtain ⟨nx, x1, x2, _, x4, x5⟩ := negate_canon hx
  obtain ⟨ny, y1, y2, _, y4, y5⟩ := neg_canon hy
  unfold subAssign
  cases sx : x.negative <;> cases sy : y.negative
  · obtain ⟨r, h1, h2, h3⟩ := subAssignNonneg_ok hx hy sx sy
    exact ⟨r, by simp [h1], h2, h3⟩
  · obtain ⟨r, h1, h2, h3⟩ := addAssignNonneg_ok hx y2.clean sx (y5 sy)
    exact ⟨r, by simp [y1, h1], h2, by rw [h3, y4]; ring⟩
  · obtain ⟨r, h1, h2, h3⟩ := addAssignNonneg_ok x2.clean hy (x5 sx) sy
    obtain ⟨s, k1, k2, _, k4, _⟩ := negate_canon h2.clean
    exact ⟨s, by simp [x1, h1, k1], k2, by rw [k4, h3, x4]; ring⟩
  · obtain ⟨r, h1, h2, h3⟩ := subAssignNonneg_ok x2.clean y2.clean (x5 sx) (y5 sy)
    obtain ⟨s, k1, k2, _, k4, _⟩ := negate_canon h2.clean
    exact ⟨s, by simp [x1, y1, h1, k1], k2, by rw [k4, h3, x4, y4]; ring⟩

/-! ### Construction from a machine integer -/

theorem pushBins_ok (f : Nat) : ∀ {x : Int}, 0 < x → x < B ^ f →
    ∃ l, pushBins f x = .ok l ∧ BinsOK l ∧ mag l = x ∧ l ≠ [] ∧ l.getLast? ≠ some 0 := by
  induction f with
  | zero => intro x h1 h2; simp at h2; omega
  | succ f ih =>
    intro x h1 h2
    unfold pushBins
    by_cases hx : x ≥ 1000000000
    · have e0 : x.tdiv 1000000000 = x / 1000000000 := Int.tdiv_eq_ediv_of_nonneg (by omega)
      have e1 : x.tmod 1000000000 = x % 1000000000 := Int.tmod_eq_emod_of_nonneg (by omega)
      rw [pow_succ] at h2
      obtain ⟨l, k1, k2, k3, k4, k5⟩ := ih (x := x / 1000000000) (by omega) (by omega)
      refine ⟨toI32 (x % 1000000000) :: l, by simp only [hx, if_true, e0, e1, k1, bind_ok, pure_ok], ?_, ?_, by simp, ?_⟩
      · rw [toI32_id (by omega) (by omega), BinsOK_cons]; exact ⟨by omega, k2⟩
      · rw [toI32_id (by omega) (by omega), mag_cons, k3]; omega
      · rwa [List.getLast?_cons_of_ne_nil k4]
    · refine ⟨[toI32 x], by simp [hx, h1], ?_, ?_, by simp, ?_⟩
      · rw [toI32_id (by omega) (by omega)]; simp; omega
      · rw [toI32_id (by omega) (by omega)]; simp
      · rw [toI32_id (by omega) (by omega)]; simp; omega

theorem noLead_shift {l : List Int} (s : Nat) (h : l.getLast? ≠ some 0) (hne : l ≠ []) : NoLead (List.replicate s 0 ++ l) := by
  right
  rw [List.getLast?_append]
  cases hl : l.getLast? with
  | none => simp [List.getLast?_eq_none_iff, hne] at hl
  | some t => rw [hl] at h; simpa using h

theorem ofInt64_ok {x : Int} (s : Nat) (h1 : -9223372036854775807 ≤ x) (h2 : x ≤ 9223372036854775807) :
    ∃ r, ofInt64 x s = .ok r ∧ Canon r ∧ r.val = x * B ^ s ∧ (0 ≤ x → r.negative = false) := by
  unfold ofInt64
  rcases lt_trichotomy x 0 with h | h | h
  · obtain ⟨l, k1, k2, k3, k4, k5⟩ := pushBins_ok 4 (x := -x) (by omega) (by norm_num; omega)
    refine ⟨⟨List.replicate s 0 ++ l, true⟩, ?_, ⟨⟨by simp [k4], by simp [k2]⟩, noLead_shift s k5 k4, ?_⟩, ?_, by omega⟩
    · simp only [h, if_true, i64_ok (z := -x) (by omega) (by omega), bind_ok, k1, pure_ok]
    · intro _
      dsimp only
      rw [mag_append, mag_replicate_zero, List.length_replicate, k3]
      have := B_pow_pos s
      have := Int.mul_pos this (show 0 < -x by omega)
      omega
    · rw [val_of_neg rfl]
      dsimp only
      rw [mag_append, mag_replicate_zero, List.length_replicate, k3]; ring
  · subst h
    exact ⟨⟨[0], false⟩, by simp [setValue_zero], canon_zero, by simp [val], fun _ => rfl⟩
  · obtain ⟨l, k1, k2, k3, k4, k5⟩ := pushBins_ok 4 (x := x) (by omega) (by norm_num; omega)
    refine ⟨⟨List.replicate s 0 ++ l, false⟩, ?_, ⟨⟨by simp [k4], by simp [k2]⟩, noLead_shift s k5 k4, by simp⟩, ?_, fun _ => rfl⟩
    · simp only [not_lt.mpr h.le, if_false, beq_iff_eq, h.ne', k1, bind_ok, pure_ok]
    · rw [val_of_not_neg rfl]
      dsimp only
      rw [mag_append, mag_replicate_zero, List.length_replicate, k3]; ring

theorem addAssign_nonneg {x y : BigInt} (sx : x.negative = false) (sy : y.negative = false) :
    addAssign x y = add x y := by
  have e : ofShift y 0 = y := by simp [ofShift]
  simp [addAssign, sx, sy, addAssignNonneg, e]

/-! ### Multiplication -/

theorem mulByIntLoop_ok {y : Int} (hy0 : 0 ≤ y) (hy1 : y ≤ 2147483647) {bs : List Int} (hb : BinsOK bs) :
    ∀ {i : Nat} {r : BigInt}, Clean r → r.negative = false →
    ∃ r', mulByIntLoop bs y i r = .ok r' ∧ Clean r' ∧ r'.negative = false ∧
      mag r'.bins = mag r.bins + y * B ^ i * mag bs := by
  induction bs with
  | nil => intro i r h1 h2; exact ⟨r, rfl, h1, h2, by simp⟩
  | cons b bs ih =>
    intro i r h1 h2
    rw [BinsOK_cons] at hb
    have p1 : 0 ≤ y * b := by nlinarith
    have p2 : y * b ≤ 2147483647 * 1000000000 := by nlinarith
    obtain ⟨t, t1, t2, t3, t4⟩ := ofInt64_ok (x := y * b) i (by omega) (by omega)
    have t5 := t4 p1
    obtain ⟨s, s1, s2, s3, s4⟩ := add_clean h1 t2.clean
    obtain ⟨r', r1, r2, r3, r4⟩ := ih hb.2 (i := i + 1) s2 (s3.trans h2)
    refine ⟨r', ?_, r2, r3, ?_⟩
    · simp only [mulByIntLoop, i64_ok (z := y * b) (by omega) (by omega), bind_ok, t1,
        addAssign_nonneg h2 t5, s1, r1]
    · rw [r4, s4, ← val_of_not_neg t5, t3, mag_cons, pow_succ]; ring

theorem multiplyByInt_ok {x : BigInt} {y : Int} (hx : BinsOK x.bins) (hy0 : 0 ≤ y) (hy1 : y ≤ 2147483647) :
    ∃ r, multiplyByInt x y = .ok r ∧ Canon r ∧ r.negative = false ∧ mag r.bins = y * mag x.bins := by
  obtain ⟨r, r1, r2, r3, r4⟩ := mulByIntLoop_ok hy0 hy1 hx (i := 0) clean_zero rfl
  refine ⟨r, by simp only [multiplyByInt, setValue_zero, bind_ok, r1], r2.canon_of_not_neg r3, r3, ?_⟩
  rw [r4]; simp

theorem multiplyLoop_append (x : BigInt) (l m : List Int) (i : Nat) (r : BigInt) :
    multiplyLoop x (l ++ m) i r = (do let r' ← multiplyLoop x l i r; multiplyLoop x m (i + l.length) r') := by
  induction l generalizing i r with
  | nil => simp [multiplyLoop]
  | cons b bs ih =>
    simp only [List.cons_append, multiplyLoop, List.length_cons]
    cases multiplyByInt x b with
    | error e => rfl
    | ok p =>
      simp only [bind_ok]
      cases addAssign r (ofShift p i) with
      | error e => rfl
      | ok s => simp only [bind_ok, ih]; rw [show i + 1 + bs.length = i + (bs.length + 1) by omega]

theorem ofShift_wf {p : BigInt} (h : WF p) (i : Nat) : WF (ofShift p i) ∧ mag (ofShift p i).bins = B ^ i * mag p.bins ∧
    (ofShift p i).negative = p.negative ∧ (ofShift p i).bins.length = i + p.bins.length := by
  refine ⟨⟨by simp [ofShift, h.1], by simp [ofShift, h.2]⟩, ?_, rfl, by simp [ofShift]⟩
  simp [ofShift, mag_append]

theorem multiplyLoop_ok {x : BigInt} (hx : WF x) {bs : List Int} (hb : BinsOK bs) :
    ∀ {i : Nat} {r : BigInt}, WF r → r.negative = false → r.bins.length ≤ i + x.bins.length →
      mag r.bins < B ^ (i + x.bins.length) →
    ∃ r', multiplyLoop x bs i r = .ok r' ∧ WF r' ∧ r'.negative = false ∧
      mag r'.bins = mag r.bins + B ^ i * mag bs * mag x.bins ∧ r'.bins.length ≤ i + bs.length + x.bins.length := by
  induction bs with
  | nil => intro i r h1 h2 h3 _; exact ⟨r, rfl, h1, h2, by simp, by simpa using h3⟩
  | cons b bs ih =>
    intro i r h1 h2 h3 h4
    rw [BinsOK_cons] at hb
    obtain ⟨p, p1, p2, p3, p4⟩ := multiplyByInt_ok (y := b) hx.2 (by omega) (by omega)
    obtain ⟨q1, q2, q3, q4⟩ := ofShift_wf p2.1 i
    obtain ⟨s, s1, s2, s3, s4, s5⟩ := add_ok h1 q1
    have hx0 := mag_nonneg hx.2
    have hx1 := mag_lt hx.2
    have hpl : p.bins.length ≤ x.bins.length + 1 := by
      apply noLead_length_le p2.1.2 p2.2.1 (by omega)
      rw [p4, pow_succ]; nlinarith
    have hsm : mag s.bins < B ^ (i + 1 + x.bins.length) := by
      rw [s4, q2, p4]
      have e : (B : Int) ^ (i + x.bins.length) = B ^ i * B ^ x.bins.length := pow_add _ _ _
      rw [e] at h4
      rw [pow_add, pow_succ]
      have := B_pow_pos i
      have h5 : b * mag x.bins ≤ 999999999 * B ^ x.bins.length := by nlinarith
      have h6 : B ^ i * (b * mag x.bins) ≤ B ^ i * (999999999 * B ^ x.bins.length) := by nlinarith
      nlinarith
    have hsl : s.bins.length ≤ i + 1 + x.bins.length := by
      rcases s5 with s5 | ⟨s5, s6⟩
      · omega
      · by_contra hc
        have : (B ^ (i + 1 + x.bins.length) : Int) ≤ B ^ (max r.bins.length (ofShift p i).bins.length) :=
          pow_le_pow_right₀ (by norm_num) (by omega)
        omega
    obtain ⟨r', r1, r2, r3, r4, r5⟩ := ih hb.2 (i := i + 1) s2 (s3.trans h2) hsl hsm
    refine ⟨r', ?_, r2, r3, ?_, by simp only [List.length_cons]; omega⟩
    · simp only [multiplyLoop, p1, bind_ok, addAssign_nonneg h2 (q3.trans p3), s1, r1]
    · rw [r4, s4, q2, p4, mag_cons, pow_succ]; ring

/-- `multiply` multiplies magnitudes of arbitrary well-formed operands. -/
theorem multiply_ok {x y : BigInt} (hx : WF x) (hy : WF y) :
    ∃ r, multiply x y = .ok r ∧ WF r ∧ r.negative = false ∧ mag r.bins = mag x.bins * mag y.bins := by
  have hp := hx.pos_length
  have hp1 : (1:Int) ≤ B ^ x.bins.length := B_pow_pos _
  obtain ⟨r, r1, r2, r3, r4, _⟩ := multiplyLoop_ok hx hy.2 (i := 0) (r := ⟨[0], false⟩) WF_zero rfl
    (by simp; omega) (by simp)
  exact ⟨r, by simp only [multiply, setValue_zero, bind_ok, r1], r2, r3, by rw [r4]; simp; ring⟩

/-- `multiply` yields no leading zeros when its first operand is not zero, or the second has one bin. -/
theorem multiply_noLead {x y r : BigInt} (hx : Clean x) (hy : Clean y) (h : mag x.bins ≠ 0 ∨ y.bins.length = 1)
    (hr : multiply x y = .ok r) : NoLead r.bins := by
  have hp := hx.1.pos_length
  have hp1 : (1:Int) ≤ B ^ x.bins.length := B_pow_pos _
  have hx0 := mag_nonneg hx.1.2
  have hx1 := mag_lt hx.1.2
  rcases eq_nil_or_snoc y.bins with h0 | ⟨l, t, hl⟩
  · exact absurd h0 hy.1.1
  have hyb := hy.1.2
  rw [hl, BinsOK_append] at hyb
  have hl1 := mag_lt hyb.1
  have hl0 := mag_nonneg hyb.1
  have ht := hyb.2 t (by simp)
  obtain ⟨u, u1, u2, u3, u4, u5⟩ := multiplyLoop_ok hx.1 hyb.1 (i := 0) (r := ⟨[0], false⟩) WF_zero rfl
    (by simp; omega) (by simp)
  simp only [multiply, setValue_zero, bind_ok, hl, multiplyLoop_append, u1, multiplyLoop] at hr
  obtain ⟨p, p1, p2, p3, p4⟩ := multiplyByInt_ok (x := x) (y := t) hx.1.2 (by omega) (by omega)
  obtain ⟨q1, q2, q3, q4⟩ := ofShift_wf p2.1 (0 + l.length)
  obtain ⟨s, s1, s2, s3, s4, s5⟩ := add_ok u2 q1
  rw [p1, bind_ok, addAssign_nonneg u3 (q3.trans p3), s1, bind_ok] at hr
  obtain rfl : s = r := by simpa using hr
  have n1 := hy.2
  rw [hl, noLead_append_singleton] at n1
  by_cases hl0 : l = []
  · subst hl0
    simp only [List.length_nil, add_zero, multiplyLoop, Except.ok.injEq, ofShift, List.replicate_zero, List.nil_append] at u1 q4 s5 s4
    subst u1
    refine add_noLead (la := [0]) (lx := p.bins) s2.2 (le_refl 0) (mag_nonneg p2.1.2) (by simp)
      ((noLead_iff p2.1.2).mp p2.2.1) (by simpa using s4) s5
  · have ht0 : t ≠ 0 := n1.resolve_left hl0
    have hxm : mag x.bins ≠ 0 := by
      refine h.resolve_right ?_
      rw [hl]; simpa using hl0
    have hpx : mag x.bins ≤ mag p.bins := by rw [p4]; nlinarith [show 1 ≤ t by omega]
    have hlx := length_le_of_mag_le hx.1.2 p2.1.2 hx.2 p2.1.1 hpx
    have hpp : 1 ≤ mag p.bins := by omega
    have hmax : max u.bins.length (ofShift p (0 + l.length)).bins.length = l.length + p.bins.length := by omega
    rw [noLead_iff s2.2]
    right
    rcases s5 with s5 | ⟨s5, s6⟩
    · rw [s5, hmax, s4, q2]
      have hp0 := p2.1.pos_length
      have np := (noLead_iff p2.1.2).mp p2.2.1
      have hlow : (B:Int) ^ (p.bins.length - 1) ≤ mag p.bins := by
        rcases np with np | np
        · rw [show p.bins.length - 1 = 0 by omega]; simpa using hpp
        · exact np
      rw [show l.length + p.bins.length - 1 = l.length + (p.bins.length - 1) by omega, pow_add, zero_add]
      have := B_pow_pos l.length
      have := mag_nonneg u2.2
      nlinarith
    · rw [s5]; simpa using s6

theorem opMul_ok {x y : BigInt} (hx : Clean x) (hy : Clean y) :
    ∃ r, opMul x y = .ok r ∧ Canon r ∧ r.val = x.val * y.val := by
  have hmul : ∃ r, (if x.bins.length > y.bins.length then multiply x y else multiply y x) = .ok r ∧ Clean r ∧
      r.negative = false ∧ mag r.bins = mag x.bins * mag y.bins := by
    have key : ∀ {a b : BigInt}, Clean a → Clean b → b.bins.length ≤ a.bins.length →
        ∃ r, multiply a b = .ok r ∧ Clean r ∧ r.negative = false ∧ mag r.bins = mag a.bins * mag b.bins := by
      intro a b ha hb hle
      obtain ⟨r, r1, r2, r3, r4⟩ := multiply_ok ha.1 hb.1
      refine ⟨r, r1, ⟨r2, multiply_noLead ha hb ?_ r1⟩, r3, r4⟩
      by_cases h0 : mag a.bins = 0
      · right
        have h1 := length_le_of_mag_le ha.1.2 (m := [0]) (by simp) ha.2 (by simp) (by simp [h0])
        have := hb.1.pos_length
        simp only [List.length_singleton] at h1
        omega
      · exact .inl h0
    split
    · exact key hx hy (by omega)
    · obtain ⟨r, r1, r2, r3, r4⟩ := key hy hx (by omega)
      exact ⟨r, r1, r2, r3, by rw [r4, mul_comm]⟩
  obtain ⟨r, r1, r2, r3, r4⟩ := hmul
  have vr := val_of_not_neg r3
  unfold opMul
  rw [r1, bind_ok]
  by_cases hs : x.negative = y.negative
  · refine ⟨r, by simp [hs], r2.canon_of_not_neg r3, ?_⟩
    rw [vr, r4]; unfold val; rw [hs]; split <;> ring
  · obtain ⟨s, k1, k2, _, k4, _⟩ := negate_canon r2
    refine ⟨s, ?_, k2, ?_⟩
    · have : (x.negative != y.negative) = true := by simpa using hs
      rw [this]; exact k1
    · rw [k4, vr, r4]; unfold val
      cases hx' : x.negative <;> cases hy' : y.negative <;> simp_all

/-- `*=` always has the right value; it is canonical when neither operand is zero. -/
theorem mulAssign_ok {x y : BigInt} (hx : WF x) (hy : WF y) :
    ∃ r, mulAssign x y = .ok r ∧ WF r ∧ r.val = x.val * y.val ∧ r.negative = (x.negative != y.negative) := by
  obtain ⟨r, r1, r2, r3, r4⟩ := multiply_ok hx hy
  refine ⟨{ r with negative := x.negative != y.negative }, by simp only [mulAssign, r1, bind_ok, pure_ok], r2, ?_, rfl⟩
  unfold val; dsimp only; rw [r4]
  cases x.negative <;> cases y.negative <;> simp

theorem mulAssign_canon {x y : BigInt} (hx : Clean x) (hy : Clean y) (hx0 : x.val ≠ 0) (hy0 : y.val ≠ 0) :
    ∃ r, mulAssign x y = .ok r ∧ Canon r ∧ r.val = x.val * y.val := by
  obtain ⟨r, r1, r2, r3, r4⟩ := multiply_ok hx.1 hy.1
  have hn := multiply_noLead hx hy (.inl (by rwa [ne_eq, ← val_eq_zero_iff])) r1
  obtain ⟨s, s1, s2, s3, s4⟩ := mulAssign_ok hx.1 hy.1
  simp only [mulAssign, r1, bind_ok, pure_ok, Except.ok.injEq] at s1
  refine ⟨s, by simp [mulAssign, r1, s1], ⟨s2, ?_, ?_⟩, s3⟩
  · rw [← s1]; exact hn
  · intro _
    rw [ne_eq, ← val_eq_zero_iff, s3]; exact mul_ne_zero hx0 hy0

end CppMaths.BigInt
