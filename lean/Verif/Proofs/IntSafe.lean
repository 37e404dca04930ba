import Verif.Proofs.IntMore
/-!
# Operations on arbitrary well-formed `Int`s

Leading zero bins and negative zeros are allowed here: an operation then either returns an object of the right value or
fails with one of its assertions (or with `divide_by_zero_error`).
-/

namespace CppMaths.BigInt

/-- The call returns a well-formed object of value `v` that is not a negative zero, or an assertion fails. -/
def Good (r : Res BigInt) (v : Int) : Prop :=
  (∃ a, r = .ok a ∧ WF a ∧ a.val = v ∧ (a.negative = true → mag a.bins ≠ 0)) ∨ r = .error .assertion

theorem subtract_wf {a x : BigInt} (ha : WF a) (hx : WF x) (hge : mag x.bins ≤ mag a.bins) :
    (∃ r, subtract a x = .ok r ∧ WF r ∧ r.negative = a.negative ∧ mag r.bins = mag a.bins - mag x.bins) ∨
    subtract a x = .error .assertion := by
  by_cases h : NoLead a.bins ∧ NoLead x.bins
  · obtain ⟨r, r1, r2, r3, r4, _⟩ := subtract_ok ha hx h.1 h.2 hge
    exact .inl ⟨r, r1, r2, r3, r4⟩
  · exact .inr (subtract_fail (by tauto))

theorem addNonneg_wf {x y : BigInt} (hx : WF x) (hy : WF y) (sx : x.negative = false) (sy : y.negative = false) :
    ∃ r, addNonneg x y = .ok r ∧ WF r ∧ r.negative = false ∧ r.val = x.val + y.val := by
  unfold addNonneg
  split
  · obtain ⟨r, h1, h2, h3, h4, _⟩ := add_ok hx hy
    rw [sx] at h3
    exact ⟨r, h1, h2, h3, by rw [val_of_not_neg h3, val_of_not_neg sx, val_of_not_neg sy, h4]⟩
  · obtain ⟨r, h1, h2, h3, h4, _⟩ := add_ok hy hx
    rw [sy] at h3
    exact ⟨r, h1, h2, h3, by rw [val_of_not_neg h3, val_of_not_neg sx, val_of_not_neg sy, h4, add_comm]⟩

theorem Good.negate {r : Res BigInt} {v : Int} (h : Good r v) : Good (do let a ← r; a.negate) (-v) := by
  rcases h with ⟨a, rfl, h1, h2, h3⟩ | rfl
  · obtain ⟨s, s1, s2, s3, s4, s5, _⟩ := negate_ok h1
    exact .inl ⟨s, by simp [s1], s2, by rw [s4, h2], s5⟩
  · exact .inr rfl

theorem Good.neg {r : Res BigInt} {v : Int} (h : Good r v) : Good (do let a ← r; a.neg) (-v) := by
  rcases h with ⟨a, rfl, h1, h2, h3⟩ | rfl
  · obtain ⟨s, s1, s2, s3, s4, s5, _⟩ := neg_ok h1
    exact .inl ⟨s, by simp [s1], s2, by rw [s4, h2], s5⟩
  · exact .inr rfl

theorem subNonneg_wf {x y : BigInt} (hx : WF x) (hy : WF y) (sx : x.negative = false) (sy : y.negative = false) :
    Good (subNonneg x y) (x.val - y.val) := by
  have vx := val_of_not_neg sx
  have vy := val_of_not_neg sy
  unfold subNonneg
  rw [gt_spec hx hy]
  by_cases h : x.val > y.val
  · have hc := cleaned hx
    simp only [h, decide_true, bind_ok, if_true]
    rcases subtract_wf hc.1 hy (by dsimp only; rw [mag_cleanBins]; omega) with ⟨r, h1, h2, h3, h4⟩ | he
    · dsimp only at h3 h4
      rw [sx] at h3
      refine .inl ⟨r, h1, h2, ?_, by simp [h3]⟩
      rw [val_of_not_neg h3, h4, vx, vy, mag_cleanBins]
    · exact .inr he
  · have hc := cleaned hy
    simp only [h, decide_false, bind_ok, Bool.false_eq_true, if_false]
    have : Good (BigInt.subtract { y with bins := cleanBins y.bins } x) (y.val - x.val) := by
      rcases subtract_wf hc.1 hx (by dsimp only; rw [mag_cleanBins]; omega) with ⟨r, h1, h2, h3, h4⟩ | he
      · dsimp only at h3 h4
        rw [sy] at h3
        refine .inl ⟨r, h1, h2, ?_, by simp [h3]⟩
        rw [val_of_not_neg h3, h4, vx, vy, mag_cleanBins]
      · exact .inr he
    have := this.negate
    rwa [neg_sub] at this

theorem addNonneg_good {x y : BigInt} (hx : WF x) (hy : WF y) (sx : x.negative = false) (sy : y.negative = false) :
    Good (addNonneg x y) (x.val + y.val) := by
  obtain ⟨r, h1, h2, h3, h4⟩ := addNonneg_wf hx hy sx sy
  exact .inl ⟨r, h1, h2, h4, by simp [h3]⟩

theorem opAdd_wf {x y : BigInt} (hx : WF x) (hy : WF y) : Good (opAdd x y) (x.val + y.val) := by
  obtain ⟨nx, x1, x2, _, x4, _, x5⟩ := neg_ok hx
  obtain ⟨ny, y1, y2, _, y4, _, y5⟩ := neg_ok hy
  unfold opAdd
  cases sx : x.negative <;> cases sy : y.negative
  · simpa using addNonneg_good hx hy sx sy
  · have := subNonneg_wf hx y2 sx (y5 sy)
    rw [y4, sub_neg_eq_add] at this
    simpa [y1] using this
  · have := (subNonneg_wf x2 hy (x5 sx) sy).neg
    rw [x4, show -(-x.val - y.val) = x.val + y.val by ring] at this
    simpa [x1] using this
  · have := (addNonneg_good x2 y2 (x5 sx) (y5 sy)).neg
    rw [x4, y4, show -(-x.val + -y.val) = x.val + y.val by ring] at this
    simpa [x1, y1] using this

theorem opSub_wf {x y : BigInt} (hx : WF x) (hy : WF y) : Good (opSub x y) (x.val - y.val) := by
  obtain ⟨nx, x1, x2, _, x4, _, x5⟩ := neg_ok hx
  obtain ⟨ny, y1, y2, _, y4, _, y5⟩ := neg_ok hy
  unfold opSub
  cases sx : x.negative <;> cases sy : y.negative
  · simpa using subNonneg_wf hx hy sx sy
  · have := addNonneg_good hx y2 sx (y5 sy)
    rw [y4, ← sub_eq_add_neg] at this
    simpa [y1] using this
  · have := (addNonneg_good x2 hy (x5 sx) sy).neg
    rw [x4, show -(-x.val + y.val) = x.val - y.val by ring] at this
    simpa [x1] using this
  · have := (subNonneg_wf x2 y2 (x5 sx) (y5 sy)).neg
    rw [x4, y4, show -(-x.val - -y.val) = x.val - y.val by ring] at this
    simpa [x1, y1] using this

theorem addAssignNonneg_good {x y : BigInt} (hx : WF x) (hy : WF y) (sx : x.negative = false) (sy : y.negative = false) :
    Good (addAssignNonneg x y) (x.val + y.val) := by
  have e : ofShift y 0 = y := by simp [ofShift]
  unfold addAssignNonneg
  rw [e]
  obtain ⟨r, h1, h2, h3, h4, _⟩ := add_ok hx hy
  rw [sx] at h3
  exact .inl ⟨r, h1, h2, by rw [val_of_not_neg h3, val_of_not_neg sx, val_of_not_neg sy, h4], by simp [h3]⟩

theorem subAssignNonneg_wf {x y : BigInt} (hx : WF x) (hy : WF y) (sx : x.negative = false) (sy : y.negative = false) :
    Good (subAssignNonneg x y) (x.val - y.val) := by
  have vx := val_of_not_neg sx
  have vy := val_of_not_neg sy
  unfold subAssignNonneg
  rw [gt_spec hx hy]
  by_cases h : x.val > y.val
  · simp only [h, decide_true, bind_ok, if_true]
    rcases subtract_wf hx hy (by omega) with ⟨r, h1, h2, h3, h4⟩ | he
    · rw [sx] at h3
      refine .inl ⟨r, h1, h2, ?_, by simp [h3]⟩
      rw [val_of_not_neg h3, h4, vx, vy]
    · exact .inr he
  · simp only [h, decide_false, bind_ok, Bool.false_eq_true, if_false]
    have : Good (y.subtract x) (y.val - x.val) := by
      rcases subtract_wf hy hx (by omega) with ⟨r, h1, h2, h3, h4⟩ | he
      · rw [sy] at h3
        refine .inl ⟨r, h1, h2, ?_, by simp [h3]⟩
        rw [val_of_not_neg h3, h4, vx, vy]
      · exact .inr he
    have := this.negate
    rwa [neg_sub] at this

theorem addAssign_wf {x y : BigInt} (hx : WF x) (hy : WF y) : Good (addAssign x y) (x.val + y.val) := by
  obtain ⟨nx, x1, x2, _, x4, _, x5⟩ := negate_ok hx
  obtain ⟨ny, y1, y2, _, y4, _, y5⟩ := neg_ok hy
  unfold addAssign
  cases sx : x.negative <;> cases sy : y.negative
  · simpa using addAssignNonneg_good hx hy sx sy
  · have := subAssignNonneg_wf hx y2 sx (y5 sy)
    rw [y4, sub_neg_eq_add] at this
    simpa [y1] using this
  · have := (subAssignNonneg_wf x2 hy (x5 sx) sy).negate
    rw [x4, show -(-x.val - y.val) = x.val + y.val by ring] at this
    simpa [x1] using this
  · have := (addAssignNonneg_good x2 y2 (x5 sx) (y5 sy)).negate
    rw [x4, y4, show -(-x.val + -y.val) = x.val + y.val by ring] at this
    simpa [x1, y1] using this

theorem subAssign_wf {x y : BigInt} (hx : WF x) (hy : WF y) : Good (subAssign x y) (x.val - y.val) := by
  obtain ⟨nx, x1, x2, _, x4, _, x5⟩ := negate_ok hx
  obtain ⟨ny, y1, y2, _, y4, _, y5⟩ := neg_ok hy
  unfold subAssign
  cases sx : x.negative <;> cases sy : y.negative
  · simpa using subAssignNonneg_wf hx hy sx sy
  · have := addAssignNonneg_good hx y2 sx (y5 sy)
    rw [y4, ← sub_eq_add_neg] at this
    simpa [y1] using this
  · have := (addAssignNonneg_good x2 hy (x5 sx) sy).negate
    rw [x4, show -(-x.val + y.val) = x.val - y.val by ring] at this
    simpa [x1] using this
  · have := (subAssignNonneg_wf x2 y2 (x5 sx) (y5 sy)).negate
    rw [x4, y4, show -(-x.val - -y.val) = x.val - y.val by ring] at this
    simpa [x1, y1] using this

/-- Modulo of arbitrary well-formed operands. -/
theorem modulo_wf {x y : BigInt} (hx : WF x) (hy : WF y) :
    (y.val = 0 → modulo x y = .error .divideByZero) ∧ (y.val ≠ 0 → Good (modulo x y) (x.val.fmod y.val)) := by
  have key : ∀ {z : BigInt}, WF z → ∃ a, (if (ofShift z 0).negative = true then (ofShift z 0).negate else pure (ofShift z 0)) = .ok a ∧
      WF a ∧ a.negative = false ∧ a.bins = z.bins := by
    intro z hz
    have e : ofShift z 0 = z := by simp [ofShift]
    rw [e]
    by_cases hn : z.negative = true
    · obtain ⟨a, a1, a2, a3, _, _, a5⟩ := negate_ok hz
      exact ⟨a, by simp [hn, a1], a2, a5 hn, a3⟩
    · exact ⟨z, by simp [hn], hz, by simpa using hn, rfl⟩
  obtain ⟨a, a1, a2, a3, a4⟩ := key hx
  obtain ⟨b, b1, b2, b3, b4⟩ := key hy
  have va : a.val = mag x.bins := by rw [val_of_not_neg a3, a4]
  have vb : b.val = mag y.bins := by rw [val_of_not_neg b3, b4]
  obtain ⟨d1, d2, d3⟩ := divide_spec a2 b2
  have hbz : b.val = 0 ↔ y.val = 0 := by rw [vb, ← val_eq_zero_iff]
  rw [hbz] at d1
  rw [ne_eq, hbz] at d2 d3
  have hA := mag_nonneg hx.2
  have hB0 := mag_nonneg hy.2
  unfold modulo
  simp only [a1, b1, bind_ok, opDiv_eq]
  refine ⟨fun h => by rw [d1 h]; rfl, fun h1 => ?_⟩
  by_cases htr : DivTrips a b
  · right; rw [d2 h1 htr]; rfl
  obtain ⟨q, q1, q2, q3⟩ := d3 h1 htr
  have hY : 0 < mag y.bins := by
    have : mag y.bins ≠ 0 := by rwa [ne_eq, ← val_eq_zero_iff]
    omega
  obtain ⟨p, p1, p2, p3, _⟩ := opMul_wf q2.1 b2
  simp only [q1, bind_ok, p1]
  rcases opSub_wf a2 p2 with ⟨r, r1, r2, r3, r4⟩ | he
  swap
  · right; rw [he]; rfl
  rw [va, vb] at q3
  rw [Int.tdiv_eq_ediv_of_nonneg hA] at q3
  rw [va, p3, q3, vb] at r3
  have hdm := Int.mul_ediv_add_emod (mag x.bins) (mag y.bins)
  have m0 := Int.emod_nonneg (mag x.bins) hY.ne'
  have m1 := Int.emod_lt_of_pos (mag x.bins) hY
  have hr : r.val = mag x.bins % mag y.bins := by rw [r3, mul_comm]; omega
  simp only [r1, bind_ok, equalsInt32_zero r2, ← val_eq_zero_iff, hr]
  generalize hm : mag x.bins % mag y.bins = m at *
  by_cases hz : m = 0
  · refine .inl ⟨r, by simp [hz], r2, ?_, r4⟩
    rw [hr, hz, eq_comm]
    unfold val
    cases hsx : x.negative <;> cases hsy : y.negative
    · exact fmod_unique (k := mag x.bins / mag y.bins) (by simp; omega) (by simp; omega)
    · exact fmod_unique (k := -(mag x.bins / mag y.bins)) (by simp; omega) (by simp; omega)
    · exact fmod_unique (k := -(mag x.bins / mag y.bins)) (by simp; omega) (by simp; omega)
    · exact fmod_unique (k := mag x.bins / mag y.bins) (by simp; omega) (by simp; omega)
  · simp only [hz, decide_false, Bool.false_eq_true, if_false]
    cases hsx : x.negative <;> cases hsy : y.negative
    · refine .inl ⟨r, by simp, r2, ?_, r4⟩
      rw [hr, val_of_not_neg hsx, val_of_not_neg hsy, eq_comm]
      exact fmod_unique (k := mag x.bins / mag y.bins) (by omega) (by omega)
    · have hg := addAssign_wf r2 hy
      have hv : r.val + y.val = x.val.fmod y.val := by
        rw [hr, val_of_not_neg hsx, val_of_neg hsy, eq_comm]
        refine fmod_unique (k := -(mag x.bins / mag y.bins) - 1) ?_ (by omega)
        have : -mag y.bins * (-(mag x.bins / mag y.bins) - 1) = mag y.bins * (mag x.bins / mag y.bins) + mag y.bins := by ring
        omega
      rw [hv] at hg
      simpa using hg
    · have hg := opSub_wf hy r2
      have hv : y.val - r.val = x.val.fmod y.val := by
        rw [hr, val_of_neg hsx, val_of_not_neg hsy, eq_comm]
        refine fmod_unique (k := -(mag x.bins / mag y.bins) - 1) ?_ (by omega)
        have : mag y.bins * (-(mag x.bins / mag y.bins) - 1) = -(mag y.bins * (mag x.bins / mag y.bins)) - mag y.bins := by ring
        omega
      rw [hv] at hg
      simpa using hg
    · have hg : Good r.negate (x.val.fmod y.val) := by
        obtain ⟨s, s1, s2, _, s4, s5, _⟩ := negate_ok r2
        refine .inl ⟨s, s1, s2, ?_, s5⟩
        rw [s4, hr, val_of_neg hsx, val_of_neg hsy, eq_comm]
        refine fmod_unique (k := mag x.bins / mag y.bins) ?_ (by omega)
        have : -mag y.bins * (mag x.bins / mag y.bins) = -(mag y.bins * (mag x.bins / mag y.bins)) := by ring
        omega
      simpa using hg

/-! ### Exponentiation -/

/-- The call returns a well-formed object or an assertion fails. -/
def OkOrAssert (r : Res BigInt) : Prop := (∃ a, r = .ok a ∧ WF a) ∨ r = .error .assertion

theorem exponentiateF_wf {x : BigInt} (hx : WF x) (f : Nat) :
    ∀ {y : BigInt}, WF y → y.negative = false → mag y.bins < f → OkOrAssert (exponentiateF f x y) := by
  induction f with
  | zero =>
    intro y hy _ hf
    have := mag_nonneg hy.2
    push_cast at hf; omega
  | succ f ih =>
    intro y hy hs hf
    have hm0 := mag_nonneg hy.2
    unfold exponentiateF
    rw [equalsInt32_zero hy]
    by_cases hz : mag y.bins = 0
    · exact .inl ⟨⟨[1], false⟩, by simp [hz, setValue_one], by decide⟩
    obtain ⟨e, e1, _⟩ := equalsInt32_spec hy (v := 1) (by omega) (by omega)
    simp only [hz, decide_false, bind_ok, Bool.false_eq_true, if_false, e1]
    cases e
    · simp only [Bool.false_eq_true, if_false, isOdd_spec hy, bind_ok]
      by_cases hodd : mag y.bins % 2 = 1
      · obtain ⟨one, o1, o2, o3, _⟩ := ofInt64_ok (x := 1) 0 (by omega) (by omega)
        have o3 : one.val = 1 := by simpa using o3
        simp only [hodd, decide_true, if_true, o1, bind_ok]
        rcases opSub_wf hy o2.1 with ⟨y1, k1, k2, k3, k4⟩ | he
        · rw [o3, val_of_not_neg hs] at k3
          have hn : y1.negative = false := by
            by_contra hc
            have hc : y1.negative = true := by simpa using hc
            have h1 := k4 hc
            have h2 := mag_nonneg k2.2
            rw [val_of_neg hc] at k3
            omega
          have hm1 : mag y1.bins = mag y.bins - 1 := by rw [← val_of_not_neg hn, k3]
          simp only [k1, bind_ok]
          rcases ih k2 hn (by rw [hm1]; push_cast at hf; omega) with ⟨a, a1, a2⟩ | he
          · obtain ⟨p, p1, p2, _⟩ := opMul_wf hx a2
            exact .inl ⟨p, by simp [a1, p1], p2⟩
          · exact .inr (by rw [he]; rfl)
        · exact .inr (by rw [he]; rfl)
      · obtain ⟨h', k1, k2, k3, _, k5⟩ := divideByInt_ok (res := default) hy (y := 2) (by omega) (by omega)
        simp only [hodd, decide_false, Bool.false_eq_true, if_false, k1, bind_ok]
        rcases ih k2 k3 (by rw [k5]; push_cast at hf; omega) with ⟨a, a1, a2⟩ | he
        · obtain ⟨p, p1, p2, _⟩ := opMul_wf a2 a2
          exact .inl ⟨p, by simp [a1, p1], p2⟩
        · exact .inr (by rw [he]; rfl)
    · exact .inl ⟨x, by simp, hx⟩

theorem exponentiate_wf {x y : BigInt} (hx : WF x) (hy : WF y) : OkOrAssert (exponentiate x y) := by
  have hm0 := mag_nonneg hy.2
  have hml := mag_lt hy.2
  -- one step for an even magnitude
  have even : ∀ (f : Nat) {z : BigInt}, WF z → mag z.bins % 2 = 0 → mag z.bins < f → OkOrAssert (exponentiateF (f + 1) x z) := by
    intro f z hz he hf
    unfold exponentiateF
    have hz0 := mag_nonneg hz.2
    rw [equalsInt32_zero hz]
    by_cases h0 : mag z.bins = 0
    · exact .inl ⟨⟨[1], false⟩, by simp [h0, setValue_one], by decide⟩
    obtain ⟨e, e1, _⟩ := equalsInt32_spec hz (v := 1) (by omega) (by omega)
    simp only [h0, decide_false, bind_ok, Bool.false_eq_true, if_false, e1]
    cases e
    · obtain ⟨h', k1, k2, k3, _, k5⟩ := divideByInt_ok (res := default) hz (y := 2) (by omega) (by omega)
      have hodd : ¬mag z.bins % 2 = 1 := by omega
      simp only [Bool.false_eq_true, if_false, isOdd_spec hz, bind_ok, hodd, decide_false, k1]
      rcases exponentiateF_wf hx f k2 k3 (by rw [k5]; omega) with ⟨a, a1, a2⟩ | he
      · obtain ⟨p, p1, p2, _⟩ := opMul_wf a2 a2
        exact .inl ⟨p, by simp [a1, p1], p2⟩
      · exact .inr (by rw [he]; rfl)
    · exact .inl ⟨x, by simp, hx⟩
  unfold exponentiate
  cases hs : y.negative
  · exact exponentiateF_wf hx _ hy hs (by push_cast; omega)
  · by_cases he : mag y.bins % 2 = 0
    · exact even (2 * 1000000000 ^ y.bins.length + 3) hy he (by push_cast; omega)
    · unfold exponentiateF
      rw [equalsInt32_zero hy]
      have hz : ¬mag y.bins = 0 := by omega
      have hodd : mag y.bins % 2 = 1 := by omega
      obtain ⟨e, e1, _⟩ := equalsInt32_spec hy (v := 1) (by omega) (by omega)
      simp only [hz, decide_false, bind_ok, Bool.false_eq_true, if_false, e1]
      cases e
      · obtain ⟨one, o1, o2, o3, _⟩ := ofInt64_ok (x := 1) 0 (by omega) (by omega)
        have o3 : one.val = 1 := by simpa using o3
        simp only [Bool.false_eq_true, if_false, isOdd_spec hy, bind_ok, hodd, decide_true, if_true, o1]
        rcases opSub_wf hy o2.1 with ⟨y1, k1, k2, k3, _⟩ | he
        · have hab := abs_val k2
          rw [k3, o3, val_of_neg hs, abs_of_neg (by omega)] at hab
          simp only [k1, bind_ok]
          rcases even (2 * 1000000000 ^ y.bins.length + 2) k2 (by omega) (by push_cast; omega) with ⟨a, a1, a2⟩ | he
          · obtain ⟨p, p1, p2, _⟩ := opMul_wf hx a2
            exact .inl ⟨p, by simp [a1, p1], p2⟩
          · exact .inr (by rw [he]; rfl)
        · exact .inr (by rw [he]; rfl)
      · exact .inl ⟨x, by simp, hx⟩

/-! ### `times_power_ten` -/

theorem mulTenLoop_wf (n : Nat) : ∀ {a : BigInt}, WF a → ∃ r, mulTenLoop n a = .ok r ∧ WF r ∧ r.val = a.val * 10 ^ n := by
  induction n with
  | zero => intro a ha; exact ⟨a, rfl, ha, by simp⟩
  | succ n ih =>
    intro a ha
    obtain ⟨ten, t1, t2, t3, _⟩ := ofInt64_ok (x := 10) 0 (by omega) (by omega)
    have t3 : ten.val = 10 := by simpa using t3
    obtain ⟨s, s1, s2, s3, _⟩ := mulAssign_ok ha t2.1
    obtain ⟨r, r1, r2, r3⟩ := ih s2
    exact ⟨r, by simp only [mulTenLoop, t1, bind_ok, s1, r1], r2, by rw [r3, s3, t3, pow_succ]; ring⟩

theorem divTenLoop_wf (n : Nat) : ∀ {a : BigInt}, WF a →
    (∃ r, divTenLoop n a = .ok r ∧ WF r ∧ r.val = a.val.tdiv (10 ^ n)) ∨ divTenLoop n a = .error .assertion := by
  induction n with
  | zero => intro a ha; exact .inl ⟨a, rfl, ha, by simp⟩
  | succ n ih =>
    intro a ha
    obtain ⟨ten, t1, t2, t3, _⟩ := ofInt64_ok (x := 10) 0 (by omega) (by omega)
    have t3 : ten.val = 10 := by simpa using t3
    obtain ⟨_, d2, d3⟩ := divide_spec ha t2.1
    by_cases htr : DivTrips a ten
    · right
      simp only [divTenLoop, t1, bind_ok, divAssign_eq, d2 (by omega) htr, bind_err]
    · obtain ⟨s, s1, s2, s3⟩ := d3 (by omega) htr
      rcases ih s2.1 with ⟨r, r1, r2, r3⟩ | hr
      · left
        refine ⟨r, by simp only [divTenLoop, t1, bind_ok, divAssign_eq, s1, r1], r2, ?_⟩
        rw [r3, s3, t3, tdiv_tdiv_pos (by norm_num), pow_succ, mul_comm]
      · right
        simp only [divTenLoop, t1, bind_ok, divAssign_eq, s1, hr]

/-- `times_power_ten` on arbitrary well-formed objects. -/
theorem timesPowerTen_wf {a : BigInt} (ha : WF a) {p : Int} (hp : -2147483647 ≤ p) :
    (∃ r, timesPowerTen a p = .ok r ∧ WF r ∧
      r.val = if 0 ≤ p then a.val * 10 ^ p.toNat else a.val.tdiv (10 ^ (-p).toNat)) ∨
    timesPowerTen a p = .error .assertion := by
  rcases lt_trichotomy p 0 with h | h | h
  · have h9 : (-p).toNat = 9 * ((-p).toNat / 9) + (-p).toNat % 9 := by omega
    have hpow : (10 : Int) ^ (-p).toNat = B ^ ((-p).toNat / 9) * 10 ^ ((-p).toNat % 9) := by
      conv_lhs => rw [h9, pow_add, pow_mul]
      norm_num
    unfold timesPowerTen
    rw [if_neg (by omega), if_pos h, i32_ok (z := -p) (by omega) (by omega), if_neg (by omega)]
    simp only [bind_ok]
    have hmd := mag_drop ha.2 ((-p).toNat / 9)
    by_cases hlen : (-p).toNat / 9 < a.bins.length
    · have hdne : a.bins.drop ((-p).toNat / 9) ≠ [] := List.ne_nil_of_length_pos (by rw [List.length_drop]; omega)
      rw [if_neg (by rw [List.isEmpty_iff]; exact hdne)]
      have hv : BigInt.val { a with bins := a.bins.drop ((-p).toNat / 9) } = a.val.tdiv (B ^ ((-p).toNat / 9)) := by
        have e : (mag a.bins).tdiv (B ^ ((-p).toNat / 9)) = mag a.bins / B ^ ((-p).toNat / 9) :=
          Int.tdiv_eq_ediv_of_nonneg (mag_nonneg ha.2)
        unfold val
        dsimp only
        rw [hmd]
        split
        · rw [Int.neg_tdiv, e]
        · rw [e]
      rcases divTenLoop_wf ((-p).toNat % 9) (a := { a with bins := a.bins.drop ((-p).toNat / 9) }) ⟨hdne, BinsOK_drop ha.2 _⟩ with
        ⟨r, r1, r2, r3⟩ | hr
      · exact .inl ⟨r, r1, r2, by rw [r3, hv, tdiv_tdiv_pos (by positivity), hpow]⟩
      · exact .inr hr
    · have hnil : a.bins.drop ((-p).toNat / 9) = [] := List.drop_of_length_le (by omega)
      refine .inl ⟨⟨[0], false⟩, by rw [hnil]; rfl, by decide, ?_⟩
      rw [tdiv_of_abs_lt]
      · rfl
      · rw [abs_val ha, hpow]
        have h1 := mag_lt ha.2
        have h2 : (B : Int) ^ a.bins.length ≤ B ^ ((-p).toNat / 9) := pow_le_pow_right₀ (by norm_num) (by omega)
        have h3 : (1 : Int) ≤ 10 ^ ((-p).toNat % 9) := one_le_pow₀ (by norm_num)
        nlinarith [B_pow_pos ((-p).toNat / 9)]
  · subst h
    exact .inl ⟨a, rfl, ha, by simp⟩
  · obtain ⟨s, s1, s2, s3⟩ := mulTenLoop_wf (p.toNat % 9) ha
    obtain ⟨w1, w2, w3, _⟩ := ofShift_wf s2 (p.toNat / 9)
    refine .inl ⟨ofShift s (p.toNat / 9), ?_, w1, ?_⟩
    · simp only [timesPowerTen, h, if_true, s1, bind_ok, pure_ok]
    · have : (ofShift s (p.toNat / 9)).val = B ^ (p.toNat / 9) * s.val := by
        unfold val; rw [w3, w2]; split <;> ring
      rw [if_pos h.le, this, s3, show (B : Int) = 10 ^ 9 by norm_num, ← pow_mul]
      have h9 : p.toNat = 9 * (p.toNat / 9) + p.toNat % 9 := by omega
      conv_rhs => rw [h9, pow_add]
      ring

/-! ### When division aborts, in terms of numbers -/

theorem bin_eq {l : List Int} (h : BinsOK l) : ∀ {j : Nat}, j < l.length → l[j]? = some (mag l / B ^ j % B) := by
  induction l with
  | nil => intro j hj; simp at hj
  | cons b bs ih =>
    intro j hj
    rw [BinsOK_cons] at h
    cases j with
    | zero =>
      simp only [List.getElem?_cons_zero, pow_zero, Int.ediv_one, mag_cons, Option.some.injEq]
      omega
    | succ j =>
      rw [List.getElem?_cons_succ, ih h.2 (by simpa using hj), mag_cons, pow_succ, mul_comm (B ^ j),
        ← Int.ediv_ediv_of_nonneg (by norm_num), show (b + 1000000000 * mag bs) / 1000000000 = mag bs by omega]

theorem lt_length_iff {l : List Int} (h : BinsOK l) (n : NoLead l) {j : Nat} (hj : 1 ≤ j) : j < l.length ↔ B ^ j ≤ mag l := by
  constructor
  · intro hl
    rcases (noLead_iff h).mp n with h1 | h1
    · omega
    · exact le_trans (pow_le_pow_right₀ (by norm_num) (by omega)) h1
  · intro hm
    by_contra hl
    have h1 := mag_lt h
    have h2 : (B : Int) ^ l.length ≤ B ^ j := pow_le_pow_right₀ (by norm_num) (by omega)
    omega

/-- For a dividend without leading zero bins the trap is a matter of the two integers only. -/
theorem divTrips_iff {x y : BigInt} (hx : Clean x) (hy : WF y) : DivTrips x y ↔ DivAborts x.val y.val := by
  unfold DivTrips DivAborts
  rw [abs_val hx.1, abs_val hy]
  refine and_congr_right fun hle => exists_congr fun j => and_congr_right fun hj => ?_
  rw [lt_length_iff hx.1.2 hx.2 (by omega), ← and_assoc, ← and_assoc]
  refine and_congr_left fun _ => and_congr_right fun h => ?_
  have hl : j + 1 < x.bins.length := (lt_length_iff hx.1.2 hx.2 (by omega)).mpr h
  rw [bin_eq hx.1.2 (by omega), Option.some.injEq]

/-- Dividends below 10^18 are safe. -/
theorem not_divAborts_small {x y : Int} (h : |x| < 1000000000000000000) : ¬DivAborts x y := by
  rintro ⟨_, j, hj, h1, _⟩
  have h2 : (B : Int) ^ 2 ≤ B ^ (j + 1) := pow_le_pow_right₀ (by norm_num) (by omega)
  norm_num at h2
  omega

end CppMaths.BigInt
