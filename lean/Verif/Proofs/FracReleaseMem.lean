import Verif.Proofs.FracReleaseOps
import Verif.Proofs.FracMem
/-!
# Text and programs over `Frac` without assertions
-/

namespace CppMaths
open BigInt

namespace Frac

/-! ### Comparisons and text -/

theorem lt_keeps (x y : Frac) : Keeps (lt x y) (ltR x y) :=
  (opMul_keeps _ _).bind fun _ => (opMul_keeps _ _).bind fun _ => Keeps.refl _

theorem ltR_spec {x y : Frac} (hx : x.Valid) (hy : y.Valid) : ltR x y = .ok (decide (x.value < y.value)) :=
  lt_keeps _ _ _ (lt_spec hx hy)

theorem ofStringR_tail {t b : BigInt} (ht : Canon t) (hb : Canon b) :
    let r : Res Frac := do
      let z ← b.equalsInt32 0
      if z then .error .invalidArgument
      else drop (normalizeU ⟨t, b⟩)
    (b.val = 0 → r = .error .invalidArgument) ∧
    (b.val ≠ 0 → ¬ReduceAborts t.val b.val → ∃ f, r = .ok f ∧ f.Valid ∧ f.value = (t.val : ℚ) / b.val) ∧
    (b.val ≠ 0 → ReduceAborts t.val b.val → r = .error .outOfRange) := by
  dsimp only
  rw [equalsInt32_zero hb.1, bind_ok]
  refine ⟨fun h => ?_, fun h hr => ?_, fun h hr => ?_⟩
  · rw [if_pos (by simpa [val_eq_zero_iff] using h)]
  · rw [if_neg (by simpa [val_eq_zero_iff] using h)]
    obtain ⟨f, f1, f2⟩ := (mred_normalizeU (.inl ht) hb h).1 hr
    exact ⟨f, by rw [f1, drop_ok], f2⟩
  · rw [if_neg (by simpa [val_eq_zero_iff] using h)]
    obtain ⟨s, s1, _⟩ := (mred_normalizeU (.inl ht) hb h).2 hr
    rw [s1, drop_err]

theorem ofStringR_ratio {s : List Char} {t b : Int} (h : RatioText s t b) (hs : s ≠ []) :
    (b = 0 → Frac.ofStringR s = .error .invalidArgument) ∧
    (b ≠ 0 → ¬ReduceAborts t b → ∃ f, Frac.ofStringR s = .ok f ∧ f.Valid ∧ f.value = (t : ℚ) / b) ∧
    (b ≠ 0 → ReduceAborts t b → Frac.ofStringR s = .error .outOfRange) := by
  have hl : (s.length == 0) = false := by simpa using hs
  unfold Frac.ofStringR
  rw [hl]
  simp only [Bool.false_eq_true, if_false]
  rcases h with ⟨h, _⟩ | ⟨h, rfl⟩ | ⟨p, q, rfl, hp, hq⟩
  · exact absurd h hs
  · obtain ⟨r, r1, r2, r3⟩ := ofString_ok h
    rw [split_none (intText_no_slash h)]
    simp only [r1, bind_ok, ofInt64_one, pure_ok]
    have := ofStringR_tail r2 canon_one
    rw [r3, val_one] at this
    exact_mod_cast this
  · obtain ⟨r, r1, r2, r3⟩ := ofString_ok hp
    obtain ⟨r', r1', r2', r3'⟩ := ofString_ok hq
    obtain ⟨e1, e2⟩ := split_at (q := q) (intText_no_slash hp)
    rw [e1, e2]
    simp only [r1, r1', bind_ok, pure_ok]
    have := ofStringR_tail r2 r2'
    rw [r3, r3'] at this
    exact this

theorem ofStringR_not_ratio {s : List Char} (h : ∀ t b, ¬RatioText s t b) : Frac.ofStringR s = .error .invalidArgument := by
  have hs : s ≠ [] := fun hs => h 0 1 (.inl ⟨hs, rfl, rfl⟩)
  have hl : (s.length == 0) = false := by simpa using hs
  unfold Frac.ofStringR
  rw [hl]
  simp only [Bool.false_eq_true, if_false]
  rcases split_cases '/' s with hn | ⟨p, q, rfl, hp⟩
  · rw [split_none hn]
    rw [BigInt.ofString_fail (fun z hz => h z 1 (.inr (.inl ⟨hz, rfl⟩)))]
    rfl
  · obtain ⟨e1, e2⟩ := split_at (q := q) hp
    rw [e1, e2]
    by_cases h1 : ∃ z, IntText p z
    · obtain ⟨z, hz⟩ := h1
      obtain ⟨r, r1, _⟩ := ofString_ok hz
      simp only [r1, bind_ok]
      rw [BigInt.ofString_fail (fun y hy => h z y (.inr (.inr ⟨p, q, rfl, hz, hy⟩)))]
      rfl
    · push Not at h1
      simp only [BigInt.ofString_fail h1]
      rfl

/-! ### Aliasing -/

theorem update_set (m : FMem) (d : Nat) (f : Frac) (u : MRes Frac Frac) : (m.set d f).update d u = m.update d u := by
  unfold FMem.update
  cases u with
  | ok g => simp [FMem.set_set]
  | error e => obtain ⟨e, g⟩ := e; simp [FMem.set_set]

theorem updateU_bind (m : FMem) (d : Nat) (u : MRes Frac Frac) (k : FMem → MRes FMem FMem) (k' : Frac → MRes Frac Frac)
    (h : ∀ f, u = .ok f → k (m.set d f) = m.update d (k' f)) : (m.update d u >>= k) = m.update d (u >>= k') := by
  cases u with
  | ok f => exact h f rfl
  | error e => obtain ⟨e, f⟩ := e; rfl

theorem normalizeMemU_eq (m : FMem) (d : Nat) (f : Frac) : normalizeMemU (m.set d f) d = m.update d (normalizeU f) := by
  unfold normalizeMemU
  rw [FMem.set_same, update_set]

theorem mulBottomMemU_eq (m : FMem) (d : Nat) (f : Frac) (v : BigInt) :
    mulBottomMemU (m.set d f) d v = m.update d (atBottom f (f.bb.mulAssignU v)) := by
  unfold mulBottomMemU
  rw [FMem.set_same, update_set]

theorem atTop_bb {f g : Frac} {u : Upd BigInt} (h : atTop f u = .ok g) : g.bb = f.bb := by
  cases u with
  | ok t => cases h; rfl
  | error e => obtain ⟨e, t⟩ := e; cases h

theorem set_bb {m : FMem} {d s : Nat} {f : Frac} (h : f.bb = (m d).bb) : ((m.set d f) s).bb = (m s).bb := by
  simp only [FMem.set]; split
  · next hh => rw [h, hh]
  · rfl

theorem addAssignMemU_eq (m : FMem) (d s : Nat) : addAssignMemU m d s = m.update d (addAssignU (m d) (m s)) := by
  unfold addAssignMemU addAssignU
  conv_lhs => rw [show at' m = at' (α := BigInt) (m.set d (m d)) by rw [FMem.set_id]]
  apply update_bind
  intro t
  dsimp only
  rw [set_tt_bb, mulBottomMemU_eq]
  exact updateU_bind m d _ _ _ fun f _ => normalizeMemU_eq m d f

theorem subAssignMemU_eq (m : FMem) (d s : Nat) : subAssignMemU m d s = m.update d (subAssignU (m d) (m s)) := by
  unfold subAssignMemU subAssignU
  conv_lhs => rw [show at' m = at' (α := BigInt) (m.set d (m d)) by rw [FMem.set_id]]
  apply update_bind
  intro t
  dsimp only
  rw [set_tt_bb, mulBottomMemU_eq]
  exact updateU_bind m d _ _ _ fun f _ => normalizeMemU_eq m d f

theorem mulAssignMemU_eq (m : FMem) (d s : Nat) : mulAssignMemU m d s = m.update d (mulAssignU (m d) (m s)) := by
  unfold mulAssignMemU mulAssignU mulTopMemU
  refine updateU_bind m d _ _ _ fun f hf => ?_
  rw [set_bb (atTop_bb hf), mulBottomMemU_eq]
  exact updateU_bind m d _ _ _ fun f _ => normalizeMemU_eq m d f

theorem divAssignMemU_eq (m : FMem) (d s : Nat) : divAssignMemU m d s = m.update d (divAssignU (m d) (m s)) := by
  unfold divAssignMemU divAssignU mulTopMemU
  refine updateU_bind m d _ _ _ fun f hf => ?_
  rw [mulBottomMemU_eq]
  exact updateU_bind m d _ _ _ fun f _ => normalizeMemU_eq m d f

end Frac

theorem FOp.assignU_eq (op : FOp) (m : FMem) (d s : Nat) : op.assignU m d s = m.update d (op.asgValU (m d) (m s)) := by
  cases op
  · exact Frac.addAssignMemU_eq m d s
  · exact Frac.subAssignMemU_eq m d s
  · exact Frac.mulAssignMemU_eq m d s
  · exact Frac.divAssignMemU_eq m d s

open Frac

/-- A function that returns a new object, in terms of the mathematical operation. -/
def RedQR (r : Res Frac) (p : Int × Int) : Prop := RedR r p.1 p.2

theorem FOp.runR_red (op : FOp) {x y : Frac} (hx : x.Valid) (hy : y.Valid) :
    RedQR (op.runR x y) (op.parts x.value y.value) := by
  unfold RedQR
  cases op <;> simp only [runR, parts, hx.num, hx.den, hy.num, hy.den]
  · exact opAddR_red hx hy
  · exact opSubR_red hx hy
  · exact opMulR_red hx hy
  · exact opDivR_red hx hy

theorem FOp.runIntR_red (op : FOp) {x : Frac} {a : BigInt} (hx : x.Valid) (ha : Canon a) :
    RedQR (op.runIntR x a) (op.parts x.value a.val) := by
  unfold RedQR
  cases op <;> simp only [runIntR, parts, hx.num, hx.den, Rat.num_intCast, Rat.den_intCast, Nat.cast_one, mul_one]
  · exact addIntR_red ha hx
  · exact subIntR_red ha hx
  · rw [mul_comm]; exact mulIntR_red ha hx
  · exact divIntR_red ha hx

theorem FOp.intRunR_red (op : FOp) {x : Frac} {a : BigInt} (hx : x.Valid) (ha : Canon a) :
    RedQR (op.intRunR a x) (op.parts a.val x.value) := by
  unfold RedQR
  cases op <;> simp only [intRunR, parts, hx.num, hx.den, Rat.num_intCast, Rat.den_intCast, Nat.cast_one, mul_one, one_mul]
  · exact intAddR_red ha hx
  · exact intSubR_red ha hx
  · exact intMulR_red ha hx
  · exact intDivR_red ha hx

/-- A function that changes an object, in terms of the mathematical operation. -/
def MRedQU (r : MRes Frac Frac) (p : Int × Int) : Prop := p.2 ≠ 0 → MRedU r p.1 p.2

theorem FOp.asgValU_red (op : FOp) {x y : Frac} (hx : x.Valid) (hy : y.Valid) :
    MRedQU (op.asgValU x y) (op.parts x.value y.value) := by
  unfold MRedQU
  cases op <;> simp only [asgValU, parts, hx.num, hx.den, hy.num, hy.den] <;> intro h0
  · exact addAssignU_red hx hy
  · exact subAssignU_red hx hy
  · exact mulAssignU_red hx hy
  · exact divAssignU_red hx hy (right_ne_zero_of_mul h0)

theorem FOp.asgIntU_red (op : FOp) {x : Frac} {a : BigInt} (hx : x.Valid) (ha : Canon a) :
    MRedQU (op.asgIntU x a) (op.parts x.value a.val) := by
  unfold MRedQU
  cases op <;> simp only [asgIntU, parts, hx.num, hx.den, Rat.num_intCast, Rat.den_intCast, Nat.cast_one, mul_one] <;> intro h0
  · rw [mul_comm]; exact addAssignIntU_red hx ha
  · rw [mul_comm]; exact subAssignIntU_red hx ha
  · exact mulAssignIntU_red hx ha
  · exact divAssignIntU_red hx ha (right_ne_zero_of_mul h0)

theorem ICmp.runFracR_eq (c : ICmp) {x y : Frac} (hx : x.Valid) (hy : y.Valid) :
    c.runFracR x y = .ok (c.semQ x.value y.value) := by
  cases c
  · exact ltR_spec hx hy
  · simp only [runFracR, semQ]; unfold Frac.gtR; rw [ltR_spec hy hx]
  · simp only [runFracR, semQ]; unfold Frac.leR; rw [ltR_spec hy hx]; simp [← not_lt]
  · simp only [runFracR, semQ]; unfold Frac.geR; rw [ltR_spec hx hy]; simp [← not_lt]
  · exact Frac.eq_spec hx hy
  · simp only [runFracR, semQ]; unfold Frac.ne; rw [Frac.eq_spec hx hy]; simp

/-! ### Programs -/

/-- The outcome of a run, compared with the outcome over rational numbers. -/
def QMatchesR : Res FMem → QOutcome → Prop
  | _, .bad => True
  | .ok m, .done v => m.Valid ∧ m.vals = v
  | .error .outOfRange, .abort => True
  | .error .diverge, .timeout => True
  | _, _ => False

/-- A statement that stores a value or throws. -/
theorem FStmt.match_storeR {s : FStmt} {m : FMem} (hm : m.Valid) {d : Nat} {r : Res Frac} {p : Int × Int}
    (hstep : s.stepU m = m.store d r) (hraw : s.raw m.vals = some p)
    (heff : s.eff m.vals = if p.2 = 0 then .throws else .assign d ((p.1 : ℚ) / p.2)) (hr : RedQR r p) :
    QMatchesR (s.tryStepR false m) (s.sem m.vals) := by
  obtain ⟨r1, r2, r3⟩ := hr
  unfold tryStepR sem
  rw [hstep, heff]
  have hab : s.Aborts m.vals ↔ p.2 ≠ 0 ∧ ReduceAborts p.1 p.2 := by
    unfold FStmt.Aborts
    rw [hraw]
    constructor
    · rintro ⟨t, b, h, h1, h2⟩
      cases h; exact ⟨h1, h2⟩
    · rintro ⟨h1, h2⟩; exact ⟨_, _, rfl, h1, h2⟩
  by_cases h0 : p.2 = 0
  · rw [if_pos h0, r1 h0]
    exact ⟨hm, rfl⟩
  · rw [if_neg h0]
    by_cases ha : ReduceAborts p.1 p.2
    · simp only [if_pos (hab.mpr ⟨h0, ha⟩)]
      rw [r3 h0 ha]; trivial
    · simp only [if_neg (fun h => ha (hab.mp h).2)]
      obtain ⟨f, f1, f2, f3⟩ := r2 h0 ha
      rw [f1]
      exact ⟨hm.set d f2, by rw [FMem.vals_set, f3]⟩

/-- A statement that changes a variable in place. -/
theorem FStmt.match_updateR {s : FStmt} {m : FMem} (hm : m.Valid) {d : Nat} {r : MRes Frac Frac} {p : Int × Int}
    (hstep : s.stepU m = m.update d r) (hraw : s.raw m.vals = some p)
    (heff : s.eff m.vals = if p.2 = 0 then .bad else .assign d ((p.1 : ℚ) / p.2)) (hr : MRedQU r p) :
    QMatchesR (s.tryStepR false m) (s.sem m.vals) := by
  unfold tryStepR sem
  rw [hstep, heff]
  have hab : s.Aborts m.vals ↔ p.2 ≠ 0 ∧ ReduceAborts p.1 p.2 := by
    unfold FStmt.Aborts
    rw [hraw]
    constructor
    · rintro ⟨t, b, h, h1, h2⟩
      cases h; exact ⟨h1, h2⟩
    · rintro ⟨h1, h2⟩; exact ⟨_, _, rfl, h1, h2⟩
  by_cases h0 : p.2 = 0
  · rw [if_pos h0]; trivial
  · obtain ⟨r2, r3⟩ := hr h0
    rw [if_neg h0]
    by_cases ha : ReduceAborts p.1 p.2
    · simp only [if_pos (hab.mpr ⟨h0, ha⟩)]
      obtain ⟨x, x1, _⟩ := r3 ha
      rw [x1]; trivial
    · simp only [if_neg (fun h => ha (hab.mp h).2)]
      obtain ⟨f, f1, f2, f3⟩ := r2 ha
      rw [f1]
      exact ⟨hm.set d f2, by rw [FMem.vals_set, f3]⟩

theorem FStmt.tryStepR_matches {s : FStmt} (hl : s.Legal) {m : FMem} (hm : m.Valid) :
    QMatchesR (s.tryStepR false m) (s.sem m.vals) := by
  have noraw : ∀ {d : Nat} {f : Frac}, s.stepU m = .ok (m.set d f) → s.eff m.vals = .assign d f.value → f.Valid →
      s.raw m.vals = none → QMatchesR (s.tryStepR false m) (s.sem m.vals) := by
    intro d f h1 h2 h3 h4
    unfold tryStepR sem
    rw [h1, h2]
    have : ¬s.Aborts m.vals := by
      rintro ⟨t, b, h, _⟩
      rw [h4] at h; cases h
    simp only [if_neg this]
    exact ⟨hm.set d h3, FMem.vals_set m d f⟩
  cases s with
  | lit d a b =>
    obtain ⟨t, t1, t2, t3, _⟩ := ofInt64_ok 0 hl.1.1 hl.1.2
    obtain ⟨u, u1, u2, u3, _⟩ := ofInt64_ok 0 hl.2.1 hl.2.2
    have t3 : t.val = a := by simpa using t3
    have u3 : u.val = b := by simpa using u3
    refine match_storeR hm (d := d) (r := mkR t u) (p := (a, b)) ?_ rfl rfl ?_
    · simp only [stepU, t1, u1, bind_ok]
    · have := red_mkR t2 u2
      rwa [t3, u3] at this
  | str d s =>
    by_cases hs : s = []
    · subst hs
      cases h : ratioVal [] with
      | none => exact absurd (.inl ⟨rfl, rfl, rfl⟩) (ratioVal_none h 0 1)
      | some p =>
        have := ratioText_nil (ratioVal_some h)
        refine noraw (d := d) (f := ⟨⟨[0], false⟩, ⟨[1], false⟩⟩) rfl ?_ default_valid (by simp [raw])
        simp only [eff, h, this.1, this.2]
        simp [value, BigInt.val]
    · cases h : ratioVal s with
      | none =>
        have hf := ofStringR_not_ratio (ratioVal_none h)
        unfold tryStepR sem
        simp only [stepU, hf, eff, h, FMem.store]
        exact ⟨hm, rfl⟩
      | some p =>
        obtain ⟨k1, k2, k3⟩ := ofStringR_ratio (ratioVal_some h) hs
        unfold tryStepR sem
        have he : (FStmt.str d s).eff m.vals = if p.2 = 0 then .throws else .assign d ((p.1 : ℚ) / p.2) := by
          simp only [eff, h]
        have hab : (FStmt.str d s).Aborts m.vals ↔ p.2 ≠ 0 ∧ ReduceAborts p.1 p.2 := by
          unfold FStmt.Aborts
          simp only [raw, if_neg hs, h]
          constructor
          · rintro ⟨t, b, h, h1, h2⟩
            cases h; exact ⟨h1, h2⟩
          · rintro ⟨h1, h2⟩; exact ⟨_, _, rfl, h1, h2⟩
        rw [he]
        simp only [stepU]
        by_cases h0 : p.2 = 0
        · rw [if_pos h0, k1 h0]
          exact ⟨hm, rfl⟩
        · rw [if_neg h0]
          by_cases ha : ReduceAborts p.1 p.2
          · simp only [if_pos (hab.mpr ⟨h0, ha⟩)]
            rw [k3 h0 ha]; trivial
          · simp only [if_neg (fun h => ha (hab.mp h).2)]
            obtain ⟨f, f1, f2, f3⟩ := k2 h0 ha
            rw [f1]
            exact ⟨hm.set d f2, by rw [FMem.vals_set, f3]⟩
  | copy d a => exact noraw (d := d) (f := m a) rfl rfl (hm a) rfl
  | bin op d a b =>
    exact match_storeR hm (d := d) rfl rfl (elim_eff (op.sem_parts _ _)) (op.runR_red (hm a) (hm b))
  | binInt op d a k =>
    obtain ⟨t, t1, t2, t3, _⟩ := ofInt64_ok 0 hl.1 hl.2
    have t3 : t.val = k := by simpa using t3
    refine match_storeR hm (d := d) (r := op.runIntR (m a) t) ?_ rfl (elim_eff (op.sem_parts _ _)) ?_
    · simp only [stepU, t1, bind_ok]
    · rw [← t3]; exact op.runIntR_red (hm a) t2
  | intBin op d k a =>
    obtain ⟨t, t1, t2, t3, _⟩ := ofInt64_ok 0 hl.1 hl.2
    have t3 : t.val = k := by simpa using t3
    refine match_storeR hm (d := d) (r := op.intRunR t (m a)) ?_ rfl (elim_eff (op.sem_parts _ _)) ?_
    · simp only [stepU, t1, bind_ok]
    · rw [← t3]; exact op.intRunR_red (hm a) t2
  | asg op d a =>
    exact match_updateR hm (d := d) (op.assignU_eq m d a) rfl (elim_eff (op.sem_parts _ _)) (op.asgValU_red (hm d) (hm a))
  | asgInt op d k =>
    obtain ⟨t, t1, t2, t3, _⟩ := ofInt64_ok 0 hl.1 hl.2
    have t3 : t.val = k := by simpa using t3
    refine match_updateR hm (d := d) (r := op.asgIntU (m d) t) ?_ rfl (elim_eff (op.sem_parts _ _)) ?_
    · simp only [stepU, t1, at'_ok, mbind_ok]
    · rw [← t3]; exact op.asgIntU_red (hm d) t2
  | pow d a k =>
    have hl : -1000000000 < k ∧ k < 1000000000 := hl
    obtain ⟨t, t1, t2, t3, _⟩ := ofInt64_ok (x := k) 0 (by omega) (by omega)
    have t3 : t.val = k := by simpa using t3
    have hva : m.vals a = (m a).value := rfl
    by_cases hk : 0 ≤ k
    · refine match_storeR hm (d := d) (r := opPowR (m a) t) (p := ((m a).value.num ^ k.toNat, (m a).value.den ^ k.toNat)) ?_ ?_ ?_ ?_
      · simp only [stepU, t1, bind_ok]
      · simp only [raw, if_pos hk, hva]
      · simp only [eff, hva]
        rw [if_neg (by omega), if_neg (pow_ne_zero _ (by exact_mod_cast (m a).value.den_nz))]
        congr 1
        obtain ⟨n, rfl⟩ := Int.eq_ofNat_of_zero_le hk
        rw [zpow_natCast, Int.toNat_natCast]
        push_cast
        rw [← div_pow, Rat.num_div_den]
      · have := opPowR_red_nonneg t2 (hm a) (by omega) (GoodExp.of_lt (by omega) (by omega))
        rw [t3] at this
        simpa only [RedQR, (hm a).num, (hm a).den] using this
    · refine match_storeR hm (d := d) (r := opPowR (m a) t)
        (p := ((m a).value.den ^ (-k).toNat, (m a).value.num ^ (-k).toNat)) ?_ ?_ ?_ ?_
      · simp only [stepU, t1, bind_ok]
      · simp only [raw, if_neg hk, hva]
      · simp only [eff, hva]
        have hk0 : (-k).toNat ≠ 0 := by omega
        by_cases h0 : (m a).value = 0
        · rw [if_pos ⟨by omega, h0⟩, if_pos (by simp [h0, hk0])]
        · have hn : (m a).value.num ≠ 0 := Rat.num_ne_zero.mpr h0
          rw [if_neg (fun h => h0 h.2), if_neg (pow_ne_zero _ hn)]
          congr 1
          obtain ⟨n, hn'⟩ : ∃ n : Nat, k = -n := ⟨(-k).toNat, by omega⟩
          subst hn'
          rw [zpow_neg, zpow_natCast, neg_neg, Int.toNat_natCast]
          push_cast
          rw [← div_pow, ← inv_pow, ← Rat.num_div_den (m a).value, inv_div, Rat.num_div_den]
      · have := opPowR_red_neg t2 (hm a) (by omega) (GoodExp.of_lt (by omega) (by omega))
        rw [t3] at this
        simpa only [RedQR, (hm a).num, (hm a).den] using this
  | powAsg d k =>
    have hl : -1000000000 < k ∧ k < 1000000000 := hl
    by_cases hk : k < 0
    · have : (FStmt.powAsg d k).sem m.vals = .bad := by simp [sem, eff, hk]
      rw [this]; trivial
    · obtain ⟨t, t1, t2, t3, _⟩ := ofInt64_ok (x := k) 0 (by omega) (by omega)
      have t3 : t.val = k := by simpa using t3
      have hva : m.vals d = (m d).value := rfl
      refine match_updateR hm (d := d) (r := powAssignU (m d) t)
        (p := ((m d).value.num ^ k.toNat, (m d).value.den ^ k.toNat)) ?_ rfl ?_ ?_
      · simp only [stepU, t1, at'_ok, mbind_ok]
      · simp only [eff, hva]
        rw [if_neg hk, if_neg (pow_ne_zero _ (by exact_mod_cast (m d).value.den_nz))]
        congr 1
        obtain ⟨n, rfl⟩ := Int.eq_ofNat_of_zero_le (not_lt.mp hk)
        rw [zpow_natCast, Int.toNat_natCast]
        push_cast
        rw [← div_pow, Rat.num_div_den]
      · intro _
        have := powAssignU_red (hm d) t2 (by rw [t3, abs_of_nonneg (by omega)]; exact GoodExp.of_lt (by omega) (by omega))
        rw [t3, show k.natAbs = k.toNat by omega] at this
        simpa only [(hm d).num, (hm d).den] using this
  | recip d a =>
    have hva : m.vals a = (m a).value := rfl
    refine match_storeR hm (d := d) rfl rfl ?_ ?_
    · simp only [eff, hva]
      by_cases h0 : (m a).value = 0
      · simp [h0]
      · rw [if_neg h0, if_neg (Rat.num_ne_zero.mpr h0)]
        congr 1
        push_cast
        conv_lhs => rw [← Rat.num_div_den (m a).value, one_div, inv_div]
    · have := reciprocalR_red (hm a)
      simpa only [RedQR, hva, (hm a).num, (hm a).den] using this

theorem FProg.execR_matches (f : Nat) : ∀ {p : FProg}, p.Legal → ∀ {m : FMem}, m.Valid →
    QMatchesR (p.execR false f m) (p.sem f m.vals) := by
  induction f with
  | zero => intro p _ m _; trivial
  | succ f ih =>
    intro p hl m hm
    have seq : ∀ {p q : FProg}, p.Legal → q.Legal →
        QMatchesR (do let m ← p.execR false f m; q.execR false f m) ((p.sem f m.vals).bind (q.sem f)) := by
      intro p q h1 h2
      have k := ih h1 hm
      revert k
      cases p.sem f m.vals with
      | bad => intro _; unfold QOutcome.bind; cases (do let m ← p.execR false f m; q.execR false f m) <;> trivial
      | done v =>
        cases p.execR false f m with
        | ok m' =>
          rintro ⟨k1, rfl⟩
          exact ih h2 k1
        | error e => cases e <;> exact fun h => absurd h id
      | abort =>
        cases p.execR false f m with
        | ok m' => exact fun h => absurd h id
        | error e => exact fun h => h
      | timeout =>
        cases p.execR false f m with
        | ok m' => exact fun h => absurd h id
        | error e => exact fun h => h
    cases p with
    | stmt s => exact FStmt.tryStepR_matches hl hm
    | seq p q => exact seq hl.1 hl.2
    | ite c a b p q =>
      simp only [execR, sem, c.runFracR_eq (hm a) (hm b), bind_ok]
      have e : c.semQ (m.vals a) (m.vals b) = c.semQ (m a).value (m b).value := rfl
      rw [e]
      cases c.semQ (m a).value (m b).value
      · simpa using ih hl.2 hm
      · simpa using ih hl.1 hm
    | «while» c a b p =>
      simp only [execR, sem, c.runFracR_eq (hm a) (hm b), bind_ok]
      have e : c.semQ (m.vals a) (m.vals b) = c.semQ (m a).value (m b).value := rfl
      rw [e]
      cases c.semQ (m a).value (m b).value
      · exact ⟨hm, rfl⟩
      · have := seq (p := p) (q := .while c a b p) hl hl
        simpa using this

end CppMaths
