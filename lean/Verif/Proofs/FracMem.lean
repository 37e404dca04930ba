import Verif.Proofs.FracText
import Verif.Spec.FracProg
import Mathlib.Data.Rat.Lemmas
/-!
# Aliasing and programs over `Frac` variables
-/

namespace CppMaths
open BigInt

theorem FMem.set_same (m : FMem) (d : Nat) (v : Frac) : (m.set d v) d = v := by simp [FMem.set]
theorem FMem.set_set (m : FMem) (d : Nat) (v w : Frac) : (m.set d v).set d w = m.set d w := by
  funext i; simp only [FMem.set]; split <;> rfl
theorem FMem.set_id (m : FMem) (d : Nat) : m.set d (m d) = m := by
  funext i; simp only [FMem.set]; split
  · next h => rw [h]
  · rfl

namespace Frac

theorem normalizeMem_eq (m : FMem) (d : Nat) (f : Frac) : normalizeMem (m.set d f) d = m.update d (normalize f) := by
  unfold normalizeMem FMem.update
  rw [FMem.set_same]
  cases normalize f with
  | ok g => simp [FMem.set_set]
  | error e => obtain ⟨e, g⟩ := e; simp [FMem.set_set]

/-- A failing computation on the memory or on the object alone. -/
theorem update_bind {α : Type} (m : FMem) (d : Nat) (f : Frac) (r : Res α) (k : α → MRes FMem FMem) (k' : α → MRes Frac Frac)
    (h : ∀ a, k a = m.update d (k' a)) :
    (do let a ← at' (m.set d f) r; k a) = m.update d (do let a ← at' f r; k' a) := by
  cases r with
  | ok a => simpa using h a
  | error e => rfl

/-- Assigning the numerator of a cell does not change any denominator. -/
theorem set_tt_bb (m : FMem) (d s : Nat) (t : BigInt) : ((m.set d ⟨t, (m d).bb⟩) s).bb = (m s).bb := by
  simp only [FMem.set]; split
  · next h => rw [h]
  · rfl

theorem second_part (m : FMem) (d : Nat) (t : BigInt) (r : Res BigInt) :
    (do
      let b ← at' (m.set d ⟨t, (m d).bb⟩) r
      normalizeMem ((m.set d ⟨t, (m d).bb⟩).set d ⟨((m.set d ⟨t, (m d).bb⟩) d).tt, b⟩) d) =
    m.update d (do
      let b ← at' ⟨t, (m d).bb⟩ r
      normalize ⟨t, b⟩) := by
  apply update_bind
  intro b
  rw [FMem.set_set, FMem.set_same, normalizeMem_eq]

theorem addAssignMem_eq (m : FMem) (d s : Nat) : addAssignMem m d s = m.update d (addAssign (m d) (m s)) := by
  unfold addAssignMem addAssign
  conv_lhs => rw [show at' m = at' (α := BigInt) (m.set d (m d)) by rw [FMem.set_id]]
  apply update_bind
  intro t
  dsimp only
  rw [set_tt_bb, set_tt_bb]
  exact second_part m d t _

theorem subAssignMem_eq (m : FMem) (d s : Nat) : subAssignMem m d s = m.update d (subAssign (m d) (m s)) := by
  unfold subAssignMem subAssign
  conv_lhs => rw [show at' m = at' (α := BigInt) (m.set d (m d)) by rw [FMem.set_id]]
  apply update_bind
  intro t
  dsimp only
  rw [set_tt_bb, set_tt_bb]
  exact second_part m d t _

theorem mulAssignMem_eq (m : FMem) (d s : Nat) : mulAssignMem m d s = m.update d (mulAssign (m d) (m s)) := by
  unfold mulAssignMem mulAssign
  conv_lhs => rw [show at' m = at' (α := BigInt) (m.set d (m d)) by rw [FMem.set_id]]
  apply update_bind
  intro t
  dsimp only
  rw [set_tt_bb, set_tt_bb]
  exact second_part m d t _

theorem divAssignMem_eq (m : FMem) (d s : Nat) : divAssignMem m d s = m.update d (divAssign (m d) (m s)) := by
  unfold divAssignMem divAssign
  conv_lhs => rw [show at' m = at' (α := BigInt) (m.set d (m d)) by rw [FMem.set_id]]
  apply update_bind
  intro t
  dsimp only
  rw [set_tt_bb]
  exact second_part m d t _

end Frac

theorem FOp.assign_eq (op : FOp) (m : FMem) (d s : Nat) : op.assign m d s = m.update d (op.asgVal (m d) (m s)) := by
  cases op
  · exact Frac.addAssignMem_eq m d s
  · exact Frac.subAssignMem_eq m d s
  · exact Frac.mulAssignMem_eq m d s
  · exact Frac.divAssignMem_eq m d s

/-! ### Values and parts -/

theorem Frac.Valid.num {f : Frac} (h : f.Valid) : f.value.num = f.tt.val :=
  Rat.num_div_eq_of_coprime h.2.2.1 h.2.2.2
theorem Frac.Valid.den {f : Frac} (h : f.Valid) : (f.value.den : Int) = f.bb.val :=
  Rat.den_div_eq_of_coprime h.2.2.1 h.2.2.2

/-- What an operator computes before reduction has the right value. -/
theorem FOp.sem_parts (op : FOp) (x y : ℚ) :
    op.sem x y = if (op.parts x y).2 = 0 then none else some (((op.parts x y).1 : ℚ) / (op.parts x y).2) := by
  have hx : (x.den : ℚ) ≠ 0 := by exact_mod_cast x.den_nz
  have hy : (y.den : ℚ) ≠ 0 := by exact_mod_cast y.den_nz
  have hxd := x.den_nz
  have hyd := y.den_nz
  have ex : x = x.num / x.den := (Rat.num_div_den x).symm
  have ey : y = y.num / y.den := (Rat.num_div_den y).symm
  cases op
  · have h0 : (FOp.add.parts x y).2 ≠ 0 := mul_ne_zero (by exact_mod_cast hxd) (by exact_mod_cast hyd)
    rw [if_neg h0]
    simp only [sem, parts]
    congr 1
    conv_lhs => rw [ex, ey]
    push_cast; field_simp
  · have h0 : (FOp.sub.parts x y).2 ≠ 0 := mul_ne_zero (by exact_mod_cast hxd) (by exact_mod_cast hyd)
    rw [if_neg h0]
    simp only [sem, parts]
    congr 1
    conv_lhs => rw [ex, ey]
    push_cast; field_simp
  · have h0 : (FOp.mul.parts x y).2 ≠ 0 := mul_ne_zero (by exact_mod_cast hxd) (by exact_mod_cast hyd)
    rw [if_neg h0]
    simp only [sem, parts]
    congr 1
    conv_lhs => rw [ex, ey]
    push_cast; field_simp
  · by_cases h : y = 0
    · simp [sem, parts, h]
    · have hn : y.num ≠ 0 := Rat.num_ne_zero.mpr h
      have hn' : (y.num : ℚ) ≠ 0 := by exact_mod_cast hn
      have h0 : (FOp.div.parts x y).2 ≠ 0 := mul_ne_zero (by exact_mod_cast hxd) hn
      rw [if_neg h0]
      simp only [sem, parts, if_neg h]
      congr 1
      conv_lhs => rw [ex, ey]
      push_cast; field_simp

open Frac

/-- A function that returns a new object, in terms of the mathematical operation. -/
def RedQ (r : Res Frac) (p : Int × Int) : Prop := Red r p.1 p.2

theorem FOp.run_red (op : FOp) {x y : Frac} (hx : x.Valid) (hy : y.Valid) :
    RedQ (op.run x y) (op.parts x.value y.value) := by
  unfold RedQ
  cases op <;> simp only [run, parts, hx.num, hx.den, hy.num, hy.den]
  · exact opAdd_red hx hy
  · exact opSub_red hx hy
  · exact opMul_red hx hy
  · exact opDiv_red hx hy

theorem FOp.runInt_red (op : FOp) {x : Frac} {a : BigInt} (hx : x.Valid) (ha : Canon a) :
    RedQ (op.runInt x a) (op.parts x.value a.val) := by
  unfold RedQ
  cases op <;> simp only [runInt, parts, hx.num, hx.den, Rat.num_intCast, Rat.den_intCast, Nat.cast_one, mul_one]
  · exact addInt_red ha hx
  · exact subInt_red ha hx
  · rw [mul_comm]; exact mulInt_red ha hx
  · exact divInt_red ha hx

theorem FOp.intRun_red (op : FOp) {x : Frac} {a : BigInt} (hx : x.Valid) (ha : Canon a) :
    RedQ (op.intRun a x) (op.parts a.val x.value) := by
  unfold RedQ
  cases op <;> simp only [intRun, parts, hx.num, hx.den, Rat.num_intCast, Rat.den_intCast, Nat.cast_one, mul_one, one_mul]
  · exact intAdd_red ha hx
  · exact intSub_red ha hx
  · exact intMul_red ha hx
  · exact intDiv_red ha hx

/-- A function that changes an object, in terms of the mathematical operation. -/
def MRedQ (r : MRes Frac Frac) (p : Int × Int) : Prop := p.2 ≠ 0 → MRed r p.1 p.2

theorem FOp.asgVal_red (op : FOp) {x y : Frac} (hx : x.Valid) (hy : y.Valid) :
    MRedQ (op.asgVal x y) (op.parts x.value y.value) := by
  unfold MRedQ
  cases op <;> simp only [asgVal, parts, hx.num, hx.den, hy.num, hy.den] <;> intro h0
  · exact addAssign_red hx hy
  · exact subAssign_red hx hy
  · exact mulAssign_red hx hy
  · exact divAssign_red hx hy (right_ne_zero_of_mul h0)

theorem FOp.asgInt_red (op : FOp) {x : Frac} {a : BigInt} (hx : x.Valid) (ha : Canon a) :
    MRedQ (op.asgInt x a) (op.parts x.value a.val) := by
  unfold MRedQ
  cases op <;> simp only [asgInt, parts, hx.num, hx.den, Rat.num_intCast, Rat.den_intCast, Nat.cast_one, mul_one] <;> intro h0
  · rw [mul_comm]; exact addAssignInt_red hx ha
  · rw [mul_comm]; exact subAssignInt_red hx ha
  · exact mulAssignInt_red hx ha
  · exact divAssignInt_red hx ha (right_ne_zero_of_mul h0)

theorem ICmp.runFrac_eq (c : ICmp) {x y : Frac} (hx : x.Valid) (hy : y.Valid) :
    c.runFrac x y = .ok (c.semQ x.value y.value) := by
  cases c
  · exact lt_spec hx hy
  · simp only [runFrac, semQ]; unfold Frac.gt; rw [lt_spec hy hx]
  · simp only [runFrac, semQ]; unfold Frac.le; rw [lt_spec hy hx]; simp [← not_lt]
  · simp only [runFrac, semQ]; unfold Frac.ge; rw [lt_spec hx hy]; simp [← not_lt]
  · exact Frac.eq_spec hx hy
  · simp only [runFrac, semQ]; unfold Frac.ne; rw [Frac.eq_spec hx hy]; simp

/-! ### Programs -/

/-- The values of the variables. -/
def FMem.vals (m : FMem) : QEnv := fun i => (m i).value
/-- All variables are in lowest terms. -/
def FMem.Valid (m : FMem) : Prop := ∀ i, (m i).Valid

theorem FMem.vals_set (m : FMem) (d : Nat) (v : Frac) : (m.set d v).vals = m.vals.set d v.value := by
  funext i; simp only [FMem.vals, FMem.set, QEnv.set]; split <;> rfl
theorem FMem.Valid.set {m : FMem} (h : m.Valid) (d : Nat) {v : Frac} (hv : v.Valid) : (m.set d v).Valid := by
  intro i; simp only [FMem.set]; split
  · exact hv
  · exact h i

/-- The outcome of a run, compared with the outcome over rational numbers. -/
def QMatches : Res FMem → QOutcome → Prop
  | _, .bad => True
  | .ok m, .done v => m.Valid ∧ m.vals = v
  | .error .assertion, .abort => True
  | .error .diverge, .timeout => True
  | _, _ => False

/-- A statement that stores a value or throws. -/
theorem FStmt.match_store {s : FStmt} {m : FMem} (hm : m.Valid) {d : Nat} {r : Res Frac} {p : Int × Int}
    (hstep : s.step m = m.store d r) (hraw : s.raw m.vals = some p)
    (heff : s.eff m.vals = if p.2 = 0 then .throws else .assign d ((p.1 : ℚ) / p.2)) (hr : RedQ r p) :
    QMatches (s.tryStep m) (s.sem m.vals) := by
  obtain ⟨r1, r2, r3⟩ := hr
  unfold tryStep sem
  rw [hstep, heff]
  have hab : s.Aborts m.vals ↔ p.2 ≠ 0 ∧ ReduceAborts p.1 p.2 := by
    unfold FStmt.Aborts
    rw [hraw]
    constructor
    · rintro ⟨t, b, h, h1, h2⟩
      cases h; exact ⟨h1, h2⟩
    · rintro ⟨h1, h2⟩; exact ⟨_, _, rfl, h1, h2⟩
  by_cases h0 : p.2 = 0
  · rw [if_pos h0, r1 h0]
    exact ⟨hm, rfl⟩
  · rw [if_neg h0]
    by_cases ha : ReduceAborts p.1 p.2
    · simp only [if_pos (hab.mpr ⟨h0, ha⟩)]
      rw [r3 h0 ha]; trivial
    · simp only [if_neg (fun h => ha (hab.mp h).2)]
      obtain ⟨f, f1, f2, f3⟩ := r2 h0 ha
      rw [f1]
      exact ⟨hm.set d f2, by rw [FMem.vals_set, f3]⟩

/-- A statement that changes a variable in place. -/
theorem FStmt.match_update {s : FStmt} {m : FMem} (hm : m.Valid) {d : Nat} {r : MRes Frac Frac} {p : Int × Int}
    (hstep : s.step m = m.update d r) (hraw : s.raw m.vals = some p)
    (heff : s.eff m.vals = if p.2 = 0 then .bad else .assign d ((p.1 : ℚ) / p.2)) (hr : MRedQ r p) :
    QMatches (s.tryStep m) (s.sem m.vals) := by
  unfold tryStep sem
  rw [hstep, heff]
  have hab : s.Aborts m.vals ↔ p.2 ≠ 0 ∧ ReduceAborts p.1 p.2 := by
    unfold FStmt.Aborts
    rw [hraw]
    constructor
    · rintro ⟨t, b, h, h1, h2⟩
      cases h; exact ⟨h1, h2⟩
    · rintro ⟨h1, h2⟩; exact ⟨_, _, rfl, h1, h2⟩
  by_cases h0 : p.2 = 0
  · rw [if_pos h0]; trivial
  · obtain ⟨r2, r3⟩ := hr h0
    rw [if_neg h0]
    by_cases ha : ReduceAborts p.1 p.2
    · simp only [if_pos (hab.mpr ⟨h0, ha⟩)]
      obtain ⟨x, x1⟩ := r3 ha
      rw [x1]; trivial
    · simp only [if_neg (fun h => ha (hab.mp h).2)]
      obtain ⟨f, f1, f2, f3⟩ := r2 ha
      rw [f1]
      exact ⟨hm.set d f2, by rw [FMem.vals_set, f3]⟩

theorem ratioVal_some {s : List Char} {p : Int × Int} (h : ratioVal s = some p) : RatioText s p.1 p.2 := by
  unfold ratioVal at h
  split at h
  · next hex => cases h; exact hex.choose_spec
  · cases h

theorem ratioVal_none {s : List Char} (h : ratioVal s = none) : ∀ t b, ¬RatioText s t b := by
  unfold ratioVal at h
  split at h
  · cases h
  · next hex => exact fun t b hz => hex ⟨(t, b), hz⟩

theorem ratioText_nil {t b : Int} (h : RatioText [] t b) : t = 0 ∧ b = 1 := by
  rcases h with ⟨_, h⟩ | ⟨h, _⟩ | ⟨p, q, h, _⟩
  · exact h
  · exact absurd rfl (intText_ne_nil h)
  · simp at h

theorem elim_eff {o : Option ℚ} {d : Nat} {t : FEff} {c : Prop} [Decidable c] {q : ℚ} (h : o = if c then none else some q) :
    o.elim t (FEff.assign d) = if c then t else .assign d q := by
  rw [h]; split <;> rfl

theorem FStmt.tryStep_matches {s : FStmt} (hl : s.Legal) {m : FMem} (hm : m.Valid) :
    QMatches (s.tryStep m) (s.sem m.vals) := by
  have noraw : ∀ {d : Nat} {f : Frac}, s.step m = .ok (m.set d f) → s.eff m.vals = .assign d f.value → f.Valid →
      s.raw m.vals = none → QMatches (s.tryStep m) (s.sem m.vals) := by
    intro d f h1 h2 h3 h4
    unfold tryStep sem
    rw [h1, h2]
    have : ¬s.Aborts m.vals := by
      rintro ⟨t, b, h, _⟩
      rw [h4] at h; cases h
    simp only [if_neg this]
    exact ⟨hm.set d h3, FMem.vals_set m d f⟩
  cases s with
  | lit d a b =>
    obtain ⟨t, t1, t2, t3, _⟩ := ofInt64_ok 0 hl.1.1 hl.1.2
    obtain ⟨u, u1, u2, u3, _⟩ := ofInt64_ok 0 hl.2.1 hl.2.2
    have t3 : t.val = a := by simpa using t3
    have u3 : u.val = b := by simpa using u3
    refine match_store hm (d := d) (r := mk' t u) (p := (a, b)) ?_ rfl rfl ?_
    · simp only [step, t1, u1, bind_ok]
    · have := red_mk' t2 u2
      rwa [t3, u3] at this
  | str d s =>
    by_cases hs : s = []
    · subst hs
      cases h : ratioVal [] with
      | none => exact absurd (.inl ⟨rfl, rfl, rfl⟩) (ratioVal_none h 0 1)
      | some p =>
        have := ratioText_nil (ratioVal_some h)
        refine noraw (d := d) (f := ⟨⟨[0], false⟩, ⟨[1], false⟩⟩) rfl ?_ default_valid (by simp [raw])
        simp only [eff, h, this.1, this.2]
        simp [value, BigInt.val]
    · cases h : ratioVal s with
      | none =>
        have hf := ofString_not_ratio (ratioVal_none h)
        unfold tryStep sem
        simp only [step, hf, eff, h, FMem.store]
        exact ⟨hm, rfl⟩
      | some p =>
        obtain ⟨k1, k2, k3⟩ := ofString_ratio (ratioVal_some h) hs
        unfold tryStep sem
        have he : (FStmt.str d s).eff m.vals = if p.2 = 0 then .throws else .assign d ((p.1 : ℚ) / p.2) := by
          simp only [eff, h]
        have hab : (FStmt.str d s).Aborts m.vals ↔ p.2 ≠ 0 ∧ ReduceAborts p.1 p.2 := by
          unfold FStmt.Aborts
          simp only [raw, if_neg hs, h]
          constructor
          · rintro ⟨t, b, h, h1, h2⟩
            cases h; exact ⟨h1, h2⟩
          · rintro ⟨h1, h2⟩; exact ⟨_, _, rfl, h1, h2⟩
        rw [he]
        simp only [step]
        by_cases h0 : p.2 = 0
        · rw [if_pos h0, k1 h0]
          exact ⟨hm, rfl⟩
        · rw [if_neg h0]
          by_cases ha : ReduceAborts p.1 p.2
          · simp only [if_pos (hab.mpr ⟨h0, ha⟩)]
            rw [k3 h0 ha]; trivial
          · simp only [if_neg (fun h => ha (hab.mp h).2)]
            obtain ⟨f, f1, f2, f3⟩ := k2 h0 ha
            rw [f1]
            exact ⟨hm.set d f2, by rw [FMem.vals_set, f3]⟩
  | copy d a => exact noraw (d := d) (f := m a) rfl rfl (hm a) rfl
  | bin op d a b =>
    exact match_store hm (d := d) rfl rfl (elim_eff (op.sem_parts _ _)) (op.run_red (hm a) (hm b))
  | binInt op d a k =>
    obtain ⟨t, t1, t2, t3, _⟩ := ofInt64_ok 0 hl.1 hl.2
    have t3 : t.val = k := by simpa using t3
    refine match_store hm (d := d) (r := op.runInt (m a) t) ?_ rfl (elim_eff (op.sem_parts _ _)) ?_
    · simp only [step, t1, bind_ok]
    · rw [← t3]; exact op.runInt_red (hm a) t2
  | intBin op d k a =>
    obtain ⟨t, t1, t2, t3, _⟩ := ofInt64_ok 0 hl.1 hl.2
    have t3 : t.val = k := by simpa using t3
    refine match_store hm (d := d) (r := op.intRun t (m a)) ?_ rfl (elim_eff (op.sem_parts _ _)) ?_
    · simp only [step, t1, bind_ok]
    · rw [← t3]; exact op.intRun_red (hm a) t2
  | asg op d a =>
    exact match_update hm (d := d) (op.assign_eq m d a) rfl (elim_eff (op.sem_parts _ _)) (op.asgVal_red (hm d) (hm a))
  | asgInt op d k =>
    obtain ⟨t, t1, t2, t3, _⟩ := ofInt64_ok 0 hl.1 hl.2
    have t3 : t.val = k := by simpa using t3
    refine match_update hm (d := d) (r := op.asgInt (m d) t) ?_ rfl (elim_eff (op.sem_parts _ _)) ?_
    · simp only [step, t1, at'_ok, mbind_ok]
    · rw [← t3]; exact op.asgInt_red (hm d) t2
  | pow d a k =>
    have hl : -1000000000 < k ∧ k < 1000000000 := hl
    obtain ⟨t, t1, t2, t3, _⟩ := ofInt64_ok (x := k) 0 (by omega) (by omega)
    have t3 : t.val = k := by simpa using t3
    have hva : m.vals a = (m a).value := rfl
    by_cases hk : 0 ≤ k
    · refine match_store hm (d := d) (r := opPow (m a) t) (p := ((m a).value.num ^ k.toNat, (m a).value.den ^ k.toNat)) ?_ ?_ ?_ ?_
      · simp only [step, t1, bind_ok]
      · simp only [raw, if_pos hk, hva]
      · simp only [eff, hva]
        rw [if_neg (by omega), if_neg (pow_ne_zero _ (by exact_mod_cast (m a).value.den_nz))]
        congr 1
        obtain ⟨n, rfl⟩ := Int.eq_ofNat_of_zero_le hk
        rw [zpow_natCast, Int.toNat_natCast]
        push_cast
        rw [← div_pow, Rat.num_div_den]
      · have := opPow_red_nonneg t2 (hm a) (by omega) (GoodExp.of_lt (by omega) (by omega))
        rw [t3] at this
        simpa only [RedQ, (hm a).num, (hm a).den] using this
    · refine match_store hm (d := d) (r := opPow (m a) t)
        (p := ((m a).value.den ^ (-k).toNat, (m a).value.num ^ (-k).toNat)) ?_ ?_ ?_ ?_
      · simp only [step, t1, bind_ok]
      · simp only [raw, if_neg hk, hva]
      · simp only [eff, hva]
        have hk0 : (-k).toNat ≠ 0 := by omega
        by_cases h0 : (m a).value = 0
        · rw [if_pos ⟨by omega, h0⟩, if_pos (by simp [h0, hk0])]
        · have hn : (m a).value.num ≠ 0 := Rat.num_ne_zero.mpr h0
          rw [if_neg (fun h => h0 h.2), if_neg (pow_ne_zero _ hn)]
          congr 1
          obtain ⟨n, hn'⟩ : ∃ n : Nat, k = -n := ⟨(-k).toNat, by omega⟩
          subst hn'
          rw [zpow_neg, zpow_natCast, neg_neg, Int.toNat_natCast]
          push_cast
          rw [← div_pow, ← inv_pow, ← Rat.num_div_den (m a).value, inv_div, Rat.num_div_den]
      · have := opPow_red_neg t2 (hm a) (by omega) (GoodExp.of_lt (by omega) (by omega))
        rw [t3] at this
        simpa only [RedQ, (hm a).num, (hm a).den] using this
  | powAsg d k =>
    have hl : -1000000000 < k ∧ k < 1000000000 := hl
    by_cases hk : k < 0
    · have : (FStmt.powAsg d k).sem m.vals = .bad := by simp [sem, eff, hk]
      rw [this]; trivial
    · obtain ⟨t, t1, t2, t3, _⟩ := ofInt64_ok (x := k) 0 (by omega) (by omega)
      have t3 : t.val = k := by simpa using t3
      have hva : m.vals d = (m d).value := rfl
      refine match_update hm (d := d) (r := powAssign (m d) t)
        (p := ((m d).value.num ^ k.toNat, (m d).value.den ^ k.toNat)) ?_ rfl ?_ ?_
      · simp only [step, t1, at'_ok, mbind_ok]
      · simp only [eff, hva]
        rw [if_neg hk, if_neg (pow_ne_zero _ (by exact_mod_cast (m d).value.den_nz))]
        congr 1
        obtain ⟨n, rfl⟩ := Int.eq_ofNat_of_zero_le (not_lt.mp hk)
        rw [zpow_natCast, Int.toNat_natCast]
        push_cast
        rw [← div_pow, Rat.num_div_den]
      · intro _
        have := powAssign_red (hm d) t2 (by rw [t3, abs_of_nonneg (by omega)]; exact GoodExp.of_lt (by omega) (by omega))
        rw [t3, show k.natAbs = k.toNat by omega] at this
        simpa only [(hm d).num, (hm d).den] using this
  | recip d a =>
    have hva : m.vals a = (m a).value := rfl
    refine match_store hm (d := d) rfl rfl ?_ ?_
    · simp only [eff, hva]
      by_cases h0 : (m a).value = 0
      · simp [h0]
      · rw [if_neg h0, if_neg (Rat.num_ne_zero.mpr h0)]
        congr 1
        push_cast
        conv_lhs => rw [← Rat.num_div_den (m a).value, one_div, inv_div]
    · have := reciprocal_red (hm a)
      simpa only [RedQ, hva, (hm a).num, (hm a).den] using this

theorem FProg.exec_matches (f : Nat) : ∀ {p : FProg}, p.Legal → ∀ {m : FMem}, m.Valid →
    QMatches (p.exec f m) (p.sem f m.vals) := by
  induction f with
  | zero => intro p _ m _; trivial
  | succ f ih =>
    intro p hl m hm
    have seq : ∀ {p q : FProg}, p.Legal → q.Legal →
        QMatches (do let m ← p.exec f m; q.exec f m) ((p.sem f m.vals).bind (q.sem f)) := by
      intro p q h1 h2
      have k := ih h1 hm
      revert k
      cases p.sem f m.vals with
      | bad => intro _; unfold QOutcome.bind; cases (do let m ← p.exec f m; q.exec f m) <;> trivial
      | done v =>
        cases p.exec f m with
        | ok m' =>
          rintro ⟨k1, rfl⟩
          exact ih h2 k1
        | error e => cases e <;> exact fun h => absurd h id
      | abort =>
        cases p.exec f m with
        | ok m' => exact fun h => absurd h id
        | error e => exact fun h => h
      | timeout =>
        cases p.exec f m with
        | ok m' => exact fun h => absurd h id
        | error e => exact fun h => h
    cases p with
    | stmt s => exact FStmt.tryStep_matches hl hm
    | seq p q => exact seq hl.1 hl.2
    | ite c a b p q =>
      simp only [exec, sem, c.runFrac_eq (hm a) (hm b), bind_ok]
      have e : c.semQ (m.vals a) (m.vals b) = c.semQ (m a).value (m b).value := rfl
      rw [e]
      cases c.semQ (m a).value (m b).value
      · simpa using ih hl.2 hm
      · simpa using ih hl.1 hm
    | «while» c a b p =>
      simp only [exec, sem, c.runFrac_eq (hm a) (hm b), bind_ok]
      have e : c.semQ (m.vals a) (m.vals b) = c.semQ (m a).value (m b).value := rfl
      rw [e]
      cases c.semQ (m a).value (m b).value
      · exact ⟨hm, rfl⟩
      · have := seq (p := p) (q := .while c a b p) hl hl
        simpa using this

/-! ### Moderate operands -/

theorem not_euclidAborts_small {a b : Int} (ha0 : 0 ≤ a) (ha : a < 1000000000000000000) (hb0 : 0 ≤ b)
    (hb : b < 1000000000000000000) : ¬EuclidAborts a b := by
  intro h
  induction h with
  | here _ h => exact not_divAborts_small (by rwa [abs_of_nonneg ha0]) h
  | @next a b hne _ ih =>
    exact ih hb0 hb (Int.emod_nonneg a hne) (lt_trans (Int.emod_lt_of_pos a (by omega)) hb)

theorem not_reduceAborts_small {t b : Int} (ht : |t| < 1000000000000000000) (hb : |b| < 1000000000000000000) :
    ¬ReduceAborts t b := by
  rintro (h | h | h)
  · exact not_euclidAborts_small (le_max_of_le_left (abs_nonneg _)) (max_lt ht hb) (le_min (abs_nonneg _) (abs_nonneg _))
      (lt_of_le_of_lt (min_le_left _ _) ht) h
  · exact not_divAborts_small ht h
  · exact not_divAborts_small hb h

end CppMaths
