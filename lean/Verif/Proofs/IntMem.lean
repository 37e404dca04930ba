import Verif.Proofs.IntSafe
import Verif.Proofs.IntUnfold
import Verif.Proofs.IntText
import Verif.Spec.IntProg
/-!
# Compound assignment in memory and the refinement of programs
-/

namespace CppMaths

@[simp] theorem Mem.set_same (m : Mem) (d : Nat) (v : BigInt) : m.set d v d = v := by simp [Mem.set]
@[simp] theorem Mem.set_set (m : Mem) (d : Nat) (v w : BigInt) : (m.set d v).set d w = m.set d w := by
  funext i; simp only [Mem.set]; split <;> rfl
theorem Mem.set_other (m : Mem) {d i : Nat} (v : BigInt) (h : i ≠ d) : m.set d v i = m i := by simp [Mem.set, h]

namespace BigInt

theorem ofShift_zero (x : BigInt) : ofShift x 0 = x := by simp [ofShift]

theorem addMemNonneg_eq (m : Mem) (d s : Nat) :
    addMemNonneg m d s = (do let v ← addAssignNonneg (m d) (m s); return m.set d v) := rfl

theorem subMemNonneg_eq (m : Mem) (d s : Nat) :
    subMemNonneg m d s = (do let v ← subAssignNonneg (m d) (m s); return m.set d v) := by
  unfold subMemNonneg subAssignNonneg
  rw [ofShift_zero]
  cases hg : (m d).gt (m s) with
  | error e => rfl
  | ok g =>
    cases g
    · simp only [bind_ok, Bool.false_eq_true, if_false]
      cases (m s).subtract (m d) with
      | error e => rfl
      | ok r => cases h : r.negate <;> simp [h]
    · simp only [bind_ok, if_true]

theorem addAssignMem_eq (m : Mem) (d s : Nat) :
    addAssignMem m d s = (do let v ← (m d).addAssign (m s); return m.set d v) := by
  unfold addAssignMem
  cases hx : (m d).negative <;> cases hy : (m s).negative
  · simp only [addMemNonneg_eq, addAssign_nonneg' hx hy]; simp
  · rw [addAssign_eq]
    simp only [hx, hy]
    cases h : (m s).neg <;> simp
  · have hne : s ≠ d := by rintro rfl; rw [hx] at hy; cases hy
    rcases negate_cases hx with ⟨e, he⟩ | ⟨r, hr, hn⟩
    · simp [addAssign, hx, hy, he]
    · simp only [hr, bind_ok, subMemNonneg_eq, Mem.set_same, Mem.set_other m r hne]
      simp only [addAssign, hx, hy, hr]
      cases h : r.subAssignNonneg (m s) with
      | error e => simp [h]
      | ok w => cases h2 : w.negate <;> simp [h, h2]
  · rcases negate_cases hx with ⟨e, he⟩ | ⟨r, hr, hn⟩
    · cases h : (m s).neg <;> simp [addAssign, hx, hy, he, h]
    · rcases neg_cases hy with ⟨e, he⟩ | ⟨t, ht, hm⟩
      · simp [addAssign, hx, hy, he]
      · simp only [hr, ht, bind_ok, Mem.set_same, addAssign_nonneg' hn hm]
        simp only [addAssign, hx, hy, hr, ht]
        cases h : r.addAssignNonneg t with
        | error e => simp [h]
        | ok w => cases h2 : w.negate <;> simp [h, h2]

theorem subAssignMem_eq (m : Mem) (d s : Nat) :
    subAssignMem m d s = (do let v ← (m d).subAssign (m s); return m.set d v) := by
  unfold subAssignMem
  cases hx : (m d).negative <;> cases hy : (m s).negative
  · simp only [subMemNonneg_eq, subAssign_nonneg' hx hy]; simp
  · rw [subAssign_eq]
    simp only [hx, hy]
    cases h : (m s).neg <;> simp
  · have hne : s ≠ d := by rintro rfl; rw [hx] at hy; cases hy
    rcases negate_cases hx with ⟨e, he⟩ | ⟨r, hr, hn⟩
    · simp [subAssign, hx, hy, he]
    · simp only [hr, bind_ok, addMemNonneg_eq, Mem.set_same, Mem.set_other m r hne]
      simp only [subAssign, hx, hy, hr]
      cases h : r.addAssignNonneg (m s) with
      | error e => simp [h]
      | ok w => cases h2 : w.negate <;> simp [h, h2]
  · rcases negate_cases hx with ⟨e, he⟩ | ⟨r, hr, hn⟩
    · cases h : (m s).neg <;> simp [subAssign, hx, hy, he, h]
    · rcases neg_cases hy with ⟨e, he⟩ | ⟨t, ht, hm⟩
      · simp [subAssign, hx, hy, he]
      · simp only [hr, ht, bind_ok, Mem.set_same, subAssign_nonneg' hn hm]
        simp only [subAssign, hx, hy, hr, ht]
        cases h : r.subAssignNonneg t with
        | error e => simp [h]
        | ok w => cases h2 : w.negate <;> simp [h, h2]

theorem mulAssignMem_eq (m : Mem) (d s : Nat) :
    mulAssignMem m d s = (do let v ← (m d).mulAssign (m s); return m.set d v) := by
  unfold mulAssignMem mulAssign
  cases multiply (m d) (m s) <;> rfl

theorem divAssignMem_eq (m : Mem) (d s : Nat) :
    divAssignMem m d s = (do let v ← (m d).divAssign (m s); return m.set d v) := rfl
theorem modAssignMem_eq (m : Mem) (d s : Nat) :
    modAssignMem m d s = (do let v ← (m d).modAssign (m s); return m.set d v) := rfl
theorem powAssignMem_eq (m : Mem) (d s : Nat) :
    powAssignMem m d s = (do let v ← (m d).powAssign (m s); return m.set d v) := rfl

end BigInt

open BigInt

/-- The by-value function behind `op=`. -/
def IOp.asgVal : IOp → BigInt → BigInt → Res BigInt
  | .add => BigInt.addAssign
  | .sub => BigInt.subAssign
  | .mul => BigInt.mulAssign
  | .div => BigInt.divAssign
  | .mod => BigInt.modAssign

theorem IOp.assign_eq (op : IOp) (m : Mem) (d s : Nat) :
    op.assign m d s = (do let v ← op.asgVal (m d) (m s); return m.set d v) := by
  cases op
  · exact addAssignMem_eq m d s
  · exact subAssignMem_eq m d s
  · exact mulAssignMem_eq m d s
  · exact divAssignMem_eq m d s
  · exact modAssignMem_eq m d s

/-- What the call computes, compared with the integer operation. -/
def Refines (r : Res BigInt) (z : Option Int) : Prop :=
  r = .error .assertion ∨
  match z with
  | some z => ∃ a, r = .ok a ∧ WF a ∧ a.val = z
  | none => r = .error .divideByZero

theorem good_refines {r : Res BigInt} {z : Int} (h : Good r z) : Refines r (some z) := by
  rcases h with ⟨a, h1, h2, h3, _⟩ | h
  · exact .inr ⟨a, h1, h2, h3⟩
  · exact .inl h

theorem divide_refines {x y : BigInt} (hx : WF x) (hy : WF y) : Refines (divide x y) (IOp.div.sem x.val y.val) := by
  obtain ⟨d1, d2, d3⟩ := divide_spec hx hy
  simp only [IOp.sem]
  by_cases h : y.val = 0
  · rw [if_pos h]; exact .inr (d1 h)
  · rw [if_neg h]
    by_cases ht : DivTrips x y
    · exact .inl (d2 h ht)
    · obtain ⟨r, r1, r2, r3⟩ := d3 h ht
      exact .inr ⟨r, r1, r2.1, r3⟩

theorem modulo_refines {x y : BigInt} (hx : WF x) (hy : WF y) : Refines (modulo x y) (IOp.mod.sem x.val y.val) := by
  obtain ⟨d1, d2⟩ := modulo_wf hx hy
  simp only [IOp.sem]
  by_cases h : y.val = 0
  · rw [if_pos h]; exact .inr (d1 h)
  · rw [if_neg h]; exact good_refines (d2 h)

theorem IOp.run_refines (op : IOp) {x y : BigInt} (hx : WF x) (hy : WF y) :
    Refines (op.run x y) (op.sem x.val y.val) := by
  cases op
  · exact good_refines (opAdd_wf hx hy)
  · exact good_refines (opSub_wf hx hy)
  · obtain ⟨r, r1, r2, r3, _⟩ := opMul_wf hx hy
    exact .inr ⟨r, r1, r2, r3⟩
  · have := divide_refines hx hy; rwa [← opDiv_eq] at this
  · exact modulo_refines hx hy

theorem IOp.asgVal_refines (op : IOp) {x y : BigInt} (hx : WF x) (hy : WF y) :
    Refines (op.asgVal x y) (op.sem x.val y.val) := by
  cases op
  · exact good_refines (addAssign_wf hx hy)
  · exact good_refines (subAssign_wf hx hy)
  · obtain ⟨r, r1, r2, r3, _⟩ := mulAssign_ok hx hy
    exact .inr ⟨r, r1, r2, r3⟩
  · have := divide_refines hx hy; rwa [← divAssign_eq] at this
  · exact modulo_refines hx hy

theorem ICmp.run_eq (c : ICmp) {x y : BigInt} (hx : WF x) (hy : WF y) : c.run x y = .ok (c.sem x.val y.val) := by
  cases c
  · exact lt_spec hx hy
  · exact gt_spec hx hy
  · exact le_spec hx hy
  · exact ge_spec hx hy
  · exact eq_spec hx hy
  · exact ne_spec hx hy

/-- The values of the variables. -/
def Mem.vals (m : Mem) : Env := fun i => (m i).val
/-- All variables are well formed. -/
def Mem.WF (m : Mem) : Prop := ∀ i, (m i).WF
/-- All variables are canonical. -/
def Mem.Canon (m : Mem) : Prop := ∀ i, (m i).Canon

theorem Mem.vals_set (m : Mem) (d : Nat) (v : BigInt) : (m.set d v).vals = m.vals.set d v.val := by
  funext i; simp only [Mem.vals, Mem.set, Env.set]; split <;> rfl
theorem Mem.WF.set {m : Mem} (h : m.WF) (d : Nat) {v : BigInt} (hv : v.WF) : (m.set d v).WF := by
  intro i; simp only [Mem.set]; split
  · exact hv
  · exact h i
theorem Mem.Canon.set {m : Mem} (h : m.Canon) (d : Nat) {v : BigInt} (hv : v.Canon) : (m.set d v).Canon := by
  intro i; simp only [Mem.set]; split
  · exact hv
  · exact h i

theorem textVal_some {s : List Char} {z : Int} (h : textVal s = some z) : IntText s z := by
  unfold textVal at h
  split at h
  · next hex => cases h; exact hex.choose_spec
  · cases h

theorem textVal_none {s : List Char} (h : textVal s = none) : ∀ z, ¬IntText s z := by
  unfold textVal at h
  split at h
  · cases h
  · next hex => exact fun z hz => hex ⟨z, hz⟩

/-- One protected statement refines its meaning, or aborts. -/
theorem IStmt.tryStep_refines {s : IStmt} (hl : s.Legal) {m : Mem} (hm : m.WF) :
    (∃ m', s.tryStep m = .ok m' ∧ m'.WF ∧ m'.vals = s.next m.vals) ∨ s.tryStep m = .error .assertion := by
  -- statements that store a value which is certainly computed
  have sure : ∀ {d : Nat} {r : Res BigInt} {z : Int}, s.step m = (do let v ← r; return m.set d v) → s.sem m.vals = some (d, z) →
      Refines r (some z) →
      (∃ m', s.tryStep m = .ok m' ∧ m'.WF ∧ m'.vals = s.next m.vals) ∨ s.tryStep m = .error .assertion := by
    intro d r z h1 h2 h3
    unfold tryStep next
    rcases h3 with rfl | ⟨a, rfl, a2, a3⟩
    · right; rw [h1]; rfl
    · left; refine ⟨m.set d a, by rw [h1]; rfl, hm.set d a2, ?_⟩
      rw [h2, Mem.vals_set, a3]
  have maybe : ∀ {d : Nat} {r : Res BigInt} {z : Option Int}, s.step m = (do let v ← r; return m.set d v) →
      s.sem m.vals = z.map (d, ·) → Refines r z →
      (∃ m', s.tryStep m = .ok m' ∧ m'.WF ∧ m'.vals = s.next m.vals) ∨ s.tryStep m = .error .assertion := by
    intro d r z h1 h2 h3
    cases z with
    | some z => exact sure h1 h2 h3
    | none =>
      unfold tryStep next
      rcases h3 with rfl | h3
      · right; rw [h1]; rfl
      · left; refine ⟨m, by rw [h1, h3]; rfl, hm, by rw [h2]; rfl⟩
  cases s with
  | lit d k =>
    obtain ⟨r, r1, r2, r3, _⟩ := ofInt64_ok 0 hl.1 hl.2
    exact sure (d := d) (z := k) rfl rfl (.inr ⟨r, r1, r2.1, by simpa using r3⟩)
  | str d s =>
    cases h : textVal s with
    | some z =>
      obtain ⟨r, r1, r2, r3⟩ := ofString_ok (textVal_some h)
      exact sure (d := d) (z := z) rfl (by simp [sem, h]) (.inr ⟨r, r1, r2.1, r3⟩)
    | none =>
      left
      refine ⟨m, ?_, hm, by simp [next, sem, h]⟩
      simp [tryStep, step, ofString_fail (textVal_none h)]
  | copy d a => exact .inl ⟨m.set d (m a), rfl, hm.set d (hm a), Mem.vals_set m d _⟩
  | bin op d a b => exact maybe (d := d) rfl rfl (op.run_refines (hm a) (hm b))
  | asg op d a => exact maybe (d := d) (op.assign_eq m d a) rfl (op.asgVal_refines (hm d) (hm a))
  | neg d a =>
    obtain ⟨r, r1, r2, _, r4, _⟩ := neg_ok (hm a)
    exact sure (d := d) rfl rfl (.inr ⟨r, r1, r2, r4⟩)
  | negate d =>
    obtain ⟨r, r1, r2, _, r4, _⟩ := negate_ok (hm d)
    exact sure (d := d) rfl rfl (.inr ⟨r, r1, r2, r4⟩)
  | abs d a =>
    obtain ⟨r, r1, r2, _, r4⟩ := abs_ok (hm a)
    exact sure (d := d) rfl rfl (.inr ⟨r, r1, r2, by rw [r4, ← abs_val (hm a)]; rfl⟩)
  | pow d a e =>
    have hl : e < 1000000000 := hl
    obtain ⟨y, y1, y2, y3, _⟩ := ofInt64_ok (x := e) 0 (by omega) (by omega)
    have y3 : y.val = e := by simpa using y3
    obtain ⟨r, r1, r2, _, r4⟩ := exponentiate_wf_ok (hm a) y2 (by omega) (GoodExp.of_lt (by omega) (by omega))
    refine sure (d := d) (r := .ok r) (z := m.vals a ^ e) ?_ rfl (.inr ⟨r, rfl, r2, by rw [r4, y3]; rfl⟩)
    simp only [step, y1, bind_ok, opPow, r1]
  | ten d p =>
    have h := timesPowerTen_wf (hm d) hl.1
    refine sure (d := d) rfl rfl ?_
    rcases h with ⟨r, r1, r2, r3⟩ | h
    · exact .inr ⟨r, r1, r2, r3⟩
    · exact .inl h

/-- A program run refines the run over integers: it ends with variables of the right values, or an assertion has failed,
or the depth did not suffice for either. -/
theorem IProg.exec_refines (f : Nat) : ∀ {p : IProg}, p.Legal → ∀ {m : Mem}, m.WF →
    (∃ m', p.exec f m = .ok m' ∧ m'.WF ∧ p.sem f m.vals = some m'.vals) ∨
    (p.exec f m = .error .diverge ∧ p.sem f m.vals = none) ∨
    p.exec f m = .error .assertion := by
  induction f with
  | zero => intro p _ m _; exact .inr (.inl ⟨rfl, rfl⟩)
  | succ f ih =>
    intro p hl m hm
    -- two phases
    have seq : ∀ {p q : IProg}, p.Legal → q.Legal →
        (∃ m', (do let m ← p.exec f m; q.exec f m) = .ok m' ∧ m'.WF ∧ (p.sem f m.vals).bind (q.sem f) = some m'.vals) ∨
        ((do let m ← p.exec f m; q.exec f m) = .error .diverge ∧ (p.sem f m.vals).bind (q.sem f) = none) ∨
        (do let m ← p.exec f m; q.exec f m) = .error .assertion := by
      intro p q hp hq
      rcases ih hp hm with ⟨m', h1, h2, h3⟩ | ⟨h1, h2⟩ | h1
      · rw [h1, h3]; exact ih hq h2
      · rw [h1, h2]; exact .inr (.inl ⟨rfl, rfl⟩)
      · rw [h1]; exact .inr (.inr rfl)
    cases p with
    | stmt s =>
      rcases IStmt.tryStep_refines hl hm with ⟨m', h1, h2, h3⟩ | h
      · exact .inl ⟨m', h1, h2, by rw [sem, h3]⟩
      · exact .inr (.inr h)
    | seq p q => exact seq hl.1 hl.2
    | ite c a b p q =>
      simp only [exec, sem, c.run_eq (hm a) (hm b), bind_ok]
      have e : c.sem (m.vals a) (m.vals b) = c.sem (m a).val (m b).val := rfl
      rw [e]
      cases c.sem (m a).val (m b).val
      · simpa using ih hl.2 hm
      · simpa using ih hl.1 hm
    | «while» c a b p =>
      simp only [exec, sem, c.run_eq (hm a) (hm b), bind_ok]
      have e : c.sem (m.vals a) (m.vals b) = c.sem (m a).val (m b).val := rfl
      rw [e]
      cases c.sem (m a).val (m b).val
      · exact .inl ⟨m, by simp, hm, by simp⟩
      · have := seq (p := p) (q := .while c a b p) hl hl
        simpa using this

/-! ### Plain programs on canonical variables: aborts exactly where the division aborts -/

theorem divide_exact {x y : BigInt} (hx : Canon x) (hy : Canon y) :
    (y.val = 0 → divide x y = .error .divideByZero) ∧
    (y.val ≠ 0 → DivAborts x.val y.val → divide x y = .error .assertion) ∧
    (y.val ≠ 0 → ¬DivAborts x.val y.val → ∃ r, divide x y = .ok r ∧ Canon r ∧ r.val = x.val.tdiv y.val) := by
  rw [← divTrips_iff hx.clean hy.1]
  exact divide_spec hx.1 hy.1

/-- Repeated division by ten aborts exactly if one of the divisions does. -/
theorem divTenLoop_exact (n : Nat) : ∀ {a : BigInt}, Canon a →
    ((∃ i < n, DivAborts (a.val.tdiv (10 ^ i)) 10) → divTenLoop n a = .error .assertion) ∧
    ((¬∃ i < n, DivAborts (a.val.tdiv (10 ^ i)) 10) → ∃ r, divTenLoop n a = .ok r ∧ Canon r ∧ r.val = a.val.tdiv (10 ^ n)) := by
  induction n with
  | zero => intro a ha; exact ⟨fun ⟨i, hi, _⟩ => absurd hi (by omega), fun _ => ⟨a, rfl, ha, by simp⟩⟩
  | succ n ih =>
    intro a ha
    obtain ⟨ten, t1, t2, t3, t4⟩ := ofInt64_ok (x := 10) 0 (by omega) (by omega)
    have t3 : ten.val = 10 := by simpa using t3
    obtain ⟨_, d2, d3⟩ := divide_exact ha t2
    rw [t3] at d2 d3
    by_cases htr : DivAborts a.val 10
    · have e : divTenLoop (n + 1) a = .error .assertion := by
        simp only [divTenLoop, t1, bind_ok, divAssign_eq, d2 (by omega) htr, bind_err]
      exact ⟨fun _ => e, fun h => absurd ⟨0, by omega, by simpa using htr⟩ h⟩
    · obtain ⟨s, s1, s2, s3⟩ := d3 (by omega) htr
      have e : divTenLoop (n + 1) a = divTenLoop n s := by simp only [divTenLoop, t1, bind_ok, divAssign_eq, s1]
      have hs : ∀ i, s.val.tdiv (10 ^ i) = a.val.tdiv (10 ^ (i + 1)) := fun i => by
        rw [s3, tdiv_tdiv_pos (by norm_num), pow_succ, mul_comm]
      have hiff : (∃ i < n + 1, DivAborts (a.val.tdiv (10 ^ i)) 10) ↔ ∃ i < n, DivAborts (s.val.tdiv (10 ^ i)) 10 := by
        constructor
        · rintro ⟨i, hi, h⟩
          cases i with
          | zero => exact absurd (by simpa using h) htr
          | succ i => exact ⟨i, by omega, by rwa [hs]⟩
        · rintro ⟨i, hi, h⟩
          exact ⟨i + 1, by omega, by rwa [← hs]⟩
      rw [hiff, e, ← hs]
      exact ih s2

/-- `times_power_ten` with a negative power aborts exactly if one of the divisions by ten does. -/
theorem timesPowerTen_exact {a : BigInt} (ha : Canon a) {p : Int} (hp : p < 0) (hp2 : -2147483647 ≤ p) :
    (TenAborts a.val p → timesPowerTen a p = .error .assertion) ∧
    (¬TenAborts a.val p → ∃ r, timesPowerTen a p = .ok r ∧ Canon r ∧ r.val = a.val.tdiv (10 ^ (-p).toNat)) := by
  have h9 : (-p).toNat = 9 * ((-p).toNat / 9) + (-p).toNat % 9 := by omega
  have hsplit : ∀ i, (10 : Int) ^ (9 * ((-p).toNat / 9) + i) = 1000000000 ^ ((-p).toNat / 9) * 10 ^ i := fun i => by
    rw [pow_add, pow_mul]
    norm_num
  have hret : timesPowerTen a p = (if (a.bins.drop ((-p).toNat / 9)).isEmpty = true then setValue 0
        else divTenLoop ((-p).toNat % 9) { a with bins := a.bins.drop ((-p).toNat / 9) }) := by
    unfold timesPowerTen
    rw [if_neg (by omega), if_pos hp, i32_ok (z := -p) (by omega) (by omega)]
    simp only [bind_ok]
  by_cases hlen : (-p).toNat / 9 < a.bins.length
  · have hne : (a.bins.drop ((-p).toNat / 9)).isEmpty = false := by
      rw [List.isEmpty_eq_false_iff]; exact List.ne_nil_of_length_pos (by rw [List.length_drop]; omega)
    rw [hret, if_neg (by simp [hne])]
    obtain ⟨d, hdeq, hd, hdv⟩ : ∃ d, ({ a with bins := a.bins.drop ((-p).toNat / 9) } : BigInt) = d ∧ Canon d ∧
        d.val = a.val.tdiv (1000000000 ^ ((-p).toNat / 9)) := by
      by_cases hv : a.val = 0
      · have hm : mag a.bins = 0 := val_eq_zero_iff.mp hv
        have h1 := noLead_length_le ha.1.2 ha.2.1 (k := 1) (le_refl _) (by rw [hm]; norm_num)
        have h0 : (-p).toNat / 9 = 0 := by omega
        rw [h0]
        exact ⟨a, by simp, ha, by simp⟩
      · obtain ⟨d1, d2⟩ := drop_canon ha hlen hv
        exact ⟨_, rfl, d1, d2⟩
    rw [hdeq]
    have hs : ∀ i, d.val.tdiv (10 ^ i) = a.val.tdiv (10 ^ (9 * ((-p).toNat / 9) + i)) := fun i => by
      rw [hdv, tdiv_tdiv_pos (by positivity), hsplit]
    have hfin := hs ((-p).toNat % 9)
    rw [← h9] at hfin
    have key := divTenLoop_exact ((-p).toNat % 9) hd
    simp only [hs, ← h9] at key
    exact key
  · have hna : ¬TenAborts a.val p := by
      rintro ⟨i, _, h, _⟩
      have hz : a.val.tdiv (10 ^ (9 * ((-p).toNat / 9) + i)) = 0 := by
        apply tdiv_of_abs_lt
        rw [abs_val ha.1, hsplit]
        calc mag a.bins < 1000000000 ^ a.bins.length := mag_lt ha.1.2
          _ ≤ 1000000000 ^ ((-p).toNat / 9) := pow_le_pow_right₀ (by norm_num) (by omega)
          _ ≤ 1000000000 ^ ((-p).toNat / 9) * 10 ^ i := le_mul_of_one_le_right (by positivity) (one_le_pow₀ (by norm_num))
      rw [hz] at h
      norm_num at h
    refine ⟨fun h => absurd h hna, fun _ => ?_⟩
    rcases (timesPowerTen_neg ha hp hp2).1 with h | h
    · exact h
    · rw [hret, if_pos (by rw [List.drop_of_length_le (by omega)]; rfl)] at h
      exact absurd h (by decide +kernel)

theorem modulo_exact {x y : BigInt} (hx : Canon x) (hy : Canon y) :
    (y.val = 0 → modulo x y = .error .divideByZero) ∧
    (y.val ≠ 0 → DivAborts x.val y.val → modulo x y = .error .assertion) ∧
    (y.val ≠ 0 → ¬DivAborts x.val y.val → ∃ r, modulo x y = .ok r ∧ Canon r ∧ r.val = x.val.fmod y.val) := by
  rw [← divTrips_iff hx.clean hy.1]
  exact modulo_spec hx.clean hy.clean

theorem IStmt.tryStep_exact {s : IStmt} (hl : s.Legal) (hp : s.Plain) {m : Mem} (hm : m.Canon) :
    (¬s.Aborts m.vals → ∃ m', s.tryStep m = .ok m' ∧ m'.Canon ∧ m'.vals = s.next m.vals) ∧
    (s.Aborts m.vals → s.tryStep m = .error .assertion) := by
  have sure : ∀ {d : Nat} {r : Res BigInt} {z : Int}, s.step m = (do let v ← r; return m.set d v) → s.sem m.vals = some (d, z) →
      (∃ a, r = .ok a ∧ Canon a ∧ a.val = z) →
      (∃ m', s.tryStep m = .ok m' ∧ m'.Canon ∧ m'.vals = s.next m.vals) := by
    rintro d r z h1 h2 ⟨a, rfl, a2, a3⟩
    unfold tryStep next
    refine ⟨m.set d a, by rw [h1]; rfl, hm.set d a2, ?_⟩
    rw [h2, Mem.vals_set, a3]
  have fail : s.sem m.vals = none → (s.step m = .error .divideByZero ∨ s.step m = .error .invalidArgument) →
      (∃ m', s.tryStep m = .ok m' ∧ m'.Canon ∧ m'.vals = s.next m.vals) := by
    intro h2 h3
    unfold tryStep next
    refine ⟨m, by rcases h3 with h3 | h3 <;> rw [h3], hm, by rw [h2]⟩
  have divlike : ∀ {d : Nat} {r : Res BigInt} {x y z : Int}, s.step m = (do let v ← r; return m.set d v) →
      s.sem m.vals = (if y = 0 then none else some z).map (d, ·) →
      ((y = 0 → r = .error .divideByZero) ∧ (y ≠ 0 → DivAborts x y → r = .error .assertion) ∧
        (y ≠ 0 → ¬DivAborts x y → ∃ a, r = .ok a ∧ Canon a ∧ a.val = z)) →
      (¬(y ≠ 0 ∧ DivAborts x y) → ∃ m', s.tryStep m = .ok m' ∧ m'.Canon ∧ m'.vals = s.next m.vals) ∧
      ((y ≠ 0 ∧ DivAborts x y) → s.tryStep m = .error .assertion) := by
    intro d r x y z h1 h2 ⟨k1, k2, k3⟩
    constructor
    · intro hn
      by_cases hy : y = 0
      · exact fail (by rw [h2, if_pos hy]; rfl) (.inl (by rw [h1, k1 hy]; rfl))
      · exact sure h1 (by rw [h2, if_neg hy]; rfl) (k3 hy (fun h => hn ⟨hy, h⟩))
    · rintro ⟨hy, ha⟩
      unfold tryStep
      rw [h1, k2 hy ha]; rfl
  have noab : (¬s.Aborts m.vals) → (∃ m', s.tryStep m = .ok m' ∧ m'.Canon ∧ m'.vals = s.next m.vals) →
    ((¬s.Aborts m.vals → ∃ m', s.tryStep m = .ok m' ∧ m'.Canon ∧ m'.vals = s.next m.vals) ∧
      (s.Aborts m.vals → s.tryStep m = .error .assertion)) := fun h1 h2 => ⟨fun _ => h2, fun h => absurd h h1⟩
  cases s with
  | lit d k =>
    obtain ⟨r, r1, r2, r3, _⟩ := ofInt64_ok 0 hl.1 hl.2
    exact noab id (sure (d := d) (z := k) rfl rfl ⟨r, r1, r2, by simpa using r3⟩)
  | str d s =>
    cases h : textVal s with
    | some z =>
      obtain ⟨r, r1, r2, r3⟩ := ofString_ok (textVal_some h)
      exact noab id (sure (d := d) (z := z) rfl (by simp [sem, h]) ⟨r, r1, r2, r3⟩)
    | none =>
      exact noab id (fail (by simp [sem, h]) (.inr (by simp [step, ofString_fail (textVal_none h)])))
  | copy d a => exact noab id ⟨m.set d (m a), rfl, hm.set d (hm a), Mem.vals_set m d _⟩
  | bin op d a b =>
    cases op with
    | add => exact noab id (sure (d := d) rfl rfl (opAdd_ok (hm a).clean (hm b).clean))
    | sub => exact noab id (sure (d := d) rfl rfl (opSub_ok (hm a).clean (hm b).clean))
    | mul => exact noab id (sure (d := d) rfl rfl (opMul_ok (hm a).clean (hm b).clean))
    | div => exact divlike (d := d) rfl rfl (by rw [IOp.run, opDiv_eq]; exact divide_exact (hm a) (hm b))
    | mod => exact divlike (d := d) rfl rfl (modulo_exact (hm a) (hm b))
  | asg op d a =>
    have hs := op.assign_eq m d a
    cases op with
    | add => exact noab id (sure (d := d) hs rfl (addAssign_ok (hm d).clean (hm a).clean))
    | sub => exact noab id (sure (d := d) hs rfl (subAssign_ok (hm d).clean (hm a).clean))
    | mul => exact absurd hp id
    | div => exact divlike (d := d) hs rfl (by rw [IOp.asgVal, divAssign_eq]; exact divide_exact (hm d) (hm a))
    | mod => exact divlike (d := d) hs rfl (modulo_exact (hm d) (hm a))
  | neg d a =>
    obtain ⟨r, r1, r2, _, r4, _⟩ := neg_canon (hm a).clean
    exact noab id (sure (d := d) rfl rfl ⟨r, r1, r2, by assumption⟩)
  | negate d =>
    obtain ⟨r, r1, r2, _, r4, _⟩ := negate_canon (hm d).clean
    exact noab id (sure (d := d) rfl rfl ⟨r, r1, r2, by assumption⟩)
  | abs d a =>
    obtain ⟨r, r1, r2, r3, r4⟩ := abs_ok (hm a).1
    refine noab id (sure (d := d) rfl rfl ⟨r, r1, ⟨r2, by rw [r3]; exact (hm a).2.1, ?_⟩, by rw [r4, ← abs_val (hm a).1]; rfl⟩)
    intro hn
    have := val_of_neg hn
    rw [r4, r3] at this
    unfold BigInt.abs at r1
    rw [ofInt64_zero, bind_ok, lt_spec (hm a).1 WF_zero, bind_ok] at r1
    split at r1
    · obtain ⟨r', q1, _, _, _, q5, _⟩ := neg_ok (hm a).1
      rw [q1] at r1; cases r1; exact q5 hn
    · cases r1; exact (hm a).2.2 hn
  | pow d a e =>
    have hl : e < 1000000000 := hl
    obtain ⟨y, y1, y2, y3, _⟩ := ofInt64_ok (x := e) 0 (by omega) (by omega)
    have y3 : y.val = e := by simpa using y3
    obtain ⟨r, r1, r2, r4⟩ := exponentiate_ok (hm a) y2 (by omega) (GoodExp.of_lt (by omega) (by omega))
    refine noab id (sure (d := d) (r := .ok r) (z := m.vals a ^ e) ?_ rfl ⟨r, rfl, r2, by rw [r4, y3]; rfl⟩)
    simp only [step, y1, bind_ok, opPow, r1]
  | ten d p => exact absurd hp id

/-- The outcome of a run, compared with the outcome over integers. -/
def Matches : Res Mem → Outcome Env → Prop
  | .ok m, .done v => m.Canon ∧ m.vals = v
  | .error .assertion, .abort => True
  | .error .diverge, .timeout => True
  | _, _ => False

theorem IProg.exec_exact (f : Nat) : ∀ {p : IProg}, p.Legal → p.Plain → ∀ {m : Mem}, m.Canon →
    Matches (p.exec f m) (p.semA f m.vals) := by
  induction f with
  | zero => intro p _ _ m _; trivial
  | succ f ih =>
    intro p hl hp m hm
    have seq : ∀ {p q : IProg}, p.Legal → p.Plain → q.Legal → q.Plain →
        Matches (do let m ← p.exec f m; q.exec f m) ((p.semA f m.vals).bind (q.semA f)) := by
      intro p q h1 h2 h3 h4
      have k := ih h1 h2 hm
      revert k
      cases p.exec f m with
      | ok m' =>
        cases p.semA f m.vals with
        | done v =>
          rintro ⟨k1, rfl⟩
          exact ih h3 h4 k1
        | abort => exact fun h => absurd h id
        | timeout => exact fun h => absurd h id
      | error e =>
        cases p.semA f m.vals with
        | done v => cases e <;> exact fun h => absurd h id
        | abort => exact fun h => h
        | timeout => exact fun h => h
    cases p with
    | stmt s =>
      obtain ⟨h1, h2⟩ := IStmt.tryStep_exact hl hp hm
      simp only [exec, semA]
      by_cases h : s.Aborts m.vals
      · rw [if_pos h, h2 h]; trivial
      · obtain ⟨m', k1, k2, k3⟩ := h1 h
        rw [if_neg h, k1]; exact ⟨k2, k3⟩
    | seq p q => exact seq hl.1 hp.1 hl.2 hp.2
    | ite c a b p q =>
      simp only [exec, semA, c.run_eq (hm a).1 (hm b).1, bind_ok]
      have e : c.sem (m.vals a) (m.vals b) = c.sem (m a).val (m b).val := rfl
      rw [e]
      cases c.sem (m a).val (m b).val
      · simpa using ih hl.2 hp.2 hm
      · simpa using ih hl.1 hp.1 hm
    | «while» c a b p =>
      simp only [exec, semA, c.run_eq (hm a).1 (hm b).1, bind_ok]
      have e : c.sem (m.vals a) (m.vals b) = c.sem (m a).val (m b).val := rfl
      rw [e]
      cases c.sem (m a).val (m b).val
      · exact ⟨hm, rfl⟩
      · have := seq (p := p) (q := .while c a b p) hl hp hl hp
        simpa using this

end CppMaths
