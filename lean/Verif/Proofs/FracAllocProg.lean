import Verif.Spec.FracAllocProg
import Verif.Proofs.PolyAlloc
import Verif.Proofs.FracMem
/-!
# Programs with `Frac` variables when memory runs out
-/

namespace CppMaths
open BigInt GM Frac

variable {L : ILuck}

theorem sim_fracAssign (x c : Frac) : SimU L (Frac.assignT L c) x (.ok c) :=
  Frac.SimU.topThen (r := .ok c.tt) (g := fun _ => .ok c) (SimU.assign _ _) fun t ht => by
    cases ht
    exact Frac.SimU.onBottom (r := .ok c.bb) (SimU.assign _ _)

theorem sim_fracGets {e : AM Frac} {r : Res Frac} (m : FMem) (k : Nat) (h : SimA L e r) : SimU L (FMem.getsT L k e) m (r >>= fun x => .ok (m.set k x)) :=
  SimU.other h fun x _ => SimU.on (g := fun v : FMem => v k) (sim_fracAssign _ x)

theorem sim_fracExec (s : FAStmt) (m : FMem) : SimU L (s.execT L) m (s.exec m) := by
  unfold FAStmt.execT
  refine SimU.this ?_
  cases s with
  | update op i j => exact SimU.on (g := fun v : FMem => v i) (Frac.sim_assign op _ _)
  | updateInt op i a => exact SimU.on (g := fun v : FMem => v i) (Frac.sim_assignInt op _ _)
  | set op k i j => exact sim_fracGets m k (Frac.sim_run op _ _)
  | setInt op k i a => exact sim_fracGets m k (Frac.sim_runInt op _ _)
  | intSet op k a i => exact sim_fracGets m k (Frac.sim_intRun op _ _)
  | make k a b => exact sim_fracGets m k (Frac.sim_mk _ _)
  | recip k i => exact sim_fracGets m k (Frac.sim_mk _ _)
  | copy k i => exact SimU.on (g := fun v : FMem => v k) (r := .ok (m i)) (sim_fracAssign _ _)

theorem sim_fracRun : ∀ (ss : List FAStmt) (m : FMem), SimU L (FAStmt.runT L ss) m (FAStmt.run ss m)
  | [], m => SimU.pure m
  | s :: r, m => SimU.bind (sim_fracExec s m) fun m' _ => sim_fracRun r m'

/-- The variable that is assigned. -/
def FAStmt.target : FAStmt → Nat
  | .update _ i _ | .updateInt _ i _ => i
  | .set _ k _ _ | .setInt _ k _ _ | .intSet _ k _ _ | .make k _ _ | .recip k _ | .copy k _ => k

theorem frac_left (s : FAStmt) (m : FMem) : Leaves (s.execT L) m (fun m' => ∀ q, q ≠ s.target → m' q = m q) := by
  have hset : ∀ (k : Nat) (x : Frac) (q : Nat), q ≠ k → m.set k x q = m q := fun k x q h => by simp [FMem.set, h]
  have hg : ∀ {e : AM Frac} {r : Res Frac} (k : Nat), SimA L e r → Leaves (FMem.getsT L k e) m (fun m' => ∀ q, q ≠ k → m' q = m q) :=
    fun k h => Leaves.other h (fun _ _ => rfl) fun _ _ => Leaves.on (Leaves.any fun x => hset k x)
  unfold FAStmt.execT
  refine Leaves.this ?_
  cases s with
  | update op i j => exact Leaves.on (Leaves.any fun x => hset i x)
  | updateInt op i a => exact Leaves.on (Leaves.any fun x => hset i x)
  | set op k i j => exact hg k (Frac.sim_run op _ _)
  | setInt op k i a => exact hg k (Frac.sim_runInt op _ _)
  | intSet op k a i => exact hg k (Frac.sim_intRun op _ _)
  | make k a b => exact hg k (Frac.sim_mk _ _)
  | recip k i => exact hg k (Frac.sim_mk _ _)
  | copy k i => exact Leaves.on (Leaves.any fun x => hset k x)

theorem three_same {s : FAStmt} (hs : s.ThreeAddress) {m m' : FMem} (h : ∀ q, q ≠ s.target → m' q = m q) : s.exec m' = s.exec m := by
  have hset : ∀ x, FMem.set m' s.target x = FMem.set m s.target x := fun x => by
    funext q
    by_cases hq : q = s.target
    · simp [FMem.set, hq]
    · simp [FMem.set, hq, h q hq]
  cases s with
  | update | updateInt => exact hs.elim
  | set op k i j => 
    have e : ∀ x, FMem.set m' k x = FMem.set m k x := hset
    simp only [FAStmt.exec, h i (Ne.symm hs.1), h j (Ne.symm hs.2), e]
  | setInt op k i a =>
    have e : ∀ x, FMem.set m' k x = FMem.set m k x := hset
    simp only [FAStmt.exec, h i (Ne.symm hs), e]
  | intSet op k a i =>
    have e : ∀ x, FMem.set m' k x = FMem.set m k x := hset
    simp only [FAStmt.exec, h i (Ne.symm hs), e]
  | make k a b =>
    have e : ∀ x, FMem.set m' k x = FMem.set m k x := hset
    simp only [FAStmt.exec, e]
  | recip k i =>
    have e : ∀ x, FMem.set m' k x = FMem.set m k x := hset
    simp only [FAStmt.exec, h i (Ne.symm hs), e]
  | copy k i =>
    have e : ∀ x, FMem.set m' k x = FMem.set m k x := hset
    simp only [FAStmt.exec, h i (Ne.symm hs), e]

theorem frac_retryAll (t : Nat) : ∀ {ss : List FAStmt} (_ : ∀ s ∈ ss, s.ThreeAddress) (m : FMem) (n : Nat),
    match FAStmt.retryAll L t ss (m, n) with
    | (.ok _, (m', n')) => n ≤ n' ∧ FAStmt.run ss m = .ok m'
    | (.error e, (_, n')) => n ≤ n' ∧ ((e = .badAlloc ∧ L.RefusesMany (t + 1) n n') ∨ FAStmt.run ss m = .error e)
  | [], _, m, n => ⟨le_refl n, rfl⟩
  | s :: r, hs, m, n => by
    have h := retry_sim (fun m => sim_fracExec (L := L) s m) (fun m => (frac_left s m).mono fun m' h => three_same (hs s (by simp)) h) t m n
    have e1 : FAStmt.retryAll L t (s :: r) (m, n) = (GM.retry (s.execT L) t >>= fun _ => FAStmt.retryAll L t r) (m, n) := rfl
    have e2 : FAStmt.run (s :: r) m = (s.exec m >>= FAStmt.run r) := rfl
    rw [e1, e2]
    rcases hx : GM.retry (s.execT L) t (m, n) with ⟨o, ⟨m1, n1⟩⟩
    rw [hx] at h
    cases o with
    | error e =>
      rw [bind_threw hx]
      exact ⟨h.1, h.2.imp id fun h => by rw [h]; rfl⟩
    | ok u =>
      have ih := frac_retryAll t (fun q hq => hs q (by simp [hq])) m1 n1 (ss := r)
      rw [bind_ended hx, h.2]
      have e3 : ((.ok m1 : Res FMem) >>= FAStmt.run r) = FAStmt.run r m1 := rfl
      rw [e3]
      rcases hy : FAStmt.retryAll L t r (m1, n1) with ⟨o, ⟨m2, n2⟩⟩
      rw [hy] at ih
      cases o with
      | ok u => exact ⟨le_trans h.1 ih.1, ih.2⟩
      | error e =>
        refine ⟨le_trans h.1 ih.1, ih.2.imp (fun g => ⟨g.1, ?_⟩) id⟩
        obtain ⟨S, s1, s2⟩ := g.2
        exact ⟨S, s1, fun k hk => ⟨le_trans h.1 (s2 k hk).1, (s2 k hk).2⟩⟩

/-! ### What the statements compute with unlimited memory -/

/-- Valid results for a statement that does not divide by zero; for one that does, `divide_by_zero_error` if it is no compound assignment. -/
def FAStmt.Right (s : FAStmt) (m : FMem) (r : Res FMem) : Prop :=
  match s.sem (fun i => (m i).value) with
  | some v => r = .error .assertion ∨ ∃ m', r = .ok m' ∧ (∀ i, (m' i).Valid) ∧ (fun i => (m' i).value) = v
  | none => s.ThreeAddress → r = .error .divideByZero

theorem set_good {m : FMem} (hm : ∀ i, (m i).Valid) {k : Nat} {x : Frac} (hx : x.Valid) : (∀ i, (m.set k x i).Valid) ∧
    (fun i => (m.set k x i).value) = Function.update (fun i => (m i).value) k x.value := by
  refine ⟨fun i => ?_, funext fun i => ?_⟩ <;> by_cases h : i = k
  · simpa [FMem.set, h] using hx
  · simpa [FMem.set, h] using hm i
  · subst h; simp [FMem.set]
  · simp [FMem.set, h]

theorem right_red {m : FMem} (hm : ∀ i, (m i).Valid) {k : Nat} {r : Res Frac} {t b : Int} (h : Red r t b) {s : FAStmt}
    (hs : s.sem (fun i => (m i).value) = if b = 0 then none else some (Function.update (fun i => (m i).value) k ((t : ℚ) / b))) :
    s.Right m (r >>= fun x => .ok (m.set k x)) := by
  unfold FAStmt.Right
  rw [hs]
  by_cases hb : b = 0
  · rw [if_pos hb, h.1 hb]
    exact fun _ => rfl
  · rw [if_neg hb]
    by_cases ha : ReduceAborts t b
    · rw [h.2.2 hb ha]
      exact .inl rfl
    · obtain ⟨f, f1, f2, f3⟩ := h.2.1 hb ha
      rw [f1]
      refine .inr ⟨_, rfl, (set_good hm f2).1, ?_⟩
      rw [(set_good hm f2).2, f3]

theorem right_mred {m : FMem} (hm : ∀ i, (m i).Valid) {k : Nat} {r : MRes Frac Frac} {t b : Int} (h : b ≠ 0 → MRed r t b) {s : FAStmt} (h3 : ¬s.ThreeAddress)
    (hs : s.sem (fun i => (m i).value) = if b = 0 then none else some (Function.update (fun i => (m i).value) k ((t : ℚ) / b))) :
    s.Right m (drop r >>= fun x => .ok (m.set k x)) := by
  unfold FAStmt.Right
  rw [hs]
  by_cases hb : b = 0
  · rw [if_pos hb]
    exact fun h => absurd h h3
  · rw [if_neg hb]
    by_cases ha : ReduceAborts t b
    · obtain ⟨s, hs⟩ := (h hb).2 ha
      rw [hs]
      exact .inl rfl
    · obtain ⟨f, f1, f2, f3⟩ := (h hb).1 ha
      rw [f1]
      refine .inr ⟨_, rfl, (set_good hm f2).1, ?_⟩
      rw [(set_good hm f2).2, f3]

theorem frac_exec_right {s : FAStmt} (hs : s.Legal) {m : FMem} (hm : ∀ i, (m i).Valid) : s.Right m (s.exec m) := by
  have hp : ∀ (op : FOp) (p q : ℚ) (k : Nat), (op.sem p q).map (Function.update (fun i => (m i).value) k) =
      if (op.parts p q).2 = 0 then none else some (Function.update (fun i => (m i).value) k (((op.parts p q).1 : ℚ) / (op.parts p q).2)) := by
    intro op p q k
    rw [FOp.sem_parts]
    split <;> rfl
  cases s with
  | update op i j => exact right_mred hm (op.asgVal_red (hm i) (hm j)) id (hp op _ _ i)
  | updateInt op i a => exact right_mred hm (op.asgInt_red (hm i) hs) id (hp op _ _ i)
  | set op k i j => exact right_red hm (op.run_red (hm i) (hm j)) (hp op _ _ k)
  | setInt op k i a => exact right_red hm (op.runInt_red (hm i) hs) (hp op _ _ k)
  | intSet op k a i => exact right_red hm (op.intRun_red (hm i) hs) (hp op _ _ k)
  | make k a b => exact right_red hm (red_mk' hs.1 hs.2) rfl
  | recip k i =>
    refine right_red hm (reciprocal_red (hm i)) ?_
    have h0 : (m i).tt.val = 0 ↔ (m i).value = 0 := (hm i).tt_zero
    unfold FAStmt.sem
    dsimp only
    by_cases h : (m i).value = 0
    · rw [if_pos h, if_pos (h0.mpr h)]
    · rw [if_neg h, if_neg (fun h' => h (h0.mp h'))]
      congr 2
      unfold Frac.value
      rw [one_div, inv_div]
  | copy k i => exact .inr ⟨_, rfl, (set_good hm (hm i)).1, (set_good hm (hm i)).2⟩

/-- A program without division by zero. -/
theorem frac_run_right : ∀ {ss : List FAStmt} (_ : ∀ s ∈ ss, s.Legal) {m : FMem} (_ : ∀ i, (m i).Valid) {w : Nat → ℚ},
    FAStmt.semAll ss (fun i => (m i).value) = some w →
    FAStmt.run ss m = .error .assertion ∨ ∃ m', FAStmt.run ss m = .ok m' ∧ (∀ i, (m' i).Valid) ∧ (fun i => (m' i).value) = w
  | [], _, m, hm, w, h => .inr ⟨m, rfl, hm, by simpa [FAStmt.semAll] using h⟩
  | s :: r, hs, m, hm, w, h => by
    have h1 := frac_exec_right (hs s (by simp)) hm
    unfold FAStmt.Right at h1
    have h : (s.sem fun i => (m i).value).bind (FAStmt.semAll r) = some w := h
    cases hv : s.sem (fun i => (m i).value) with
    | none => rw [hv] at h; cases h
    | some v =>
      rw [hv] at h h1
      have e2 : FAStmt.run (s :: r) m = (s.exec m >>= FAStmt.run r) := rfl
      rw [e2]
      rcases h1 with h1 | ⟨m', h1, h2, h3⟩
      · rw [h1]; exact .inl rfl
      · rw [h1]
        exact frac_run_right (fun q hq => hs q (by simp [hq])) h2 (by rw [h3]; exact h)

/-- A program of three-address statements with a division by zero. -/
theorem frac_run_zero : ∀ {ss : List FAStmt} (_ : ∀ s ∈ ss, s.Legal) (_ : ∀ s ∈ ss, s.ThreeAddress) {m : FMem} (_ : ∀ i, (m i).Valid),
    FAStmt.semAll ss (fun i => (m i).value) = none → FAStmt.run ss m = .error .assertion ∨ FAStmt.run ss m = .error .divideByZero
  | [], _, _, m, hm, h => by cases h
  | s :: r, hs, h3, m, hm, h => by
    have h1 := frac_exec_right (hs s (by simp)) hm
    unfold FAStmt.Right at h1
    have h : (s.sem fun i => (m i).value).bind (FAStmt.semAll r) = none := h
    have e2 : FAStmt.run (s :: r) m = (s.exec m >>= FAStmt.run r) := rfl
    rw [e2]
    cases hv : s.sem (fun i => (m i).value) with
    | none =>
      rw [hv] at h1
      rw [h1 (h3 s (by simp))]
      exact .inr rfl
    | some v =>
      rw [hv] at h h1
      rcases h1 with h1 | ⟨m', h1, h2, h4⟩
      · rw [h1]; exact .inl rfl
      · rw [h1]
        exact frac_run_zero (fun q hq => hs q (by simp [hq])) (fun q hq => h3 q (by simp [hq])) h2 (by rw [h4]; exact h)

end CppMaths
