import Verif.Spec.IntAllocProg
import Verif.Props.IntAlloc
import Mathlib.Data.Finset.Card
/-!
# Programs with `Int` variables when memory runs out: one statement
-/

namespace CppMaths
open BigInt GM

variable {L : ILuck}

theorem bind_ended {σ α β : Type} {f : GM σ α} {g : α → GM σ β} {s s' : σ × Nat} {a : α} (h : f s = (.ok a, s')) : (f >>= g) s = g a s' := by
  simp [Bind.bind, h]

theorem bind_threw {σ α β : Type} {f : GM σ α} {g : α → GM σ β} {s s' : σ × Nat} {e : Err} (h : f s = (.error e, s')) :
    (f >>= g) s = (.error e, s') := by
  simp [Bind.bind, h]

theorem Mem.vals_update (m : Mem) (k : Nat) (z : BigInt) : (m.set k z).vals = Function.update m.vals k z.val := by
  funext q
  by_cases h : q = k
  · subst h; simp [Mem.vals, Mem.set]
  · simp [Mem.vals, Mem.set, h]

theorem Mem.set_wf {m : Mem} (hm : ∀ i, (m i).WF) {k : Nat} {z : BigInt} (hz : z.WF) (i : Nat) : (m.set k z i).WF := by
  by_cases h : i = k
  · subst h; simpa [Mem.set] using hz
  · simpa [Mem.set, h] using hm i

/-- How a statement may end in an exception. -/
def AStmt.MayThrow (L : ILuck) (s : AStmt) (v : Nat → ℤ) (n n' : Nat) (e : Err) : Prop :=
  (e = .badAlloc ∧ L.RefusesIn n n') ∨ (e = .divideByZero ∧ s.sem v = none) ∨ e = .assertion

/-- What is in a variable after an assignment to it has failed. -/
def AfterAssign (L : ILuck) (old z : BigInt) : Prop := z = old ∨ ∃ k r, WF r ∧ z = ⟨L.left k old.bins r.bins, old.negative⟩

theorem AfterAssign.wf {old z : BigInt} (hL : L.Sane) (ho : WF old) (h : AfterAssign L old z) : WF z := by
  rcases h with rfl | ⟨k, r, hr, rfl⟩
  · exact ho
  · exact hL k _ _ ho.1 ho.2 hr.1 hr.2

/-- What one statement does. -/
def AStmt.Does (L : ILuck) (s : AStmt) (m : Mem) (n : Nat) (left : BigInt → BigInt → Prop) : Except Err Unit × (Mem × Nat) → Prop
  | (.ok _, (m', n')) => n ≤ n' ∧ ∃ z, WF z ∧ m' = m.set s.target z ∧ s.sem m.vals = some (Function.update m.vals s.target z.val)
  | (.error e, (m', n')) => n ≤ n' ∧ s.MayThrow L m.vals n n' e ∧ ∃ z, left (m s.target) z ∧ m' = m.set s.target z

theorem set_self (m : Mem) (k : Nat) : m = m.set k (m k) := by
  funext q
  by_cases h : q = k
  · subst h; simp [Mem.set]
  · simp [Mem.set, h]

theorem assign_cases (v old : BigInt) (n : Nat) :
    (L.refuse n = true ∧ BigInt.assignT L v (old, n) = (.error .badAlloc, (⟨L.left n old.bins v.bins, old.negative⟩, n + 1))) ∨
    BigInt.assignT L v (old, n) = (.ok (), (v, n + 1)) := by
  by_cases hr : L.refuse n = true
  · exact .inl ⟨hr, by simp [BigInt.assignT, hr]⟩
  · exact .inr (by simp [BigInt.assignT, hr])

theorem copy_does (m : Mem) (k i n : Nat) (hi : WF (m i)) : (AStmt.copy k i).Does L m n (AfterAssign L) ((AStmt.copy k i).exec L (m, n)) := by
  unfold AStmt.exec
  dsimp only
  rcases assign_cases (L := L) (m i) (m k) n with ⟨hr, h⟩ | h
  · rw [h]
    exact ⟨Nat.le_succ n, .inl ⟨rfl, n, le_refl n, Nat.lt_succ_self n, hr⟩, _, .inr ⟨n, m i, hi, rfl⟩, rfl⟩
  · rw [h]
    exact ⟨Nat.le_succ n, m i, hi, rfl, rfl⟩

theorem set_does (op : IOp) (m : Mem) (k i j n : Nat) (hi : WF (m i)) (hj : WF (m j)) :
    (AStmt.set op k i j).Does L m n (AfterAssign L) ((AStmt.set op k i j).exec L (m, n)) := by
  have h1 := (C138_values (L := L) hi hj op n).1
  have h0 := (IOp.runA_sim L op (m i) (m j) n).1
  unfold AStmt.exec
  dsimp only
  rcases hm : op.runA L (m i) (m j) ((), n) with ⟨o, ⟨⟨⟩, n1⟩⟩
  rw [hm] at h0 h1
  cases o with
  | error e =>
    refine ⟨h0, ?_, m k, .inl rfl, set_self m k⟩
    rcases h1 with h1 | h1 | h1
    · exact .inl h1
    · refine .inr (.inl ⟨h1.1, ?_⟩)
      change (op.sem (m i).val (m j).val).map _ = none
      rw [h1.2]; rfl
    · exact .inr (.inr h1.1)
  | ok z =>
    dsimp only at h0 h1 ⊢
    rcases assign_cases (L := L) z (m k) n1 with ⟨hr, h⟩ | h
    · rw [h]
      exact ⟨le_trans h0 (Nat.le_succ n1), .inl ⟨rfl, n1, h0, Nat.lt_succ_self n1, hr⟩, _, .inr ⟨n1, z, h1.1, rfl⟩, rfl⟩
    · rw [h]
      refine ⟨le_trans h0 (Nat.le_succ n1), z, h1.1, rfl, ?_⟩
      change (op.sem (m i).val (m j).val).map _ = _
      rw [h1.2]; rfl

theorem update_does (hL : L.Sane) (op : IOp) (m : Mem) (i j n : Nat) (hi : WF (m i)) (hj : WF (m j)) (hd : op ≠ .div) :
    (AStmt.update op i j).Does L m n (fun _ z => WF z) ((AStmt.update op i j).exec L (m, n)) := by
  have h1 := (C138_values (L := L) hi hj op n).2
  have h0 := (IOp.assignT_sim L op (m i) (m j) n).1
  unfold AStmt.exec
  dsimp only
  rcases hm : op.assignT L (m j) (m i, n) with ⟨o, ⟨x, n1⟩⟩
  rw [hm] at h0 h1
  cases o with
  | ok u =>
    refine ⟨h0, x, h1.1, rfl, ?_⟩
    change (op.sem (m i).val (m j).val).map _ = _
    rw [h1.2]; rfl
  | error e =>
    refine ⟨h0, ?_, x, (C140_valid_partial hL hi hj).1 op (fun h => absurd h hd) hm, rfl⟩
    rcases h1 with h1 | h1 | h1
    · exact .inl h1
    · refine .inr (.inl ⟨h1.1, ?_⟩)
      change (op.sem (m i).val (m j).val).map _ = none
      rw [h1.2]; rfl
    · exact .inr (.inr h1.1)

theorem AStmt.Does.mono {s : AStmt} {m : Mem} {n : Nat} {P Q : BigInt → BigInt → Prop} {o : Except Err Unit × (Mem × Nat)} (h : s.Does L m n P o)
    (hPQ : ∀ z, P (m s.target) z → Q (m s.target) z) : s.Does L m n Q o := by
  rcases o with ⟨_ | _, m', n'⟩
  · obtain ⟨h1, h2, z, h3, h4⟩ := h
    exact ⟨h1, h2, z, hPQ z h3, h4⟩
  · exact h

theorem exec_does (hL : L.Sane) {s : AStmt} (hs : s.NoDivAssign) {m : Mem} (hm : ∀ i, WF (m i)) (n : Nat) :
    s.Does L m n (fun _ z => WF z) (s.exec L (m, n)) := by
  cases s with
  | update op i j => exact update_does hL op m i j n (hm i) (hm j) hs
  | set op k i j => exact (set_does op m k i j n (hm i) (hm j)).mono fun z => AfterAssign.wf hL (hm k)
  | copy k i => exact (copy_does m k i n (hm i)).mono fun z => AfterAssign.wf hL (hm k)

/-- For a statement whose target is not an operand the target may hold anything. -/
theorem exec_three {s : AStmt} (hs : s.ThreeAddress) {m : Mem} (hm : ∀ i, i ≠ s.target → WF (m i)) (n : Nat) :
    s.Does L m n (fun _ _ => True) (s.exec L (m, n)) := by
  cases s with
  | update op i j => exact hs.elim
  | set op k i j => exact (set_does op m k i j n (hm i hs.1.symm) (hm j hs.2.symm)).mono fun z _ => trivial
  | copy k i => exact (copy_does m k i n (hm i hs.symm)).mono fun z _ => trivial

/-- What a statement means does not depend on its target if that is not an operand. -/
theorem sem_three {s : AStmt} (hs : s.ThreeAddress) {v w : Nat → ℤ} (h : ∀ q, q ≠ s.target → w q = v q) : s.sem w = s.sem v := by
  have hu : ∀ z, Function.update w s.target z = Function.update v s.target z := by
    intro z
    funext q
    by_cases hq : q = s.target
    · subst hq; simp
    · simp [hq, h q hq]
  cases s with
  | update op i j => exact hs.elim
  | set op k i j =>
    change (op.sem (w i) (w j)).map _ = (op.sem (v i) (v j)).map _
    rw [h i hs.1.symm, h j hs.2.symm]
    congr 1
    funext z
    exact hu z
  | copy k i =>
    change some _ = some _
    rw [h i hs.symm]
    exact congrArg some (hu _)

/-- `c` of the requests from `a` to before `b` are refused. -/
def ILuck.RefusesMany (L : ILuck) (c a b : Nat) : Prop := ∃ S : Finset Nat, S.card = c ∧ ∀ k ∈ S, a ≤ k ∧ k < b ∧ L.refuse k = true

theorem many_one {a b : Nat} (h : L.RefusesIn a b) : L.RefusesMany 1 a b := by
  obtain ⟨k, h1, h2, h3⟩ := h
  exact ⟨{k}, rfl, by simpa using ⟨h1, h2, h3⟩⟩

theorem many_succ {a b c t : Nat} (h : L.RefusesIn a b) (h2 : L.RefusesMany t b c) (hbc : b ≤ c) : L.RefusesMany (t + 1) a c := by
  obtain ⟨k, k1, k2, k3⟩ := h
  obtain ⟨S, s1, s2⟩ := h2
  have hab : a ≤ b := le_of_lt (lt_of_le_of_lt k1 k2)
  refine ⟨insert k S, ?_, ?_⟩
  · rw [Finset.card_insert_of_notMem (fun hk => absurd (s2 k hk).1 (not_le.mpr k2)), s1]
  · intro q hq
    rcases Finset.mem_insert.mp hq with rfl | hq
    · exact ⟨k1, lt_of_lt_of_le k2 hbc, k3⟩
    · obtain ⟨q1, q2, q3⟩ := s2 q hq
      exact ⟨le_trans hab q1, q2, q3⟩

/-- What trying again does. -/
def AStmt.RetryDoes (L : ILuck) (s : AStmt) (t : Nat) (v : Nat → ℤ) (n : Nat) : Except Err Unit × (Mem × Nat) → Prop
  | (.ok _, (m', n')) => n ≤ n' ∧ (∀ i, WF (m' i)) ∧ s.sem v = some m'.vals
  | (.error e, (_, n')) => n ≤ n' ∧ ((e = .badAlloc ∧ L.RefusesMany (t + 1) n n') ∨ (e = .divideByZero ∧ s.sem v = none) ∨ e = .assertion)

theorem retry_does {s : AStmt} (hs : s.ThreeAddress) (t : Nat) : ∀ {m : Mem} (_ : ∀ i, i ≠ s.target → WF (m i)) (n : Nat),
    s.RetryDoes L t m.vals n (s.retry L t (m, n)) := by
  have hgood : ∀ {m : Mem}, (∀ i, i ≠ s.target → WF (m i)) → ∀ {z : BigInt}, WF z → ∀ i, WF (m.set s.target z i) := by
    intro m hm z hz i
    by_cases h : i = s.target
    · rw [h]; simpa [Mem.set] using hz
    · rw [Mem.set_other m z h]; exact hm i h
  induction t with
  | zero =>
    intro m hm n
    have h := exec_three (L := L) hs hm n
    unfold AStmt.retry
    rcases hx : s.exec L (m, n) with ⟨o, ⟨m', n'⟩⟩
    rw [hx] at h
    cases o with
    | ok u =>
      obtain ⟨h1, z, h2, rfl, h3⟩ := h
      exact ⟨h1, hgood hm h2, by rw [h3, Mem.vals_update]⟩
    | error e =>
      obtain ⟨h1, h2, _⟩ := h
      exact ⟨h1, h2.imp (fun h => ⟨h.1, many_one h.2⟩) id⟩
  | succ t ih =>
    intro m hm n
    have h := exec_three (L := L) hs hm n
    unfold AStmt.retry
    rcases hx : s.exec L (m, n) with ⟨o, ⟨m', n'⟩⟩
    rw [hx] at h
    cases o with
    | ok u =>
      obtain ⟨h1, z, h2, rfl, h3⟩ := h
      exact ⟨h1, hgood hm h2, by rw [h3, Mem.vals_update]⟩
    | error e =>
      obtain ⟨h1, h2, z, _, rfl⟩ := h
      have hoff : ∀ q, q ≠ s.target → (m.set s.target z).vals q = m.vals q := fun q hq => by
        unfold Mem.vals; rw [Mem.set_other m z hq]
      rcases h2 with ⟨rfl, h2⟩ | ⟨rfl, h2⟩ | rfl
      · have h3 := ih (m := m.set s.target z) (fun i hi => by rw [Mem.set_other m z hi]; exact hm i hi) n'
        dsimp only
        rcases hy : s.retry L t (m.set s.target z, n') with ⟨o, ⟨m2, n2⟩⟩
        rw [hy] at h3
        cases o with
        | ok u =>
          obtain ⟨g1, g2, g3⟩ := h3
          exact ⟨le_trans h1 g1, g2, by rw [← g3, sem_three hs hoff]⟩
        | error e =>
          obtain ⟨g1, g2⟩ := h3
          refine ⟨le_trans h1 g1, g2.imp (fun g => ⟨g.1, many_succ h2 g.2 g1⟩) (Or.imp (fun g => ⟨g.1, ?_⟩) id)⟩
          rw [← sem_three hs hoff]; exact g.2
      · exact ⟨h1, .inr (.inl ⟨rfl, h2⟩)⟩
      · exact ⟨h1, .inr (.inr rfl)⟩

end CppMaths
