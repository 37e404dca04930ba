import Verif.Proofs.IntAllocProg
/-!
# C149, C150: programs with `Int` variables when memory runs out
-/

namespace CppMaths
open BigInt GM

variable {L : ILuck}

/-- C149 as stated is false: with `x` 5 and `y` 7, when `x /= y` runs out of memory and the program goes on, then `z = y - x` throws `out_of_range`, although
no further request is refused. -/
theorem C149_refuted : ∃ k, ∃ m : Mem, (∀ i, WF (m i)) ∧
    (AStmt.goOn (.only k) [.update .div 0 1, .set .sub 2 1 0] (m, 0)).1 = .ok [.error .badAlloc, .error .outOfRange] := by
  refine ⟨1, fun i => if i = 0 then ⟨[5], false⟩ else ⟨[7], false⟩, ?_, by decide +kernel⟩
  intro i
  dsimp only
  split <;> decide

private theorem goOn_went (hL : L.Sane) : ∀ {ss : List AStmt} (_ : ∀ s ∈ ss, s.NoDivAssign) {m : Mem} (_ : ∀ i, WF (m i)) (n : Nat),
    match AStmt.goOn L ss (m, n) with
    | (.ok os, (m', _)) => (∀ i, WF (m' i)) ∧ Went ss os (fun i => (m i).val) (fun i => (m' i).val)
    | (.error e, _) => e = .assertion
  | [], _, m, hm, n => ⟨hm, .nil _⟩
  | s :: r, hs, m, hm, n => by
    have h := exec_does hL (hs s (by simp)) hm n
    have ih := fun (m1 : Mem) (h1 : ∀ i, WF (m1 i)) n1 => goOn_went hL (fun q hq => hs q (by simp [hq])) h1 n1 (ss := r)
    unfold AStmt.goOn
    rcases hx : s.exec L (m, n) with ⟨o, ⟨m1, n1⟩⟩
    rw [hx] at h
    cases o with
    | ok u =>
      obtain ⟨_, z, h2, rfl, h3⟩ := h
      have ih := ih (m.set s.target z) (Mem.set_wf hm h2) n1
      dsimp only
      rcases hy : AStmt.goOn L r (m.set s.target z, n1) with ⟨o, ⟨m2, n2⟩⟩
      rw [hy] at ih
      cases o with
      | error e => rw [bind_threw hy]; exact ih
      | ok os => rw [bind_ended hy]; exact ⟨ih.1, .done (h3.trans (congrArg some (Mem.vals_update m s.target z).symm)) ih.2⟩
    | error e =>
      obtain ⟨_, h1, z, h2, rfl⟩ := h
      have ih := ih (m.set s.target z) (Mem.set_wf hm h2) n1
      have key : (e = .badAlloc ∨ (e = .divideByZero ∧ s.sem (fun i => (m i).val) = none)) → e.caught = true →
          match (if e.caught then (AStmt.goOn L r >>= fun os => pure (Except.error e :: os)) (m.set s.target z, n1)
              else (.error e, (m.set s.target z, n1))) with
            | (.ok os, (m', _)) => (∀ i, WF (m' i)) ∧ Went (s :: r) os (fun i => (m i).val) (fun i => (m' i).val)
            | (.error e, _) => e = .assertion := by
        intro he hc
        rw [if_pos hc]
        rcases hy : AStmt.goOn L r (m.set s.target z, n1) with ⟨o, ⟨m2, n2⟩⟩
        rw [hy] at ih
        cases o with
        | error e => rw [bind_threw hy]; exact ih
        | ok os => rw [bind_ended hy]; exact ⟨ih.1, .threw he (fun q hq => by rw [Mem.set_other m z hq]) ih.2⟩
      dsimp only
      rcases h1 with ⟨rfl, _⟩ | ⟨rfl, h1⟩ | rfl
      · exact key (.inl rfl) rfl
      · exact key (.inr ⟨rfl, h1⟩) rfl
      · rfl

/-- C149, what holds: in programs without `/=` (quotients may be assigned as `z = x / y`), whatever requests are refused, the program that catches
the exceptions of its statements goes on correctly. Every statement that ends normally has computed the exact result from what its operands hold then, a statement
that throws throws `bad_alloc` or reports a division by zero that is one, and changes at most the variable it assigns. All variables remain
well-formed numbers. The only other outcome is a failed assertion.
Missing: programs with `/=` (see the refutation). -/
theorem C149_going_on_partial (hL : L.Sane) {ss : List AStmt} (hs : ∀ s ∈ ss, s.NoDivAssign) {m : Mem} (hm : ∀ i, WF (m i)) (n : Nat) :
    match AStmt.goOn L ss (m, n) with
    | (.ok os, (m', _)) => (∀ i, WF (m' i)) ∧ Went ss os (fun i => (m i).val) (fun i => (m' i).val)
    | (.error e, _) => e = .assertion :=
  goOn_went hL hs hm n

-- x = -5, y = 7: `x += y` fails and loses the sign; `z = x * y` is 35 then; `z /= 0` would be reported
private def exMem : Mem := fun i => if i = 0 then ⟨[5], true⟩ else if i = 1 then ⟨[7], false⟩ else ⟨[0], false⟩
private theorem exMem_wf (i : Nat) : WF (exMem i) := by
  unfold exMem
  split
  · decide
  · split <;> decide
example : (ILuck.only 0).Sane ∧ (∀ s ∈ [AStmt.update .add 0 1, .set .mul 2 0 1, .set .div 3 2 4], s.NoDivAssign) ∧
    (AStmt.goOn (.only 0) [.update .add 0 1, .set .mul 2 0 1, .set .div 3 2 4] (exMem, 0)).1 = .ok [.error .badAlloc, .ok (), .error .divideByZero] ∧
    (AStmt.goOn (.only 0) [.update .add 0 1, .set .mul 2 0 1, .set .div 3 2 4] (exMem, 0)).2.1 2 = ⟨[35], false⟩ :=
  ⟨gnu_sane, by simp [AStmt.NoDivAssign], by decide +kernel, by decide +kernel⟩

/-- C150 as stated is false: with `x` -5 and `y` 7, if `x += y` runs out of memory once and is tried again, `x` is 12 afterwards. -/
theorem C150_refuted : ∃ k, ∃ m : Mem, (∀ i, WF (m i)) ∧ (m 0).val = -5 ∧ (m 1).val = 7 ∧
    (AStmt.retryAll (.only k) 1 [.update .add 0 1] (m, 0)).1 = .ok () ∧
    (AStmt.retryAll (.only k) 1 [.update .add 0 1] (m, 0)).2.1 0 = ⟨[12], false⟩ :=
  ⟨0, exMem, exMem_wf, by decide +kernel, by decide +kernel, by decide +kernel, by decide +kernel⟩

private theorem retryAll_does (t : Nat) : ∀ {ss : List AStmt} (_ : ∀ s ∈ ss, s.ThreeAddress) {m : Mem} (_ : ∀ i, WF (m i)) (n : Nat),
    match AStmt.retryAll L t ss (m, n) with
    | (.ok _, (m', n')) => n ≤ n' ∧ (∀ i, WF (m' i)) ∧ AStmt.semAll ss m.vals = some m'.vals
    | (.error e, (_, n')) => n ≤ n' ∧ ((e = .badAlloc ∧ L.RefusesMany (t + 1) n n') ∨
        (e = .divideByZero ∧ AStmt.semAll ss m.vals = none) ∨ e = .assertion)
  | [], _, m, hm, n => ⟨le_refl n, hm, rfl⟩
  | s :: r, hs, m, hm, n => by
    have h := retry_does (L := L) (hs s (by simp)) t (m := m) (fun i _ => hm i) n
    have e1 : AStmt.retryAll L t (s :: r) (m, n) = (s.retry L t >>= fun _ => AStmt.retryAll L t r) (m, n) := rfl
    have e2 : AStmt.semAll (s :: r) m.vals = (s.sem m.vals).bind (AStmt.semAll r) := rfl
    rw [e1, e2]
    rcases hx : s.retry L t (m, n) with ⟨o, ⟨m1, n1⟩⟩
    rw [hx] at h
    cases o with
    | error e =>
      obtain ⟨h1, h2⟩ := h
      rw [bind_threw hx]
      exact ⟨h1, h2.imp id (Or.imp (fun h => ⟨h.1, by rw [h.2]; rfl⟩) id)⟩
    | ok u =>
      obtain ⟨h1, h2, h3⟩ := h
      have ih := retryAll_does t (fun q hq => hs q (by simp [hq])) h2 n1 (ss := r)
      rw [h3, bind_ended hx]
      change match AStmt.retryAll L t r (m1, n1) with
        | (.ok _, (m', n')) => n ≤ n' ∧ (∀ i, WF (m' i)) ∧ AStmt.semAll r m1.vals = some m'.vals
        | (.error e, (_, n')) => n ≤ n' ∧ ((e = .badAlloc ∧ L.RefusesMany (t + 1) n n') ∨
            (e = .divideByZero ∧ AStmt.semAll r m1.vals = none) ∨ e = .assertion)
      rcases hy : AStmt.retryAll L t r (m1, n1) with ⟨o, ⟨m2, n2⟩⟩
      rw [hy] at ih
      cases o with
      | error e =>
        obtain ⟨g1, g2⟩ := ih
        refine ⟨le_trans h1 g1, g2.imp (fun g => ⟨g.1, ?_⟩) id⟩
        obtain ⟨S, s1, s2⟩ := g.2
        exact ⟨S, s1, fun k hk => ⟨le_trans h1 (s2 k hk).1, (s2 k hk).2⟩⟩
      | ok u => exact ⟨le_trans h1 ih.1, ih.2⟩

/-- C150, what holds: in programs whose statements are `z = x op y` and `z = x` with `z` none of the operands, statements that throw `bad_alloc` can be tried again
whatever failed assignments leave behind. If the program ends normally, its variables hold the exact results, as with unlimited memory. It gives up
with `bad_alloc` only after as many of its requests have been refused as it makes attempts; a division by zero is reported only if the program contains one. The only other outcome is a failed assertion.
Missing: compound assignments and statements that assign an operand (see the refutation). -/
theorem C150_trying_again_partial (t : Nat) {ss : List AStmt} (hs : ∀ s ∈ ss, s.ThreeAddress) {m : Mem} (hm : ∀ i, WF (m i)) (n : Nat) :
    match AStmt.retryAll L t ss (m, n) with
    | (.ok _, (m', _)) => (∀ i, WF (m' i)) ∧ AStmt.semAll ss (fun i => (m i).val) = some (fun i => (m' i).val)
    | (.error e, (_, n')) => (e = .badAlloc ∧ ∃ S : Finset Nat, S.card = t + 1 ∧ ∀ k ∈ S, n ≤ k ∧ k < n' ∧ L.refuse k = true) ∨
        (e = .divideByZero ∧ AStmt.semAll ss (fun i => (m i).val) = none) ∨ e = .assertion := by
  have h := retryAll_does (L := L) t hs hm n
  rcases hy : AStmt.retryAll L t ss (m, n) with ⟨o, ⟨m2, n2⟩⟩
  rw [hy] at h
  cases o with
  | error e => exact h.2
  | ok u => exact h.2

/-- If at most `t` requests are refused, then making `t + 1` attempts at each statement is enough: the program computes the results, or reports a division by zero that it
contains, or an assertion fails. -/
theorem C150_enough_attempts_partial (t : Nat) (hL : ∀ S : Finset Nat, (∀ k ∈ S, L.refuse k = true) → S.card ≤ t)
    {ss : List AStmt} (hs : ∀ s ∈ ss, s.ThreeAddress) {m : Mem} (hm : ∀ i, WF (m i)) (n : Nat) :
    match AStmt.semAll ss (fun i => (m i).val) with
    | some v => (∃ m' n', AStmt.retryAll L t ss (m, n) = (.ok (), (m', n')) ∧ (∀ i, WF (m' i)) ∧ ∀ i, (m' i).val = v i) ∨
        (AStmt.retryAll L t ss (m, n)).1 = .error .assertion
    | none => (AStmt.retryAll L t ss (m, n)).1 = .error .divideByZero ∨ (AStmt.retryAll L t ss (m, n)).1 = .error .assertion := by
  have h := C150_trying_again_partial (L := L) t hs hm n
  rcases hy : AStmt.retryAll L t ss (m, n) with ⟨o, ⟨m2, n2⟩⟩
  rw [hy] at h
  cases o with
  | error e =>
    rcases h with ⟨rfl, S, h1, h2⟩ | ⟨rfl, h⟩ | rfl
    · have := hL S fun k hk => (h2 k hk).2.2
      omega
    · rw [h]; exact .inl rfl
    · cases AStmt.semAll ss (fun i => (m i).val) with
      | none => exact .inr rfl
      | some v => exact .inr rfl
  | ok u =>
    rw [h.2]
    exact .inl ⟨m2, n2, rfl, h.1, fun _ => rfl⟩

-- z = x * y; w = z + x, with one request refused
example : (∀ s ∈ [AStmt.set .mul 2 0 1, .set .add 3 2 0], s.ThreeAddress) ∧
    (∀ S : Finset Nat, (∀ k ∈ S, (ILuck.only 3).refuse k = true) → S.card ≤ 1) ∧
    (AStmt.retryAll (.only 3) 0 [.set .mul 2 0 1, .set .add 3 2 0] (exMem, 0)).1 = .error .badAlloc ∧
    (AStmt.retryAll (.only 3) 1 [.set .mul 2 0 1, .set .add 3 2 0] (exMem, 0)).1 = .ok () ∧
    (AStmt.retryAll (.only 3) 1 [.set .mul 2 0 1, .set .add 3 2 0] (exMem, 0)).2.1 3 = ⟨[40], true⟩ := by
  refine ⟨by simp [AStmt.ThreeAddress], ?_, by decide +kernel, by decide +kernel, by decide +kernel⟩
  intro S h
  refine Finset.card_le_one.mpr fun a ha b hb => ?_
  have h1 : a = 3 := by simpa [ILuck.only] using h a ha
  have h2 : b = 3 := by simpa [ILuck.only] using h b hb
  rw [h1, h2]

end CppMaths
