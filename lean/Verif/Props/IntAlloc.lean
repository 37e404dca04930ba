import Verif.Proofs.IntAllocLeft
/-!
# C138-C140: `Int` when memory runs out
-/

namespace CppMaths
open BigInt

variable {L : ILuck} {x y : BigInt}

/-! For the examples: the requests number 1 and from number 6 on are refused. -/
private def exL : ILuck := ⟨fun k => k == 1 || decide (6 ≤ k), gnuLeft⟩
private def exAll : ILuck := ⟨fun _ => false, gnuLeft⟩
theorem gnu_sane {f : Nat → Bool} : ILuck.Sane ⟨f, gnuLeft⟩ := by
  intro k old new h1 h2 h3 h4
  refine ⟨?_, fun b hb => h4 b (List.mem_of_mem_take hb)⟩
  simp only [gnuLeft, ne_eq, List.take_eq_nil_iff, List.length_eq_zero_iff]
  tauto

private theorem sim_cases {m : TM Unit} {r : Res BigInt} (h : SimU L m x r) (n : Nat) : match m (x, n) with
    | (.ok _, (x', _)) => r = .ok x'
    | (.error e, (_, n')) => r = .error e ∨ (e = .badAlloc ∧ L.RefusesIn n n') := by
  have := (h n).2
  rcases hm : m (x, n) with ⟨_ | _, _, _⟩ <;> rw [hm] at this <;> exact this

/-- C138: whichever requests for memory are refused, an operation on Ints ends as it would with unlimited memory, with the same result or the
same exception, or it throws `bad_alloc`, and this only if one of its requests is refused. This holds for all objects, also for those that are not well formed. -/
theorem C138_same_or_bad_alloc (L : ILuck) (x y : BigInt) (n : Nat) :
    (∀ op : IOp, (op.runA L x y ((), n)).1 = op.run x y ∨ ((op.runA L x y ((), n)).1 = .error .badAlloc ∧ L.RefusesIn n (op.runA L x y ((), n)).2.2)) ∧
    ((opPowA L x y ((), n)).1 = opPow x y ∨ ((opPowA L x y ((), n)).1 = .error .badAlloc ∧ L.RefusesIn n (opPowA L x y ((), n)).2.2)) ∧
    ((negA L x ((), n)).1 = x.neg ∨ ((negA L x ((), n)).1 = .error .badAlloc ∧ L.RefusesIn n (negA L x ((), n)).2.2)) ∧
    ((absA L x ((), n)).1 = x.abs ∨ ((absA L x ((), n)).1 = .error .badAlloc ∧ L.RefusesIn n (absA L x ((), n)).2.2)) ∧
    (∀ op : IOp, match op.assignT L y (x, n) with
      | (.ok _, (x', _)) => ∀ m : Mem, m 0 = x → m 1 = y → op.assign m 0 1 = .ok (m.set 0 x')
      | (.error e, (_, n')) => (∀ m : Mem, m 0 = x → m 1 = y → op.assign m 0 1 = .error e) ∨ (e = .badAlloc ∧ L.RefusesIn n n')) ∧
    (match powAssignT L y (x, n) with
      | (.ok _, (x', _)) => powAssign x y = .ok x'
      | (.error e, (_, n')) => powAssign x y = .error e ∨ (e = .badAlloc ∧ L.RefusesIn n n')) ∧
    (∀ p : Int, match timesPowerTenT L p (x, n) with
      | (.ok _, (x', _)) => timesPowerTen x p = .ok x'
      | (.error e, (_, n')) => timesPowerTen x p = .error e ∨ (e = .badAlloc ∧ L.RefusesIn n n')) := by
  refine ⟨fun op => (IOp.runA_sim L op x y n).2, (sim_opPow x y n).2, (sim_neg x n).2, (sim_abs x n).2, fun op => ?_, sim_cases (sim_powAssign x y) n,
    fun p => sim_cases (sim_timesPowerTen x p) n⟩
  have h := (IOp.assignT_sim L op x y n).2
  rcases hm : op.assignT L y (x, n) with ⟨o, ⟨x', n'⟩⟩
  rw [hm] at h
  cases o with
  | ok a =>
    intro m h0 h1
    rw [IOp.assign_eq, h0, h1]
    dsimp only at h
    rw [h]
    rfl
  | error e =>
    rcases h with h | h
    · left
      intro m h0 h1
      rw [IOp.assign_eq, h0, h1, h]
      rfl
    · exact .inr h

-- a sum that gets all it needs, and one that does not
example : (IOp.runA exL .add ⟨[999999999], false⟩ ⟨[1], false⟩ ((), 2)).1 = .ok ⟨[0, 1], false⟩ ∧
    (IOp.runA exL .add ⟨[999999999], false⟩ ⟨[1], false⟩ ((), 0)).1 = .error .badAlloc := by decide +kernel
-- a division by zero is still reported as one
example : (IOp.runA exL .div ⟨[5], false⟩ ⟨[0], false⟩ ((), 0)).1 = .error .divideByZero := by decide +kernel

/-- C138 in terms of the numbers, for well-formed operands: a result is the right number, in a well-formed object; `divide_by_zero_error` is thrown
only for a zero divisor; `bad_alloc` only if one of its requests is refused. The only other outcome is a failed assertion, which comes also with
unlimited memory. -/
theorem C138_values (hx : WF x) (hy : WF y) (op : IOp) (n : Nat) :
    (match (op.runA L x y ((), n)).1 with
      | .ok r => WF r ∧ op.sem x.val y.val = some r.val
      | .error e => (e = .badAlloc ∧ L.RefusesIn n (op.runA L x y ((), n)).2.2) ∨ (e = .divideByZero ∧ op.sem x.val y.val = none) ∨
        (e = .assertion ∧ op.run x y = .error .assertion)) ∧
    (match op.assignT L y (x, n) with
      | (.ok _, (x', _)) => WF x' ∧ op.sem x.val y.val = some x'.val
      | (.error e, (_, n')) => (e = .badAlloc ∧ L.RefusesIn n n') ∨ (e = .divideByZero ∧ op.sem x.val y.val = none) ∨
        (e = .assertion ∧ ∀ m : Mem, m 0 = x → m 1 = y → op.assign m 0 1 = .error .assertion)) := by
  have key : ∀ r : Res BigInt, Refines r (op.sem x.val y.val) → match r with
      | .ok r => WF r ∧ op.sem x.val y.val = some r.val
      | .error e => (e = .divideByZero ∧ op.sem x.val y.val = none) ∨ e = .assertion := by
    intro r h
    rcases h with h | h
    · rw [h]; exact .inr rfl
    · cases hz : op.sem x.val y.val with
      | none =>
        rw [hz] at h
        rw [show r = .error .divideByZero by rcases op with _ | _ | _ | _ | _ <;> first | exact h | cases hz]
        exact .inl ⟨rfl, rfl⟩
      | some z =>
        rw [hz] at h
        obtain ⟨a, h1, h2, h3⟩ := h
        rw [h1]
        exact ⟨h2, by rw [h3]⟩
  constructor
  · have h1 := key _ (IOp.run_refines op hx hy)
    rcases (IOp.runA_sim L op x y n).2 with h | ⟨h, h2⟩
    · rw [h]
      cases hr : op.run x y with
      | ok r => rw [hr] at h1; exact h1
      | error e =>
        rw [hr] at h1
        rcases h1 with h1 | h1
        · exact .inr (.inl h1)
        · exact .inr (.inr ⟨h1, by rw [h1]⟩)
    · rw [h]
      exact .inl ⟨rfl, h2⟩
  · have h1 := key _ (IOp.asgVal_refines op hx hy)
    have h := (IOp.assignT_sim L op x y n).2
    rcases hm : op.assignT L y (x, n) with ⟨o, ⟨x', n'⟩⟩
    rw [hm] at h
    cases o with
    | ok a =>
      dsimp only at h
      rw [h] at h1
      exact h1
    | error e =>
      rcases h with h | h
      · rw [h] at h1
        rcases h1 with h1 | h1
        · exact .inr (.inl h1)
        · refine .inr (.inr ⟨h1, fun m h0 h2 => ?_⟩)
          rw [IOp.assign_eq, h0, h2, h, h1]
          rfl
      · exact .inl h

example : WF ⟨[5, 21], true⟩ ∧ WF ⟨[7], false⟩ ∧ IOp.assignT exAll .div ⟨[7], false⟩ (⟨[5, 21], true⟩, 0) = (.ok (), (⟨[0, 3], true⟩, 390)) ∧
    (IOp.assignT exL .div ⟨[7], false⟩ (⟨[5, 21], true⟩, 0)).1 = .error .badAlloc := by decide +kernel

/-! ### C139: what is left of the left operand -/

/-- C139 as stated is false: when `x += 7` runs out of memory, a variable `x` that holds -5 may hold 5, 2 or -2 afterwards. -/
theorem C139_refuted_sign : ∃ n, ∃ s : Nat, IOp.assignT (.only n) .add ⟨[7], false⟩ (⟨[5], true⟩, 0) = (.error .badAlloc, (⟨[5], false⟩, s)) :=
  ⟨0, 1, by decide +kernel⟩

/-- When `x += 1` runs out of memory, a variable `x` that holds 999999999 may hold 0 afterwards. -/
theorem C139_refuted_carry : ∃ n, ∃ s : Nat,
    IOp.assignT (.only n) .add ⟨[1], false⟩ (⟨[999999999], false⟩, 0) = (.error .badAlloc, (⟨[0], false⟩, s)) :=
  ⟨1, 2, by decide +kernel⟩

/-- When `x -= y` or `x *= y` runs out of memory, `x` may hold the result, although an exception is thrown; or a number that
is neither the old value nor the result. -/
theorem C139_refuted_swap :
    (∃ n, ∃ s : Nat, IOp.assignT (.only n) .sub ⟨[7, 8], false⟩ (⟨[5], false⟩, 0) = (.error .badAlloc, (⟨[2, 8], true⟩, s))) ∧
    (∃ n, ∃ s : Nat, IOp.assignT (.only n) .mul ⟨[999999999], true⟩ (⟨[999999999], false⟩, 0) = (.error .badAlloc, (⟨[1], false⟩, s))) :=
  ⟨⟨7, 8, by decide +kernel⟩, ⟨11, 12, by decide +kernel⟩⟩

/-- C139, what holds: whatever is thrown, the left operand is one of the following afterwards. For `+=` and `-=` see `SumLeft`. For `*=`, `%=` and `^=` it is
unchanged, or it is the result, or it has the old sign and what a failed assignment of the result's bins leaves. For `/=` it is unchanged; or, if the quotient is zero,
it has no bins at all; or the topmost bins have been divided already. The sign of the object is unchanged in the last two cases.
Missing for the full claim: that it is unchanged in all cases (see the refutations and `C139_unchanged_partial`). -/
theorem C139_left_operand_partial (hx : WF x) (hy : WF y) {n n' : Nat} {e : Err} {x' : BigInt} :
    (IOp.assignT L .add y (x, n) = (.error e, (x', n')) → SumLeft L (x.negative = y.negative) x y x') ∧
    (IOp.assignT L .sub y (x, n) = (.error e, (x', n')) → SumLeft L (x.negative ≠ y.negative) x y x') ∧
    (∀ op, op = .mul ∨ op = .mod → IOp.assignT L op y (x, n) = (.error e, (x', n')) →
      x' = x ∨ ∃ r, op.sem x.val y.val = some r.val ∧ (x' = r ∨ ∃ k, x' = ⟨L.left k x.bins r.bins, x.negative⟩)) ∧
    (IOp.assignT L .div y (x, n) = (.error e, (x', n')) → x' = x ∨ (|x.val| < |y.val| ∧ x' = ⟨[], x.negative⟩) ∨
      (|y.val| ≤ |x.val| ∧ WF x' ∧ x'.negative = x.negative ∧
        ∃ j, |x'.val| = |x.val| % 1000000000 ^ j + 1000000000 ^ j * (|x.val| / 1000000000 ^ j / |y.val|))) ∧
    (powAssignT L y (x, n) = (.error e, (x', n')) →
      x' = x ∨ ∃ r, powAssign x y = .ok r ∧ (x' = r ∨ ∃ k, x' = ⟨L.left k x.bins r.bins, x.negative⟩)) := by
  have hr : ∀ op : IOp, ∀ r, op.asgVal x y = .ok r → op.sem x.val y.val = some r.val := by
    intro op r h
    have h1 := IOp.asgVal_refines op hx hy
    rw [h] at h1
    rcases h1 with h1 | h1
    · cases h1
    · cases hz : op.sem x.val y.val with
      | none =>
        rw [hz] at h1
        cases h1
      | some z =>
        rw [hz] at h1
        obtain ⟨a, h1, h2, h3⟩ := h1
        cases h1
        rw [h3]
  refine ⟨fun h => (Leaves.addAssign hx hy n e x' n' h).1, fun h => (Leaves.subAssign hx hy n e x' n' h).1, ?_,
    fun h => Leaves.divAssign hx hy n e x' n' h, fun h => Leaves.powAssign
      (P := fun x' => x' = x ∨ ∃ r, powAssign x y = .ok r ∧ (x' = r ∨ ∃ k, x' = ⟨L.left k x.bins r.bins, x.negative⟩))
      (.inl rfl) (fun r h2 => ⟨.inr ⟨r, h2, .inl rfl⟩, fun k => .inr ⟨r, h2, .inr ⟨k, rfl⟩⟩⟩) n e x' n' h⟩
  rintro op (rfl | rfl) h
  · exact Leaves.mulAssign
      (P := fun x' => x' = x ∨ ∃ r, IOp.mul.sem x.val y.val = some r.val ∧ (x' = r ∨ ∃ k, x' = ⟨L.left k x.bins r.bins, x.negative⟩))
      (.inl rfl) (fun r h2 => ⟨.inr ⟨r, hr .mul r h2, .inl rfl⟩, fun k => .inr ⟨r, hr .mul r h2, .inr ⟨k, rfl⟩⟩⟩) n e x' n' h
  · exact Leaves.modAssign
      (P := fun x' => x' = x ∨ ∃ r, IOp.mod.sem x.val y.val = some r.val ∧ (x' = r ∨ ∃ k, x' = ⟨L.left k x.bins r.bins, x.negative⟩))
      (.inl rfl) (fun r h2 => ⟨.inr ⟨r, hr .mod r h2, .inl rfl⟩, fun k => .inr ⟨r, hr .mod r h2, .inr ⟨k, rfl⟩⟩⟩) n e x' n' h

example : WF ⟨[5], true⟩ ∧ WF ⟨[7], false⟩ ∧ IOp.assignT (.only 6) .add ⟨[7], false⟩ (⟨[5], true⟩, 0) = (.error .badAlloc, (⟨[2], false⟩, 7)) := by
  decide +kernel
-- 21000000050 / 7 after the upper bin
example : IOp.assignT (.only 388) .div ⟨[7], false⟩ (⟨[50, 21], false⟩, 0) = (.error .badAlloc, (⟨[50, 3], false⟩, 389)) := by
  decide +kernel

/-- The operations whose left operand is unchanged when memory runs out: a sum of two numbers that are not negative and whose sum needs no more bins
than the larger of them; a difference of two such numbers with a positive result; and the same with the signs as `+=` and `-=` treat them.
Here the assertions are checked; they are what asks for memory in the case of a difference. -/
theorem C139_unchanged_partial (hx : WF x) (hy : WF y) (h0 : x.negative = false) {n n' : Nat} {e : Err} {x' : BigInt} :
    (y.negative = false → |x.val| + |y.val| < 1000000000 ^ max x.bins.length y.bins.length →
      IOp.assignT L .add y (x, n) = (.error e, (x', n')) → x' = x) ∧
    (y.negative = true → |y.val| < |x.val| → IOp.assignT L .add y (x, n) = (.error e, (x', n')) → x' = x) ∧
    (y.negative = true → |x.val| + |y.val| < 1000000000 ^ max x.bins.length y.bins.length →
      IOp.assignT L .sub y (x, n) = (.error e, (x', n')) → x' = x) ∧
    (y.negative = false → |y.val| < |x.val| → IOp.assignT L .sub y (x, n) = (.error e, (x', n')) → x' = x) := by
  have key : ∀ same : Prop, SumLeft L same x y x' → (same → |x.val| + |y.val| < 1000000000 ^ max x.bins.length y.bins.length) →
      (¬same → |y.val| < |x.val|) → x' = x := by
    rintro same (h | h | ⟨h1, hw, h2, h3⟩ | ⟨h1, h2, h3⟩) g1 g2
    · exact h
    · rw [h, ← h0]
    · exfalso
      have := g1 h1
      have hpos : 0 ≤ x'.val := by simpa [BigInt.val, h2] using mag_nonneg hw.2
      rw [h3] at hpos
      linarith
    · exact absurd (g2 h1) (not_lt.mpr h2)
  obtain ⟨p1, p2, _⟩ := C139_left_operand_partial (L := L) hx hy (n := n) (n' := n') (e := e) (x' := x')
  refine ⟨fun hn hb h => key _ (p1 h) (fun _ => hb) fun hs => ?_, fun hn hb h => key _ (p1 h) (fun hs => ?_) fun _ => hb,
    fun hn hb h => key _ (p2 h) (fun _ => hb) fun hs => ?_, fun hn hb h => key _ (p2 h) (fun hs => ?_) fun _ => hb⟩ <;> simp [h0, hn] at hs

example : IOp.assignT (.only 3) .sub ⟨[5], false⟩ (⟨[9], false⟩, 0) = (.error .badAlloc, (⟨[9], false⟩, 4)) ∧
    IOp.assignT (.only 0) .add ⟨[5], false⟩ (⟨[9], false⟩, 0) = (.error .badAlloc, (⟨[9], false⟩, 1)) := by decide +kernel

/-! ### C140: the left operand stays a number -/

/-- C140 as stated is false: when `x /= 7` runs out of memory, a variable that held 5 may have lost its bins. Taking its negative then throws `out_of_range`. -/
theorem C140_refuted_quotient : ∃ n, ∃ s : Nat, ∃ x' : BigInt, IOp.assignT (.only n) .div ⟨[7], false⟩ (⟨[5], false⟩, 0) = (.error .badAlloc, (x', s)) ∧
    ¬WF x' ∧ x'.neg = .error .outOfRange :=
  ⟨1, 2, ⟨[], false⟩, by decide +kernel⟩

/-- The same happens in `times_power_ten(-9)`. -/
theorem C140_refuted_times_power_ten : ∃ n, ∃ s : Nat, ∃ x' : BigInt,
    timesPowerTenT (.only n) (-9) (⟨[5], false⟩, 0) = (.error .badAlloc, (x', s)) ∧ ¬WF x' :=
  ⟨0, 1, ⟨[], false⟩, by decide +kernel⟩

/-- C140, what holds: after an exception in `+=`, `-=`, `*=`, `%=` or in `times_power_ten` with a power that is not negative, the left operand is a well-formed number; after one
in `/=` it is if the quotient is not zero; after one in `^=` it is if the result is. This assumes that failed assignments of deques leave at least one element.
Missing: quotients that are zero, and negative powers (see the refutations). -/
theorem C140_valid_partial (hL : L.Sane) (hx : WF x) (hy : WF y) {n n' : Nat} {e : Err} {x' : BigInt} :
    (∀ op : IOp, (op = .div → |y.val| ≤ |x.val|) → op.assignT L y (x, n) = (.error e, (x', n')) → WF x') ∧
    ((∀ r, powAssign x y = .ok r → WF r) → powAssignT L y (x, n) = (.error e, (x', n')) → WF x') ∧
    (∀ p : Int, 0 ≤ p → timesPowerTenT L p (x, n) = (.error e, (x', n')) → WF x') := by
  have hr : ∀ op : IOp, ∀ r, op.asgVal x y = .ok r → WF r := by
    intro op r h
    have h1 := IOp.asgVal_refines op hx hy
    rw [h] at h1
    rcases h1 with h1 | h1
    · cases h1
    · cases hz : op.sem x.val y.val with
      | none =>
        rw [hz] at h1
        cases h1
      | some z =>
        rw [hz] at h1
        obtain ⟨a, h1, h2, h3⟩ := h1
        cases h1
        exact h2
  refine ⟨fun op hd h => ?_, fun hw h => ?_, fun p hp h => Leaves.timesPowerTen hL hx hp n e x' n' h⟩
  · cases op
    · exact (Leaves.addAssign hx hy n e x' n' h).2 hL
    · exact (Leaves.subAssign hx hy n e x' n' h).2 hL
    · exact Leaves.mulAssign (P := WF) hx (fun r h2 => ⟨hr .mul r h2, fun k => hL k _ _ hx.1 hx.2 (hr .mul r h2).1 (hr .mul r h2).2⟩) n e x' n' h
    · rcases Leaves.divAssign hx hy n e x' n' h with h1 | ⟨h1, _⟩ | ⟨_, h1, _⟩
      · rw [h1]; exact hx
      · exact absurd (hd rfl) (not_le.mpr h1)
      · exact h1
    · exact Leaves.modAssign (P := WF) hx (fun r h2 => ⟨hr .mod r h2, fun k => hL k _ _ hx.1 hx.2 (hr .mod r h2).1 (hr .mod r h2).2⟩) n e x' n' h
  · exact Leaves.powAssign (P := WF) hx (fun r h2 => ⟨hw r h2, fun k => hL k _ _ hx.1 hx.2 (hw r h2).1 (hw r h2).2⟩) n e x' n' h

example : (ILuck.only 11).Sane ∧ IOp.assignT (.only 11) .mul ⟨[999999999], true⟩ (⟨[999999999], false⟩, 0) = (.error .badAlloc, (⟨[1], false⟩, 12)) :=
  ⟨gnu_sane, by decide +kernel⟩
example : timesPowerTenT (.only 28) 3 (⟨[999999999], true⟩, 0) = (.error .badAlloc, (⟨[999999900, 99], true⟩, 29)) := by decide +kernel

end CppMaths
