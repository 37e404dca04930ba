import Verif.Proofs.FracAllocProg
/-!
# C154, C155: programs with fractions when memory runs out
-/

namespace CppMaths
open BigInt Frac

variable {L : ILuck}

/-! For the examples: 1/2, 1/3, -3/4 and zeros. -/
private def exMem : FMem
  | 0 => ⟨⟨[1], false⟩, ⟨[2], false⟩⟩
  | 1 => ⟨⟨[1], false⟩, ⟨[3], false⟩⟩
  | 2 => ⟨⟨[3], true⟩, ⟨[4], false⟩⟩
  | _ => ⟨⟨[0], false⟩, ⟨[1], false⟩⟩

private theorem ex_valid : ∀ i, (exMem i).Valid := by
  intro i
  match i with
  | 0 => decide +kernel
  | 1 => decide +kernel
  | 2 => decide +kernel
  | n + 3 => exact (by decide +kernel : Frac.Valid ⟨⟨[0], false⟩, ⟨[1], false⟩⟩)

/-! ### C154: right or `bad_alloc` -/

/-- C154. Whatever requests are refused and whatever failed assignments leave, a program with fractions that ends normally leaves in every variable what it leaves with unlimited memory.
Otherwise it fails as it does with unlimited memory, or throws `bad_alloc`, and then one of its own requests has been refused. This holds for all objects. -/
theorem C154_same_or_bad_alloc (ss : List FAStmt) (m : FMem) (n : Nat) :
    match FAStmt.runT L ss (m, n) with
    | (.ok _, (m', _)) => FAStmt.run ss m = .ok m'
    | (.error e, (_, n')) => FAStmt.run ss m = .error e ∨ (e = .badAlloc ∧ L.RefusesIn n n') := by
  have h := (sim_fracRun (L := L) ss m n).2
  rcases hx : FAStmt.runT L ss (m, n) with ⟨o, ⟨m1, n1⟩⟩
  rw [hx] at h
  cases o with
  | ok u => exact h
  | error e => exact h

/-- C154 in terms of the numbers: a program whose meaning divides by no zero, started with fractions in lowest terms. If it ends normally, all variables hold fractions in lowest
terms whose values are those that the program computes with rational numbers. If it throws, it throws `bad_alloc`, and one of its own requests has been refused, or an assertion fails that
fails also with unlimited memory. -/
theorem C154_values {ss : List FAStmt} (hl : ∀ s ∈ ss, s.Legal) {m : FMem} (hm : ∀ i, (m i).Valid) {w : Nat → ℚ}
    (hw : FAStmt.semAll ss (fun i => (m i).value) = some w) (n : Nat) :
    match FAStmt.runT L ss (m, n) with
    | (.ok _, (m', _)) => (∀ i, (m' i).Valid) ∧ (fun i => (m' i).value) = w
    | (.error e, (_, n')) => (e = .badAlloc ∧ L.RefusesIn n n') ∨ (e = .assertion ∧ FAStmt.run ss m = .error .assertion) := by
  have h1 := C154_same_or_bad_alloc (L := L) ss m n
  have h2 := frac_run_right hl hm hw
  rcases hx : FAStmt.runT L ss (m, n) with ⟨o, ⟨m1, n1⟩⟩
  rw [hx] at h1
  cases o with
  | ok u =>
    dsimp only at h1 ⊢
    rw [h1] at h2
    rcases h2 with h2 | ⟨a, ha, h2⟩
    · cases h2
    · cases ha; exact h2
  | error e =>
    rcases h1 with h1 | h1
    · rw [h1] at h2
      rcases h2 with h2 | ⟨a, ha, _⟩
      · cases h2; exact .inr ⟨rfl, h1⟩
      · cases ha
    · exact .inl h1

/-- Other programs: if no operand is assigned by its own statement (so that there is no `/=`, see C34), a division by zero is never passed over, whatever memory is refused. -/
theorem C154_division_by_zero {ss : List FAStmt} (hl : ∀ s ∈ ss, s.Legal) (h3 : ∀ s ∈ ss, s.ThreeAddress) {m : FMem} (hm : ∀ i, (m i).Valid)
    (hw : FAStmt.semAll ss (fun i => (m i).value) = none) (n : Nat) :
    ∃ e m' n', FAStmt.runT L ss (m, n) = (.error e, (m', n')) ∧
      (e = .divideByZero ∨ (e = .badAlloc ∧ L.RefusesIn n n') ∨ (e = .assertion ∧ FAStmt.run ss m = .error .assertion)) := by
  have h1 := C154_same_or_bad_alloc (L := L) ss m n
  have h2 := frac_run_zero hl h3 hm hw
  rcases hx : FAStmt.runT L ss (m, n) with ⟨o, ⟨m1, n1⟩⟩
  rw [hx] at h1
  cases o with
  | ok u =>
    dsimp only at h1
    rw [h1] at h2
    rcases h2 with h2 | h2 <;> cases h2
  | error e =>
    refine ⟨e, m1, n1, rfl, ?_⟩
    rcases h1 with h1 | h1
    · rw [h1] at h2
      rcases h2 with h2 | h2 <;> cases h2
      · exact .inr (.inr ⟨rfl, h1⟩)
      · exact .inl rfl
    · exact .inr (.inl h1)

-- `z = x + y; x *= z; x /= -3; u = 2 - x; u = u`
private def sample : List FAStmt :=
  [.set .add 3 0 1, .update .mul 0 3, .updateInt .div 0 ⟨[3], true⟩, .intSet .sub 4 ⟨[2], false⟩ 0, .copy 4 4]

example : (∀ s ∈ sample, s.Legal) ∧ (FAStmt.semAll sample (fun i => (exMem i).value)).map (fun w => (w 0, w 4)) = some (-5 / 36, 77 / 36) := by
  constructor
  · intro s hs
    simp only [sample, List.mem_cons, List.not_mem_nil, or_false] at hs
    rcases hs with rfl | rfl | rfl | rfl | rfl <;> first | trivial | (show Canon _; decide +kernel)
  · norm_num [sample, FAStmt.semAll, FAStmt.sem, FOp.sem, exMem, Frac.value, BigInt.val, mag, Function.update]

example : (FAStmt.runT (.only 100000) sample (exMem, 0)).1 = .ok () ∧
    (FAStmt.runT (.only 100000) sample (exMem, 0)).2.1 4 = ⟨⟨[77], false⟩, ⟨[36], false⟩⟩ ∧
    (FAStmt.runT (.only 2000) sample (exMem, 0)).1 = .error .badAlloc := by decide +kernel

-- `z = x + y; z = x / w` with `w` zero
example := C154_division_by_zero (L := .only 2000) (ss := [.set .add 3 0 1, .set .div 3 0 9])
  (by simp [FAStmt.Legal]) (by simp [FAStmt.ThreeAddress]) ex_valid
  (by norm_num [FAStmt.semAll, FAStmt.sem, FOp.sem, exMem, Frac.value, BigInt.val, mag, Function.update]) 0

/-! ### C155: trying again -/

/-- C155 as stated is false: with `x` and `y` being 1/2 and 1/3, if `x += y` runs out of memory once and is tried again, `x` is 17/6 afterwards, not 5/6. -/
theorem C155_refuted : ∃ k, (FAStmt.retryAll (.only k) 1 [.update .add 0 1] (exMem, 0)).1 = .ok () ∧
    (FAStmt.retryAll (.only k) 1 [.update .add 0 1] (exMem, 0)).2.1 0 = ⟨⟨[17], false⟩, ⟨[6], false⟩⟩ :=
  ⟨20, by decide +kernel⟩

/-- C155, what holds: in programs none of whose statements assigns one of its operands, statements that throw `bad_alloc` can be tried again, whatever failed assignments leave. If the
program ends normally, all variables hold fractions in lowest terms whose values are those that the program computes with rational numbers. It gives up with `bad_alloc` only after as many of
its own requests have been refused as it makes attempts, and with `divide_by_zero_error` only if its meaning divides by zero. The only other failure is an assertion that fails also with
unlimited memory. Missing: compound assignments and statements like `x = x + y` (see the refutation for the former). -/
theorem C155_trying_again_partial (t : Nat) {ss : List FAStmt} (hl : ∀ s ∈ ss, s.Legal) (h3 : ∀ s ∈ ss, s.ThreeAddress) {m : FMem} (hm : ∀ i, (m i).Valid) (n : Nat) :
    match FAStmt.retryAll L t ss (m, n) with
    | (.ok _, (m', _)) => (∀ i, (m' i).Valid) ∧ FAStmt.semAll ss (fun i => (m i).value) = some (fun i => (m' i).value)
    | (.error e, (_, n')) => (e = .badAlloc ∧ ∃ S : Finset Nat, S.card = t + 1 ∧ ∀ k ∈ S, n ≤ k ∧ k < n' ∧ L.refuse k = true) ∨
        (e = .divideByZero ∧ FAStmt.semAll ss (fun i => (m i).value) = none) ∨ (e = .assertion ∧ FAStmt.run ss m = .error .assertion) := by
  have h1 := frac_retryAll (L := L) t h3 m n
  rcases hx : FAStmt.retryAll L t ss (m, n) with ⟨o, ⟨m1, n1⟩⟩
  rw [hx] at h1
  cases hw : FAStmt.semAll ss (fun i => (m i).value) with
  | none =>
    have h2 := frac_run_zero hl h3 hm hw
    cases o with
    | ok u =>
      dsimp only at h1
      rw [h1.2] at h2
      rcases h2 with h2 | h2 <;> cases h2
    | error e =>
      rcases h1.2 with h1 | h1
      · exact .inl h1
      · rw [h1] at h2
        rcases h2 with h2 | h2 <;> cases h2
        · exact .inr (.inr ⟨rfl, h1⟩)
        · exact .inr (.inl ⟨rfl, rfl⟩)
  | some w =>
    have h2 := frac_run_right hl hm hw
    cases o with
    | ok u =>
      dsimp only at h1 ⊢
      rw [h1.2] at h2
      rcases h2 with h2 | ⟨a, ha, h2⟩
      · cases h2
      · cases ha; exact ⟨h2.1, by rw [h2.2]⟩
    | error e =>
      rcases h1.2 with h1 | h1
      · exact .inl h1
      · rw [h1] at h2
        rcases h2 with h2 | ⟨a, ha, _⟩
        · cases h2; exact .inr (.inr ⟨rfl, h1⟩)
        · cases ha

/-- If at most `t` requests are refused, then `t + 1` attempts at each statement are enough: the program ends as with unlimited memory, and all variables hold what they hold then. -/
theorem C155_enough_attempts_partial (t : Nat) (hL : ∀ S : Finset Nat, (∀ k ∈ S, L.refuse k = true) → S.card ≤ t)
    {ss : List FAStmt} (h3 : ∀ s ∈ ss, s.ThreeAddress) (m : FMem) (n : Nat) :
    match FAStmt.run ss m with
    | .ok m' => ∃ n', FAStmt.retryAll L t ss (m, n) = (.ok (), (m', n'))
    | .error e => (FAStmt.retryAll L t ss (m, n)).1 = .error e := by
  have h1 := frac_retryAll (L := L) t h3 m n
  rcases hx : FAStmt.retryAll L t ss (m, n) with ⟨o, ⟨m1, n1⟩⟩
  rw [hx] at h1
  cases o with
  | ok u =>
    dsimp only at h1
    rw [h1.2]
    exact ⟨n1, rfl⟩
  | error e =>
    rcases h1.2 with ⟨_, S, h1, h2⟩ | h1
    · have := hL S fun k hk => (h2 k hk).2.2
      omega
    · rw [h1]

-- `z = x + y; u = z * w; v = 2 - u; a = v.reciprocal(); b = Frac(6, -4); z = b`
private def three : List FAStmt :=
  [.set .add 3 0 1, .set .mul 4 3 2, .intSet .sub 5 ⟨[2], false⟩ 4, .recip 6 5, .make 7 ⟨[6], false⟩ ⟨[4], true⟩, .copy 3 7]

example : (∀ s ∈ three, s.ThreeAddress) ∧ (FAStmt.semAll three (fun i => (exMem i).value)).map (fun w => (w 3, w 6)) = some (-3 / 2, 8 / 21) := by
  constructor
  · simp [three, FAStmt.ThreeAddress]
  · norm_num [three, FAStmt.semAll, FAStmt.sem, FOp.sem, exMem, Frac.value, BigInt.val, mag, Function.update]

example : (FAStmt.retryAll (.only 150) 0 three (exMem, 0)).1 = .error .badAlloc ∧
    (FAStmt.retryAll (.only 150) 1 three (exMem, 0)).1 = .ok () ∧
    (FAStmt.retryAll (.only 150) 1 three (exMem, 0)).2.1 3 = ⟨⟨[3], true⟩, ⟨[2], false⟩⟩ ∧
    (FAStmt.retryAll (.only 150) 1 three (exMem, 0)).2.1 6 = ⟨⟨[8], false⟩, ⟨[21], false⟩⟩ := by decide +kernel

example := C155_enough_attempts_partial (L := .only 150) 1 (by
    intro S h
    refine Finset.card_le_one.mpr fun a ha b hb => ?_
    have h1 : a = 150 := by simpa [ILuck.only] using h a ha
    have h2 : b = 150 := by simpa [ILuck.only] using h b hb
    rw [h1, h2]) (ss := [.set .add 3 0 1, .copy 4 3]) (by simp [FAStmt.ThreeAddress]) exMem 0

end CppMaths
