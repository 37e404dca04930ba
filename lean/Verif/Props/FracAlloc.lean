import Verif.Proofs.FracAlloc
/-!
# C141, C142: `Frac` when memory runs out
-/

namespace CppMaths
open BigInt Frac

variable {L : ILuck} {x y : Frac} {a : BigInt}

/-! For the examples. -/
private def half : Frac := ⟨⟨[1], false⟩, ⟨[2], false⟩⟩
private def third : Frac := ⟨⟨[1], false⟩, ⟨[3], false⟩⟩
private def exAll : ILuck := ⟨fun _ => false, gnuLeft⟩
private theorem only_sane {n : Nat} : (ILuck.only n).Sane := by
  intro k old new h1 h2 h3 h4
  refine ⟨?_, fun b hb => h4 b (List.mem_of_mem_take hb)⟩
  simp only [ILuck.only, gnuLeft, ne_eq, List.take_eq_nil_iff, List.length_eq_zero_iff]
  tauto

private theorem drop_error {r : MRes Frac Frac} {e : Err} (h : drop r = .error e) : ∃ s, r = .error (e, s) := by
  rcases r with ⟨e', s⟩ | f
  · cases h; exact ⟨s, rfl⟩
  · cases h
private theorem drop_value {r : MRes Frac Frac} {f : Frac} (h : drop r = .ok f) : r = .ok f := by
  rcases r with ⟨e', s⟩ | f
  · cases h
  · cases h; rfl

private theorem sim_cases {m : FM Unit} {r : MRes Frac Frac} (h : SimU L m x (drop r)) (n : Nat) : match m (x, n) with
    | (.ok _, (x', _)) => r = .ok x'
    | (.error e, (_, n')) => (∃ s, r = .error (e, s)) ∨ (e = .badAlloc ∧ L.RefusesIn n n') := by
  have := (h n).2
  rcases hm : m (x, n) with ⟨_ | _, _, _⟩ <;> rw [hm] at this
  · rcases this with h1 | h1
    · exact .inl (drop_error h1)
    · exact .inr h1
  · exact drop_value this

/-- C141: whichever requests for memory are refused, an operation on fractions ends as it would with unlimited memory, with the same result or the
same exception, or it throws `bad_alloc`, and this only if one of its requests is refused. This holds for all objects. -/
theorem C141_same_or_bad_alloc (L : ILuck) (x y : Frac) (a b : BigInt) (n : Nat) :
    (∀ op : FOp, ((op.runA L x y ((), n)).1 = op.run x y ∨ ((op.runA L x y ((), n)).1 = .error .badAlloc ∧ L.RefusesIn n (op.runA L x y ((), n)).2.2)) ∧
      ((op.runIntA L x a ((), n)).1 = op.runInt x a ∨ ((op.runIntA L x a ((), n)).1 = .error .badAlloc ∧ L.RefusesIn n (op.runIntA L x a ((), n)).2.2)) ∧
      ((op.intRunA L a x ((), n)).1 = op.intRun a x ∨ ((op.intRunA L a x ((), n)).1 = .error .badAlloc ∧ L.RefusesIn n (op.intRunA L a x ((), n)).2.2))) ∧
    ((Frac.opPowA L x a ((), n)).1 = Frac.opPow x a ∨ ((Frac.opPowA L x a ((), n)).1 = .error .badAlloc ∧ L.RefusesIn n (Frac.opPowA L x a ((), n)).2.2)) ∧
    ((mkA L a b ((), n)).1 = mk' a b ∨ ((mkA L a b ((), n)).1 = .error .badAlloc ∧ L.RefusesIn n (mkA L a b ((), n)).2.2)) ∧
    ((reciprocalA L x ((), n)).1 = x.reciprocal ∨ ((reciprocalA L x ((), n)).1 = .error .badAlloc ∧ L.RefusesIn n (reciprocalA L x ((), n)).2.2)) ∧
    ((ltA L x y ((), n)).1 = Frac.lt x y ∨ ((ltA L x y ((), n)).1 = .error .badAlloc ∧ L.RefusesIn n (ltA L x y ((), n)).2.2)) ∧
    (∀ op : FOp, match op.assignT L y (x, n) with
      | (.ok _, (x', _)) => op.asgVal x y = .ok x'
      | (.error e, (_, n')) => (∃ s, op.asgVal x y = .error (e, s)) ∨ (e = .badAlloc ∧ L.RefusesIn n n')) ∧
    (∀ op : FOp, match op.assignIntT L a (x, n) with
      | (.ok _, (x', _)) => op.asgInt x a = .ok x'
      | (.error e, (_, n')) => (∃ s, op.asgInt x a = .error (e, s)) ∨ (e = .badAlloc ∧ L.RefusesIn n n')) ∧
    (match Frac.powAssignT L a (x, n) with
      | (.ok _, (x', _)) => Frac.powAssign x a = .ok x'
      | (.error e, (_, n')) => (∃ s, Frac.powAssign x a = .error (e, s)) ∨ (e = .badAlloc ∧ L.RefusesIn n n')) :=
  ⟨fun op => ⟨(sim_run op x y n).2, (sim_runInt op x a n).2, (sim_intRun op a x n).2⟩, (sim_fracPow x a n).2, (sim_mk a b n).2, (sim_mk x.bb x.tt n).2,
    (Frac.sim_lt x y n).2,
    fun op => sim_cases (sim_assign op x y) n, fun op => sim_cases (sim_assignInt op x a) n, sim_cases (sim_fracPowAssign x a) n⟩

example : (FOp.runA exAll .sub half third ((), 0)).1 = .ok ⟨⟨[1], false⟩, ⟨[6], false⟩⟩ ∧
    (FOp.runA (.only 30) .sub half third ((), 0)).1 = .error .badAlloc ∧
    (FOp.runA (.only 200000) .div half ⟨⟨[0], false⟩, ⟨[1], false⟩⟩ ((), 0)).1 = .error .divideByZero := by decide +kernel

/-- C141 in terms of the numbers, for fractions in lowest terms: a result is the right number, in lowest terms; `divide_by_zero_error` is thrown
only for a zero divisor; `bad_alloc` only if one of its requests is refused. The only other outcome is a failed assertion, which comes also with
unlimited memory. For `/=` the divisor is not zero. -/
theorem C141_values (hx : x.Valid) (hy : y.Valid) (ha : Canon a) (op : FOp) (n : Nat) :
    (match (op.runA L x y ((), n)).1 with
      | .ok r => r.Valid ∧ op.sem x.value y.value = some r.value
      | .error e => (e = .badAlloc ∧ L.RefusesIn n (op.runA L x y ((), n)).2.2) ∨ (e = .divideByZero ∧ op.sem x.value y.value = none) ∨
        (e = .assertion ∧ op.run x y = .error .assertion)) ∧
    (match (op.runIntA L x a ((), n)).1 with
      | .ok r => r.Valid ∧ op.sem x.value a.val = some r.value
      | .error e => (e = .badAlloc ∧ L.RefusesIn n (op.runIntA L x a ((), n)).2.2) ∨ (e = .divideByZero ∧ op.sem x.value a.val = none) ∨
        (e = .assertion ∧ op.runInt x a = .error .assertion)) ∧
    (match (op.intRunA L a x ((), n)).1 with
      | .ok r => r.Valid ∧ op.sem a.val x.value = some r.value
      | .error e => (e = .badAlloc ∧ L.RefusesIn n (op.intRunA L a x ((), n)).2.2) ∨ (e = .divideByZero ∧ op.sem a.val x.value = none) ∨
        (e = .assertion ∧ op.intRun a x = .error .assertion)) ∧
    ((op = .div → y.value ≠ 0) → match op.assignT L y (x, n) with
      | (.ok _, (x', _)) => x'.Valid ∧ op.sem x.value y.value = some x'.value
      | (.error e, (_, n')) => (e = .badAlloc ∧ L.RefusesIn n n') ∨ (e = .assertion ∧ ∃ s, op.asgVal x y = .error (.assertion, s))) ∧
    ((op = .div → a.val ≠ 0) → match op.assignIntT L a (x, n) with
      | (.ok _, (x', _)) => x'.Valid ∧ op.sem x.value a.val = some x'.value
      | (.error e, (_, n')) => (e = .badAlloc ∧ L.RefusesIn n n') ∨ (e = .assertion ∧ ∃ s, op.asgInt x a = .error (.assertion, s))) := by
  have key : ∀ {m : AM Frac} {r : Res Frac} {p q : ℚ}, SimA L m r → RedQ r (op.parts p q) → match (m ((), n)).1 with
      | .ok r => r.Valid ∧ op.sem p q = some r.value
      | .error e => (e = .badAlloc ∧ L.RefusesIn n (m ((), n)).2.2) ∨ (e = .divideByZero ∧ op.sem p q = none) ∨ (e = .assertion ∧ r = .error .assertion) := by
    intro m r p q hs hr
    rcases (hs n).2 with h | ⟨h, h2⟩
    · rw [h, FOp.sem_parts]
      by_cases h0 : (op.parts p q).2 = 0
      · rw [hr.1 h0, if_pos h0]
        exact .inr (.inl ⟨rfl, rfl⟩)
      · by_cases h1 : ReduceAborts (op.parts p q).1 (op.parts p q).2
        · rw [hr.2.2 h0 h1]
          exact .inr (.inr ⟨rfl, rfl⟩)
        · obtain ⟨f, f1, f2, f3⟩ := hr.2.1 h0 h1
          rw [f1, if_neg h0]
          exact ⟨f2, by rw [f3]⟩
    · rw [h]
      exact .inl ⟨rfl, h2⟩
  have key2 : ∀ {m : FM Unit} {r : MRes Frac Frac} {p q : ℚ}, SimU L m x (drop r) → MRedQ r (op.parts p q) → (op = .div → q ≠ 0) → match m (x, n) with
      | (.ok _, (x', _)) => x'.Valid ∧ op.sem p q = some x'.value
      | (.error e, (_, n')) => (e = .badAlloc ∧ L.RefusesIn n n') ∨ (e = .assertion ∧ ∃ s, r = .error (.assertion, s)) := by
    intro m r p q hs hr hq
    have h0 : (op.parts p q).2 ≠ 0 := by
      have h1 := FOp.sem_parts op p q
      intro h2
      rw [if_pos h2] at h1
      cases op <;> simp [FOp.sem] at h1
      exact hq rfl h1
    have hr := hr h0
    have h1 := (hs n).2
    rcases hm : m (x, n) with ⟨_ | _, x', n'⟩ <;> rw [hm] at h1
    · dsimp only at h1 ⊢
      rcases h1 with h1 | h1
      · right
        by_cases hb : ReduceAborts (op.parts p q).1 (op.parts p q).2
        · obtain ⟨s, hs⟩ := hr.2 hb
          rw [hs] at h1
          cases h1
          exact ⟨rfl, s, hs⟩
        · obtain ⟨f, hf, _⟩ := hr.1 hb
          rw [hf] at h1
          cases h1
      · exact .inl h1
    · dsimp only at h1 ⊢
      have h1 := drop_value h1
      by_cases hb : ReduceAborts (op.parts p q).1 (op.parts p q).2
      · obtain ⟨s, hs⟩ := hr.2 hb
        rw [hs] at h1
        cases h1
      · obtain ⟨f, hf, f2, f3⟩ := hr.1 hb
        rw [hf] at h1
        cases h1
        exact ⟨f2, by rw [FOp.sem_parts, if_neg h0, f3]⟩
  exact ⟨key (sim_run op x y) (op.run_red hx hy), key (sim_runInt op x a) (op.runInt_red hx ha), key (sim_intRun op a x) (op.intRun_red hx ha),
    fun h => key2 (sim_assign op x y) (op.asgVal_red hx hy) h, fun h => key2 (sim_assignInt op x a) (op.asgInt_red hx ha) fun h' => by exact_mod_cast h h'⟩

example : half.Valid ∧ third.Valid ∧ FOp.assignT exAll .add third (half, 0) = (.ok (), (⟨⟨[5], false⟩, ⟨[6], false⟩⟩, 1628)) ∧
    (FOp.assignIntT (.only 40) .div ⟨[7], true⟩ (half, 0)).1 = .error .badAlloc := by decide +kernel

/-! ### C142: the left operand after `bad_alloc` -/

/-- C142 as stated is false: when `x += 1/3` runs out of memory, a variable that held 1/2 may hold 5/2 afterwards. The new numerator is assigned
before the new denominator is computed. -/
theorem C142_refuted_value : ∃ n, ∃ s : Nat,
    FOp.assignT (.only n) .add third (half, 0) = (.error .badAlloc, (⟨⟨[5], false⟩, ⟨[2], false⟩⟩, s)) :=
  ⟨20, 21, by decide +kernel⟩

/-- When `x *= 1/2` runs out of memory, a variable that held 1/500000000 may have a zero denominator. -/
theorem C142_refuted_denominator : ∃ n, ∃ s : Nat,
    FOp.assignT (.only n) .mul half (⟨⟨[1], false⟩, ⟨[500000000], false⟩⟩, 0) = (.error .badAlloc, (⟨⟨[1], false⟩, ⟨[0], false⟩⟩, s)) :=
  ⟨22, 23, by decide +kernel⟩

/-- When `x -= 1/2` runs out of memory, a variable that held 1/2 may have a numerator without bins; to subtract 1 then throws `out_of_range`. -/
theorem C142_refuted_numerator : ∃ n, ∃ s : Nat, ∃ x' : Frac, FOp.assignT (.only n) .sub half (half, 0) = (.error .badAlloc, (x', s)) ∧
    ¬WF x'.tt ∧ ∃ z, Frac.subAssignInt x' ⟨[1], false⟩ = .error (.outOfRange, z) :=
  ⟨46, 47, ⟨⟨[], false⟩, ⟨[4], false⟩⟩, by decide +kernel, by decide +kernel, ⟨⟨[], false⟩, ⟨[4], false⟩⟩, by decide +kernel⟩

/-- C142, what holds: if the result is not zero and there is no division by zero, an exception leaves an object whose two parts are
well-formed numbers. This assumes that failed assignments of deques leave at least one element.
Missing: that the value is unchanged, that the denominator is positive, and results that are zero (see the refutations). -/
theorem C142_parts_partial (hL : L.Sane) (hx : x.Valid) (hy : y.Valid) (ha : Canon a) {n n' : Nat} {e : Err} {x' : Frac} :
    (∀ op : FOp, ∀ q : ℚ, op.sem x.value y.value = some q → q ≠ 0 → op.assignT L y (x, n) = (.error e, (x', n')) → WF x'.tt ∧ WF x'.bb) ∧
    (∀ op : FOp, ∀ q : ℚ, op.sem x.value a.val = some q → q ≠ 0 → op.assignIntT L a (x, n) = (.error e, (x', n')) → WF x'.tt ∧ WF x'.bb) ∧
    (x.value ≠ 0 → Frac.powAssignT L a (x, n) = (.error e, (x', n')) → WF x'.tt ∧ WF x'.bb) := by
  have key : ∀ (op : FOp) {p q r : ℚ}, op.sem p q = some r → r ≠ 0 → (op.parts p q).1 ≠ 0 ∧ (op.parts p q).2 ≠ 0 := by
    intro op p q r h h0
    rw [FOp.sem_parts] at h
    by_cases h2 : (op.parts p q).2 = 0
    · rw [if_pos h2] at h
      cases h
    · rw [if_neg h2] at h
      refine ⟨fun h1 => h0 ?_, h2⟩
      cases h
      rw [h1]
      simp
  exact ⟨fun op q h h0 hm => assign_keepsWF hL op hx hy (key op h h0).1 (key op h h0).2 _ _ _ _ hm,
    fun op q h h0 hm => assignInt_keepsWF hL op hx ha (key op h h0).1 (key op h h0).2 _ _ _ _ hm,
    fun h0 hm => powAssign_keepsWF hL hx ha (fun h => h0 (hx.tt_zero.mp h)) _ _ _ _ hm⟩

example : (ILuck.only 20).Sane ∧ half.Valid ∧ third.Valid ∧ FOp.add.sem half.value third.value = some (5 / 6) ∧
    FOp.assignT (.only 20) .add third (half, 0) = (.error .badAlloc, (⟨⟨[5], false⟩, ⟨[2], false⟩⟩, 21)) :=
  ⟨only_sane, by decide +kernel, by decide +kernel, by norm_num [FOp.sem, Frac.value, half, third, BigInt.val, mag], by decide +kernel⟩

end CppMaths
