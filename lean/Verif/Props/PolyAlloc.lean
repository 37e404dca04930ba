import Verif.Proofs.PolyAlloc
import Verif.Props.PolyProg
import Verif.Props.FracAlloc
/-!
# C151–C153: factors, terms and polynomials when memory runs out
-/

namespace CppMaths
open BigInt GM Term

variable {L : PLuck}

/-- Only the request number `n` is refused; failed assignments leave what the GNU library leaves of the bins of an `Int`, and the old value of factors, terms and
polynomials. -/
def PLuck.only (n : Nat) : PLuck := { ILuck.only n with leftF := fun _ o _ => o, leftT := fun _ o _ => o, leftP := fun _ o _ => o }

/-! ### C151: right or `bad_alloc` -/

/-- C151. Whatever requests are refused and whatever failed assignments leave: a history of statements that ends normally leaves in every variable what it leaves with unlimited
memory. Otherwise it fails as it does with unlimited memory, or throws `bad_alloc`, and then one of its own requests has been refused. -/
theorem C151_same_or_bad_alloc (ss : List PStmt) (σ : PStore) (n : Nat) :
    match PStmt.runT L ss (σ, n) with
    | (.ok _, (σ', _)) => PStmt.run ss σ = .ok σ'
    | (.error e, (_, n')) => PStmt.run ss σ = .error e ∨ (e = .badAlloc ∧ ∃ k, n ≤ k ∧ k < n' ∧ L.refuse k = true) := by
  have h := (sim_run (L := L) ss σ n).2
  rcases hx : PStmt.runT L ss (σ, n) with ⟨o, ⟨σ1, n1⟩⟩
  rw [hx] at h
  cases o with
  | ok u => exact h
  | error e => exact h

/-- C151. In terms of Laurent polynomials: with valid objects to begin with, if the history ends normally, all variables hold valid objects that stand for
what the history computes with Laurent polynomials. Otherwise a request of its own has been refused and it throws `bad_alloc`, or it fails as in C148: the assertion of the fractions,
or undefined behaviour where it inserts terms. -/
theorem C151_values {ss : List PStmt} (hss : ∀ s ∈ ss, s.Legal) {σ : PStore} (h : σ.Good) (n : Nat) :
    match PStmt.runT L ss (σ, n) with
    | (.ok _, (σ', _)) => σ'.Good ∧ σ'.den = PStmt.meaning ss σ.den
    | (.error e, (_, n')) => (e = .badAlloc ∧ ∃ k, n ≤ k ∧ k < n' ∧ L.refuse k = true) ∨ e = .assertion ∨ (∃ s ∈ ss, s.Inserts) ∧ e = .ub := by
  have h1 := C151_same_or_bad_alloc (L := L) ss σ n
  have h2 := C148_history_partial hss h
  rcases hx : PStmt.runT L ss (σ, n) with ⟨o, ⟨σ1, n1⟩⟩
  rw [hx] at h1
  cases o with
  | ok u =>
    dsimp only at h1 ⊢
    rw [h1] at h2
    rcases h2 with ⟨a, ha, h2⟩ | ⟨e, he, _⟩
    · cases ha; exact h2
    · cases he
  | error e =>
    rcases h1 with h1 | h1
    · rw [h1] at h2
      rcases h2 with ⟨a, ha, _⟩ | ⟨e', he, h2⟩
      · cases ha
      · cases he; exact .inr h2
    · exact .inl h1

example : (∀ s ∈ sampleHistory, s.Legal) ∧ startStore.Good := ⟨sampleHistory_legal, startStore_good⟩

-- the program of C148 makes more than 100 requests
example : (PStmt.runT (.only 100) sampleHistory (startStore, 0)).1 = .error .badAlloc ∧ (PStmt.runT (.only 100) sampleHistory (startStore, 0)).2.2 = 101 ∧
    (PStmt.runT (.only 100000) sampleHistory (startStore, 0)).1 = .ok () := by decide +kernel

/-! ### C152: what is left -/

/-- `x^-5`, `x^7`, the terms `x^-5`, `(1/2) x` and `(1/3) x`, the polynomial `(1/2) x`. -/
private def exStore : PStore where
  factor i := if i = 0 then ⟨"x".toList, ⟨[5], true⟩⟩ else if i = 1 then ⟨"x".toList, ⟨[7], false⟩⟩ else ⟨"y".toList, ⟨[2], false⟩⟩
  term i := if i = 0 then ⟨⟨⟨[1], false⟩, ⟨[1], false⟩⟩, [("x".toList, ⟨"x".toList, ⟨[5], true⟩⟩)]⟩
    else if i = 1 then ⟨⟨⟨[1], false⟩, ⟨[3], false⟩⟩, [("x".toList, ⟨"x".toList, ⟨[1], false⟩⟩)]⟩
    else ⟨⟨⟨[1], false⟩, ⟨[2], false⟩⟩, [("x".toList, ⟨"x".toList, ⟨[1], false⟩⟩)]⟩
  poly _ := ⟨[⟨⟨⟨[1], false⟩, ⟨[2], false⟩⟩, [("x".toList, ⟨"x".toList, ⟨[1], false⟩⟩)]⟩]⟩

private theorem exStore_good : exStore.Good := by
  have hT : ∀ i, (exStore.term i).WF := fun i => by
    unfold exStore
    dsimp only
    split
    · exact ⟨by decide, by simp, by decide⟩
    · split <;> exact ⟨by decide, by simp, by decide⟩
  refine ⟨fun i => ?_, hT, fun i t ht => ?_⟩
  · unfold exStore
    dsimp only
    split
    · decide
    · split <;> decide
  · have : t = exStore.term 2 := by simpa [exStore] using ht
    rw [this]
    exact hT 2

/-- C152 as stated is false. When `t *= f` with `t` and `f` being x^-5 and x^7 runs out of memory, `t` may be x^5 afterwards. -/
theorem C152_refuted_term : ∃ k, (PStmt.execT (.only k) (.mulAssignFactor 0 1) (exStore, 0)).1 = .error .badAlloc ∧
    ((PStmt.execT (.only k) (.mulAssignFactor 0 1) (exStore, 0)).2.1.term 0).factors = [("x".toList, ⟨"x".toList, ⟨[5], false⟩⟩)] :=
  ⟨0, by decide +kernel⟩

/-- When `p.appendTerm(t)` with `p` and `t` being (1/2) x and (1/3) x runs out of memory, `p` may be (5/2) x afterwards. -/
theorem C152_refuted_poly : ∃ k, (PStmt.execT (.only k) (.appendTerm 0 1) (exStore, 0)).1 = .error .badAlloc ∧
    ((PStmt.execT (.only k) (.appendTerm 0 1) (exStore, 0)).2.1.poly 0).terms =
      [⟨⟨⟨[5], false⟩, ⟨[2], false⟩⟩, [("x".toList, ⟨"x".toList, ⟨[1], false⟩⟩)]⟩] :=
  ⟨20, by decide +kernel⟩

/-- C152, what holds for every statement: when it fails, it has changed at most the variable that it assigns; in particular its operands are as before, if they are other
variables.
Missing: that variable (see the refutations). -/
theorem C152_others_partial {s : PStmt} {σ σ' : PStore} {n n' : Nat} {e : Err} (h : s.execT L (σ, n) = (.error e, (σ', n'))) :
    (∀ j, s.target ≠ .factor j → σ'.factor j = σ.factor j) ∧ (∀ j, s.target ≠ .term j → σ'.term j = σ.term j) ∧
    (∀ j, s.target ≠ .poly j → σ'.poly j = σ.poly j) :=
  exec_left s σ n e σ' n' h

example := C152_others_partial (L := .only 0) (s := .mulAssignFactor 0 1) (σ := exStore) (n := 0) rfl

private theorem setPower_map : ∀ {m : FactorMap} (_ : m.Pairwise (fun p q => p.1 < q.1)) (k : List Char) (p : BigInt),
    m.setPower k p = m.map fun q => if q.1 = k then (q.1, { q.2 with power := p }) else q
  | [], _, k, p => rfl
  | (k', f) :: r, h, k, p => by
    obtain ⟨h1, h2⟩ := List.pairwise_cons.mp h
    unfold FactorMap.setPower
    rw [List.map_cons]
    by_cases hk : k' = k
    · rw [if_pos hk, if_pos hk]
      congr 1
      conv_lhs => rw [← List.map_id r]
      refine List.map_congr_left fun q hq => ?_
      have : q.1 ≠ k := fun e => by
        have := h1 q hq
        rw [e, hk] at this
        exact lt_irrefl _ this
      rw [if_neg this]; rfl
    · rw [if_neg hk, if_neg hk, setPower_map h2]

/-- C152, what holds for a product with a factor (`t.appendFactor(f)` and `t *= f`): if the term does not have the variable of the factor, a failure leaves the term as it was. If it has, a failure
leaves the coefficient and all other powers, and of the power of this variable what a failed `+=` of `Int`s leaves (C139).
Missing: the power of that variable. -/
theorem C152_factor_partial {i j : Nat} {s : PStmt} (hs : s = .appendFactor i j ∨ s = .mulAssignFactor i j) {σ σ' : PStore} (hσ : σ.Good) {n n' : Nat} {e : Err}
    (h : s.execT L (σ, n) = (.error e, (σ', n'))) :
    σ'.term i = σ.term i ∨
    ∃ f p, ((σ.factor j).id, f) ∈ (σ.term i).factors ∧ SumLeft L.toILuck (f.power.negative = (σ.factor j).power.negative) f.power (σ.factor j).power p ∧
      σ'.term i = ⟨(σ.term i).coeff, (σ.term i).factors.map fun q => if q.1 = (σ.factor j).id then (q.1, { q.2 with power := p }) else q⟩ := by
  have key : Leaves (PStore.onT i (Term.appendFactorT L.toILuck (σ.factor j))) σ (fun σ' => σ'.term i = σ.term i ∨
      ∃ f p, ((σ.factor j).id, f) ∈ (σ.term i).factors ∧ SumLeft L.toILuck (f.power.negative = (σ.factor j).power.negative) f.power (σ.factor j).power p ∧
        σ'.term i = ⟨(σ.term i).coeff, (σ.term i).factors.map fun q => if q.1 = (σ.factor j).id then (q.1, { q.2 with power := p }) else q⟩) := by
    refine Leaves.on (g := fun σ : PStore => σ.term i) ((appendFactor_left _ _).mono fun t ht => ?_)
    rcases ht with rfl | ⟨f, p, m, e, m', h1, h2, rfl⟩
    · exact .inl (by simp [PStore.setT])
    · have hm := FactorMap.find_mem h1
      have hf : f.power.WF := ((hσ.term i).keys _ hm).2.1
      refine .inr ⟨f, p, hm, (C139_left_operand_partial hf (hσ.factor j).1).1 h2, ?_⟩
      rw [← setPower_map (hσ.term i).sorted]
      simp [PStore.setT]
  rcases hs with rfl | rfl <;> exact key n e σ' n' h

example := C152_factor_partial (L := .only 0) (s := .mulAssignFactor 0 1) (.inr rfl) exStore_good (n := 0) rfl

-- a variable that the term does not have: the failed multiplication has no effect
example : (PStmt.execT (.only 0) (.mulAssignFactor 0 2) (exStore, 0)).1 = .error .badAlloc ∧
    (PStmt.execT (.only 0) (.mulAssignFactor 0 2) (exStore, 0)).2.1.term 0 = exStore.term 0 := by decide +kernel

/-- What a failed addition of the term `x` may leave of a polynomial: nothing has happened, or only the coefficient of one term has changed, which has the same
monomial as `x`; numerator and denominator of the coefficient are still well-formed numbers if failed assignments are harmless and the sum of the coefficients is not zero. -/
private theorem left_term (p : Poly) (hp : p.WF) (x : Term) (hx : x.WF) : Leaves (Poly.appendTermT L.toILuck x) p (fun p' => p' = p ∨
    ∃ a u b c, p.terms = a ++ u :: b ∧ u.monomial = x.monomial ∧ p'.terms = a ++ { u with coeff := c } :: b ∧
      (L.Sane → u.coeff.value + x.coeff.value ≠ 0 → c.tt.WF ∧ c.bb.WF)) := by
  refine (appendTerm_left p x).mono fun p' h => ?_
  rcases h with rfl | ⟨a, u, b, c, m, e, m', h1, h2, h3, rfl⟩
  · exact .inl rfl
  · have hu : u.WF := hp u (by rw [h1]; simp)
    refine .inr ⟨a, u, b, c, h1, ?_, rfl, fun hL h0 => ?_⟩
    · unfold Term.monomial
      rw [(same_iff_factors hu hx).mp h2]
    · exact (C142_parts_partial hL hu.coeff hx.coeff (a := ⟨[1], false⟩) (by decide)).1 .add _ rfl h0 h3

/-- C152, what holds for additions to a polynomial. `p.appendTerm(t)` that fails leaves `p` as it was, or changes the coefficient of one term with the same
monomial as `t`. The numerator and the denominator of this coefficient are well-formed numbers, provided that failed assignments of bins leave bins and the two coefficients do not cancel.
Missing: the value of that coefficient. -/
theorem C152_append_partial {i j : Nat} {σ σ' : PStore} (hσ : σ.Good) {n n' : Nat} {e : Err}
    (h : (PStmt.appendTerm i j).execT L (σ, n) = (.error e, (σ', n'))) :
    σ'.poly i = σ.poly i ∨
    ∃ a u b c, (σ.poly i).terms = a ++ u :: b ∧ u.monomial = (σ.term j).monomial ∧ (σ'.poly i).terms = a ++ { u with coeff := c } :: b ∧
      (L.Sane → u.coeff.value + (σ.term j).coeff.value ≠ 0 → c.tt.WF ∧ c.bb.WF) := by
  have key : Leaves (PStore.onP i (Poly.appendTermT L.toILuck (σ.term j))) σ (fun σ' => σ'.poly i = σ.poly i ∨
      ∃ a u b c, (σ.poly i).terms = a ++ u :: b ∧ u.monomial = (σ.term j).monomial ∧ (σ'.poly i).terms = a ++ { u with coeff := c } :: b ∧
        (L.Sane → u.coeff.value + (σ.term j).coeff.value ≠ 0 → c.tt.WF ∧ c.bb.WF)) := by
    refine Leaves.on (g := fun σ : PStore => σ.poly i) ((left_term _ (hσ.poly i) _ (hσ.term j)).mono fun p hp => ?_)
    rw [show (σ.setP i p).poly i = p by simp [PStore.setP]]
    exact hp
  exact key n e σ' n' h

example : exStore.Good ∧ ((PStmt.appendTerm 0 1).execT (.only 20) (exStore, 0)).1 = .error .badAlloc ∧
    ((PStmt.appendTerm 0 1).execT (.only 20) (exStore, 0)).2.1.poly 0 ≠ exStore.poly 0 := ⟨exStore_good, by decide +kernel, by decide +kernel⟩

/-- C152, what holds for `p.appendTerms(...)`: a failure leaves the polynomial, and every other variable, as it was. -/
theorem C152_append_terms_partial {i : Nat} {js : List Nat} {σ σ' : PStore} {n n' : Nat} {e : Err}
    (h : (PStmt.appendTerms i js).execT L (σ, n) = (.error e, (σ', n'))) : σ' = σ := by
  have key : Leaves ((PStmt.appendTerms i js).execT L) σ (fun σ' => σ' = σ) := by
    unfold PStmt.execT
    refine Leaves.this (Leaves.other (sim_copyA _) rfl fun a ha => ?_)
    refine Leaves.on (g := fun σ : PStore => σ.poly i) ((appendTerms_left _ _).mono fun p hp => ?_)
    rw [hp, setP_same]
  exact key n e σ' n' h

example := C152_append_terms_partial (L := .only 1) (i := 0) (js := [0, 1]) (σ := exStore) (n := 0) rfl

/-! ### C153: trying again -/

/-- C153 as stated is false: with `t` and `f` being x^-5 and x^7, if `t *= f` runs out of memory once and is tried again, `t` is x^12 afterwards, not x^2. -/
theorem C153_refuted : ∃ k, (PStmt.retryAll (.only k) 1 [.mulAssignFactor 0 1] (exStore, 0)).1 = .ok () ∧
    ((PStmt.retryAll (.only k) 1 [.mulAssignFactor 0 1] (exStore, 0)).2.1.term 0).factors = [("x".toList, ⟨"x".toList, ⟨[12], false⟩⟩)] :=
  ⟨0, by decide +kernel⟩

/-- C153, what holds: in programs whose statements compute new values from other variables than the one they assign, or are `p.appendTerms(...)`, statements that throw
`bad_alloc` can be tried again, whatever failed assignments leave. If the program ends normally, all variables hold valid objects that stand for what the program computes with Laurent polynomials.
It gives up with `bad_alloc` only after as many of its own requests have been refused as it makes attempts. Other failures are those of C148.
Missing: statements that change a variable in place, other than `appendTerms` (see the refutation). -/
theorem C153_trying_again_partial (t : Nat) {ss : List PStmt} (hs : ∀ s ∈ ss, s.Fresh) (hl : ∀ s ∈ ss, s.Legal) {σ : PStore} (h : σ.Good) (n : Nat) :
    match PStmt.retryAll L t ss (σ, n) with
    | (.ok _, (σ', _)) => σ'.Good ∧ σ'.den = PStmt.meaning ss σ.den
    | (.error e, (_, n')) => (e = .badAlloc ∧ ∃ S : Finset Nat, S.card = t + 1 ∧ ∀ k ∈ S, n ≤ k ∧ k < n' ∧ L.refuse k = true) ∨
        e = .assertion ∨ (∃ s ∈ ss, s.Inserts) ∧ e = .ub := by
  have h1 := retryAll_sim (L := L) t hs σ n
  have h2 := C148_history_partial hl h
  rcases hx : PStmt.retryAll L t ss (σ, n) with ⟨o, ⟨σ1, n1⟩⟩
  rw [hx] at h1
  cases o with
  | ok u =>
    dsimp only at h1 ⊢
    rw [h1.2] at h2
    rcases h2 with ⟨a, ha, h2⟩ | ⟨e, he, _⟩
    · cases ha; exact h2
    · cases he
  | error e =>
    rcases h1.2 with h1 | h1
    · exact .inl h1
    · rw [h1] at h2
      rcases h2 with ⟨a, ha, _⟩ | ⟨e', he, h2⟩
      · cases ha
      · cases he; exact .inr h2

/-- If at most `t` requests are refused, then `t + 1` attempts at each statement are enough: the program ends as with unlimited memory, and all variables hold what they hold then. -/
theorem C153_enough_attempts_partial (t : Nat) (hL : ∀ S : Finset Nat, (∀ k ∈ S, L.refuse k = true) → S.card ≤ t)
    {ss : List PStmt} (hs : ∀ s ∈ ss, s.Fresh) (σ : PStore) (n : Nat) :
    match PStmt.run ss σ with
    | .ok σ' => ∃ n', PStmt.retryAll L t ss (σ, n) = (.ok (), (σ', n'))
    | .error e => (PStmt.retryAll L t ss (σ, n)).1 = .error e := by
  have h1 := retryAll_sim (L := L) t hs σ n
  rcases hx : PStmt.retryAll L t ss (σ, n) with ⟨o, ⟨σ1, n1⟩⟩
  rw [hx] at h1
  cases o with
  | ok u =>
    dsimp only at h1
    rw [h1.2]
    exact ⟨n1, rfl⟩
  | error e =>
    rcases h1.2 with ⟨_, S, h1, h2⟩ | h1
    · have := hL S fun k hk => (h2 k hk).2.2
      omega
    · rw [h1]

-- `t = f * g; u = t * h; p = u + t; p.appendTerms({t, u})`
private def freshSample : List PStmt := [.mulFactors 3 0 2, .mulFactor 4 3 2, .addTerms 0 4 3, .appendTerms 0 [3, 4]]

example : (∀ s ∈ freshSample, s.Fresh) ∧ (∀ s ∈ freshSample, s.Legal) ∧ exStore.Good ∧
    (PStmt.retryAll (.only 7) 0 freshSample (exStore, 0)).1 = .error .badAlloc ∧
    (PStmt.retryAll (.only 7) 1 freshSample (exStore, 0)).1 = .ok () ∧
    ((PStmt.retryAll (.only 7) 1 freshSample (exStore, 0)).2.1.poly 0).numTerms = 4 := by
  refine ⟨?_, ?_, exStore_good, by decide +kernel, by decide +kernel, by decide +kernel⟩
  · simp [freshSample, PStmt.Fresh]
  · simp [freshSample, PStmt.Legal]

example := C153_enough_attempts_partial (L := .only 7) 1 (by
    intro S h
    refine Finset.card_le_one.mpr fun a ha b hb => ?_
    have h1 : a = 7 := by simpa [PLuck.only, ILuck.only] using h a ha
    have h2 : b = 7 := by simpa [PLuck.only, ILuck.only] using h b hb
    rw [h1, h2]) (ss := freshSample) (by simp [freshSample, PStmt.Fresh]) exStore 0

end CppMaths
