import Verif.Proofs.PolyRelease
import Verif.Props.PolyProg
/-!
# C156, C157: polynomials in a build without assertions
-/

namespace CppMaths
open BigInt Frac Term

/-! For the examples: x, y, the terms x / 10^18 and 10^18 y, and the polynomial x / 10^18. -/
private def exX : Factor := ⟨"x".toList, ⟨[1], false⟩⟩
private def exY : Factor := ⟨"y".toList, ⟨[1], false⟩⟩
private def exStore : PStore where
  factor i := if i = 1 then exY else exX
  term i := if i = 1 then ⟨⟨⟨[0, 0, 1], false⟩, ⟨[1], false⟩⟩, [(exY.id, exY)]⟩ else ⟨⟨⟨[1], false⟩, ⟨[0, 0, 1], false⟩⟩, [(exX.id, exX)]⟩
  poly _ := ⟨[⟨⟨⟨[1], false⟩, ⟨[0, 0, 1], false⟩⟩, [(exX.id, exX)]⟩]⟩

private theorem ex_good : exStore.Good := by
  have hx : Canon exX.power := by decide
  have hy : Canon exY.power := by decide
  have hs : Frac.Valid ⟨⟨[1], false⟩, ⟨[0, 0, 1], false⟩⟩ := by decide
  have hb : Frac.Valid ⟨⟨[0, 0, 1], false⟩, ⟨[1], false⟩⟩ := by decide
  refine ⟨fun i => ?_, fun i => ?_, fun i t ht => ?_⟩
  · unfold exStore
    dsimp only
    split
    · exact hy
    · exact hx
  · unfold exStore
    dsimp only
    split
    · exact single_wf' hb hy
    · exact single_wf' hs hx
  · have : t = ⟨⟨⟨[1], false⟩, ⟨[0, 0, 1], false⟩⟩, [(exX.id, exX)]⟩ := by simpa [exStore] using ht
    rw [this]
    exact single_wf' hs hx

/-! ### C156: the same history, with exceptions for assertions -/

/-- C156. Any history of calls on valid objects, compiled without assertions, ends as the same history does with assertions, with the same objects or the same failure, but
for one thing: where an assertion fails in the other build, this one throws `out_of_range`. -/
theorem C156_same {ss : List PStmt} (hss : ∀ s ∈ ss, s.Legal) {σ : PStore} (h : σ.Good) : drop (PStmt.runU ss σ) = throwing (PStmt.run ss σ) :=
  run_rel hss h

/-- C156 in terms of Laurent polynomials: a history that ends normally leaves valid objects that stand for what it computes with Laurent polynomials. The only failures are
`out_of_range` and, for histories that put a term into a polynomial or build one from several, the undefined behaviour of C148. -/
theorem C156_history {ss : List PStmt} (hss : ∀ s ∈ ss, s.Legal) {σ : PStore} (h : σ.Good) :
    Out (fun e => e = .outOfRange ∨ (∃ s ∈ ss, s.Inserts) ∧ e = .ub) (drop (PStmt.runU ss σ))
      (fun σ' => σ'.Good ∧ σ'.den = PStmt.meaning ss σ.den) := by
  rw [C156_same hss h]
  rcases C148_history_partial hss h with ⟨a, h1, h2⟩ | ⟨e, h1, h2⟩
  · rw [h1]; exact Out.ok h2
  · rw [h1]
    rcases h2 with rfl | ⟨h2, rfl⟩
    · exact Out.err (.inl rfl)
    · exact Out.err (.inr ⟨h2, rfl⟩)

/-- C156: `out_of_range` takes the place of the failed assertions, one for one. -/
theorem C156_throws_iff {ss : List PStmt} (hss : ∀ s ∈ ss, s.Legal) {σ : PStore} (h : σ.Good) :
    drop (PStmt.runU ss σ) = .error .outOfRange ↔ PStmt.run ss σ = .error .assertion := by
  rw [C156_same hss h]
  rcases C148_history_partial hss h with ⟨a, h1, h2⟩ | ⟨e, h1, h2⟩
  · rw [h1]; simp [throwing]
  · rw [h1]
    rcases h2 with rfl | ⟨h2, rfl⟩ <;> simp [throwing]

example := C156_same sampleHistory_legal startStore_good
example := C156_history sampleHistory_legal startStore_good
example := C156_throws_iff sampleHistory_legal startStore_good

-- the history of C148 ends normally in this build, too
example : ∃ σ, PStmt.runU sampleHistory startStore = .ok σ ∧
    (σ.poly 1).print = .ok "0 + (4/9) * x^4 * y^2 + (-4/9) * x^4 * y^2 + (4/9) * x^4 * y^3".toList :=
  ⟨_, rfl, by decide +kernel⟩

-- adding x / 10^18 to itself
example : exStore.Good ∧ drop (PStmt.runU [.appendTerm 0 0] exStore) = .error .outOfRange ∧ PStmt.run [.appendTerm 0 0] exStore = .error .assertion :=
  ⟨ex_good, rfl, rfl⟩

/-! ### C157: what an exception leaves -/

/-- C157 as stated is false: `t *= u` for x / 10^18 and 10^18 y throws `out_of_range` and leaves a `t` with the variables x and y and the coefficient 10^18/10^18, not in lowest
terms; and `p.appendTerm(t)` for a polynomial x / 10^18 leaves a polynomial whose coefficient is 2 10^18 / 10^36. -/
theorem C157_refuted : (∃ σ, PStmt.execU exStore (.mulAssign 0 1) = .error (.outOfRange, σ) ∧
      (σ.term 0).factors.map (·.1) = ["x".toList, "y".toList] ∧ (σ.term 0).coeff = ⟨⟨[0, 0, 1], false⟩, ⟨[0, 0, 1], false⟩⟩) ∧
    ∃ σ, PStmt.execU exStore (.appendTerm 0 0) = .error (.outOfRange, σ) ∧
      (σ.poly 0).terms.map (·.coeff) = [⟨⟨[0, 0, 2], false⟩, ⟨[0, 0, 0, 0, 1], false⟩⟩] :=
  ⟨⟨_, rfl, rfl, rfl⟩, _, rfl, rfl⟩

/-- C157, what holds: if a statement on valid objects throws `out_of_range`, then nothing but the object it changes in place is different, and nothing at all if it assigns a new
value, or multiplies a term by a factor. `t.negate()` leaves all variables and powers of `t`; `t *= u` leaves the variables and powers of the product; inserting into a polynomial
leaves all of its terms but the one with the same variables and powers, of which only the coefficient may have changed. The coefficient that is left has well-formed parts and a
denominator that is not negative.
Missing: the object itself being unchanged (see the refutation). -/
theorem C157_left_partial {s : PStmt} {σ σ' : PStore} (h : σ.Good) (hx : s.execU σ = .error (.outOfRange, σ')) :
    match s with
    | .negate i => PStore.SameButTerm i σ σ' ∧ (σ'.term i).factors = (σ.term i).factors ∧ (σ'.term i).coeff.PartsOK
    | .mulAssign i j => PStore.SameButTerm i σ σ' ∧ (∀ v, (σ'.term i).expo v = (σ.term i).expo v + (σ.term j).expo v) ∧ (σ'.term i).coeff.PartsOK
    | .appendTerm i j => PStore.SameButPoly i σ σ' ∧ Poly.SameButCoeff (σ.term j) (σ.poly i) (σ'.poly i)
    | .addAssign i j | .subAssign i j => PStore.SameButPoly i σ σ' ∧
        ∃ c, Poly.SameButCoeff ⟨c, [((σ.factor j).id, σ.factor j)]⟩ (σ.poly i) (σ'.poly i)
    | _ => σ' = σ := by
  cases s
  case negate i =>
    obtain ⟨h1, h2⟩ := onT_left hx
    exact ⟨h2, Term.negateU_left (h.term i) h1⟩
  case mulAssign i j =>
    obtain ⟨h1, h2⟩ := onT_left hx
    refine ⟨h2, ?_⟩
    by_cases hij : i = j
    · subst hij
      rw [if_pos rfl, mulAssignSelfU_eq (h.term i)] at h1
      exact Term.mulAssignU_left (h.term i) (h.term i) h1
    · rw [if_neg hij] at h1
      exact Term.mulAssignU_left (h.term i) (h.term j) h1
  case appendTerm i j =>
    obtain ⟨h1, h2⟩ := onP_left hx
    exact ⟨h2, Poly.appendTermU_left (h.poly i) (h.term j) h1⟩
  case addAssign i j =>
    obtain ⟨h1, h2⟩ := onP_left hx
    exact ⟨h2, _, Poly.addAssignU_left (h.poly i) (h.factor j) h1⟩
  case subAssign i j =>
    obtain ⟨h1, h2⟩ := onP_left hx
    exact ⟨h2, _, Poly.subAssignU_left (h.poly i) (h.factor j) h1⟩
  all_goals
    refine not_inPlace_left ?_ h hx
    exact id

example : ∃ σ, PStmt.execU exStore (.addAssign 0 0) = .error (.outOfRange, σ) ∧ (σ.poly 0).numTerms = 1 := ⟨_, rfl, rfl⟩
example : ∃ σ, PStmt.execU exStore (.mul 3 0 1) = .error (.outOfRange, σ) := ⟨_, rfl⟩
example := C157_left_partial (s := .mulAssign 0 1) ex_good rfl

/-- C157. Programs may catch `out_of_range` and go on, if they do not compute with coefficients in place: all objects stay valid, exactly the statements are passed over that fail an
assertion in the other build, and the objects stand for what the other statements compute with Laurent polynomials. Missing: in-place statements, which may leave invalid objects. -/
theorem C157_going_on_partial {ss : List PStmt} (hss : ∀ s ∈ ss, s.Legal) (hi : ∀ s ∈ ss, ¬s.InPlace) {σ : PStore} (h : σ.Good) :
    Out (fun e => (∃ s ∈ ss, s.Inserts) ∧ e = .ub) (PStmt.tryAllR ss σ)
      (fun σ' => σ'.Good ∧ ∃ ss', PStmt.Passes ss ss' σ σ' ∧ σ'.den = PStmt.meaning ss' σ.den) := by
  induction ss generalizing σ with
  | nil => exact Out.ok ⟨h, [], .nil _, rfl⟩
  | cons s ss ih =>
    have hs := hss s (by simp)
    have ih : ∀ {σ : PStore}, σ.Good → Out (fun e => (∃ s ∈ ss, s.Inserts) ∧ e = .ub) (PStmt.tryAllR ss σ)
        (fun σ' => σ'.Good ∧ ∃ ss', PStmt.Passes ss ss' σ σ' ∧ σ'.den = PStmt.meaning ss' σ.den) := fun h =>
      ih (fun t ht => hss t (by simp [ht])) (fun t ht => hi t (by simp [ht])) h
    have hw : ∀ e : Err, (∃ t ∈ ss, t.Inserts) ∧ e = .ub → (∃ t ∈ s :: ss, t.Inserts) ∧ e = .ub :=
      fun e ⟨⟨t, h1, h2⟩, h3⟩ => ⟨⟨t, by simp [h1], h2⟩, h3⟩
    have h1 := exec_rel hs h
    have h2 := exec_ok h hs
    unfold PStmt.tryAllR
    rcases hx : s.execU σ with ⟨e, σ1⟩ | σ1
    · rw [hx] at h1
      have h0 := not_inPlace_left (hi s (by simp)) h hx
      subst h0
      rcases h2 with ⟨a, h2, _⟩ | ⟨e', h2, h3⟩
      · rw [h2] at h1; cases h1
      · rw [h2] at h1
        rcases h3 with rfl | ⟨h3, rfl⟩
        · cases h1
          refine ((ih h).weakenErr hw).mono fun σ2 h4 => ⟨h4.1, ?_⟩
          obtain ⟨ss', h5, h6⟩ := h4.2
          exact ⟨ss', .passed h2 h5, h6⟩
        · cases h1
          exact Out.err ⟨⟨s, by simp, h3⟩, rfl⟩
    · rw [hx] at h1
      rcases h2 with ⟨a, h2, h3⟩ | ⟨e', h2, h3⟩
      · rw [h2] at h1
        cases h1
        refine ((ih h3.1).weakenErr hw).mono fun σ2 h4 => ⟨h4.1, ?_⟩
        obtain ⟨ss', h5, h6⟩ := h4.2
        exact ⟨s :: ss', .done h2 h5, by rw [h6, h3.2]; rfl⟩
      · rw [h2] at h1
        rcases h3 with rfl | ⟨_, rfl⟩ <;> cases h1

-- `v = t * u` throws; `v = t * f` does not; `p = t + t` throws
private def goOn : List PStmt := [.mul 3 0 1, .mulFactor 4 0 1, .addTerms 2 0 0]

example := C157_going_on_partial (ss := goOn) (by simp [goOn, PStmt.Legal]) (by simp [goOn, PStmt.InPlace]) ex_good
example : ∃ σ, PStmt.tryAllR goOn exStore = .ok σ ∧ (σ.term 4).print = .ok "(1/1000000000000000000) * x * y".toList ∧ (σ.poly 2).numTerms = 1 :=
  ⟨_, rfl, by decide +kernel, rfl⟩

end CppMaths
