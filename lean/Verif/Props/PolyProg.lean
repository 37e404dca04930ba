import Verif.Proofs.PolyProg
/-!
# Programs with factors, terms and polynomials (C148)
-/

namespace CppMaths
open BigInt Term

/-- Variables to begin with: every factor is `a`, every term is 1, every polynomial is empty. -/
def startStore : PStore :=
  ⟨fun _ => ⟨"a".toList, ⟨[1], false⟩⟩, fun _ => ⟨⟨⟨[1], false⟩, ⟨[1], false⟩⟩, []⟩, fun _ => ⟨[]⟩⟩

theorem startStore_good : startStore.Good :=
  ⟨fun _ => by change Canon (⟨[1], false⟩ : BigInt); decide,
   fun _ => ⟨by change (⟨⟨[1], false⟩, ⟨[1], false⟩⟩ : Frac).Valid; decide, List.Pairwise.nil, fun _ h => by simp [startStore] at h⟩,
   fun _ t h => by simp [startStore] at h⟩

/-- C148 fails: `f = x; g = x^2; p = f + g` has undefined behaviour, and so has `p = Poly({f})`, though both are polynomials;
the program that adds the same two factors the other way round, `p = g + f`, gives x + x^2. -/
theorem C148_refuted :
    PStmt.run [.factor 0 "x".toList ⟨[1], false⟩, .factor 1 "x".toList ⟨[2], false⟩, .addFactors 0 0 1] startStore = .error .ub ∧
    PStmt.run [.factor 0 "x".toList ⟨[1], false⟩, .polyFactors 0 [0]] startStore = .error .ub ∧
    ∃ σ, PStmt.run [.factor 0 "x".toList ⟨[1], false⟩, .factor 1 "x".toList ⟨[2], false⟩, .addFactors 0 1 0] startStore = .ok σ ∧
      (σ.poly 0).numTerms = 2 :=
  ⟨rfl, rfl, _, rfl, rfl⟩

/-- C148, the part that holds: whatever the history of calls, if it ends without a failure then every variable holds a valid
object and stands for what the same history computes with Laurent polynomials; this includes every variable that no
statement assigns. A history that fails has stopped at the assertion of the fractions; undefined behaviour is possible only
if it puts a term into a polynomial or builds one from several.
Missing: histories with undefined behaviour, which the code has for polynomials that exist (`C148_refuted`). -/
theorem C148_history_partial {ss : List PStmt} (hss : ∀ s ∈ ss, s.Legal) {σ : PStore} (h : σ.Good) :
    Out (fun e => e = .assertion ∨ (∃ s ∈ ss, s.Inserts) ∧ e = .ub) (PStmt.run ss σ)
      (fun σ' => σ'.Good ∧ σ'.den = PStmt.meaning ss σ.den) := by
  induction ss generalizing σ with
  | nil => exact Out.ok ⟨h, rfl⟩
  | cons s ss ih =>
    refine Out.bind ((exec_ok h (hss s (by simp))).weakenErr ?_) fun σ' h' => ?_
    · exact fun e he => he.imp id fun ⟨h1, h2⟩ => ⟨⟨s, by simp, h1⟩, h2⟩
    · refine ((ih (fun t ht => hss t (by simp [ht])) h'.1).weakenErr ?_).mono fun σ'' h'' => ⟨h''.1, ?_⟩
      · exact fun e he => he.imp id fun ⟨⟨t, h1, h2⟩, h3⟩ => ⟨⟨t, by simp [h1], h2⟩, h3⟩
      · rw [h''.2, h'.2]; rfl

/-- A program that uses most of the interface: `f = x^2; g = y; t = (2/3) * f * g; t *= t; u = t * g; t.negate(); p = u - t;
g.getId() = "a"; g.getPower() = -5; p -= g; p += g; q = p; q.appendTerms({t})`. -/
def sampleHistory : List PStmt :=
  [.factor 0 "x".toList ⟨[2], false⟩, .factor 1 "y".toList ⟨[1], false⟩, .termFactors 0 ⟨⟨[2], false⟩, ⟨[3], false⟩⟩ [0, 1],
   .mulAssign 0 0, .mulFactor 1 0 1, .negate 0, .subTerms 0 1 0, .setId 1 "a".toList, .setPower 1 ⟨[5], true⟩, .subAssign 0 1, .addAssign 0 1,
   .copyPoly 1 0, .appendTerms 1 [0]]

theorem sampleHistory_legal : ∀ s ∈ sampleHistory, s.Legal := by
  intro s hs
  simp only [sampleHistory, List.mem_cons, List.not_mem_nil, or_false] at hs
  rcases hs with rfl | rfl | rfl | rfl | rfl | rfl | rfl | rfl | rfl | rfl | rfl | rfl | rfl <;> first | trivial | (unfold PStmt.Legal; decide)

example := C148_history_partial sampleHistory_legal startStore_good

example : ∃ σ, PStmt.run sampleHistory startStore = .ok σ ∧
    (σ.poly 1).print = .ok "0 + (4/9) * x^4 * y^2 + (-4/9) * x^4 * y^2 + (4/9) * x^4 * y^3".toList :=
  ⟨_, rfl, by decide +kernel⟩

/-- C148. A history without insertions into polynomials never has undefined behaviour, and the only failure is the assertion
of the fractions. -/
theorem C148_no_insertions {ss : List PStmt} (hss : ∀ s ∈ ss, s.Legal) (hi : ∀ s ∈ ss, ¬s.Inserts) {σ : PStore} (h : σ.Good) :
    Out Aborts (PStmt.run ss σ) (fun σ' => σ'.Good ∧ σ'.den = PStmt.meaning ss σ.den) :=
  (C148_history_partial hss h).weakenErr fun _ he => he.elim id fun ⟨⟨s, h1, h2⟩, _⟩ => absurd h2 (hi s h1)

example := C148_no_insertions (ss := sampleHistory.take 6) (fun s hs => sampleHistory_legal s (List.take_subset _ _ hs))
  (by intro s hs; simp only [sampleHistory, List.take, List.mem_cons, List.not_mem_nil, or_false] at hs
      rcases hs with rfl | rfl | rfl | rfl | rfl | rfl <;> exact id) startStore_good

/-- A term for an example. -/
def tm' (n : Nat) : Term := ⟨⟨⟨[n], false⟩, ⟨[1], false⟩⟩, [("x".toList, ⟨"x".toList, ⟨[n], false⟩⟩)]⟩

/-- C148. What a polynomial variable stands for determines its value at every point without a zero: two histories that mean the
same Laurent polynomial leave polynomials with equal values, however their terms are arranged. -/
theorem C148_values {p q : Poly} (h : p.laurent = q.laurent) {ρ : List Char → ℚ} (hρ : ∀ v, ρ v ≠ 0) : p.value ρ = q.value ρ := by
  have hm : ∀ t : Term, t.mono ρ = t.monomial.prod fun v e => ρ v ^ e := by
    intro t
    have : ∀ m : FactorMap, (m.map fun p => ρ p.1 ^ p.2.power.val).prod =
        (m.map fun p => vpow p.1 p.2.power.val).sum.prod fun v e => ρ v ^ e := by
      intro m
      induction m with
      | nil => simp
      | cons a m ih =>
        rw [List.map_cons, List.prod_cons, ih, List.map_cons, List.sum_cons,
          Finsupp.prod_add_index' (fun v => zpow_zero _) (fun v a b => zpow_add₀ (hρ v) a b)]
        congr 1
        exact (Finsupp.prod_single_index (h := fun v e => ρ v ^ e) (zpow_zero _)).symm
    exact this t.factors
  have hv : ∀ p : Poly, p.value ρ = AddMonoidAlgebra.liftNC (AddMonoidHom.id ℚ)
      (fun m : Multiplicative Mono => m.toAdd.prod fun v e => ρ v ^ e) p.laurent := by
    intro p
    unfold Poly.value Poly.laurent
    rw [map_list_sum, List.map_map]
    congr 1
    refine List.map_congr_left fun t _ => ?_
    rw [Function.comp, AddMonoidAlgebra.liftNC_single]
    unfold Term.value
    rw [hm]
    rfl
  rw [hv, hv, h]

example : (⟨[tm' 1, tm' 2]⟩ : Poly).value (fun _ => 2) = (⟨[tm' 2, tm' 1]⟩ : Poly).value fun _ => 2 :=
  C148_values (by simp [Poly.laurent, add_comm]) (by simp)

end CppMaths
