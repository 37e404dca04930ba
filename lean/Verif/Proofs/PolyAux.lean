import Verif.Proofs.PolyText
/-!
# Auxiliary facts for `Verif/Props/Poly.lean`
-/

namespace CppMaths
open BigInt Term

/-- The term of a factor. -/
theorem ofFactor_ok {c : Frac} (hc : c.Valid) {x : Factor} (hx : Canon x.power) :
    Term.ofCoeff c x = .ok ⟨c, [(x.id, x)]⟩ ∧ (⟨c, [(x.id, x)]⟩ : Term).WF ∧
    ∀ ρ, (⟨c, [(x.id, x)]⟩ : Term).value ρ = c.value * x.value ρ :=
  ⟨rfl, ⟨hc, List.pairwise_singleton .., by simpa using hx⟩, fun ρ => by simp [Term.value, Term.mono, Factor.value]⟩

theorem single_less {c d : Frac} (hc : c.Valid) (hd : d.Valid) {x y : Factor} (hx : Canon x.power) (hy : Canon y.power) :
    Less ⟨c, [(x.id, x)]⟩ ⟨d, [(y.id, y)]⟩ ↔ x.id < y.id ∨ x.id = y.id ∧ x.power.val < y.power.val := by
  rw [less_iff (ofFactor_ok hc hx).2.1 (ofFactor_ok hd hy).2.1]
  simp [keyList, Covers, Factor.key, Prod.Lex.toLex_lt_toLex]

/-- C78. Negating a term. -/
theorem negate_ok {y : Term} (hy : y.WF) : Out Aborts y.negate (fun t => t.WF ∧ t.factors = y.factors ∧ ∀ ρ, t.value ρ = -y.value ρ) := by
  have hm : BigInt.ofInt64 (-1) = .ok ⟨[1], true⟩ := by decide +kernel
  have hyb : (y.coeff.bb.val : ℚ) ≠ 0 := by exact_mod_cast hy.coeff.bb_ne
  have hv : (⟨[1], true⟩ : BigInt).val = -1 := by decide
  unfold Term.negate
  rw [hm, bind_ok]
  refine Out.bind ((Frac.mulAssignInt_red hy.coeff (a := ⟨[1], true⟩) (by decide)).yields (q := -y.coeff.value) (by
    unfold Frac.value; rw [hv]; push_cast; field_simp)).out fun c hc => Out.ok ⟨⟨hc.1, hy.sorted, hy.keys⟩, rfl, fun ρ => ?_⟩
  unfold Term.value
  rw [hc.2]
  change -y.coeff.value * y.mono ρ = _
  ring

end CppMaths
