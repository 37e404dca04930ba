import Verif.Proofs.PolyAux
import Verif.Proofs.PolyText
/-!
# Properties of `Factor`, `Term` and `Poly` (C73-C79, C85, C86)
-/

namespace CppMaths
open BigInt Term

/-- Small objects for the examples. -/
abbrev fx (v : String) (n : Nat) : Factor := ⟨v.toList, ⟨[n], false⟩⟩
abbrev tm (n : Nat) (fs : List (String × Nat)) : Term := ⟨⟨⟨[n], false⟩, ⟨[1], false⟩⟩, fs.map fun p => (p.1.toList, fx p.1 p.2)⟩

instance (t : Term) : Decidable t.WF :=
  decidable_of_iff (t.coeff.Valid ∧ t.factors.Pairwise (fun p q => p.1 < q.1) ∧ ∀ p ∈ t.factors, p.1 = p.2.id ∧ Canon p.2.power)
    ⟨fun h => ⟨h.1, h.2.1, h.2.2⟩, fun h => ⟨h.coeff, h.sorted, h.keys⟩⟩

/-! ### C73: products -/

theorem one_valid : (⟨⟨[1], false⟩, ⟨[1], false⟩⟩ : Frac).Valid := by decide
theorem one_value : (⟨⟨[1], false⟩, ⟨[1], false⟩⟩ : Frac).value = 1 := by simp [Frac.value, BigInt.val, mag]
theorem ofI32_one : Frac.ofI32 1 = .ok ⟨⟨[1], false⟩, ⟨[1], false⟩⟩ := by decide +kernel

instance (p : Poly) : Decidable p.WF := inferInstanceAs (Decidable (∀ t ∈ p.terms, t.WF))

/-- A polynomial in order, for the examples: 3 x + x^2 y. -/
private abbrev pxy : Poly := ⟨[tm 3 [("x", 1)], tm 1 [("x", 2), ("y", 1)]]⟩

/-- C73. The constructors from a coefficient and factors: whatever the order and repetitions of the factors, the term has their
variables with the exponents added up, in ascending order, one entry each, and the value is the product. They never fail. -/
theorem C73_constructors {c : Frac} (hc : c.Valid) {xs : List Factor} (hxs : ∀ x ∈ xs, Canon x.power) :
    ∃ t, Term.ofFactors c xs = .ok t ∧ t.WF ∧ t.coeff = c ∧
      (∀ v, (∃ e, t.Has v e) ↔ ∃ x ∈ xs, x.id = v) ∧
      (∀ v, t.expo v = ((xs.filter (·.id = v)).map (·.power.val)).sum) ∧
      (∀ ρ, (∀ x ∈ xs, ρ x.id ≠ 0) → t.value ρ = c.value * (xs.map (Factor.value ρ)).prod) := by
  obtain ⟨t, t1, t2⟩ := appendFactors_ok hxs (t := ⟨c, []⟩) FactorMap.OK.nil
  refine ⟨t, t1, wf_of (t2.coeff ▸ hc) t2.map, t2.coeff, fun v => ?_, fun v => ?_, fun ρ hρ => ?_⟩
  · rw [← var_iff, t2.var]
    simp [Var, FactorMap.Var]
  · rw [t2.expo]
    have : ∀ l : List Factor, (l.map fun x => if x.id = v then x.power.val else 0).sum = ((l.filter (·.id = v)).map (·.power.val)).sum := by
      intro l
      induction l with
      | nil => rfl
      | cons x l ih => by_cases h : x.id = v <;> simp [h, ih]
    rw [this]
    simp [Term.expo]
  · unfold Term.value
    rw [t2.coeff, t2.mono ρ hρ]
    simp [Term.mono]

example := C73_constructors one_valid (xs := [fx "y" 1, ⟨"x".toList, ⟨[2], true⟩⟩, fx "y" 3]) (by decide)

/-- C73. The order in which the factors are given does not matter: the objects are identical. -/
theorem C73_order_irrelevant {c : Frac} (hc : c.Valid) {xs ys : List Factor} (hxs : ∀ x ∈ xs, Canon x.power) (h : xs.Perm ys) :
    Term.ofFactors c xs = Term.ofFactors c ys := by
  obtain ⟨t, t1, t2, t3, t4, t5, _⟩ := C73_constructors hc hxs
  obtain ⟨u, u1, u2, u3, u4, u5, _⟩ := C73_constructors hc (xs := ys) (fun y hy => hxs y (h.symm.subset hy))
  rw [t1, u1]
  congr 1
  refine t2.ext u2 (by rw [t3, u3]) (fun v => ?_) (fun v => ?_)
  · rw [var_iff, var_iff, t4, u4]
    exact exists_congr fun x => and_congr_left fun _ => h.mem_iff
  · rw [t5, u5]
    exact ((h.filter _).map _).sum_eq

example : Term.ofFactors ⟨⟨[1], false⟩, ⟨[1], false⟩⟩ [fx "y" 1, fx "x" 2] = Term.ofFactors ⟨⟨[1], false⟩, ⟨[1], false⟩⟩ [fx "x" 2, fx "y" 1] :=
  C73_order_irrelevant one_valid (by decide) (.swap _ _ _)

/-- C73. The product of two factors. -/
theorem C73_factor_times_factor {x y : Factor} (hx : Canon x.power) (hy : Canon y.power) :
    ∃ t, Term.mulFactors x y = .ok t ∧ t.WF ∧ t.coeff.value = 1 ∧
      (∀ v, t.expo v = (if x.id = v then x.power.val else 0) + (if y.id = v then y.power.val else 0)) ∧
      (∀ ρ, (∀ v, ρ v ≠ 0) → t.value ρ = x.value ρ * y.value ρ) := by
  obtain ⟨t, t1, t2⟩ := appendFactor_ok (t := ⟨⟨⟨[1], false⟩, ⟨[1], false⟩⟩, []⟩) FactorMap.OK.nil hx
  obtain ⟨u, u1, u2⟩ := appendFactor_ok t2.map hy
  have h := t2.trans u2
  refine ⟨u, ?_, wf_of (h.coeff ▸ one_valid) h.map, by rw [h.coeff, one_value], fun v => ?_, fun ρ hρ => ?_⟩
  · unfold mulFactors Term.ofFactor
    rw [ofI32_one, bind_ok, t1, bind_ok, u1]
  · rw [h.expo]; simp [Term.expo]
  · unfold Term.value
    rw [h.coeff, h.mono ρ (fun _ _ => hρ _), one_value]
    simp [Term.mono]

example := C73_factor_times_factor (x := fx "x" 2) (y := ⟨"x".toList, ⟨[5], true⟩⟩) (by decide) (by decide)

/-- C73. Multiplying a term by a factor (all three ways of writing it) adds the exponent and leaves the coefficient alone. -/
theorem C73_term_times_factor {x : Term} {y : Factor} (hx : x.WF) (hy : Canon y.power) :
    ∃ t, x.mulFactor y = .ok t ∧ Term.factorMul y x = .ok t ∧ x.mulAssignFactor y = .ok t ∧ t.WF ∧ t.coeff = x.coeff ∧
      (∀ v, (∃ e, t.Has v e) ↔ (∃ e, x.Has v e) ∨ y.id = v) ∧
      (∀ v, t.expo v = x.expo v + if y.id = v then y.power.val else 0) ∧
      (∀ ρ, ρ y.id ≠ 0 → t.value ρ = x.value ρ * y.value ρ) := by
  obtain ⟨t, t1, t2⟩ := appendFactor_ok hx.map hy
  refine ⟨t, t1, t1, t1, wf_of (t2.coeff ▸ hx.coeff) t2.map, t2.coeff, fun v => ?_, fun v => ?_, fun ρ hρ => ?_⟩
  · rw [← var_iff, ← var_iff, t2.var]; simp
  · rw [t2.expo]; simp
  · unfold Term.value
    rw [t2.coeff, t2.mono ρ (by simpa using hρ)]
    simp [mul_assoc]

example := C73_term_times_factor (x := tm 2 [("x", 2), ("z", 1)]) (y := fx "y" 7) (by decide) (by decide)

/-- C73. Multiplying terms, `x * y` and `x *= y`: the coefficients are multiplied and the exponents added, variable by
variable; the value at every point without zeros is the product. The only failure is an abort, exactly when reducing the
product of the coefficients aborts. -/
theorem C73_term_times_term {x y : Term} (hx : x.WF) (hy : y.WF) :
    x.mul y = x.mulAssign y ∧
    (x.mul y = .error .assertion ↔ ReduceAborts (x.coeff.tt.val * y.coeff.tt.val) (x.coeff.bb.val * y.coeff.bb.val)) ∧
    Out Aborts (x.mul y) (fun t => t.WF ∧ t.coeff.value = x.coeff.value * y.coeff.value ∧
      (∀ v, (∃ e, t.Has v e) ↔ (∃ e, x.Has v e) ∨ (∃ e, y.Has v e)) ∧
      (∀ v, t.expo v = x.expo v + y.expo v) ∧
      (∀ ρ, (∀ v, ρ v ≠ 0) → t.value ρ = x.value ρ * y.value ρ)) := by
  obtain ⟨t, t1, t2⟩ := mulAssign_ok hx hy
  have hxb : (x.coeff.bb.val : ℚ) ≠ 0 := by exact_mod_cast hx.coeff.bb_ne
  have hyb : (y.coeff.bb.val : ℚ) ≠ 0 := by exact_mod_cast hy.coeff.bb_ne
  have hY : Yields (Frac.drop (x.coeff.mulAssign y.coeff)) (x.coeff.value * y.coeff.value) (x.coeff.tt.val * y.coeff.tt.val)
      (x.coeff.bb.val * y.coeff.bb.val) :=
    (Frac.mulAssign_red hx.coeff hy.coeff).yields (by unfold Frac.value; push_cast; field_simp)
  have he : x.mul y = x.mulAssign y := rfl
  refine ⟨he, ?_, ?_⟩
  · rw [he, t2]
    by_cases h : ReduceAborts (x.coeff.tt.val * y.coeff.tt.val) (x.coeff.bb.val * y.coeff.bb.val)
    · rw [hY.2 h]; simp [h]
    · obtain ⟨f, f1, _⟩ := hY.1 h
      rw [f1]; simp [h]
  · rw [he, t2]
    refine Out.bind hY.out fun c hc => Out.ok ?_
    have ht := t1.times hy
    refine ⟨⟨hc.1, t1.map.sorted, t1.map.keys⟩, hc.2, fun v => ?_, ht.expo, fun ρ hρ => ?_⟩
    · have := ht.var v
      rw [var_iff, var_iff, var_iff] at this
      exact this
    · have := ht.mono ρ hρ
      unfold Term.value
      change c.value * t.mono ρ = _
      rw [this, hc.2]; ring

example := C73_term_times_term (x := tm 2 [("x", 2), ("z", 1)]) (y := tm 3 [("x", 1), ("y", 5)]) (by decide) (by decide)

/-- C73. Multiplication of terms is commutative, as calls: `x * y` and `y * x` give identical objects, or both abort. -/
theorem C73_commutative {x y : Term} (hx : x.WF) (hy : y.WF) : x.mul y = y.mul x := by
  obtain ⟨_, a1, a2⟩ := C73_term_times_term hx hy
  obtain ⟨_, b1, b2⟩ := C73_term_times_term hy hx
  rcases a2 with ⟨t, t1, t2, t3, t4, t5, _⟩ | ⟨e, e1, rfl⟩
  · rcases b2 with ⟨u, u1, u2, u3, u4, u5, _⟩ | ⟨e, e1, rfl⟩
    · rw [t1, u1]
      congr 1
      refine t2.ext u2 (by rw [t3, u3, mul_comm]) (fun v => ?_) (fun v => by rw [t5, u5, add_comm])
      rw [var_iff, var_iff, t4, u4, or_comm]
    · have := b1.mp e1
      rw [mul_comm y.coeff.tt.val, mul_comm y.coeff.bb.val] at this
      rw [e1, a1.mpr this]
  · have := a1.mp e1
    rw [mul_comm x.coeff.tt.val, mul_comm x.coeff.bb.val] at this
    rw [e1, b1.mpr this]

example := C73_commutative (x := tm 2 [("x", 2), ("z", 1)]) (y := tm 3 [("x", 1), ("y", 5)]) (by decide) (by decide)

/-- C73. `x *= x` squares: it does the same as multiplying by a separate copy. -/
theorem C73_square_in_place {x : Term} (hx : x.WF) : x.mulAssignSelf = x.mul x := mulAssignSelf_eq hx

example := C73_square_in_place (x := tm 2 [("x", 2), ("z", 1)]) (by decide)

example : (tm 2 [("x", 2), ("z", 1)]).WF ∧ (tm 3 [("x", 1), ("y", 5)]).WF ∧
    (tm 2 [("x", 2), ("z", 1)]).mul (tm 3 [("x", 1), ("y", 5)]) = .ok (tm 6 [("x", 3), ("y", 5), ("z", 1)]) ∧
    Term.ofFactors ⟨⟨[1], false⟩, ⟨[1], false⟩⟩ [fx "y" 1, fx "x" 2, fx "y" 3] = .ok (tm 1 [("x", 2), ("y", 4)]) ∧
    (tm 2 [("x", 2), ("z", 1)]).mulAssignSelf = .ok (tm 4 [("x", 4), ("z", 2)]) ∧
    Term.mulFactors (fx "x" 2) (fx "x" 3) = .ok (tm 1 [("x", 5)]) := by decide +kernel

/-! ### C74: equality -/

/-- C74. `==` of terms holds exactly if they have the same variables with the same powers; coefficients do not matter. -/
theorem C74_equality {x y : Term} (hx : x.WF) (hy : y.WF) :
    ∃ b, Term.eq x y = .ok b ∧ (b = true ↔ ∀ v e, x.Has v e ↔ y.Has v e) := by
  obtain ⟨b, b1, b2⟩ := eq_spec hx hy
  exact ⟨b, b1, by rw [b2, keyList_inj hx hy, factors_iff_has hx hy]⟩

example := C74_equality (x := tm 2 [("x", 2), ("z", 1)]) (y := tm 7 [("x", 2), ("z", 1)]) (by decide) (by decide)

/-- C74. `==` and `!=` of factors. -/
theorem C74_factor_equality {x y : Factor} (hx : Canon x.power) (hy : Canon y.power) :
    Factor.eq x y = .ok (decide (x.id = y.id ∧ x.power.val = y.power.val)) ∧
    Factor.ne x y = .ok (!decide (x.id = y.id ∧ x.power.val = y.power.val)) := by
  have h : Factor.eq x y = .ok (decide (x.id = y.id ∧ x.power.val = y.power.val)) := by
    rw [Factor.eq_spec hx hy]
    congr 2
    simp [Factor.key]
  refine ⟨h, ?_⟩
  unfold Factor.ne
  rw [h]; rfl

example := C74_factor_equality (x := fx "x" 2) (y := ⟨"x".toList, ⟨[2], true⟩⟩) (by decide) (by decide)

example : Term.eq (tm 2 [("x", 2), ("z", 1)]) (tm 7 [("x", 2), ("z", 1)]) = .ok true ∧
    Term.eq (tm 2 [("x", 2), ("z", 1)]) (tm 2 [("x", 2), ("y", 1)]) = .ok false := by decide +kernel

/-! ### C85: equality of terms that denote the same monomial -/

/-- C85 as stated is false: a variable with power zero is kept, so that `x * x^-1`, which is 1 at every point, differs from the
empty term. -/
theorem C85_refuted_zero_power : ∃ t u : Term, t.WF ∧ u.WF ∧ (∀ ρ : List Char → ℚ, (∀ v, ρ v ≠ 0) → t.mono ρ = u.mono ρ) ∧
    Term.mulFactors (fx "x" 1) ⟨"x".toList, ⟨[1], true⟩⟩ = .ok t ∧ Term.eq t u = .ok false :=
  ⟨tm 1 [("x", 0)], tm 1 [], by decide, by decide, fun ρ _ => by simp [Term.mono, BigInt.val, mag], by decide +kernel, by decide +kernel⟩

/-- C85, the part that holds: terms without powers of zero compare equal exactly if their monomials have the same value at all
points without zeros. Missing: terms with a power of zero. -/
theorem C85_equality_partial {x y : Term} (hx : x.WF) (hy : y.WF) (h0x : ∀ v e, x.Has v e → e ≠ 0) (h0y : ∀ v e, y.Has v e → e ≠ 0) :
    ∃ b, Term.eq x y = .ok b ∧ (b = true ↔ ∀ ρ : List Char → ℚ, (∀ v, ρ v ≠ 0) → x.mono ρ = y.mono ρ) := by
  obtain ⟨b, b1, b2⟩ := eq_spec hx hy
  refine ⟨b, b1, ?_⟩
  rw [b2, keyList_inj hx hy]
  constructor
  · intro h ρ _; exact mono_of_factors h ρ
  · intro h
    -- evaluate at 2 for one variable and 1 elsewhere
    have key : ∀ (m : FactorMap) (v : List Char), FactorMap.mono (fun w => if w = v then 2 else 1) m = (2 : ℚ) ^ FactorMap.expo m v := by
      intro m v
      induction m with
      | nil => simp [FactorMap.mono, FactorMap.expo]
      | cons p m ih =>
        obtain ⟨k, f⟩ := p
        rw [FactorMap.mono_cons, FactorMap.expo_cons, ih, zpow_add₀ (by norm_num)]
        by_cases hk : k = v <;> simp [hk]
    have he : ∀ v, x.expo v = y.expo v := by
      intro v
      have h1 : FactorMap.mono (fun w => if w = v then 2 else 1) x.factors =
          FactorMap.mono (fun w => if w = v then 2 else 1) y.factors :=
        h (fun w => if w = v then 2 else 1) (fun w => by split <;> norm_num)
      rw [key, key] at h1
      exact zpow_right_injective₀ (by norm_num) (by norm_num) h1
    have hvar : ∀ {t : Term}, t.WF → (∀ v e, t.Has v e → e ≠ 0) → ∀ v, t.Var v ↔ t.expo v ≠ 0 := by
      intro t ht h0 v
      constructor
      · intro hv; exact h0 v _ (ht.has_iff.mpr ⟨hv, rfl⟩)
      · intro hne
        by_contra hv
        exact hne (FactorMap.expo_of_not_var hv)
    exact hx.map.ext hy.map (fun v => (hvar hx h0x v).trans (by rw [he v]; exact (hvar hy h0y v).symm)) he

example : ∃ b, Term.eq (tm 2 [("x", 2)]) (tm 7 [("y", 2)]) = .ok b ∧ (b = true ↔ ∀ ρ : List Char → ℚ, (∀ v, ρ v ≠ 0) →
    (tm 2 [("x", 2)]).mono ρ = (tm 7 [("y", 2)]).mono ρ) := by
  refine C85_equality_partial (by decide) (by decide) ?_ ?_
  all_goals
    rintro v e ⟨f, hf, rfl⟩
    simp at hf
    rw [hf.2]; decide

/-! ### C75: order -/

/-- C75 as stated is false: `<` is not asymmetric (`x^2 * y` and `x * y^2` are each less than the other, as are `y` and
`x * y`), and not transitive (`x^2 * y < x^0 * y^3 < x * y`, but not `x^2 * y < x * y`). -/
theorem C75_refuted : Term.lt (tm 1 [("y", 1)]) (tm 1 [("x", 1), ("y", 1)]) = .ok true ∧
    Term.lt (tm 1 [("x", 1), ("y", 1)]) (tm 1 [("y", 1)]) = .ok true ∧
    Term.lt (tm 1 [("x", 2), ("y", 1)]) (tm 1 [("x", 1), ("y", 2)]) = .ok true ∧
    Term.lt (tm 1 [("x", 1), ("y", 2)]) (tm 1 [("x", 2), ("y", 1)]) = .ok true ∧
    Term.lt (tm 1 [("x", 2), ("y", 1)]) (tm 1 [("x", 0), ("y", 3)]) = .ok true ∧
    Term.lt (tm 1 [("x", 0), ("y", 3)]) (tm 1 [("x", 1), ("y", 1)]) = .ok true ∧
    Term.lt (tm 1 [("x", 2), ("y", 1)]) (tm 1 [("x", 1), ("y", 1)]) = .ok false := by decide +kernel

/-- C75, the part that holds for all terms: `<` always returns, is irreflexive, its negation is transitive, and two terms that
are not `==` are comparable. Missing: asymmetry and transitivity. -/
theorem C75_order_partial {x y z : Term} (hx : x.WF) (hy : y.WF) (hz : z.WF) :
    (∃ b, Term.lt x y = .ok b) ∧ ¬Less x x ∧ (¬Less x y → ¬Less y z → ¬Less x z) ∧
    (Less x y ∨ Less y x ↔ ¬∀ v e, x.Has v e ↔ y.Has v e) := by
  refine ⟨(lt_spec hx hy).imp fun _ h => h.1, ?_, not_less_trans hx hy hz, ?_⟩
  · rw [less_iff hx hx, not_not]; exact Covers.refl _
  · rw [← factors_iff_has hx hy, ← keyList_inj hx hy, less_iff hx hy, less_iff hy hx]
    constructor
    · rintro (h | h) he
      · exact h (he ▸ Covers.refl _)
      · exact h (he ▸ Covers.refl _)
    · intro hne
      by_contra hcon
      rw [not_or, not_not, not_not] at hcon
      exact hne (hcon.1.antisymm hcon.2)

example := C75_order_partial (x := tm 1 [("x", 2), ("y", 1)]) (y := tm 1 [("x", 1), ("y", 2)]) (z := tm 5 [("y", 1)])
  (by decide) (by decide) (by decide)

/-- C75, another part: among terms with at most one variable each, `<` is the strict order by number of variables, then
identifier, then power; so there it is asymmetric and transitive. -/
theorem C75_single_variable_partial {x y z : Term} (hx : x.WF) (hy : y.WF) (hz : z.WF) (lx : x.factors.length ≤ 1)
    (ly : y.factors.length ≤ 1) (lz : z.factors.length ≤ 1) :
    (Less x y → ¬Less y x) ∧ (Less x y → Less y z → Less x z) := by
  have small : ∀ {t : Term}, t.factors.length ≤ 1 → t.keyList = [] ∨ ∃ a, t.keyList = [a] := by
    intro t ht
    unfold keyList
    rcases hm : t.factors with _ | ⟨p, _ | ⟨q, r⟩⟩
    · simp
    · simp
    · rw [hm] at ht; simp at ht
  rw [less_iff hx hy, less_iff hy hx, less_iff hy hz, less_iff hx hz]
  rcases small lx with ex | ⟨a, ex⟩ <;> rcases small ly with ey | ⟨b, ey⟩ <;> rcases small lz with ez | ⟨c, ez⟩ <;>
    simp only [ex, ey, ez, Covers, and_true, not_true_eq_false, not_false_eq_true, not_le, false_implies, implies_true, and_self,
      true_implies]
  · exact fun h => h.not_gt
  · exact ⟨fun h => h.not_gt, fun h h' => h.trans h'⟩

example := C75_single_variable_partial (x := tm 1 [("x", 2)]) (y := tm 3 [("x", 5)]) (z := tm 5 [("y", 1)])
  (by decide) (by decide) (by decide) (by decide) (by decide) (by decide)

example : Term.lt (tm 1 [("x", 1)]) (tm 1 [("x", 2)]) = .ok true ∧ Term.lt (tm 1 [("x", 2)]) (tm 1 [("y", 1)]) = .ok true ∧
    Term.lt (tm 1 [("y", 1)]) (tm 1 [("x", 1), ("y", 1)]) = .ok true := by decide +kernel

/-- C75. `<` on factors is the lexicographic order of identifier and power, a strict total order. -/
theorem C75_factor_order {x y : Factor} (hx : Canon x.power) (hy : Canon y.power) :
    Factor.lt x y = .ok (decide (x.id < y.id ∨ x.id = y.id ∧ x.power.val < y.power.val)) := by
  rw [Factor.lt_spec hx hy]
  congr 2
  simp [Factor.key, Prod.Lex.toLex_lt_toLex]

example := C75_factor_order (x := fx "x" 2) (y := ⟨"y".toList, ⟨[2], true⟩⟩) (by decide) (by decide)

/-! ### C76: appending a term -/

/-- C76 as stated is false: whenever every term of the polynomial is `<` the new one, the end iterator is dereferenced. -/
theorem C76_refuted_at_end {p : Poly} (hp : p.WF) {x : Term} (hx : x.WF) (h : ∀ t ∈ p.terms, Less t x) :
    p.appendTerm x = .error .ub := by
  unfold Poly.appendTerm
  rw [(Poly.appendLoop_ok hp hx).1 h]
  rfl

example : Poly.appendTerm ⟨[tm 1 [("x", 1)], tm 2 [("x", 2)]]⟩ (tm 1 [("y", 1)]) = .error .ub :=
  C76_refuted_at_end (by decide) (by decide) (by unfold Less; decide +kernel)

/-- C76, consequence: constructing a polynomial from a nonempty vector of terms or of factors is undefined behaviour, always. -/
theorem C76_refuted_vector_constructors :
    (∀ (x : Term) (xs : List Term), Poly.ofTerms (x :: xs) = .error .ub) ∧
    (∀ (x : Factor) (xs : List Factor), Canon x.power → Poly.ofFactors (x :: xs) = .error .ub) := by
  refine ⟨fun x xs => rfl, fun x xs hx => ?_⟩
  obtain ⟨t, t1, _⟩ := appendFactor_ok (t := ⟨⟨⟨[1], false⟩, ⟨[1], false⟩⟩, []⟩) FactorMap.OK.nil hx
  unfold Poly.ofFactors Poly.appendFactorTerms Term.ofFactor
  rw [ofI32_one, bind_ok, t1]
  rfl

example : Poly.appendTerm (Poly.ofTerm (tm 1 [("x", 1)])) (tm 1 [("x", 2)]) = .error .ub := by decide +kernel

theorem Poly.Ordered.one {p : Poly} (hp : p.WF) (h : p.Ordered) : p.OnePerMonomial := by
  refine List.Pairwise.imp_of_mem (fun {t u} ht hu hl => ?_) h
  exact (C75_order_partial (hp t ht) (hp u hu) (hp u hu)).2.2.2.mp (.inl hl)

/-- C76, the part that holds: if some term of the polynomial is not `<` the new one, the value at every point grows by the
value of the new term, and if the terms were in order with one entry per monomial then they still are. The only failure is an
abort when two coefficients are added. Missing: the case that every term is smaller. -/
theorem C76_append_partial {p : Poly} (hp : p.WF) {x : Term} (hx : x.WF) (h : ∃ t ∈ p.terms, ¬Less t x) :
    Out Aborts (p.appendTerm x) (fun p' => p'.WF ∧ (∀ ρ, p'.value ρ = p.value ρ + x.value ρ) ∧
      (p.Ordered → p'.Ordered ∧ p'.OnePerMonomial)) := by
  unfold Poly.appendTerm
  refine Out.bind ((Poly.appendLoop_ok hp hx).2 h) fun l hl => Out.ok ⟨hl.wf, hl.value, fun ho => ?_⟩
  have : (⟨l⟩ : Poly).Ordered := hl.ordered ho
  exact ⟨this, this.one hl.wf⟩

example := C76_append_partial (p := pxy) (x := tm 1 [("x", 1)]) (by decide) (by decide) ⟨_, List.mem_cons_self, by unfold Less; decide +kernel⟩

/-- C76, on polynomials in order: if the monomial is present, its coefficient grows by that of the new term and nothing else
changes (so there is no undefined behaviour); if it is absent and the call returns, the polynomial gets one more term. -/
theorem C76_coefficients_partial {p : Poly} (hp : p.WF) (ho : p.Ordered) {x : Term} (hx : x.WF) :
    (∀ pre t post, p.terms = pre ++ t :: post → (∀ v e, t.Has v e ↔ x.Has v e) →
      Out Aborts (p.appendTerm x) (fun p' => ∃ c : Frac, c.Valid ∧ c.value = t.coeff.value + x.coeff.value ∧
        p'.terms = pre ++ { t with coeff := c } :: post)) ∧
    ((∀ t ∈ p.terms, ¬∀ v e, t.Has v e ↔ x.Has v e) → ∀ p', p.appendTerm x = .ok p' →
      p'.numTerms = p.numTerms + 1 ∧ ∃ pre post, p.terms = pre ++ post ∧ p'.terms = pre ++ x :: post) := by
  constructor
  · intro pre t post hl hs
    have ht : t.WF := hp t (by rw [hl]; simp)
    have hsame : Same t x := (same_iff_factors ht hx).mpr ((factors_iff_has ht hx).mpr hs)
    have hpre : ∀ s ∈ pre, Less s x := by
      intro s hs'
      unfold Poly.Ordered at ho
      rw [hl, List.pairwise_append] at ho
      have hsw : s.WF := hp s (by rw [hl]; simp [hs'])
      exact (less_congr_right hsw ht hx hsame).mp (ho.2.2 s hs' t (List.mem_cons_self ..))
    have hloop : ∀ pre : List Term, (∀ s ∈ pre, Less s x) → Poly.appendLoop x (pre ++ t :: post) = (do
        let c ← Frac.drop (t.coeff.addAssign x.coeff); return pre ++ { t with coeff := c } :: post) := by
      intro pre
      induction pre with
      | nil =>
        intro _
        have hn : Term.lt t x = .ok false := (lt_total ht hx).resolve_left (not_less_of_same ht hx hsame)
        rw [List.nil_append, Poly.appendLoop, hn, bind_ok, if_neg (by simp), show Term.eq t x = .ok true from hsame, bind_ok, if_pos rfl]
        rfl
      | cons s pre ih =>
        intro h
        rw [List.cons_append, Poly.appendLoop, show Term.lt s x = .ok true from h s (List.mem_cons_self ..), bind_ok, if_pos rfl,
          ih (fun r hr => h r (List.mem_cons_of_mem _ hr))]
        cases Frac.drop (t.coeff.addAssign x.coeff) <;> rfl
    unfold Poly.appendTerm
    rw [hl, hloop pre hpre]
    cases h : Frac.drop (t.coeff.addAssign x.coeff) with
    | ok c =>
      have hc := Poly.drop_addAssign_out ht.coeff hx.coeff
      rw [h, out_ok_iff] at hc
      exact Out.ok ⟨c, hc.1, hc.2, rfl⟩
    | error e =>
      have hc := Poly.drop_addAssign_out ht.coeff hx.coeff
      rw [h, out_err_iff] at hc
      exact Out.err hc
  · intro hn p' hp'
    unfold Poly.appendTerm at hp'
    rcases Poly.appendLoop_cases hp hx with ⟨_, h2⟩ | ⟨pre, t, post, hl, h2, h3, h4⟩
    · rw [h2] at hp'; cases hp'
    · have ht : t.WF := hp t (by rw [hl]; simp)
      rcases h4 with ⟨h4, _⟩ | ⟨_, h5⟩
      · exact absurd ((factors_iff_has ht hx).mp ((same_iff_factors ht hx).mp h4)) (hn t (by rw [hl]; simp))
      · rw [h5] at hp'
        cases hp'
        refine ⟨?_, pre, t :: post, hl, rfl⟩
        unfold Poly.numTerms
        simp [hl]; omega

example := C76_coefficients_partial (p := pxy) (x := tm 1 [("x", 1)]) (by decide) (by unfold Poly.Ordered Less; decide +kernel) (by decide)

/-- C76. Any number of appends: whenever all calls return, the value is the sum of the values of all appended terms and the
polynomial has one entry per monomial. -/
theorem C76_history_partial {x : Term} (hx : x.WF) {xs : List Term} (hxs : ∀ y ∈ xs, y.WF) {p : Poly}
    (h : (Poly.ofTerm x).appendAll xs = .ok p) :
    p.WF ∧ p.OnePerMonomial ∧ ∀ ρ, p.value ρ = x.value ρ + (xs.map (Term.value ρ)).sum := by
  have key : ∀ (xs : List Term), (∀ y ∈ xs, y.WF) → ∀ q : Poly, q.WF → q.Ordered → q.appendAll xs = .ok p →
      p.WF ∧ p.OnePerMonomial ∧ ∀ ρ, p.value ρ = q.value ρ + (xs.map (Term.value ρ)).sum := by
    intro xs
    induction xs with
    | nil =>
      intro _ q hq ho h
      cases h
      exact ⟨hq, ho.one hq, by simp⟩
    | cons y xs ih =>
      intro hxs q hq ho h
      unfold Poly.appendAll at h
      have hy := hxs y (List.mem_cons_self ..)
      by_cases hall : ∀ t ∈ q.terms, Less t y
      · rw [C76_refuted_at_end hq hy hall] at h; cases h
      · have hex : ∃ t ∈ q.terms, ¬Less t y := by
          by_contra hcon
          exact hall fun t ht => by_contra fun hn => hcon ⟨t, ht, hn⟩
        rcases C76_append_partial hq hy hex with ⟨q', e, w1, w2, w3⟩ | ⟨e, e1, _⟩
        · rw [e, bind_ok] at h
          obtain ⟨r1, r2, r3⟩ := ih (fun z hz => hxs z (List.mem_cons_of_mem _ hz)) q' w1 (w3 ho).1 h
          refine ⟨r1, r2, fun ρ => ?_⟩
          rw [r3, w2, List.map_cons, List.sum_cons]; ring
        · rw [e1] at h; cases h
  obtain ⟨h1, h2, h3⟩ := key xs hxs (Poly.ofTerm x) (by simpa [Poly.WF, Poly.ofTerm] using hx) (List.pairwise_singleton ..) h
  exact ⟨h1, h2, fun ρ => by rw [h3]; simp [Poly.value, Poly.ofTerm]⟩

example := C76_history_partial (x := tm 1 [("y", 1)]) (xs := [tm 2 [("x", 1)], tm 5 [("y", 1)]])
  (p := ⟨[tm 2 [("x", 1)], tm 6 [("y", 1)]]⟩) (by decide) (by decide) (by decide +kernel)

example : (Poly.ofTerm (tm 1 [("x", 2), ("y", 2)])).appendAll [tm 2 [("x", 2), ("y", 1)], tm 3 [("x", 1), ("y", 2)],
      tm 5 [("x", 2), ("y", 1)], tm 1 [("a", 1)]] =
    .ok ⟨[tm 1 [("a", 1)], tm 7 [("x", 2), ("y", 1)], tm 3 [("x", 1), ("y", 2)], tm 1 [("x", 2), ("y", 2)]]⟩ := by decide +kernel

/-! ### C77: merging in a list of terms -/

/-- C77 as stated is false: `list::merge` needs sorted lists, but a polynomial made by two proper calls of `appendTerm` need not be
sorted, since `<` is not an order. Nor need the result of a proper call of `appendTerms` be. -/
theorem C77_refuted_unsorted :
    (∃ p, (Poly.ofTerm (tm 1 [("x", 2), ("y", 2)])).appendAll [tm 1 [("x", 2), ("y", 1)], tm 1 [("x", 1), ("y", 2)]] = .ok p ∧
      p.appendTerms [tm 1 [("x", 1)]] = .error .ub) ∧
    (∃ p, (Poly.ofTerm (tm 1 [("x", 2), ("y", 1)])).appendTerms [tm 1 [("x", 1), ("y", 2)]] = .ok p ∧
      p.appendTerms [tm 1 [("x", 1)]] = .error .ub) :=
  ⟨⟨⟨[tm 1 [("x", 2), ("y", 1)], tm 1 [("x", 1), ("y", 2)], tm 1 [("x", 2), ("y", 2)]]⟩, by decide +kernel, by decide +kernel⟩,
    ⟨⟨[tm 1 [("x", 1), ("y", 2)], tm 1 [("x", 2), ("y", 1)]]⟩, by decide +kernel, by decide +kernel⟩⟩

/-- C77, the part that holds: the call is proper exactly if in both lists no term is `<` an earlier one. Then it never
fails, the result has exactly the terms of both, and the value grows by the sum of the listed terms. (Terms of equal monomials
are not combined.) Missing: lists that are not sorted in this sense. -/
theorem C77_append_terms_partial {p : Poly} (hp : p.WF) {xs : List Term} (hxs : ∀ x ∈ xs, x.WF) :
    ((p.terms.Pairwise fun t u => ¬Less u t) → (xs.Pairwise fun t u => ¬Less u t) →
      ∃ p', p.appendTerms xs = .ok p' ∧ p'.terms.Perm (p.terms ++ xs) ∧ p'.numTerms = p.numTerms + xs.length ∧
        ∀ ρ, p'.value ρ = p.value ρ + (xs.map (Term.value ρ)).sum) ∧
    (¬((p.terms.Pairwise fun t u => ¬Less u t) ∧ (xs.Pairwise fun t u => ¬Less u t)) → p.appendTerms xs = .error .ub) := by
  obtain ⟨b, b1, b2⟩ := Poly.sorted_spec hp
  obtain ⟨c, c1, c2⟩ := Poly.sorted_spec hxs
  obtain ⟨r, r1, r2⟩ := Poly.mergeLoop_perm hp hxs
  unfold Poly.appendTerms
  rw [b1, bind_ok, c1, bind_ok]
  constructor
  · intro h1 h2
    rw [b2.mpr h1, c2.mpr h2]
    refine ⟨⟨r⟩, by simp [r1], r2, by simpa [Poly.numTerms] using r2.length_eq, fun ρ => ?_⟩
    unfold Poly.value
    rw [(r2.map (Term.value ρ)).sum_eq, List.map_append, List.sum_append]
  · intro h
    rw [← b2, ← c2] at h
    rw [if_neg (by simpa using h)]

example := C77_append_terms_partial (p := pxy) (xs := [tm 1 [("x", 1)], tm 2 [("x", 2)]]) (by decide) (by decide)

/-- C77. The merging itself, without the requirement of the library: on any two lists it keeps all terms and their sum. -/
theorem C77_merge_keeps_terms {a b : List Term} (ha : ∀ t ∈ a, t.WF) (hb : ∀ t ∈ b, t.WF) :
    ∃ r, Poly.mergeLoop a b = .ok r ∧ r.Perm (a ++ b) ∧ ∀ ρ, (r.map (Term.value ρ)).sum = (a.map (Term.value ρ)).sum + (b.map (Term.value ρ)).sum := by
  obtain ⟨r, r1, r2⟩ := Poly.mergeLoop_perm ha hb
  exact ⟨r, r1, r2, fun ρ => by rw [(r2.map (Term.value ρ)).sum_eq, List.map_append, List.sum_append]⟩

example := C77_merge_keeps_terms (a := [tm 1 [("x", 2)], tm 2 [("x", 1)]]) (b := [tm 1 [("x", 1)]]) (by decide) (by decide)

example : (⟨[tm 1 [("x", 1)], tm 2 [("y", 1)]]⟩ : Poly).appendTerms [tm 3 [("x", 2)], tm 4 [("y", 1)]] =
    .ok ⟨[tm 1 [("x", 1)], tm 3 [("x", 2)], tm 2 [("y", 1)], tm 4 [("y", 1)]]⟩ := by decide +kernel

/-! ### C78: sums and differences -/

/-- C78 as stated is false: `x + y` and `x - y` of two factors are undefined behaviour whenever `x` is before `y` in the
order of factors, for instance for the factors x and y themselves. -/
theorem C78_refuted_ascending {x y : Factor} (hx : Canon x.power) (hy : Canon y.power)
    (h : x.id < y.id ∨ x.id = y.id ∧ x.power.val < y.power.val) :
    Poly.addFactors x y = .error .ub ∧ Poly.subFactors x y = .error .ub := by
  obtain ⟨m, m1, m2, _⟩ := ofI32_spec (n := -1) (by simp)
  have h1 := (single_less one_valid one_valid hx hy).mpr h
  have h2 := (single_less one_valid m2 hx hy).mpr h
  obtain ⟨e1, w1, _⟩ := ofFactor_ok one_valid hx
  obtain ⟨e2, w2, _⟩ := ofFactor_ok one_valid hy
  obtain ⟨e3, w3, _⟩ := ofFactor_ok m2 hy
  have wp : (Poly.ofTerm (⟨⟨⟨[1], false⟩, ⟨[1], false⟩⟩, [(x.id, x)]⟩ : Term)).WF := by simpa [Poly.WF, Poly.ofTerm] using w1
  constructor
  · unfold Poly.addFactors Term.ofFactor
    rw [ofI32_one]
    exact C76_refuted_at_end wp w2 (fun t ht => by obtain rfl := List.mem_singleton.mp ht; exact h1)
  · unfold Poly.subFactors Poly.ofFactor Term.ofFactor
    rw [ofI32_one, m1]
    exact C76_refuted_at_end wp w3 (fun t ht => by obtain rfl := List.mem_singleton.mp ht; exact h2)

example : Poly.addFactors (fx "x" 1) (fx "y" 1) = .error .ub ∧ Poly.subFactors (fx "x" 1) (fx "x" 2) = .error .ub := by decide +kernel

/-- C78, the part that holds for factors: otherwise the sum and the difference never fail and have the right value everywhere.
Missing: factors in ascending order. -/
theorem C78_factors_partial {x y : Factor} (hx : Canon x.power) (hy : Canon y.power)
    (h : ¬(x.id < y.id ∨ x.id = y.id ∧ x.power.val < y.power.val)) :
    (∃ p, Poly.addFactors x y = .ok p ∧ p.WF ∧ ∀ ρ, p.value ρ = x.value ρ + y.value ρ) ∧
    (∃ p, Poly.subFactors x y = .ok p ∧ p.WF ∧ ∀ ρ, p.value ρ = x.value ρ - y.value ρ) := by
  obtain ⟨e1, w1, v1⟩ := ofFactor_ok one_valid hx
  have hm : Frac.ofI32 (-1) = .ok ⟨⟨[1], true⟩, ⟨[1], false⟩⟩ := by decide +kernel
  have hmv : (⟨⟨[1], true⟩, ⟨[1], false⟩⟩ : Frac).Valid := by decide
  have hmx : (⟨⟨[1], true⟩, ⟨[1], false⟩⟩ : Frac).value = -1 := by simp [Frac.value, BigInt.val, mag]
  have key : ∀ c : Frac, c.Valid → (∃ d, Frac.drop (Frac.addAssign ⟨⟨[1], false⟩, ⟨[1], false⟩⟩ c) = .ok d) →
      ∃ p, Poly.appendTerm (Poly.ofTerm ⟨⟨⟨[1], false⟩, ⟨[1], false⟩⟩, [(x.id, x)]⟩) ⟨c, [(y.id, y)]⟩ = .ok p ∧ p.WF ∧
        ∀ ρ, p.value ρ = x.value ρ + c.value * y.value ρ := by
    intro c hc ⟨d, hd⟩
    obtain ⟨e2, w2, v2⟩ := ofFactor_ok hc hy
    have hn : ¬Less ⟨⟨⟨[1], false⟩, ⟨[1], false⟩⟩, [(x.id, x)]⟩ ⟨c, [(y.id, y)]⟩ := fun hl => h ((single_less one_valid hc hx hy).mp hl)
    have wp : (Poly.ofTerm (⟨⟨⟨[1], false⟩, ⟨[1], false⟩⟩, [(x.id, x)]⟩ : Term)).WF := by simpa [Poly.WF, Poly.ofTerm] using w1
    rcases C76_append_partial wp w2 ⟨_, by simp [Poly.ofTerm], hn⟩ with ⟨p, p1, p2, p3, _⟩ | ⟨e, he, rfl⟩
    · refine ⟨p, p1, p2, fun ρ => ?_⟩
      rw [p3, v2]
      simp [Poly.value, Poly.ofTerm, v1, one_value]
    · exfalso
      unfold Poly.appendTerm at he
      rcases Poly.appendLoop_cases wp w2 with ⟨h1, _⟩ | ⟨pre, t, post, h1, h2, h3, h4⟩
      · exact hn (h1 _ (by simp [Poly.ofTerm]))
      · have : pre = [] ∧ t = ⟨⟨⟨[1], false⟩, ⟨[1], false⟩⟩, [(x.id, x)]⟩ ∧ post = [] := by
          cases pre with
          | nil =>
            simp only [Poly.ofTerm, List.nil_append, List.cons.injEq] at h1
            exact ⟨rfl, h1.1.symm, h1.2.symm⟩
          | cons s pre => simp [Poly.ofTerm] at h1
        obtain ⟨rfl, rfl, rfl⟩ := this
        rcases h4 with ⟨_, h5⟩ | ⟨_, h5⟩
        · simp only at h5
          rw [h5, hd] at he
          simp at he
        · rw [h5] at he
          simp at he
  refine ⟨?_, ?_⟩
  · obtain ⟨p, p1, p2, p3⟩ := key _ one_valid ⟨⟨⟨[2], false⟩, ⟨[1], false⟩⟩, by decide +kernel⟩
    refine ⟨p, ?_, p2, fun ρ => by rw [p3, one_value, one_mul]⟩
    unfold Poly.addFactors Term.ofFactor
    rw [ofI32_one]
    exact p1
  · obtain ⟨p, p1, p2, p3⟩ := key _ hmv ⟨⟨⟨[0], false⟩, ⟨[1], false⟩⟩, by decide +kernel⟩
    refine ⟨p, ?_, p2, fun ρ => by rw [p3, hmx]; ring⟩
    unfold Poly.subFactors Poly.ofFactor Term.ofFactor
    rw [ofI32_one, hm]
    exact p1

example : Poly.subFactors (fx "y" 1) (fx "x" 2) =
    .ok ⟨[⟨⟨⟨[1], true⟩, ⟨[1], false⟩⟩, [("x".toList, fx "x" 2)]⟩, tm 1 [("y", 1)]]⟩ := by decide +kernel

/-- C78, the part that holds for terms: if `x` is not `<` `y`, then `x + y` and `x - y` have the right value, or abort in
arithmetic on the coefficients; if it is, both are undefined behaviour (or the difference aborts first). -/
theorem C78_terms_partial {x y : Term} (hx : x.WF) (hy : y.WF) :
    (¬Less x y → Out Aborts (Poly.addTerms x y) (fun p => p.WF ∧ ∀ ρ, p.value ρ = x.value ρ + y.value ρ) ∧
      Out Aborts (Poly.subTerms x y) (fun p => p.WF ∧ ∀ ρ, p.value ρ = x.value ρ - y.value ρ)) ∧
    (Less x y → Poly.addTerms x y = .error .ub ∧ (Poly.subTerms x y = .error .ub ∨ Poly.subTerms x y = .error .assertion)) := by
  have wp : (Poly.ofTerm x).WF := by simpa [Poly.WF, Poly.ofTerm] using hx
  have less_neg : ∀ {t : Term}, t.WF → t.factors = y.factors → (Less x t ↔ Less x y) := by
    intro t ht h
    rw [less_iff hx ht, less_iff hx hy]
    unfold keyList
    rw [h]
  constructor
  · intro h
    refine ⟨(C76_append_partial wp hy ⟨x, by simp [Poly.ofTerm], h⟩).mono fun p ⟨p1, p2, _⟩ => ⟨p1, fun ρ => by
      rw [p2]; simp [Poly.value, Poly.ofTerm]⟩, ?_⟩
    refine Out.bind (negate_ok hy) fun t ⟨t1, t2, t3⟩ => ?_
    refine (C76_append_partial wp t1 ⟨x, by simp [Poly.ofTerm], fun hl => h ((less_neg t1 t2).mp hl)⟩).mono
      fun p ⟨p1, p2, _⟩ => ⟨p1, fun ρ => ?_⟩
    rw [p2, t3]
    simp [Poly.value, Poly.ofTerm, sub_eq_add_neg]
  · intro h
    refine ⟨C76_refuted_at_end wp hy (by simpa [Poly.ofTerm] using h), ?_⟩
    unfold Poly.subTerms
    rcases negate_ok hy with ⟨t, t1, t2, t3, _⟩ | ⟨e, e1, rfl⟩
    · left
      rw [t1, bind_ok]
      exact C76_refuted_at_end wp t2 (by simpa [Poly.ofTerm] using (less_neg t2 t3).mpr h)
    · right
      rw [e1]; rfl

example := (C78_terms_partial (x := tm 1 [("y", 2)]) (y := tm 2 [("x", 1)]) (by decide) (by decide)).1 (by unfold Less; decide +kernel)

/-- C78, the part that holds for `p += y` and `p -= y` with a factor `y`. -/
theorem C78_compound_partial {p : Poly} (hp : p.WF) {y : Factor} (hy : Canon y.power)
    (h : ∃ t ∈ p.terms, ¬Less t ⟨⟨⟨[1], false⟩, ⟨[1], false⟩⟩, [(y.id, y)]⟩) :
    Out Aborts (p.addAssign y) (fun p' => p'.WF ∧ ∀ ρ, p'.value ρ = p.value ρ + y.value ρ) ∧
    Out Aborts (p.subAssign y) (fun p' => p'.WF ∧ ∀ ρ, p'.value ρ = p.value ρ - y.value ρ) := by
  obtain ⟨t, ht, hn⟩ := h
  have hm : Frac.ofI32 (-1) = .ok ⟨⟨[1], true⟩, ⟨[1], false⟩⟩ := by decide +kernel
  have hmv : (⟨⟨[1], true⟩, ⟨[1], false⟩⟩ : Frac).Valid := by decide
  have hmx : (⟨⟨[1], true⟩, ⟨[1], false⟩⟩ : Frac).value = -1 := by simp [Frac.value, BigInt.val, mag]
  obtain ⟨e1, w1, v1⟩ := ofFactor_ok one_valid hy
  obtain ⟨e2, w2, v2⟩ := ofFactor_ok hmv hy
  constructor
  · unfold Poly.addAssign Term.ofFactor
    rw [ofI32_one]
    exact (C76_append_partial hp w1 ⟨t, ht, hn⟩).mono fun p' ⟨p1, p2, _⟩ => ⟨p1, fun ρ => by rw [p2, v1, one_value, one_mul]⟩
  · unfold Poly.subAssign
    rw [hm]
    exact (C76_append_partial hp w2 ⟨t, ht, hn⟩).mono fun p' ⟨p1, p2, _⟩ => ⟨p1, fun ρ => by rw [p2, v2, hmx]; ring⟩

example := C78_compound_partial (p := pxy) (y := fx "x" 1) (by decide) (by decide)
  ⟨_, List.mem_cons_self, by unfold Less; decide +kernel⟩

example : Poly.addAssign ⟨[tm 3 [("x", 1)], tm 1 [("y", 1)]]⟩ (fx "y" 1) = .ok ⟨[tm 3 [("x", 1)], tm 2 [("y", 1)]]⟩ ∧
    Poly.subTerms (tm 3 [("x", 1)]) (tm 2 [("x", 1)]) = .ok ⟨[tm 1 [("x", 1)]]⟩ := by decide +kernel

/-! ### C79: output of factors and terms -/

/-- C79 as stated is false: the power 10^9 (and every power 10^(9k)) is mistaken for 1 and left out. -/
theorem C79_refuted_power : Factor.print ⟨"x".toList, ⟨[0, 1], false⟩⟩ = .ok "x".toList ∧ (⟨[0, 1], false⟩ : BigInt).val = 1000000000 ∧
    ∀ (f : Factor) (k : Nat), Canon f.power → f.power.val = 10 ^ (9 * k) → f.print = .ok f.id :=
  ⟨by decide +kernel, by decide, fun _ k hf h => (Factor.print_spec hf).1 ⟨k, h⟩⟩

/-- C79, the part that holds: factors with any other power print as `id` or `id^power`; terms print as their coefficient and
powers joined by ` * `, with the coefficient left out if it is 1 (unless there are no variables), and 0 if it is 0.
Missing: the powers 10^9, 10^18, ... -/
theorem C79_output_partial :
    (∀ f : Factor, Canon f.power → (∀ k : Nat, 1 ≤ k → f.power.val ≠ 10 ^ (9 * k)) → f.print = .ok (powerText f.id f.power.val)) ∧
    (∀ t : Term, t.WF → (∀ v e, t.Has v e → ∀ k : Nat, 1 ≤ k → e ≠ 10 ^ (9 * k)) →
      t.print = .ok (termText t.coeff.value (t.factors.map fun p => (p.1, p.2.power.val)))) :=
  ⟨fun _ h hp => Factor.print_plain h hp, fun _ h hp => print_spec h fun p hm => hp p.1 _ ⟨p.2, hm, rfl⟩⟩

example : Term.print ⟨⟨⟨[2], true⟩, ⟨[3], false⟩⟩, [("x".toList, ⟨"x".toList, ⟨[2], true⟩⟩), ("y".toList, fx "y" 1)]⟩ =
      .ok "(-2/3) * x^-2 * y".toList ∧
    Term.print (tm 1 [("x", 1), ("y", 2)]) = .ok "x * y^2".toList ∧ Term.print (tm 0 [("x", 1)]) = .ok "0".toList ∧
    Term.print (tm 1 []) = .ok "1".toList ∧ Term.print (tm 3 []) = .ok "(3/1)".toList := by decide +kernel
example : termText (-2 / 3) [("x".toList, -2), ("y".toList, 1)] = "(-2/3) * x^-2 * y".toList := by decide +kernel

/-! ### C86: output of polynomials -/

/-- C86 as stated is false for the same reason as C79: x^1000000000 prints as x. -/
theorem C86_refuted_power : Poly.print ⟨[⟨⟨⟨[2], false⟩, ⟨[1], false⟩⟩, [("x".toList, ⟨"x".toList, ⟨[0, 1], false⟩⟩)]⟩]⟩ =
    .ok "(2/1) * x".toList := by decide +kernel

/-- C86, the part that holds: the terms in list order, joined by ` + `; nothing for the empty polynomial.
Missing: the powers 10^9, 10^18, ... -/
theorem C86_output_partial {p : Poly} (hp : p.WF) (h : ∀ t ∈ p.terms, ∀ v e, t.Has v e → ∀ k : Nat, 1 ≤ k → e ≠ 10 ^ (9 * k)) :
    p.print = .ok (List.intercalate " + ".toList (p.terms.map fun t =>
      termText t.coeff.value (t.factors.map fun p => (p.1, p.2.power.val)))) :=
  Poly.print_spec hp fun t ht q hq => h t ht q.1 _ ⟨q.2, hq, rfl⟩

example : Poly.print ⟨[tm 1 [("x", 1)], tm 2 [("y", 3)]]⟩ = .ok "x + (2/1) * y^3".toList ∧ Poly.print ⟨[]⟩ = .ok [] := by decide +kernel

end CppMaths

