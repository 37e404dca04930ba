import Verif.Proofs.DoubleRref
import Verif.Proofs.MatMore
/-!
# `inverse()` over `double`
-/

namespace CppMaths
namespace Double

theorem eq_fin_left {x y : Double} (h : Double.eq x y = true) (hy : y.IsFin) : x.IsFin := by
  obtain ⟨s, m, e, rfl⟩ := hy
  cases x with
  | fin => exact ⟨_, _, _, rfl⟩
  | nan => simp [Double.eq] at h
  | inf a => simp [Double.eq] at h

theorem Denotes.rounded {d : Double} {q : ℚ} (h : d.Denotes q) : d.Rounded q := by
  have h1 := round_rounded false q
  have h2 := round_denotes false h
  unfold Rounded at h1 ⊢
  split at h1
  · rename_i h3
    rw [h1] at h2
    exact absurd h2 not_denotes_inf
  · rename_i h3
    rw [if_neg h3]
    refine ⟨q, h, fun d' r' _ => ?_⟩
    by_cases h4 : r' = q
    · exact .inr (.inl h4)
    · left
      rw [sub_self, abs_zero]
      exact abs_pos.mpr (sub_ne_zero.mpr h4)

/-- A number other than zero has one representation. -/
theorem Denotes.eq {x y : Double} {q : ℚ} (hx : x.Denotes q) (hy : y.Denotes q) (hq : q ≠ 0) : x = y := by
  obtain ⟨s, m, e, rfl, h1⟩ := hx.fin
  obtain ⟨s', m', e', rfl, h2⟩ := hy.fin
  have two : (2 : ℚ) ≠ 0 := two_ne_zero
  have key : ∀ {m m' : Nat} {e e' : Int}, m < 2 ^ 53 → -1074 ≤ e → (2 ^ 52 ≤ m' ∨ e' = -1074) → (m : ℚ) * 2 ^ e = m' * 2 ^ e' → ¬e < e' := by
    intro m m' e e' a1 a2 a3 h hlt
    have h3 : 2 ^ 52 ≤ m' := a3.resolve_right (by omega)
    obtain ⟨k, hk⟩ : ∃ k : Nat, e' = e + 1 + k := ⟨(e' - e - 1).toNat, by omega⟩
    rw [hk, zpow_add₀ two, zpow_add₀ two, zpow_one, zpow_natCast] at h
    have hp : (0 : ℚ) < 2 ^ e := by positivity
    have h4 : (m : ℚ) = m' * (2 * 2 ^ k) := by
      apply mul_right_cancel₀ hp.ne'
      rw [h]; ring
    have h5 : m = m' * (2 * 2 ^ k) := by exact_mod_cast h4
    have h6 : 1 ≤ 2 ^ k := Nat.one_le_two_pow
    nlinarith
  have e1 := hx.1
  have e2 := hy.1
  simp only [WF] at e1 e2
  unfold real at h1 h2
  have p1 : (0 : ℚ) ≤ m * 2 ^ e := by positivity
  have p2 : (0 : ℚ) ≤ m' * 2 ^ e' := by positivity
  have hs : s = s' ∧ (m : ℚ) * 2 ^ e = m' * 2 ^ e' := by
    rw [mul_assoc] at h1 h2
    cases s <;> cases s' <;> simp only [Bool.false_eq_true, if_false, if_true, one_mul, neg_mul] at h1 h2
    · exact ⟨rfl, by linarith⟩
    · exfalso; apply hq; linarith
    · exfalso; apply hq; linarith
    · exact ⟨rfl, by linarith⟩
  obtain ⟨rfl, hm⟩ := hs
  have : e = e' := by
    have a := key e1.1 e1.2.1 e2.2.2.2 hm
    have b := key e2.1 e2.2.1 e1.2.2.2 hm.symm
    omega
  subst this
  have hp : (2 : ℚ) ^ e ≠ 0 := by positivity
  have := mul_right_cancel₀ hp hm
  have : m = m' := by exact_mod_cast this
  subst this
  rfl

theorem Rounded.congr {x y : Double} {q a : ℚ} (hx : x.Denotes q) (hy : y.Denotes q) (h : x.Rounded a) : y.Rounded a := by
  by_cases hq : q = 0
  · unfold Rounded at h ⊢
    split at h
    · rw [h] at hx
      exact absurd hx not_denotes_inf
    · next hb =>
      rw [if_neg hb]
      obtain ⟨r, hr, h'⟩ := h
      refine ⟨r, by rwa [hr.unique hx], fun d' r' hd' => ?_⟩
      rcases h' d' r' hd' with h1 | h1 | ⟨h1, _⟩
      · exact .inl h1
      · exact .inr (.inl h1)
      · obtain ⟨s, m, e, rfl, h2⟩ := hy.fin
        refine .inr (.inr ⟨h1, s, m, e, rfl, ?_⟩)
        rw [hq] at h2
        unfold real at h2
        have hp : (2 : ℚ) ^ e ≠ 0 := by positivity
        have : (m : ℚ) = 0 := by
          cases s <;> simp [hp] at h2 <;> simp [h2]
        have : m = 0 := by exact_mod_cast this
        rw [this]
  · rwa [← hx.eq hy hq]

end Double

namespace Mat
open Double

theorem ofInt_one : (Double.ofInt 1).Denotes 1 := by
  have := ofInt_denotes (k := 1) (by norm_num)
  rwa [Int.cast_one] at this

/-- The identity matrix of doubles. -/
theorem identity_double (n : Nat) :
    Out Never (identityMatrix Scalar.double n) (fun m => Full Bits m n n (fun i j => if i = j then Double.ofInt 1 else Double.ofInt 0)) := by
  refine Out.bind (.inl ⟨_, rfl, rfl⟩) fun z hz => ?_
  subst hz
  refine Out.bind (filled_ok (rel := Bits) (k := Double.ofInt 0) ⟨rfl, ofInt_zero.1⟩) fun r hr => ?_
  exact diag_loop_ok (v := fun _ => Double.ofInt 1) (e := fun _ => Scalar.double.ofInt 1) hr fun i hi => .inl ⟨_, rfl, rfl, ofInt_one.1⟩

/-- `inverse()` of a matrix with an entry that is not finite. -/
theorem inverse_not_fin {m : Mat Double} {n : Nat} {F : Nat → Nat → Double} (hm : Full Bits m n n F) {i j : Nat} (hi : i < n) (hj : j < n)
    (hne : ¬(F i j).IsFin) : inverse Scalar.double m = .error .domainError := by
  suffices h : Out (fun e => e = .domainError) (inverse Scalar.double m) (fun _ => False) by
    rcases h with ⟨_, _, h⟩ | ⟨e, h1, rfl⟩
    · exact h.elim
    · exact h1
  have lift : ∀ {α : Type} {r : Res α} {P : α → Prop}, Out Never r P → Out (fun e => e = .domainError) r P := by
    rintro α r P (h | ⟨e, h1, h2⟩)
    · exact .inl h
    · exact h2.elim
  unfold inverse
  simp only [hm.1, hm.2.1, ne_eq, not_true_eq_false, if_false]
  refine Out.bind (lift (identity_double n)) fun id1 hid => ?_
  refine Out.bind (lift (augmentedMatrix_ok hm hid)) fun aug haug => ?_
  have hr : aug.rows = n := haug.1
  unfold inplaceRref
  rw [hr]
  refine Out.bind (lift (dRrefLoop_ok n 0 0 aug _ (by omega) (by omega) haug)) fun red hred => ?_
  obtain ⟨G, hG, _, hcol⟩ := hred
  have e := pass_ok (rel := fun (_ : Double) (k : Prop) => k) (A := fun e => e = .domainError)
    (G := fun a b => Double.eq (G a b) (if a = b then Double.ofInt 1 else Double.ofInt 0) = true)
    (body := fun i j result => do
      let x ← red.get i j
      let y ← id1.get i j
      let d ← Scalar.double.ne x y
      if d then .error .domainError
      else do
        let t ← red.get i (j + n)
        result.set i j t) (alloc_on n n (fun _ _ => False)) (fun a b m' ha hb hm' => by
      refine Out.bind (hG.get ha (show b < n + n by omega) trivial) fun x hx => ?_
      refine Out.bind (hid.get ha hb trivial) fun y hy => ?_
      have h1 : Scalar.double.ne x y = .ok (!Double.eq x y) := rfl
      rw [h1]
      refine Out.bind (.inl ⟨_, rfl, rfl⟩) fun d hd => ?_
      subst hd
      cases hq : Double.eq x y with
      | false =>
        simp only [Bool.not_false, if_true]
        exact .inr ⟨_, rfl, rfl⟩
      | true =>
        simp only [Bool.not_true, Bool.false_eq_true, if_false]
        refine Out.bind (hG.get ha (show b + n < n + n by omega) trivial) fun t _ => ?_
        refine hm'.step ha hb ?_
        rw [← hx.1, ← hy.1]
        exact hq)
  refine e.mono fun m' hm' => ?_
  refine hne ?_
  have := hcol j (by omega) (fun a ha => by
    obtain ⟨_, _, h⟩ := hm'.2.2.2 a j ha hj trivial
    refine eq_fin_left h ?_
    split
    · exact ofInt_one.isFin
    · exact ofInt_zero.isFin) i hi
  rwa [if_pos hj] at this

/-! ### Matrices with one entry in every row and column -/

/-- The augmented matrix after `k` steps: row `i` is row `τ i` of the original. -/
def mono (n : Nat) (π : Nat → Nat) (d e : Nat → ℚ) (k : Nat) (τ : Nat → Nat) : Nat → Nat → ℚ := fun i j =>
  if j < n then (if j = π (τ i) then (if i < k then 1 else d (τ i)) else 0)
  else (if j - n = τ i then (if i < k then e (τ i) else 1) else 0)

/-- `f` permutes the numbers below `n`. -/
def Permutes (n : Nat) (f : Nat → Nat) : Prop := (∀ i < n, f i < n) ∧ ∀ i < n, ∀ j < n, f i = f j → i = j

theorem Permutes.surj {n : Nat} {f : Nat → Nat} (h : Permutes n f) {k : Nat} (hk : k < n) : ∃ i < n, f i = k := by
  let g : Fin n → Fin n := fun i => ⟨f i, h.1 i i.2⟩
  have hg : Function.Injective g := fun i j hij => Fin.ext (h.2 i i.2 j j.2 (congrArg Fin.val hij))
  obtain ⟨i, hi⟩ := (Finite.injective_iff_surjective.mp hg) ⟨k, hk⟩
  exact ⟨i, i.2, congrArg Fin.val hi⟩

theorem Permutes.comp {n : Nat} {f g : Nat → Nat} (hf : Permutes n f) (hg : Permutes n g) : Permutes n (fun i => f (g i)) :=
  ⟨fun i hi => hf.1 _ (hg.1 i hi), fun i hi j hj h => hg.2 i hi j hj (hf.2 _ (hg.1 i hi) _ (hg.1 j hj) h)⟩

/-- Two positions exchanged. -/
def swapN (a b : Nat) : Nat → Nat := fun i => if i = a then b else if i = b then a else i

theorem permutes_swapN {n a b : Nat} (ha : a < n) (hb : b < n) : Permutes n (swapN a b) := by
  constructor
  · intro i hi
    unfold swapN
    split
    · exact hb
    · split
      · exact ha
      · exact hi
  · intro i hi j hj h
    unfold swapN at h
    split at h <;> split at h <;> (try split at h) <;> (try split at h) <;> omega

theorem swap_mono {n : Nat} {π : Nat → Nat} {d e : Nat → ℚ} {k a b : Nat} {τ : Nat → Nat} (ha : k ≤ a) (hb : k ≤ b) :
    swapF (mono n π d e k τ) a b = mono n π d e k (fun i => τ (swapN a b i)) := by
  have ha : ¬a < k := by omega
  have hb : ¬b < k := by omega
  funext i j
  unfold swapF swapN
  by_cases h1 : i = a
  · subst h1
    simp [mono, ha, hb]
  · by_cases h2 : i = b
    · subst h2
      simp [mono, ha, hb, h1]
    · simp [mono, h1, h2]

theorem monoLoop_ok {n : Nat} {π : Nat → Nat} {d e : Nat → ℚ} (hπ : Permutes n π) (hd : ∀ i < n, d i ≠ 0)
    (he : ∀ i < n, ∀ {x y : Double}, x.Denotes 1 → y.Denotes (d i) → (Double.div x y).Denotes (e i)) (l : Nat) :
    ∀ (k : Nat) (m : Mat Double) (τ : Nat → Nat), k + l = n → Permutes n τ → (∀ i < k, π (τ i) = i) →
    Full Denotes m n (n + n) (mono n π d e k τ) →
    Out Never (rrefLoop Scalar.double l k k m) (fun m' => ∃ τ, Permutes n τ ∧ (∀ i < n, π (τ i) = i) ∧
      Full Denotes m' n (n + n) (mono n π d e n τ)) := by
  induction l with
  | zero =>
    intro k m τ hk hτ hp hm
    obtain rfl : k = n := by omega
    exact Out.ok ⟨τ, hτ, hp, hm⟩
  | succ l ih =>
    intro k m τ hk hτ hp hm
    have hkn : k < n := by omega
    unfold rrefLoop
    rw [hm.2.1, if_neg (by omega)]
    refine Out.bind (by
      have := findPivot_start_of (A := Never) (S := Scalar.double) (rel := Denotes) (fun {x q} h => .inl ⟨_, rfl, by
        show Double.eq x (Double.ofInt 0) = true ↔ q = 0
        rw [eq_zero_iff h.1 ofInt_zero]
        exact ⟨fun h' => h.unique h', fun h' => by rwa [h'] at h⟩⟩) hm (r0 := k) (p := k) hkn (by omega)
      rwa [hm.2.1] at this) fun o ho => ?_
    -- the row with an entry in column `k`
    obtain ⟨i0, hi0, hi0k⟩ := (hπ.comp hτ).surj hkn
    have hi0' : k ≤ i0 := by
      by_contra h
      have := hp i0 (by omega)
      omega
    have hnz : mono n π d e k τ i0 k ≠ 0 := by
      rw [mono, if_pos hkn, if_pos hi0k.symm, if_neg (by omega)]
      exact hd _ (hτ.1 _ hi0)
    match o, ho with
    | none, ho => exact absurd (ho.1 i0 hi0' hi0) hnz
    | some (i, q), ho =>
      obtain ⟨a1, a2, a3, a4, a5, a6, a7⟩ := ho
      obtain rfl : k = q := by
        by_contra h
        exact hnz (a6 (by omega) i0 hi0' hi0)
      dsimp only
      have hik : π (τ i) = k := by
        by_contra h
        refine a5 ?_
        rw [mono, if_pos hkn, if_neg (fun h' => h h'.symm)]
      refine Out.bind (swapRows_ok hm a2 hkn) fun m1 hm1 => ?_
      rw [swap_mono a1 le_rfl] at hm1
      obtain ⟨τ', hτe⟩ : ∃ t, t = fun a => τ (swapN i k a) := ⟨_, rfl⟩
      rw [← hτe] at hm1
      have hτ' : Permutes n τ' := by rw [hτe]; exact hτ.comp (permutes_swapN a2 hkn)
      have hsw : swapN i k k = i := by unfold swapN; split <;> simp_all
      have hpk : π (τ' k) = k := by rw [hτe]; dsimp only; rw [hsw]; exact hik
      have hp' : ∀ a < k + 1, π (τ' a) = a := fun a ha => by
        by_cases hak : a = k
        · rw [hak]; exact hpk
        · have : swapN i k a = a := by unfold swapN; rw [if_neg (by omega), if_neg hak]
          rw [hτe]; dsimp only; rw [this]; exact hp a (by omega)
      -- the pivot row
      have hdk : mono n π d e k τ' k k = d (τ' k) := by
        rw [mono, if_pos hkn, if_pos hpk.symm, if_neg (lt_irrefl k)]
      have hk0 := hd _ (hτ'.1 k hkn)
      refine Out.bind (scaleRow_of (G := mono n π d e (k + 1) τ') hm1 hkn (by omega) (fun j hj {x v} hx hv => ?_)
        (fun a j ha => ?_)) fun m2 hm2 => ?_
      · refine .inl ⟨_, rfl, ?_⟩
        rw [hdk] at hv
        unfold mono at hx ⊢
        by_cases hjn : j < n
        · rw [if_pos hjn] at hx ⊢
          rw [if_neg (lt_irrefl k)] at hx
          rw [if_pos (Nat.lt_succ_self k)]
          by_cases hjk : j = π (τ' k)
          · rw [if_pos hjk] at hx ⊢
            obtain ⟨z, h⟩ := div_denotes hx hv hk0
            have h2 := denotes_one z
            rw [← div_self hk0, ← h] at h2
            rwa [div_self hk0] at h2
          · rw [if_neg hjk] at hx ⊢
            exact zero_div' hx hv hk0
        · rw [if_neg hjn] at hx ⊢
          rw [if_neg (lt_irrefl k)] at hx
          rw [if_pos (Nat.lt_succ_self k)]
          by_cases hjk : j - n = τ' k
          · rw [if_pos hjk] at hx ⊢
            exact he _ (hτ'.1 k hkn) hx hv
          · rw [if_neg hjk] at hx ⊢
            exact zero_div' hx hv hk0
      · have : a < k + 1 ↔ a < k := by omega
        simp only [mono, this]
      · refine Out.bind (clearColumn_of (G := mono n π d e (k + 1) τ') hm2 hkn (by omega) (fun a ha hak j hj {v x y} hv hx hy => ?_)
          (fun j => rfl)) fun m3 hm3 => ih (k + 1) m3 τ' (by omega) hτ' hp' hm3
        refine .inl ⟨_, rfl, ?_⟩
        have h0 : mono n π d e (k + 1) τ' a k = 0 := by
          rw [mono, if_pos hkn, if_neg]
          intro h
          exact hak ((hπ.comp hτ').2 a ha k hkn (h.symm.trans hpk.symm))
        rw [h0] at hv
        refine sub_zero' hy ?_
        obtain ⟨z, h⟩ := mul_denotes hv hx
        rw [h, zero_mul]
        exact denotes_zero z

/-- `inverse()` of a matrix with one entry in every row and column. -/
theorem inverse_mono {n : Nat} {π : Nat → Nat} {d e : Nat → ℚ} (hπ : Permutes n π) (hd : ∀ i < n, d i ≠ 0)
    (he : ∀ i < n, ∀ {x y : Double}, x.Denotes 1 → y.Denotes (d i) → (Double.div x y).Denotes (e i)) {m : Mat Double}
    (hm : Full Denotes m n n (fun i j => if j = π i then d i else 0)) :
    Out Never (inverse Scalar.double m) (fun m' => Full Denotes m' n n (fun i j => if i = π j then e j else 0)) := by
  unfold inverse
  simp only [hm.1, hm.2.1, ne_eq, not_true_eq_false, if_false]
  have hid : Out Never (identityMatrix Scalar.double n) (fun m => Full Denotes m n n (fun i j => if i = j then 1 else 0)) := by
    refine Out.bind (.inl ⟨_, rfl, rfl⟩) fun z hz => ?_
    subst hz
    refine Out.bind (filled_ok (rel := Denotes) (k := 0) ofInt_zero) fun r hr => ?_
    exact diag_loop_ok (v := fun _ => (1 : ℚ)) (e := fun _ => Scalar.double.ofInt 1) hr fun i hi => .inl ⟨_, rfl, ofInt_one⟩
  refine Out.bind hid fun id1 hid => ?_
  refine Out.bind (augmentedMatrix_ok hm hid) fun aug haug => ?_
  unfold inplaceRref
  rw [haug.1]
  have h0 : Full Denotes aug n (n + n) (mono n π d e 0 id) := haug.weaken fun i j hi hj _ => ⟨trivial, by
    simp only [mono, id, Nat.not_lt_zero, if_false]
    by_cases hjn : j < n
    · rw [if_pos hjn, if_pos hjn]
    · rw [if_neg hjn, if_neg hjn]
      by_cases h : i = j - n
      · rw [if_pos h, if_pos h.symm]
      · rw [if_neg h, if_neg (fun h' => h h'.symm)]⟩
  refine Out.bind (monoLoop_ok hπ hd he n 0 aug id (by omega) ⟨fun i hi => hi, fun i _ j _ h => h⟩ (fun i hi => absurd hi (by omega)) h0)
    fun red hred => ?_
  obtain ⟨τ, hτ, hp, hG⟩ := hred
  refine pass_ok (alloc_on n n (fun _ _ => 0)) fun a b m' ha hb hm' => ?_
  refine Out.bind (hG.get ha (show b < n + n by omega) trivial) fun x hx => ?_
  refine Out.bind (hid.get ha hb trivial) fun y hy => ?_
  have h1 : Scalar.double.ne x y = .ok (!Double.eq x y) := rfl
  have h2 : mono n π d e n τ a b = if a = b then 1 else 0 := by
    rw [mono, if_pos hb, hp a ha, if_pos ha]
    by_cases h : a = b
    · rw [if_pos h, if_pos h.symm]
    · rw [if_neg h, if_neg (fun h' => h h'.symm)]
  rw [h2] at hx
  rw [h1, Double.eq_denotes hx hy, decide_eq_true rfl]
  refine Out.bind (.inl ⟨_, rfl, rfl⟩) fun d' hd' => ?_
  subst hd'
  simp only [Bool.not_true, Bool.false_eq_true, if_false]
  refine Out.bind (hG.get ha (show b + n < n + n by omega) trivial) fun t ht => ?_
  refine hm'.step ha hb ?_
  have h3 : mono n π d e n τ a (b + n) = if a = π b then e b else 0 := by
    rw [mono, if_neg (by omega), Nat.add_sub_cancel, if_pos ha]
    have : b = τ a ↔ a = π b := by
      constructor
      · intro h; rw [h, hp a ha]
      · intro h
        exact hπ.2 b hb (τ a) (hτ.1 a ha) (by rw [hp a ha, h])
    by_cases h : b = τ a
    · rw [if_pos h, if_pos (this.mp h), h]
    · rw [if_neg h, if_neg (fun h' => h (this.mpr h'))]
  rwa [h3] at ht

end Mat
end CppMaths
