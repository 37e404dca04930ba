import Verif.Spec.Poly
import Verif.Proofs.ScalarInst
import Verif.Proofs.IntMem
import Verif.Proofs.FracMem
/-!
# Lemmas about `Factor` and `Term`
-/

namespace CppMaths
open BigInt

/-! ### Maps -/

namespace FactorMap

/-- One entry per key, ascending; keys are the identifiers of the factors; powers are canonical. -/
structure OK (m : FactorMap) : Prop where
  sorted : m.Pairwise (fun p q => p.1 < q.1)
  keys : ∀ p ∈ m, p.1 = p.2.id ∧ Canon p.2.power

def expo (m : FactorMap) (v : List Char) : ℤ := ((m.filter (·.1 = v)).map (·.2.power.val)).sum
def mono (ρ : List Char → ℚ) (m : FactorMap) : ℚ := (m.map fun p => ρ p.1 ^ p.2.power.val).prod
def Var (m : FactorMap) (v : List Char) : Prop := ∃ f, (v, f) ∈ m

theorem expo_nil (v : List Char) : expo [] v = 0 := rfl

theorem expo_cons (k : List Char) (f : Factor) (m : FactorMap) (v : List Char) :
    expo ((k, f) :: m) v = (if k = v then f.power.val else 0) + expo m v := by
  unfold expo
  by_cases h : k = v <;> simp [h]

theorem mono_cons (ρ : List Char → ℚ) (k : List Char) (f : Factor) (m : FactorMap) :
    mono ρ ((k, f) :: m) = ρ k ^ f.power.val * mono ρ m := by simp [mono]

theorem var_cons (k : List Char) (f : Factor) (m : FactorMap) (v : List Char) : Var ((k, f) :: m) v ↔ v = k ∨ Var m v := by
  unfold Var
  constructor
  · rintro ⟨g, h⟩
    rcases List.mem_cons.mp h with h | h
    · exact .inl (Prod.mk.inj h).1
    · exact .inr ⟨g, h⟩
  · rintro (rfl | ⟨g, h⟩)
    · exact ⟨f, List.mem_cons_self ..⟩
    · exact ⟨g, List.mem_cons_of_mem _ h⟩

theorem OK.nil : OK [] := ⟨List.Pairwise.nil, by simp⟩

theorem OK.tail {p : List Char × Factor} {m : FactorMap} (h : OK (p :: m)) : OK m :=
  ⟨(List.pairwise_cons.mp h.sorted).2, fun q hq => h.keys q (List.mem_cons_of_mem _ hq)⟩

theorem OK.head {p : List Char × Factor} {m : FactorMap} (h : OK (p :: m)) : ∀ q ∈ m, p.1 < q.1 :=
  (List.pairwise_cons.mp h.sorted).1

theorem find_none {k : List Char} {m : FactorMap} : m.find k = none ↔ ¬Var m k := by
  induction m with
  | nil => simp [find, Var]
  | cons p m ih =>
    obtain ⟨k', f⟩ := p
    rw [var_cons]
    unfold find
    by_cases h : k' = k
    · simp [h]
    · rw [if_neg h, ih]
      simp [Ne.symm h]

theorem find_mem {k : List Char} {f : Factor} {m : FactorMap} (h : m.find k = some f) : (k, f) ∈ m := by
  induction m with
  | nil => simp [find] at h
  | cons p m ih =>
    obtain ⟨k', f'⟩ := p
    unfold find at h
    by_cases hk : k' = k
    · rw [if_pos hk] at h; cases h; subst hk; exact List.mem_cons_self ..
    · rw [if_neg hk] at h; exact List.mem_cons_of_mem _ (ih h)

theorem OK.find_of_mem {m : FactorMap} (hm : OK m) {k : List Char} {f : Factor} (h : (k, f) ∈ m) : m.find k = some f := by
  induction m with
  | nil => simp at h
  | cons p m ih =>
    obtain ⟨k', f'⟩ := p
    unfold find
    rcases List.mem_cons.mp h with h | h
    · cases h; simp
    · have := hm.head _ h
      rw [if_neg (ne_of_lt this)]
      exact ih hm.tail h

theorem expo_of_not_var {m : FactorMap} {v : List Char} (h : ¬Var m v) : expo m v = 0 := by
  induction m with
  | nil => rfl
  | cons p m ih =>
    obtain ⟨k, f⟩ := p
    rw [var_cons, not_or] at h
    rw [expo_cons, if_neg (Ne.symm h.1), ih h.2, zero_add]

theorem OK.expo_of_mem {m : FactorMap} (hm : OK m) {v : List Char} {f : Factor} (h : (v, f) ∈ m) : expo m v = f.power.val := by
  induction m with
  | nil => simp at h
  | cons p m ih =>
    obtain ⟨k, g⟩ := p
    rw [expo_cons]
    rcases List.mem_cons.mp h with h | h
    · cases h
      rw [if_pos rfl, expo_of_not_var, add_zero]
      rintro ⟨g, hg⟩
      exact lt_irrefl _ (hm.head (v, g) hg)
    · rw [if_neg (ne_of_lt (hm.head _ h)), zero_add, ih hm.tail h]

/-! Inserting a new key. -/

theorem mem_insert {k : List Char} {f : Factor} {m : FactorMap} {q : List Char × Factor} :
    q ∈ m.insert k f ↔ q = (k, f) ∨ q ∈ m := by
  induction m with
  | nil => simp [insert]
  | cons p m ih =>
    obtain ⟨k', f'⟩ := p
    unfold insert
    by_cases h : k < k'
    · rw [if_pos h]; simp
    · rw [if_neg h, List.mem_cons, ih, List.mem_cons]; tauto

theorem OK.insert {m : FactorMap} (hm : OK m) {x : Factor} (hx : Canon x.power) (h : ¬Var m x.id) : OK (m.insert x.id x) := by
  constructor
  · induction m with
    | nil => exact List.pairwise_singleton ..
    | cons p m ih =>
      obtain ⟨k', f'⟩ := p
      rw [var_cons, not_or] at h
      unfold FactorMap.insert
      by_cases hk : x.id < k'
      · rw [if_pos hk]
        refine List.pairwise_cons.mpr ⟨fun q hq => ?_, hm.sorted⟩
        rcases List.mem_cons.mp hq with rfl | hq
        · exact hk
        · exact hk.trans (hm.head _ hq)
      · rw [if_neg hk]
        refine List.pairwise_cons.mpr ⟨fun q hq => ?_, ih hm.tail h.2⟩
        rcases mem_insert.mp hq with rfl | hq
        · exact lt_of_le_of_ne (not_lt.mp hk) (Ne.symm h.1)
        · exact hm.head _ hq
  · intro p hp
    rcases mem_insert.mp hp with rfl | hp
    · exact ⟨rfl, hx⟩
    · exact hm.keys p hp

theorem expo_insert {k : List Char} {f : Factor} {m : FactorMap} (v : List Char) :
    expo (m.insert k f) v = (if k = v then f.power.val else 0) + expo m v := by
  induction m with
  | nil => simp only [insert, expo_cons]
  | cons p m ih =>
    obtain ⟨k', f'⟩ := p
    unfold insert
    by_cases h : k < k'
    · rw [if_pos h, expo_cons]
    · rw [if_neg h, expo_cons, ih, expo_cons]; ring

theorem mono_insert (ρ : List Char → ℚ) {k : List Char} {f : Factor} {m : FactorMap} :
    mono ρ (m.insert k f) = ρ k ^ f.power.val * mono ρ m := by
  induction m with
  | nil => simp only [insert, mono_cons]
  | cons p m ih =>
    obtain ⟨k', f'⟩ := p
    unfold insert
    by_cases h : k < k'
    · rw [if_pos h, mono_cons]
    · rw [if_neg h, mono_cons, ih, mono_cons]; ring

/-! Changing a power. -/

theorem mem_setPower {k : List Char} {p : BigInt} {m : FactorMap} {q : List Char × Factor} (h : q ∈ m.setPower k p) :
    q ∈ m ∨ ∃ f, (k, f) ∈ m ∧ q = (k, { f with power := p }) := by
  induction m with
  | nil => simp [setPower] at h
  | cons p' m ih =>
    obtain ⟨k', f⟩ := p'
    unfold setPower at h
    by_cases hk : k' = k
    · subst hk
      rw [if_pos rfl] at h
      rcases List.mem_cons.mp h with h | h
      · exact .inr ⟨f, List.mem_cons_self .., h⟩
      · exact .inl (List.mem_cons_of_mem _ h)
    · rw [if_neg hk] at h
      rcases List.mem_cons.mp h with h | h
      · exact .inl (h ▸ List.mem_cons_self ..)
      · rcases ih h with h | ⟨g, h1, h2⟩
        · exact .inl (List.mem_cons_of_mem _ h)
        · exact .inr ⟨g, List.mem_cons_of_mem _ h1, h2⟩

theorem keys_setPower (k : List Char) (p : BigInt) (m : FactorMap) : (m.setPower k p).map (·.1) = m.map (·.1) := by
  induction m with
  | nil => rfl
  | cons p' m ih =>
    obtain ⟨k', f⟩ := p'
    unfold setPower
    by_cases hk : k' = k
    · rw [if_pos hk]; rfl
    · rw [if_neg hk, List.map_cons, List.map_cons, ih]

theorem var_iff_keys {m : FactorMap} {v : List Char} : Var m v ↔ v ∈ m.map (·.1) := by
  unfold Var
  simp

theorem OK.setPower {m : FactorMap} (hm : OK m) (k : List Char) {p : BigInt} (hp : Canon p) : OK (m.setPower k p) := by
  constructor
  · have := hm.sorted
    rw [← List.pairwise_map (f := fun q : List Char × Factor => q.1) (R := fun a b => a < b)] at this ⊢
    rwa [keys_setPower]
  · intro q hq
    rcases mem_setPower hq with hq | ⟨f, hf, rfl⟩
    · exact hm.keys q hq
    · exact ⟨(hm.keys _ hf).1, hp⟩

theorem OK.expo_setPower {m : FactorMap} (hm : OK m) {k : List Char} {f : Factor} (hf : (k, f) ∈ m) (p : BigInt) (v : List Char) :
    expo (m.setPower k p) v = expo m v + if k = v then p.val - f.power.val else 0 := by
  induction m with
  | nil => simp at hf
  | cons p' m ih =>
    obtain ⟨k', f'⟩ := p'
    unfold FactorMap.setPower
    rcases List.mem_cons.mp hf with h | h
    · cases h
      rw [if_pos rfl, expo_cons, expo_cons]
      split <;> ring
    · rw [if_neg (ne_of_lt (hm.head _ h)), expo_cons, expo_cons, ih hm.tail h]; ring

theorem OK.mono_setPower {m : FactorMap} (hm : OK m) {k : List Char} {f : Factor} (hf : (k, f) ∈ m) (p : BigInt)
    {ρ : List Char → ℚ} (hρ : ρ k ≠ 0) : mono ρ (m.setPower k p) = mono ρ m * ρ k ^ (p.val - f.power.val) := by
  induction m with
  | nil => simp at hf
  | cons p' m ih =>
    obtain ⟨k', f'⟩ := p'
    unfold FactorMap.setPower
    rcases List.mem_cons.mp hf with h | h
    · cases h
      rw [if_pos rfl, mono_cons, mono_cons, zpow_sub₀ hρ]
      have := zpow_ne_zero f.power.val hρ
      field_simp
    · rw [if_neg (ne_of_lt (hm.head _ h)), mono_cons, mono_cons, ih hm.tail h]; ring

/-! Two maps with the same variables and exponents are identical. -/

theorem OK.ext {m n : FactorMap} (hm : OK m) (hn : OK n) (hv : ∀ v, Var m v ↔ Var n v) (he : ∀ v, expo m v = expo n v) : m = n := by
  have key : ∀ {m n : FactorMap}, OK m → OK n → (∀ v, Var m v ↔ Var n v) → (∀ v, expo m v = expo n v) → ∀ q ∈ m, q ∈ n := by
    rintro m n hm hn hv he ⟨k, f⟩ hq
    obtain ⟨g, hg⟩ := (hv k).mp ⟨f, hq⟩
    have h1 := he k
    rw [hm.expo_of_mem hq, hn.expo_of_mem hg] at h1
    obtain ⟨a1, a2⟩ := hm.keys _ hq
    obtain ⟨b1, b2⟩ := hn.keys _ hg
    have : f = g := by
      cases f; cases g
      simp only at a1 b1 a2 b2 h1
      rw [Factor.mk.injEq]
      exact ⟨a1.symm.trans b1, a2.eq_of_val_eq b2 h1⟩
    rwa [this]
  have nod : ∀ {m : FactorMap}, OK m → m.Nodup := fun h => h.sorted.imp fun h1 h2 => absurd (h2 ▸ h1) (lt_irrefl _)
  have hp : m.Perm n := (List.perm_ext_iff_of_nodup (nod hm) (nod hn)).mpr fun q =>
    ⟨key hm hn hv he q, key hn hm (fun v => (hv v).symm) (fun v => (he v).symm) q⟩
  exact hp.eq_of_pairwise (fun a b _ _ h1 h2 => absurd (h1.trans h2) (lt_irrefl _)) hm.sorted hn.sorted

end FactorMap

/-! ### Terms -/

namespace Term
open FactorMap

/-- The variable occurs in the term. -/
def Var (t : Term) (v : List Char) : Prop := FactorMap.Var t.factors v

theorem WF.map {t : Term} (h : t.WF) : OK t.factors := ⟨h.sorted, h.keys⟩
theorem wf_of {t : Term} (hc : t.coeff.Valid) (h : OK t.factors) : t.WF := ⟨hc, h.sorted, h.keys⟩

theorem WF.has_iff {t : Term} (h : t.WF) {v : List Char} {e : ℤ} : t.Has v e ↔ t.Var v ∧ t.expo v = e := by
  constructor
  · rintro ⟨f, h1, h2⟩
    exact ⟨⟨f, h1⟩, (h.map.expo_of_mem h1).trans h2⟩
  · rintro ⟨⟨f, h1⟩, h2⟩
    exact ⟨f, h1, (h.map.expo_of_mem h1).symm.trans h2⟩

theorem var_iff {t : Term} {v : List Char} : t.Var v ↔ ∃ e, t.Has v e :=
  ⟨fun ⟨f, h⟩ => ⟨_, f, h, rfl⟩, fun ⟨_, f, h, _⟩ => ⟨f, h⟩⟩

theorem WF.ext {x y : Term} (hx : x.WF) (hy : y.WF) (hc : x.coeff.value = y.coeff.value) (hv : ∀ v, x.Var v ↔ y.Var v)
    (he : ∀ v, x.expo v = y.expo v) : x = y := by
  have h1 := hx.coeff.eq_of_value_eq hy.coeff hc
  have h2 := hx.map.ext hy.map hv he
  cases x; cases y; simp_all

/-- What appending a list of factors does. -/
structure Appended (t : Term) (xs : List Factor) (t' : Term) : Prop where
  map : OK t'.factors
  coeff : t'.coeff = t.coeff
  var : ∀ v, t'.Var v ↔ t.Var v ∨ ∃ x ∈ xs, x.id = v
  expo : ∀ v, t'.expo v = t.expo v + (xs.map fun x => if x.id = v then x.power.val else 0).sum
  mono : ∀ ρ : List Char → ℚ, (∀ x ∈ xs, ρ x.id ≠ 0) → t'.mono ρ = t.mono ρ * (xs.map (Factor.value ρ)).prod

theorem appendFactor_ok {t : Term} (ht : OK t.factors) {x : Factor} (hx : Canon x.power) :
    ∃ t', t.appendFactor x = .ok t' ∧ Appended t [x] t' := by
  unfold appendFactor
  cases h : t.factors.find x.id with
  | none =>
    have hv := find_none.mp h
    refine ⟨_, rfl, ht.insert hx hv, rfl, fun v => ?_, fun v => ?_, fun ρ _ => ?_⟩
    · unfold Var FactorMap.Var
      simp only [mem_insert, Prod.mk.injEq, exists_or, List.mem_singleton, exists_eq_left]
      constructor
      · rintro (⟨f, rfl, rfl⟩ | h)
        · exact .inr rfl
        · exact .inl h
      · rintro (h | rfl)
        · exact .inr h
        · exact .inl ⟨x, rfl, rfl⟩
    · change FactorMap.expo _ v = FactorMap.expo _ v + _
      rw [expo_insert]; simp [add_comm]
    · change FactorMap.mono ρ _ = FactorMap.mono ρ _ * _
      rw [mono_insert]; simp [Factor.value, mul_comm]
  | some f =>
    have hm := find_mem h
    obtain ⟨p, p1, p2, p3⟩ := addAssign_ok (ht.keys _ hm).2.clean hx.clean
    simp only [p1, bind_ok, pure_ok]
    refine ⟨_, rfl, ht.setPower _ p2, rfl, fun v => ?_, fun v => ?_, fun ρ hρ => ?_⟩
    · unfold Var
      simp only [var_iff_keys, keys_setPower, List.mem_singleton, exists_eq_left]
      constructor
      · exact .inl
      · rintro (h | rfl)
        · exact h
        · exact var_iff_keys.mp ⟨f, hm⟩
    · change FactorMap.expo _ v = FactorMap.expo _ v + _
      rw [ht.expo_setPower hm, p3]; simp
    · change FactorMap.mono ρ _ = FactorMap.mono ρ _ * _
      rw [ht.mono_setPower hm p (hρ x (List.mem_singleton.mpr rfl)), p3]; simp [Factor.value]

theorem Appended.refl {t : Term} (ht : OK t.factors) : Appended t [] t :=
  ⟨ht, rfl, by simp, by simp, by simp⟩

theorem Appended.trans {t t' t'' : Term} {xs ys : List Factor} (h : Appended t xs t') (h' : Appended t' ys t'') :
    Appended t (xs ++ ys) t'' := by
  refine ⟨h'.map, h'.coeff.trans h.coeff, fun v => ?_, fun v => ?_, fun ρ hρ => ?_⟩
  · rw [h'.var, h.var]
    simp only [List.mem_append]
    constructor
    · rintro ((h | ⟨x, h1, h2⟩) | ⟨x, h1, h2⟩)
      · exact .inl h
      · exact .inr ⟨x, .inl h1, h2⟩
      · exact .inr ⟨x, .inr h1, h2⟩
    · rintro (h | ⟨x, h1 | h1, h2⟩)
      · exact .inl (.inl h)
      · exact .inl (.inr ⟨x, h1, h2⟩)
      · exact .inr ⟨x, h1, h2⟩
  · rw [h'.expo, h.expo, List.map_append, List.sum_append, add_assoc]
  · rw [h'.mono ρ (fun x hx => hρ x (List.mem_append_right _ hx)), h.mono ρ (fun x hx => hρ x (List.mem_append_left _ hx)),
      List.map_append, List.prod_append, mul_assoc]

theorem appendFactors_ok {xs : List Factor} (hxs : ∀ x ∈ xs, Canon x.power) {t : Term} (ht : OK t.factors) :
    ∃ t', t.appendFactors xs = .ok t' ∧ Appended t xs t' := by
  induction xs generalizing t with
  | nil => exact ⟨t, rfl, Appended.refl ht⟩
  | cons x xs ih =>
    obtain ⟨u, u1, u2⟩ := appendFactor_ok ht (hxs x (List.mem_cons_self ..))
    obtain ⟨w, w1, w2⟩ := ih (fun y hy => hxs y (List.mem_cons_of_mem _ hy)) u2.map
    refine ⟨w, ?_, u2.trans w2⟩
    unfold appendFactors
    rw [u1, bind_ok, w1]

/-! The factors of a term as a list. -/

theorem WF.canon {t : Term} (h : t.WF) : ∀ x ∈ t.factors.map (·.2), Canon x.power := by
  intro x hx
  obtain ⟨p, hp, rfl⟩ := List.mem_map.mp hx
  exact (h.keys p hp).2

theorem WF.list_var {t : Term} (h : t.WF) (v : List Char) : (∃ x ∈ t.factors.map (·.2), x.id = v) ↔ t.Var v := by
  constructor
  · rintro ⟨x, hx, rfl⟩
    obtain ⟨⟨k, f⟩, hp, rfl⟩ := List.mem_map.mp hx
    exact ⟨f, by rw [← (h.keys _ hp).1]; exact hp⟩
  · rintro ⟨f, hf⟩
    exact ⟨f, List.mem_map.mpr ⟨_, hf, rfl⟩, (h.keys _ hf).1.symm⟩

theorem list_expo {m : FactorMap} (h : OK m) (v : List Char) :
    ((m.map (·.2)).map fun x => if x.id = v then x.power.val else 0).sum = FactorMap.expo m v := by
  induction m with
  | nil => rfl
  | cons p m ih =>
    obtain ⟨k, f⟩ := p
    have hk : k = f.id := (h.keys (k, f) (List.mem_cons_self ..)).1
    rw [List.map_cons, List.map_cons, List.sum_cons, ih h.tail, expo_cons, hk]

theorem list_mono {m : FactorMap} (h : OK m) (ρ : List Char → ℚ) :
    ((m.map (·.2)).map (Factor.value ρ)).prod = FactorMap.mono ρ m := by
  induction m with
  | nil => rfl
  | cons p m ih =>
    obtain ⟨k, f⟩ := p
    have hk : k = f.id := (h.keys (k, f) (List.mem_cons_self ..)).1
    rw [List.map_cons, List.map_cons, List.prod_cons, ih h.tail, mono_cons, hk]
    rfl

/-! Products. -/

/-- `t` is the product of `x` and `y` as far as the variables are concerned. -/
structure Times (x y t : Term) : Prop where
  var : ∀ v, t.Var v ↔ x.Var v ∨ y.Var v
  expo : ∀ v, t.expo v = x.expo v + y.expo v
  mono : ∀ ρ : List Char → ℚ, (∀ v, ρ v ≠ 0) → t.mono ρ = x.mono ρ * y.mono ρ

theorem Appended.times {x y t : Term} (hy : y.WF) (h : Appended x (y.factors.map (·.2)) t) : Times x y t := by
  refine ⟨fun v => ?_, fun v => ?_, fun ρ hρ => ?_⟩
  · rw [h.var, hy.list_var]
  · rw [h.expo, list_expo hy.map]; rfl
  · rw [h.mono ρ fun _ _ => hρ _, list_mono hy.map]; rfl

theorem mulAssign_ok {x y : Term} (hx : x.WF) (hy : y.WF) :
    ∃ t, Appended x (y.factors.map (·.2)) t ∧ x.mulAssign y = (do
      let c ← Frac.drop (x.coeff.mulAssign y.coeff); return { t with coeff := c }) := by
  obtain ⟨t, t1, t2⟩ := appendFactors_ok hy.canon hx.map
  refine ⟨t, t2, ?_⟩
  unfold mulAssign
  rw [t1, bind_ok, t2.coeff]

theorem squareLoop_ok {n : Nat} : ∀ {i : Nat} {t : Term}, OK t.factors → n + i = t.factors.length →
    ∃ t', squareLoop n i t = .ok t' ∧ Appended t ((t.factors.drop i).map (·.2)) t' := by
  induction n with
  | zero =>
    intro i t ht hi
    refine ⟨t, rfl, ?_⟩
    rw [List.drop_eq_nil_of_le (by omega)]
    exact Appended.refl ht
  | succ n ih =>
    intro i t ht hi
    have hlt : i < t.factors.length := by omega
    obtain ⟨⟨k, f⟩, hkf⟩ : ∃ p, t.factors[i]? = some p := ⟨_, List.getElem?_eq_getElem hlt⟩
    have hmem : (k, f) ∈ t.factors := List.mem_of_getElem? hkf
    obtain ⟨hk, hc⟩ := ht.keys _ hmem
    simp only at hk hc
    subst hk
    have hfind := ht.find_of_mem hmem
    obtain ⟨p, p1, p2, p3⟩ := addAssign_ok hc.clean hc.clean
    unfold squareLoop
    simp only [hkf]
    rw [if_pos ⟨trivial, hfind⟩, addAssignMem_eq]
    simp only [p1, bind_ok, pure_ok, Mem.set, if_true]
    -- one step is an ordinary append of a copy of the factor
    have happ : t.appendFactor f = .ok { t with factors := t.factors.setPower f.id p } := by
      unfold appendFactor
      rw [hfind]
      simp [p1]
    obtain ⟨u, u1, u2⟩ := appendFactor_ok ht hc
    rw [happ] at u1
    cases u1
    have hdrop : (t.factors.setPower f.id p).drop (i + 1) = t.factors.drop (i + 1) := by
      have : ∀ (m : FactorMap) (i : Nat), OK m → m[i]? = some (f.id, f) → (m.setPower f.id p).drop (i + 1) = m.drop (i + 1) := by
        intro m
        induction m with
        | nil => intro i _ h; simp at h
        | cons q m ih =>
          obtain ⟨k', f'⟩ := q
          intro i hm h
          unfold FactorMap.setPower
          cases i with
          | zero =>
            simp only [List.getElem?_cons_zero, Option.some.injEq, Prod.mk.injEq] at h
            rw [if_pos h.1]; rfl
          | succ i =>
            rw [List.getElem?_cons_succ] at h
            rw [if_neg (ne_of_lt (hm.head _ (List.mem_of_getElem? h)))]
            exact ih i hm.tail h
      exact this _ _ ht hkf
    have hlen : (t.factors.setPower f.id p).length = t.factors.length := by
      have := congrArg List.length (keys_setPower f.id p t.factors)
      simpa using this
    obtain ⟨w, w1, w2⟩ := ih (i := i + 1) (t := { t with factors := t.factors.setPower f.id p }) u2.map (by
      simp only [hlen]; omega)
    refine ⟨w, w1, ?_⟩
    simp only [hdrop] at w2
    have e : t.factors.drop i = (f.id, f) :: t.factors.drop (i + 1) := by
      rw [List.getElem?_eq_getElem hlt, Option.some.injEq] at hkf
      rw [← hkf]
      exact List.drop_eq_getElem_cons hlt
    rw [e, List.map_cons]
    exact u2.trans w2

theorem mulAssignSelf_eq {x : Term} (hx : x.WF) : x.mulAssignSelf = x.mulAssign x := by
  obtain ⟨t, t1, t2⟩ := squareLoop_ok (n := x.factors.length) (i := 0) hx.map rfl
  obtain ⟨u, u1, u2⟩ := appendFactors_ok hx.canon hx.map
  rw [List.drop_zero] at t2
  have htu : t = u := by
    have : t.factors = u.factors := t2.map.ext u2.map (fun v => ((t2.var v).trans (u2.var v).symm)) fun v =>
      ((t2.expo v).trans (u2.expo v).symm)
    have hc := t2.coeff.trans u2.coeff.symm
    cases t; cases u; simp_all
  unfold mulAssignSelf mulAssign
  rw [t1, u1, htu, bind_ok, bind_ok, u2.coeff, Frac.mulAssignMem_eq]
  cases h : Frac.mulAssign x.coeff x.coeff with
  | ok c => simp [Frac.drop, FMem.set, FMem.update]
  | error e => obtain ⟨e, s⟩ := e; simp [Frac.drop, FMem.update]

end Term
end CppMaths
