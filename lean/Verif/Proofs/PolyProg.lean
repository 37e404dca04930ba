import Verif.Spec.PolyProg
import Verif.Proofs.PolyAux
import Verif.Proofs.MatSafe
import Mathlib.Algebra.MonoidAlgebra.Basic
/-!
# One statement of a program with polynomials
-/

namespace CppMaths
open BigInt Term

theorem Term.monomial_apply (t : Term) (v : List Char) : t.monomial v = t.expo v := by
  have h : ∀ m : FactorMap, (m.map fun p => vpow p.1 p.2.power.val).sum v = FactorMap.expo m v := by
    intro m
    induction m with
    | nil => rfl
    | cons p m ih => obtain ⟨k, f⟩ := p; simp [FactorMap.expo_cons, vpow, Finsupp.single_apply, ← ih]
  exact h t.factors

theorem vpow_apply (k : List Char) (e : ℤ) (v : List Char) : vpow k e v = if k = v then e else 0 := by
  simp [vpow, Finsupp.single_apply]

theorem vpow_sum_apply (xs : List Factor) (v : List Char) :
    (xs.map fun x => vpow x.id x.power.val).sum v = (xs.map fun x => if x.id = v then x.power.val else 0).sum := by
  induction xs with
  | nil => rfl
  | cons x xs ih => simp [vpow_apply, ih]

theorem Term.Appended.monomial {t t' : Term} {xs : List Factor} (h : Appended t xs t') :
    t'.monomial = t.monomial + (xs.map fun x => vpow x.id x.power.val).sum := by
  ext v
  rw [Finsupp.add_apply, monomial_apply, monomial_apply, h.expo, vpow_sum_apply]

/-- What a term variable should hold. -/
def TermIs (c : ℚ) (m : Mono) (t : Term) : Prop := t.WF ∧ t.coeff.value = c ∧ t.monomial = m

/-- What a polynomial variable should hold. -/
def PolyIs (l : Laurent) (p : Poly) : Prop := p.WF ∧ p.laurent = l

/-- A term as a Laurent polynomial. -/
noncomputable def Term.lap (t : Term) : Laurent := AddMonoidAlgebra.single t.monomial t.coeff.value

theorem TermIs.lap {c : ℚ} {m : Mono} {t : Term} (h : TermIs c m t) : t.lap = AddMonoidAlgebra.single m c := by
  unfold Term.lap; rw [h.2.1, h.2.2]

variable {A : Err → Prop}

theorem appendFactors_is {t : Term} (ht : t.WF) {xs : List Factor} (hxs : ∀ x ∈ xs, Canon x.power) :
    Out A (t.appendFactors xs) (TermIs t.coeff.value (t.monomial + (xs.map fun x => vpow x.id x.power.val).sum)) := by
  obtain ⟨u, u1, u2⟩ := appendFactors_ok hxs ht.map
  rw [u1]
  exact Out.ok ⟨wf_of (u2.coeff ▸ ht.coeff) u2.map, by rw [u2.coeff], u2.monomial⟩

theorem appendFactor_is {t : Term} (ht : t.WF) {x : Factor} (hx : Canon x.power) :
    Out A (t.appendFactor x) (TermIs t.coeff.value (t.monomial + vpow x.id x.power.val)) := by
  obtain ⟨u, u1, u2⟩ := appendFactor_ok ht.map hx
  rw [u1]
  exact Out.ok ⟨wf_of (u2.coeff ▸ ht.coeff) u2.map, by rw [u2.coeff], by rw [u2.monomial]; simp⟩

theorem empty_wf {c : Frac} (hc : c.Valid) : (⟨c, []⟩ : Term).WF := ⟨hc, List.Pairwise.nil, by simp⟩

theorem ofCoeff_is {c : Frac} (hc : c.Valid) {x : Factor} (hx : Canon x.power) :
    Out A (Term.ofCoeff c x) (TermIs c.value (vpow x.id x.power.val)) := by
  refine (appendFactor_is (empty_wf hc) hx).mono fun t h => ?_
  simpa [Term.monomial] using h

theorem unit_valid : (⟨⟨[1], false⟩, ⟨[1], false⟩⟩ : Frac).Valid := by decide
theorem unit_value : (⟨⟨[1], false⟩, ⟨[1], false⟩⟩ : Frac).value = 1 := by simp [Frac.value, BigInt.val, mag]
theorem unit_ofI32 : Frac.ofI32 1 = .ok ⟨⟨[1], false⟩, ⟨[1], false⟩⟩ := by decide +kernel
theorem minus_valid : (⟨⟨[1], true⟩, ⟨[1], false⟩⟩ : Frac).Valid := by decide
theorem minus_value : (⟨⟨[1], true⟩, ⟨[1], false⟩⟩ : Frac).value = -1 := by simp [Frac.value, BigInt.val, mag]
theorem minus_ofI32 : Frac.ofI32 (-1) = .ok ⟨⟨[1], true⟩, ⟨[1], false⟩⟩ := by decide +kernel

theorem ofFactor_is {x : Factor} (hx : Canon x.power) : Out A (Term.ofFactor x) (TermIs 1 (vpow x.id x.power.val)) := by
  unfold Term.ofFactor
  rw [unit_ofI32, bind_ok]
  have h := ofCoeff_is (A := A) unit_valid hx
  rwa [unit_value] at h

theorem ofFactors_is {c : Frac} (hc : c.Valid) {xs : List Factor} (hxs : ∀ x ∈ xs, Canon x.power) :
    Out A (Term.ofFactors c xs) (TermIs c.value (xs.map fun x => vpow x.id x.power.val).sum) := by
  refine (appendFactors_is (empty_wf hc) hxs).mono fun t h => ?_
  simpa [Term.monomial] using h

theorem mulFactors_is {x y : Factor} (hx : Canon x.power) (hy : Canon y.power) :
    Out A (Term.mulFactors x y) (TermIs 1 (vpow x.id x.power.val + vpow y.id y.power.val)) := by
  refine Out.bind (ofFactor_is hx) fun t ht => (appendFactor_is ht.1 hy).mono fun u hu => ?_
  rwa [ht.2.1, ht.2.2] at hu

theorem coeff_of_values {t : Term} {a : ℚ} (h : t.value (fun _ => 1) = a) : t.coeff.value = a := by
  rw [← h]; simp [Term.value, Term.mono]

theorem negate_is {t : Term} (ht : t.WF) : Out Aborts t.negate (TermIs (-t.coeff.value) t.monomial) := by
  refine (negate_ok ht).mono fun u ⟨h1, h2, h3⟩ => ⟨h1, ?_, by unfold Term.monomial; rw [h2]⟩
  exact coeff_of_values ((h3 fun _ => 1).trans (by simp [Term.value, Term.mono]))

theorem mulAssign_is {x y : Term} (hx : x.WF) (hy : y.WF) :
    Out Aborts (x.mulAssign y) (TermIs (x.coeff.value * y.coeff.value) (x.monomial + y.monomial)) := by
  have hxb : (x.coeff.bb.val : ℚ) ≠ 0 := by exact_mod_cast hx.coeff.bb_ne
  have hyb : (y.coeff.bb.val : ℚ) ≠ 0 := by exact_mod_cast hy.coeff.bb_ne
  unfold Term.mulAssign
  refine Out.bind (appendFactors_is hx (xs := y.factors.map (·.2)) ?_) fun t ht => ?_
  · intro f hf
    obtain ⟨p, hp, rfl⟩ := List.mem_map.mp hf
    exact (hy.keys p hp).2
  · have htb : (t.coeff.bb.val : ℚ) ≠ 0 := by exact_mod_cast ht.1.coeff.bb_ne
    refine Out.bind ((Frac.mulAssign_red ht.1.coeff hy.coeff).yields (q := t.coeff.value * y.coeff.value) (by
      unfold Frac.value; push_cast; field_simp)).out fun c hc => Out.ok ⟨⟨hc.1, ht.1.sorted, ht.1.keys⟩, ?_, ?_⟩
    · change c.value = _
      rw [hc.2, ht.2.1]
    · change t.monomial = _
      rw [ht.2.2, List.map_map]
      congr 1
      unfold Term.monomial
      congr 1
      exact List.map_congr_left fun p hp => by simp [(hy.keys p hp).1]

/-- An abort, or undefined behaviour. -/
def AbortsOrUB (e : Err) : Prop := e = .assertion ∨ e = .ub

theorem Aborts.or {e : Err} (h : Aborts e) : AbortsOrUB e := .inl h

theorem laurent_append (a b : List Term) : (⟨a ++ b⟩ : Poly).laurent = (⟨a⟩ : Poly).laurent + (⟨b⟩ : Poly).laurent := by
  simp [Poly.laurent]

theorem laurent_cons (t : Term) (b : List Term) : (⟨t :: b⟩ : Poly).laurent = t.lap + (⟨b⟩ : Poly).laurent := by
  simp [Poly.laurent, Term.lap]

theorem appendTerm_is {p : Poly} (hp : p.WF) {x : Term} (hx : x.WF) :
    Out AbortsOrUB (p.appendTerm x) (PolyIs (p.laurent + x.lap)) := by
  obtain ⟨l⟩ := p
  unfold Poly.appendTerm
  refine Out.bind (P := fun l' => PolyIs ((⟨l⟩ : Poly).laurent + x.lap) ⟨l'⟩) ?_ fun l' h => Out.ok h
  rcases Poly.appendLoop_cases hp hx with ⟨_, h2⟩ | ⟨pre, t, post, hl, _, _, h4⟩
  · change Out _ (Poly.appendLoop x l) _
    rw [show Poly.appendLoop x l = _ from h2]; exact Out.err (.inr rfl)
  · change l = _ at hl
    subst hl
    have hw : ∀ t' ∈ pre ++ t :: post, t'.WF := hp
    have ht := hw t (by simp)
    rcases h4 with ⟨h4, h5⟩ | ⟨h4, h5⟩
    · change Out _ (Poly.appendLoop x (pre ++ t :: post)) _
      rw [show Poly.appendLoop x (pre ++ t :: post) = _ from h5]
      refine Out.bind ((Poly.drop_addAssign_out ht.coeff hx.coeff).weakenErr fun _ => Aborts.or) fun c hc => Out.ok ⟨?_, ?_⟩
      · intro t' ht'
        rcases List.mem_append.mp ht' with h | h
        · exact hw _ (by simp [h])
        · rcases List.mem_cons.mp h with rfl | h
          · exact ⟨hc.1, ht.sorted, ht.keys⟩
          · exact hw _ (by simp [h])
      · rw [laurent_append, laurent_append, laurent_cons, laurent_cons]
        have : ({ t with coeff := c } : Term).lap = t.lap + x.lap := by
          have hf := (same_iff_factors ht hx).mp h4
          have hm : x.monomial = t.monomial := by unfold Term.monomial; rw [hf]
          unfold Term.lap
          rw [hm, ← AddMonoidAlgebra.single_add]
          congr 1
          exact hc.2
        rw [this]; abel
    · change Out _ (Poly.appendLoop x (pre ++ t :: post)) _
      rw [show Poly.appendLoop x (pre ++ t :: post) = _ from h5]
      refine Out.ok ⟨?_, ?_⟩
      · intro t' ht'
        simp only [List.mem_append, List.mem_cons] at ht'
        rcases ht' with h | rfl | rfl | h
        · exact hw _ (by simp [h])
        · exact hx
        · exact ht
        · exact hw _ (by simp [h])
      · rw [laurent_append, laurent_append, laurent_cons, laurent_cons]; abel

theorem appendAll_is {xs : List Term} (hxs : ∀ x ∈ xs, x.WF) {p : Poly} (hp : p.WF) :
    Out AbortsOrUB (p.appendAll xs) (PolyIs (p.laurent + (xs.map Term.lap).sum)) := by
  induction xs generalizing p with
  | nil => exact Out.ok ⟨hp, by simp⟩
  | cons x xs ih =>
    refine Out.bind (appendTerm_is hp (hxs x (by simp))) fun q hq => (ih (fun y hy => hxs y (by simp [hy])) hq.1).mono fun r hr => ?_
    rw [hq.2, add_assoc] at hr
    simpa using hr

theorem appendFactorTerms_is {xs : List Factor} (hxs : ∀ x ∈ xs, Canon x.power) {p : Poly} (hp : p.WF) :
    Out AbortsOrUB (p.appendFactorTerms xs)
      (PolyIs (p.laurent + (xs.map fun x => (AddMonoidAlgebra.single (vpow x.id x.power.val) 1 : Laurent)).sum)) := by
  induction xs generalizing p with
  | nil => exact Out.ok ⟨hp, by simp⟩
  | cons x xs ih =>
    refine Out.bind (ofFactor_is (hxs x (by simp))) fun t ht => Out.bind (appendTerm_is hp ht.1) fun q hq =>
      (ih (fun y hy => hxs y (by simp [hy])) hq.1).mono fun r hr => ?_
    rw [hq.2, ht.lap, add_assoc] at hr
    simpa using hr

theorem appendTerms_is {p : Poly} (hp : p.WF) {xs : List Term} (hxs : ∀ x ∈ xs, x.WF) :
    Out AbortsOrUB (p.appendTerms xs) (PolyIs (p.laurent + (xs.map Term.lap).sum)) := by
  obtain ⟨b, b1, _⟩ := Poly.sorted_spec hp
  obtain ⟨c, c1, _⟩ := Poly.sorted_spec hxs
  obtain ⟨r, r1, r2⟩ := Poly.mergeLoop_perm hp hxs
  unfold Poly.appendTerms
  rw [b1, c1, bind_ok, bind_ok]
  by_cases h : (b && c) = true
  · rw [if_pos h, r1]
    refine Out.ok ⟨fun t ht => ?_, ?_⟩
    · rcases List.mem_append.mp (r2.subset ht) with h | h
      · exact hp t h
      · exact hxs t h
    · unfold Poly.laurent
      rw [(r2.map _).sum_eq, List.map_append, List.sum_append]
      rfl
  · rw [if_neg h]; exact Out.err (.inr rfl)

theorem ofTerm_is {t : Term} (ht : t.WF) : PolyIs t.lap (Poly.ofTerm t) :=
  ⟨by simpa [Poly.WF, Poly.ofTerm] using ht, by simp [Poly.laurent, Poly.ofTerm, Term.lap]⟩

theorem polyOfFactor_is {x : Factor} (hx : Canon x.power) :
    Out A (Poly.ofFactor x) (PolyIs (AddMonoidAlgebra.single (vpow x.id x.power.val) 1)) :=
  Out.bind (ofFactor_is hx) fun t ht => Out.ok (by have h := ofTerm_is ht.1; rwa [ht.lap] at h)

theorem addTerms_is {x y : Term} (hx : x.WF) (hy : y.WF) : Out AbortsOrUB (Poly.addTerms x y) (PolyIs (x.lap + y.lap)) := by
  have h := ofTerm_is hx
  have h2 := appendTerm_is h.1 hy
  rwa [h.2] at h2

theorem subTerms_is {x y : Term} (hx : x.WF) (hy : y.WF) : Out AbortsOrUB (Poly.subTerms x y) (PolyIs (x.lap - y.lap)) := by
  refine Out.bind ((negate_is hy).weakenErr fun _ => Aborts.or) fun t ht => ?_
  have h := ofTerm_is hx
  have h2 := appendTerm_is h.1 ht.1
  rw [h.2, ht.lap] at h2
  refine h2.mono fun p hp => ?_
  have : (AddMonoidAlgebra.single y.monomial (-y.coeff.value) : Laurent) = -y.lap := by
    unfold Term.lap; exact AddMonoidAlgebra.single_neg ..
  rwa [this, ← sub_eq_add_neg] at hp

theorem addAssign_is {p : Poly} (hp : p.WF) {x : Factor} (hx : Canon x.power) :
    Out AbortsOrUB (p.addAssign x) (PolyIs (p.laurent + AddMonoidAlgebra.single (vpow x.id x.power.val) 1)) :=
  Out.bind (ofFactor_is hx) fun t ht => by have h := appendTerm_is hp ht.1; rwa [ht.lap] at h

theorem subAssign_is {p : Poly} (hp : p.WF) {x : Factor} (hx : Canon x.power) :
    Out AbortsOrUB (p.subAssign x) (PolyIs (p.laurent - AddMonoidAlgebra.single (vpow x.id x.power.val) 1)) := by
  unfold Poly.subAssign
  rw [minus_ofI32, bind_ok]
  refine Out.bind (ofCoeff_is minus_valid hx) fun t ht => (appendTerm_is hp ht.1).mono fun q hq => ?_
  rwa [ht.lap, minus_value, AddMonoidAlgebra.single_neg, ← sub_eq_add_neg] at hq

theorem addFactors_is {x y : Factor} (hx : Canon x.power) (hy : Canon y.power) : Out AbortsOrUB (Poly.addFactors x y)
    (PolyIs (AddMonoidAlgebra.single (vpow x.id x.power.val) 1 + AddMonoidAlgebra.single (vpow y.id y.power.val) 1)) :=
  Out.bind (ofFactor_is hx) fun t ht => Out.bind (ofFactor_is hy) fun u hu => by
    have h := addTerms_is ht.1 hu.1
    rwa [ht.lap, hu.lap] at h

theorem subFactors_is {x y : Factor} (hx : Canon x.power) (hy : Canon y.power) : Out AbortsOrUB (Poly.subFactors x y)
    (PolyIs (AddMonoidAlgebra.single (vpow x.id x.power.val) 1 - AddMonoidAlgebra.single (vpow y.id y.power.val) 1)) :=
  Out.bind (polyOfFactor_is hx) fun p hp => by
    have h := subAssign_is hp.1 hy
    rwa [hp.2] at h

/-! Statements. -/

/-- How a statement may fail. -/
def PStmt.MayFail (s : PStmt) (e : Err) : Prop := e = .assertion ∨ s.Inserts ∧ e = .ub

theorem Out.inserts {α : Type} {r : Res α} {P : α → Prop} (h : Out AbortsOrUB r P) {s : PStmt} (hs : s.Inserts) : Out s.MayFail r P :=
  h.weakenErr fun _ he => he.imp id fun he => ⟨hs, he⟩

section store
variable {σ : PStore} (h : σ.Good)
include h

theorem setF_good (i : Nat) {f : Factor} (hf : Canon f.power) :
    (σ.setF i f).Good ∧ (σ.setF i f).den = σ.den.setF i (f.id, f.power.val) := by
  refine ⟨⟨fun j => ?_, h.term, h.poly⟩, ?_⟩
  · unfold PStore.setF
    by_cases hj : j = i
    · subst hj; simpa using hf
    · simpa [hj] using h.factor j
  · unfold PStore.setF PStore.den PEnv.setF
    simp only [PEnv.mk.injEq, and_true]
    funext j
    by_cases hj : j = i
    · subst hj; simp
    · simp [hj]

theorem setT_good (i : Nat) {t : Term} {c : ℚ} {m : Mono} (ht : TermIs c m t) :
    (σ.setT i t).Good ∧ (σ.setT i t).den = σ.den.setT i (c, m) := by
  obtain ⟨h1, rfl, rfl⟩ := ht
  refine ⟨⟨h.factor, fun j => ?_, h.poly⟩, ?_⟩
  · unfold PStore.setT
    by_cases hj : j = i
    · subst hj; simpa using h1
    · simpa [hj] using h.term j
  · unfold PStore.setT PStore.den PEnv.setT
    simp only [PEnv.mk.injEq, and_true, true_and]
    funext j
    by_cases hj : j = i
    · subst hj; simp
    · simp [hj]

theorem setP_good (i : Nat) {p : Poly} {l : Laurent} (hp : PolyIs l p) :
    (σ.setP i p).Good ∧ (σ.setP i p).den = σ.den.setP i l := by
  obtain ⟨h1, rfl⟩ := hp
  refine ⟨⟨h.factor, h.term, fun j => ?_⟩, ?_⟩
  · unfold PStore.setP
    by_cases hj : j = i
    · subst hj; simpa using h1
    · simpa [hj] using h.poly j
  · unfold PStore.setP PStore.den PEnv.setP
    simp only [PEnv.mk.injEq, true_and]
    funext j
    by_cases hj : j = i
    · subst hj; simp
    · simp [hj]

theorem getsT_ok (i : Nat) {r : Res Term} {c : ℚ} {m : Mono} (hr : Out A r (TermIs c m)) :
    Out A (σ.getsT i r) (fun σ' => σ'.Good ∧ σ'.den = σ.den.setT i (c, m)) :=
  Out.bind hr fun _ ht => Out.ok (setT_good h i ht)

theorem getsP_ok (i : Nat) {r : Res Poly} {l : Laurent} (hr : Out A r (PolyIs l)) :
    Out A (σ.getsP i r) (fun σ' => σ'.Good ∧ σ'.den = σ.den.setP i l) :=
  Out.bind hr fun _ hp => Out.ok (setP_good h i hp)

theorem mulAssign_stmt (i j : Nat) : Out Aborts (if i = j then (σ.term i).mulAssignSelf else (σ.term i).mulAssign (σ.term j))
    (TermIs ((σ.term i).coeff.value * (σ.term j).coeff.value) ((σ.term i).monomial + (σ.term j).monomial)) := by
  by_cases hij : i = j
  · subst hij
    rw [if_pos rfl, mulAssignSelf_eq (h.term i)]
    exact mulAssign_is (h.term i) (h.term i)
  · rw [if_neg hij]
    exact mulAssign_is (h.term i) (h.term j)

theorem exec_ok {s : PStmt} (hs : s.Legal) : Out s.MayFail (s.exec σ) (fun σ' => σ'.Good ∧ σ'.den = s.sem σ.den) := by
  have hterms : ∀ js : List Nat, ∀ x ∈ js.map σ.term, x.WF := by
    intro js x hx; obtain ⟨j, _, rfl⟩ := List.mem_map.mp hx; exact h.term j
  have hfactors : ∀ js : List Nat, ∀ x ∈ js.map σ.factor, Canon x.power := by
    intro js x hx; obtain ⟨j, _, rfl⟩ := List.mem_map.mp hx; exact h.factor j
  have hnil : (⟨[]⟩ : Poly).WF := by simp [Poly.WF]
  have hzero : (⟨[]⟩ : Poly).laurent = 0 := rfl
  cases s with
  | factor i id n => exact Out.ok (setF_good h i hs)
  | setId i id => exact Out.ok (setF_good h i (f := { σ.factor i with id := id }) (h.factor i))
  | setPower i n => exact Out.ok (setF_good h i (f := { σ.factor i with power := n }) hs)
  | copyFactor i j => exact Out.ok (setF_good h i (h.factor j))
  | term i j => exact getsT_ok h i (ofFactor_is (h.factor j))
  | termCoeff i c j => exact getsT_ok h i (ofCoeff_is hs (h.factor j))
  | termFactors i c js =>
    have h1 := ofFactors_is (A := (PStmt.termFactors i c js).MayFail) hs (hfactors js)
    rw [List.map_map] at h1
    exact getsT_ok h i h1
  | setCoeff i c => exact Out.ok (setT_good h i (t := { σ.term i with coeff := c }) ⟨⟨hs, (h.term i).sorted, (h.term i).keys⟩, rfl, rfl⟩)
  | negate i => exact getsT_ok h i ((negate_is (h.term i)).weakenErr fun _ he => .inl he)
  | appendFactor i j => exact getsT_ok h i (appendFactor_is (h.term i) (h.factor j))
  | copyTerm i j => exact Out.ok (setT_good h i ⟨h.term j, rfl, rfl⟩)
  | mulFactors i j k => exact getsT_ok h i (mulFactors_is (h.factor j) (h.factor k))
  | mulFactor i j k => exact getsT_ok h i (appendFactor_is (h.term j) (h.factor k))
  | factorMul i j k =>
    have h1 := appendFactor_is (A := (PStmt.factorMul i j k).MayFail) (h.term k) (h.factor j)
    rw [add_comm] at h1
    exact getsT_ok h i h1
  | mul i j k => exact getsT_ok h i ((mulAssign_is (h.term j) (h.term k)).weakenErr fun _ he => .inl he)
  | mulAssignFactor i j => exact getsT_ok h i (appendFactor_is (h.term i) (h.factor j))
  | mulAssign i j => exact getsT_ok h i ((mulAssign_stmt h i j).weakenErr fun _ he => .inl he)
  | poly i j => exact getsP_ok h i (polyOfFactor_is (h.factor j))
  | polyTerm i j => exact Out.ok (setP_good h i (ofTerm_is (h.term j)))
  | polyFactors i js =>
    have h1 := (appendFactorTerms_is (hfactors js) hnil).inserts (s := PStmt.polyFactors i js) trivial
    rw [hzero, zero_add, List.map_map] at h1
    exact getsP_ok h i h1
  | polyTerms i js =>
    have h1 := (appendAll_is (hterms js) hnil).inserts (s := PStmt.polyTerms i js) trivial
    rw [hzero, zero_add, List.map_map] at h1
    exact getsP_ok h i h1
  | appendTerm i j =>
    exact getsP_ok h i ((appendTerm_is (h.poly i) (h.term j)).inserts trivial)
  | appendTerms i js =>
    have h1 := (appendTerms_is (h.poly i) (hterms js)).inserts (s := PStmt.appendTerms i js) trivial
    rw [List.map_map] at h1
    exact getsP_ok h i h1
  | copyPoly i j => exact Out.ok (setP_good h i ⟨h.poly j, rfl⟩)
  | addFactors i j k =>
    exact getsP_ok h i ((addFactors_is (h.factor j) (h.factor k)).inserts trivial)
  | subFactors i j k =>
    exact getsP_ok h i ((subFactors_is (h.factor j) (h.factor k)).inserts trivial)
  | addTerms i j k =>
    exact getsP_ok h i ((addTerms_is (h.term j) (h.term k)).inserts trivial)
  | subTerms i j k =>
    exact getsP_ok h i ((subTerms_is (h.term j) (h.term k)).inserts trivial)
  | addAssign i j =>
    exact getsP_ok h i ((addAssign_is (h.poly i) (h.factor j)).inserts trivial)
  | subAssign i j =>
    exact getsP_ok h i ((subAssign_is (h.poly i) (h.factor j)).inserts trivial)

end store

end CppMaths
