import Verif.Spec.PolyRelease
import Verif.Proofs.PolyProg
import Verif.Proofs.FracReleaseAux
/-!
# Polynomials without assertions
-/

namespace CppMaths
open BigInt Frac

/-! ### The same outcome, with `out_of_range` for assertions -/

/-- `u` is the outcome of a build without assertions if `r` is the one with them. -/
def Rel {α : Type} (r u : Res α) : Prop := u = throwing r

theorem Rel.ok {α : Type} (a : α) : Rel (.ok a) (.ok a) := rfl

theorem Rel.bind {α β : Type} {r u : Res α} {f g : α → Res β} (h : Rel r u) (hf : ∀ a, r = .ok a → Rel (f a) (g a)) : Rel (r >>= f) (u >>= g) := by
  unfold Rel at h
  subst h
  cases r with
  | ok a => exact hf a rfl
  | error e => cases e <;> rfl

theorem Rel.same {α : Type} {r : Res α} (h : r ≠ .error .assertion) : Rel r r := by
  unfold Rel
  cases r with
  | ok a => rfl
  | error e => cases e <;> first | rfl | exact absurd rfl h

theorem Rel.of_ok {α : Type} {r u : Res α} {a : α} (h : r = .ok a) (h' : u = .ok a) : Rel r u := by rw [h, h']; exact Rel.ok a

theorem drop_bind' {σ α β : Type} (a : Except (Err × σ) α) (f : α → Except (Err × σ) β) : drop (a >>= f) = drop a >>= fun x => drop (f x) := by
  rcases a with ⟨e, s⟩ | x <;> rfl

theorem drop_at' {σ α : Type} (s : σ) (r : Res α) : drop (at' s r) = r := by cases r <;> rfl

/-- Fractions. -/
theorem mred_rel {r u : MRes Frac Frac} {t b : Int} (h : MRed r t b) (h' : MRedU u t b) (hk : ∀ f, r = .ok f → u = .ok f) : Rel (drop r) (drop u) := by
  by_cases ha : ReduceAborts t b
  · obtain ⟨s, hs⟩ := h.2 ha
    obtain ⟨s', hs', _⟩ := h'.2 ha
    rw [hs, hs']; rfl
  · obtain ⟨f, hf, _⟩ := h.1 ha
    rw [hf, hk f hf]; rfl

theorem parts_ne (op : FOp) (hop : op ≠ .div) {x : Frac} (hx : x.Valid) {q : ℚ} : (op.parts x.value q).2 ≠ 0 := by
  cases op <;> simp_all [FOp.parts, x.value.den_nz, q.den_nz]

theorem asgVal_rel {op : FOp} (hop : op ≠ .div) {x y : Frac} (hx : x.Valid) (hy : y.Valid) : Rel (drop (op.asgVal x y)) (drop (op.asgValU x y)) :=
  mred_rel (op.asgVal_red hx hy (parts_ne op hop hx)) (op.asgValU_red hx hy (parts_ne op hop hx)) (op.asgVal_keeps x y)

theorem asgInt_rel {op : FOp} (hop : op ≠ .div) {x : Frac} {a : BigInt} (hx : x.Valid) (ha : Canon a) : Rel (drop (op.asgInt x a)) (drop (op.asgIntU x a)) :=
  mred_rel (op.asgInt_red hx ha (parts_ne op hop hx)) (op.asgIntU_red hx ha (parts_ne op hop hx)) (op.asgInt_keeps x a)

namespace Term

theorem drop_atCoeff (t : Term) (r : MRes Frac Frac) : drop (t.atCoeff r) = (drop r >>= fun c => .ok { t with coeff := c }) := by
  rcases r with ⟨e, s⟩ | x <;> rfl

/-! ### Factors -/

theorem appendFactor_keeps {t t' : Term} {x : Factor} (h : t.appendFactor x = .ok t') : t.appendFactorU x = .ok t' := by
  unfold appendFactor at h
  unfold appendFactorU
  cases hf : t.factors.find x.id with
  | none => rw [hf] at h; cases h; rfl
  | some f =>
    rw [hf] at h
    dsimp only at h ⊢
    cases hp : f.power.addAssign x.power with
    | error e => rw [hp] at h; cases h
    | ok p =>
      rw [hp] at h
      rw [addAssign_keeps _ _ _ hp]
      cases h
      rfl

theorem appendFactors_keeps {xs : List Factor} : ∀ {t t' : Term}, t.appendFactors xs = .ok t' → t.appendFactorsU xs = .ok t' := by
  induction xs with
  | nil => intro t t' h; cases h; rfl
  | cons x xs ih =>
    intro t t' h
    unfold appendFactors at h
    unfold appendFactorsU
    cases hp : t.appendFactor x with
    | error e => rw [hp] at h; cases h
    | ok p =>
      rw [hp] at h
      rw [appendFactor_keeps hp]
      exact ih h

theorem squareLoop_keeps : ∀ {n i : Nat} {t t' : Term}, squareLoop n i t = .ok t' → squareLoopU n i t = .ok t'
  | 0, _, _, _, h => by cases h; rfl
  | n + 1, i, t, t', h => by
    unfold squareLoop at h
    unfold squareLoopU
    cases hi : t.factors[i]? with
    | none => rw [hi] at h; cases h
    | some q =>
      obtain ⟨k, f⟩ := q
      rw [hi] at h
      dsimp only at h ⊢
      by_cases hc : k = f.id ∧ t.factors.find f.id = some f
      · rw [if_pos hc] at h ⊢
        cases hm : BigInt.addAssignMem (fun _ => f.power) 0 0 with
        | error e => rw [hm] at h; cases h
        | ok m =>
          rw [hm] at h
          exact squareLoop_keeps h
      · rw [if_neg hc] at h; cases h

theorem appendFactor_rel {t : Term} (ht : t.WF) {x : Factor} (hx : Canon x.power) : Rel (t.appendFactor x) (drop (t.appendFactorU x)) := by
  obtain ⟨t', h, _⟩ := appendFactor_ok ht.map hx
  exact Rel.of_ok h (by rw [appendFactor_keeps h]; rfl)

theorem appendFactors_rel {t : Term} (ht : t.WF) {xs : List Factor} (hx : ∀ x ∈ xs, Canon x.power) : Rel (t.appendFactors xs) (drop (t.appendFactorsU xs)) := by
  obtain ⟨t', h, _⟩ := appendFactors_ok hx ht.map
  exact Rel.of_ok h (by rw [appendFactors_keeps h]; rfl)

theorem ofFactor_rel {x : Factor} (hx : Canon x.power) : Rel (ofFactor x) (ofFactorR x) := by
  unfold ofFactor ofFactorR
  refine (Rel.same (by rw [unit_ofI32]; simp)).bind fun c hc => ?_
  rw [unit_ofI32] at hc
  cases hc
  exact appendFactor_rel (empty_wf unit_valid) hx

theorem ofCoeff_rel {c : Frac} (hc : c.Valid) {x : Factor} (hx : Canon x.power) : Rel (ofCoeff c x) (ofCoeffR c x) := appendFactor_rel (empty_wf hc) hx

theorem out_wf {A : Err → Prop} {r : Res Term} {c : ℚ} {m : Mono} (h : Out A r (TermIs c m)) {t : Term} (ht : r = .ok t) : t.WF := by
  rcases h with ⟨a, h1, h2⟩ | ⟨e, h1, _⟩
  · rw [h1] at ht; cases ht; exact h2.1
  · rw [h1] at ht; cases ht

theorem ofFactor_wf {x : Factor} (hx : Canon x.power) {t : Term} (h : ofFactor x = .ok t) : t.WF := out_wf (A := Never) (ofFactor_is hx) h

theorem ofCoeff_wf {c : Frac} (hc : c.Valid) {x : Factor} (hx : Canon x.power) {t : Term} (h : ofCoeff c x = .ok t) : t.WF := out_wf (A := Never) (ofCoeff_is hc hx) h

theorem mulFactors_rel {x y : Factor} (hx : Canon x.power) (hy : Canon y.power) : Rel (mulFactors x y) (mulFactorsR x y) :=
  (ofFactor_rel hx).bind fun _ ht => appendFactor_rel (ofFactor_wf hx ht) hy

theorem minus_ofInt64 : BigInt.ofInt64 (-1) = .ok ⟨[1], true⟩ := by decide +kernel

theorem negate_rel {t : Term} (ht : t.WF) : Rel t.negate (drop t.negateU) := by
  unfold negate negateU
  rw [drop_bind', drop_at']
  refine (Rel.same (by rw [minus_ofInt64]; simp)).bind fun m hm => ?_
  rw [minus_ofInt64] at hm
  cases hm
  rw [drop_atCoeff]
  exact (asgInt_rel (op := .mul) (by simp) ht.coeff (by decide)).bind fun _ _ => Rel.ok _

theorem mulAssign_rel {x y : Term} (hx : x.WF) (hy : y.WF) : Rel (x.mulAssign y) (drop (x.mulAssignU y)) := by
  unfold mulAssign mulAssignU
  rw [drop_bind']
  refine (appendFactors_rel hx hy.canon).bind fun t ht => ?_
  obtain ⟨t', h1, h2⟩ := appendFactors_ok hy.canon hx.map
  rw [h1] at ht
  cases ht
  rw [drop_atCoeff]
  exact (asgVal_rel (op := .mul) (by simp) (by rw [h2.coeff]; exact hx.coeff) hy.coeff).bind fun _ _ => Rel.ok _

theorem mulR_eq (x y : Term) : x.mulR y = drop (x.mulAssignU y) := by
  unfold mulR mulAssignU
  rw [drop_bind']

/-- The square, with the states that failures leave. -/
theorem mulAssignSelfU_eq {x : Term} (hx : x.WF) : x.mulAssignSelfU = x.mulAssignU x := by
  obtain ⟨t, t1, t2⟩ := squareLoop_ok (n := x.factors.length) (i := 0) hx.map rfl
  obtain ⟨u, u1, u2⟩ := appendFactors_ok hx.canon hx.map
  rw [List.drop_zero] at t2
  have htu : t = u := by
    have : t.factors = u.factors := t2.map.ext u2.map (fun v => ((t2.var v).trans (u2.var v).symm)) fun v =>
      ((t2.expo v).trans (u2.expo v).symm)
    have hc := t2.coeff.trans u2.coeff.symm
    cases t; cases u; simp_all
  unfold mulAssignSelfU mulAssignU
  rw [squareLoop_keeps t1, appendFactors_keeps u1, htu]
  change (match Frac.mulAssignMemU (fun _ => u.coeff) 0 0 with
    | .ok m => Except.ok { u with coeff := m 0 }
    | .error (e, m) => Except.error (e, { u with coeff := m 0 })) = u.atCoeff (u.coeff.mulAssignU x.coeff)
  rw [u2.coeff, Frac.mulAssignMemU_eq]
  cases h : Frac.mulAssignU x.coeff x.coeff with
  | ok c => simp [FMem.set, FMem.update, atCoeff]
  | error p => obtain ⟨e, s⟩ := p; simp [FMem.set, FMem.update, atCoeff]

theorem mulAssign_stmt_rel {σ : PStore} (h : σ.Good) (i j : Nat) :
    Rel (if i = j then (σ.term i).mulAssignSelf else (σ.term i).mulAssign (σ.term j))
      (drop (if i = j then (σ.term i).mulAssignSelfU else (σ.term i).mulAssignU (σ.term j))) := by
  by_cases hij : i = j
  · rw [if_pos hij, if_pos hij, mulAssignSelf_eq (h.term i), mulAssignSelfU_eq (h.term i)]
    exact mulAssign_rel (h.term i) (h.term i)
  · rw [if_neg hij, if_neg hij]
    exact mulAssign_rel (h.term i) (h.term j)

end Term

namespace Poly
open Term

theorem drop_behind (t : Term) (r : MRes (List Term) (List Term)) : drop (behindTerm t r) = (drop r >>= fun l => .ok (t :: l)) := by
  rcases r with ⟨e, s⟩ | x <;> rfl

theorem drop_atHead (t : Term) (l : List Term) (r : MRes Frac Frac) : drop (atHead t l r) = (drop r >>= fun c => .ok ({ t with coeff := c } :: l)) := by
  rcases r with ⟨e, s⟩ | x <;> rfl

theorem drop_withTerms (r : MRes (List Term) (List Term)) : drop (withTerms r) = (drop r >>= fun l => .ok ⟨l⟩) := by
  rcases r with ⟨e, s⟩ | x <;> rfl

theorem appendLoop_rel {x : Term} (hx : x.WF) : ∀ {l : List Term}, (∀ t ∈ l, t.WF) → Rel (appendLoop x l) (drop (appendLoopU x l))
  | [], _ => rfl
  | t :: r, hl => by
    have ht := hl t (by simp)
    unfold appendLoop appendLoopU
    obtain ⟨b, hb, _⟩ := lt_spec ht hx
    obtain ⟨e, he, _⟩ := eq_spec ht hx
    rw [drop_bind', drop_at', hb]
    refine Rel.bind (Rel.ok b) fun b' hb' => ?_
    cases hb'
    cases b with
    | true =>
      rw [if_pos rfl, if_pos rfl, drop_behind]
      exact (appendLoop_rel hx fun u hu => hl u (by simp [hu])).bind fun _ _ => Rel.ok _
    | false =>
      rw [if_neg (by simp), if_neg (by simp), drop_bind', drop_at', he]
      refine Rel.bind (Rel.ok e) fun e' he' => ?_
      cases he'
      cases e with
      | true =>
        rw [if_pos rfl, if_pos rfl]
        rw [drop_atHead]
        exact (asgVal_rel (op := .add) (by simp) ht.coeff hx.coeff).bind fun _ _ => Rel.ok _
      | false =>
        rw [if_neg (by simp), if_neg (by simp)]
        exact Rel.ok _

theorem appendTerm_rel {p : Poly} (hp : p.WF) {x : Term} (hx : x.WF) : Rel (p.appendTerm x) (drop (p.appendTermU x)) := by
  unfold appendTerm appendTermU
  rw [drop_withTerms]
  exact (appendLoop_rel hx hp).bind fun _ _ => Rel.ok _

theorem out_wf {A : Err → Prop} {r : Res Poly} {l : Laurent} (h : Out A r (PolyIs l)) {t : Poly} (ht : r = .ok t) : t.WF := by
  rcases h with ⟨a, h1, h2⟩ | ⟨e, h1, _⟩
  · rw [h1] at ht; cases ht; exact h2.1
  · rw [h1] at ht; cases ht

theorem appendAll_rel {xs : List Term} (hxs : ∀ x ∈ xs, x.WF) : ∀ {p : Poly}, p.WF → Rel (p.appendAll xs) (drop (p.appendAllU xs)) := by
  induction xs with
  | nil => intro p _; exact Rel.ok p
  | cons x xs ih =>
    intro p hp
    unfold appendAll appendAllU
    rw [drop_bind']
    exact (appendTerm_rel hp (hxs x (by simp))).bind fun q hq => ih (fun y hy => hxs y (by simp [hy])) (out_wf (appendTerm_is hp (hxs x (by simp))) hq)

theorem appendFactorTerms_rel {xs : List Factor} (hxs : ∀ x ∈ xs, Canon x.power) : ∀ {p : Poly}, p.WF →
    Rel (p.appendFactorTerms xs) (p.appendFactorTermsR xs) := by
  induction xs with
  | nil => intro p _; exact Rel.ok p
  | cons x xs ih =>
    intro p hp
    unfold appendFactorTerms appendFactorTermsR
    have hx := hxs x (by simp)
    exact (ofFactor_rel hx).bind fun t ht => (appendTerm_rel hp (ofFactor_wf hx ht)).bind fun q hq =>
      ih (fun y hy => hxs y (by simp [hy])) (out_wf (appendTerm_is hp (ofFactor_wf hx ht)) hq)

theorem empty_wf : (⟨[]⟩ : Poly).WF := fun t h => by simp at h

theorem single_wf {t : Term} (ht : t.WF) : (ofTerm t).WF := (ofTerm_is ht).1

theorem ofFactor_rel {x : Factor} (hx : Canon x.power) : Rel (Poly.ofFactor x) (Poly.ofFactorR x) :=
  (Term.ofFactor_rel hx).bind fun _ _ => Rel.ok _

theorem addFactors_rel {x y : Factor} (hx : Canon x.power) (hy : Canon y.power) : Rel (addFactors x y) (addFactorsR x y) :=
  (Term.ofFactor_rel hx).bind fun _ ht => (Term.ofFactor_rel hy).bind fun _ hu => appendTerm_rel (single_wf (ofFactor_wf hx ht)) (ofFactor_wf hy hu)

theorem addAssign_rel {p : Poly} (hp : p.WF) {y : Factor} (hy : Canon y.power) : Rel (p.addAssign y) (drop (p.addAssignU y)) := by
  unfold addAssign addAssignU
  rw [drop_bind', drop_at']
  exact (Term.ofFactor_rel hy).bind fun _ hu => appendTerm_rel hp (ofFactor_wf hy hu)

theorem minus_bind {β : Type} {f g : Frac → Res β} (h : ∀ c : Frac, c.Valid → Rel (f c) (g c)) : Rel (Frac.ofI32 (-1) >>= f) (Frac.ofI32 (-1) >>= g) := by
  rw [minus_ofI32]
  exact h _ minus_valid

theorem subAssign_rel {p : Poly} (hp : p.WF) {y : Factor} (hy : Canon y.power) : Rel (p.subAssign y) (drop (p.subAssignU y)) := by
  unfold subAssign subAssignU
  rw [drop_bind', drop_at']
  refine minus_bind fun c hc => ?_
  rw [drop_bind', drop_at']
  exact (ofCoeff_rel hc hy).bind fun _ hu => appendTerm_rel hp (ofCoeff_wf hc hy hu)

theorem subFactors_rel {x y : Factor} (hx : Canon x.power) (hy : Canon y.power) : Rel (subFactors x y) (subFactorsR x y) := by
  unfold subFactors subFactorsR
  refine (Poly.ofFactor_rel hx).bind fun p hp => minus_bind fun c hc => (ofCoeff_rel hc hy).bind fun _ hu =>
    appendTerm_rel (out_wf (A := Never) (polyOfFactor_is hx) hp) (ofCoeff_wf hc hy hu)

theorem subTerms_rel {x y : Term} (hx : x.WF) (hy : y.WF) : Rel (subTerms x y) (subTermsR x y) :=
  (negate_rel hy).bind fun _ hu => appendTerm_rel (single_wf hx) (Term.out_wf (negate_is hy) hu)

theorem appendTerms_rel {p : Poly} (hp : p.WF) {xs : List Term} (hxs : ∀ x ∈ xs, x.WF) : Rel (p.appendTerms xs) (p.appendTerms xs) := by
  obtain ⟨b, b1, _⟩ := Poly.sorted_spec hp
  obtain ⟨c, c1, _⟩ := Poly.sorted_spec hxs
  obtain ⟨r, r1, r2⟩ := Poly.mergeLoop_perm hp hxs
  unfold Poly.appendTerms
  rw [b1, c1, bind_ok, bind_ok]
  by_cases h : (b && c) = true
  · rw [if_pos h, r1]; rfl
  · rw [if_neg h]; rfl

end Poly

/-! ### Statements -/

theorem drop_onT (σ : PStore) (i : Nat) (r : MRes Term Term) : drop (σ.inT i r) = σ.getsT i (drop r) := by rcases r with ⟨e, s⟩ | x <;> rfl
theorem drop_onP (σ : PStore) (i : Nat) (r : MRes Poly Poly) : drop (σ.inP i r) = σ.getsP i (drop r) := by rcases r with ⟨e, s⟩ | x <;> rfl

theorem getsT_rel {σ : PStore} {i : Nat} {r u : Res Term} (h : Rel r u) : Rel (σ.getsT i r) (σ.getsT i u) := h.bind fun _ _ => Rel.ok _
theorem getsP_rel {σ : PStore} {i : Nat} {r u : Res Poly} (h : Rel r u) : Rel (σ.getsP i r) (σ.getsP i u) := h.bind fun _ _ => Rel.ok _

theorem exec_rel {s : PStmt} (hs : s.Legal) {σ : PStore} (h : σ.Good) : Rel (s.exec σ) (drop (s.execU σ)) := by
  have hf : ∀ js : List Nat, ∀ x ∈ js.map σ.factor, Canon x.power := by
    intro js x hx
    obtain ⟨j, _, rfl⟩ := List.mem_map.mp hx
    exact h.factor j
  have ht : ∀ js : List Nat, ∀ x ∈ js.map σ.term, x.WF := by
    intro js x hx
    obtain ⟨j, _, rfl⟩ := List.mem_map.mp hx
    exact h.term j
  unfold PStmt.exec PStmt.execU
  cases s <;> dsimp only <;> (try rw [drop_at']) <;> (try rw [drop_onT]) <;> (try rw [drop_onP])
  case factor | setId | setPower | copyFactor | setCoeff | copyTerm | polyTerm | copyPoly => exact Rel.ok _
  case term i j => exact getsT_rel (Term.ofFactor_rel (h.factor j))
  case termCoeff i c j => exact getsT_rel (Term.ofCoeff_rel hs (h.factor j))
  case termFactors i c js => exact getsT_rel (Term.appendFactors_rel (empty_wf hs) (hf js))
  case negate i => exact getsT_rel (Term.negate_rel (h.term i))
  case appendFactor i j => exact getsT_rel (Term.appendFactor_rel (h.term i) (h.factor j))
  case mulFactors i j k => exact getsT_rel (Term.mulFactors_rel (h.factor j) (h.factor k))
  case mulFactor i j k => exact getsT_rel (Term.appendFactor_rel (h.term j) (h.factor k))
  case factorMul i j k => exact getsT_rel (Term.appendFactor_rel (h.term k) (h.factor j))
  case mul i j k => exact getsT_rel (by rw [Term.mulR_eq]; exact Term.mulAssign_rel (h.term j) (h.term k))
  case mulAssignFactor i j => exact getsT_rel (Term.appendFactor_rel (h.term i) (h.factor j))
  case mulAssign i j => exact getsT_rel (Term.mulAssign_stmt_rel h i j)
  case poly i j => exact getsP_rel (Poly.ofFactor_rel (h.factor j))
  case polyFactors i js => exact getsP_rel (Poly.appendFactorTerms_rel (hf js) Poly.empty_wf)
  case polyTerms i js => exact getsP_rel (Poly.appendAll_rel (ht js) Poly.empty_wf)
  case appendTerm i j => exact getsP_rel (Poly.appendTerm_rel (h.poly i) (h.term j))
  case appendTerms i js => exact getsP_rel (Poly.appendTerms_rel (h.poly i) (ht js))
  case addFactors i j k => exact getsP_rel (Poly.addFactors_rel (h.factor j) (h.factor k))
  case subFactors i j k => exact getsP_rel (Poly.subFactors_rel (h.factor j) (h.factor k))
  case addTerms i j k => exact getsP_rel (Poly.appendTerm_rel (Poly.single_wf (h.term j)) (h.term k))
  case subTerms i j k => exact getsP_rel (Poly.subTerms_rel (h.term j) (h.term k))
  case addAssign i j => exact getsP_rel (Poly.addAssign_rel (h.poly i) (h.factor j))
  case subAssign i j => exact getsP_rel (Poly.subAssign_rel (h.poly i) (h.factor j))

theorem run_rel : ∀ {ss : List PStmt} (_ : ∀ s ∈ ss, s.Legal) {σ : PStore} (_ : σ.Good), Rel (PStmt.run ss σ) (drop (PStmt.runU ss σ))
  | [], _, σ, _ => Rel.ok σ
  | s :: r, hs, σ, h => by
    unfold PStmt.run PStmt.runU
    rw [drop_bind']
    refine (exec_rel (hs s (by simp)) h).bind fun σ' h' => run_rel (fun q hq => hs q (by simp [hq])) ?_
    rcases exec_ok h (hs s (by simp)) with ⟨a, h1, h2⟩ | ⟨e, h1, _⟩
    · rw [h1] at h'; cases h'; exact h2.1
    · rw [h1] at h'; cases h'

/-! ### What an exception leaves -/

theorem mredU_left {u : MRes Frac Frac} {t b : Int} (h : MRedU u t b) {e : Err} {c : Frac} (hu : u = .error (e, c)) : e = .outOfRange ∧ c.PartsOK := by
  by_cases ha : ReduceAborts t b
  · obtain ⟨s, hs, h1, _⟩ := h.2 ha
    rw [hs] at hu; cases hu; exact ⟨rfl, h1⟩
  · obtain ⟨f, hf, _⟩ := h.1 ha
    rw [hf] at hu; cases hu

theorem Term.negateU_left {t t' : Term} (ht : t.WF) {e : Err} (h : t.negateU = .error (e, t')) : t'.factors = t.factors ∧ t'.coeff.PartsOK := by
  unfold Term.negateU at h
  rw [Term.minus_ofInt64] at h
  change t.atCoeff (t.coeff.mulAssignIntU _) = _ at h
  have hr := FOp.asgIntU_red .mul (a := ⟨[1], true⟩) ht.coeff (by decide) (parts_ne .mul (by simp) ht.coeff)
  change MRedU (t.coeff.mulAssignIntU _) _ _ at hr
  rcases hx : t.coeff.mulAssignIntU ⟨[1], true⟩ with ⟨e1, c⟩ | c
  · rw [hx] at h; cases h
    exact ⟨rfl, (mredU_left hr hx).2⟩
  · rw [hx] at h; cases h

theorem Term.mulAssignU_left {x y t' : Term} (hx : x.WF) (hy : y.WF) {e : Err} (h : x.mulAssignU y = .error (e, t')) :
    (∀ v, t'.expo v = x.expo v + y.expo v) ∧ t'.coeff.PartsOK := by
  unfold Term.mulAssignU at h
  obtain ⟨t, h1, h2⟩ := Term.appendFactors_ok hy.canon hx.map
  rw [Term.appendFactors_keeps h1] at h
  change t.atCoeff (t.coeff.mulAssignU y.coeff) = _ at h
  have hv : t.coeff.Valid := by rw [h2.coeff]; exact hx.coeff
  have hr := FOp.asgValU_red .mul hv hy.coeff (parts_ne .mul (by simp) hv)
  change MRedU (t.coeff.mulAssignU y.coeff) _ _ at hr
  rcases hc : t.coeff.mulAssignU y.coeff with ⟨e1, c⟩ | c
  · rw [hc] at h; cases h
    refine ⟨fun v => ?_, (mredU_left hr hc).2⟩
    exact (h2.times hy).expo v
  · rw [hc] at h; cases h

theorem Poly.appendLoopU_left {x : Term} (hx : x.WF) : ∀ {l l' : List Term}, (∀ t ∈ l, t.WF) → Poly.appendLoopU x l = .error (.outOfRange, l') →
    ∃ a t c b, l = a ++ t :: b ∧ l' = a ++ { t with coeff := c } :: b ∧ c.PartsOK ∧ t.factors = x.factors
  | [], _, _, h => by cases h
  | t :: r, l', hl, h => by
    have ht := hl t (by simp)
    unfold Poly.appendLoopU at h
    obtain ⟨b, hb, _⟩ := Term.lt_spec ht hx
    obtain ⟨e, he, he'⟩ := Term.eq_spec ht hx
    rw [hb] at h
    change (if b = true then _ else _) = _ at h
    cases b with
    | true =>
      rw [if_pos rfl] at h
      rcases hr : Poly.appendLoopU x r with ⟨e1, r'⟩ | r'
      · rw [hr] at h; cases h
        obtain ⟨a, u, c, b, h1, h2, h3⟩ := Poly.appendLoopU_left hx (fun u hu => hl u (by simp [hu])) hr
        exact ⟨t :: a, u, c, b, by rw [h1]; rfl, by rw [h2]; rfl, h3⟩
      · rw [hr] at h; cases h
    | false =>
      rw [if_neg (by simp), he] at h
      change (if e = true then _ else _) = _ at h
      cases e with
      | true =>
        rw [if_pos rfl] at h
        have hr := FOp.asgValU_red .add ht.coeff hx.coeff (parts_ne .add (by simp) ht.coeff)
        change MRedU (t.coeff.addAssignU x.coeff) _ _ at hr
        rcases hc : t.coeff.addAssignU x.coeff with ⟨e1, c⟩ | c
        · rw [hc] at h; cases h
          exact ⟨[], t, c, r, rfl, rfl, (mredU_left hr hc).2, (Term.keyList_inj ht hx).mp (he'.mp rfl)⟩
        · rw [hc] at h; cases h
      | false =>
        rw [if_neg (by simp)] at h
        cases h

theorem Poly.appendTermU_left {p p' : Poly} (hp : p.WF) {x : Term} (hx : x.WF) (h : p.appendTermU x = .error (.outOfRange, p')) : Poly.SameButCoeff x p p' := by
  unfold Poly.appendTermU at h
  rcases hr : Poly.appendLoopU x p.terms with ⟨e1, r'⟩ | r'
  · rw [hr] at h; cases h
    exact Poly.appendLoopU_left hx hp hr
  · rw [hr] at h; cases h

theorem single_factors {c : Frac} {x : Factor} : Term.appendFactorU ⟨c, []⟩ x = .ok ⟨c, [(x.id, x)]⟩ := rfl

theorem ofFactorR_ok (x : Factor) : Term.ofFactorR x = .ok ⟨⟨⟨[1], false⟩, ⟨[1], false⟩⟩, [(x.id, x)]⟩ := by
  unfold Term.ofFactorR
  rw [unit_ofI32]
  rfl

theorem single_wf' {c : Frac} (hc : c.Valid) {x : Factor} (hx : Canon x.power) : (⟨c, [(x.id, x)]⟩ : Term).WF :=
  ⟨hc, List.pairwise_singleton .., by simpa using hx⟩

theorem Poly.addAssignU_left {p p' : Poly} (hp : p.WF) {x : Factor} (hx : Canon x.power) (h : p.addAssignU x = .error (.outOfRange, p')) :
    Poly.SameButCoeff ⟨⟨⟨[1], false⟩, ⟨[1], false⟩⟩, [(x.id, x)]⟩ p p' := by
  unfold Poly.addAssignU at h
  rw [ofFactorR_ok] at h
  exact Poly.appendTermU_left hp (single_wf' unit_valid hx) h

theorem Poly.subAssignU_left {p p' : Poly} (hp : p.WF) {x : Factor} (hx : Canon x.power) (h : p.subAssignU x = .error (.outOfRange, p')) :
    Poly.SameButCoeff ⟨⟨⟨[1], true⟩, ⟨[1], false⟩⟩, [(x.id, x)]⟩ p p' := by
  unfold Poly.subAssignU at h
  rw [minus_ofI32] at h
  exact Poly.appendTermU_left hp (single_wf' minus_valid hx) h

theorem onT_left {σ σ' : PStore} {i : Nat} {r : MRes Term Term} {e : Err} (h : σ.inT i r = .error (e, σ')) :
    r = .error (e, σ'.term i) ∧ PStore.SameButTerm i σ σ' := by
  rcases r with ⟨e1, t⟩ | t
  · cases h
    refine ⟨by simp [PStore.setT], rfl, rfl, fun j hj => by simp [PStore.setT, hj]⟩
  · cases h

theorem onP_left {σ σ' : PStore} {i : Nat} {r : MRes Poly Poly} {e : Err} (h : σ.inP i r = .error (e, σ')) :
    r = .error (e, σ'.poly i) ∧ PStore.SameButPoly i σ σ' := by
  rcases r with ⟨e1, t⟩ | t
  · cases h
    refine ⟨by simp [PStore.setP], rfl, rfl, fun j hj => by simp [PStore.setP, hj]⟩
  · cases h

theorem at_left {σ σ' : PStore} {r : Res PStore} {e : Err} (h : at' σ r = .error (e, σ')) : σ' = σ := by
  cases r with
  | ok a => cases h
  | error e => cases h; rfl

/-- The statements that do not compute with coefficients in place leave all objects alone. -/
theorem not_inPlace_left {s : PStmt} (hi : ¬s.InPlace) {σ σ' : PStore} (h : σ.Good) {e : Err} (hx : s.execU σ = .error (e, σ')) : σ' = σ := by
  have app : ∀ i j, (σ.inT i ((σ.term i).appendFactorU (σ.factor j))) ≠ .error (e, σ') := by
    intro i j hx
    obtain ⟨t', h1, _⟩ := Term.appendFactor_ok (h.term i).map (h.factor j)
    rw [Term.appendFactor_keeps h1] at hx
    cases hx
  cases s <;> first | exact absurd trivial hi | exact at_left hx | (cases hx; done) | exact absurd hx (app _ _)

end CppMaths
