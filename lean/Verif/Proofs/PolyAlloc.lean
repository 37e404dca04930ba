import Verif.Model.PolyAlloc
import Verif.Spec.PolyAlloc
import Verif.Proofs.FracAlloc
import Verif.Proofs.PolyProg
import Verif.Proofs.IntAllocProg
/-!
# `Factor`, `Term` and `Poly` when memory runs out: the computations follow those with unlimited memory
-/

namespace CppMaths
open BigInt GM

variable {L : ILuck} {σ τ α : Type}

theorem SimU.on {g : σ → τ} {p : σ → τ → σ} {m : GM τ Unit} {s : σ} {r : Res τ} (h : SimU L m (g s) r) :
    SimU L (GM.on g p m) s (r >>= fun v => .ok (p s v)) := by
  intro n
  obtain ⟨h0, h1⟩ := h n
  unfold GM.on
  dsimp only
  rcases hm : m (g s, n) with ⟨o, ⟨t, n'⟩⟩
  rw [hm] at h0 h1
  refine ⟨h0, ?_⟩
  cases o with
  | ok a =>
    dsimp only at h1 ⊢
    rw [h1]
    rfl
  | error e =>
    dsimp only at h1 ⊢
    rcases h1 with h1 | h1
    · rw [h1]
      exact .inl rfl
    · exact .inr h1

theorem Leaves.on {g : σ → τ} {p : σ → τ → σ} {m : GM τ Unit} {s : σ} {P : σ → Prop} (h : Leaves m (g s) fun t => P (p s t)) :
    Leaves (GM.on g p m) s P := by
  intro n e s' n' hm
  unfold GM.on at hm
  dsimp only at hm
  rcases hm' : m (g s, n) with ⟨o, ⟨t, n2⟩⟩
  rw [hm'] at hm
  cases hm
  exact h _ _ _ _ hm'

theorem SimU.assignBy (left : Nat → σ → σ → σ) (s v : σ) : SimU L (GM.assignBy L left v) s (.ok v) := by
  intro n
  by_cases hr : L.refuse n = true
  · have : GM.assignBy L left v (s, n) = (.error .badAlloc, (left n s v, n + 1)) := by simp [GM.assignBy, hr]
    rw [this]
    exact ⟨Nat.le_succ n, Or.inr ⟨rfl, n, le_refl n, Nat.lt_succ_self n, hr⟩⟩
  · have : GM.assignBy L left v (s, n) = (.ok (), (v, n + 1)) := by simp [GM.assignBy, hr]
    rw [this]
    exact ⟨Nat.le_succ n, rfl⟩

theorem sim_copyA (x : α) : SimA L (GM.copyA L x) (.ok x) := SimA.ask (SimA.pure _)

/-- The result of a local object that is returned. -/
theorem SimA.localCopy {v : σ} {m : GM σ Unit} {r : Res σ} (h : SimU L m v r) : SimA L (GM.local' v m >>= fun t => GM.copyA L t) r :=
  SimA.end_ (SimA.local h fun t _ => sim_copyA t)

namespace Term

theorem sim_appendFactor (t : Term) (x : Factor) : SimU L (appendFactorT L x) t (t.appendFactor x) := by
  unfold appendFactorT appendFactor
  refine SimU.this ?_
  cases h : t.factors.find x.id with
  | none => exact SimU.ask (SimU.putEnd _ _)
  | some f => exact SimU.on (g := fun _ : Term => f.power) (sim_addAssign f.power x.power)

theorem sim_appendFactors (xs : List Factor) : ∀ t : Term, SimU L (appendFactorsT L xs) t (t.appendFactors xs) := by
  induction xs with
  | nil => exact fun t => SimU.pure t
  | cons x r ih => exact fun t => SimU.bind (sim_appendFactor t x) fun a _ => ih a

theorem sim_ofFactor (x : Factor) : SimA L (ofFactorA L x) (ofFactor x) :=
  SimA.bind (Frac.sim_ofI32 1) fun _ _ => SimA.localEnd (sim_appendFactor _ x)

theorem sim_ofCoeff (c : Frac) (x : Factor) : SimA L (ofCoeffA L c x) (ofCoeff c x) :=
  SimA.then (sim_copyA c) (SimA.localEnd (sim_appendFactor _ x))

theorem sim_ofFactors (c : Frac) (xs : List Factor) : SimA L (ofFactorsA L c xs) (ofFactors c xs) :=
  SimA.then (sim_copyA c) (SimA.localEnd (sim_appendFactors xs _))

theorem sim_negate (t : Term) : SimU L (negateT L) t t.negate :=
  SimU.other (sim_ofInt64 (-1) 0) fun m _ => SimU.on (g := fun t : Term => t.coeff) (Frac.sim_assignInt .mul t.coeff m)

theorem sim_mulFactors (x y : Factor) : SimA L (mulFactorsA L x y) (mulFactors x y) :=
  SimA.bind (sim_ofFactor x) fun t _ => SimA.localCopy (sim_appendFactor t y)

theorem sim_mulFactor (x : Term) (y : Factor) : SimA L (mulFactorA L x y) (x.mulFactor y) :=
  SimA.then (sim_copyA x) (SimA.localCopy (sim_appendFactor x y))

theorem sim_factorMul (x : Factor) (y : Term) : SimA L (factorMulA L x y) (factorMul x y) :=
  SimA.end_ (SimA.bind (sim_mulFactor y x) fun t _ => sim_copyA t)

theorem sim_mulAssign (x y : Term) : SimU L (mulAssignT L y) x (x.mulAssign y) :=
  SimU.bind (sim_appendFactors _ x) fun a _ => SimU.on (g := fun t : Term => t.coeff) (Frac.sim_assign .mul a.coeff y.coeff)

theorem sim_mul (x y : Term) : SimA L (mulA L x y) (x.mul y) :=
  SimA.then (sim_copyA x) (SimA.localCopy (sim_mulAssign x y))

theorem squareLoop_eq (n i : Nat) (x : Term) : squareLoop (n + 1) i x = (match x.factors[i]? with
    | none => .error .ub
    | some (k, f) => if k = f.id ∧ x.factors.find f.id = some f then do
        let p ← f.power.addAssign f.power
        squareLoop n (i + 1) { x with factors := x.factors.setPower f.id p }
      else .error .ub) := by
  rw [squareLoop]
  cases x.factors[i]? with
  | none => rfl
  | some kf =>
    obtain ⟨k, f⟩ := kf
    dsimp only
    rw [addAssignMem_eq]
    split
    · cases f.power.addAssign f.power with
      | error e => rfl
      | ok v => simp [Mem.set]
    · rfl

theorem sim_squareLoop (n : Nat) : ∀ i (x : Term), SimU L (squareLoopT L n i) x (squareLoop n i x) := by
  induction n with
  | zero => exact fun i x => SimU.pure x
  | succ n ih =>
    intro i x
    rw [squareLoop_eq]
    unfold squareLoopT
    refine SimU.this ?_
    cases x.factors[i]? with
    | none => exact SimU.end_ (SimU.freeBind (r := (.error .ub : Res Unit)) (k := fun _ => Pure.pure ()) (g := fun _ => .error .ub) (fun a ha => by cases ha))
    | some kf =>
      obtain ⟨k, f⟩ := kf
      dsimp only
      split
      · have h := SimU.bind (L := L) (m := onPower f.id f (BigInt.addAssignT L f.power)) (k := fun _ => squareLoopT L n (i + 1)) (s := x)
          (g := fun a => squareLoop n (i + 1) a)
          (SimU.on (g := fun _ : Term => f.power) (sim_addAssign f.power f.power)) fun a _ => ih (i + 1) a
        rw [Frac.res_assoc] at h
        exact h
      · exact SimU.end_ (SimU.freeBind (r := (.error .ub : Res Unit)) (k := fun _ => Pure.pure ()) (g := fun _ => .error .ub) (fun a ha => by cases ha))

theorem sim_mulAssignSelf (x : Term) : SimU L (mulAssignSelfT L) x x.mulAssignSelf := by
  have e : x.mulAssignSelf = (do
      let x ← squareLoop x.factors.length 0 x
      let c ← Frac.drop (x.coeff.mulAssign x.coeff)
      return { x with coeff := c }) := by
    unfold mulAssignSelf
    congr 1
    funext y
    rw [Frac.mulAssignMem_eq]
    cases y.coeff.mulAssign y.coeff with
    | error e => rfl
    | ok v => simp [FMem.update, FMem.set, Frac.drop]
  rw [e]
  exact SimU.this (SimU.bind (sim_squareLoop _ 0 x) fun a _ => SimU.this (SimU.on (g := fun t : Term => t.coeff) (Frac.sim_assign .mul a.coeff a.coeff)))

end Term

namespace Poly

theorem sim_appendLoop (x : Term) : ∀ l : List Term, SimU L (appendLoopT L x l) l (appendLoop x l)
  | [] => SimU.end_ (SimU.freeBind (r := (.error .ub : Res Unit)) (k := fun _ => Pure.pure ()) (g := fun _ => .error .ub) (fun a ha => by cases ha))
  | t :: r => by
    unfold appendLoopT appendLoop
    refine SimU.freeBind fun l _ => ?_
    split
    · exact SimU.on (g := fun _ : List Term => r) (sim_appendLoop x r)
    · refine SimU.freeBind fun e _ => ?_
      split
      · exact SimU.on (g := fun _ : List Term => t.coeff) (Frac.sim_assign .add t.coeff x.coeff)
      · exact SimU.ask (SimU.putEnd _ _)

theorem sim_appendTerm (p : Poly) (x : Term) : SimU L (appendTermT L x) p (p.appendTerm x) :=
  SimU.this (SimU.on (g := fun p : Poly => p.terms) (sim_appendLoop x p.terms))

theorem sim_appendAll (xs : List Term) : ∀ p : Poly, SimU L (appendAllT L xs) p (p.appendAll xs) := by
  induction xs with
  | nil => exact fun p => SimU.pure p
  | cons x r ih => exact fun p => SimU.bind (sim_appendTerm p x) fun a _ => ih a

theorem sim_appendFactorTerms (xs : List Factor) : ∀ p : Poly, SimU L (appendFactorTermsT L xs) p (p.appendFactorTerms xs) := by
  induction xs with
  | nil => exact fun p => SimU.pure p
  | cons x r ih => exact fun p => SimU.other (Term.sim_ofFactor x) fun t _ => SimU.bind (sim_appendTerm p t) fun a _ => ih a

theorem sim_ofTerm (x : Term) : SimA L (ofTermA L x) (.ok (ofTerm x)) := SimA.then (sim_copyA x) (SimA.pure _)

theorem sim_ofFactor (x : Factor) : SimA L (ofFactorA L x) (ofFactor x) :=
  SimA.bind (Term.sim_ofFactor x) fun t _ => SimA.then (sim_copyA t) (SimA.pure _)

theorem sim_appendTerms (p : Poly) (xs : List Term) : SimU L (appendTermsT L xs) p (p.appendTerms xs) :=
  SimU.then (sim_copyA xs) (SimU.this (SimU.end_ (SimU.freeBind fun _ _ => SimU.putEnd _ _)))

theorem sim_addTerms (x y : Term) : SimA L (addTermsA L x y) (addTerms x y) :=
  SimA.then (sim_ofTerm x) (SimA.localCopy (sim_appendTerm _ y))

theorem sim_addFactors (x y : Factor) : SimA L (addFactorsA L x y) (addFactors x y) :=
  SimA.bind (Term.sim_ofFactor x) fun tx _ => SimA.then (sim_ofTerm tx) (SimA.bind (Term.sim_ofFactor y) fun ty _ => SimA.localCopy (sim_appendTerm _ ty))

theorem sim_addAssign (p : Poly) (y : Factor) : SimU L (addAssignT L y) p (p.addAssign y) :=
  SimU.other (Term.sim_ofFactor y) fun t _ => sim_appendTerm p t

theorem sim_subFactors (x y : Factor) : SimA L (subFactorsA L x y) (subFactors x y) :=
  SimA.bind (sim_ofFactor x) fun p _ => SimA.bind (Frac.sim_ofI32 (-1)) fun m _ => SimA.bind (Term.sim_ofCoeff m y) fun ty _ =>
    SimA.localCopy (sim_appendTerm p ty)

theorem sim_subTerms (x y : Term) : SimA L (subTermsA L x y) (subTerms x y) :=
  SimA.then (sim_ofTerm x) (SimA.then (sim_copyA y) (SimA.local (Term.sim_negate y) fun ty _ => SimA.localCopy (sim_appendTerm _ ty)))

theorem sim_subAssign (p : Poly) (y : Factor) : SimU L (subAssignT L y) p (p.subAssign y) :=
  SimU.other (Frac.sim_ofI32 (-1)) fun m _ => SimU.other (Term.sim_ofCoeff m y) fun t _ => sim_appendTerm p t

end Poly

section
variable {L : PLuck} {σ : PStore} {i : Nat}

theorem sim_getsF {e : AM Factor} {f : Factor} (h : SimA L.toILuck e (.ok f)) : SimU L.toILuck (PStore.getsFT L i e) σ (.ok (σ.setF i f)) :=
  SimU.then h (SimU.on (g := fun σ : PStore => σ.factor i) (r := .ok f) (SimU.assignBy _ _ f))

theorem sim_getsT {e : AM Term} {r : Res Term} (h : SimA L.toILuck e r) : SimU L.toILuck (PStore.getsTT L i e) σ (σ.getsT i r) :=
  SimU.other h fun t _ => SimU.on (g := fun σ : PStore => σ.term i) (r := .ok t) (SimU.assignBy _ _ t)

theorem sim_getsP {e : AM Poly} {r : Res Poly} (h : SimA L.toILuck e r) : SimU L.toILuck (PStore.getsPT L i e) σ (σ.getsP i r) :=
  SimU.other h fun t _ => SimU.on (g := fun σ : PStore => σ.poly i) (r := .ok t) (SimU.assignBy _ _ t)

theorem sim_onT {m : GM Term Unit} {r : Res Term} (h : SimU L.toILuck m (σ.term i) r) : SimU L.toILuck (PStore.onT i m) σ (σ.getsT i r) :=
  SimU.on (g := fun σ : PStore => σ.term i) h

theorem sim_onP {m : GM Poly Unit} {r : Res Poly} (h : SimU L.toILuck m (σ.poly i) r) : SimU L.toILuck (PStore.onP i m) σ (σ.getsP i r) :=
  SimU.on (g := fun σ : PStore => σ.poly i) h

theorem sim_exec (s : PStmt) (σ : PStore) : SimU L.toILuck (s.execT L) σ (s.exec σ) := by
  unfold PStmt.execT
  refine SimU.this ?_
  cases s with
  | factor i id n => exact sim_getsF (sim_copyA _)
  | setId i id => exact sim_getsF (SimA.pure _)
  | setPower i n =>
    exact SimU.on (g := fun σ : PStore => σ.factor i) (r := .ok { σ.factor i with power := n })
      (SimU.on (g := fun f : Factor => f.power) (r := .ok n) (SimU.assign _ n))
  | copyFactor i j => exact sim_getsF (SimA.pure _)
  | term i j => exact sim_getsT (Term.sim_ofFactor _)
  | termCoeff i c j => exact sim_getsT (Term.sim_ofCoeff _ _)
  | termFactors i c js => exact sim_getsT (SimA.then (sim_copyA _) (Term.sim_ofFactors _ _))
  | setCoeff i c =>
    refine SimU.on (g := fun σ : PStore => σ.term i) (r := .ok { σ.term i with coeff := c }) ?_
    refine SimU.on (g := fun t : Term => t.coeff) (r := .ok c) ?_
    exact Frac.SimU.topThen (r := .ok c.tt) (g := fun _ => .ok c) (SimU.assign _ _) fun t ht => by
      cases ht
      exact Frac.SimU.onBottom (r := .ok c.bb) (SimU.assign _ _)
  | negate i => exact sim_onT (Term.sim_negate _)
  | appendFactor i j => exact sim_onT (Term.sim_appendFactor _ _)
  | copyTerm i j => exact sim_getsT (SimA.pure _)
  | mulFactors i j k => exact sim_getsT (Term.sim_mulFactors _ _)
  | mulFactor i j k => exact sim_getsT (Term.sim_mulFactor _ _)
  | factorMul i j k => exact sim_getsT (Term.sim_factorMul _ _)
  | mul i j k => exact sim_getsT (Term.sim_mul _ _)
  | mulAssignFactor i j => exact sim_onT (Term.sim_appendFactor _ _)
  | mulAssign i j =>
    refine sim_onT ?_
    split
    · exact Term.sim_mulAssignSelf _
    · exact Term.sim_mulAssign _ _
  | poly i j => exact sim_getsP (Poly.sim_ofFactor _)
  | polyTerm i j => exact sim_getsP (Poly.sim_ofTerm _)
  | polyFactors i js => exact sim_getsP (SimA.then (sim_copyA _) (SimA.localEnd (Poly.sim_appendFactorTerms _ _)))
  | polyTerms i js => exact sim_getsP (SimA.then (sim_copyA _) (SimA.localEnd (Poly.sim_appendAll _ _)))
  | appendTerm i j => exact sim_onP (Poly.sim_appendTerm _ _)
  | appendTerms i js => exact SimU.then (sim_copyA _) (sim_onP (Poly.sim_appendTerms _ _))
  | copyPoly i j => exact sim_getsP (SimA.pure _)
  | addFactors i j k => exact sim_getsP (Poly.sim_addFactors _ _)
  | subFactors i j k => exact sim_getsP (Poly.sim_subFactors _ _)
  | addTerms i j k => exact sim_getsP (Poly.sim_addTerms _ _)
  | subTerms i j k => exact sim_getsP (Poly.sim_subTerms _ _)
  | addAssign i j => exact sim_onP (Poly.sim_addAssign _ _)
  | subAssign i j => exact sim_onP (Poly.sim_subAssign _ _)

theorem sim_run (ss : List PStmt) : ∀ σ : PStore, SimU L.toILuck (PStmt.runT L ss) σ (PStmt.run ss σ) := by
  induction ss with
  | nil => exact fun σ => SimU.pure σ
  | cons s r ih => exact fun σ => SimU.bind (sim_exec s σ) fun a _ => ih a

end

/-! ### What is left after an exception -/

section
variable {P : τ → Prop}

theorem Leaves.any {m : GM τ Unit} {s : τ} (h : ∀ x, P x) : Leaves m s P := fun _ _ _ _ _ => h _

theorem setF_same (σ : PStore) (i : Nat) : σ.setF i (σ.factor i) = σ := by simp [PStore.setF]
theorem setT_same (σ : PStore) (i : Nat) : σ.setT i (σ.term i) = σ := by simp [PStore.setT]
theorem setP_same (σ : PStore) (i : Nat) : σ.setP i (σ.poly i) = σ := by simp [PStore.setP]

variable {L : PLuck} {σ : PStore} {i : Nat} {P : PStore → Prop}

theorem left_getsF {e : AM Factor} {r : Res Factor} (h : SimA L.toILuck e r) (hP : ∀ f, P (σ.setF i f)) : Leaves (PStore.getsFT L i e) σ P :=
  Leaves.other h (by have := hP (σ.factor i); rwa [setF_same] at this) fun _ _ => Leaves.on (Leaves.any hP)

theorem left_getsT {e : AM Term} {r : Res Term} (h : SimA L.toILuck e r) (hP : ∀ f, P (σ.setT i f)) : Leaves (PStore.getsTT L i e) σ P :=
  Leaves.other h (by have := hP (σ.term i); rwa [setT_same] at this) fun _ _ => Leaves.on (Leaves.any hP)

theorem left_getsP {e : AM Poly} {r : Res Poly} (h : SimA L.toILuck e r) (hP : ∀ f, P (σ.setP i f)) : Leaves (PStore.getsPT L i e) σ P :=
  Leaves.other h (by have := hP (σ.poly i); rwa [setP_same] at this) fun _ _ => Leaves.on (Leaves.any hP)

end

theorem sameExcept_setF (σ : PStore) (i : Nat) (f : Factor) : PStore.SameExcept (.factor i) σ (σ.setF i f) :=
  ⟨fun j h => by simp [PStore.setF, show j ≠ i from fun e => h (by rw [e])], fun _ _ => rfl, fun _ _ => rfl⟩
theorem sameExcept_setT (σ : PStore) (i : Nat) (f : Term) : PStore.SameExcept (.term i) σ (σ.setT i f) :=
  ⟨fun _ _ => rfl, fun j h => by simp [PStore.setT, show j ≠ i from fun e => h (by rw [e])], fun _ _ => rfl⟩
theorem sameExcept_setP (σ : PStore) (i : Nat) (f : Poly) : PStore.SameExcept (.poly i) σ (σ.setP i f) :=
  ⟨fun _ _ => rfl, fun _ _ => rfl, fun j h => by simp [PStore.setP, show j ≠ i from fun e => h (by rw [e])]⟩

/-- A statement that throws changes at most its target. -/
theorem exec_left {L : PLuck} (s : PStmt) (σ : PStore) : Leaves (s.execT L) σ (PStore.SameExcept s.target σ) := by
  unfold PStmt.execT
  refine Leaves.this ?_
  cases s with
  | factor i id n => exact left_getsF (sim_copyA _) (sameExcept_setF σ i)
  | setId i id => exact left_getsF (SimA.pure _) (sameExcept_setF σ i)
  | setPower i n => exact Leaves.on (Leaves.any (sameExcept_setF σ i))
  | copyFactor i j => exact left_getsF (SimA.pure _) (sameExcept_setF σ i)
  | term i j => exact left_getsT (Term.sim_ofFactor _) (sameExcept_setT σ i)
  | termCoeff i c j => exact left_getsT (Term.sim_ofCoeff _ _) (sameExcept_setT σ i)
  | termFactors i c js => exact left_getsT (SimA.then (sim_copyA _) (Term.sim_ofFactors _ _)) (sameExcept_setT σ i)
  | setCoeff i c => exact Leaves.on (Leaves.any (sameExcept_setT σ i))
  | negate i => exact Leaves.on (Leaves.any (sameExcept_setT σ i))
  | appendFactor i j => exact Leaves.on (Leaves.any (sameExcept_setT σ i))
  | copyTerm i j => exact left_getsT (SimA.pure _) (sameExcept_setT σ i)
  | mulFactors i j k => exact left_getsT (Term.sim_mulFactors _ _) (sameExcept_setT σ i)
  | mulFactor i j k => exact left_getsT (Term.sim_mulFactor _ _) (sameExcept_setT σ i)
  | factorMul i j k => exact left_getsT (Term.sim_factorMul _ _) (sameExcept_setT σ i)
  | mul i j k => exact left_getsT (Term.sim_mul _ _) (sameExcept_setT σ i)
  | mulAssignFactor i j => exact Leaves.on (Leaves.any (sameExcept_setT σ i))
  | mulAssign i j => exact Leaves.on (Leaves.any (sameExcept_setT σ i))
  | poly i j => exact left_getsP (Poly.sim_ofFactor _) (sameExcept_setP σ i)
  | polyTerm i j => exact left_getsP (Poly.sim_ofTerm _) (sameExcept_setP σ i)
  | polyFactors i js => exact left_getsP (SimA.then (sim_copyA _) (SimA.localEnd (Poly.sim_appendFactorTerms _ _))) (sameExcept_setP σ i)
  | polyTerms i js => exact left_getsP (SimA.then (sim_copyA _) (SimA.localEnd (Poly.sim_appendAll _ _))) (sameExcept_setP σ i)
  | appendTerm i j => exact Leaves.on (Leaves.any (sameExcept_setP σ i))
  | appendTerms i js =>
    exact Leaves.other (sim_copyA _) (by have := sameExcept_setP σ i (σ.poly i); rwa [setP_same] at this) fun _ _ => Leaves.on (Leaves.any (sameExcept_setP σ i))
  | copyPoly i j => exact left_getsP (SimA.pure _) (sameExcept_setP σ i)
  | addFactors i j k => exact left_getsP (Poly.sim_addFactors _ _) (sameExcept_setP σ i)
  | subFactors i j k => exact left_getsP (Poly.sim_subFactors _ _) (sameExcept_setP σ i)
  | addTerms i j k => exact left_getsP (Poly.sim_addTerms _ _) (sameExcept_setP σ i)
  | subTerms i j k => exact left_getsP (Poly.sim_subTerms _ _) (sameExcept_setP σ i)
  | addAssign i j => exact Leaves.on (Leaves.any (sameExcept_setP σ i))
  | subAssign i j => exact Leaves.on (Leaves.any (sameExcept_setP σ i))

theorem appendFactor_left (t : Term) (x : Factor) : Leaves (Term.appendFactorT L x) t (fun t' => t' = t ∨
    ∃ f p n e n', t.factors.find x.id = some f ∧ BigInt.addAssignT L x.power (f.power, n) = (.error e, (p, n')) ∧
      t' = { t with factors := t.factors.setPower x.id p }) := by
  unfold Term.appendFactorT
  refine Leaves.this ?_
  cases h : t.factors.find x.id with
  | none => exact Leaves.ask (Or.inl rfl) (Leaves.putEnd _)
  | some f =>
    refine Leaves.on (g := fun _ : Term => f.power) fun n e p n' hm => ?_
    exact Or.inr ⟨f, p, n, e, n', rfl, hm, rfl⟩

theorem appendLoop_left (x : Term) : ∀ l : List Term, Leaves (Poly.appendLoopT L x l) l (fun l' => l' = l ∨
    ∃ a u b c n e n', l = a ++ u :: b ∧ Term.eq u x = .ok true ∧ Frac.addAssignT L x.coeff (u.coeff, n) = (.error e, (c, n')) ∧
      l' = a ++ { u with coeff := c } :: b)
  | [] => Leaves.freeEnd (Or.inl rfl)
  | t :: r => by
    unfold Poly.appendLoopT
    refine Leaves.free (Or.inl rfl) fun l _ => ?_
    split
    · refine Leaves.on (g := fun _ : List Term => r) ((appendLoop_left x r).mono fun l' h => ?_)
      rcases h with rfl | ⟨a, u, b, c, n, e, n', h1, h2, h3, h4⟩
      · exact Or.inl rfl
      · exact Or.inr ⟨t :: a, u, b, c, n, e, n', by rw [h1]; rfl, h2, h3, by rw [h4]; rfl⟩
    · refine Leaves.free (Or.inl rfl) fun e he => ?_
      split
      · rename_i h
        refine Leaves.on (g := fun _ : List Term => t.coeff) fun n e' c n' hm => ?_
        exact Or.inr ⟨[], t, r, c, n, e', n', rfl, by rw [he, h], hm, rfl⟩
      · exact Leaves.ask (Or.inl rfl) (Leaves.putEnd _)

theorem appendTerm_left (p : Poly) (x : Term) : Leaves (Poly.appendTermT L x) p (fun p' => p' = p ∨
    ∃ a u b c n e n', p.terms = a ++ u :: b ∧ Term.eq u x = .ok true ∧ Frac.addAssignT L x.coeff (u.coeff, n) = (.error e, (c, n')) ∧
      p' = ⟨a ++ { u with coeff := c } :: b⟩) := by
  unfold Poly.appendTermT
  refine Leaves.this (Leaves.on (g := fun p : Poly => p.terms) ((appendLoop_left x p.terms).mono fun l' h => ?_))
  rcases h with rfl | ⟨a, u, b, c, n, e, n', h1, h2, h3, h4⟩
  · exact Or.inl rfl
  · exact Or.inr ⟨a, u, b, c, n, e, n', h1, h2, h3, by rw [h4]⟩

theorem appendTerms_left (p : Poly) (xs : List Term) : Leaves (Poly.appendTermsT L xs) p (fun p' => p' = p) := by
  unfold Poly.appendTermsT
  exact Leaves.other (sim_copyA _) rfl fun _ _ => Leaves.this (Leaves.free rfl fun _ _ => Leaves.putEnd _)

/-! ### Trying again -/

private theorem same_setF {i : Nat} {σ σ' : PStore} (h : PStore.SameExcept (.factor i) σ σ') (v : Factor) : σ'.setF i v = σ.setF i v := by
  obtain ⟨h1, h2, h3⟩ := h
  have e2 : σ'.term = σ.term := funext fun j => h2 j (by simp)
  have e3 : σ'.poly = σ.poly := funext fun j => h3 j (by simp)
  have e1 : Function.update σ'.factor i v = Function.update σ.factor i v := by
    funext j
    by_cases hj : j = i
    · subst hj; simp
    · simp [hj, h1 j (by simpa using Ne.symm hj)]
  simp only [PStore.setF, e1, e2, e3]

private theorem same_setT {i : Nat} {σ σ' : PStore} (h : PStore.SameExcept (.term i) σ σ') (v : Term) : σ'.setT i v = σ.setT i v := by
  obtain ⟨h1, h2, h3⟩ := h
  have e2 : σ'.factor = σ.factor := funext fun j => h1 j (by simp)
  have e3 : σ'.poly = σ.poly := funext fun j => h3 j (by simp)
  have e1 : Function.update σ'.term i v = Function.update σ.term i v := by
    funext j
    by_cases hj : j = i
    · subst hj; simp
    · simp [hj, h2 j (by simpa using Ne.symm hj)]
  simp only [PStore.setT, e1, e2, e3]

private theorem same_setP {i : Nat} {σ σ' : PStore} (h : PStore.SameExcept (.poly i) σ σ') (v : Poly) : σ'.setP i v = σ.setP i v := by
  obtain ⟨h1, h2, h3⟩ := h
  have e2 : σ'.factor = σ.factor := funext fun j => h1 j (by simp)
  have e3 : σ'.term = σ.term := funext fun j => h2 j (by simp)
  have e1 : Function.update σ'.poly i v = Function.update σ.poly i v := by
    funext j
    by_cases hj : j = i
    · subst hj; simp
    · simp [hj, h3 j (by simpa using Ne.symm hj)]
  simp only [PStore.setP, e1, e2, e3]

/-- What a statement does, does not depend on the variable it assigns if that is not an operand. -/
theorem fresh_same {s : PStmt} (hs : s.Fresh) (ha : ∀ i js, s ≠ .appendTerms i js) {σ σ' : PStore} (h : PStore.SameExcept s.target σ σ') :
    s.exec σ' = s.exec σ := by
  have hF : ∀ i, s.target = .factor i → ∀ v, σ'.setF i v = σ.setF i v := fun i hi => same_setF (hi ▸ h)
  have hT : ∀ i, s.target = .term i → ∀ v, σ'.setT i v = σ.setT i v := fun i hi => same_setT (hi ▸ h)
  have hP : ∀ i, s.target = .poly i → ∀ v, σ'.setP i v = σ.setP i v := fun i hi => same_setP (hi ▸ h)
  obtain ⟨h1, h2, h3⟩ := h
  have e1 : (∀ i, s.target ≠ .factor i) → σ'.factor = σ.factor := fun h => funext fun j => h1 j (h j)
  have e2 : (∀ i, s.target ≠ .term i) → σ'.term = σ.term := fun h => funext fun j => h2 j (h j)
  cases s with
  | appendTerms i js => exact absurd rfl (ha i js)
  | copyFactor i j =>
    simp only [PStmt.exec, hF i rfl, h1 j (show PVar.factor i ≠ PVar.factor j from fun e => hs (by injection e))]
  | copyTerm i j =>
    simp only [PStmt.exec, hT i rfl, h2 j (show PVar.term i ≠ PVar.term j from fun e => hs (by injection e))]
  | copyPoly i j =>
    simp only [PStmt.exec, hP i rfl, h3 j (show PVar.poly i ≠ PVar.poly j from fun e => hs (by injection e))]
  | mulFactor i j k =>
    simp only [PStmt.exec, PStore.getsT, hT i rfl, h2 j (show PVar.term i ≠ PVar.term j from fun e => hs (by injection e)), e1 (fun _ => PVar.noConfusion)]
  | factorMul i j k =>
    simp only [PStmt.exec, PStore.getsT, hT i rfl, h2 k (show PVar.term i ≠ PVar.term k from fun e => hs (by injection e)), e1 (fun _ => PVar.noConfusion)]
  | mul i j k =>
    simp only [PStmt.exec, PStore.getsT, hT i rfl, h2 j (show PVar.term i ≠ PVar.term j from fun e => hs.1 (by injection e)),
      h2 k (show PVar.term i ≠ PVar.term k from fun e => hs.2 (by injection e))]
  | factor i id n => simp only [PStmt.exec, hF i rfl]
  | term i | termCoeff i | termFactors i | mulFactors i =>
    simp only [PStmt.exec, PStore.getsT, hT i rfl, e1 (fun _ => PVar.noConfusion)]
  | poly i | polyFactors i | addFactors i | subFactors i =>
    simp only [PStmt.exec, PStore.getsP, hP i rfl, e1 (fun _ => PVar.noConfusion)]
  | polyTerm i | polyTerms i | addTerms i | subTerms i =>
    simp only [PStmt.exec, PStore.getsP, hP i rfl, e2 (fun _ => PVar.noConfusion)]
  | _ => exact hs.elim

theorem fresh_again {L : PLuck} {s : PStmt} (hs : s.Fresh) (σ : PStore) : Leaves (s.execT L) σ (fun σ' => s.exec σ' = s.exec σ) := by
  by_cases ha : ∃ i js, s = .appendTerms i js
  · obtain ⟨i, js, rfl⟩ := ha
    unfold PStmt.execT
    refine Leaves.this (Leaves.other (sim_copyA _) rfl fun a ha => ?_)
    refine Leaves.on (g := fun σ : PStore => σ.poly i) ((appendTerms_left _ _).mono fun p hp => ?_)
    rw [hp, setP_same]
  · exact (exec_left s σ).mono fun σ' h => fresh_same hs (fun i js e => ha ⟨i, js, e⟩) h

/-- Trying again something that gives the same result from whatever a failure leaves. -/
theorem retry_sim {L : ILuck} {m : GM τ Unit} {r : τ → Res τ} (hm : ∀ s, SimU L m s (r s)) (hl : ∀ s, Leaves m s (fun s' => r s' = r s)) :
    ∀ (t : Nat) (s : τ) (n : Nat), match GM.retry m t (s, n) with
      | (.ok _, (s', n')) => n ≤ n' ∧ r s = .ok s'
      | (.error e, (_, n')) => n ≤ n' ∧ ((e = .badAlloc ∧ L.RefusesMany (t + 1) n n') ∨ r s = .error e)
  | 0, s, n => by
    have h := hm s n
    unfold GM.retry
    rcases hx : m (s, n) with ⟨o, ⟨s1, n1⟩⟩
    rw [hx] at h
    cases o with
    | ok u => exact h
    | error e => exact ⟨h.1, h.2.elim .inr fun h => .inl ⟨h.1, many_one h.2⟩⟩
  | t + 1, s, n => by
    have h := hm s n
    have hl' := hl s n
    have ih := fun s1 n1 => retry_sim hm hl t s1 n1
    unfold GM.retry
    rcases hx : m (s, n) with ⟨o, ⟨s1, n1⟩⟩
    rw [hx] at h
    cases o with
    | ok u => exact h
    | error e =>
      by_cases he : e = .badAlloc
      · subst he
        have hs := hl' _ _ _ hx
        have ih := ih s1 n1
        dsimp only at h ⊢
        rcases hy : GM.retry m t (s1, n1) with ⟨o, ⟨s2, n2⟩⟩
        rw [hy, hs] at ih
        cases o with
        | ok u => exact ⟨le_trans h.1 ih.1, ih.2⟩
        | error e2 =>
          refine ⟨le_trans h.1 ih.1, ?_⟩
          rcases ih.2 with ⟨g1, g2⟩ | g
          · rcases h.2 with h2 | h2
            · exact .inr (by rw [h2, g1])
            · exact .inl ⟨g1, many_succ h2.2 g2 ih.1⟩
          · exact .inr g
      · have h2 := h.2.resolve_right fun h => he h.1
        cases e <;> first | exact absurd rfl he | exact ⟨h.1, .inr h2⟩

theorem retryAll_sim {L : PLuck} (t : Nat) : ∀ {ss : List PStmt} (_ : ∀ s ∈ ss, s.Fresh) (σ : PStore) (n : Nat),
    match PStmt.retryAll L t ss (σ, n) with
    | (.ok _, (σ', n')) => n ≤ n' ∧ PStmt.run ss σ = .ok σ'
    | (.error e, (_, n')) => n ≤ n' ∧ ((e = .badAlloc ∧ L.toILuck.RefusesMany (t + 1) n n') ∨ PStmt.run ss σ = .error e)
  | [], _, σ, n => ⟨le_refl n, rfl⟩
  | s :: r, hs, σ, n => by
    have h := retry_sim (fun σ => sim_exec (L := L) s σ) (fresh_again (hs s (by simp))) t σ n
    have e1 : PStmt.retryAll L t (s :: r) (σ, n) = (GM.retry (s.execT L) t >>= fun _ => PStmt.retryAll L t r) (σ, n) := rfl
    have e2 : PStmt.run (s :: r) σ = (s.exec σ >>= PStmt.run r) := rfl
    rw [e1, e2]
    rcases hx : GM.retry (s.execT L) t (σ, n) with ⟨o, ⟨σ1, n1⟩⟩
    rw [hx] at h
    cases o with
    | error e =>
      rw [bind_threw hx]
      exact ⟨h.1, h.2.imp id fun h => by rw [h]; rfl⟩
    | ok u =>
      have ih := retryAll_sim (L := L) t (fun q hq => hs q (by simp [hq])) σ1 n1 (ss := r)
      rw [bind_ended hx, h.2]
      have e3 : ((.ok σ1 : Res PStore) >>= PStmt.run r) = PStmt.run r σ1 := rfl
      rw [e3]
      rcases hy : PStmt.retryAll L t r (σ1, n1) with ⟨o, ⟨σ2, n2⟩⟩
      rw [hy] at ih
      cases o with
      | ok u => exact ⟨le_trans h.1 ih.1, ih.2⟩
      | error e =>
        refine ⟨le_trans h.1 ih.1, ih.2.imp (fun g => ⟨g.1, ?_⟩) id⟩
        obtain ⟨S, s1, s2⟩ := g.2
        exact ⟨S, s1, fun k hk => ⟨le_trans h.1 (s2 k hk).1, (s2 k hk).2⟩⟩

end CppMaths
