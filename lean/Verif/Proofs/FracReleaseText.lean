import Verif.Proofs.FracReleaseWF
import Verif.Proofs.FracText
/-!
# `Frac` without assertions: what the build with assertions returns, and text
-/

namespace CppMaths
open BigInt

namespace Frac

/-! ### Results of the build with assertions are kept -/

/-- Whatever the first function returns, the second one returns too. -/
def MKeeps {σ α : Type} (r u : MRes σ α) : Prop := ∀ v, r = .ok v → u = .ok v

theorem MKeeps.bind {σ α β : Type} {r u : MRes σ α} {f g : α → MRes σ β} (h : MKeeps r u) (hf : ∀ a, MKeeps (f a) (g a)) :
    MKeeps (r >>= f) (u >>= g) := by
  intro v hv
  cases r with
  | error e => cases hv
  | ok a => rw [h a rfl]; exact hf a v hv

/-- A part computed by `r` is stored and the work goes on. -/
theorem MKeeps.part {σ α β : Type} {s : σ} {r : Res α} {u : MRes σ β} {f : α → MRes σ β} (h : ∀ a, r = .ok a → MKeeps (f a) u) :
    MKeeps (at' s r >>= f) u := by
  intro v hv
  cases r with
  | error e => cases hv
  | ok a => exact h a rfl v hv

theorem MKeeps.at' {σ α : Type} {s : σ} {r r' : Res α} (h : Keeps r r') : MKeeps (Frac.at' s r) (Frac.at' s r') := by
  intro v hv
  cases r with
  | error e => cases hv
  | ok a => rw [h a rfl]; exact hv

theorem MKeeps.normalize (f : Frac) : MKeeps (Frac.normalize f) (normalizeU f) := fun _ h => normalize_keeps h

theorem MKeeps.drop {σ α : Type} {r u : MRes σ α} (h : MKeeps r u) : Keeps (Frac.drop r) (Frac.drop u) := by
  intro v hv
  cases r with
  | error e => cases hv
  | ok a => rw [h a rfl]; exact hv

theorem mk'_keeps (t b : BigInt) : Keeps (mk' t b) (mkR t b) :=
  (Keeps.refl _).bind fun _ => Keeps.ite (Keeps.refl _) (MKeeps.normalize _).drop

theorem opAdd_keeps (x y : Frac) : Keeps (opAdd x y) (opAddR x y) :=
  (opMul_keeps _ _).bind fun _ => (opMul_keeps _ _).bind fun _ => (BigInt.opAdd_keeps _ _).bind fun _ => (opMul_keeps _ _).bind fun _ => mk'_keeps _ _

theorem opSub_keeps (x y : Frac) : Keeps (opSub x y) (opSubR x y) :=
  (opMul_keeps _ _).bind fun _ => (opMul_keeps _ _).bind fun _ => (BigInt.opSub_keeps _ _).bind fun _ => (opMul_keeps _ _).bind fun _ => mk'_keeps _ _

theorem opMul_keeps (x y : Frac) : Keeps (opMul x y) (opMulR x y) :=
  (BigInt.opMul_keeps _ _).bind fun _ => (BigInt.opMul_keeps _ _).bind fun _ => mk'_keeps _ _

theorem opDiv_keeps (x y : Frac) : Keeps (opDiv x y) (opDivR x y) :=
  (BigInt.opMul_keeps _ _).bind fun _ => (BigInt.opMul_keeps _ _).bind fun _ => mk'_keeps _ _

theorem opPow_keeps (x : Frac) (a : BigInt) : Keeps (opPow x a) (opPowR x a) := by
  unfold opPow opPowR
  exact Keeps.ite ((Keeps.refl _).bind fun _ => (exponentiate_keeps _ _).bind fun _ => (exponentiate_keeps _ _).bind fun _ => mk'_keeps _ _)
    ((exponentiate_keeps _ _).bind fun _ => (exponentiate_keeps _ _).bind fun _ => mk'_keeps _ _)

/-- `x.bb *= v`, followed by more. -/
theorem MKeeps.mulBottom {x : Frac} {v : BigInt} {f : BigInt → MRes Frac Frac} {g : Frac → MRes Frac Frac}
    (h : ∀ b, MKeeps (f b) (g { x with bb := b })) :
    MKeeps (Frac.at' x (x.bb.mulAssign v) >>= f) (atBottom x (x.bb.mulAssignU v) >>= g) :=
  MKeeps.part fun b hb => by rw [mulAssign_keeps _ _ _ hb, atBottom_ok, mbind_ok]; exact h b

theorem MKeeps.mulTop {x : Frac} {v : BigInt} {f : BigInt → MRes Frac Frac} {g : Frac → MRes Frac Frac}
    (h : ∀ t, MKeeps (f t) (g { x with tt := t })) :
    MKeeps (Frac.at' x (x.tt.mulAssign v) >>= f) (atTop x (x.tt.mulAssignU v) >>= g) :=
  MKeeps.part fun b hb => by rw [mulAssign_keeps _ _ _ hb, atTop_ok, mbind_ok]; exact h b

theorem addAssign_keeps (x y : Frac) : MKeeps (addAssign x y) (addAssignU x y) :=
  (MKeeps.at' ((BigInt.opMul_keeps _ _).bind fun _ => (BigInt.opMul_keeps _ _).bind fun _ => BigInt.opAdd_keeps _ _)).bind fun _ =>
    MKeeps.mulBottom fun _ => MKeeps.normalize _

theorem subAssign_keeps (x y : Frac) : MKeeps (subAssign x y) (subAssignU x y) :=
  (MKeeps.at' ((BigInt.opMul_keeps _ _).bind fun _ => (BigInt.opMul_keeps _ _).bind fun _ => BigInt.opSub_keeps _ _)).bind fun _ =>
    MKeeps.mulBottom fun _ => MKeeps.normalize _

theorem mulAssign_keeps (x y : Frac) : MKeeps (mulAssign x y) (mulAssignU x y) :=
  MKeeps.mulTop fun _ => MKeeps.mulBottom fun _ => MKeeps.normalize _

theorem divAssign_keeps (x y : Frac) : MKeeps (divAssign x y) (divAssignU x y) :=
  MKeeps.mulTop fun _ => MKeeps.mulBottom fun _ => MKeeps.normalize _

theorem powAssign_keeps (x : Frac) (a : BigInt) : MKeeps (powAssign x a) (powAssignU x a) := by
  have key : ∀ a : BigInt, MKeeps (do
      let b ← Frac.at' x (x.bb.powAssign a)
      let x := { x with bb := b }
      let t ← Frac.at' x (x.tt.powAssign a)
      normalize { x with tt := t }) (do
      let x ← atBottom x (x.bb.powAssignU a)
      let x ← atTop x (x.tt.powAssignU a)
      normalizeU x) := fun a => MKeeps.part fun b hb => by
    rw [BigInt.powAssignU, (exponentiate_keeps _ _) _ hb, keeping_ok, atBottom_ok, mbind_ok]
    exact MKeeps.part fun t ht => by
      dsimp only at ht ⊢
      rw [BigInt.powAssignU, (exponentiate_keeps _ _) _ ht, keeping_ok, atTop_ok, mbind_ok]
      exact MKeeps.normalize _
  unfold powAssign powAssignU
  split
  · exact (MKeeps.at' (Keeps.refl _)).bind fun na => key na
  · exact key a

end Frac

open Frac

theorem FOp.run_keeps (op : FOp) (x y : Frac) : Keeps (op.run x y) (op.runR x y) := by
  cases op
  · exact Frac.opAdd_keeps x y
  · exact Frac.opSub_keeps x y
  · exact Frac.opMul_keeps x y
  · exact Frac.opDiv_keeps x y

theorem FOp.runInt_keeps (op : FOp) (x : Frac) (a : BigInt) : Keeps (op.runInt x a) (op.runIntR x a) := by
  cases op
  · exact (BigInt.opMul_keeps _ _).bind fun _ => (BigInt.opAdd_keeps _ _).bind fun _ => mk'_keeps _ _
  · exact (BigInt.opMul_keeps _ _).bind fun _ => (BigInt.opSub_keeps _ _).bind fun _ => mk'_keeps _ _
  · exact (BigInt.opMul_keeps _ _).bind fun _ => mk'_keeps _ _
  · exact (BigInt.opMul_keeps _ _).bind fun _ => mk'_keeps _ _

theorem FOp.intRun_keeps (op : FOp) (a : BigInt) (x : Frac) : Keeps (op.intRun a x) (op.intRunR a x) := by
  cases op
  · exact (BigInt.opMul_keeps _ _).bind fun _ => (BigInt.opAdd_keeps _ _).bind fun _ => mk'_keeps _ _
  · exact (BigInt.opMul_keeps _ _).bind fun _ => (BigInt.opSub_keeps _ _).bind fun _ => mk'_keeps _ _
  · exact (BigInt.opMul_keeps _ _).bind fun _ => mk'_keeps _ _
  · exact (BigInt.opMul_keeps _ _).bind fun _ => mk'_keeps _ _

theorem FOp.asgVal_keeps (op : FOp) (x y : Frac) : MKeeps (op.asgVal x y) (op.asgValU x y) := by
  cases op
  · exact Frac.addAssign_keeps x y
  · exact Frac.subAssign_keeps x y
  · exact Frac.mulAssign_keeps x y
  · exact Frac.divAssign_keeps x y

theorem FOp.asgInt_keeps (op : FOp) (x : Frac) (a : BigInt) : MKeeps (op.asgInt x a) (op.asgIntU x a) := by
  cases op
  · exact (MKeeps.at' (BigInt.opMul_keeps _ _)).bind fun _ => MKeeps.part fun b hb => by
      rw [BigInt.addAssign_keeps _ _ _ hb, atTop_ok, mbind_ok]; exact MKeeps.normalize _
  · exact (MKeeps.at' (BigInt.opMul_keeps _ _)).bind fun _ => MKeeps.part fun b hb => by
      rw [BigInt.subAssign_keeps _ _ _ hb, atTop_ok, mbind_ok]; exact MKeeps.normalize _
  · exact MKeeps.mulTop fun _ => MKeeps.normalize _
  · exact MKeeps.mulBottom fun _ => MKeeps.normalize _

namespace Frac

/-! ### Text -/

theorem fromDoubleR_red {ip fp : List Char} {z : Int} (h : IntText (ip ++ fp) z) (hip : ∀ c ∈ ip, c ≠ '.') (h0 : 0 < fp.length)
    (h1 : fp.length ≤ 2147483647) : RedR (fromDoubleR true (ip ++ '.' :: fp)) z (10 ^ fp.length) := by
  obtain ⟨e1, e2⟩ := split_at (q := fp) hip
  obtain ⟨t, t1, t2, t3⟩ := ofString_ok h
  obtain ⟨b, b1, b2, b3, b4⟩ := timesPowerTen_pos canon_one (p := fp.length) (by omega)
  have hb : Canon b := b4 (.inl (by rw [val_one]; norm_num))
  unfold fromDoubleR
  rw [if_neg (by simp), e1, e2]
  dsimp only
  rw [t1, bind_ok, ofInt64_one, bind_ok]
  have e3 : toI32 (fp.length : Int) = fp.length := toI32_id (by omega) (by omega)
  rw [e3, timesPowerTen_keeps _ _ _ b1, show outcome (.ok b : Upd BigInt) = .ok b from rfl, bind_ok]
  have := red_mkR t2 hb
  rw [t3, b3, val_one, one_mul, Int.toNat_natCast] at this
  exact this

theorem readU_of_raw {s s' : IStream} {f g : Frac} (hs : s.good = true) (h : readRaw s f = .ok (s', g)) :
    readU s f = match normalizeU g with
      | .ok f => .ok (s', f)
      | .error (e, f) => .error (e, s', f) := by
  have e : s.sentry = (true, s) := by
    rw [IStream_eq_goodAt hs]; rfl
  unfold readU
  rw [e]
  simp only [Bool.not_true, Bool.false_eq_true, if_false, h]
  rfl

theorem read_keeps (s : IStream) (f : Frac) {v : IStream × Frac} (h : Frac.read s f = .ok v) : readU s f = .ok v := by
  unfold Frac.read at h
  unfold readU
  cases h1 : s.sentry with
  | mk ok s' =>
    rw [h1] at h
    dsimp only at h ⊢
    cases ok with
    | false => simpa using h
    | true =>
      simp only [Bool.not_true, Bool.false_eq_true, if_false] at h ⊢
      cases h2 : readRaw s' f with
      | error e => rw [h2] at h; cases h
      | ok r =>
        obtain ⟨s'', g⟩ := r
        rw [h2] at h
        dsimp only at h ⊢
        cases h3 : normalize g with
        | error e => rw [h3] at h; cases h
        | ok g' =>
          rw [h3] at h
          rw [normalize_keeps h3]
          exact h

theorem ofString_keeps (s : List Char) : Keeps (Frac.ofString s) (ofStringR s) := by
  unfold Frac.ofString ofStringR
  refine Keeps.ite (Keeps.refl _) (Keeps.bind (Keeps.refl _) fun f => (Keeps.refl _).bind fun _ => Keeps.ite (Keeps.refl _) ?_)
  exact (MKeeps.normalize _).drop

theorem fromDouble_keeps (finite : Bool) (s : List Char) : Keeps (fromDouble finite s) (fromDoubleR finite s) := by
  unfold fromDouble fromDoubleR
  refine Keeps.ite (Keeps.refl _) ?_
  cases s.dropWhile (· != '.') with
  | nil => exact Keeps.refl _
  | cons c cs => exact (Keeps.refl _).bind fun _ => (Keeps.refl _).bind fun _ => (timesPowerTen_keeps _ _).outcome.bind fun _ => mk'_keeps _ _

end Frac
end CppMaths
