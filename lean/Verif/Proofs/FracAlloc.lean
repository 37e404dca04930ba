import Verif.Model.FracAlloc
import Verif.Proofs.IntAllocLeft
import Verif.Proofs.FracMem
/-!
# `Frac` when memory runs out
-/

namespace CppMaths
namespace Frac
open BigInt GM

variable {L : ILuck} {α β : Type}

theorem drop_at {σ : Type} (s : σ) (r : Res α) (k : α → Except (Err × σ) β) : drop (at' s r >>= k) = r >>= fun a => drop (k a) := by
  cases r <;> rfl

theorem SimU.onTop {m : TM Unit} {f : Frac} {r : Res BigInt} (h : SimU L m f.tt r) :
    SimU L (Frac.onTop m) f (r >>= fun t => .ok { f with tt := t }) := by
  intro n
  obtain ⟨h0, h1⟩ := h n
  unfold Frac.onTop
  dsimp only
  rcases hm : m (f.tt, n) with ⟨o, ⟨t, n'⟩⟩
  rw [hm] at h0 h1
  refine ⟨h0, ?_⟩
  cases o with
  | ok a =>
    dsimp only at h1 ⊢
    rw [h1]
    rfl
  | error e =>
    dsimp only at h1 ⊢
    rcases h1 with h1 | h1
    · rw [h1]
      exact .inl rfl
    · exact .inr h1

theorem SimU.onBottom {m : TM Unit} {f : Frac} {r : Res BigInt} (h : SimU L m f.bb r) :
    SimU L (Frac.onBottom m) f (r >>= fun t => .ok { f with bb := t }) := by
  intro n
  obtain ⟨h0, h1⟩ := h n
  unfold Frac.onBottom
  dsimp only
  rcases hm : m (f.bb, n) with ⟨o, ⟨t, n'⟩⟩
  rw [hm] at h0 h1
  refine ⟨h0, ?_⟩
  cases o with
  | ok a =>
    dsimp only at h1 ⊢
    rw [h1]
    rfl
  | error e =>
    dsimp only at h1 ⊢
    rcases h1 with h1 | h1
    · rw [h1]
      exact .inl rfl
    · exact .inr h1

theorem res_assoc (r : Res α) (f : α → β) {γ : Type} (g : β → Res γ) : ((r >>= fun a => (.ok (f a) : Res β)) >>= g) = r >>= fun a => g (f a) := by
  cases r <;> rfl

theorem SimU.topThen {m : TM Unit} {k : Unit → FM Unit} {f : Frac} {r : Res BigInt} {g : BigInt → Res Frac} (h : SimU L m f.tt r)
    (hk : ∀ t, r = .ok t → SimU L (k ()) { f with tt := t } (g t)) : SimU L (Frac.onTop m >>= k) f (r >>= g) := by
  cases r with
  | ok t => exact SimU.bind (g := fun _ => g t) (SimU.onTop h) fun a ha => by cases ha; exact hk t rfl
  | error e => exact SimU.bind (g := fun _ => .error e) (SimU.onTop h) fun a ha => by cases ha

theorem SimU.bottomThen {m : TM Unit} {k : Unit → FM Unit} {f : Frac} {r : Res BigInt} {g : BigInt → Res Frac} (h : SimU L m f.bb r)
    (hk : ∀ t, r = .ok t → SimU L (k ()) { f with bb := t } (g t)) : SimU L (Frac.onBottom m >>= k) f (r >>= g) := by
  cases r with
  | ok t => exact SimU.bind (g := fun _ => g t) (SimU.onBottom h) fun a ha => by cases ha; exact hk t rfl
  | error e => exact SimU.bind (g := fun _ => .error e) (SimU.onBottom h) fun a ha => by cases ha

theorem sim_gcdLoop (f : Nat) : ∀ a b, SimA L (gcdLoopA L f a b) (gcdLoop f a b) := by
  induction f with
  | zero => intro a b; exact SimA.free _
  | succ f ih =>
    intro a b
    unfold gcdLoopA gcdLoop
    refine SimA.freeBind fun z _ => ?_
    split
    · exact sim_returned a
    · exact SimA.bind (sim_opMod a b) fun r _ => SimA.ask (SimA.ask (SimA.ask (ih b r)))

theorem sim_nochecksGcd (x y : BigInt) : SimA L (nochecksGcdA L x y) (nochecksGcd x y) :=
  SimA.then (sim_copy x) (SimA.then (sim_copy y) (SimA.then sim_default (sim_gcdLoop _ x y)))

theorem sim_gcd (x y : BigInt) : SimA L (gcdA L x y) (gcd x y) := by
  unfold gcdA gcd
  refine SimA.bind (sim_abs x) fun a _ => SimA.bind (sim_abs y) fun b _ => SimA.freeBind fun l _ => ?_
  split
  · exact sim_nochecksGcd b a
  · exact sim_nochecksGcd a b

theorem sim_reduce (f : Frac) : SimU L (do
    let f ← (this : FM Frac)
    let c ← other (gcdA L f.tt f.bb)
    onTop (BigInt.divAssignT L c)
    onBottom (BigInt.divAssignT L c)) f (do
    let c ← gcd f.tt f.bb
    let t ← f.tt.divAssign c
    let b ← f.bb.divAssign c
    return ⟨t, b⟩) := by
  refine SimU.this (SimU.other (sim_gcd _ _) fun c _ => SimU.topThen (sim_divAssign _ _) fun t _ => ?_)
  exact SimU.onBottom (f := { f with tt := t }) (sim_divAssign f.bb c)

theorem sim_normalize (f : Frac) : SimU L (normalizeT L) f (drop (normalize f)) := by
  have hd : ∀ f : Frac, drop (do
      let c ← at' f (gcd f.tt f.bb)
      let t ← at' f (f.tt.divAssign c)
      let f := { f with tt := t }
      let b ← at' f (f.bb.divAssign c)
      return { f with bb := b }) = (do
        let c ← gcd f.tt f.bb
        let t ← f.tt.divAssign c
        let b ← f.bb.divAssign c
        return ⟨t, b⟩) := by
    intro f
    simp only [drop_at]
    rfl
  unfold normalizeT normalize
  refine SimU.this ?_
  split
  · rename_i h
    simp only [bind_assoc, drop_at, pure_bind]
    refine SimU.bottomThen (sim_negate _) fun b _ => SimU.topThen (sim_negate _) fun t _ => ?_
    exact sim_reduce (L := L) ⟨t, b⟩
  · rename_i h
    simp only [pure_bind]
    rw [hd]
    exact sim_reduce f

theorem sim_returned' (x : Frac) : SimA L (returnedA L x) (.ok x) := SimA.ask (SimA.pure _)

theorem sim_mk (t b : BigInt) : SimA L (mkA L t b) (mk' t b) := by
  unfold mkA mk'
  refine SimA.then (sim_copy t) (SimA.then (sim_copy b) (SimA.freeBind fun z _ => ?_))
  split
  · exact SimA.free _
  · refine SimA.end_ ?_
    exact SimA.local (sim_normalize _) fun f _ => sim_returned' f

theorem sim_frac_default : SimA L (defaultA L) default :=
  SimA.bind (sim_ofInt64 0 0) fun _ _ => SimA.bind (sim_ofInt64 1 0) fun _ _ => SimA.pure _

theorem sim_ofI32 (x : Int) : SimA L (ofI32A L x) (ofI32 x) :=
  SimA.bind (sim_ofInt64 x 0) fun _ _ => SimA.bind (sim_ofInt64 1 0) fun _ _ => SimA.pure _

theorem sim_ofInt (x : BigInt) : SimA L (ofIntA L x) (ofInt x) :=
  SimA.then (sim_copy x) (SimA.bind (sim_ofInt64 1 0) fun _ _ => SimA.pure _)

theorem sim_lt (x y : Frac) : SimA L (ltA L x y) (lt x y) :=
  SimA.bind (BigInt.sim_opMul _ _) fun _ _ => SimA.bind (BigInt.sim_opMul _ _) fun _ _ => SimA.free _

theorem sim_run (op : FOp) (x y : Frac) : SimA L (op.runA L x y) (op.run x y) := by
  cases op
  · exact SimA.bind (BigInt.sim_opMul _ _) fun _ _ => SimA.bind (BigInt.sim_opMul _ _) fun _ _ => SimA.bind (BigInt.sim_opAdd _ _) fun _ _ =>
      SimA.bind (BigInt.sim_opMul _ _) fun _ _ => sim_mk _ _
  · exact SimA.bind (BigInt.sim_opMul _ _) fun _ _ => SimA.bind (BigInt.sim_opMul _ _) fun _ _ => SimA.bind (BigInt.sim_opSub _ _) fun _ _ =>
      SimA.bind (BigInt.sim_opMul _ _) fun _ _ => sim_mk _ _
  · exact SimA.bind (BigInt.sim_opMul _ _) fun _ _ => SimA.bind (BigInt.sim_opMul _ _) fun _ _ => sim_mk _ _
  · exact SimA.bind (BigInt.sim_opMul _ _) fun _ _ => SimA.bind (BigInt.sim_opMul _ _) fun _ _ => sim_mk _ _

theorem sim_runInt (op : FOp) (x : Frac) (a : BigInt) : SimA L (op.runIntA L x a) (op.runInt x a) := by
  cases op
  · exact SimA.bind (BigInt.sim_opMul _ _) fun _ _ => SimA.bind (BigInt.sim_opAdd _ _) fun _ _ => sim_mk _ _
  · exact SimA.bind (BigInt.sim_opMul _ _) fun _ _ => SimA.bind (BigInt.sim_opSub _ _) fun _ _ => sim_mk _ _
  · exact SimA.bind (BigInt.sim_opMul _ _) fun _ _ => sim_mk _ _
  · exact SimA.bind (BigInt.sim_opMul _ _) fun _ _ => sim_mk _ _

theorem sim_intRun (op : FOp) (a : BigInt) (x : Frac) : SimA L (op.intRunA L a x) (op.intRun a x) := by
  cases op
  · exact SimA.bind (BigInt.sim_opMul _ _) fun _ _ => SimA.bind (BigInt.sim_opAdd _ _) fun _ _ => sim_mk _ _
  · exact SimA.bind (BigInt.sim_opMul _ _) fun _ _ => SimA.bind (BigInt.sim_opSub _ _) fun _ _ => sim_mk _ _
  · exact SimA.bind (BigInt.sim_opMul _ _) fun _ _ => sim_mk _ _
  · exact SimA.bind (BigInt.sim_opMul _ _) fun _ _ => sim_mk _ _

theorem sim_fracPow (x : Frac) (a : BigInt) : SimA L (opPowA L x a) (opPow x a) := by
  unfold opPowA opPow
  split
  · exact SimA.bind (BigInt.sim_neg _) fun _ _ => SimA.bind (BigInt.sim_opPow _ _) fun _ _ => SimA.bind (BigInt.sim_opPow _ _) fun _ _ => sim_mk _ _
  · exact SimA.bind (BigInt.sim_opPow _ _) fun _ _ => SimA.bind (BigInt.sim_opPow _ _) fun _ _ => sim_mk _ _

theorem sim_assign (op : FOp) (x y : Frac) : SimU L (op.assignT L y) x (drop (op.asgVal x y)) := by
  cases op
  · show SimU L (addAssignT L y) x (drop (addAssign x y))
    unfold addAssignT addAssign
    simp only [drop_at, bind_assoc]
    exact SimU.this (SimU.other (BigInt.sim_opMul _ _) fun _ _ => SimU.other (BigInt.sim_opMul _ _) fun _ _ =>
      SimU.other (BigInt.sim_opAdd _ _) fun s _ =>
      SimU.topThen (r := .ok s) (g := fun s => (x.bb.mulAssign y.bb) >>= fun b => drop (normalize ⟨s, b⟩)) (SimU.assign _ s) fun t _ =>
      SimU.bottomThen (sim_mulAssign _ _) fun b _ => sim_normalize _)
  · show SimU L (subAssignT L y) x (drop (subAssign x y))
    unfold subAssignT subAssign
    simp only [drop_at, bind_assoc]
    exact SimU.this (SimU.other (BigInt.sim_opMul _ _) fun _ _ => SimU.other (BigInt.sim_opMul _ _) fun _ _ =>
      SimU.other (BigInt.sim_opSub _ _) fun s _ =>
      SimU.topThen (r := .ok s) (g := fun s => (x.bb.mulAssign y.bb) >>= fun b => drop (normalize ⟨s, b⟩)) (SimU.assign _ s) fun t _ =>
      SimU.bottomThen (sim_mulAssign _ _) fun b _ => sim_normalize _)
  · show SimU L (mulAssignT L y) x (drop (mulAssign x y))
    unfold mulAssignT mulAssign
    simp only [drop_at]
    exact SimU.topThen (sim_mulAssign _ _) fun t _ => SimU.bottomThen (sim_mulAssign _ _) fun b _ => sim_normalize _
  · show SimU L (divAssignT L y) x (drop (divAssign x y))
    unfold divAssignT divAssign
    simp only [drop_at]
    exact SimU.then (sim_copy _) (SimU.topThen (sim_mulAssign _ _) fun t _ => SimU.bottomThen (sim_mulAssign _ _) fun b _ => sim_normalize _)

theorem sim_assignInt (op : FOp) (x : Frac) (a : BigInt) : SimU L (op.assignIntT L a) x (drop (op.asgInt x a)) := by
  cases op
  · show SimU L (addAssignIntT L a) x (drop (addAssignInt x a))
    unfold addAssignIntT addAssignInt
    simp only [drop_at]
    exact SimU.this (SimU.other (BigInt.sim_opMul _ _) fun _ _ => SimU.topThen (sim_addAssign _ _) fun t _ => sim_normalize _)
  · show SimU L (subAssignIntT L a) x (drop (subAssignInt x a))
    unfold subAssignIntT subAssignInt
    simp only [drop_at]
    exact SimU.this (SimU.other (BigInt.sim_opMul _ _) fun _ _ => SimU.topThen (sim_subAssign _ _) fun t _ => sim_normalize _)
  · show SimU L (mulAssignIntT L a) x (drop (mulAssignInt x a))
    unfold mulAssignIntT mulAssignInt
    simp only [drop_at]
    exact SimU.topThen (sim_mulAssign _ _) fun t _ => sim_normalize _
  · show SimU L (divAssignIntT L a) x (drop (divAssignInt x a))
    unfold divAssignIntT divAssignInt
    simp only [drop_at]
    exact SimU.bottomThen (sim_mulAssign _ _) fun t _ => sim_normalize _

theorem sim_fracPowAssign (x : Frac) (a : BigInt) : SimU L (powAssignT L a) x (drop (powAssign x a)) := by
  unfold powAssignT powAssign
  split
  · simp only [drop_at]
    exact SimU.other (BigInt.sim_neg a) fun na _ => SimU.bottomThen (sim_powAssign _ _) fun b _ => SimU.topThen (sim_powAssign _ _) fun t _ => sim_normalize _
  · simp only [drop_at]
    exact SimU.then (SimA.pure a) (SimU.bottomThen (sim_powAssign _ _) fun b _ => SimU.topThen (sim_powAssign _ _) fun t _ => sim_normalize _)

/-! ### What is left of `*this` after an exception -/

/-- Both parts are well-formed numbers. -/
def PartsWF (f : Frac) : Prop := WF f.tt ∧ WF f.bb

theorem Leaves.onTop {m : TM Unit} {f : Frac} {P : Frac → Prop} (h : Leaves m f.tt fun t => P { f with tt := t }) : Leaves (Frac.onTop m) f P := by
  intro n e s' n' hm
  unfold Frac.onTop at hm
  dsimp only at hm
  rcases h1 : m (f.tt, n) with ⟨o, ⟨t, n2⟩⟩
  rw [h1] at hm
  cases hm
  exact h _ _ _ _ h1

theorem Leaves.onBottom {m : TM Unit} {f : Frac} {P : Frac → Prop} (h : Leaves m f.bb fun t => P { f with bb := t }) : Leaves (Frac.onBottom m) f P := by
  intro n e s' n' hm
  unfold Frac.onBottom at hm
  dsimp only at hm
  rcases h1 : m (f.bb, n) with ⟨o, ⟨t, n2⟩⟩
  rw [h1] at hm
  cases hm
  exact h _ _ _ _ h1

theorem Leaves.topThen {m : TM Unit} {k : Unit → FM Unit} {f : Frac} {r : Res BigInt} {P : Frac → Prop} (hs : SimU L m f.tt r)
    (h : Leaves m f.tt fun t => P { f with tt := t }) (hk : ∀ t, r = .ok t → Leaves (k ()) { f with tt := t } P) : Leaves (Frac.onTop m >>= k) f P := by
  refine Leaves.bind (SimU.onTop hs) (Leaves.onTop h) fun a ha => ?_
  cases r with
  | ok t => cases ha; exact hk t rfl
  | error e => cases ha

theorem Leaves.bottomThen {m : TM Unit} {k : Unit → FM Unit} {f : Frac} {r : Res BigInt} {P : Frac → Prop} (hs : SimU L m f.bb r)
    (h : Leaves m f.bb fun t => P { f with bb := t }) (hk : ∀ t, r = .ok t → Leaves (k ()) { f with bb := t } P) :
    Leaves (Frac.onBottom m >>= k) f P := by
  refine Leaves.bind (SimU.onBottom hs) (Leaves.onBottom h) fun a ha => ?_
  cases r with
  | ok t => cases ha; exact hk t rfl
  | error e => cases ha

theorem divAssign_keepsWF {x y : BigInt} (hx : WF x) (hy : WF y) (h : |y.val| ≤ |x.val|) : Leaves (BigInt.divAssignT L y) x WF := by
  refine (Leaves.divAssign hx hy).mono ?_
  rintro x' (h1 | ⟨h1, _⟩ | ⟨_, h1, _⟩)
  · rw [h1]; exact hx
  · exact absurd h (not_le.mpr h1)
  · exact h1

theorem mulAssign_keepsWF (hL : L.Sane) {x y : BigInt} (hx : WF x) (hy : WF y) : Leaves (BigInt.mulAssignT L y) x WF := by
  obtain ⟨r, r1, r2, _⟩ := mulAssign_ok hx hy
  refine Leaves.mulAssign (P := WF) hx fun r' h => ?_
  rw [r1] at h
  cases h
  exact ⟨r2, fun k => hL k _ _ hx.1 hx.2 r2.1 r2.2⟩

theorem reduce_keepsWF {f : Frac} (ht : Canon f.tt) (hb : Canon f.bb) (ht0 : f.tt.val ≠ 0) (hb0 : f.bb.val ≠ 0) : Leaves (do
    let f ← (this : FM Frac)
    let c ← other (gcdA L f.tt f.bb)
    onTop (BigInt.divAssignT L c)
    onBottom (BigInt.divAssignT L c)) f PartsWF := by
  refine Leaves.this (Leaves.other (sim_gcd _ _) ⟨ht.1, hb.1⟩ fun c hc => ?_)
  have hc' : Canon c ∧ c.val = Int.gcd f.tt.val f.bb.val := by
    by_cases h : EuclidAborts (max |f.tt.val| |f.bb.val|) (min |f.tt.val| |f.bb.val|)
    · rw [(gcd_spec ht hb).2 h] at hc
      cases hc
    · obtain ⟨r, r1, r2, r3⟩ := (gcd_spec ht hb).1 h
      rw [r1] at hc
      cases hc
      exact ⟨r2, r3⟩
  have h1 : |c.val| ≤ |f.tt.val| := by
    rw [hc'.2, abs_of_nonneg (by positivity)]
    exact Int.le_of_dvd (abs_pos.mpr ht0) ((dvd_abs _ _).mpr (Int.gcd_dvd_left ..))
  have h2 : |c.val| ≤ |f.bb.val| := by
    rw [hc'.2, abs_of_nonneg (by positivity)]
    exact Int.le_of_dvd (abs_pos.mpr hb0) ((dvd_abs _ _).mpr (Int.gcd_dvd_right ..))
  have hc0 : c.val ≠ 0 := by
    rw [hc'.2]
    exact_mod_cast (Int.gcd_pos_of_ne_zero_left _ ht0).ne'
  refine Leaves.topThen (sim_divAssign _ _) ((divAssign_keepsWF ht.1 hc'.1.1 h1).mono fun x h => ⟨h, hb.1⟩) fun t h => ?_
  refine Leaves.onBottom (f := { f with tt := t }) ((divAssign_keepsWF hb.1 hc'.1.1 h2).mono fun x hx => ⟨?_, hx⟩)
  have h3 := IOp.asgVal_refines .div ht.1 hc'.1.1
  rw [show IOp.div.asgVal f.tt c = .ok t from h] at h3
  rcases h3 with h3 | h3
  · cases h3
  · rw [show IOp.div.sem f.tt.val c.val = some (f.tt.val.tdiv c.val) by simp [IOp.sem, hc0]] at h3
    obtain ⟨a, h4, h5, _⟩ := h3
    cases h4
    exact h5

theorem normalize_keepsWF {f : Frac} (ht : Canon f.tt) (hb : Canon f.bb) (ht0 : f.tt.val ≠ 0) (hb0 : f.bb.val ≠ 0) :
    Leaves (normalizeT L) f PartsWF := by
  unfold normalizeT
  refine Leaves.this ?_
  split
  · simp only [bind_assoc]
    obtain ⟨b, b1, b2, _, b4, _⟩ := negate_canon hb.clean
    obtain ⟨t, t1, t2, _, t4, _⟩ := negate_canon ht.clean
    refine Leaves.bottomThen (sim_negate (L := L) _) (Leaves.negate ⟨ht.1, hb.1⟩) fun b' hb' => ?_
    rw [b1] at hb'
    cases hb'
    refine Leaves.topThen (sim_negate (L := L) _) (Leaves.negate ⟨ht.1, b2.1⟩) fun t' ht' => ?_
    rw [t1] at ht'
    cases ht'
    exact reduce_keepsWF t2 b2 (by rw [t4]; exact neg_ne_zero.mpr ht0) (by rw [b4]; exact neg_ne_zero.mpr hb0)
  · exact reduce_keepsWF ht hb ht0 hb0

theorem assign_keepsWF (hL : L.Sane) (op : FOp) {x y : Frac} (hx : x.Valid) (hy : y.Valid) (h1 : (op.parts x.value y.value).1 ≠ 0)
    (h2 : (op.parts x.value y.value).2 ≠ 0) : Leaves (op.assignT L y) x PartsWF := by
  have hx' : PartsWF x := ⟨hx.1.1, hx.2.1.1⟩
  cases op <;> simp only [FOp.parts, hx.num, hx.den, hy.num, hy.den] at h1 h2
  · obtain ⟨a, a1, a2, a3⟩ := opMul_ok hx.1.clean hy.2.1.clean
    obtain ⟨b, b1, b2, b3⟩ := opMul_ok hy.1.clean hx.2.1.clean
    obtain ⟨s, s1, s2, s3⟩ := opAdd_ok a2.clean b2.clean
    obtain ⟨d, d1, d2, d3⟩ := canon_mul hx.2.1 hy.2.1 hx.bb_ne hy.bb_ne
    refine Leaves.this (Leaves.other (BigInt.sim_opMul _ _) hx' fun a' ha => Leaves.other (BigInt.sim_opMul _ _) hx' fun b' hb =>
      Leaves.other (BigInt.sim_opAdd _ _) hx' fun s' hs => ?_)
    rw [a1] at ha; cases ha
    rw [b1] at hb; cases hb
    rw [s1] at hs; cases hs
    refine Leaves.topThen (SimU.assign _ s) (Leaves.assign fun k => ⟨hL k _ _ hx.1.1.1 hx.1.1.2 s2.1.1 s2.1.2, hx.2.1.1⟩) fun t ht => ?_
    cases ht
    refine Leaves.bottomThen (sim_mulAssign _ _) ((mulAssign_keepsWF hL hx.2.1.1 hy.2.1.1).mono fun b h => ⟨s2.1, h⟩) fun d' hd => ?_
    rw [d1] at hd; cases hd
    exact normalize_keepsWF s2 d2 (by rw [s3, a3, b3]; exact h1) (by rw [d3]; exact h2)
  · obtain ⟨a, a1, a2, a3⟩ := opMul_ok hx.1.clean hy.2.1.clean
    obtain ⟨b, b1, b2, b3⟩ := opMul_ok hy.1.clean hx.2.1.clean
    obtain ⟨s, s1, s2, s3⟩ := opSub_ok a2.clean b2.clean
    obtain ⟨d, d1, d2, d3⟩ := canon_mul hx.2.1 hy.2.1 hx.bb_ne hy.bb_ne
    refine Leaves.this (Leaves.other (BigInt.sim_opMul _ _) hx' fun a' ha => Leaves.other (BigInt.sim_opMul _ _) hx' fun b' hb =>
      Leaves.other (BigInt.sim_opSub _ _) hx' fun s' hs => ?_)
    rw [a1] at ha; cases ha
    rw [b1] at hb; cases hb
    rw [s1] at hs; cases hs
    refine Leaves.topThen (SimU.assign _ s) (Leaves.assign fun k => ⟨hL k _ _ hx.1.1.1 hx.1.1.2 s2.1.1 s2.1.2, hx.2.1.1⟩) fun t ht => ?_
    cases ht
    refine Leaves.bottomThen (sim_mulAssign _ _) ((mulAssign_keepsWF hL hx.2.1.1 hy.2.1.1).mono fun b h => ⟨s2.1, h⟩) fun d' hd => ?_
    rw [d1] at hd; cases hd
    exact normalize_keepsWF s2 d2 (by rw [s3, a3, b3]; exact h1) (by rw [d3]; exact h2)
  · obtain ⟨t, t1, t2, t3⟩ := canon_mul hx.1 hy.1 (left_ne_zero_of_mul h1) (right_ne_zero_of_mul h1)
    obtain ⟨d, d1, d2, d3⟩ := canon_mul hx.2.1 hy.2.1 hx.bb_ne hy.bb_ne
    refine Leaves.topThen (sim_mulAssign _ _) ((mulAssign_keepsWF hL hx.1.1 hy.1.1).mono fun b h => ⟨h, hx.2.1.1⟩) fun t' ht => ?_
    rw [t1] at ht; cases ht
    refine Leaves.bottomThen (sim_mulAssign _ _) ((mulAssign_keepsWF hL hx.2.1.1 hy.2.1.1).mono fun b h => ⟨t2.1, h⟩) fun d' hd => ?_
    rw [d1] at hd; cases hd
    exact normalize_keepsWF t2 d2 (by rw [t3]; exact h1) (by rw [d3]; exact h2)
  · obtain ⟨t, t1, t2, t3⟩ := canon_mul hx.1 hy.2.1 (left_ne_zero_of_mul h1) (right_ne_zero_of_mul h1)
    obtain ⟨d, d1, d2, d3⟩ := canon_mul hx.2.1 hy.1 hx.bb_ne (right_ne_zero_of_mul h2)
    refine Leaves.other (sim_copy _) hx' fun c hc => ?_
    cases hc
    refine Leaves.topThen (sim_mulAssign _ _) ((mulAssign_keepsWF hL hx.1.1 hy.2.1.1).mono fun b h => ⟨h, hx.2.1.1⟩) fun t' ht => ?_
    rw [t1] at ht; cases ht
    refine Leaves.bottomThen (sim_mulAssign _ _) ((mulAssign_keepsWF hL hx.2.1.1 hy.1.1).mono fun b h => ⟨t2.1, h⟩) fun d' hd => ?_
    rw [d1] at hd; cases hd
    exact normalize_keepsWF t2 d2 (by rw [t3]; exact h1) (by rw [d3]; exact h2)

theorem assignInt_keepsWF (hL : L.Sane) (op : FOp) {x : Frac} {a : BigInt} (hx : x.Valid) (ha : Canon a) (h1 : (op.parts x.value a.val).1 ≠ 0)
    (h2 : (op.parts x.value a.val).2 ≠ 0) : Leaves (op.assignIntT L a) x PartsWF := by
  have hx' : PartsWF x := ⟨hx.1.1, hx.2.1.1⟩
  cases op <;> simp only [FOp.parts, hx.num, hx.den, Rat.num_intCast, Rat.den_intCast, Nat.cast_one, mul_one] at h1 h2
  · obtain ⟨p, p1, p2, p3⟩ := opMul_ok hx.2.1.clean ha.clean
    obtain ⟨t, t1, t2, t3⟩ := addAssign_ok hx.1.clean p2.clean
    refine Leaves.this (Leaves.other (BigInt.sim_opMul _ _) hx' fun a' ha => ?_)
    rw [p1] at ha; cases ha
    refine Leaves.topThen (sim_addAssign _ _) ((Leaves.addAssign hx.1.1 p2.1).mono fun b h => ⟨h.2 hL, hx.2.1.1⟩) fun t' ht => ?_
    rw [t1] at ht; cases ht
    exact normalize_keepsWF t2 hx.2.1 (by rw [t3, p3, mul_comm x.bb.val]; exact h1) h2
  · obtain ⟨p, p1, p2, p3⟩ := opMul_ok hx.2.1.clean ha.clean
    obtain ⟨t, t1, t2, t3⟩ := subAssign_ok hx.1.clean p2.clean
    refine Leaves.this (Leaves.other (BigInt.sim_opMul _ _) hx' fun a' ha => ?_)
    rw [p1] at ha; cases ha
    refine Leaves.topThen (sim_subAssign _ _) ((Leaves.subAssign hx.1.1 p2.1).mono fun b h => ⟨h.2 hL, hx.2.1.1⟩) fun t' ht => ?_
    rw [t1] at ht; cases ht
    exact normalize_keepsWF t2 hx.2.1 (by rw [t3, p3, mul_comm x.bb.val]; exact h1) h2
  · obtain ⟨t, t1, t2, t3⟩ := canon_mul hx.1 ha (left_ne_zero_of_mul h1) (right_ne_zero_of_mul h1)
    refine Leaves.topThen (sim_mulAssign _ _) ((mulAssign_keepsWF hL hx.1.1 ha.1).mono fun b h => ⟨h, hx.2.1.1⟩) fun t' ht => ?_
    rw [t1] at ht; cases ht
    exact normalize_keepsWF t2 hx.2.1 (by rw [t3]; exact h1) h2
  · obtain ⟨d, d1, d2, d3⟩ := canon_mul hx.2.1 ha hx.bb_ne (right_ne_zero_of_mul h2)
    refine Leaves.bottomThen (sim_mulAssign _ _) ((mulAssign_keepsWF hL hx.2.1.1 ha.1).mono fun b h => ⟨hx.1.1, h⟩) fun d' hd => ?_
    rw [d1] at hd; cases hd
    exact normalize_keepsWF hx.1 d2 h1 (by rw [d3]; exact h2)

theorem powIs_cases {a : BigInt} (ha : Canon a) (h0 : 0 ≤ a.val) : (∀ x, Canon x → exponentiate x a = .error .assertion) ∨ ∃ n : Nat, PowIs a n := by
  by_cases hg : GoodExp a.val
  · exact .inr ⟨_, powIs_good ha h0 hg⟩
  · rcases powIs_bad ha h0 hg with h | ⟨n, _, _, h⟩
    · exact .inl h
    · exact .inr ⟨n, h⟩

theorem powAssign_keepsWF (hL : L.Sane) {x : Frac} {a : BigInt} (hx : x.Valid) (ha : Canon a) (h1 : x.tt.val ≠ 0) :
    Leaves (Frac.powAssignT L a) x PartsWF := by
  have hx' : PartsWF x := ⟨hx.1.1, hx.2.1.1⟩
  have key : ∀ m : BigInt, Canon m → 0 ≤ m.val → Leaves (do
      onBottom (BigInt.powAssignT L m)
      onTop (BigInt.powAssignT L m)
      normalizeT L) x PartsWF := by
    intro m hm hm0
    rcases powIs_cases hm hm0 with h | ⟨n, h⟩
    · refine Leaves.bottomThen (sim_powAssign _ _) (Leaves.powAssign hx' fun r hr => ?_) fun r hr => ?_
      all_goals
        rw [BigInt.powAssign, h _ hx.2.1] at hr
        cases hr
    · obtain ⟨t, t1, t2, t3⟩ := h _ hx.1
      obtain ⟨b, b1, b2, b3⟩ := h _ hx.2.1
      refine Leaves.bottomThen (sim_powAssign _ _) (Leaves.powAssign hx' fun r hr => ?_) fun r hr => ?_
      all_goals
        rw [BigInt.powAssign, b1] at hr
        cases hr
      · exact ⟨⟨hx.1.1, b2.1⟩, fun k => ⟨hx.1.1, hL k _ _ hx.2.1.1.1 hx.2.1.1.2 b2.1.1 b2.1.2⟩⟩
      · refine Leaves.topThen (sim_powAssign _ _) (Leaves.powAssign ⟨hx.1.1, b2.1⟩ fun r hr => ?_) fun r hr => ?_
        all_goals
          rw [BigInt.powAssign, t1] at hr
          cases hr
        · exact ⟨⟨t2.1, b2.1⟩, fun k => ⟨hL k _ _ hx.1.1.1 hx.1.1.2 t2.1.1 t2.1.2, b2.1⟩⟩
        · exact normalize_keepsWF t2 b2 (by rw [t3]; exact pow_ne_zero _ h1) (by rw [b3]; exact pow_ne_zero _ hx.bb_ne)
  unfold Frac.powAssignT
  split
  · rename_i hn
    have h0 := ha.neg_iff.mp hn
    obtain ⟨m, n1, n2, _, n4, _⟩ := neg_canon ha.clean
    refine Leaves.other (BigInt.sim_neg a) hx' fun m' hm => ?_
    rw [n1] at hm; cases hm
    exact key m n2 (by omega)
  · rename_i hn
    have h0 := (not_congr ha.neg_iff).mp hn
    refine Leaves.other (SimA.pure (L := L) a) hx' fun m' hm => ?_
    cases hm
    exact key a ha (by omega)

end Frac
end CppMaths
