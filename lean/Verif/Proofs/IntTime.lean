import Verif.Proofs.IntCost
import Verif.Proofs.IntDiv
import Mathlib.Tactic.Ring
/-!
# Bounds for the number of steps of the operations of `Int`
-/

namespace CppMaths
namespace Cost
variable {α β : Type}

theorem bind_steps_ok {x : Cost α} {v : α} (f : α → Cost β) (h : x.res = .ok v) : (x >>= f).steps = x.steps + (f v).steps := by
  show (match x.res with
    | .ok a => (⟨(f a).res, x.steps + (f a).steps⟩ : Cost β)
    | .error e => ⟨.error e, x.steps⟩).steps = _
  rw [h]

theorem bind_steps_ge (x : Cost α) (f : α → Cost β) : x.steps ≤ (x >>= f).steps := by
  show _ ≤ (match x.res with
    | .ok a => (⟨(f a).res, x.steps + (f a).steps⟩ : Cost β)
    | .error e => ⟨.error e, x.steps⟩).steps
  cases x.res with
  | ok v => exact Nat.le_add_right _ _
  | error e => exact le_refl _

theorem bind_steps_error {x : Cost α} {e : Err} (f : α → Cost β) (h : x.res = .error e) : (x >>= f).steps = x.steps := by
  show (match x.res with
    | .ok a => (⟨(f a).res, x.steps + (f a).steps⟩ : Cost β)
    | .error e => ⟨.error e, x.steps⟩).steps = _
  rw [h]

/-- At most `b` steps, and a result, if there is one, with property `P`. -/
def Bnd (x : Cost α) (b : Nat) (P : α → Prop) : Prop := x.steps ≤ b ∧ ∀ v, x.res = .ok v → P v

theorem Bnd.bind {x : Cost α} {f : α → Cost β} {a b : Nat} {P : α → Prop} {Q : β → Prop} (h : x.Bnd a P) (hf : ∀ v, P v → (f v).Bnd b Q) :
    (x >>= f).Bnd (a + b) Q := by
  cases hx : x.res with
  | ok v =>
    refine ⟨by rw [bind_steps_ok f hx]; exact Nat.add_le_add h.1 (hf v (h.2 v hx)).1, fun w hw => (hf v (h.2 v hx)).2 w ?_⟩
    rw [bind_res, hx] at hw
    exact hw
  | error e =>
    refine ⟨?_, fun w hw => ?_⟩
    · show (match x.res with
        | .ok a => (⟨(f a).res, x.steps + (f a).steps⟩ : Cost β)
        | .error e => ⟨.error e, x.steps⟩).steps ≤ _
      rw [hx]
      exact h.1.trans (Nat.le_add_right _ _)
    · rw [bind_res, hx] at hw
      cases hw

theorem Bnd.le {x : Cost α} {a b : Nat} {P : α → Prop} (h : x.Bnd a P) (hab : a ≤ b) : x.Bnd b P := ⟨h.1.trans hab, h.2⟩

theorem Bnd.mono {x : Cost α} {a b : Nat} {P Q : α → Prop} (h : x.Bnd a P) (hab : a ≤ b) (hp : ∀ v, P v → Q v) : x.Bnd b Q :=
  ⟨h.1.trans hab, fun v hv => hp v (h.2 v hv)⟩

theorem bnd_pure {a : α} {b : Nat} {P : α → Prop} (h : P a) : (pure a : Cost α).Bnd b P := ⟨Nat.zero_le _, fun v hv => by cases hv; exact h⟩
theorem bnd_fail {e : Err} {b : Nat} {P : α → Prop} : (fail e : Cost α).Bnd b P := ⟨Nat.zero_le _, fun v hv => by cases hv⟩
theorem bnd_tick (n : Nat) : (tick n).Bnd n fun _ => True := ⟨le_refl _, fun _ _ => trivial⟩
theorem bnd_free (r : Res α) : (free r).Bnd 0 fun _ => True := ⟨le_refl _, fun _ _ => trivial⟩
theorem bnd_step (r : Res α) : (step r).Bnd 1 fun _ => True := ⟨le_refl _, fun _ _ => trivial⟩

end Cost

namespace BigInt
open Cost

/-! ### Linear operations -/

theorem bnd_copy (a : BigInt) : (copyC a).Bnd a.bins.length (· = a) := ⟨le_refl _, fun v hv => by cases hv; rfl⟩
theorem bnd_ofShift (a : BigInt) (s : Nat) : (ofShiftC a s).Bnd (s + a.bins.length) (· = ofShift a s) := ⟨le_refl _, fun v hv => by cases hv; rfl⟩
theorem bnd_swap (a r : BigInt) : (swapC a r).Bnd (2 * a.bins.length + r.bins.length) (· = r) := ⟨le_refl _, fun v hv => by cases hv; rfl⟩
theorem bnd_setZero : (setValueC 0).Bnd 1 (· = ⟨[0], false⟩) := ⟨le_refl _, fun v hv => by cases hv; rfl⟩

theorem bnd_any : ∀ l : List Int, (anyC l).Bnd l.length fun _ => True
  | [] => bnd_pure trivial
  | b :: bs => by
    refine ((bnd_tick 1).bind (b := bs.length) fun _ _ => ?_).le (by simp only [List.length_cons]; omega)
    split
    · exact bnd_pure trivial
    · exact bnd_any bs

theorem bnd_equalsInt32 (a : BigInt) (x : Int) : (equalsInt32C a x).Bnd (a.bins.length + 1) fun _ => True := by
  refine ((bnd_free _).bind (b := a.bins.length + 1) fun v _ => ?_).le (by omega)
  cases h : a.bins.getLast? with
  | none => exact (bnd_step _).le (by omega)
  | some t =>
    have hl : 0 < a.bins.length := by
      rcases hb : a.bins with _ | ⟨b, bs⟩
      · rw [hb] at h; cases h
      · simp
    refine ((bnd_any _).bind (b := 2) fun nz _ => ?_).le (by rw [List.length_dropLast]; omega)
    split
    · exact bnd_pure trivial
    · refine (bnd_tick 2).bind (b := 0) fun _ _ => ?_
      split
      · exact bnd_pure trivial
      · split <;> exact bnd_pure trivial

theorem bnd_negate (a : BigInt) : (negateC a).Bnd (a.bins.length + 1) fun r => r.bins = a.bins :=
  Bnd.bind (b := 0) (bnd_equalsInt32 a 0) fun _ _ => bnd_pure (P := fun r : BigInt => r.bins = a.bins) rfl

theorem bnd_neg (a : BigInt) : (negC a).Bnd (2 * a.bins.length + 1) fun r => r.bins = a.bins :=
  ((bnd_copy a).bind (b := a.bins.length + 1) fun v hv => by subst hv; exact bnd_negate _).le (by omega)

theorem bnd_pushBins : ∀ (f : Nat) (x : Int), (pushBinsC f x).Bnd f fun r => r.length ≤ f
  | 0, _ => bnd_fail
  | f + 1, x => by
    unfold pushBinsC
    split
    · refine ((bnd_tick 1).bind (b := f) fun _ _ => ((bnd_pushBins f _).bind (b := 0) fun r hr => bnd_pure ?_)).le (by omega)
      simp only [List.length_cons]; omega
    · split
      · exact ((bnd_tick 1).bind (b := 0) fun _ _ => bnd_pure (by simp)).le (by omega)
      · exact bnd_pure (by simp)

theorem bnd_ofInt64 (x : Int) (s : Nat) : (ofInt64C x s).Bnd (s + 4) fun r => r.bins.length ≤ s + 4 ∧ (0 ≤ x → r.negative = false) := by
  refine (bnd_tick s).bind fun _ _ => ?_
  split
  · refine ((bnd_free _).bind (b := 4) fun v _ => ((bnd_pushBins 4 v).bind (b := 0) fun r hr => bnd_pure ?_)).le (by omega)
    exact ⟨by simp only [List.length_append, List.length_replicate]; omega, fun h => by omega⟩
  · split
    · exact bnd_setZero.mono (by omega) fun v hv => by subst hv; exact ⟨by simp, fun _ => rfl⟩
    · refine ((bnd_pushBins 4 x).bind (b := 0) fun r hr => bnd_pure ?_).le (by omega)
      exact ⟨by simp only [List.length_append, List.length_replicate]; omega, fun _ => rfl⟩

theorem bnd_ofZero : (ofInt64C 0 0).Bnd 1 (· = ⟨[0], false⟩) := ⟨by decide, fun v hv => by cases hv; rfl⟩

theorem bnd_lexCmp : ∀ l m : List Int, (lexCmpC l m).Bnd (2 * l.length) fun _ => True
  | [], _ => bnd_pure trivial
  | _ :: _, [] => bnd_fail
  | a :: as, b :: bs => by
    refine ((bnd_tick 2).bind (b := 2 * as.length) fun _ _ => ?_).le (by simp only [List.length_cons]; omega)
    split
    · exact bnd_pure trivial
    · exact bnd_lexCmp as bs

theorem bnd_cmpBinsGe {l m : List Int} (h : l.length ≤ m.length) : (cmpBinsGeC l m).Bnd (l.length + m.length) fun _ => True := by
  refine ((bnd_any _).bind (b := 2 * l.length) fun _ _ => ?_).le (by simp only [List.length_take, List.length_reverse]; omega)
  split
  · exact bnd_pure trivial
  · exact (bnd_lexCmp _ _).le (by simp)

theorem bnd_cmpBins (a x : BigInt) : (cmpBinsC a x).Bnd (a.bins.length + x.bins.length) fun _ => True := by
  unfold cmpBinsC
  split
  · exact ((bnd_cmpBinsGe (by omega)).bind (b := 0) fun _ _ => bnd_pure trivial).le (by omega)
  · exact bnd_cmpBinsGe (by omega)

theorem bnd_cleanRev : ∀ l : List Int, (cleanRevC l).Bnd l.length (· = cleanRev l)
  | [] => bnd_pure rfl
  | [_] => bnd_pure rfl
  | b :: c :: r => by
    refine ((bnd_tick 1).bind (b := (c :: r).length) fun _ _ => ?_).le (by simp only [List.length_cons]; omega)
    rw [cleanRev]
    split
    · exact bnd_cleanRev (c :: r)
    · exact bnd_pure rfl

theorem bnd_cleanBins (l : List Int) : (cleanBinsC l).Bnd l.length (· = cleanBins l) :=
  ((bnd_cleanRev _).bind (b := 0) fun _ hv => bnd_pure (by rw [hv]; rfl)).le (by simp)

/-- Every bin popped but one step: cleaning pays for itself. -/
theorem cleanRev_steps : ∀ l : List Int, (cleanRevC l).steps + (cleanRev l).length ≤ l.length + 1
  | [] => Nat.zero_le 1
  | [b] => by simp only [cleanRevC, cleanRev]; show 0 + 1 ≤ _; simp
  | b :: c :: r => by
    rw [cleanRevC, cleanRev, bind_steps_ok _ rfl]
    have ih := cleanRev_steps (c :: r)
    simp only [List.length_cons] at ih ⊢
    show 1 + _ + _ ≤ _
    by_cases h : b == 0
    · rw [if_pos h, if_pos h]; omega
    · rw [if_neg h, if_neg h]
      show 1 + 0 + (r.length + 1 + 1) ≤ _
      omega

theorem cleanBins_steps (l : List Int) : (cleanBinsC l).steps + (cleanBins l).length ≤ l.length + 1 := by
  have h := cleanRev_steps l.reverse
  rw [cleanBinsC, cleanBins, bind_steps_ok _ (cleanRevC_res _)]
  show (cleanRevC l.reverse).steps + 0 + _ ≤ _
  simp only [List.length_reverse] at h ⊢
  omega

theorem bnd_cmp (a x : BigInt) : (cmpC a x).Bnd (2 * a.bins.length + x.bins.length + 1) fun _ => True := by
  refine ((bnd_cmpBins a x).bind (b := a.bins.length + 1) fun c _ => ?_).le (by omega)
  refine ((show (if (c == 0) = true then equalsInt32C a 0 else pure false : Cost Bool).Bnd (a.bins.length + 1) fun _ => True from ?_).bind
    (b := 0) fun z _ => ?_).le (by omega)
  · split
    · exact bnd_equalsInt32 a 0
    · exact bnd_pure trivial
  · repeat' split
    all_goals exact bnd_pure trivial

theorem bnd_lt (a x : BigInt) : (ltC a x).Bnd (2 * a.bins.length + x.bins.length + 1) fun _ => True :=
  (bnd_cmp a x).bind (b := 0) fun _ _ => bnd_pure trivial
theorem bnd_gt (a x : BigInt) : (gtC a x).Bnd (2 * a.bins.length + x.bins.length + 1) fun _ => True :=
  (bnd_cmp a x).bind (b := 0) fun _ _ => bnd_pure trivial
theorem bnd_le (a x : BigInt) : (leC a x).Bnd (2 * a.bins.length + x.bins.length + 1) fun _ => True :=
  (bnd_cmp a x).bind (b := 0) fun _ _ => bnd_pure trivial
theorem bnd_ge (a x : BigInt) : (geC a x).Bnd (2 * a.bins.length + x.bins.length + 1) fun _ => True :=
  (bnd_cmp a x).bind (b := 0) fun _ _ => bnd_pure trivial
theorem bnd_ne (a x : BigInt) : (neC a x).Bnd (2 * a.bins.length + x.bins.length + 1) fun _ => True :=
  (bnd_cmp a x).bind (b := 0) fun _ _ => bnd_pure trivial
theorem bnd_eq (a x : BigInt) : (eqC a x).Bnd (2 * a.bins.length + x.bins.length + 1) fun _ => True :=
  (bnd_cmp a x).bind (b := 0) fun _ _ => bnd_pure trivial

theorem bnd_abs (a : BigInt) : (absC a).Bnd (4 * a.bins.length + 4) fun r => r.bins = a.bins := by
  refine (bnd_ofZero.bind (b := 4 * a.bins.length + 3) fun z hz => ?_).le (by omega)
  subst hz
  refine ((bnd_lt a _).bind (b := 2 * a.bins.length + 1) fun l _ => ?_).le (by simp; omega)
  split
  · exact bnd_neg a
  · exact (bnd_copy a).mono (by omega) fun v hv => by rw [hv]

theorem bnd_addCarry : ∀ (l : List Int) (c : Int), (addCarryC l c).Bnd (2 * l.length) fun r => r.1.length = l.length
  | [], _ => bnd_pure rfl
  | b :: bs, c => by
    unfold addCarryC
    split
    · refine ((bnd_tick 2).bind (b := 2 * bs.length) fun _ _ => ((bnd_free _).bind (b := 2 * bs.length) fun s _ =>
        ((bnd_addCarry bs _).bind (b := 0) fun r hr => bnd_pure ?_)).le (by omega)).le (by simp only [List.length_cons]; omega)
      simp [hr]
    · exact bnd_pure rfl

theorem bnd_addLoop : ∀ (l m : List Int) (c : Int), (addLoopC l m c).Bnd (3 * l.length + 1) fun r => r.1.length = l.length
  | bs, [], c => by
    have : addLoopC bs [] c = addCarryC bs c := by cases bs <;> rfl
    rw [this]
    exact (bnd_addCarry bs c).le (by omega)
  | [], _ :: _, _ => ⟨le_refl _, fun v hv => by cases hv⟩
  | b :: bs, x :: xs, c => by
    refine ((bnd_tick 3).bind (b := 3 * bs.length + 1) fun _ _ => ((bnd_free _).bind (b := 3 * bs.length + 1) fun s _ =>
      ((bnd_free _).bind (b := 3 * bs.length + 1) fun s _ =>
        ((bnd_addLoop bs xs _).bind (b := 0) fun r hr => bnd_pure ?_)).le (by omega)).le (by omega)).le (by simp only [List.length_cons]; omega)
    simp [hr]

theorem bnd_add (a x : BigInt) : (addC a x).Bnd (4 * max a.bins.length x.bins.length + 2) fun r =>
    r.bins.length ≤ max a.bins.length x.bins.length + 1 ∧ r.negative = a.negative := by
  refine ((bnd_tick _).bind (b := 3 * max a.bins.length x.bins.length + 2) fun _ _ => ?_).le (by omega)
  refine ((bnd_addLoop _ _ _).bind (b := 1) fun r hr => ((bnd_tick 1).bind (b := 0) fun _ _ => bnd_pure ?_)).le ?_
  · simp only [List.length_append, List.length_replicate] at hr
    refine ⟨?_, rfl⟩
    show (if r.2 ≠ 0 then r.1 ++ [r.2] else r.1).length ≤ _
    split
    · simp only [List.length_append, List.length_singleton]; omega
    · omega
  · simp only [List.length_append, List.length_replicate]; omega

theorem bnd_subBorrow : ∀ (l : List Int) (c : Int), (subBorrowC l c).Bnd (2 * l.length) fun r => r.length = l.length
  | [], _ => bnd_pure rfl
  | b :: bs, c => by
    unfold subBorrowC
    split
    · refine ((bnd_tick 2).bind (b := 2 * bs.length) fun _ _ => ((bnd_free _).bind (b := 2 * bs.length) fun s _ => ?_).le (by omega)).le
        (by simp only [List.length_cons]; omega)
      split
      · exact ((bnd_free _).bind (b := 2 * bs.length) fun _ _ => (bnd_subBorrow bs 1).bind (b := 0) fun r hr => bnd_pure (by simp [hr])).le (by omega)
      · exact (bnd_subBorrow bs 0).bind (b := 0) fun r hr => bnd_pure (by simp [hr])
    · exact bnd_pure rfl

theorem bnd_subLoop : ∀ (l m : List Int) (c : Int), (subLoopC l m c).Bnd (3 * l.length + 1) fun r => r.length = l.length
  | bs, [], c => by
    have : subLoopC bs [] c = subBorrowC bs c := by cases bs <;> rfl
    rw [this]
    exact (bnd_subBorrow bs c).le (by omega)
  | [], _ :: _, _ => ⟨le_refl _, fun v hv => by cases hv⟩
  | b :: bs, x :: xs, c => by
    refine ((bnd_tick 3).bind (b := 3 * bs.length + 1) fun _ _ => ((bnd_free _).bind (b := 3 * bs.length + 1) fun s _ =>
      ((bnd_free _).bind (b := 3 * bs.length + 1) fun s _ => ?_).le (by omega)).le (by omega)).le (by simp only [List.length_cons]; omega)
    split
    · exact ((bnd_free _).bind (b := 3 * bs.length + 1) fun _ _ => (bnd_subLoop bs xs 1).bind (b := 0) fun r hr => bnd_pure (by simp [hr])).le (by omega)
    · exact (bnd_subLoop bs xs 0).bind (b := 0) fun r hr => bnd_pure (by simp [hr])

theorem bnd_subtract (a x : BigInt) : (subtractC a x).Bnd (10 * a.bins.length + 5 * x.bins.length + 12) fun r =>
    r.bins.length ≤ a.bins.length ∧ r.negative = a.negative := by
  refine Bnd.le (a := 1 + (1 + ((4 * a.bins.length + 4) + ((4 * x.bins.length + 4) + ((2 * a.bins.length + x.bins.length + 1) +
    (0 + ((3 * a.bins.length + 1) + (a.bins.length + 0)))))))) ?_ (by omega)
  refine (bnd_step _).bind fun _ _ => (bnd_step _).bind fun _ _ => (bnd_abs a).bind fun aa ha => (bnd_abs x).bind fun ax hx =>
    ((bnd_ge aa ax).le (by rw [ha, hx])).bind fun g _ => (bnd_free _).bind fun _ _ => (bnd_subLoop _ _ _).bind fun r hr =>
    ((bnd_cleanBins r).le (by rw [hr])).bind fun c hc => bnd_pure ⟨?_, rfl⟩
  rw [hc]
  exact (cleanBins_length r).trans hr.le

theorem bnd_addNonneg (x y : BigInt) : (addNonnegC x y).Bnd (5 * max x.bins.length y.bins.length + 2) fun r =>
    r.bins.length ≤ max x.bins.length y.bins.length + 1 := by
  unfold addNonnegC
  split
  · refine ((bnd_copy x).bind (b := 4 * max x.bins.length y.bins.length + 2) fun v hv => ?_).le (by omega)
    subst hv
    exact (bnd_add _ y).mono (le_refl _) fun v hv => hv.1
  · refine ((bnd_copy y).bind (b := 4 * max x.bins.length y.bins.length + 2) fun v hv => ?_).le (by omega)
    subst hv
    exact (bnd_add _ x).mono (by omega) fun v hv => by have := hv.1; omega

theorem bnd_subNonneg (x y : BigInt) : (subNonnegC x y).Bnd (15 * (x.bins.length + y.bins.length) + 14) fun r =>
    r.bins.length ≤ max x.bins.length y.bins.length := by
  refine ((bnd_gt x y).bind (b := 12 * x.bins.length + 14 * y.bins.length + 13) fun g _ => ?_).le (by omega)
  split
  · refine Bnd.le (a := x.bins.length + (x.bins.length + (10 * x.bins.length + 5 * y.bins.length + 12))) ?_ (by omega)
    refine (bnd_copy x).bind fun v hv => ?_
    subst hv
    refine (bnd_cleanBins _).bind fun c hc => ?_
    have hl : c.length ≤ v.bins.length := by rw [hc]; exact cleanBins_length _
    exact (bnd_subtract _ y).mono (by dsimp only; omega) fun r hr => by have := hr.1; dsimp only at this; omega
  · refine Bnd.le (a := y.bins.length + (y.bins.length + ((10 * y.bins.length + 5 * x.bins.length + 12) + (2 * y.bins.length + 1)))) ?_ (by omega)
    refine (bnd_copy y).bind fun v hv => ?_
    subst hv
    refine (bnd_cleanBins _).bind fun c hc => ?_
    have hl : c.length ≤ v.bins.length := by rw [hc]; exact cleanBins_length _
    refine ((bnd_subtract _ x).le (by dsimp only; omega)).bind fun r hr => ?_
    have h1 := hr.1
    dsimp only at h1
    exact (bnd_neg r).mono (by omega) fun s hs => by rw [hs]; omega

theorem bnd_opAdd (x y : BigInt) : (opAddC x y).Bnd (19 * (x.bins.length + y.bins.length) + 18) fun r =>
    r.bins.length ≤ max x.bins.length y.bins.length + 1 := by
  unfold opAddC
  split
  · refine Bnd.le (a := (2 * x.bins.length + 1) + ((2 * y.bins.length + 1) + ((5 * max x.bins.length y.bins.length + 2) +
      (2 * (max x.bins.length y.bins.length + 1) + 1)))) ?_ (by omega)
    refine (bnd_neg x).bind fun nx hx => (bnd_neg y).bind fun ny hy => ((bnd_addNonneg nx ny).le (by rw [hx, hy])).bind fun r hr => ?_
    rw [hx, hy] at hr
    exact (bnd_neg r).mono (by omega) fun s hs => by rw [hs]; omega
  · split
    · refine Bnd.le (a := (2 * x.bins.length + 1) + ((15 * (x.bins.length + y.bins.length) + 14) +
        (2 * (max x.bins.length y.bins.length) + 1))) ?_ (by omega)
      refine (bnd_neg x).bind fun nx hx => ((bnd_subNonneg nx y).le (by rw [hx])).bind fun r hr => ?_
      rw [hx] at hr
      exact (bnd_neg r).mono (by omega) fun s hs => by rw [hs]; omega
    · split
      · refine ((bnd_neg y).bind (b := 15 * (x.bins.length + y.bins.length) + 14) fun ny hy => ?_).le (by omega)
        exact (bnd_subNonneg x ny).mono (by rw [hy]) fun s hs => by rw [hy] at hs; omega
      · exact (bnd_addNonneg x y).le (by omega)

theorem bnd_opSub (x y : BigInt) : (opSubC x y).Bnd (19 * (x.bins.length + y.bins.length) + 18) fun r =>
    r.bins.length ≤ max x.bins.length y.bins.length + 1 := by
  unfold opSubC
  split
  · refine Bnd.le (a := (2 * x.bins.length + 1) + ((2 * y.bins.length + 1) + ((15 * (x.bins.length + y.bins.length) + 14) +
      (2 * (max x.bins.length y.bins.length) + 1)))) ?_ (by omega)
    refine (bnd_neg x).bind fun nx hx => (bnd_neg y).bind fun ny hy => ((bnd_subNonneg nx ny).le (by rw [hx, hy])).bind fun r hr => ?_
    rw [hx, hy] at hr
    exact (bnd_neg r).mono (by omega) fun s hs => by rw [hs]; omega
  · split
    · refine Bnd.le (a := (2 * x.bins.length + 1) + ((5 * max x.bins.length y.bins.length + 2) +
        (2 * (max x.bins.length y.bins.length + 1) + 1))) ?_ (by omega)
      refine (bnd_neg x).bind fun nx hx => ((bnd_addNonneg nx y).le (by rw [hx])).bind fun r hr => ?_
      rw [hx] at hr
      exact (bnd_neg r).mono (by omega) fun s hs => by rw [hs]; omega
    · split
      · refine ((bnd_neg y).bind (b := 5 * max x.bins.length y.bins.length + 2) fun ny hy => ?_).le (by omega)
        exact (bnd_addNonneg x ny).mono (by rw [hy]) fun s hs => by rw [hy] at hs; omega
      · exact (bnd_subNonneg x y).mono (by omega) fun s hs => by omega

theorem bnd_addAssignNonneg (x y : BigInt) : (addAssignNonnegC x y).Bnd (y.bins.length + 4 * max x.bins.length y.bins.length + 2) fun r =>
    r.bins.length ≤ max x.bins.length y.bins.length + 1 ∧ r.negative = x.negative := by
  refine ((bnd_ofShift y 0).bind (b := 4 * max x.bins.length y.bins.length + 2) fun t ht => ?_).le (by omega)
  have hl : t.bins.length = y.bins.length := by rw [ht]; simp [ofShift]
  exact (bnd_add x t).mono (by rw [hl]) fun r hr => by rw [hl] at hr; exact hr

theorem bnd_subAssignNonneg (x y : BigInt) : (subAssignNonnegC x y).Bnd (15 * (x.bins.length + y.bins.length) + 14) fun r =>
    r.bins.length ≤ max x.bins.length y.bins.length := by
  refine ((bnd_gt x y).bind (b := 12 * x.bins.length + 14 * y.bins.length + 13) fun g _ => ?_).le (by omega)
  split
  · exact (bnd_subtract x y).mono (by omega) fun r hr => by have := hr.1; omega
  · refine Bnd.le (a := y.bins.length + ((10 * y.bins.length + 5 * x.bins.length + 12) + ((y.bins.length + 1) +
      (2 * x.bins.length + y.bins.length)))) ?_ (by omega)
    refine (bnd_copy y).bind fun v hv => ?_
    subst hv
    refine (bnd_subtract v x).bind fun r hr => ((bnd_negate r).le (by have := hr.1; omega)).bind fun s hs => ?_
    have h1 := hr.1
    exact (bnd_swap x s).mono (by rw [hs]; omega) fun t ht => by rw [ht, hs]; omega

theorem bnd_addAssign (x y : BigInt) : (addAssignC x y).Bnd (19 * (x.bins.length + y.bins.length) + 18) fun r =>
    r.bins.length ≤ max x.bins.length y.bins.length + 1 := by
  unfold addAssignC
  split
  · refine Bnd.le (a := (2 * y.bins.length + 1) + ((x.bins.length + 1) + ((y.bins.length + 4 * max x.bins.length y.bins.length + 2) +
      (max x.bins.length y.bins.length + 1 + 1)))) ?_ (by omega)
    refine (bnd_neg y).bind fun ny hy => (bnd_negate x).bind fun nx hx => ((bnd_addAssignNonneg nx ny).le (by rw [hx, hy])).bind fun r hr => ?_
    rw [hx, hy] at hr
    have h1 := hr.1
    exact (bnd_negate r).mono (by omega) fun s hs => by rw [hs]; omega
  · split
    · refine Bnd.le (a := (x.bins.length + 1) + ((15 * (x.bins.length + y.bins.length) + 14) + (max x.bins.length y.bins.length + 1))) ?_ (by omega)
      refine (bnd_negate x).bind fun nx hx => ((bnd_subAssignNonneg nx y).le (by rw [hx])).bind fun r hr => ?_
      rw [hx] at hr
      exact (bnd_negate r).mono (by omega) fun s hs => by rw [hs]; omega
    · split
      · refine ((bnd_neg y).bind (b := 15 * (x.bins.length + y.bins.length) + 14) fun ny hy => ?_).le (by omega)
        exact (bnd_subAssignNonneg x ny).mono (by rw [hy]) fun s hs => by rw [hy] at hs; omega
      · exact (bnd_addAssignNonneg x y).mono (by omega) fun r hr => hr.1

theorem bnd_subAssign (x y : BigInt) : (subAssignC x y).Bnd (19 * (x.bins.length + y.bins.length) + 18) fun r =>
    r.bins.length ≤ max x.bins.length y.bins.length + 1 := by
  unfold subAssignC
  split
  · refine Bnd.le (a := (2 * y.bins.length + 1) + ((x.bins.length + 1) + ((15 * (x.bins.length + y.bins.length) + 14) +
      (max x.bins.length y.bins.length + 1)))) ?_ (by omega)
    refine (bnd_neg y).bind fun ny hy => (bnd_negate x).bind fun nx hx => ((bnd_subAssignNonneg nx ny).le (by rw [hx, hy])).bind fun r hr => ?_
    rw [hx, hy] at hr
    exact (bnd_negate r).mono (by omega) fun s hs => by rw [hs]; omega
  · split
    · refine Bnd.le (a := (x.bins.length + 1) + ((y.bins.length + 4 * max x.bins.length y.bins.length + 2) + (max x.bins.length y.bins.length + 1 + 1)))
        ?_ (by omega)
      refine (bnd_negate x).bind fun nx hx => ((bnd_addAssignNonneg nx y).le (by rw [hx])).bind fun r hr => ?_
      rw [hx] at hr
      have h1 := hr.1
      exact (bnd_negate r).mono (by omega) fun s hs => by rw [hs]; omega
    · split
      · refine ((bnd_neg y).bind (b := y.bins.length + 4 * max x.bins.length y.bins.length + 2) fun ny hy => ?_).le (by omega)
        exact (bnd_addAssignNonneg x ny).mono (by rw [hy]) fun s hs => by rw [hy] at hs; exact hs.1
      · exact (bnd_subAssignNonneg x y).mono (by omega) fun s hs => by omega

end BigInt
end CppMaths
