import Verif.Spec.IntAlloc
/-!
# `Int` when memory runs out: the computations follow those with unlimited memory
-/

namespace CppMaths
namespace BigInt
open GM

/-- The computation `m`, which changes no object, ends as `r` or throws `bad_alloc` because one of its requests was refused. -/
def SimA {α : Type} (L : ILuck) (m : AM α) (r : Res α) : Prop :=
  ∀ n, n ≤ (m ((), n)).2.2 ∧ ((m ((), n)).1 = r ∨ ((m ((), n)).1 = .error .badAlloc ∧ L.RefusesIn n (m ((), n)).2.2))

/-- The computation `m` on an object with the value `s` ends as `r` or throws `bad_alloc` because one of its requests was refused. -/
def SimU {σ : Type} (L : ILuck) (m : GM σ Unit) (s : σ) (r : Res σ) : Prop :=
  ∀ n, n ≤ (m (s, n)).2.2 ∧ (match m (s, n) with
    | (.ok _, (s', _)) => r = .ok s'
    | (.error e, (_, n')) => r = .error e ∨ (e = .badAlloc ∧ L.RefusesIn n n'))

variable {L : ILuck} {α β σ τ : Type}

theorem GM.bind_ok {m : GM σ α} {k : α → GM σ β} {s s' : σ × Nat} {a : α} (h : m s = (.ok a, s')) : (m >>= k) s = k a s' := by
  simp only [Bind.bind, h]

theorem GM.bind_error {m : GM σ α} {k : α → GM σ β} {s s' : σ × Nat} {e : Err} (h : m s = (.error e, s')) :
    (m >>= k) s = (.error e, s') := by
  simp only [Bind.bind, h]

theorem res_bind_pure (r : Res α) : (r >>= fun a => (.ok a : Res α)) = r := by cases r <;> rfl

/-! ### Rules for computations that change no object -/

theorem SimA.end_ {m : AM α} {r : Res α} (h : SimA L m (r >>= fun a => .ok a)) : SimA L m r := by
  rw [res_bind_pure] at h
  exact h

theorem _root_.CppMaths.ILuck.RefusesIn.from {a b c : Nat} (h : L.RefusesIn b c) (hab : a ≤ b) : L.RefusesIn a c := by
  obtain ⟨k, h1, h2, h3⟩ := h
  exact ⟨k, hab.trans h1, h2, h3⟩

theorem _root_.CppMaths.ILuck.RefusesIn.some {a b : Nat} (h : L.RefusesIn a b) : L.Refuses := by
  obtain ⟨k, _, _, h3⟩ := h
  exact ⟨k, h3⟩

theorem SimA.weak {m : AM α} {r : Res α} (h : SimA L m r) (n : Nat) :
    (m ((), n)).1 = r ∨ ((m ((), n)).1 = .error .badAlloc ∧ L.Refuses) :=
  (h n).2.imp id fun h => ⟨h.1, h.2.some⟩

theorem SimU.weak {m : GM σ Unit} {s : σ} {r : Res σ} (h : SimU L m s r) (n : Nat) : match m (s, n) with
    | (.ok _, (s', _)) => r = .ok s'
    | (.error e, _) => r = .error e ∨ (e = .badAlloc ∧ L.Refuses) := by
  have h1 := (h n).2
  rcases hm : m (s, n) with ⟨o, ⟨s', n'⟩⟩
  rw [hm] at h1
  cases o with
  | ok a => exact h1
  | error e => exact Or.imp id (fun h => ⟨h.1, h.2.some⟩) h1

theorem SimA.pure (a : α) : SimA L (Pure.pure a : AM α) (.ok a) := fun n => ⟨le_refl n, Or.inl rfl⟩

theorem SimA.free (r : Res α) : SimA L (GM.free r) r := fun n => ⟨le_refl n, Or.inl rfl⟩

theorem SimA.bind {m : AM α} {r : Res α} {k : α → AM β} {g : α → Res β} (h : SimA L m r)
    (hk : ∀ a, r = .ok a → SimA L (k a) (g a)) : SimA L (m >>= k) (r >>= g) := by
  intro n
  obtain ⟨h0, h1⟩ := h n
  rcases hm : m ((), n) with ⟨o, ⟨⟨⟩, n'⟩⟩
  rw [hm] at h0 h1
  cases o with
  | ok a =>
    rw [GM.bind_ok hm]
    rcases h1 with h1 | ⟨h1, _⟩
    · subst h1
      obtain ⟨h2, h3⟩ := hk a rfl n'
      exact ⟨le_trans h0 h2, h3.imp id fun h => ⟨h.1, h.2.from h0⟩⟩
    · cases h1
  | error e =>
    rw [GM.bind_error hm]
    refine ⟨h0, ?_⟩
    rcases h1 with h1 | h1
    · subst h1
      exact Or.inl rfl
    · refine Or.inr ⟨?_, h1.2⟩
      simpa using h1.1

theorem SimA.then {m : AM α} {a : α} {k : α → AM β} {r : Res β} (h : SimA L m (.ok a)) (hk : SimA L (k a) r) : SimA L (m >>= k) r := by
  have := SimA.bind (g := fun _ => r) h (fun b hb => by cases hb; exact hk)
  exact this

theorem SimA.freeBind {r : Res α} {k : α → AM β} {g : α → Res β}
    (hk : ∀ a, r = .ok a → SimA L (k a) (g a)) : SimA L (GM.free r >>= k) (r >>= g) := (SimA.free r).bind hk

theorem GM.ask_no {s : σ × Nat} (h : L.refuse s.2 = true) : (GM.ask L : GM σ Unit) s = (.error .badAlloc, (s.1, s.2 + 1)) := by
  simp [GM.ask, h]

theorem GM.ask_yes {s : σ × Nat} (h : ¬L.refuse s.2 = true) : (GM.ask L : GM σ Unit) s = (.ok (), (s.1, s.2 + 1)) := by
  simp [GM.ask, h]

theorem SimA.ask {k : Unit → AM β} {r : Res β} (hk : SimA L (k ()) r) : SimA L (GM.ask L >>= k) r := by
  intro n
  by_cases hr : L.refuse n = true
  · rw [GM.bind_error (GM.ask_no (s := ((), n)) hr)]
    exact ⟨Nat.le_succ n, Or.inr ⟨rfl, n, le_refl n, Nat.lt_succ_self n, hr⟩⟩
  · rw [GM.bind_ok (GM.ask_yes (s := ((), n)) hr)]
    obtain ⟨h2, h3⟩ := hk (n + 1)
    exact ⟨le_trans (Nat.le_succ n) h2, h3.imp id fun h => ⟨h.1, h.2.from (Nat.le_succ n)⟩⟩

theorem SimA.localEnd {v : σ} {m : GM σ Unit} {r : Res σ} (h : SimU L m v r) : SimA L (GM.local' v m) r := by
  intro n
  obtain ⟨h0, h1⟩ := h n
  unfold GM.local'
  dsimp only
  rcases hm : m (v, n) with ⟨o, ⟨v', n'⟩⟩
  rw [hm] at h0 h1
  cases o with
  | ok a => exact ⟨h0, Or.inl h1.symm⟩
  | error e =>
    refine ⟨h0, ?_⟩
    rcases h1 with h1 | ⟨h1, h2⟩
    · exact Or.inl h1.symm
    · subst h1
      exact Or.inr ⟨rfl, h2⟩

theorem SimA.local {v : σ} {m : GM σ Unit} {r : Res σ} {k : σ → AM β} {g : σ → Res β}
    (h : SimU L m v r) (hk : ∀ a, r = .ok a → SimA L (k a) (g a)) : SimA L (GM.local' v m >>= k) (r >>= g) :=
  SimA.bind (SimA.localEnd h) hk

/-! ### Rules for computations that change `*this` -/

theorem SimU.pure (s : σ) : SimU L (Pure.pure () : GM σ Unit) s (.ok s) := fun n => ⟨le_refl n, rfl⟩

theorem SimU.end_ {m : GM σ Unit} {s : σ} {r : Res σ} (h : SimU L m s (r >>= fun a => .ok a)) : SimU L m s r := by
  rw [res_bind_pure] at h
  exact h

theorem SimU.later {m : GM σ Unit} {s : σ} {r : Res σ} {n n' : Nat} (h0 : n ≤ n')
    (h : n' ≤ (m (s, n')).2.2 ∧ (match m (s, n') with
      | (.ok _, (s', _)) => r = .ok s'
      | (.error e, (_, n'')) => r = .error e ∨ (e = .badAlloc ∧ L.RefusesIn n' n''))) :
    n ≤ (m (s, n')).2.2 ∧ (match m (s, n') with
      | (.ok _, (s', _)) => r = .ok s'
      | (.error e, (_, n'')) => r = .error e ∨ (e = .badAlloc ∧ L.RefusesIn n n'')) := by
  refine ⟨le_trans h0 h.1, ?_⟩
  have h1 := h.2
  rcases hm : m (s, n') with ⟨o, ⟨s', n''⟩⟩
  rw [hm] at h1
  cases o with
  | ok a => exact h1
  | error e => exact Or.imp id (fun h => ⟨h.1, h.2.from h0⟩) h1

theorem SimU.bind {m : GM σ Unit} {k : Unit → GM σ Unit} {s : σ} {r : Res σ} {g : σ → Res σ} (h : SimU L m s r)
    (hk : ∀ a, r = .ok a → SimU L (k ()) a (g a)) : SimU L (m >>= k) s (r >>= g) := by
  intro n
  obtain ⟨h0, h1⟩ := h n
  rcases hm : m (s, n) with ⟨o, ⟨s', n'⟩⟩
  rw [hm] at h0 h1
  cases o with
  | ok a =>
    rw [GM.bind_ok hm]
    dsimp only at h0 h1
    subst h1
    exact SimU.later h0 (hk s' rfl n')
  | error e =>
    rw [GM.bind_error hm]
    refine ⟨h0, ?_⟩
    dsimp only at h1 ⊢
    rcases h1 with h1 | h1
    · subst h1
      exact Or.inl rfl
    · exact Or.inr h1

theorem GM.other_eq {m : AM α} {s : σ} {n n' : Nat} {o : Except Err α} (h : m ((), n) = (o, ((), n'))) :
    (GM.other m : GM σ α) (s, n) = (o, (s, n')) := by
  simp [GM.other, h]

theorem SimU.other {m : AM α} {k : α → GM σ Unit} {s : σ} {r : Res α} {g : α → Res σ} (h : SimA L m r)
    (hk : ∀ a, r = .ok a → SimU L (k a) s (g a)) : SimU L (GM.other m >>= k) s (r >>= g) := by
  intro n
  obtain ⟨h0, h1⟩ := h n
  rcases hm : m ((), n) with ⟨o, ⟨⟨⟩, n'⟩⟩
  rw [hm] at h0 h1
  have hm' := GM.other_eq (s := s) hm
  cases o with
  | ok a =>
    rw [GM.bind_ok hm']
    rcases h1 with h1 | ⟨h1, _⟩
    · dsimp only at h0 h1
      subst h1
      exact SimU.later h0 (hk a rfl n')
    · cases h1
  | error e =>
    rw [GM.bind_error hm']
    refine ⟨h0, ?_⟩
    dsimp only at h1 ⊢
    rcases h1 with h1 | h1
    · subst h1
      exact Or.inl rfl
    · exact Or.inr ⟨by simpa using h1.1, h1.2⟩

theorem SimU.then {m : AM α} {a : α} {k : α → GM σ Unit} {s : σ} {r : Res σ} (h : SimA L m (.ok a)) (hk : SimU L (k a) s r) :
    SimU L (GM.other m >>= k) s r := by
  have := SimU.other (s := s) (g := fun _ => r) h (fun b hb => by cases hb; exact hk)
  exact this

theorem SimU.freeBind {r : Res α} {k : α → GM σ Unit} {s : σ} {g : α → Res σ}
    (hk : ∀ a, r = .ok a → SimU L (k a) s (g a)) : SimU L (GM.free r >>= k) s (r >>= g) :=
  SimU.other (m := GM.free r) (SimA.free r) hk

theorem GM.local_eq (v : τ) (m : GM τ Unit) : (GM.local' v m : GM σ τ) = GM.other (GM.local' v m) := by
  funext ⟨s, n⟩
  unfold GM.other GM.local'
  dsimp only
  rcases m (v, n) with ⟨_ | _, _⟩ <;> rfl

theorem SimU.local {v : τ} {m : GM τ Unit} {r : Res τ} {k : τ → GM σ Unit} {s : σ} {g : τ → Res σ}
    (h : SimU L m v r) (hk : ∀ a, r = .ok a → SimU L (k a) s (g a)) : SimU L (GM.local' v m >>= k) s (r >>= g) := by
  rw [GM.local_eq]
  exact SimU.other (SimA.localEnd h) hk

theorem SimU.this {k : σ → GM σ Unit} {s : σ} {r : Res σ} (h : SimU L (k s) s r) :
    SimU L (GM.this >>= k) s r := h

theorem SimU.put {k : Unit → GM σ Unit} {s v : σ} {r : Res σ} (h : SimU L (k ()) v r) :
    SimU L (GM.put v >>= k) s r := h

theorem SimU.putEnd (s v : σ) : SimU L (GM.put v) s (.ok v) := fun n => ⟨le_refl n, rfl⟩

theorem SimU.ask {k : Unit → GM σ Unit} {s : σ} {r : Res σ} (h : SimU L (k ()) s r) :
    SimU L (GM.ask L >>= k) s r := by
  intro n
  by_cases hr : L.refuse n = true
  · rw [GM.bind_error (GM.ask_no (s := (s, n)) hr)]
    exact ⟨Nat.le_succ n, Or.inr ⟨rfl, n, le_refl n, Nat.lt_succ_self n, hr⟩⟩
  · rw [GM.bind_ok (GM.ask_yes (s := (s, n)) hr)]
    exact SimU.later (Nat.le_succ n) (h (n + 1))

theorem SimU.askEnd (s : σ) : SimU L (GM.ask L) s (.ok s) := by
  intro n
  by_cases hr : L.refuse n = true
  · rw [GM.ask_no (s := (s, n)) hr]
    exact ⟨Nat.le_succ n, Or.inr ⟨rfl, n, le_refl n, Nat.lt_succ_self n, hr⟩⟩
  · rw [GM.ask_yes (s := (s, n)) hr]
    exact ⟨Nat.le_succ n, rfl⟩

theorem SimU.assign (s v : BigInt) : SimU L (assignT L v) s (.ok v) := by
  intro n
  by_cases hr : L.refuse n = true
  · have : assignT L v (s, n) = (.error .badAlloc, ({ s with bins := L.left n s.bins v.bins }, n + 1)) := by simp [assignT, hr]
    rw [this]
    exact ⟨Nat.le_succ n, Or.inr ⟨rfl, n, le_refl n, Nat.lt_succ_self n, hr⟩⟩
  · have : assignT L v (s, n) = (.ok (), (v, n + 1)) := by simp [assignT, hr]
    rw [this]
    exact ⟨Nat.le_succ n, rfl⟩

/-! ### The functions -/

theorem sim_default : SimA L (defaultA L) (.ok default) := SimA.ask (SimA.pure _)

theorem sim_ofShift (x : BigInt) (n : Nat) : SimA L (ofShiftA L x n) (.ok (ofShift x n)) := SimA.ask (SimA.pure _)

theorem sim_copy (x : BigInt) : SimA L (ofShiftA L x 0) (.ok x) := sim_ofShift x 0

theorem sim_ofInt64 (x : Int) (n : Nat) : SimA L (ofInt64A L x n) (ofInt64 x n) := SimA.ask (SimA.free _)

theorem sim_returned (x : BigInt) : SimA L (returned L x) (.ok x) := SimA.ask (SimA.pure _)

theorem sim_swap (s v : BigInt) : SimU L (swapT L v) s (.ok v) := by
  refine SimU.ask ?_
  exact SimU.bind (r := .ok v) (g := fun a => .ok a) (SimU.assign s v) (fun a _ => SimU.askEnd a)

theorem sim_setValue (s : BigInt) (v : Int) : SimU L (setValueT L v) s (setValue v) := by
  unfold setValueT
  refine SimU.this (SimU.put ?_)
  refine SimU.end_ ?_
  exact SimU.freeBind fun a _ => SimU.ask (SimU.putEnd _ _)

theorem sim_negate (s : BigInt) : SimU L negateT s s.negate := by
  unfold negateT
  refine SimU.this ?_
  refine SimU.end_ ?_
  exact SimU.freeBind fun a _ => SimU.putEnd _ _

theorem sim_neg (x : BigInt) : SimA L (negA L x) x.neg := by
  unfold negA BigInt.neg
  refine SimA.then (sim_copy x) ?_
  refine SimA.end_ ?_
  exact SimA.local (sim_negate x) fun a _ => sim_returned a

theorem sim_abs (a : BigInt) : SimA L (absA L a) a.abs := by
  unfold absA BigInt.abs
  refine SimA.bind (sim_ofInt64 0 0) fun z _ => ?_
  refine SimA.freeBind fun l _ => ?_
  split
  · exact sim_neg a
  · exact sim_copy a

theorem sim_add (s x : BigInt) : SimU L (addT L x) s (s.add x) := by
  have key : ∀ b : List Int, SimU L (do
      let a ← (this : TM BigInt)
      let (r, c) ← GM.free (addLoop a.bins x.bins 0)
      GM.put { a with bins := r }
      if c ≠ 0 then do
        GM.ask L
        GM.put { a with bins := r ++ [c] }
      else Pure.pure ()) { s with bins := b } (do
        let (r, c) ← addLoop b x.bins 0
        return { s with bins := if c ≠ 0 then r ++ [c] else r }) := by
    intro b
    refine SimU.this (SimU.freeBind ?_)
    rintro ⟨r, c⟩ _
    refine SimU.put ?_
    dsimp only
    by_cases hc : c ≠ 0
    · simp only [if_pos hc]
      exact SimU.ask (SimU.putEnd _ _)
    · simp only [if_neg hc]
      exact SimU.pure _
  unfold addT BigInt.add
  refine SimU.this ?_
  by_cases hl : x.bins.length > s.bins.length
  · simp only [if_pos hl]
    exact SimU.ask (SimU.put (key _))
  · simp only [if_neg hl]
    have : x.bins.length - s.bins.length = 0 := by omega
    rw [this]
    simp only [List.replicate_zero, List.append_nil]
    exact key s.bins

theorem sim_subtract (s x : BigInt) : SimU L (subtractT L x) s (s.subtract x) := by
  unfold subtractT BigInt.subtract
  refine SimU.this (SimU.freeBind fun _ _ => SimU.freeBind fun _ _ => SimU.other (sim_abs _) fun aa _ =>
    SimU.other (sim_abs _) fun ax _ => SimU.freeBind fun g _ => SimU.freeBind fun _ _ => SimU.freeBind fun r _ => ?_)
  exact SimU.putEnd _ _

theorem sim_addNonneg (x y : BigInt) : SimA L (addNonnegA L x y) (addNonneg x y) := by
  unfold addNonnegA addNonneg
  split
  · refine SimA.then (sim_copy x) ?_
    refine SimA.end_ ?_
    exact SimA.local (sim_add x y) fun a _ => sim_returned a
  · refine SimA.then (sim_copy y) ?_
    refine SimA.end_ ?_
    exact SimA.local (sim_add y x) fun a _ => sim_returned a

theorem sim_subNonneg (x y : BigInt) : SimA L (subNonnegA L x y) (subNonneg x y) := by
  unfold subNonnegA subNonneg
  refine SimA.freeBind fun g _ => ?_
  split
  · refine SimA.then (sim_copy x) ?_
    refine SimA.end_ ?_
    exact SimA.local (sim_subtract _ y) fun a _ => sim_returned a
  · refine SimA.then (sim_copy y) ?_
    exact SimA.local (sim_subtract _ x) fun a _ => sim_neg a

theorem sim_opAdd (x y : BigInt) : SimA L (opAddA L x y) (opAdd x y) := by
  unfold opAddA opAdd
  split
  · exact SimA.bind (sim_neg x) fun a _ => SimA.bind (sim_neg y) fun b _ => SimA.bind (sim_addNonneg a b) fun r _ => sim_neg r
  split
  · exact SimA.bind (sim_neg x) fun a _ => SimA.bind (sim_subNonneg a y) fun r _ => sim_neg r
  split
  · exact SimA.bind (sim_neg y) fun b _ => sim_subNonneg x b
  · exact sim_addNonneg x y

theorem sim_opSub (x y : BigInt) : SimA L (opSubA L x y) (opSub x y) := by
  unfold opSubA opSub
  split
  · exact SimA.bind (sim_neg x) fun a _ => SimA.bind (sim_neg y) fun b _ => SimA.bind (sim_subNonneg a b) fun r _ => sim_neg r
  split
  · exact SimA.bind (sim_neg x) fun a _ => SimA.bind (sim_addNonneg a y) fun r _ => sim_neg r
  split
  · exact SimA.bind (sim_neg y) fun b _ => sim_addNonneg x b
  · exact sim_subNonneg x y

theorem sim_addAssignNonneg (s y : BigInt) : SimU L (addAssignNonnegT L y) s (addAssignNonneg s y) := by
  unfold addAssignNonnegT addAssignNonneg
  refine SimU.then (sim_ofShift y 0) ?_
  exact sim_add s _

theorem sim_subAssignNonneg (s y : BigInt) : SimU L (subAssignNonnegT L y) s (subAssignNonneg s y) := by
  unfold subAssignNonnegT subAssignNonneg
  refine SimU.this (SimU.freeBind fun g _ => ?_)
  split
  · exact sim_subtract s y
  · refine SimU.then (sim_copy y) ?_
    have h1 : SimU L (do subtractT L s; negateT) y (do let r ← y.subtract s; r.negate) :=
      SimU.bind (sim_subtract y s) fun r _ => sim_negate r
    refine SimU.end_ ?_
    exact SimU.local h1 fun r _ => sim_swap s r

theorem sim_addAssign (s y : BigInt) : SimU L (addAssignT L y) s (addAssign s y) := by
  unfold addAssignT addAssign
  refine SimU.this ?_
  split
  · exact SimU.other (sim_neg y) fun t _ => SimU.bind (sim_negate s) fun a _ =>
      SimU.bind (sim_addAssignNonneg a t) fun r _ => sim_negate r
  split
  · exact SimU.bind (sim_negate s) fun a _ => SimU.bind (sim_subAssignNonneg a y) fun r _ => sim_negate r
  split
  · exact SimU.other (sim_neg y) fun t _ => sim_subAssignNonneg s t
  · exact sim_addAssignNonneg s y

theorem sim_subAssign (s y : BigInt) : SimU L (subAssignT L y) s (subAssign s y) := by
  unfold subAssignT subAssign
  refine SimU.this ?_
  split
  · exact SimU.other (sim_neg y) fun t _ => SimU.bind (sim_negate s) fun a _ =>
      SimU.bind (sim_subAssignNonneg a t) fun r _ => sim_negate r
  split
  · exact SimU.bind (sim_negate s) fun a _ => SimU.bind (sim_addAssignNonneg a y) fun r _ => sim_negate r
  split
  · exact SimU.other (sim_neg y) fun t _ => sim_addAssignNonneg s t
  · exact sim_subAssignNonneg s y

theorem sim_mulByIntLoop (bs : List Int) (y : Int) (i : Nat) (r : BigInt) :
    SimA L (mulByIntLoopA L bs y i r) (mulByIntLoop bs y i r) := by
  induction bs generalizing i r with
  | nil => exact SimA.pure r
  | cons b bs ih =>
    unfold mulByIntLoopA mulByIntLoop
    exact SimA.freeBind fun p _ => SimA.bind (sim_ofInt64 p i) fun t _ => SimA.local (sim_addAssign r t) fun r' _ => ih _ r'

theorem sim_multiplyByInt (x : BigInt) (y : Int) : SimA L (multiplyByIntA L x y) (multiplyByInt x y) := by
  unfold multiplyByIntA multiplyByInt
  exact SimA.local (sim_setValue _ 0) fun r _ => sim_mulByIntLoop _ _ _ _

theorem sim_multiplyLoop (x : BigInt) (bs : List Int) (i : Nat) (r : BigInt) :
    SimA L (multiplyLoopA L x bs i r) (multiplyLoop x bs i r) := by
  induction bs generalizing i r with
  | nil => exact SimA.pure r
  | cons b bs ih =>
    unfold multiplyLoopA multiplyLoop
    refine SimA.bind (sim_multiplyByInt x b) fun p _ => ?_
    refine SimA.then (sim_ofShift p i) ?_
    exact SimA.local (sim_addAssign r _) fun r' _ => ih _ r'

theorem sim_multiply (x y : BigInt) : SimA L (multiplyA L x y) (multiply x y) := by
  unfold multiplyA multiply
  refine SimA.then sim_default ?_
  exact SimA.local (sim_setValue _ 0) fun r _ => sim_multiplyLoop _ _ _ _

theorem sim_opMul (x y : BigInt) : SimA L (opMulA L x y) (opMul x y) := by
  unfold opMulA opMul
  refine SimA.then sim_default ?_
  have tail : ∀ r : BigInt, SimA L (do
      let r ← (if x.negative != y.negative then GM.local' r negateT else Pure.pure r)
      returned L r) (if x.negative != y.negative then r.negate else return r) := by
    intro r
    split
    · refine SimA.end_ ?_
      exact SimA.local (sim_negate r) fun a _ => sim_returned a
    · exact SimA.bind (r := .ok r) (g := fun a => .ok a) (SimA.pure r) fun a _ => sim_returned a
  refine SimA.bind ?_ fun r _ => tail r
  split
  · exact sim_multiply x y
  · exact sim_multiply y x

theorem sim_mulAssign (s y : BigInt) : SimU L (mulAssignT L y) s (mulAssign s y) := by
  unfold mulAssignT mulAssign
  refine SimU.this ?_
  refine SimU.then sim_default ?_
  exact SimU.other (sim_multiply s y) fun r _ => sim_swap _ _

theorem sim_divideByInt (x : BigInt) (y : Int) (r : BigInt) : SimA L (divideByIntA L x y r) (divideByInt x y r) := by
  unfold divideByIntA
  refine SimA.end_ ?_
  exact SimA.freeBind fun a _ => SimA.ask (SimA.pure a)

theorem sim_iterQuotientLoop (y x : BigInt) (step : Int) (f : Nat) (b : Int) :
    SimA L (iterQuotientLoopA L y x step f b) (iterQuotientLoop y x step f b) := by
  induction f generalizing b with
  | zero => exact SimA.free _
  | succ f ih =>
    unfold iterQuotientLoopA iterQuotientLoop
    refine SimA.freeBind fun b' _ => SimA.bind (sim_multiplyByInt x b') fun p _ => SimA.bind (sim_opSub y p) fun r _ => SimA.ask ?_
    split
    · exact SimA.pure _
    · refine SimA.freeBind fun c _ => ?_
      split
      · exact ih b'
      · exact SimA.pure _

theorem sim_iterQuotient (y x : BigInt) (q step : Int) : SimA L (iterQuotientA L y x q step) (iterQuotient y x q step) := by
  unfold iterQuotientA iterQuotient
  exact SimA.then sim_default (sim_iterQuotientLoop y x step _ q)

theorem sim_qrLoop (y x : BigInt) (f : Nat) (step q : Int) (r : BigInt) :
    SimA L (qrLoopA L y x f step q r) (qrLoop y x f step q r) := by
  induction f generalizing step q r with
  | zero => exact SimA.free _
  | succ f ih =>
    unfold qrLoopA qrLoop
    split
    · exact SimA.bind (sim_iterQuotient y x q _) fun p _ => ih _ _ _
    · exact SimA.pure _

theorem sim_quotientAndRemainder (y x r : BigInt) : SimA L (quotientAndRemainderA L y x r) (quotientAndRemainder y x r) := by
  unfold quotientAndRemainderA quotientAndRemainder
  refine SimA.freeBind fun _ _ => SimA.freeBind fun _ _ => SimA.freeBind fun l _ => SimA.bind ?_ fun ok _ =>
    SimA.freeBind fun _ _ => SimA.bind (sim_qrLoop y x _ _ _ _) fun p _ => ?_
  · split
    · exact SimA.bind (sim_ofInt64 _ 0) fun lim _ => SimA.bind (sim_opMul lim x) fun bx _ => SimA.free _
    · exact SimA.pure _
  · exact SimA.freeBind fun q _ => SimA.pure _

theorem sim_divideLoop (xn : BigInt) (i : Nat) (bins : List Int) (neg : Bool) (current r : BigInt) :
    SimU L (divideLoopT L xn i current r) ⟨bins, neg⟩ (do let b ← divideLoop xn i bins current r; return ⟨b, neg⟩) := by
  induction i generalizing bins current r with
  | zero => exact SimU.pure _
  | succ i ih =>
    unfold divideLoopT divideLoop
    simp only [bind_assoc]
    refine SimU.this (SimU.freeBind fun _ _ => SimU.freeBind fun _ _ => SimU.freeBind fun b _ => SimU.freeBind fun _ _ =>
      SimU.freeBind fun c _ => ?_)
    dsimp only
    split
    · simp only [bind_assoc]
      refine SimU.other (sim_quotientAndRemainder _ _ _) fun p _ => ?_
      obtain ⟨q, r'⟩ := p
      exact SimU.freeBind fun _ _ => SimU.put (SimU.ask (ih _ _ _))
    · exact SimU.put (SimU.ask (ih _ _ _))

theorem sim_divide (s x : BigInt) : SimU L (divideT L x) s (s.divide x) := by
  unfold divideT divide
  refine SimU.this (SimU.freeBind fun z _ => ?_)
  split
  · exact fun n => ⟨le_refl n, Or.inl rfl⟩
  · refine SimU.freeBind fun c _ => ?_
    split
    · exact sim_setValue s 0
    · have key : ∀ xn : BigInt, SimU L (do
          let _ ← GM.other (defaultA L)
          let _ ← GM.other (defaultA L)
          divideLoopT L xn s.bins.length default default
          let a ← (this : TM BigInt)
          GM.put { a with negative := a.negative != x.negative }) s (do
          let bins ← divideLoop xn s.bins.length s.bins default default
          return ⟨bins, s.negative != x.negative⟩) := by
        intro xn
        refine SimU.then sim_default ?_
        refine SimU.then sim_default ?_
        have h := sim_divideLoop (L := L) xn s.bins.length s.bins s.negative default default
        have h2 := SimU.bind (k := fun _ => (do
            let a ← (this : TM BigInt)
            GM.put { a with negative := a.negative != x.negative }))
          (g := fun a => .ok { a with negative := a.negative != x.negative }) h fun a _ => SimU.this (SimU.putEnd _ _)
        have e : (do let bins ← divideLoop xn s.bins.length s.bins default default
                     return ⟨bins, s.negative != x.negative⟩ : Res BigInt) =
            ((do let b ← divideLoop xn s.bins.length s.bins default default; return ⟨b, s.negative⟩ : Res BigInt) >>=
              fun a => .ok { a with negative := a.negative != x.negative }) := by
          cases divideLoop xn s.bins.length s.bins default default <;> rfl
        rw [e]
        exact h2
      split
      · exact SimU.other (sim_neg x) fun xn _ => key xn
      · exact SimU.then (sim_copy x) (key x)

theorem sim_opDiv (x y : BigInt) : SimA L (opDivA L x y) (opDiv x y) := by
  unfold opDivA opDiv
  refine SimA.then (sim_ofShift x 0) ?_
  refine SimA.end_ ?_
  exact SimA.local (sim_divide _ y) fun a _ => sim_returned a

theorem sim_divAssign (s y : BigInt) : SimU L (divAssignT L y) s (divAssign s y) := by
  unfold divAssignT divAssign
  refine SimU.then (sim_ofShift y 0) ?_
  exact sim_divide s _

theorem sim_modulo (x y : BigInt) : SimA L (moduloA L x y) (modulo x y) := by
  unfold moduloA modulo
  refine SimA.then (sim_ofShift x 0) ?_
  refine SimA.then (sim_ofShift y 0) ?_
  have hn : ∀ v : BigInt, SimA L (if v.negative then GM.local' v negateT else Pure.pure v) (if v.negative then v.negate else Pure.pure v) := by
    intro v
    split
    · exact SimA.localEnd (sim_negate v)
    · exact SimA.pure v
  refine SimA.bind (hn _) fun a _ => SimA.bind (hn _) fun b _ => SimA.bind (sim_opDiv a b) fun q _ => SimA.bind (sim_opMul q b) fun p _ =>
    SimA.bind (sim_opSub a p) fun r _ => SimA.ask (SimA.freeBind fun z _ => ?_)
  split
  · exact SimA.pure _
  split
  · exact SimA.localEnd (sim_negate r)
  split
  · exact SimA.localEnd (sim_addAssign r y)
  split
  · refine SimA.end_ ?_
    exact SimA.bind (sim_opSub y r) fun r' _ => SimA.ask (SimA.pure r')
  · exact SimA.pure _

theorem sim_opMod (x y : BigInt) : SimA L (opModA L x y) (opMod x y) := by
  unfold opModA opMod
  refine SimA.then sim_default ?_
  refine SimA.end_ ?_
  exact SimA.bind (sim_modulo x y) fun r _ => sim_returned r

theorem sim_modAssign (s y : BigInt) : SimU L (modAssignT L y) s (modAssign s y) := by
  unfold modAssignT modAssign
  refine SimU.this ?_
  refine SimU.then sim_default ?_
  refine SimU.end_ ?_
  exact SimU.other (sim_modulo s y) fun r _ => sim_swap _ _

theorem sim_exponentiateF (f : Nat) (x y : BigInt) : SimA L (exponentiateFA L f x y) (exponentiateF f x y) := by
  induction f generalizing y with
  | zero => exact SimA.free _
  | succ f ih =>
    unfold exponentiateFA exponentiateF
    refine SimA.freeBind fun z _ => ?_
    split
    · exact SimA.localEnd (sim_setValue _ 1)
    refine SimA.freeBind fun o _ => ?_
    split
    · exact sim_copy x
    refine SimA.freeBind fun odd _ => ?_
    split
    · refine SimA.then sim_default ?_
      refine SimA.bind (sim_ofInt64 1 0) fun one _ => SimA.bind (sim_opSub y one) fun y1 _ => SimA.bind (ih y1) fun a _ => ?_
      refine SimA.end_ ?_
      exact SimA.bind (sim_opMul x a) fun r _ => SimA.ask (SimA.pure r)
    · refine SimA.then sim_default ?_
      refine SimA.bind (sim_divideByInt y 2 default) fun half _ => SimA.bind (ih half) fun r _ => ?_
      refine SimA.end_ ?_
      exact SimA.bind (sim_opMul r r) fun r _ => SimA.ask (SimA.pure r)

theorem sim_opPow (x y : BigInt) : SimA L (opPowA L x y) (opPow x y) := by
  unfold opPowA opPow exponentiate
  refine SimA.then sim_default ?_
  refine SimA.end_ ?_
  exact SimA.bind (sim_exponentiateF _ x y) fun r _ => sim_returned r

theorem sim_powAssign (s y : BigInt) : SimU L (powAssignT L y) s (powAssign s y) := by
  unfold powAssignT powAssign exponentiate
  refine SimU.this ?_
  refine SimU.then sim_default ?_
  refine SimU.end_ ?_
  exact SimU.other (sim_exponentiateF _ s y) fun r _ => sim_swap _ _

theorem sim_mulTenLoop (n : Nat) (s : BigInt) : SimU L (mulTenLoopT L n) s (mulTenLoop n s) := by
  induction n generalizing s with
  | zero => exact SimU.pure s
  | succ n ih =>
    unfold mulTenLoopT mulTenLoop
    exact SimU.other (sim_ofInt64 10 0) fun t _ => SimU.bind (sim_mulAssign s t) fun a _ => ih a

theorem sim_divTenLoop (n : Nat) (s : BigInt) : SimU L (divTenLoopT L n) s (divTenLoop n s) := by
  induction n generalizing s with
  | zero => exact SimU.pure s
  | succ n ih =>
    unfold divTenLoopT divTenLoop
    exact SimU.other (sim_ofInt64 10 0) fun t _ => SimU.bind (sim_divAssign s t) fun a _ => ih a

theorem sim_shift (n : Nat) (s : BigInt) : SimU L (shiftT L n) s (.ok (ofShift s n)) := by
  induction n generalizing s with
  | zero => exact SimU.pure s
  | succ n ih =>
    unfold shiftT
    refine SimU.ask (SimU.this (SimU.put ?_))
    have h := ih { s with bins := 0 :: s.bins }
    have e : ofShift { s with bins := 0 :: s.bins } n = ofShift s (n + 1) := by
      simp [ofShift, List.replicate_succ', List.append_assoc]
    rw [e] at h
    exact h

theorem sim_timesPowerTen (s : BigInt) (p : Int) : SimU L (timesPowerTenT L p) s (timesPowerTen s p) := by
  unfold timesPowerTenT timesPowerTen
  split
  · exact SimU.bind (sim_mulTenLoop _ s) fun a _ => sim_shift _ a
  split
  · refine SimU.freeBind fun pow _ => SimU.this (SimU.put ?_)
    dsimp only
    split
    · exact sim_setValue _ 0
    · exact sim_divTenLoop _ _
  · exact SimU.pure s

end BigInt
end CppMaths
