import Verif.Proofs.IntAlloc
import Verif.Proofs.IntMem
import Verif.Spec.IntAlloc
import Mathlib.Tactic.LinearCombination
/-!
# `Int` when memory runs out: what is left of `*this` after an exception
-/

namespace CppMaths
namespace BigInt
open GM

/-- Whenever `m` throws, what is left of an object with the value `s` satisfies `P`. -/
def Leaves {α σ : Type} (m : GM σ α) (s : σ) (P : σ → Prop) : Prop :=
  ∀ n e s' n', m (s, n) = (.error e, (s', n')) → P s'

variable {L : ILuck} {α β σ τ : Type} {P : σ → Prop} {s : σ}

theorem Leaves.mono {m : GM σ α} {Q : σ → Prop} (h : Leaves m s Q) (hq : ∀ x, Q x → P x) : Leaves m s P :=
  fun n e s' n' hm => hq s' (h n e s' n' hm)

theorem Leaves.pure (a : α) : Leaves (Pure.pure a : GM σ α) s P := by
  intro n e s' n' h
  cases h

theorem Leaves.putEnd (v : σ) : Leaves (GM.put v) s P := by
  intro n e s' n' h
  cases h

theorem Leaves.this {k : σ → GM σ α} (h : Leaves (k s) s P) : Leaves (GM.this >>= k) s P := h

theorem Leaves.put {k : Unit → GM σ α} {v : σ} (h : Leaves (k ()) v P) : Leaves (GM.put v >>= k) s P := h

theorem Leaves.other {m : AM α} {r : Res α} {k : α → GM σ β} (hs : SimA L m r) (hp : P s)
    (hk : ∀ a, r = .ok a → Leaves (k a) s P) : Leaves (GM.other m >>= k) s P := by
  intro n e s' n' h
  have h1 := hs.weak n
  rcases hm : m ((), n) with ⟨o, ⟨⟨⟩, n2⟩⟩
  rw [hm] at h1
  have hm' := GM.other_eq (s := s) hm
  cases o with
  | ok a =>
    rw [GM.bind_ok hm'] at h
    rcases h1 with h1 | ⟨h1, _⟩
    · exact hk a h1.symm _ _ _ _ h
    · cases h1
  | error e' =>
    rw [GM.bind_error hm'] at h
    cases h
    exact hp

theorem Leaves.local {v : τ} {m : GM τ Unit} {r : Res τ} {k : τ → GM σ β} (hs : SimU L m v r) (hp : P s)
    (hk : ∀ a, r = .ok a → Leaves (k a) s P) : Leaves (GM.local' v m >>= k) s P := by
  rw [GM.local_eq]
  exact Leaves.other (SimA.localEnd hs) hp hk

theorem Leaves.free {r : Res α} {k : α → GM σ β} (hp : P s) (hk : ∀ a, r = .ok a → Leaves (k a) s P) :
    Leaves (GM.free r >>= k) s P := Leaves.other (L := ⟨fun _ => false, fun _ _ l => l⟩) (m := GM.free r) (SimA.free r) hp hk

theorem Leaves.freeOk {r : Res α} {a : α} {k : α → GM σ β} (h : r = .ok a) (hk : Leaves (k a) s P) : Leaves (GM.free r >>= k) s P := by
  subst h
  exact hk

theorem Leaves.freeEnd {r : Res α} (hp : P s) : Leaves (GM.free r : GM σ α) s P := by
  intro n e s' n' h
  cases h
  exact hp

theorem Leaves.ask {k : Unit → GM σ α} (hp : P s) (hk : Leaves (k ()) s P) : Leaves (GM.ask L >>= k) s P := by
  intro n e s' n' h
  by_cases hr : L.refuse n = true
  · rw [GM.bind_error (GM.ask_no (s := (s, n)) hr)] at h
    cases h
    exact hp
  · rw [GM.bind_ok (GM.ask_yes (s := (s, n)) hr)] at h
    exact hk _ _ _ _ h

theorem Leaves.askEnd (hp : P s) : Leaves (GM.ask L) s P := by
  intro n e s' n' h
  by_cases hr : L.refuse n = true
  · rw [GM.ask_no (s := (s, n)) hr] at h
    cases h
    exact hp
  · rw [GM.ask_yes (s := (s, n)) hr] at h
    cases h

theorem Leaves.bind {m : GM σ Unit} {r : Res σ} {k : Unit → GM σ α} (hs : SimU L m s r) (hm : Leaves m s P)
    (hk : ∀ a, r = .ok a → Leaves (k ()) a P) : Leaves (m >>= k) s P := by
  intro n e s' n' h
  have h1 := hs.weak n
  rcases hm' : m (s, n) with ⟨o, ⟨s2, n2⟩⟩
  rw [hm'] at h1
  cases o with
  | ok a =>
    rw [GM.bind_ok hm'] at h
    exact hk s2 h1 _ _ _ _ h
  | error e' =>
    rw [GM.bind_error hm'] at h
    cases h
    exact hm _ _ _ _ hm'

section
variable {P : BigInt → Prop} {s : BigInt}

theorem Leaves.assign {v : BigInt} (h : ∀ k, P { s with bins := L.left k s.bins v.bins }) : Leaves (assignT L v) s P := by
  intro n e s' n' hm
  by_cases hr : L.refuse n = true
  · have : assignT L v (s, n) = (.error .badAlloc, ({ s with bins := L.left n s.bins v.bins }, n + 1)) := by simp [assignT, hr]
    rw [this] at hm
    cases hm
    exact h n
  · have : assignT L v (s, n) = (.ok (), (v, n + 1)) := by simp [assignT, hr]
    rw [this] at hm
    cases hm

/-! ### The functions -/

theorem Leaves.swap {v : BigInt} (h0 : P s) (h1 : P v) (h : ∀ k, P { s with bins := L.left k s.bins v.bins }) :
    Leaves (swapT L v) s P := by
  unfold swapT
  refine Leaves.ask h0 (Leaves.bind (L := L) (SimU.assign s v) (Leaves.assign h) fun a ha => ?_)
  cases ha
  exact Leaves.askEnd h1

theorem Leaves.setValue {v : Int} (h : P { s with bins := [] }) : Leaves (setValueT L v) s P := by
  unfold setValueT
  exact Leaves.this (Leaves.put (Leaves.free h fun r _ => Leaves.ask (P := P) h (Leaves.putEnd r)))

theorem Leaves.negate (h : P s) : Leaves negateT s P := by
  unfold negateT
  exact Leaves.this (Leaves.free h fun r _ => Leaves.putEnd _)

theorem Leaves.subtract {x : BigInt} (h : P s) : Leaves (subtractT L x) s P := by
  unfold subtractT
  exact Leaves.this (Leaves.free h fun _ _ => Leaves.free h fun _ _ => Leaves.other (sim_abs _) h fun _ _ =>
    Leaves.other (sim_abs _) h fun _ _ => Leaves.free h fun _ _ => Leaves.free h fun _ _ =>
    Leaves.free h fun _ _ => Leaves.putEnd _)

/-- `add` leaves the object unchanged or with a lost carry. -/
theorem Leaves.add {x : BigInt} (hs : WF s) (hx : WF x) (h : P s)
    (hc : ∀ r, BinsOK r → r.length = max s.bins.length x.bins.length → mag r + B ^ r.length = mag s.bins + mag x.bins →
      P { s with bins := r }) : Leaves (addT L x) s P := by
  have key : ∀ b : List Int, BinsOK b → b.length = max s.bins.length x.bins.length → mag b = mag s.bins →
      Leaves (do
      let a ← (GM.this : TM BigInt)
      let (r, c) ← GM.free (addLoop a.bins x.bins 0)
      GM.put { a with bins := r }
      if c ≠ 0 then do
        GM.ask L
        GM.put { a with bins := r ++ [c] }
      else Pure.pure ()) { s with bins := b } P := by
    intro b hb hl hm
    obtain ⟨r', c', e1, e2, e3, e4, e5⟩ := addLoop_spec (c := 0) hb hx.2 (by omega) (.inl rfl)
    refine Leaves.this (Leaves.freeOk e1 (Leaves.put ?_))
    dsimp only
    by_cases h0 : c' ≠ 0
    · simp only [if_pos h0]
      refine Leaves.ask (hc r' e2 (by omega) ?_) (Leaves.putEnd _)
      have : c' = 1 := by omega
      rw [e3, ← hm]
      rw [this] at e5
      linarith
    · simp only [if_neg h0]
      exact Leaves.pure _
  unfold addT
  refine Leaves.this ?_
  by_cases hl : x.bins.length > s.bins.length
  · simp only [if_pos hl]
    refine Leaves.ask h (Leaves.put (key _ ?_ ?_ ?_))
    · simp [hs.2]
    · simp; omega
    · rw [mag_append]; simp
  · simp only [if_neg hl]
    exact key s.bins hs.2 (by omega) rfl

theorem negate_neg {x : BigInt} (hx : WF x) (h : x.negative = true) : x.negate = .ok { x with negative := false } := by
  rw [negate_spec hx]
  simp [h]

theorem Leaves.negateOk (hs : WF s) : Leaves negateT s P := by
  unfold negateT
  obtain ⟨r, hr, _⟩ := negate_ok hs
  exact Leaves.this (Leaves.freeOk hr (Leaves.putEnd _))

/-- What a sum of magnitudes leaves. -/
def SumPart (s y x' : BigInt) : Prop :=
  x' = s ∨ (WF x' ∧ x'.negative = s.negative ∧ mag x'.bins = mag s.bins + mag y.bins - B ^ max s.bins.length y.bins.length)

/-- What a difference of magnitudes leaves. -/
def DiffPart (L : ILuck) (s y x' : BigInt) : Prop :=
  x' = s ∨ (mag s.bins ≤ mag y.bins ∧ ((WF x' ∧ x'.val = mag s.bins - mag y.bins) ∨
    ∃ k b, b ≠ [] ∧ BinsOK b ∧ mag b = mag y.bins - mag s.bins ∧ x' = { s with bins := L.left k s.bins b }))

theorem Leaves.addAssignNonneg {y : BigInt} (hs : WF s) (hy : WF y) : Leaves (addAssignNonnegT L y) s (SumPart s y) := by
  unfold addAssignNonnegT
  refine Leaves.other (sim_copy y) (.inl rfl) fun c hc => ?_
  cases hc
  refine Leaves.add hs hy (.inl rfl) fun r r1 r2 r3 => .inr ⟨⟨?_, r1⟩, rfl, ?_⟩
  · have := hs.pos_length
    show r ≠ []
    exact List.ne_nil_of_length_pos (by omega)
  · rw [← r2]
    dsimp only
    linarith

theorem Leaves.subAssignNonneg {y : BigInt} (hs : WF s) (hy : WF y) (ss : s.negative = false) (sy : y.negative = false) :
    Leaves (subAssignNonnegT L y) s (DiffPart L s y) := by
  unfold subAssignNonnegT
  refine Leaves.this (Leaves.freeOk (gt_spec hs hy) ?_)
  split
  · exact Leaves.subtract (.inl rfl)
  · rename_i hle
    simp only [decide_eq_true_eq, not_lt, val_of_not_neg ss, val_of_not_neg sy, gt_iff_lt] at hle
    refine Leaves.other (sim_copy y) (.inl rfl) fun c hc => ?_
    cases hc
    have h1 : SimU L (do subtractT L s; negateT) y (do let r ← y.subtract s; r.negate) :=
      SimU.bind (sim_subtract y s) fun r _ => sim_negate r
    refine Leaves.local h1 (.inl rfl) fun r hr => ?_
    by_cases hn : NoLead y.bins ∧ NoLead s.bins
    · obtain ⟨d, d1, d2, d3, d4, d5⟩ := subtract_ok hy hs hn.1 hn.2 hle
      obtain ⟨r', e1, e2, e3, e4⟩ := negate_ok d2
      rw [d1, bind_ok, e1] at hr
      cases hr
      have hv : d.val = mag y.bins - mag s.bins := by rw [val_of_not_neg (d3.trans sy), d4]
      refine Leaves.swap (.inl rfl) (.inr ⟨hle, .inl ⟨e2, by rw [e4.1, hv]; ring⟩⟩) fun k => .inr ⟨hle, .inr ⟨k, r.bins, e2.1, e2.2, ?_, rfl⟩⟩
      rw [e3, d4]
    · rw [subtract_fail (by tauto)] at hr
      cases hr

theorem SumPart.left {x y s t x' : BigInt} {same : Prop} (h : SumPart s t x') (hx : WF x) (hy : WF y) (hs : s.bins = x.bins) (ns : s.negative = false)
    (ht : t.bins = y.bins) (hsame : same) : SumLeft L same x y x' ∧ (L.Sane → WF x') := by
  rcases h with h | ⟨h1, h2, h3⟩
  · have e : x' = { x with negative := false } := by rw [h, ← hs, ← ns]
    refine ⟨.inr (.inl e), fun _ => ?_⟩
    rw [e]
    exact hx
  · refine ⟨.inr (.inr (.inl ⟨hsame, h1, h2.trans ns, ?_⟩)), fun _ => h1⟩
    rw [val_of_not_neg (h2.trans ns), h3, abs_val hx, abs_val hy, hs, ht]

theorem DiffPart.left {x y s t x' : BigInt} {same : Prop} (h : DiffPart L s t x') (hx : WF x) (hy : WF y) (hs : s.bins = x.bins) (ns : s.negative = false)
    (ht : t.bins = y.bins) (hsame : ¬same) : SumLeft L same x y x' ∧ (L.Sane → WF x') := by
  rcases h with h | ⟨h1, h2⟩
  · have e : x' = { x with negative := false } := by rw [h, ← hs, ← ns]
    refine ⟨.inr (.inl e), fun _ => ?_⟩
    rw [e]
    exact hx
  · rw [hs, ht] at h1
    rcases h2 with ⟨h2, h3⟩ | ⟨k, b, h2, h3, h4, h5⟩
    · refine ⟨.inr (.inr (.inr ⟨hsame, ?_, .inl ?_⟩)), fun _ => h2⟩
      · rw [abs_val hx, abs_val hy]
        exact h1
      · rw [h3, abs_val hx, abs_val hy, hs, ht]
    · refine ⟨.inr (.inr (.inr ⟨hsame, ?_, .inr ⟨k, b, ?_, ?_⟩⟩)), fun hL => ?_⟩
      · rw [abs_val hx, abs_val hy]
        exact h1
      · rw [h4, abs_val hx, abs_val hy, hs, ht]
      · rw [h5, hs, ns]
      · rw [h5, hs]
        exact hL k x.bins b hx.1 hx.2 h2 h3

/-- `+=` on numbers that are not negative, between two changes of sign. -/
theorem Leaves.addNeg {x t : BigInt} {P : BigInt → Prop} (hx : WF x) (nx : x.negative = true) (h0 : P x) (ht : WF t)
    (h : ∀ x', SumPart { x with negative := false } t x' → P x') :
    Leaves (do negateT; addAssignNonnegT L t; negateT) x P := by
  refine Leaves.bind (L := L) (sim_negate x) (Leaves.negate h0) fun a ha => ?_
  rw [negate_neg hx nx] at ha
  cases ha
  have hw : WF ({ x with negative := false } : BigInt) := hx
  refine Leaves.bind (L := L) (sim_addAssignNonneg _ t) ((Leaves.addAssignNonneg hw ht).mono h) fun a ha => ?_
  obtain ⟨r, r1, r2, _⟩ := add_ok hw ht
  unfold BigInt.addAssignNonneg at ha
  rw [ofShift_zero, r1] at ha
  cases ha
  exact Leaves.negateOk r2

/-- `-=` on numbers that are not negative, between two changes of sign. -/
theorem Leaves.subNeg {x t : BigInt} {P : BigInt → Prop} (hx : WF x) (nx : x.negative = true) (h0 : P x) (ht : WF t) (nt : t.negative = false)
    (h : ∀ x', DiffPart L { x with negative := false } t x' → P x') :
    Leaves (do negateT; subAssignNonnegT L t; negateT) x P := by
  refine Leaves.bind (L := L) (sim_negate x) (Leaves.negate h0) fun a ha => ?_
  rw [negate_neg hx nx] at ha
  cases ha
  have hw : WF ({ x with negative := false } : BigInt) := hx
  refine Leaves.bind (L := L) (sim_subAssignNonneg _ t) ((Leaves.subAssignNonneg hw ht rfl nt).mono h) fun a ha => ?_
  have hg := subAssign_wf hw ht
  rw [subAssign_nonneg' rfl nt, ha] at hg
  rcases hg with ⟨r, r1, r2, _⟩ | hg
  · cases r1
    exact Leaves.negateOk r2
  · cases hg

/-- What `+=` leaves. -/
theorem Leaves.addAssign {x y : BigInt} (hx : WF x) (hy : WF y) :
    Leaves (addAssignT L y) x fun x' => SumLeft L (x.negative = y.negative) x y x' ∧ (L.Sane → WF x') := by
  have h0 : SumLeft L (x.negative = y.negative) x y x ∧ (L.Sane → WF x) := ⟨.inl rfl, fun _ => hx⟩
  have hy' : WF ({ y with negative := false } : BigInt) := hy
  unfold addAssignT
  refine Leaves.this ?_
  cases hnx : x.negative <;> cases hny : y.negative <;> simp only [Bool.and_true, Bool.and_false, Bool.not_true, Bool.not_false, if_true,
    Bool.false_eq_true, if_false, Bool.true_and, Bool.false_and, Bool.not_eq_true, Bool.and_self]
  · exact (Leaves.addAssignNonneg hx hy).mono fun x' h => h.left hx hy rfl hnx rfl (by simp)
  · refine Leaves.other (sim_neg y) (by simpa [hnx, hny] using h0) fun t ht => ?_
    rw [show y.neg = y.negate from rfl, negate_neg hy hny] at ht
    cases ht
    exact (Leaves.subAssignNonneg hx hy' hnx rfl).mono fun x' h => h.left hx hy rfl hnx rfl (by simp)
  · exact Leaves.subNeg hx hnx (by simpa [hnx, hny] using h0) hy hny fun x' h => h.left hx hy rfl rfl rfl (by simp)
  · refine Leaves.other (sim_neg y) (by simpa [hnx, hny] using h0) fun t ht => ?_
    rw [show y.neg = y.negate from rfl, negate_neg hy hny] at ht
    cases ht
    exact Leaves.addNeg hx hnx (by simpa [hnx, hny] using h0) hy' fun x' h => h.left hx hy rfl rfl rfl (by simp)

/-- What `-=` leaves. -/
theorem Leaves.subAssign {x y : BigInt} (hx : WF x) (hy : WF y) :
    Leaves (subAssignT L y) x fun x' => SumLeft L (x.negative ≠ y.negative) x y x' ∧ (L.Sane → WF x') := by
  have h0 : SumLeft L (x.negative ≠ y.negative) x y x ∧ (L.Sane → WF x) := ⟨.inl rfl, fun _ => hx⟩
  have hy' : WF ({ y with negative := false } : BigInt) := hy
  unfold subAssignT
  refine Leaves.this ?_
  cases hnx : x.negative <;> cases hny : y.negative <;> simp only [Bool.and_true, Bool.and_false, Bool.not_true, Bool.not_false, if_true,
    Bool.false_eq_true, if_false, Bool.true_and, Bool.false_and, Bool.not_eq_true, Bool.and_self]
  · exact (Leaves.subAssignNonneg hx hy hnx hny).mono fun x' h => h.left hx hy rfl hnx rfl (by simp)
  · refine Leaves.other (sim_neg y) (by simpa [hnx, hny] using h0) fun t ht => ?_
    rw [show y.neg = y.negate from rfl, negate_neg hy hny] at ht
    cases ht
    exact (Leaves.addAssignNonneg hx hy').mono fun x' h => h.left hx hy rfl hnx rfl (by simp)
  · exact Leaves.addNeg hx hnx (by simpa [hnx, hny] using h0) hy fun x' h => h.left hx hy rfl rfl rfl (by simp)
  · refine Leaves.other (sim_neg y) (by simpa [hnx, hny] using h0) fun t ht => ?_
    rw [show y.neg = y.negate from rfl, negate_neg hy hny] at ht
    cases ht
    exact Leaves.subNeg hx hnx (by simpa [hnx, hny] using h0) hy' rfl fun x' h => h.left hx hy rfl rfl rfl (by simp)

/-- What the operations leave that compute the result in another object and swap it in. -/
theorem Leaves.mulAssign {x y : BigInt} {P : BigInt → Prop} (h0 : P x)
    (h : ∀ r, BigInt.mulAssign x y = .ok r → P r ∧ ∀ k, P { x with bins := L.left k x.bins r.bins }) : Leaves (mulAssignT L y) x P := by
  unfold mulAssignT
  refine Leaves.this (Leaves.other sim_default h0 fun _ _ => Leaves.other (sim_multiply x y) h0 fun r hr => ?_)
  have := h { r with negative := x.negative != y.negative } (by unfold BigInt.mulAssign; rw [hr]; rfl)
  exact Leaves.swap h0 this.1 this.2

theorem Leaves.modAssign {x y : BigInt} {P : BigInt → Prop} (h0 : P x)
    (h : ∀ r, BigInt.modAssign x y = .ok r → P r ∧ ∀ k, P { x with bins := L.left k x.bins r.bins }) : Leaves (modAssignT L y) x P := by
  unfold modAssignT
  refine Leaves.this (Leaves.other sim_default h0 fun _ _ => Leaves.other (sim_modulo x y) h0 fun r hr => ?_)
  have := h r hr
  exact Leaves.swap h0 this.1 this.2

theorem Leaves.powAssign {x y : BigInt} {P : BigInt → Prop} (h0 : P x)
    (h : ∀ r, BigInt.powAssign x y = .ok r → P r ∧ ∀ k, P { x with bins := L.left k x.bins r.bins }) : Leaves (powAssignT L y) x P := by
  unfold powAssignT
  refine Leaves.this (Leaves.other sim_default h0 fun _ _ => Leaves.other (sim_exponentiateF _ x y) h0 fun r hr => ?_)
  have := h r hr
  exact Leaves.swap h0 this.1 this.2

/-! ### Division -/

theorem mag_set (l : List Int) (i : Nat) (q : Int) (t : Int) (h : l[i]? = some t) : mag (l.set i q) = mag l + B ^ i * (q - t) := by
  induction l generalizing i with
  | nil => simp at h
  | cons b l ih =>
    cases i with
    | zero =>
      simp only [List.getElem?_cons_zero, Option.some.injEq] at h
      subst h
      simp only [List.set_cons_zero, mag_cons, pow_zero]
      ring
    | succ i =>
      simp only [List.getElem?_cons_succ] at h
      simp only [List.set_cons_succ, mag_cons, ih i h, pow_succ]
      ring

theorem BinsOK_set {l : List Int} (h : BinsOK l) (i : Nat) {q : Int} (h0 : 0 ≤ q) (h1 : q < 1000000000) : BinsOK (l.set i q) := by
  intro b hb
  rcases List.mem_or_eq_of_mem_set hb with hb | hb
  · exact h b hb
  · subst hb
    exact ⟨h0, h1⟩

/-- The dividend `M` after the rounds down to the index `i`. -/
def divPart (M X : Int) (i : Nat) : Int := M % B ^ i + B ^ i * (M / B ^ i / X)

/-- One round. -/
theorem divPart_step {M X : Int} (hM : 0 ≤ M) (hX : 0 < X) (i : Nat) {l : List Int} (hl : BinsOK l) (hm : mag l = divPart M X (i + 1)) {t : Int}
    (ht : l[i]? = some t) :
    (B * ((M / B ^ (i + 1)) % X) + t) % X = M / B ^ i % X ∧
    divPart M X (i + 1) + B ^ i * ((B * ((M / B ^ (i + 1)) % X) + t) / X - t) = divPart M X i := by
  have hB := B_pow_pos i
  have hB1 := B_pow_pos (i + 1)
  have e1 : M / B ^ (i + 1) = M / B ^ i / B := by
    rw [pow_succ, Int.ediv_ediv_of_nonneg hB.le]
  have hdrop : mag (l.drop (i + 1)) = M / B ^ (i + 1) / X := by
    rw [mag_drop hl, hm]
    unfold divPart
    rw [Int.add_mul_ediv_left _ _ hB1.ne', Int.ediv_eq_zero_of_lt (Int.emod_nonneg _ hB1.ne') (Int.emod_lt_of_pos _ hB1), zero_add]
  have hdrop' : mag (l.drop i) = t + B * (M / B ^ (i + 1) / X) := by
    obtain ⟨hi, hg⟩ := List.getElem?_eq_some_iff.mp ht
    rw [List.drop_eq_getElem_cons hi, mag_cons, hdrop, hg]
  have e2 : M % B ^ (i + 1) = M % B ^ i + B ^ i * (M / B ^ i % B) := by
    have h1 := Int.emod_add_mul_ediv M (B ^ (i + 1))
    have h2 := Int.emod_add_mul_ediv M (B ^ i)
    have h3 := Int.emod_add_mul_ediv (M / B ^ i) B
    rw [e1, pow_succ] at h1
    rw [pow_succ]
    linear_combination h1 - h2 - B ^ i * h3
  have hdrop2 : mag (l.drop i) = M / B ^ i % B + B * (M / B ^ (i + 1) / X) := by
    rw [mag_drop hl, hm]
    unfold divPart
    rw [e2]
    have : M % B ^ i + B ^ i * (M / B ^ i % B) + B ^ (i + 1) * (M / B ^ (i + 1) / X) =
        M % B ^ i + B ^ i * (M / B ^ i % B + B * (M / B ^ (i + 1) / X)) := by rw [pow_succ]; ring
    rw [this, Int.add_mul_ediv_left _ _ hB.ne', Int.ediv_eq_zero_of_lt (Int.emod_nonneg _ hB.ne') (Int.emod_lt_of_pos _ hB), zero_add]
  have et : t = M / B ^ i % B := by linarith
  have e3 : M / B ^ i = B * ((M / B ^ (i + 1)) % X) + t + X * (B * (M / B ^ (i + 1) / X)) := by
    have h1 := Int.emod_add_mul_ediv (M / B ^ i) B
    have h2 := Int.emod_add_mul_ediv (M / B ^ (i + 1)) X
    rw [← e1, ← et] at h1
    rw [← h1]
    conv => lhs; rw [← h2]
    ring
  constructor
  · conv => rhs; rw [e3]
    rw [Int.add_mul_emod_self_left]
  · unfold divPart
    conv => rhs; rw [e3]
    rw [Int.add_mul_ediv_left _ _ hX.ne', e2, ← et, pow_succ]
    ring

theorem Leaves.divideLoop {xn : BigInt} (hx : WF xn) (sx : xn.negative = false) (hX : 0 < mag xn.bins) {M : Int} (hM : 0 ≤ M) {neg : Bool}
    (i : Nat) : ∀ {bins : List Int} {cur r : BigInt}, bins ≠ [] → BinsOK bins → mag bins = divPart M (mag xn.bins) i →
      CurOK cur ((M / B ^ i) % mag xn.bins) →
      Leaves (divideLoopT L xn i cur r) ⟨bins, neg⟩ fun x' => WF x' ∧ x'.negative = neg ∧ ∃ j, mag x'.bins = divPart M (mag xn.bins) j := by
  induction i with
  | zero => intro bins cur r _ _ _ _; exact Leaves.pure _
  | succ i ih =>
    intro bins cur r hne hok hm hc
    have hp : WF ⟨bins, neg⟩ ∧ neg = neg ∧ ∃ j, mag bins = divPart M (mag xn.bins) j := ⟨⟨hne, hok⟩, rfl, i + 1, hm⟩
    unfold divideLoopT
    refine Leaves.this (Leaves.free hp fun _ _ => Leaves.free hp fun _ _ => Leaves.free hp fun b hb => Leaves.free hp fun _ _ => ?_)
    dsimp only at hb ⊢
    have ht : bins[i]? = some b := by
      unfold atR at hb
      split at hb
      · cases hb; assumption
      · cases hb
    have hbr := hok b (List.mem_of_getElem? ht)
    obtain ⟨c1, c2, c3, _⟩ := hc.set hbr.1 hbr.2
    obtain ⟨s1, s2⟩ := divPart_step hM hX i hok hm ht
    have g0 := Int.emod_nonneg (M / B ^ (i + 1)) hX.ne'
    have g1 := Int.emod_lt_of_pos (M / B ^ (i + 1)) hX
    refine Leaves.freeOk (cmpBins_spec hx.2 c1.1.2) ?_
    dsimp only
    rw [c2]
    have next : ∀ q, 0 ≤ q → q < 1000000000 → q = (1000000000 * (M / B ^ (i + 1) % mag xn.bins) + b) / mag xn.bins →
        mag (bins.set i q) = divPart M (mag xn.bins) i := by
      intro q _ _ hq
      rw [mag_set _ _ _ _ ht, hm, ← s2, hq]
    by_cases hle : mag xn.bins ≤ 1000000000 * (M / B ^ (i + 1) % mag xn.bins) + b
    · have hcmp : cmpInts (mag xn.bins) (1000000000 * (M / B ^ (i + 1) % mag xn.bins) + b) ≤ 0 := by
        unfold cmpInts; split <;> (try split) <;> omega
      rw [if_pos hcmp]
      obtain ⟨r', q1, q2, q3, q4⟩ := quotientAndRemainder_ok (r0 := r) c1 hx hc.sign sx (by dsimp only; omega) (by dsimp only; omega)
      refine Leaves.other (sim_quotientAndRemainder _ _ _) hp fun p hpq => ?_
      rw [q1] at hpq
      cases hpq
      refine Leaves.free hp fun _ _ => ?_
      dsimp only at q4 ⊢
      rw [c2] at q4 ⊢
      have q0 : 0 ≤ (1000000000 * (M / B ^ (i + 1) % mag xn.bins) + b) / mag xn.bins := Int.ediv_nonneg (by omega) hX.le
      have qB : (1000000000 * (M / B ^ (i + 1) % mag xn.bins) + b) / mag xn.bins < 1000000000 :=
        Int.ediv_lt_of_lt_mul hX (by nlinarith)
      have hne' : bins.set i ((1000000000 * (M / B ^ (i + 1) % mag xn.bins) + b) / mag xn.bins) ≠ [] := by
        simpa using hne
      have hok' := BinsOK_set hok i q0 qB
      have hm' := next _ q0 qB rfl
      refine Leaves.put (Leaves.ask ⟨⟨hne', hok'⟩, rfl, i, hm'⟩ (ih hne' hok' hm' ?_))
      rw [← s1, ← q4, val_of_not_neg q3]
      exact CurOK.shift q2.clean q3
    · have hcmp : ¬cmpInts (mag xn.bins) (1000000000 * (M / B ^ (i + 1) % mag xn.bins) + b) ≤ 0 := by
        rw [cmpInts_gt (by omega)]; decide
      rw [if_neg hcmp]
      have hq0 : 0 = (1000000000 * (M / B ^ (i + 1) % mag xn.bins) + b) / mag xn.bins :=
        (Int.ediv_eq_zero_of_lt (by omega) (by omega)).symm
      have hne' : cleanBins (bins.set i 0) ≠ [] := cleanBins_ne (by simpa using hne)
      have hok' := cleanBins_ok (BinsOK_set hok i (q := 0) (by omega) (by omega))
      have hm' : mag (cleanBins (bins.set i 0)) = divPart M (mag xn.bins) i := by
        rw [mag_cleanBins]; exact next 0 (by omega) (by omega) hq0
      refine Leaves.put (Leaves.ask ⟨⟨hne', hok'⟩, rfl, i, hm'⟩ (ih hne' hok' hm' ?_))
      have hr0 : (1000000000 * (M / B ^ (i + 1) % mag xn.bins) + b) % mag xn.bins = 1000000000 * (M / B ^ (i + 1) % mag xn.bins) + b :=
        Int.emod_eq_of_lt (by omega) (by omega)
      rw [← s1, hr0, ← c2]
      exact CurOK.shift (cur := { cur with bins := cur.bins.set 0 b }) c1 hc.sign

/-- What `/=` leaves. -/
theorem Leaves.divAssign {x y : BigInt} (hx : WF x) (hy : WF y) :
    Leaves (divAssignT L y) x fun x' => x' = x ∨ (|x.val| < |y.val| ∧ x' = ⟨[], x.negative⟩) ∨
      (|y.val| ≤ |x.val| ∧ WF x' ∧ x'.negative = x.negative ∧
        ∃ j, |x'.val| = |x.val| % 1000000000 ^ j + 1000000000 ^ j * (|x.val| / 1000000000 ^ j / |y.val|)) := by
  unfold divAssignT
  refine Leaves.other (sim_copy y) (.inl rfl) fun c hc => ?_
  cases hc
  unfold divideT
  refine Leaves.this (Leaves.freeOk (equalsInt32_zero hy) ?_)
  split
  · exact Leaves.freeEnd (.inl rfl)
  rename_i hy0
  have hY : 0 < mag y.bins := by
    have := mag_nonneg hy.2
    simp only [decide_eq_true_eq] at hy0
    omega
  have hXn := mag_nonneg hx.2
  refine Leaves.freeOk (cmpBins_spec hx.2 hy.2) ?_
  rw [abs_val hx, abs_val hy]
  split
  · rename_i hlt
    refine Leaves.setValue (.inr (.inl ⟨?_, rfl⟩))
    revert hlt
    unfold cmpInts
    split <;> (try split) <;> omega
  · rename_i hge
    have hle : mag y.bins ≤ mag x.bins := by
      by_contra hc
      rw [cmpInts_lt (by omega)] at hge
      omega
    have key : ∀ xn : BigInt, xn.bins = y.bins → xn.negative = false → Leaves (do
          let _ ← GM.other (defaultA L)
          let _ ← GM.other (defaultA L)
          divideLoopT L xn x.bins.length default default
          let a ← (GM.this : TM BigInt)
          GM.put { a with negative := a.negative != y.negative }) x fun x' => x' = x ∨ (mag x.bins < mag y.bins ∧ x' = ⟨[], x.negative⟩) ∨
      (mag y.bins ≤ mag x.bins ∧ WF x' ∧ x'.negative = x.negative ∧
        ∃ j, |x'.val| = mag x.bins % 1000000000 ^ j + 1000000000 ^ j * (mag x.bins / 1000000000 ^ j / mag y.bins)) := by
      intro xn hxn sxn
      have hw : WF xn := by unfold WF; rw [hxn]; exact hy
      refine Leaves.other sim_default (.inl rfl) fun _ _ => Leaves.other sim_default (.inl rfl) fun _ _ => ?_
      have hlt := mag_lt hx.2
      have h := Leaves.divideLoop (L := L) hw sxn (hxn ▸ hY) hXn (neg := x.negative) x.bins.length (bins := x.bins) (cur := default)
        (r := default) hx.1 hx.2 (by
          unfold divPart
          rw [Int.ediv_eq_zero_of_lt hXn hlt, Int.emod_eq_of_lt hXn hlt]; simp) (by
          rw [Int.ediv_eq_zero_of_lt hXn hlt]; simpa using CurOK.init)
      refine Leaves.bind (L := L) (sim_divideLoop xn _ x.bins x.negative default default) (h.mono ?_) fun a _ => Leaves.this (Leaves.putEnd _)
      rintro x' ⟨w, e, j, hj⟩
      refine .inr (.inr ⟨hle, w, e, j, ?_⟩)
      rw [abs_val w, hj, hxn]
      rfl
    split
    · rename_i hn
      refine Leaves.other (sim_neg y) (.inl rfl) fun xn hxn => ?_
      rw [show y.neg = y.negate from rfl, negate_neg hy hn] at hxn
      cases hxn
      exact key _ rfl rfl
    · rename_i hn
      refine Leaves.other (sim_copy y) (.inl rfl) fun xn hxn => ?_
      cases hxn
      exact key _ rfl (by simpa using hn)

/-! ### `times_power_ten` -/

theorem Leaves.mulTenLoop (hL : L.Sane) (n : Nat) : ∀ {x : BigInt}, WF x → Leaves (mulTenLoopT L n) x WF := by
  induction n with
  | zero => intro x _; exact Leaves.pure _
  | succ n ih =>
    intro x hx
    unfold mulTenLoopT
    refine Leaves.other (sim_ofInt64 10 0) hx fun ten ht => ?_
    cases ht
    have hw : ∀ r, BigInt.mulAssign x ⟨[10], false⟩ = .ok r → WF r := fun r hr => by
      obtain ⟨r', r1, r2, _⟩ := mulAssign_ok hx (y := ⟨[10], false⟩) (by decide)
      rw [r1] at hr
      cases hr
      exact r2
    exact Leaves.bind (L := L) (sim_mulAssign x _)
      (Leaves.mulAssign hx fun r hr => ⟨hw r hr, fun k => hL k _ _ hx.1 hx.2 (hw r hr).1 (hw r hr).2⟩) fun a ha => ih (hw a ha)

theorem Leaves.shift (n : Nat) : ∀ {x : BigInt}, WF x → Leaves (shiftT L n) x WF := by
  induction n with
  | zero => intro x _; exact Leaves.pure _
  | succ n ih =>
    intro x hx
    unfold shiftT
    refine Leaves.ask hx (Leaves.this (Leaves.put (ih ⟨by simp, ?_⟩)))
    rw [BinsOK_cons]
    exact ⟨by omega, hx.2⟩

theorem Leaves.timesPowerTen (hL : L.Sane) {x : BigInt} (hx : WF x) {p : Int} (hp : 0 ≤ p) : Leaves (timesPowerTenT L p) x WF := by
  unfold timesPowerTenT
  split
  · exact Leaves.bind (L := L) (sim_mulTenLoop _ x) (Leaves.mulTenLoop hL _ hx) fun a ha => by
      obtain ⟨r, r1, r2, _⟩ := mulTenLoop_wf (p.toNat % 9) hx
      rw [ha] at r1
      cases r1
      exact Leaves.shift _ r2
  · rw [if_neg (by omega)]
    exact Leaves.pure _

end

end BigInt

open BigInt

theorem IOp.runA_sim (L : ILuck) (op : IOp) (x y : BigInt) : SimA L (op.runA L x y) (op.run x y) := by
  cases op
  · exact sim_opAdd x y
  · exact sim_opSub x y
  · exact sim_opMul x y
  · exact sim_opDiv x y
  · exact sim_opMod x y

theorem IOp.assignT_sim (L : ILuck) (op : IOp) (x y : BigInt) : SimU L (op.assignT L y) x (op.asgVal x y) := by
  cases op
  · exact sim_addAssign x y
  · exact sim_subAssign x y
  · exact sim_mulAssign x y
  · exact sim_divAssign x y
  · exact sim_modAssign x y

end CppMaths
