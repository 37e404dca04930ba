import Verif.Proofs.ReadAlloc
import Verif.Spec.IntAlloc
/-!
# Reading depends on its own requests only
-/

namespace CppMaths
namespace BigInt
open GM

/-- The two answer the requests from `a` to `b` alike, and failed assignments leave the same. -/
def Agree (L L' : ILuck) (a b : Nat) : Prop := L.left = L'.left ∧ ∀ k, a ≤ k → k < b → L.refuse k = L'.refuse k

/-- What a computation does depends only on the answers to its own requests. -/
def Loc {σ α : Type} (F : ILuck → GM σ α) : Prop :=
  ∀ L s, s.2 ≤ (F L s).2.2 ∧ ∀ L', Agree L L' s.2 (F L s).2.2 → F L' s = F L s

variable {σ α β : Type}

theorem Loc.const (m : GM σ α) (h : ∀ s, (m s).2.2 = s.2) : Loc fun _ => m := fun _ s => ⟨(h s).ge, fun _ _ => rfl⟩

theorem Loc.pure (a : α) : Loc fun _ => (Pure.pure a : GM σ α) := Loc.const _ fun _ => rfl

theorem Loc.put (a : σ) : Loc fun _ => GM.put a := Loc.const _ fun _ => rfl

theorem Loc.free (r : Res α) : Loc fun _ => (GM.free r : GM σ α) := Loc.const _ fun _ => rfl

theorem Loc.this : Loc fun _ => (GM.this : GM σ σ) := Loc.const _ fun _ => rfl

theorem Loc.ask : Loc fun L => (GM.ask L : GM σ Unit) := fun L s =>
  ⟨Nat.le_succ _, fun L' h => by
    have h1 : L.refuse s.2 = L'.refuse s.2 := h.2 s.2 (le_refl _) (Nat.lt_succ_self _)
    simp only [GM.ask, h1]⟩

theorem Loc.askSoft : Loc fun L => (askSoft L : GM σ Bool) := fun L s =>
  ⟨Nat.le_succ _, fun L' h => by
    have h1 : L.refuse s.2 = L'.refuse s.2 := h.2 s.2 (le_refl _) (Nat.lt_succ_self _)
    simp only [BigInt.askSoft, h1]⟩

theorem Loc.bind {F : ILuck → GM σ α} {G : ILuck → α → GM σ β} (hF : Loc F) (hG : ∀ a, Loc fun L => G L a) : Loc fun L => F L >>= G L := by
  intro L s
  obtain ⟨h1, h2⟩ := hF L s
  show s.2 ≤ ((F L >>= G L) s).2.2 ∧ ∀ L', Agree L L' s.2 ((F L >>= G L) s).2.2 → (F L' >>= G L') s = (F L >>= G L) s
  rcases hx : F L s with ⟨e | a, s1⟩
  · rw [hx] at h1 h2
    rw [GM.bind_error hx]
    refine ⟨h1, fun L' h => ?_⟩
    exact GM.bind_error (h2 L' h)
  · rw [hx] at h1 h2
    rw [GM.bind_ok hx]
    obtain ⟨h3, h4⟩ := hG a L s1
    refine ⟨h1.trans h3, fun L' h => ?_⟩
    have h5 := h2 L' ⟨h.1, fun k k1 k2 => h.2 k k1 (k2.trans_le h3)⟩
    rw [GM.bind_ok h5]
    exact h4 L' ⟨h.1, fun k k1 k2 => h.2 k (h1.trans k1) k2⟩

theorem Loc.other {F : ILuck → AM α} (hF : Loc F) : Loc fun L => (GM.other (F L) : GM σ α) := by
  intro L s
  obtain ⟨h1, h2⟩ := hF L ((), s.2)
  refine ⟨h1, fun L' h => ?_⟩
  have h3 := h2 L' h
  show GM.other (F L') s = GM.other (F L) s
  unfold GM.other
  dsimp only
  rw [h3]

theorem Loc.onObj {F : ILuck → TM Unit} (hF : Loc F) : Loc fun L => onObj (F L) := by
  intro L s
  obtain ⟨h1, h2⟩ := hF L (s.1.2, s.2)
  refine ⟨h1, fun L' h => ?_⟩
  have h3 := h2 L' h
  show BigInt.onObj (F L') s = BigInt.onObj (F L) s
  unfold BigInt.onObj
  dsimp only
  rw [h3]

theorem Loc.local' {τ : Type} (v : τ) {F : ILuck → GM τ Unit} (hF : Loc F) : Loc fun L => (GM.local' v (F L) : GM σ τ) := by
  intro L s
  obtain ⟨h1, h2⟩ := hF L (v, s.2)
  have he : (GM.local' v (F L) s).2.2 = (F L (v, s.2)).2.2 := by
    unfold GM.local'
    rcases F L (v, s.2) with ⟨_ | _, _, _⟩ <;> rfl
  refine ⟨h1.trans he.ge, fun L' h => ?_⟩
  have h3 := h2 L' ⟨h.1, fun k k1 k2 => h.2 k k1 (k2.trans_le he.ge)⟩
  show GM.local' v (F L') s = GM.local' v (F L) s
  unfold GM.local'
  rw [h3]

theorem Loc.ite {F G : ILuck → GM σ α} (c : Prop) [Decidable c] (hF : Loc F) (hG : Loc G) : Loc fun L => if c then F L else G L := by
  by_cases h : c
  · simpa only [if_pos h] using hF
  · simpa only [if_neg h] using hG

theorem loc_insert (b : OBuf) (c : Char) : Loc fun L => insertA L b c := by
  unfold insertA
  exact Loc.ite _ (Loc.pure _) (Loc.askSoft.bind fun _ => Loc.pure _)

theorem loc_inserts (cs : List Char) : ∀ b, Loc fun L => insertsA L b cs := by
  induction cs with
  | nil => exact fun b => Loc.pure b
  | cons c cs ih => exact fun b => (loc_insert b c).bind fun b => ih b

theorem loc_parseInt (ss : OBuf) (k : Nat) : Loc fun L => parseIntA L ss k := by
  unfold parseIntA
  exact Loc.ask.bind fun _ => (loc_inserts _ _).bind fun _ => Loc.askSoft.bind fun _ =>
    Loc.ite _ (Loc.ask.bind fun _ => Loc.free _) (Loc.pure _)

theorem loc_takeDigits (f : Nat) : ∀ s b, Loc fun L => takeDigitsA L f s b := by
  induction f with
  | zero => exact fun s b => Loc.pure _
  | succ f ih =>
    intro s b
    unfold takeDigitsA
    exact Loc.ite _ ((loc_inserts _ _).bind fun b => ih _ b) (Loc.pure _)

theorem loc_pushFront (v : Int) : Loc fun L => pushFrontA L v := by
  unfold pushFrontA
  exact Loc.ask.bind fun _ => Loc.this.bind fun _ => Loc.put _

theorem loc_setValue : Loc fun L => setValueT L 0 := by
  intro L s
  exact (Loc.ask.bind fun _ => Loc.put (⟨[0], false⟩ : BigInt)) L ({ s.1 with bins := [] }, s.2)

theorem loc_readBins (n : Nat) : ∀ ss, Loc fun L => readBinsA L n ss := by
  induction n with
  | zero => exact fun ss => Loc.pure ()
  | succ n ih => exact fun ss => (loc_parseInt ss BIN_WIDTH).other.bind fun p => (loc_pushFront p.1).onObj.bind fun _ => ih p.2

theorem loc_readBody (sign : Bool) (s : IStream) : Loc fun L => readBodyA L sign s := by
  unfold readBodyA
  refine (Loc.put _).bind fun _ => Loc.ask.bind fun _ => (loc_takeDigits _ _ _).other.bind fun p => ?_
  refine (Loc.put _).bind fun _ => Loc.ask.bind fun _ => ?_
  refine Loc.ite _ ((Loc.put _).bind fun _ => loc_setValue.onObj) (Loc.ite _ ?_ (loc_readBins _ _))
  exact (loc_parseInt _ _).other.bind fun p => (loc_pushFront p.1).onObj.bind fun _ => loc_readBins _ p.2

theorem loc_read : Loc readA := by
  show Loc fun L => readA L
  unfold readA
  refine Loc.this.bind fun p => ?_
  obtain ⟨s, a⟩ := p
  dsimp only
  generalize s.sentry = w
  obtain ⟨ok, u⟩ := w
  dsimp only
  refine Loc.ite _ (Loc.put _) ?_
  rcases readSign u with ⟨_ | sign, t⟩
  · exact Loc.put _
  · exact loc_readBody sign t

theorem loc_ofString (t : List Char) : Loc fun L => ofStringA L t := by
  unfold ofStringA
  refine Loc.ask.bind fun _ => Loc.ask.bind fun _ => (loc_read.local' _).bind fun p => ?_
  exact Loc.ite _ ((loc_setValue.local' _).bind fun _ => Loc.ask.bind fun _ => Loc.free _) (Loc.pure _)

/-- `L` with all requests granted but those from `a` to `b`. -/
def within (L : ILuck) (a b : Nat) : ILuck := { L with refuse := fun k => decide (a ≤ k) && decide (k < b) && L.refuse k }

theorem agree_within (L : ILuck) (a b : Nat) : Agree L (within L a b) a b := by
  refine ⟨rfl, fun k h1 h2 => ?_⟩
  simp [within, h1, h2]

theorem within_refuses {L : ILuck} {a b : Nat} (h : (within L a b).Refuses) : L.RefusesIn a b := by
  obtain ⟨k, h⟩ := h
  simp only [within, Bool.and_eq_true, decide_eq_true_eq] at h
  exact ⟨k, h.1.1, h.1.2, h.2⟩

theorem within_refuse {L : ILuck} {a b k : Nat} (h : (within L a b).refuse k = true) : k < b ∧ L.refuse k = true := by
  simp only [within, Bool.and_eq_true, decide_eq_true_eq] at h
  exact ⟨h.1.2, h.2⟩

/-- See `C143_stream_partial`. -/
theorem readA_weak (L : ILuck) (s : IStream) (x : BigInt) (n : Nat) : match readA L ((s, x), n) with
    | (.ok _, ((s', x'), _)) => ∃ y, read s x = .ok (s', y) ∧ (x' = y ∨ (L.refuse (n + 1) = true ∧ x' = ⟨[0], false⟩))
    | (.error e, _) => L.Refuses ∧ (e = .badAlloc ∨ e = .invalidArgument) := by
  have h := readA_ok (L := L) s x n
  rcases hm : readA L ((s, x), n) with ⟨_ | _, ⟨_, _⟩, _⟩ <;> rw [hm] at h
  · exact h.1
  · obtain ⟨y, h1, h2⟩ := h
    exact ⟨y, h1, h2.imp_right fun h => h.2⟩

/-- See `C143_string_partial`. -/
theorem ofStringA_weak (L : ILuck) (t : List Char) (n : Nat) : match (ofStringA L t ((), n)).1 with
    | .ok x => ∃ y, ofString t = .ok y ∧ (x = y ∨ (L.refuse (n + 3) = true ∧ x = ⟨[0], false⟩))
    | .error e => ofString t = .error e ∨ (L.Refuses ∧ (e = .badAlloc ∨ e = .invalidArgument)) := by
  unfold ofStringA
  by_cases hr : L.refuse n = true
  · rw [GM.bind_error (GM.ask_no (s := ((), n)) hr)]
    exact .inr ⟨⟨n, hr⟩, .inl rfl⟩
  rw [GM.bind_ok (GM.ask_yes (s := ((), n)) hr)]
  by_cases hr : L.refuse (n + 1) = true
  · rw [GM.bind_error (GM.ask_no (s := ((), n + 1)) hr)]
    exact .inr ⟨⟨n + 1, hr⟩, .inl rfl⟩
  rw [GM.bind_ok (GM.ask_yes (s := ((), n + 1)) hr)]
  have h := readA_weak L (IStream.ofString t) ⟨[], false⟩ (n + 2)
  dsimp only
  rcases hm : readA L ((IStream.ofString t, ⟨[], false⟩), n + 2) with ⟨o, ⟨s', x'⟩, m⟩
  rw [hm] at h
  cases o with
  | error e =>
    have hl : (GM.local' (IStream.ofString t, (⟨[], false⟩ : BigInt)) (readA L) : AM _) ((), n + 2) = (.error e, ((), m)) := by
      unfold GM.local'
      dsimp only
      rw [hm]
    rw [GM.bind_error hl]
    exact .inr h
  | ok u =>
    have hl : (GM.local' (IStream.ofString t, (⟨[], false⟩ : BigInt)) (readA L) : AM _) ((), n + 2) = (.ok (s', x'), ((), m)) := by
      unfold GM.local'
      dsimp only
      rw [hm]
    rw [GM.bind_ok hl]
    obtain ⟨y, h1, h2⟩ := h
    have h3 : ofString t = if s'.failed || !s'.eof then .error .invalidArgument else .ok y := by
      unfold ofString
      rw [h1]
      rfl
    dsimp only
    by_cases hc : (s'.failed || !s'.eof) = true
    · rw [if_pos hc] at h3 ⊢
      have hs := (SimA.localEnd (sim_setValue (L := L) x' 0)).weak m
      rcases hv : (GM.local' x' (setValueT L 0) : AM _) ((), m) with ⟨o, ⟨⟨⟩, m'⟩⟩
      rw [hv] at hs
      cases o with
      | error e =>
        rw [GM.bind_error hv]
        rcases hs with hs | ⟨hs, hk⟩
        · cases hs
        · cases hs
          exact .inr ⟨hk, .inl rfl⟩
      | ok v =>
        rw [GM.bind_ok hv]
        by_cases hr : L.refuse m' = true
        · rw [GM.bind_error (GM.ask_no (s := ((), m')) hr)]
          exact .inr ⟨⟨m', hr⟩, .inl rfl⟩
        · rw [GM.bind_ok (GM.ask_yes (s := ((), m')) hr)]
          exact .inl h3
    · rw [if_neg hc] at h3 ⊢
      exact ⟨y, h3, h2⟩

end BigInt
end CppMaths
