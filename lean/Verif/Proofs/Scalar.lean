import Verif.Spec.Linear
import Verif.Proofs.FracOps
import Verif.Proofs.IntMore
/-!
# Reasoning about outcomes and counting loops; the scalar types at hand are exact
-/

namespace CppMaths
variable {α β σ : Type} {A : Err → Prop}

theorem Out.ok {P : α → Prop} {a : α} (h : P a) : Out A (.ok a) P := Or.inl ⟨a, rfl, h⟩

theorem Out.err {P : α → Prop} {e : Err} (h : A e) : Out A (.error e) P := Or.inr ⟨e, rfl, h⟩

theorem Out.bind {P : α → Prop} {Q : β → Prop} {r : Res α} {f : α → Res β} (h : Out A r P)
    (hf : ∀ a, P a → Out A (f a) Q) : Out A (r >>= f) Q := by
  obtain ⟨a, rfl, ha⟩ | ⟨e, rfl, he⟩ := h
  · exact hf a ha
  · exact Out.err he

theorem Out.mono {P Q : α → Prop} {r : Res α} (h : Out A r P) (hPQ : ∀ a, P a → Q a) : Out A r Q := by
  obtain ⟨a, rfl, ha⟩ | ⟨e, rfl, he⟩ := h
  · exact Out.ok (hPQ a ha)
  · exact Out.err he

theorem Out.never {P : α → Prop} {r : Res α} (h : Out Never r P) : ∃ a, r = .ok a ∧ P a := by
  obtain h | ⟨e, _, he⟩ := h
  · exact h
  · exact he.elim

theorem Out.ne_error {P : α → Prop} {r : Res α} {e : Err} (h : Out A r P) (he : ¬A e) : r ≠ .error e := by
  rintro rfl
  rcases h with ⟨a, h, _⟩ | ⟨e', h, h'⟩
  · cases h
  · cases h; exact he h'

theorem out_ok_iff {P : α → Prop} {a : α} : Out A (.ok a) P ↔ P a := by
  constructor
  · rintro (⟨b, hb, h⟩ | ⟨e, he, _⟩)
    · cases hb; exact h
    · cases he
  · exact Out.ok

theorem out_err_iff {P : α → Prop} {e : Err} : Out A (.error e : Res α) P ↔ A e := by
  constructor
  · rintro (⟨b, hb, h⟩ | ⟨e, he, h⟩)
    · cases hb
    · cases he; exact h
  · exact Out.err

/-- The rule for counting loops. -/
theorem forUp_ok {Inv : Nat → σ → Prop} {lo n : Nat} {body : Nat → σ → Res σ} {s : σ} (h0 : Inv lo s)
    (hstep : ∀ i s, lo ≤ i → i < lo + n → Inv i s → Out A (body i s) (Inv (i + 1))) :
    Out A (forUp lo n body s) (Inv (lo + n)) := by
  induction n generalizing lo s with
  | zero => exact Out.ok h0
  | succ n ih =>
    refine Out.bind (hstep lo s le_rfl (by omega) h0) fun s' hs' => ?_
    have := ih hs' (fun i s h1 h2 h3 => hstep i s (by omega) (by omega) h3)
    rwa [show lo + 1 + n = lo + (n + 1) by omega] at this

theorem drop_forUp {body : Nat → σ → Res σ} (n : Nat) : ∀ (lo : Nat) (s : σ),
    Frac.drop (forUp lo n (fun i s => Frac.at' s (body i s)) s) = forUp lo n body s := by
  induction n with
  | zero => intro lo s; rfl
  | succ n ih =>
    intro lo s
    unfold forUp
    dsimp only
    cases h : body lo s with
    | ok s' => exact ih (lo + 1) s'
    | error e => rfl

end CppMaths
