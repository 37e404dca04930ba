import Verif.Proofs.FracMem
import Verif.Spec.FracBuilt
/-!
# Lowest terms in all reachable objects; outcomes in terms of `Yields`
-/

namespace CppMaths
open BigInt Frac

/-! ### From `Red` and `MRed` to `Yields` -/

theorem Frac.Red.yields {r : Res Frac} {t b : Int} {q : ℚ} (h : Red r t b) (hb : b ≠ 0) (hq : (t : ℚ) / b = q) :
    Yields r q t b := by
  subst hq
  exact ⟨h.2.1 hb, h.2.2 hb⟩

theorem Frac.MRed.yields {r : MRes Frac Frac} {t b : Int} {q : ℚ} (h : MRed r t b) (hq : (t : ℚ) / b = q) :
    Yields (drop r) q t b := by
  subst hq
  constructor
  · intro ha
    obtain ⟨f, f1, f2, f3⟩ := h.1 ha
    exact ⟨f, by rw [f1]; rfl, f2, f3⟩
  · intro ha
    obtain ⟨s, s1⟩ := h.2 ha
    rw [s1]; rfl

/-- Two computations of the same number by way of the same unreduced parts have the same outcome. -/
theorem Yields.unique {r s : Res Frac} {q : ℚ} {t b : Int} (h : Yields r q t b) (h' : Yields s q t b) : r = s := by
  by_cases ha : ReduceAborts t b
  · rw [h.2 ha, h'.2 ha]
  · obtain ⟨f, f1, f2, f3⟩ := h.1 ha
    obtain ⟨g, g1, g2, g3⟩ := h'.1 ha
    rw [f1, g1, f2.eq_of_value_eq g2 (by rw [f3, g3])]

theorem Yields.valid {r : Res Frac} {q : ℚ} {t b : Int} {f : Frac} (h : Yields r q t b) (hf : r = .ok f) :
    f.Valid ∧ f.value = q := by
  by_cases ha : ReduceAborts t b
  · rw [h.2 ha] at hf; cases hf
  · obtain ⟨g, g1, g2, g3⟩ := h.1 ha
    rw [g1] at hf; cases hf
    exact ⟨g2, g3⟩

theorem Frac.Red.valid {r : Res Frac} {t b : Int} {f : Frac} (h : Red r t b) (hf : r = .ok f) : f.Valid := by
  by_cases hb : b = 0
  · rw [h.1 hb] at hf; cases hf
  · exact (Yields.valid (h.yields hb rfl) hf).1

theorem Frac.MRed.valid {r : MRes Frac Frac} {t b : Int} {f : Frac} (h : MRed r t b) (hf : r = .ok f) : f.Valid :=
  (Yields.valid (h.yields rfl) (by rw [hf]; rfl)).1

/-! ### Exponents -/

/-- Whatever the exponent, the result of `exponentiate` (if there is one) is a canonical power of the base. -/
theorem exponentiateF_canon {x : BigInt} (hx : Canon x) (f : Nat) : ∀ {y r : BigInt}, exponentiateF f x y = .ok r →
    Canon r ∧ ∃ k : Nat, r.val = x.val ^ k := by
  induction f with
  | zero => intro y r h; cases h
  | succ f ih =>
    intro y r h
    simp only [exponentiateF] at h
    cases h0 : y.equalsInt32 0 with
    | error e => simp [h0] at h
    | ok z0 =>
      cases z0
      case true =>
        simp only [h0, bind_ok, if_true, setValue_one, Except.ok.injEq] at h
        subst h
        exact ⟨canon_one, 0, by simp [val_one]⟩
      case false =>
        cases h1 : y.equalsInt32 1 with
        | error e => simp [h0, h1] at h
        | ok z1 =>
          cases z1
          case true =>
            simp [h0, h1] at h
            subst h
            exact ⟨hx, 1, by simp⟩
          case false =>
            cases h2 : y.isOdd with
            | error e => simp [h0, h1, h2] at h
            | ok z2 =>
              cases z2
              case true =>
                cases h3 : BigInt.opSub y ⟨[1], false⟩ with
                | error e => simp [h0, h1, h2, ofInt64_one, h3] at h
                | ok y1 =>
                  cases h4 : exponentiateF f x y1 with
                  | error e => simp [h0, h1, h2, ofInt64_one, h3, h4] at h
                  | ok a =>
                    simp [h0, h1, h2, ofInt64_one, h3, h4] at h
                    obtain ⟨k1, k, k2⟩ := ih h4
                    obtain ⟨s, s1, s2, s3⟩ := opMul_ok hx.clean k1.clean
                    rw [s1] at h; cases h
                    exact ⟨s2, k + 1, by rw [s3, k2]; ring⟩
              case false =>
                cases h3 : divideByInt y 2 BigInt.default with
                | error e => simp [h0, h1, h2, h3] at h
                | ok y1 =>
                  cases h4 : exponentiateF f x y1 with
                  | error e => simp [h0, h1, h2, h3, h4] at h
                  | ok a =>
                    simp [h0, h1, h2, h3, h4] at h
                    obtain ⟨k1, k, k2⟩ := ih h4
                    obtain ⟨s, s1, s2, s3⟩ := opMul_ok k1.clean k1.clean
                    rw [s1] at h; cases h
                    exact ⟨s2, k + k, by rw [s3, k2]; ring⟩

theorem exponentiate_canon {x y r : BigInt} (hx : Canon x) (h : exponentiate x y = .ok r) :
    Canon r ∧ ∃ k : Nat, r.val = x.val ^ k := exponentiateF_canon hx _ h

theorem drop_eq_ok {r : MRes Frac Frac} {f : Frac} (h : drop r = .ok f) : r = .ok f := by
  cases r with
  | ok a => cases h; rfl
  | error e => cases h

theorem opPow_valid {x f : Frac} {a : BigInt} (hx : x.Valid) (h : Frac.opPow x a = .ok f) : f.Valid := by
  have key : ∀ {n t b : BigInt}, BigInt.opPow x.tt n = .ok t → BigInt.opPow x.bb n = .ok b → Canon t ∧ Canon b :=
    fun h1 h2 => ⟨(exponentiate_canon hx.1 h1).1, (exponentiate_canon hx.2.1 h2).1⟩
  unfold Frac.opPow at h
  split at h
  · cases h0 : a.neg with
    | error e => simp [h0] at h
    | ok na =>
      cases h1 : BigInt.opPow x.bb na with
      | error e => simp [h0, h1] at h
      | ok t =>
        cases h2 : BigInt.opPow x.tt na with
        | error e => simp [h0, h1, h2] at h
        | ok b =>
          simp only [h0, h1, h2, bind_ok] at h
          exact (red_mk' (key h2 h1).2 (key h2 h1).1).valid h
  · cases h1 : BigInt.opPow x.tt a with
    | error e => simp [h1] at h
    | ok t =>
      cases h2 : BigInt.opPow x.bb a with
      | error e => simp [h1, h2] at h
      | ok b =>
        simp only [h1, h2, bind_ok] at h
        exact (red_mk' (key h1 h2).1 (key h1 h2).2).valid h

theorem powAssign_valid {x f : Frac} {a : BigInt} (hx : x.Valid) (h : Frac.powAssign x a = .ok f) : f.Valid := by
  have key : ∀ {n t b : BigInt}, BigInt.powAssign x.bb n = .ok b → BigInt.powAssign x.tt n = .ok t →
      normalize ⟨t, b⟩ = .ok f → f.Valid := by
    intro n t b h1 h2 h3
    obtain ⟨b1, k, b2⟩ := exponentiate_canon hx.2.1 h1
    obtain ⟨t1, _⟩ := exponentiate_canon hx.1 h2
    exact (mred_normalize (.inl t1) b1 (by rw [b2]; exact pow_ne_zero _ hx.bb_ne)).valid h3
  unfold Frac.powAssign at h
  split at h
  · cases h0 : a.neg with
    | error e => simp [h0] at h
    | ok na =>
      cases h1 : BigInt.powAssign x.bb na with
      | error e => simp [h0, h1] at h
      | ok b =>
        cases h2 : BigInt.powAssign x.tt na with
        | error e => simp [h0, h1, h2] at h
        | ok t =>
          simp only [h0, h1, h2, at'_ok, mbind_ok] at h
          exact key h1 h2 h
  · cases h1 : BigInt.powAssign x.bb a with
    | error e => simp [h1] at h
    | ok b =>
      cases h2 : BigInt.powAssign x.tt a with
      | error e => simp [h1, h2] at h
      | ok t =>
        simp only [h1, h2, at'_ok, mbind_ok] at h
        exact key h1 h2 h

/-! ### Reading from any stream -/

theorem int_read_canon {s s' : IStream} {x y : BigInt} (hx : Canon x) (h : BigInt.read s x = .ok (s', y)) : Canon y := by
  cases hg : s.good
  · have : BigInt.read s x = .ok (s.setFail, x) := by simp [BigInt.read, IStream.sentry, hg]
    rw [this] at h; cases h; exact hx
  · rw [IStream_eq_goodAt hg] at h
    by_cases hex : ∃ pre rest z, s.rest = pre ++ rest ∧ IntText pre z
    · obtain ⟨pre, rest, z, h1, h2⟩ := hex
      obtain ⟨pre, rest, z, h1, h2, h3⟩ := exists_longest h2 h1
      obtain ⟨r, r1, r2, r3⟩ := read_ok x (p := s.past) h2 h3
      rw [h1, r1] at h; cases h; exact r2
    · obtain ⟨e, e1, _⟩ := read_fail x (p := s.past) (r := s.rest) (fun pre rest z h1 h2 => hex ⟨pre, rest, z, h1, h2⟩)
      rw [e1] at h; cases h; exact hx

theorem readParts_canon {s s' : IStream} {f g : Frac} {parens ok : Bool} (ht : Canon f.tt) (hb : Canon f.bb)
    (h : readParts s f parens = .ok (s', g, ok)) : Canon g.tt ∧ Canon g.bb := by
  unfold readParts at h
  cases h1 : BigInt.read s f.tt with
  | error e => simp [h1] at h
  | ok p =>
    obtain ⟨s1, t⟩ := p
    have kt := int_read_canon ht h1
    simp only [h1, bind_ok] at h
    split at h
    · split at h
      · cases h2 : BigInt.read s1.peek.2.get.2 f.bb with
        | error e => simp [h2] at h
        | ok q =>
          obtain ⟨s2, b⟩ := q
          have kb := int_read_canon hb h2
          simp only [h2, bind_ok] at h
          split at h <;> (cases h; exact ⟨kt, kb⟩)
      · simp only [setValue_one, bind_ok] at h
        cases h; exact ⟨kt, canon_one⟩
    · cases h; exact ⟨kt, hb⟩

theorem readRaw_canon {s s' : IStream} {f g : Frac} (ht : Canon f.tt) (hb : Canon f.bb)
    (h : readRaw s f = .ok (s', g)) : Canon g.tt ∧ Canon g.bb := by
  unfold readRaw at h
  simp only at h
  split at h
  all_goals
    revert h
    generalize hq : readParts _ f _ = q
    intro h
    cases q with
    | error e => simp at h
    | ok q =>
      obtain ⟨s1, g1, ok⟩ := q
      simp only [bind_ok, pure_ok, Except.ok.injEq, Prod.mk.injEq] at h
      rw [← h.2]
      exact readParts_canon ht hb hq

/-- Extraction from a stream in any state and with any contents: if it returns, the object is in lowest terms or has
denominator zero. -/
theorem read_valid {s s' : IStream} {f g : Frac} (hf : f.Valid) (h : Frac.read s f = .ok (s', g)) :
    g.Valid ∨ g.bb.val = 0 := by
  unfold Frac.read at h
  simp only at h
  split at h
  · cases h; exact .inl hf
  · cases hr : readRaw s.sentry.2 f with
    | error e => simp [hr] at h
    | ok q =>
      obtain ⟨s1, g1⟩ := q
      obtain ⟨k1, k2⟩ := readRaw_canon hf.1 hf.2.1 hr
      simp only [hr] at h
      cases hn : normalize g1 with
      | error e => simp [hn] at h
      | ok g2 =>
        simp only [hn, Except.ok.injEq, Prod.mk.injEq] at h
        obtain ⟨_, rfl⟩ := h
        by_cases hb : g1.bb.val = 0
        · right
          have hs : g1.bb.negative = false := by
            cases hh : g1.bb.negative
            · rfl
            · have := k2.neg_iff.mp hh; omega
          by_cases ht : g1.tt.val = 0
          · have := normalize_zero_zero k1.1 ht k2.1 hb hs
            rw [show (⟨g1.tt, g1.bb⟩ : Frac) = g1 from rfl, hn] at this
            cases this
          · rcases normalize_zero_den k1 ht k2.1 hb hs with ⟨f, f1, _, _, _, f5⟩ | ⟨x, x1⟩
            · rw [show (⟨g1.tt, g1.bb⟩ : Frac) = g1 from rfl, hn] at f1
              cases f1; exact f5
            · rw [show (⟨g1.tt, g1.bb⟩ : Frac) = g1 from rfl, hn] at x1
              cases x1
        · left
          exact (mred_normalize (t := g1.tt) (b := g1.bb) (.inl k1) k2 hb).valid hn

theorem ofInt_valid {a : BigInt} (ha : Canon a) : Frac.Valid ⟨a, ⟨[1], false⟩⟩ :=
  ⟨ha, canon_one, by rw [val_one]; norm_num, by rw [val_one]; simp⟩

theorem ofInt_value (a : BigInt) : Frac.value ⟨a, ⟨[1], false⟩⟩ = a.val := by
  simp [value, val_one]

theorem Built.valid {f : Frac} (h : Built f) : f.Valid := by
  induction h with
  | default h => rw [default_eq] at h; cases h; exact default_valid
  | @ofI32 n f h1 h2 h =>
    obtain ⟨t, t1, t2, _⟩ := ofInt64_ok (x := n) 0 (by omega) (by omega)
    simp only [Frac.ofI32, t1, ofInt64_one, bind_ok, pure_ok, Except.ok.injEq] at h
    subst h; exact ofInt_valid t2
  | ofInt ha h =>
    simp only [Frac.ofInt, ofInt64_one, bind_ok, pure_ok, Except.ok.injEq] at h
    subst h; exact ofInt_valid ha
  | mk ha hb h => exact (red_mk' ha hb).valid h
  | @str s f h =>
    by_cases hs : s = []
    · subst hs; rw [ofString_nil] at h; cases h; exact default_valid
    · by_cases hr : ∃ t b, RatioText s t b
      · obtain ⟨t, b, hr⟩ := hr
        obtain ⟨k1, k2, k3⟩ := ofString_ratio hr hs
        by_cases hb : b = 0
        · rw [k1 hb] at h; cases h
        · by_cases ha : ReduceAborts t b
          · rw [k3 hb ha] at h; cases h
          · obtain ⟨g, g1, g2, _⟩ := k2 hb ha
            rw [g1] at h; cases h; exact g2
      · rw [ofString_not_ratio (fun t b hz => hr ⟨t, b, hz⟩)] at h; cases h
  | recip _ h ih => exact (reciprocal_red ih).valid h
  | bin _ _ h ih1 ih2 => exact (FOp.run_red _ ih1 ih2).valid h
  | binInt _ ha h ih => exact (FOp.runInt_red _ ih ha).valid h
  | intBin _ ha h ih => exact (FOp.intRun_red _ ih ha).valid h
  | pow _ _ h ih => exact opPow_valid ih h
  | addAssign _ _ h ih1 ih2 => exact (addAssign_red ih1 ih2).valid h
  | subAssign _ _ h ih1 ih2 => exact (subAssign_red ih1 ih2).valid h
  | mulAssign _ _ h ih1 ih2 => exact (mulAssign_red ih1 ih2).valid h
  | divAssign _ _ h0 h ih1 ih2 => exact (divAssign_red ih1 ih2 (fun hz => h0 (ih2.tt_zero.mp hz))).valid h
  | @asgInt op x a f _ ha h0 h ih =>
    cases op with
    | add => exact (addAssignInt_red ih ha).valid h
    | sub => exact (subAssignInt_red ih ha).valid h
    | mul => exact (mulAssignInt_red ih ha).valid h
    | div => exact (divAssignInt_red ih ha (h0 rfl)).valid h
  | powAssign _ _ h ih => exact powAssign_valid ih h
  | read _ h h0 ih =>
    rcases read_valid ih h with hv | hv
    · exact hv
    · exact absurd hv h0
  | fromDouble h1 h2 h3 h4 h => exact (fromDouble_red h1 h2 h3 h4).valid h

end CppMaths
