import Verif.Proofs.FracOps
import Verif.Proofs.IntText
import Verif.Spec.FracProg
import Mathlib.Data.List.TakeWhile
/-!
# Text input and output of `Frac`
-/

namespace CppMaths
open BigInt

theorem intText_no_slash {p : List Char} {z : Int} (h : IntText p z) : ∀ c ∈ p, c ≠ '/' := by
  have dig : ∀ ds : List Char, AllDigits ds → ∀ c ∈ ds, c ≠ '/' := by
    rintro ds hd c hc rfl
    have := hd.2 _ hc
    revert this; decide
  obtain ⟨ds, hd, ⟨rfl, _⟩ | ⟨rfl, _⟩⟩ := h
  · exact dig _ hd
  · intro c hc
    rcases List.mem_cons.mp hc with rfl | hc
    · decide
    · exact dig _ hd c hc

theorem intText_no_dot {p : List Char} {z : Int} (h : IntText p z) : ∀ c ∈ p, c ≠ '.' := by
  have dig : ∀ ds : List Char, AllDigits ds → ∀ c ∈ ds, c ≠ '.' := by
    rintro ds hd c hc rfl
    have := hd.2 _ hc
    revert this; decide
  obtain ⟨ds, hd, ⟨rfl, _⟩ | ⟨rfl, _⟩⟩ := h
  · exact dig _ hd
  · intro c hc
    rcases List.mem_cons.mp hc with rfl | hc
    · decide
    · exact dig _ hd c hc

theorem intText_ne_nil {p : List Char} {z : Int} (h : IntText p z) : p ≠ [] := by
  obtain ⟨ds, hd, ⟨rfl, _⟩ | ⟨rfl, _⟩⟩ := h
  · exact hd.1
  · simp

/-- An integer numeral denotes one number. -/
theorem intText_unique {p : List Char} {y z : Int} (h : IntText p y) (h' : IntText p z) : y = z := by
  obtain ⟨r, r1, _, r3⟩ := ofString_ok h
  obtain ⟨s, s1, _, s3⟩ := ofString_ok h'
  rw [r1, Except.ok.injEq] at s1
  rw [← r3, ← s3, s1]

theorem split_at {c : Char} {p q : List Char} (h : ∀ x ∈ p, x ≠ c) :
    (p ++ c :: q).takeWhile (· != c) = p ∧ (p ++ c :: q).dropWhile (· != c) = c :: q := by
  constructor
  · rw [List.takeWhile_append_of_pos (by simpa using h)]; simp
  · rw [List.dropWhile_append_of_pos (by simpa using h)]; simp

theorem split_none {c : Char} {p : List Char} (h : ∀ x ∈ p, x ≠ c) : p.dropWhile (· != c) = [] := by
  rw [List.dropWhile_eq_nil_iff]; simpa using h

/-- Every string either lacks the character or splits at its first occurrence. -/
theorem split_cases (c : Char) (s : List Char) :
    (∀ x ∈ s, x ≠ c) ∨ ∃ p q, s = p ++ c :: q ∧ ∀ x ∈ p, x ≠ c := by
  by_cases h : c ∈ s
  · right
    have hne : s.dropWhile (· != c) ≠ [] := by
      rw [ne_eq, List.dropWhile_eq_nil_iff]
      intro hall
      simpa using hall c h
    obtain ⟨d, q, hq⟩ := List.exists_cons_of_ne_nil hne
    have hd : d = c := by
      have := List.head_dropWhile_not (p := (· != c)) (l := s) hne
      simpa [hq] using this
    refine ⟨s.takeWhile (· != c), q, ?_, fun x hx => by simpa using mem_takeWhile_imp hx⟩
    rw [← hd, ← hq, hd]
    exact (List.takeWhile_append_dropWhile).symm
  · exact .inl fun x hx hxc => h (hxc ▸ hx)

namespace Frac

theorem ofInt64_one : ofInt64 1 = .ok ⟨[1], false⟩ := rfl
theorem canon_one : Canon ⟨[1], false⟩ := by decide
theorem val_one : BigInt.val ⟨[1], false⟩ = 1 := rfl

theorem default_eq : Frac.default = .ok ⟨⟨[0], false⟩, ⟨[1], false⟩⟩ := rfl
theorem default_valid : Valid ⟨⟨[0], false⟩, ⟨[1], false⟩⟩ := by decide

/-- Once numerator and denominator have been parsed. -/
theorem ofString_tail {t b : BigInt} (ht : Canon t) (hb : Canon b) :
    let r : Res Frac := do
      let z ← b.equalsInt32 0
      if z then .error .invalidArgument
      else drop (normalize ⟨t, b⟩)
    (b.val = 0 → r = .error .invalidArgument) ∧
    (b.val ≠ 0 → ¬ReduceAborts t.val b.val → ∃ f, r = .ok f ∧ f.Valid ∧ f.value = (t.val : ℚ) / b.val) ∧
    (b.val ≠ 0 → ReduceAborts t.val b.val → r = .error .assertion) := by
  dsimp only
  rw [equalsInt32_zero hb.1, bind_ok]
  refine ⟨fun h => ?_, fun h hr => ?_, fun h hr => ?_⟩
  · rw [if_pos (by simpa [val_eq_zero_iff] using h)]
  · rw [if_neg (by simpa [val_eq_zero_iff] using h)]
    obtain ⟨f, f1, f2⟩ := (normalize_spec (.inl ht) hb h).1 hr
    exact ⟨f, by rw [f1, drop_ok], f2⟩
  · rw [if_neg (by simpa [val_eq_zero_iff] using h)]
    obtain ⟨s, s1⟩ := (normalize_spec (.inl ht) hb h).2 hr
    rw [s1, drop_err]

theorem ofString_ratio {s : List Char} {t b : Int} (h : RatioText s t b) (hs : s ≠ []) :
    (b = 0 → Frac.ofString s = .error .invalidArgument) ∧
    (b ≠ 0 → ¬ReduceAborts t b → ∃ f, Frac.ofString s = .ok f ∧ f.Valid ∧ f.value = (t : ℚ) / b) ∧
    (b ≠ 0 → ReduceAborts t b → Frac.ofString s = .error .assertion) := by
  have hl : (s.length == 0) = false := by simpa using hs
  unfold Frac.ofString
  rw [hl]
  simp only [Bool.false_eq_true, if_false]
  rcases h with ⟨h, _⟩ | ⟨h, rfl⟩ | ⟨p, q, rfl, hp, hq⟩
  · exact absurd h hs
  · obtain ⟨r, r1, r2, r3⟩ := ofString_ok h
    rw [split_none (intText_no_slash h)]
    simp only [r1, bind_ok, ofInt64_one, pure_ok]
    have := ofString_tail r2 canon_one
    rw [r3, val_one] at this
    exact_mod_cast this
  · obtain ⟨r, r1, r2, r3⟩ := ofString_ok hp
    obtain ⟨r', r1', r2', r3'⟩ := ofString_ok hq
    obtain ⟨e1, e2⟩ := split_at (q := q) (intText_no_slash hp)
    rw [e1, e2]
    simp only [r1, r1', bind_ok, pure_ok]
    have := ofString_tail r2 r2'
    rw [r3, r3'] at this
    exact this

theorem ofString_not_ratio {s : List Char} (h : ∀ t b, ¬RatioText s t b) : Frac.ofString s = .error .invalidArgument := by
  have hs : s ≠ [] := fun hs => h 0 1 (.inl ⟨hs, rfl, rfl⟩)
  have hl : (s.length == 0) = false := by simpa using hs
  unfold Frac.ofString
  rw [hl]
  simp only [Bool.false_eq_true, if_false]
  rcases split_cases '/' s with hn | ⟨p, q, rfl, hp⟩
  · rw [split_none hn]
    rw [BigInt.ofString_fail (fun z hz => h z 1 (.inr (.inl ⟨hz, rfl⟩)))]
    rfl
  · obtain ⟨e1, e2⟩ := split_at (q := q) hp
    rw [e1, e2]
    by_cases h1 : ∃ z, IntText p z
    · obtain ⟨z, hz⟩ := h1
      obtain ⟨r, r1, _⟩ := ofString_ok hz
      simp only [r1, bind_ok]
      rw [BigInt.ofString_fail (fun y hy => h z y (.inr (.inr ⟨p, q, rfl, hz, hy⟩)))]
      rfl
    · push Not at h1
      simp only [BigInt.ofString_fail h1]
      rfl

theorem ofString_nil : Frac.ofString [] = .ok ⟨⟨[0], false⟩, ⟨[1], false⟩⟩ := rfl

/-! ### Stream extraction -/

/-- `normalize` does not change a fraction in lowest terms. -/
theorem normalize_valid {f : Frac} (h : f.Valid) :
    normalize f = .ok f ∨ (ReduceAborts f.tt.val f.bb.val ∧ ∃ s, normalize f = .error (.assertion, s)) := by
  obtain ⟨n1, n2⟩ := normalize_spec (.inl h.1) h.2.1 h.bb_ne
  by_cases hr : ReduceAborts f.tt.val f.bb.val
  · exact .inr ⟨hr, n2 hr⟩
  · obtain ⟨g, g1, g2, g3⟩ := n1 hr
    left
    have : g = f := g2.eq_of_value_eq h g3
    rw [← this]
    rw [this]
    rw [← this, ← g1, this]

theorem readParts_frac {t b : Int} {p ps qs rest : List Char} (f : Frac) (parens : Bool) (hp : IntText ps t) (hq : IntText qs b)
    (hr : NoDigitAhead rest) :
    ∃ g : Frac, readParts (goodAt p (ps ++ '/' :: (qs ++ rest))) f parens =
      .ok (⟨qs.reverse ++ '/' :: (ps.reverse ++ p), rest, rest.isEmpty, false, false⟩, g, true) ∧ Canon g.tt ∧ Canon g.bb ∧
        g.tt.val = t ∧ g.bb.val = b := by
  obtain ⟨r, r1, r2, r3⟩ := read_ok f.tt (p := p) (rest := '/' :: (qs ++ rest)) hp
    (by intro c l hc; obtain ⟨rfl, _⟩ := List.cons.inj hc; decide)
  have e : (⟨ps.reverse ++ p, '/' :: (qs ++ rest), ('/' :: (qs ++ rest)).isEmpty, false, false⟩ : IStream) =
      goodAt (ps.reverse ++ p) ('/' :: (qs ++ rest)) := rfl
  obtain ⟨r', r1', r2', r3'⟩ := read_ok f.bb (p := '/' :: (ps.reverse ++ p)) (rest := rest) hq hr
  refine ⟨⟨r, r'⟩, ?_, r2, r2', r3, r3'⟩
  unfold readParts
  rw [r1]
  simp only [bind_ok, e]
  have hf : (goodAt (ps.reverse ++ p) ('/' :: (qs ++ rest))).failed = false := rfl
  rw [hf, peek_cons]
  simp only [Bool.not_false, if_true, beq_self_eq_true, get_cons, r1', bind_ok]
  rfl

theorem setValue_one' : setValue 1 = .ok ⟨[1], false⟩ := rfl

theorem readParts_int {t : Int} {p ps rest : List Char} (f : Frac) (parens : Bool) (hp : IntText ps t)
    (hr : NoDigitAhead rest) (hs : ∀ l, rest ≠ '/' :: l) :
    ∃ g : Frac, readParts (goodAt p (ps ++ rest)) f parens =
      .ok (⟨ps.reverse ++ p, rest, rest.isEmpty, rest.isEmpty, false⟩, g, true) ∧ Canon g.tt ∧ Canon g.bb ∧
        g.tt.val = t ∧ g.bb.val = 1 := by
  obtain ⟨r, r1, r2, r3⟩ := read_ok f.tt (p := p) (rest := rest) hp hr
  refine ⟨⟨r, ⟨[1], false⟩⟩, ?_, r2, canon_one, r3, rfl⟩
  unfold readParts
  rw [r1]
  simp only [bind_ok]
  cases rest with
  | nil => rfl
  | cons c cs =>
    have hc : c ≠ '/' := fun h => hs cs (by rw [h])
    have e : (⟨ps.reverse ++ p, c :: cs, (c :: cs).isEmpty, false, false⟩ : IStream) =
      goodAt (ps.reverse ++ p) (c :: cs) := rfl
    rw [e, peek_cons]
    have hc' : (some c == some '/') = false := by simpa using hc
    have hf : (goodAt (ps.reverse ++ p) (c :: cs)).failed = false := rfl
    simp only [hf, hc', Bool.not_false, if_true, Bool.false_eq_true, if_false, setValue_one', bind_ok]
    rfl

theorem readParts_body {t b : Int} {p pre rest : List Char} (f : Frac) (parens : Bool) (h : Body pre rest t b) :
    ∃ (g : Frac) (fl : Bool), readParts (goodAt p (pre ++ rest)) f parens =
      .ok (⟨pre.reverse ++ p, rest, rest.isEmpty, fl, false⟩, g, true) ∧ (fl = true → rest = []) ∧ Canon g.tt ∧ Canon g.bb ∧
        g.tt.val = t ∧ g.bb.val = b := by
  rcases h with ⟨h1, rfl, h2, h3⟩ | ⟨ps, qs, rfl, h1, h2, h3⟩
  · obtain ⟨g, g1, g2, g3, g4, g5⟩ := readParts_int (p := p) f parens h1 h2 h3
    exact ⟨g, rest.isEmpty, g1, by simp, g2, g3, g4, g5⟩
  · obtain ⟨g, g1, g2, g3, g4, g5⟩ := readParts_frac (p := p) f parens h1 h2 h3
    refine ⟨g, false, ?_, by simp, g2, g3, g4, g5⟩
    rw [List.append_assoc, List.cons_append, g1]
    simp

theorem body_head {t b : Int} {pre rest : List Char} (h : Body pre rest t b) : ∃ c l, pre = c :: l ∧ c ≠ '(' := by
  have key : ∀ {ps : List Char} {z : Int}, IntText ps z → ∃ c l, ps = c :: l ∧ c ≠ '(' := by
    rintro ps z ⟨ds, hd, ⟨rfl, _⟩ | ⟨rfl, _⟩⟩
    · obtain ⟨c, cs, h1, h2, _⟩ := allDigits_cons hd
      refine ⟨c, cs, h1, ?_⟩
      rintro rfl; revert h2; decide
    · exact ⟨'-', ds, rfl, by decide⟩
  rcases h with ⟨h, _⟩ | ⟨ps, qs, rfl, h1, _⟩
  · exact key h
  · obtain ⟨c, l, rfl, hc⟩ := key h1
    exact ⟨c, l ++ '/' :: qs, rfl, hc⟩

/-- Reading a ratio without parentheses. -/
theorem readRaw_plain {t b : Int} {p pre rest : List Char} (f : Frac) (h : Body pre rest t b) :
    ∃ g : Frac, readRaw (goodAt p (pre ++ rest)) f = .ok (⟨pre.reverse ++ p, rest, rest.isEmpty, false, false⟩, g) ∧
      Canon g.tt ∧ Canon g.bb ∧ g.tt.val = t ∧ g.bb.val = b := by
  obtain ⟨g, fl, g1, _, g2, g3, g4, g5⟩ := readParts_body (p := p) f false h
  refine ⟨g, ?_, g2, g3, g4, g5⟩
  obtain ⟨c, l, rfl, hc⟩ := body_head h
  unfold readRaw
  rw [List.cons_append, peek_cons]
  have hc' : (some c == some '(') = false := by simpa using hc
  simp only [hc', Bool.false_eq_true, if_false]
  rw [← List.cons_append, g1]
  rfl

/-- Reading a ratio in parentheses; the closing one may be missing. -/
theorem readRaw_parens {t b : Int} {p pre rest : List Char} (f : Frac) (h : Body pre rest t b) :
    ∃ g : Frac, readRaw (goodAt p ('(' :: (pre ++ rest))) f = .ok (match rest with
        | ')' :: rest' => ⟨')' :: (pre.reverse ++ '(' :: p), rest', false, false, false⟩
        | rest => ⟨pre.reverse ++ '(' :: p, rest, rest.isEmpty, false, false⟩, g) ∧
      Canon g.tt ∧ Canon g.bb ∧ g.tt.val = t ∧ g.bb.val = b := by
  obtain ⟨g, fl, g1, gf, g2, g3, g4, g5⟩ := readParts_body (p := '(' :: p) f true h
  refine ⟨g, ?_, g2, g3, g4, g5⟩
  unfold readRaw
  rw [peek_cons]
  simp only [beq_self_eq_true, if_true, get_cons, g1, bind_ok, Bool.and_self]
  cases rest with
  | nil => cases fl <;> rfl
  | cons c cs =>
    have hfl : fl = false := by
      cases fl
      · rfl
      · exact absurd (gf rfl) (by simp)
    subst hfl
    have e : (⟨pre.reverse ++ '(' :: p, c :: cs, (c :: cs).isEmpty, false, false⟩ : IStream) =
      goodAt (pre.reverse ++ '(' :: p) (c :: cs) := rfl
    rw [e, peek_cons]
    by_cases hc : c = ')'
    · subst hc
      simp only [beq_self_eq_true, if_true, get_cons]
      rfl
    · have hc' : (some c == some ')') = false := by simpa using hc
      simp only [hc', Bool.false_eq_true, if_false]
      split
      · next h _ => exact absurd (List.cons.inj h).1 hc
      · rfl

theorem goodAt_sentry (p r : List Char) : (goodAt p r).sentry = (true, goodAt p r) := rfl

/-- `operator>>` on a stream that contains an acceptable text: the raw parts are read, then reduced. -/
theorem read_of_raw {s s' : IStream} {f g : Frac} (hs : s.good = true) (h : readRaw s f = .ok (s', g)) (ht : Canon g.tt)
    (hb : Canon g.bb) (hb0 : g.bb.val ≠ 0) :
    (¬ReduceAborts g.tt.val g.bb.val → ∃ r, Frac.read s f = .ok (s', r) ∧ r.Valid ∧ r.value = (g.tt.val : ℚ) / g.bb.val) ∧
    (ReduceAborts g.tt.val g.bb.val → ∃ x, Frac.read s f = .error (.assertion, x)) := by
  have e : s.sentry = (true, s) := by
    rw [IStream_eq_goodAt hs]; rfl
  have hr : Frac.read s f = match normalize g with
      | .ok f => .ok (s', f)
      | .error (e, f) => .error (e, s', f) := by
    unfold Frac.read
    rw [e]
    simp only [Bool.not_true, Bool.false_eq_true, if_false, h]
    rfl
  obtain ⟨n1, n2⟩ := normalize_spec (.inl ht) hb hb0
  rw [hr]
  constructor
  · intro ha
    obtain ⟨r, r1, r2, r3⟩ := n1 ha
    exact ⟨r, by rw [show g = ⟨g.tt, g.bb⟩ from rfl, r1], r2, r3⟩
  · intro ha
    obtain ⟨x, x1⟩ := n2 ha
    exact ⟨_, by rw [show g = ⟨g.tt, g.bb⟩ from rfl, x1]⟩

/-- A stream that does not begin with a numeral or a parenthesis: it fails, nothing is consumed. -/
theorem readRaw_fail {p r : List Char} (f : Frac) (hp : ∀ l, r ≠ '(' :: l)
    (h : ∀ pre rest z, r = pre ++ rest → ¬IntText pre z) :
    ∃ e, readRaw (goodAt p r) f = .ok (⟨p, r, e, true, false⟩, f) := by
  unfold readRaw
  cases r with
  | nil => exact ⟨true, rfl⟩
  | cons c cs =>
    have hc : (some c == some '(') = false := by
      have : c ≠ '(' := fun hc => hp cs (by rw [hc])
      simpa using this
    obtain ⟨e, e1, _⟩ := read_fail f.tt (p := p) h
    refine ⟨e, ?_⟩
    rw [peek_cons]
    simp only [hc, Bool.false_eq_true, if_false]
    unfold readParts
    rw [e1]
    rfl

theorem print_eq {f : Frac} (h : f.Valid) :
    Frac.print f = '(' :: (numeral f.tt.val ++ '/' :: (numeral f.bb.val ++ [')'])) := by
  unfold Frac.print
  rw [print_numeral h.1.1 (by simpa only [ne_eq, val_eq_zero_iff] using h.1.2.2),
    print_numeral h.2.1.1 (by simpa only [ne_eq, val_eq_zero_iff] using h.2.1.2.2)]
  simp

/-! ### from_double -/

theorem ofDigitChars_append' (a b : List Char) :
    (Nat.ofDigitChars 10 (a ++ b) 0 : Int) = Nat.ofDigitChars 10 a 0 * 10 ^ b.length + Nat.ofDigitChars 10 b 0 := by
  rw [Nat.ofDigitChars_append, Nat.ofDigitChars_eq_ofDigitChars_zero (init := Nat.ofDigitChars 10 a 0)]
  push_cast; ring

theorem fromDouble_red {ip fp : List Char} {z : Int} (h : IntText (ip ++ fp) z) (hip : ∀ c ∈ ip, c ≠ '.') (h0 : 0 < fp.length)
    (h1 : fp.length ≤ 2147483647) : Red (fromDouble true (ip ++ '.' :: fp)) z (10 ^ fp.length) := by
  obtain ⟨e1, e2⟩ := split_at (q := fp) hip
  obtain ⟨t, t1, t2, t3⟩ := ofString_ok h
  obtain ⟨b, b1, b2, b3, b4⟩ := timesPowerTen_pos canon_one (p := fp.length) (by omega)
  have hb : Canon b := b4 (.inl (by rw [val_one]; norm_num))
  unfold fromDouble
  rw [if_neg (by simp), e1, e2]
  dsimp only
  rw [t1, bind_ok, ofInt64_one, bind_ok]
  have e3 : toI32 (fp.length : Int) = fp.length := toI32_id (by omega) (by omega)
  rw [e3, b1, bind_ok]
  have := red_mk' t2 hb
  rw [t3, b3, val_one, one_mul, Int.toNat_natCast] at this
  exact this

end Frac
end CppMaths
