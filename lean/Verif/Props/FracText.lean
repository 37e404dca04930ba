import Verif.Props.IntText
import Verif.Props.Frac
/-!
# Properties of reading and printing `Frac` (C40-C43)

`numeral`, `IntText`: `Verif/Spec/Text.lean`; `RatioText`: `Verif/Spec/FracProg.lean`; `Body pre rest t b`: the text `pre`
is `INT` or `INT/INT`, stands for `t / b`, and is not continued by `rest`: `Verif/Spec/Frac.lean`.
-/

namespace CppMaths
open BigInt Frac

/-! ### C40: print and read back -/

/-- C40 as stated is false: the object `Frac(2*10^18 + 10^9, 14)` can be printed, but reading the text back aborts. -/
theorem C40_refuted : ∃ f : Frac, Built f ∧ ∃ x, Frac.read (goodStream [] (Frac.print f)) f = .error (.assertion, x) := by
  have hb : Built ⟨⟨[500000000, 0, 1], false⟩, ⟨[7], false⟩⟩ :=
    .mk (a := ⟨[0, 1, 2], false⟩) (b := ⟨[14], false⟩) (by decide) (by decide) (by decide +kernel)
  exact ⟨_, hb, (⟨(Frac.print ⟨⟨[500000000, 0, 1], false⟩, ⟨[7], false⟩⟩).reverse, [], false, false, false⟩,
    ⟨⟨[500000000, 0, 1], false⟩, ⟨[7], false⟩⟩), by decide +kernel⟩

/-- C40, the part that holds. A fraction prints as `(num/den)`, and extracting that text into any object consumes exactly
the text and gives back the identical object, unless reducing `num/den` aborts (then extraction aborts).
Missing: the aborts (see `C40_refuted`). -/
theorem C40_round_trip_partial {f : Frac} (h : f.Valid) (g : Frac) (p rest : List Char) :
    Frac.print f = ['('] ++ numeral f.value.num ++ ['/'] ++ numeral f.value.den ++ [')'] ∧
    (¬ReduceAborts f.tt.val f.bb.val → Frac.read (goodStream p (Frac.print f ++ rest)) g =
      .ok (goodStream ((Frac.print f).reverse ++ p) rest, f)) ∧
    (ReduceAborts f.tt.val f.bb.val → ∃ x, Frac.read (goodStream p (Frac.print f ++ rest)) g = .error (.assertion, x)) := by
  have hp := print_eq h
  refine ⟨by rw [hp, h.num, h.den]; simp, ?_⟩
  have hbody : Body (numeral f.tt.val ++ '/' :: numeral f.bb.val) (')' :: rest) f.tt.val f.bb.val :=
    .inr ⟨_, _, rfl, numeral_intText _, numeral_intText _, by
      intro c r hc; obtain ⟨rfl, _⟩ := List.cons.inj hc; decide⟩
  obtain ⟨r, r1, r2, r3, r4, r5⟩ := readRaw_parens (p := p) g hbody
  have e : goodStream p (Frac.print f ++ rest) =
      goodAt p ('(' :: ((numeral f.tt.val ++ '/' :: numeral f.bb.val) ++ ')' :: rest)) := by
    rw [hp]; simp [goodStream, goodAt]
  rw [e]
  obtain ⟨k1, k2⟩ := read_of_raw rfl r1 r2 r3 (by rw [r5]; exact h.bb_ne)
  rw [r4, r5] at k1 k2
  refine ⟨fun ha => ?_, k2⟩
  obtain ⟨q, q1, q2, q3⟩ := k1 ha
  rw [q1, q2.eq_of_value_eq h q3, hp]
  simp [goodStream]

example := C40_round_trip_partial (f := ⟨⟨[5, 12], true⟩, ⟨[11], false⟩⟩) (by decide) ⟨⟨[1], false⟩, ⟨[1], false⟩⟩ "x ".toList " y".toList

/-- C40. No abort for parts below 10^18: the round trip is exact. -/
theorem C40_round_trip_moderate {f : Frac} (h : f.Valid) (g : Frac) (p rest : List Char)
    (h1 : |f.tt.val| < 1000000000000000000) (h2 : |f.bb.val| < 1000000000000000000) :
    Frac.read (goodStream p (Frac.print f ++ rest)) g = .ok (goodStream ((Frac.print f).reverse ++ p) rest, f) :=
  (C40_round_trip_partial h g p rest).2.1 (not_reduceAborts_small h1 h2)

example : Frac.print ⟨⟨[5, 12], true⟩, ⟨[11], false⟩⟩ = "(-12000000005/11)".toList ∧
    Frac.read (goodStream [] "(-12000000005/11) x".toList) ⟨⟨[0], false⟩, ⟨[1], false⟩⟩ =
      .ok (goodStream "(-12000000005/11)".toList.reverse " x".toList, ⟨⟨[5, 12], true⟩, ⟨[11], false⟩⟩) := by decide +kernel

/-! ### C41: string constructor -/

/-- C41. `Frac("")` is zero. For any other string: `INT` and `INT/INT` with a nonzero denominator give that ratio in lowest
terms (or an abort exactly if the reduction aborts); everything else throws `invalid_argument`. -/
theorem C41_string_constructor (s : List Char) :
    (s = [] → ∃ f, Frac.ofString s = .ok f ∧ f.Valid ∧ f.value = 0) ∧
    (∀ t b, s ≠ [] → RatioText s t b → b ≠ 0 → Yields (Frac.ofString s) ((t : ℚ) / b) t b) ∧
    ((∀ t b, RatioText s t b → b = 0) → Frac.ofString s = .error .invalidArgument) := by
  refine ⟨?_, fun t b hs h h0 => ?_, fun h => ?_⟩
  · rintro rfl
    exact ⟨_, ofString_nil, default_valid, by simp [value, BigInt.val]⟩
  · obtain ⟨_, k2, k3⟩ := ofString_ratio h hs
    exact ⟨k2 h0, k3 h0⟩
  · by_cases hr : ∃ t b, RatioText s t b
    · obtain ⟨t, b, hr⟩ := hr
      have hs : s ≠ [] := by
        rintro rfl
        exact absurd (h 0 1 (.inl ⟨rfl, rfl, rfl⟩)) (by norm_num)
      exact (ofString_ratio hr hs).1 (h t b hr)
    · exact ofString_not_ratio (fun t b hz => hr ⟨t, b, hz⟩)

/-- A string that is no ratio. -/
example : Frac.ofString "1/2/3".toList = .error .invalidArgument ∧ Frac.ofString [] = .ok ⟨⟨[0], false⟩, ⟨[1], false⟩⟩ := by decide +kernel

/-- C41, converse: a string from which a fraction is constructed is a ratio with that value. -/
theorem C41_string_constructor_converse {s : List Char} {f : Frac} (h : Frac.ofString s = .ok f) :
    f.Valid ∧ ∃ t b, RatioText s t b ∧ b ≠ 0 ∧ f.value = (t : ℚ) / b := by
  by_cases hs : s = []
  · subst hs
    rw [ofString_nil] at h; cases h
    exact ⟨default_valid, 0, 1, .inl ⟨rfl, rfl, rfl⟩, by norm_num, by simp [value, BigInt.val]⟩
  · by_cases hr : ∃ t b, RatioText s t b ∧ b ≠ 0
    · obtain ⟨t, b, hr, hb⟩ := hr
      obtain ⟨v1, v2⟩ := ((C41_string_constructor s).2.1 t b hs hr hb).valid h
      exact ⟨v1, t, b, hr, hb, v2⟩
    · rw [(C41_string_constructor s).2.2 (fun t b hz => by_contra fun hb => hr ⟨t, b, hz, hb⟩)] at h
      cases h

example : RatioText "-10/4".toList (-10) 4 :=
  .inr (.inr ⟨"-10".toList, "4".toList, rfl, ⟨"10".toList, ⟨by decide, by decide⟩, .inr ⟨rfl, by decide⟩⟩,
    ⟨"4".toList, ⟨by decide, by decide⟩, .inl ⟨rfl, by decide⟩⟩⟩)
example : Frac.ofString "-10/4".toList = .ok ⟨⟨[5], true⟩, ⟨[2], false⟩⟩ ∧
    Frac.ofString "7".toList = .ok ⟨⟨[7], false⟩, ⟨[1], false⟩⟩ ∧
    Frac.ofString "1/0".toList = .error .invalidArgument ∧ Frac.ofString "1/".toList = .error .invalidArgument ∧
    Frac.ofString "/2".toList = .error .invalidArgument ∧ Frac.ofString "1/2/3".toList = .error .invalidArgument ∧
    Frac.ofString "(1/2)".toList = .error .invalidArgument := by decide +kernel

/-! ### C42: stream extraction -/

/-- C42 as stated is false: extracting `1/0` succeeds and stores `1/0`; extracting `5/x` fails but has changed the object
and consumed `5/`; extracting `(x` fails but has consumed the parenthesis. -/
theorem C42_refuted :
    (∃ f g s, f.Valid ∧ Frac.read (goodStream [] "1/0".toList) f = .ok (s, g) ∧ s.failed = false ∧ g.bb.val = 0) ∧
    (∃ f g s, f.Valid ∧ Frac.read (goodStream [] "5/x".toList) f = .ok (s, g) ∧ s.failed = true ∧ g ≠ f ∧ s.rest = ['x']) ∧
    (∃ f s, f.Valid ∧ Frac.read (goodStream [] "(x".toList) f = .ok (s, f) ∧ s.failed = true ∧ s.rest = ['x']) :=
  ⟨⟨⟨⟨[1], false⟩, ⟨[2], false⟩⟩, ⟨⟨[1], false⟩, ⟨[0], false⟩⟩, ⟨"0/1".toList, [], true, false, false⟩, by decide,
      by decide +kernel, by decide, by decide⟩,
    ⟨⟨⟨[1], false⟩, ⟨[2], false⟩⟩, ⟨⟨[5], false⟩, ⟨[2], false⟩⟩, ⟨"/5".toList, ['x'], false, true, false⟩, by decide,
      by decide +kernel, by decide, by decide, by decide⟩,
    ⟨⟨⟨[1], false⟩, ⟨[2], false⟩⟩, ⟨['('], ['x'], false, true, false⟩, by decide, by decide +kernel, by decide, by decide⟩⟩

/-- C42, the part that holds, success: on a stream in good state that continues with `INT`, `INT/INT` or one of these
after an opening parenthesis, with nonzero denominator, exactly that text is consumed (and a closing parenthesis, if there
was an opening one and a closing one follows), no failure is recorded, and the object is that ratio in lowest terms,
unless the reduction aborts.
Missing: zero denominators (see `C42_zero_denominator`). -/
theorem C42_stream_success_partial {pre rest : List Char} {t b : Int} (h : Body pre rest t b) (hb : b ≠ 0) (p : List Char) (f : Frac) :
    (¬ReduceAborts t b → ∃ g : Frac, g.Valid ∧ g.value = (t : ℚ) / b ∧
      Frac.read (goodStream p (pre ++ rest)) f = .ok (⟨pre.reverse ++ p, rest, decide (rest = []), false, false⟩, g) ∧
      (∀ rest', rest = ')' :: rest' → Frac.read (goodStream p ('(' :: (pre ++ rest))) f =
        .ok (goodStream (')' :: (pre.reverse ++ '(' :: p)) rest', g)) ∧
      ((∀ rest', rest ≠ ')' :: rest') → Frac.read (goodStream p ('(' :: (pre ++ rest))) f =
        .ok (⟨pre.reverse ++ '(' :: p, rest, decide (rest = []), false, false⟩, g))) ∧
    (ReduceAborts t b → (∃ x, Frac.read (goodStream p (pre ++ rest)) f = .error (.assertion, x)) ∧
      ∃ x, Frac.read (goodStream p ('(' :: (pre ++ rest))) f = .error (.assertion, x)) := by
  obtain ⟨r, r1, r2, r3, r4, r5⟩ := readRaw_plain (p := p) f h
  obtain ⟨q, q1, q2, q3, q4, q5⟩ := readRaw_parens (p := p) f h
  obtain ⟨k1, k2⟩ := read_of_raw rfl r1 r2 r3 (by rw [r5]; exact hb)
  obtain ⟨l1, l2⟩ := read_of_raw rfl q1 q2 q3 (by rw [q5]; exact hb)
  rw [r4, r5] at k1 k2
  rw [q4, q5] at l1 l2
  have he : rest.isEmpty = decide (rest = []) := by cases rest <;> rfl
  refine ⟨fun ha => ?_, fun ha => ⟨k2 ha, l2 ha⟩⟩
  obtain ⟨g, g1, g2, g3⟩ := k1 ha
  obtain ⟨g', g1', g2', g3'⟩ := l1 ha
  have : g' = g := g2'.eq_of_value_eq g2 (by rw [g3, g3'])
  subst this
  refine ⟨g', g2, g3, by rw [← he]; exact g1, ?_, ?_⟩
  · rintro rest' rfl; exact g1'
  · intro hne
    rw [← he]
    refine g1'.trans ?_
    split
    · next h => exact absurd rfl (hne _)
    · rfl

example := C42_stream_success_partial (pre := "-10/4".toList) (rest := ") x".toList) (t := -10) (b := 4)
  (.inr ⟨"-10".toList, "4".toList, rfl, ⟨"10".toList, ⟨by decide, by decide⟩, .inr ⟨rfl, by decide⟩⟩,
    ⟨"4".toList, ⟨by decide, by decide⟩, .inl ⟨rfl, by decide⟩⟩, by intro c r hc; obtain ⟨rfl, _⟩ := List.cons.inj hc; decide⟩)
  (by decide) [] ⟨⟨[1], false⟩, ⟨[1], false⟩⟩
example : Frac.read (goodStream [] "(-10/4) x".toList) ⟨⟨[1], false⟩, ⟨[1], false⟩⟩ =
    .ok (goodStream "(-10/4)".toList.reverse " x".toList, ⟨⟨[5], true⟩, ⟨[2], false⟩⟩) := by decide +kernel

/-- C42, the part that holds, failure: if the text begins neither with an opening parenthesis nor with `INT`, extraction
sets failbit, consumes nothing and leaves the object alone (or aborts while reducing the unchanged object).
Missing: the failures after a parenthesis or after `INT/` (see `C42_fail_parenthesis`, `C42_fail_denominator`). -/
theorem C42_stream_failure_partial {r : List Char} (hp : ∀ l, r ≠ '(' :: l) (h : ∀ pre rest z, r = pre ++ rest → ¬IntText pre z)
    (p : List Char) {f : Frac} (hf : f.Valid) :
    (∃ e, Frac.read (goodStream p r) f = .ok (⟨p, r, e, true, false⟩, f)) ∨
    (ReduceAborts f.tt.val f.bb.val ∧ ∃ x, Frac.read (goodStream p r) f = .error (.assertion, x)) := by
  obtain ⟨e, e1⟩ := readRaw_fail (p := p) f hp h
  have hr : Frac.read (goodStream p r) f = match normalize f with
      | .ok f => .ok (⟨p, r, e, true, false⟩, f)
      | .error (e', f) => .error (e', ⟨p, r, e, true, false⟩, f) := by
    have : readRaw (goodStream p r) f = .ok (⟨p, r, e, true, false⟩, f) := e1
    unfold Frac.read
    rw [show (goodStream p r).sentry = (true, goodStream p r) from rfl]
    simp only [Bool.not_true, Bool.false_eq_true, if_false, this]
    rfl
  rw [hr]
  rcases normalize_valid hf with hn | ⟨ha, x, hx⟩
  · rw [hn]; exact .inl ⟨e, rfl⟩
  · rw [hx]; exact .inr ⟨ha, _, rfl⟩

example : Frac.read (goodStream [] "x1".toList) ⟨⟨[1], false⟩, ⟨[2], false⟩⟩ = .ok (⟨[], "x1".toList, false, true, false⟩, ⟨⟨[1], false⟩, ⟨[2], false⟩⟩) := by
  decide +kernel

/-- C42, zero denominators: `INT/0` with a nonzero numerator is accepted without failure, exactly like a proper ratio, but
the object is left as `1/0` or `-1/0` (or the program aborts); `0/0` throws, with the text consumed and the object left
as `0/0`. -/
theorem C42_zero_denominator {pre rest : List Char} {t : Int} (h : Body pre rest t 0) (p : List Char) (f : Frac) :
    (t ≠ 0 → (∃ g : Frac, g.tt.val = t.sign ∧ g.bb.val = 0 ∧
        Frac.read (goodStream p (pre ++ rest)) f = .ok (⟨pre.reverse ++ p, rest, decide (rest = []), false, false⟩, g)) ∨
      ∃ x, Frac.read (goodStream p (pre ++ rest)) f = .error (.assertion, x)) ∧
    (t = 0 → ∃ g : Frac, g.tt.val = 0 ∧ g.bb.val = 0 ∧ Frac.read (goodStream p (pre ++ rest)) f =
      .error (.divideByZero, ⟨pre.reverse ++ p, rest, decide (rest = []), false, false⟩, g)) := by
  obtain ⟨g, g1, g2, g3, g4, g5⟩ := readRaw_plain (p := p) f h
  have he : rest.isEmpty = decide (rest = []) := by cases rest <;> rfl
  rw [he] at g1
  have hr : Frac.read (goodStream p (pre ++ rest)) f = match normalize g with
      | .ok f => .ok (⟨pre.reverse ++ p, rest, decide (rest = []), false, false⟩, f)
      | .error (e', f) => .error (e', ⟨pre.reverse ++ p, rest, decide (rest = []), false, false⟩, f) := by
    have : readRaw (goodStream p (pre ++ rest)) f = _ := g1
    unfold Frac.read
    rw [show (goodStream p (pre ++ rest)).sentry = (true, goodStream p (pre ++ rest)) from rfl]
    simp only [Bool.not_true, Bool.false_eq_true, if_false, this]
    rfl
  have hs : g.bb.negative = false := by
    cases hh : g.bb.negative
    · rfl
    · have := g3.neg_iff.mp hh; omega
  rw [hr]
  refine ⟨fun ht => ?_, fun ht => ?_⟩
  · rcases normalize_zero_den g2 (by rw [g4]; exact ht) g3.1 g5 hs with ⟨q, q1, _, _, q4, q5⟩ | ⟨x, hx⟩
    · rw [show g = ⟨g.tt, g.bb⟩ from rfl, q1]
      exact .inl ⟨q, by rw [q4, g4], q5, rfl⟩
    · rw [show g = ⟨g.tt, g.bb⟩ from rfl, hx]
      exact .inr ⟨_, rfl⟩
  · rw [show g = ⟨g.tt, g.bb⟩ from rfl, normalize_zero_zero g2.1 (by rw [g4, ht]) g3.1 g5 hs]
    exact ⟨g, by rw [g4, ht], g5, rfl⟩

example := C42_zero_denominator (pre := "-7/0".toList) (rest := []) (t := -7)
  (.inr ⟨"-7".toList, "0".toList, rfl, ⟨"7".toList, ⟨by decide, by decide⟩, .inr ⟨rfl, by decide⟩⟩,
    ⟨"0".toList, ⟨by decide, by decide⟩, .inl ⟨rfl, by decide⟩⟩, by intro c r hc; cases hc⟩) [] ⟨⟨[1], false⟩, ⟨[1], false⟩⟩

/-- C42, failure after a parenthesis: if `(` is not followed by `INT`, failbit is set and the object keeps its value, but
the parenthesis has been consumed. -/
theorem C42_fail_parenthesis {r : List Char} (h : ∀ pre rest z, r = pre ++ rest → ¬IntText pre z) (p : List Char) {f : Frac}
    (hf : f.Valid) :
    Frac.read (goodStream p ('(' :: r)) f = .ok (⟨'(' :: p, r, false, true, false⟩, f) ∨
    (ReduceAborts f.tt.val f.bb.val ∧ ∃ x, Frac.read (goodStream p ('(' :: r)) f = .error (.assertion, x)) := by
  obtain ⟨e, e1, _⟩ := read_fail f.tt (p := '(' :: p) h
  have hraw : readRaw (goodStream p ('(' :: r)) f = .ok (⟨'(' :: p, r, false, true, false⟩, f) := by
    unfold readRaw readParts
    rw [show goodStream p ('(' :: r) = goodAt p ('(' :: r) from rfl, peek_cons]
    simp only [beq_self_eq_true, if_true, get_cons, e1, bind_ok]
    rfl
  have hr : Frac.read (goodStream p ('(' :: r)) f = match normalize f with
      | .ok f => .ok (⟨'(' :: p, r, false, true, false⟩, f)
      | .error (e', f) => .error (e', ⟨'(' :: p, r, false, true, false⟩, f) := by
    unfold Frac.read
    rw [show (goodStream p ('(' :: r)).sentry = (true, goodStream p ('(' :: r)) from rfl]
    simp only [Bool.not_true, Bool.false_eq_true, if_false, hraw]
    rfl
  rw [hr]
  rcases normalize_valid hf with hn | ⟨ha, x, hx⟩
  · rw [hn]; exact .inl rfl
  · rw [hx]; exact .inr ⟨ha, _, rfl⟩

example : Frac.read (goodStream [] "(x".toList) ⟨⟨[1], false⟩, ⟨[2], false⟩⟩ = .ok (⟨['('], ['x'], false, true, false⟩, ⟨⟨[1], false⟩, ⟨[2], false⟩⟩) := by
  decide +kernel

/-- C42, failure after a slash: if `INT/` is not followed by `INT`, failbit is set, but numerator and slash have been
consumed, and the object has become the new numerator over the old denominator, in lowest terms (or the program aborts). -/
theorem C42_fail_denominator {ps r : List Char} {t : Int} (hps : IntText ps t) (h : ∀ pre rest z, r = pre ++ rest → ¬IntText pre z)
    (p : List Char) {f : Frac} (hf : f.Valid) :
    (∃ g s, Frac.read (goodStream p (ps ++ '/' :: r)) f = .ok (s, g) ∧ s.failed = true ∧ s.rest = r ∧
      s.past = '/' :: (ps.reverse ++ p) ∧ g.Valid ∧ g.value = (t : ℚ) / f.bb.val) ∨
    (ReduceAborts t f.bb.val ∧ ∃ x, Frac.read (goodStream p (ps ++ '/' :: r)) f = .error (.assertion, x)) := by
  obtain ⟨a, a1, a2, a3⟩ := read_ok f.tt (p := p) (rest := '/' :: r) hps
    (by intro c l hc; obtain ⟨rfl, _⟩ := List.cons.inj hc; decide)
  obtain ⟨e, e1, _⟩ := read_fail f.bb (p := '/' :: (ps.reverse ++ p)) h
  have ea : (⟨ps.reverse ++ p, '/' :: r, ('/' :: r).isEmpty, false, false⟩ : IStream) =
      goodAt (ps.reverse ++ p) ('/' :: r) := rfl
  rw [ea] at a1
  obtain ⟨c, cs, hc, hc'⟩ := body_head (pre := ps ++ '/' :: "1".toList) (rest := []) (t := t) (b := 1)
    (.inr ⟨ps, "1".toList, rfl, hps, ⟨"1".toList, ⟨by decide, by decide⟩, .inl ⟨rfl, by decide⟩⟩, by intro c r hc; cases hc⟩)
  have hhead : ∃ cs, ps ++ '/' :: r = c :: cs := by
    cases ps with
    | nil => exact absurd rfl (intText_ne_nil hps)
    | cons d ds => exact ⟨ds ++ '/' :: r, by rw [List.cons_append, (List.cons.inj hc).1]⟩
  obtain ⟨cs', hcs⟩ := hhead
  have hpk : (goodAt p (ps ++ '/' :: r)).peek = (some c, goodAt p (ps ++ '/' :: r)) := by
    rw [hcs, peek_cons]
  have hne : (some c == some '(') = false := by simpa using hc'
  have hfl : (goodAt (ps.reverse ++ p) ('/' :: r)).failed = false := rfl
  have hraw : readRaw (goodStream p (ps ++ '/' :: r)) f =
      .ok (⟨'/' :: (ps.reverse ++ p), r, e, true, false⟩, ⟨a, f.bb⟩) := by
    unfold readRaw readParts
    rw [show goodStream p (ps ++ '/' :: r) = goodAt p (ps ++ '/' :: r) from rfl, hpk]
    simp only [hne, Bool.false_eq_true, if_false, a1, bind_ok, hfl, Bool.not_false, if_true, peek_cons,
      beq_self_eq_true, get_cons, e1]
    rfl
  have hr : Frac.read (goodStream p (ps ++ '/' :: r)) f = match normalize ⟨a, f.bb⟩ with
      | .ok g => .ok (⟨'/' :: (ps.reverse ++ p), r, e, true, false⟩, g)
      | .error (e', g) => .error (e', ⟨'/' :: (ps.reverse ++ p), r, e, true, false⟩, g) := by
    unfold Frac.read
    rw [show (goodStream p (ps ++ '/' :: r)).sentry = (true, goodStream p (ps ++ '/' :: r)) from rfl]
    simp only [Bool.not_true, Bool.false_eq_true, if_false, hraw]
    rfl
  rw [hr]
  obtain ⟨n1, n2⟩ := mred_normalize (.inl a2) hf.2.1 hf.bb_ne
  rw [a3] at n1 n2
  by_cases ha : ReduceAborts t f.bb.val
  · obtain ⟨x, hx⟩ := n2 ha
    rw [hx]; exact .inr ⟨ha, _, rfl⟩
  · obtain ⟨g, g1, g2, g3⟩ := n1 ha
    rw [g1]; exact .inl ⟨g, _, rfl, rfl, rfl, rfl, g2, g3⟩

example : Frac.read (goodStream [] "4/x".toList) ⟨⟨[1], false⟩, ⟨[2], false⟩⟩ =
    .ok (⟨"/4".toList, ['x'], false, true, false⟩, ⟨⟨[2], false⟩, ⟨[1], false⟩⟩) := by decide +kernel

/-- C42. Whatever the stream contains and whatever state it is in: extraction into a valid object that returns leaves a
valid object or one with denominator zero. On a stream that is not good nothing happens but failbit. -/
theorem C42_any_stream {s s' : IStream} {f g : Frac} (hf : f.Valid) (h : Frac.read s f = .ok (s', g)) :
    (g.Valid ∨ g.bb.val = 0) ∧ (s.good = false → g = f ∧ s' = s.setFail) := by
  refine ⟨read_valid hf h, fun hg => ?_⟩
  simp [Frac.read, IStream.sentry, hg] at h
  exact ⟨h.2.symm, h.1.symm⟩

example : Body "-10/4".toList ")x".toList (-10) 4 :=
  .inr ⟨"-10".toList, "4".toList, rfl, ⟨"10".toList, ⟨by decide, by decide⟩, .inr ⟨rfl, by decide⟩⟩,
    ⟨"4".toList, ⟨by decide, by decide⟩, .inl ⟨rfl, by decide⟩⟩, by intro c r hc; obtain ⟨rfl, _⟩ := List.cons.inj hc; decide⟩
example : Frac.read (goodStream [] "(-10/4)x".toList) ⟨⟨[1], false⟩, ⟨[3], false⟩⟩ =
      .ok (goodStream "(-10/4)".toList.reverse "x".toList, ⟨⟨[5], true⟩, ⟨[2], false⟩⟩) ∧
    Frac.read (goodStream [] "12".toList) ⟨⟨[1], false⟩, ⟨[3], false⟩⟩ =
      .ok (⟨"21".toList, [], true, false, false⟩, ⟨⟨[12], false⟩, ⟨[1], false⟩⟩) ∧
    Frac.read (goodStream [] "x".toList) ⟨⟨[1], false⟩, ⟨[3], false⟩⟩ =
      .ok (⟨[], ['x'], false, true, false⟩, ⟨⟨[1], false⟩, ⟨[3], false⟩⟩) := by decide +kernel

/-! ### C43: conversion from `double` -/

/-- C43 as stated is false: `from_double(1000.0, 15)`, which prints `1000.000000000000000`, aborts. -/
theorem C43_refuted : Frac.fromDouble true "1000.000000000000000".toList = .error .assertion := by decide +kernel

/-- C43 as stated needs a fractional digit: text without a decimal point, which is what precision 0 gives, makes the
function erase at an invalid position (undefined behaviour). -/
theorem C43_refuted_precision_zero {sx : List Char} (h : ∀ c ∈ sx, c ≠ '.') : Frac.fromDouble true sx = .error .ub := by
  unfold Frac.fromDouble
  rw [if_neg (by simp), split_none h]

/-- C43, the part that holds. If the number is printed as `[-]digits.digits` with `ip` before and `fp` after the point, the
result is exactly that decimal number (the integer `ipfp` over 10 to the number of fractional digits), in lowest terms,
unless the reduction aborts. A number that is not finite throws `invalid_argument`. The printing of a `double` is in
`C88_from_double_partial`.
Missing: the aborts (see `C43_refuted`). -/
theorem C43_from_double_partial {ip fp : List Char} {z : Int} (h : IntText (ip ++ fp) z) (hip : ∀ c ∈ ip, c ≠ '.') (h0 : 0 < fp.length)
    (h1 : fp.length ≤ 2147483647) :
    Yields (Frac.fromDouble true (ip ++ '.' :: fp)) ((z : ℚ) / 10 ^ fp.length) z (10 ^ fp.length) ∧
    ∀ sx, Frac.fromDouble false sx = .error .invalidArgument :=
  ⟨(fromDouble_red h hip h0 h1).yields (by positivity) (by push_cast; rfl), fun _ => rfl⟩

/-- The text of -12.375. -/
example := C43_from_double_partial (ip := "-12".toList) (fp := "375".toList) (z := -12375)
  ⟨"12375".toList, ⟨by decide, by decide⟩, .inr ⟨rfl, by decide⟩⟩ (by decide) (by decide) (by decide)

/-- C43. With at most 17 fractional digits and a magnitude of at most 10^18 for the digits read as one integer nothing
aborts. -/
theorem C43_from_double_moderate {ip fp : List Char} {z : Int} (h : IntText (ip ++ fp) z) (hip : ∀ c ∈ ip, c ≠ '.') (h0 : 0 < fp.length)
    (h1 : fp.length ≤ 17) (hz : |z| < 1000000000000000000) :
    ∃ f, Frac.fromDouble true (ip ++ '.' :: fp) = .ok f ∧ f.Valid ∧ f.value = (z : ℚ) / 10 ^ fp.length := by
  refine (C43_from_double_partial h hip h0 (by omega)).1.1 (not_reduceAborts_small hz ?_)
  rw [abs_of_nonneg (by positivity)]
  calc (10 : Int) ^ fp.length ≤ 10 ^ 17 := pow_le_pow_right₀ (by norm_num) h1
    _ < 1000000000000000000 := by norm_num

example : IntText ("-12".toList ++ "3750".toList) (-123750) := ⟨"123750".toList, ⟨by decide, by decide⟩, .inr ⟨rfl, by decide⟩⟩
example : Frac.fromDouble true "-12.3750".toList = .ok ⟨⟨[99], true⟩, ⟨[8], false⟩⟩ := by decide +kernel

end CppMaths
