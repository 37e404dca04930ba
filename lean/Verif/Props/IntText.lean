import Verif.Proofs.IntText
/-!
# Properties of reading and printing `Int` (C12-C15)

`numeral z` is the usual decimal numeral of the integer `z`, `IntText cs z` says that the characters `cs` have the form
`-?[0-9]+` and denote `z`; see `Verif/Spec/Text.lean`.
-/

namespace CppMaths
open BigInt

/-- C12. A canonical `Int` prints as its decimal numeral. For arbitrary well-formed objects the same holds (leading zero
bins do not show), except that a negative zero prints as `-0`. -/
theorem C12_print_numeral {x : BigInt} :
    (Canon x → print x = numeral x.val) ∧
    (WF x → (x.negative = true → x.val ≠ 0) → print x = numeral x.val) ∧
    (WF x → x.negative = true → x.val = 0 → print x = "-0".toList) := by
  refine ⟨fun h => print_numeral h.1 (fun hn h0 => h.2.2 hn (val_eq_zero_iff.mp h0)), fun h hs => print_numeral h hs, ?_⟩
  intro h hn h0
  rw [print_spec h, val_eq_zero_iff.mp h0, hn]; rfl

example : Canon ⟨[5, 0, 12], true⟩ ∧ print ⟨[5, 0, 12], true⟩ = "-12000000000000000005".toList := by decide
example : numeral (-120) = "-120".toList ∧ numeral 0 = "0".toList := by decide

/-- C13. `Int(s)` succeeds exactly on the strings `-?[0-9]+`, with the value the numeral denotes, in canonical form;
every other string throws `invalid_argument`. -/
theorem C13_string_constructor (s : List Char) :
    (∀ z, IntText s z → ∃ r, ofString s = .ok r ∧ Canon r ∧ r.val = z) ∧
    ((∀ z, ¬IntText s z) → ofString s = .error .invalidArgument) :=
  ⟨fun _ h => ofString_ok h, fun h => ofString_fail h⟩

-- leading zeros and more than one bin
example : IntText "-000123".toList (-123) := ⟨"000123".toList, ⟨by decide, by decide⟩, .inr ⟨rfl, by decide⟩⟩
example : ofString "-00012345678901".toList = .ok ⟨[345678901, 12], true⟩ ∧ ofString "-0".toList = .ok ⟨[0], false⟩ ∧
    ofString "12a".toList = .error .invalidArgument ∧ ofString "".toList = .error .invalidArgument ∧
    ofString " 1".toList = .error .invalidArgument ∧ ofString "+1".toList = .error .invalidArgument := by decide

/-- C14. Reading back what a canonical `Int` prints gives the identical object. -/
theorem C14_round_trip {x : BigInt} (h : Canon x) : ofString (print x) = .ok x := by
  rw [C12_print_numeral.1 h]
  obtain ⟨r, r1, r2, r3⟩ := ofString_ok (numeral_intText x.val)
  rw [r1, Canon.eq_of_val_eq r2 h r3]

example : Canon ⟨[0, 1], true⟩ ∧ ofString (print ⟨[0, 1], true⟩) = .ok ⟨[0, 1], true⟩ := by decide

/-- C14, the other way round: printing what was read gives the normalised numeral; for a numeral without superfluous zeros
and other than `-0` that is the text itself. -/
theorem C14_round_trip_text {s : List Char} {x : BigInt} (h : ofString s = .ok x) :
    print x = numeral x.val ∧ IntText s x.val := by
  by_cases hz : ∃ z, IntText s z
  · obtain ⟨z, hz⟩ := hz
    obtain ⟨r, r1, r2, r3⟩ := ofString_ok hz
    rw [r1] at h; cases h
    exact ⟨C12_print_numeral.1 r2, r3 ▸ hz⟩
  · rw [ofString_fail (fun z h' => hz ⟨z, h'⟩)] at h; cases h

example := C14_round_trip_text (s := "-0012000000005".toList) (x := ⟨[5, 12], true⟩) (by decide +kernel)

/-- A stream in good state with `p` already read (last character first) and `r` still to come. -/
def goodStream (p r : List Char) : IStream := ⟨p, r, false, false, false⟩

/-- C15. On a stream in good state: either the contents begin with `-?[0-9]+`, and then exactly the longest such prefix
is consumed, its value is stored in canonical form, no failure is recorded, and eofbit is set exactly if the prefix is
everything there is; or they do not, and then failbit is set, nothing is consumed and `x` keeps its value. -/
theorem C15_stream_extraction (p r : List Char) (x : BigInt) :
    (∃ pre rest z y, r = pre ++ rest ∧ IntText pre z ∧ (∀ pre' rest' z', r = pre' ++ rest' → IntText pre' z' → pre'.length ≤ pre.length) ∧
      read (goodStream p r) x = .ok (⟨pre.reverse ++ p, rest, decide (rest = []), false, false⟩, y) ∧ Canon y ∧ y.val = z) ∨
    ((∀ pre rest z, r = pre ++ rest → ¬IntText pre z) ∧
      read (goodStream p r) x = .ok (⟨p, r, decide (r = []), true, false⟩, x)) := by
  by_cases h : ∃ pre rest z, r = pre ++ rest ∧ IntText pre z
  · left
    obtain ⟨pre, rest, z, h1, h2⟩ := h
    obtain ⟨pre, rest, z, h1, h2, h3⟩ := exists_longest h2 h1
    obtain ⟨y, y1, y2, y3⟩ := read_ok x (p := p) h2 h3
    refine ⟨pre, rest, z, y, h1, h2, ?_, ?_, y2, y3⟩
    · intro pre' rest' z' k1 k2
      by_contra hlt
      -- the longer prefix contains the character after `pre`, which is not a digit
      have hsplit : ∃ c t, rest = c :: t ∧ c ∈ pre' ∧ (pre = [] ∨ True) ∧ pre' = pre ++ c :: (pre'.drop (pre.length + 1)) := by
        have e := h1.symm.trans k1
        have hp : pre <+: pre' := by
          refine List.prefix_of_prefix_length_le (l₃ := pre ++ rest) ⟨rest, rfl⟩ ⟨rest', e.symm⟩ (by omega)
        obtain ⟨t, ht⟩ := hp
        cases t with
        | nil => simp at ht; rw [ht] at hlt; omega
        | cons c t =>
          rw [← ht, List.append_assoc, List.append_cancel_left_eq] at e
          refine ⟨c, t ++ rest', by rw [e]; rfl, by rw [← ht]; simp, .inr trivial, ?_⟩
          rw [← ht]; simp [List.drop_append]
      obtain ⟨c, t, e1, _, _, e3⟩ := hsplit
      have hc : c.isDigit = false := h3 c t e1
      obtain ⟨ds, hd, h⟩ := k2
      have hmem : c ∈ ds := by
        obtain ⟨ds0, hd0, h0⟩ := h2
        have hpne : pre ≠ [] := by rcases h0 with ⟨h0, _⟩ | ⟨h0, _⟩ <;> rw [h0] <;> simp [hd0.1]
        rcases h with ⟨h, _⟩ | ⟨h, _⟩
        · rw [← h, e3]; simp
        · obtain ⟨a, l, hal⟩ := List.exists_cons_of_ne_nil hpne
          rw [e3, hal, List.cons_append, List.cons.injEq] at h
          rw [← h.2]; simp
      rw [hd.2 c hmem] at hc; cases hc
    · have e : goodStream p r = goodAt p (pre ++ rest) := by rw [← h1]; rfl
      rw [e, y1]; congr 3
      cases rest <;> simp
  · right
    have hn : ∀ pre rest z, r = pre ++ rest → ¬IntText pre z := fun pre rest z h1 h2 => h ⟨pre, rest, z, h1, h2⟩
    refine ⟨hn, ?_⟩
    obtain ⟨e, e1, e2⟩ := read_fail x (p := p) hn
    have : goodStream p r = goodAt p r := rfl
    rw [this, e1]; congr 3
    rw [Bool.eq_iff_iff, e2, decide_eq_true_iff]

example := C15_stream_extraction [] "-0012000000005abc".toList ⟨[1], false⟩

/-- C15. On a stream that is not in good state nothing is consumed and failbit is set. -/
theorem C15_stream_not_good (s : IStream) (x : BigInt) (h : s.good = false) : read s x = .ok (s.setFail, x) := by
  simp [BigInt.read, IStream.sentry, h]

example : read (goodStream [] "-12345678901 x".toList) ⟨[7], false⟩ =
    .ok (⟨"-12345678901".toList.reverse, " x".toList, false, false, false⟩, ⟨[345678901, 12], true⟩) := by decide
example : read (goodStream [] "--1".toList) ⟨[7], false⟩ = .ok (⟨[], "--1".toList, false, true, false⟩, ⟨[7], false⟩) := by decide
example : read (goodStream [] "-".toList) ⟨[7], false⟩ = .ok (⟨[], "-".toList, false, true, false⟩, ⟨[7], false⟩) := by decide

end CppMaths
