import Verif.Proofs.ReadAllocLocal
/-!
# C143, C144: reading an `Int` when memory runs out

`readA L` is `in >> x` and `ofStringA L` the constructor from a string, where `L` says which requests for memory are refused; `read` and `ofString` are the
same with unlimited memory (see C13-C15 for what they do).
-/

namespace CppMaths
open BigInt

variable {L : ILuck}

/-! ### C143: the outcome -/

/-- C143 as stated is false: if the stream that collects the digits gets no memory, `in >> x` reads 123 as zero, and neither throws an exception nor
leaves a stream that reports a failure. -/
theorem C143_refuted_stream : ∃ n, ∃ k : Nat, ∃ s' : IStream, readA (.only n) ((IStream.ofString "123 ".toList, ⟨[7], false⟩), 0) =
    (.ok (), ((s', ⟨[0], false⟩), k)) ∧ s'.good = true ∧ read (IStream.ofString "123 ".toList) ⟨[7], false⟩ = .ok (s', ⟨[123], false⟩) :=
  ⟨1, 4, ⟨"321".toList, " ".toList, false, false, false⟩, by decide +kernel⟩

/-- C143 as stated is false: `Int("123")` may be zero. -/
theorem C143_refuted_string : ∃ n, ∃ k : Nat, ofStringA (.only n) "123".toList ((), 0) = (.ok ⟨[0], false⟩, ((), k)) ∧
    ofString "123".toList = .ok ⟨[123], false⟩ :=
  ⟨3, 6, by decide +kernel⟩

/-- C143, what holds of `in >> x`, whichever requests are refused: it ends like reading with unlimited memory, except that zero may be stored in the place of the
number; or it throws `bad_alloc` or `invalid_argument`, and this only if one of its own requests is refused. The number is right if there is memory for the first digit (the second
request), for instance in a library whose strings hold a few characters themselves.

Missing for the full claim: the case that there is no memory for the first digit (see `C143_refuted_stream`). -/
theorem C143_stream_partial (L : ILuck) (s : IStream) (x : BigInt) (n : Nat) : match readA L ((s, x), n) with
    | (.ok _, ((s', x'), n')) => ∃ y, read s x = .ok (s', y) ∧ (x' = y ∨ (n + 1 < n' ∧ L.refuse (n + 1) = true ∧ x' = ⟨[0], false⟩))
    | (.error e, (_, n')) => L.RefusesIn n n' ∧ (e = .badAlloc ∨ e = .invalidArgument) := by
  have h0 := loc_read L ((s, x), n)
  rcases hm : readA L ((s, x), n) with ⟨o, ⟨s', x'⟩, n'⟩
  rw [hm] at h0
  have h := readA_weak (within L n n') s x n
  rw [h0.2 _ (agree_within L n n')] at h
  cases o with
  | error e => exact ⟨within_refuses h.1, h.2⟩
  | ok u =>
    obtain ⟨y, h1, h2⟩ := h
    exact ⟨y, h1, h2.imp_right fun ⟨h3, h4⟩ => ⟨(within_refuse h3).1, (within_refuse h3).2, h4⟩⟩

-- all three outcomes occur
example : (readA (.only 2) ((IStream.ofString "123 ".toList, ⟨[7], false⟩), 0)).1 = .error .invalidArgument ∧
    (readA (.only 0) ((IStream.ofString "123 ".toList, ⟨[7], false⟩), 0)).1 = .error .badAlloc ∧
    (readA (.only 99) ((IStream.ofString "123 ".toList, ⟨[7], false⟩), 0)).2.1.2 = ⟨[123], false⟩ := by decide +kernel

/-- C143, what holds of `Int(t)`, whichever requests are refused: it ends as with unlimited memory, except that the number may be zero; or it throws `bad_alloc` or
`invalid_argument`, and this for a numeral only if one of its own requests is refused. The number is right if there is memory for the first digit (the fourth request).

Missing for the full claim: the case that there is no memory for the first digit (see `C143_refuted_string`). -/
theorem C143_string_partial (L : ILuck) (t : List Char) (n : Nat) : match ofStringA L t ((), n) with
    | (.ok x, (_, n')) => ∃ y, ofString t = .ok y ∧ (x = y ∨ (n + 3 < n' ∧ L.refuse (n + 3) = true ∧ x = ⟨[0], false⟩))
    | (.error e, (_, n')) => ofString t = .error e ∨ (L.RefusesIn n n' ∧ (e = .badAlloc ∨ e = .invalidArgument)) := by
  have h0 : n ≤ (ofStringA L t ((), n)).2.2 ∧ ∀ L', Agree L L' n (ofStringA L t ((), n)).2.2 → ofStringA L' t ((), n) = ofStringA L t ((), n) := loc_ofString t L ((), n)
  rcases hm : ofStringA L t ((), n) with ⟨o, ⟨⟩, n'⟩
  rw [hm] at h0
  have h := ofStringA_weak (within L n n') t n
  rw [h0.2 _ (agree_within L n n')] at h
  cases o with
  | error e => exact h.imp_right fun h => ⟨within_refuses h.1, h.2⟩
  | ok x =>
    obtain ⟨y, h1, h2⟩ := h
    exact ⟨y, h1, h2.imp_right fun ⟨h3, h4⟩ => ⟨(within_refuse h3).1, (within_refuse h3).2, h4⟩⟩

example : (ofStringA (.only 4) "123".toList ((), 0)).1 = .error .invalidArgument ∧ (ofStringA (.only 0) "123".toList ((), 0)).1 = .error .badAlloc ∧
    (ofStringA (.only 99) "-12345678901".toList ((), 0)).1 = .ok ⟨[345678901, 12], true⟩ ∧
    (ofStringA (.only 99) "12x".toList ((), 0)).1 = .error .invalidArgument := by decide +kernel

/-- C143, numbers: what `in >> x` stores under refusals, in terms of the text on a good stream. If `in >> x` returns, the text begins with a numeral of `z`, its longest
such prefix is consumed and `x` is canonical and has the value `z` or, if there was no memory for the first digit, zero; or the text begins with no numeral and the stream says so.

Missing for the full claim: as above. -/
theorem C143_numeral_partial {p pre rest : List Char} {z : Int} (hpre : IntText pre z) (hr : NoDigitAhead rest) {x x' : BigInt} {s' : IStream} {n n' : Nat}
    (h : readA L ((⟨p, pre ++ rest, false, false, false⟩, x), n) = (.ok (), ((s', x'), n'))) :
    s' = ⟨pre.reverse ++ p, rest, rest.isEmpty, false, false⟩ ∧ Canon x' ∧ (x'.val = z ∨ (n + 1 < n' ∧ L.refuse (n + 1) = true ∧ x'.val = 0)) := by
  have h1 := C143_stream_partial L ⟨p, pre ++ rest, false, false, false⟩ x n
  rw [h] at h1
  obtain ⟨y, h1, h2⟩ := h1
  obtain ⟨r, r1, r2, r3⟩ := read_ok x (p := p) hpre hr
  have e : goodAt p (pre ++ rest) = ⟨p, pre ++ rest, false, false, false⟩ := rfl
  rw [e, h1] at r1
  cases r1
  rcases h2 with rfl | ⟨h2, h3, rfl⟩
  · exact ⟨rfl, r2, .inl r3⟩
  · exact ⟨rfl, by decide, .inr ⟨h2, h3, rfl⟩⟩

example := C143_numeral_partial (L := .only 99) (p := []) (pre := "-012".toList) (rest := " x".toList) (z := -12) (x := ⟨[7], false⟩) (n := 0) (n' := 9)
  (x' := ⟨[12], true⟩) (s' := ⟨"210-".toList, " x".toList, false, false, false⟩)
  ⟨"012".toList, ⟨by decide, by decide⟩, .inr ⟨rfl, by decide⟩⟩ (by intro c r h; cases h; decide) (by decide +kernel)

/-! ### C144: the object after an exception -/

/-- C144 as stated is false: when reading -1234567890 into a variable that holds 7 runs out of memory, the variable may have no bins, or may hold -1. -/
theorem C144_refuted_no_bins : ∃ n, ∃ k : Nat, ∃ s' : IStream, readA (.only n) ((IStream.ofString "-1234567890".toList, ⟨[7], false⟩), 0) =
    (.error .badAlloc, ((s', ⟨[], true⟩), k)) :=
  ⟨0, 1, ⟨"-".toList, "1234567890".toList, false, false, false⟩, by decide +kernel⟩

theorem C144_refuted_value : ∃ n, ∃ k : Nat, ∃ s' : IStream, readA (.only n) ((IStream.ofString "-1234567890".toList, ⟨[7], false⟩), 0) =
    (.error .badAlloc, ((s', ⟨[1], true⟩), k)) :=
  ⟨16, 17, ⟨"0987654321-".toList, [], true, false, false⟩, by decide +kernel⟩

/-- C144, what holds: after an exception the variable has no bins at all, or it holds the topmost groups of nine digits of the number on the stream: it is a valid object whose value
is the number cut off at some multiple of nine decimal places. In no case does the value of before matter.

Missing for the full claim: that the value of before is kept, or at least that the object is valid in all cases (see the refutations). -/
theorem C144_left_partial {s s' : IStream} {x x' : BigInt} {n n' : Nat} {e : Err} (h : readA L ((s, x), n) = (.error e, ((s', x'), n'))) :
    ∃ s2 y, read s x = .ok (s2, y) ∧ Canon y ∧ (x'.bins = [] ∨ (WF x' ∧ ∃ k, |x'.val| = |y.val| / 1000000000 ^ k ∧ 0 ≤ x'.val * y.val)) := by
  have h1 := readA_ok (L := L) s x n
  rw [h] at h1
  obtain ⟨-, s2, y, hy, hc, hs, low, hl⟩ := h1
  refine ⟨s2, y, hy, hc, ?_⟩
  by_cases hb : x'.bins = []
  · exact .inl hb
  have hbin := hc.1.2
  rw [hl] at hbin
  have hlow : BinsOK low := fun b hb => hbin b (by simp [hb])
  have hx : BinsOK x'.bins := fun b hb => hbin b (by simp [hb])
  refine .inr ⟨⟨hb, hx⟩, low.length, ?_, ?_⟩
  · rw [abs_val (a := x') ⟨hb, hx⟩, abs_val hc.1, hl, mag_append]
    have := mag_lt hlow
    have := mag_nonneg hlow
    rw [Int.add_mul_ediv_left _ _ (by positivity), Int.ediv_eq_zero_of_lt (by assumption) (by assumption), zero_add]
  · rcases hs with hs | hs
    · rw [hs]
      show 0 ≤ x'.val * 0
      simp
    · have h1 := mag_nonneg hx
      have h2 := mag_nonneg hc.1.2
      unfold val
      rw [hs]
      split
      · rw [neg_mul_neg]
        positivity
      · positivity

example := C144_left_partial (L := .only 16) (s := IStream.ofString "-1234567890".toList) (x := ⟨[7], false⟩) (n := 0) (n' := 17) (e := .badAlloc) (x' := ⟨[1], true⟩)
  (s' := ⟨"0987654321-".toList, [], true, false, false⟩) (by decide +kernel)

end CppMaths
