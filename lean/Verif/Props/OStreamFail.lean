import Verif.Proofs.OStreamFail
import Verif.Spec.OutputFail
import Verif.Props.OStream
/-!
# C145: output to a device that fails
-/

namespace CppMaths

variable {D : Device} {d : DStream}

private theorem item_short {b : List Char} (i : OItem) {o : OStream} (h : Short D b d o) : ShortR D b (i.putD D d) (i.put o) := by
  cases i with
  | str s => exact .ok (putStr_short h s)
  | i32 z => exact .ok (putI32_short h z)
  | endl => exact .ok (endl_short h)
  | int x => exact .ok (int_short x h)
  | frac x => exact .ok (frac_short x h)
  | vecInt x => exact vec_short (fun t d o h => int_short t h) x h
  | vecFrac x => exact vec_short (fun t d o h => frac_short t h) x h
  | matInt m => exact mat_short (fun t d o h => int_short t h) m h
  | matFrac m => exact mat_short (fun t d o h => frac_short t h) m h
  | factor f => exact factor_short f h
  | term t => exact term_short t h
  | poly p => exact poly_short p h

private theorem items_short {b : List Char} (is : List OItem) : ∀ {d : DStream} {o : OStream}, Short D b d o →
    ShortR D b (OItem.putAllD D is d) (OItem.putAll is o) := by
  induction is with
  | nil => exact fun h => .ok h
  | cons i is ih => exact fun h => (item_short i h).bind fun d o h => ih h

/-- C145. Whatever is inserted into a stream, in whatever state it is, and whatever its device refuses: output ends as with a perfect device, with an exception exactly
where that one has it. If the stream is good afterwards, it is exactly as with a perfect device; otherwise the text consists of what was there before and a beginning of what should have been
added. A stream that was good is not good afterwards only if the device has refused something. -/
theorem C145_prefix_or_failed (D : Device) (is : List OItem) (d : DStream) : match OItem.putAll is d.o with
    | .ok o => ∃ d', OItem.putAllD D is d = .ok d' ∧ d.o.text <+: d'.o.text ∧ d'.o.text <+: o.text ∧ (d'.o.good = true → d'.o = o) ∧
        (d.o.good = true → d'.o.good = false → o.good = false ∨ D.Fails)
    | .error e => OItem.putAllD D is d = .error e := by
  rcases items_short (D := D) (b := d.o.text) is (d := d) ⟨.inl rfl, List.prefix_refl _⟩ with ⟨d', o, h1, h2, h3, h4⟩ | ⟨e, h1, h2⟩
  · rw [h2]
    refine ⟨d', h1, h4, ?_⟩
    rcases h3 with h3 | ⟨h5, h6, h7⟩
    · exact ⟨by rw [h3], fun _ => h3, fun _ h => .inl (by rw [← h3]; exact h)⟩
    · exact ⟨h7, fun h => (by rw [h5] at h; cases h), fun _ _ => .inr h6⟩
  · rw [h2]
    exact h1

/-- C145, texts: strings, integers, Ints, fractions, vectors, matrices, factors, terms and polynomials inserted into a plain stream whose device may fail. What is
added to the text is a beginning of the sequence of their texts, and all of it if the stream is still good; it is good unless the device refuses something. -/
theorem C145_texts {is : List OItem} {ss : List (List Char)} (h : List.Forall₂ OItem.Text is ss) (hd : d.o.Plain) :
    ∃ d' w, OItem.putAllD D is d = .ok d' ∧ d'.o.text = d.o.text ++ w ∧ w <+: ss.flatten ∧ (d'.o.good = true → w = ss.flatten) ∧
      (d'.o.good = false → D.Fails) := by
  obtain ⟨o, h1, h2, h3, -⟩ := C118_sequences h hd
  have h4 := C145_prefix_or_failed D is d
  rw [h1] at h4
  obtain ⟨d', k1, ⟨w, k2⟩, k3, k4, k5⟩ := h4
  rw [← k2, h2] at k3
  refine ⟨d', w, k1, k2.symm, (List.prefix_append_right_inj _).mp k3, fun hg => ?_, fun hg => ?_⟩
  · rw [k4 hg, h2] at k2
    exact List.append_cancel_left k2
  · rcases k5 hd.1 hg with h | h
    · rw [h3.1] at h
      cases h
    · exact h

-- a device with room for the text, the first group of digits and four more digits
example : OItem.putAllD (.full 2 4) [.str "x = ".toList, .int ⟨[5, 12], false⟩, .endl] ⟨OStream.fresh, 0⟩ =
    .ok ⟨{ OStream.fresh with text := "x = 120000".toList, fill := '0', good := false }, 3⟩ := by decide +kernel
example := C145_texts (D := .full 2 4) (d := ⟨OStream.fresh, 0⟩) (is := [.str "x = ".toList, .int ⟨[5, 12], false⟩]) (ss := ["x = ".toList, numeral 12000000005])
  (.cons (.str _) (.cons (.int (x := ⟨[5, 12], false⟩) (by decide)) .nil)) ⟨rfl, rfl, rfl, rfl, by decide⟩

/-- C145: a device that has failed gets nothing more: once the stream is not good, the text stays as it is for good. -/
theorem C145_silent (is : List OItem) (hd : d.o.good = false) {d' : DStream} (h : OItem.putAllD D is d = .ok d') :
    d'.o.text = d.o.text ∧ d'.o.good = false := by
  have h1 := C145_prefix_or_failed D is d
  rcases hq : OItem.putAll is d.o with e | o
  · rw [hq] at h1
    dsimp only at h1
    rw [h] at h1
    cases h1
  · rw [hq] at h1
    obtain ⟨d2, k1, k2, k3, k4, -⟩ := h1
    rw [h] at k1
    cases k1
    obtain ⟨g1, g2⟩ := C118_failed_stream is hd hq
    rw [g1] at k3
    refine ⟨(k3.eq_of_length (le_antisymm k3.length_le k2.length_le)), ?_⟩
    by_contra hg
    rw [k4 (by simpa using hg)] at hg
    exact hg g2

example : OItem.putAllD (.full 0 0) [.int ⟨[5, 12], true⟩, .endl] ⟨{ OStream.fresh with good := false }, 0⟩ =
    .ok ⟨{ OStream.fresh with good := false, fill := '0', width := 9 }, 0⟩ := by decide +kernel

end CppMaths
