import Verif.Proofs.OStreamAux
import Verif.Proofs.OStream
import Verif.Proofs.FracMem
import Verif.Props.Mat
import Mathlib.Tactic.IntervalCases
import Mathlib.Tactic.Linarith
/-!
# Properties of output through a stream with formatting state (C115-C118)

`OStream` is a stream with its formatting state; see `Verif/Model/OStream.lean`. `OStream.Plain`, `field`, `numeralIn`,
`signedNumeral`, `leadLength` and `OItem.Text` are in `Verif/Spec/Output.lean`.
-/

namespace CppMaths
open BigInt OStream

/-! ### C115: the number that is written -/

/-- C115 as stated is false: with `std::left` the groups of nine digits are padded on the wrong side. -/
theorem C115_refuted_left : ∃ x : BigInt, Canon x ∧ x.val = 1000000005 ∧
    (x.printTo { fresh with adjust := .left }).text = "1500000000".toList := ⟨⟨[5, 1], false⟩, by decide +kernel⟩

/-- C115 as stated is false: with `std::hex` the groups of nine decimal digits are converted separately. -/
theorem C115_refuted_hex : ∃ x : BigInt, Canon x ∧ x.val = 1000000000 ∧ numeralIn 16 1000000000 = "3b9aca00".toList ∧
    (x.printTo { fresh with base := .hex }).text = "1000000000".toList := ⟨⟨[0, 1], false⟩, by decide +kernel⟩

/-- C115 as stated is false: with `std::showpos` every group gets a sign, even that of a negative number. -/
theorem C115_refuted_showpos : (∃ x : BigInt, Canon x ∧ x.val = -5 ∧ (x.printTo { fresh with showpos := true }).text = "-+5".toList) ∧
    ∃ x : BigInt, Canon x ∧ x.val = 1000000005 ∧ (x.printTo { fresh with showpos := true }).text = "+10000000+5".toList :=
  ⟨⟨⟨[5], true⟩, by decide +kernel⟩, ⟨[5, 1], false⟩, by decide +kernel⟩

/-- C115, the part that holds: decimal, no `showpos`, not left-adjusted, no field width. The fill character, `internal`,
`showbase` and `uppercase` make no difference. Missing: the other settings, see the theorems that follow. -/
theorem C115_plain_partial {x : BigInt} (h : Canon x) {o : OStream} (ho : o.Plain) :
    (x.printTo o).text = o.text ++ numeral x.val := by
  rw [printTo_plain h.1 ho, print_canon h]; rfl

example := C115_plain_partial (x := ⟨[5, 0, 12], true⟩) (by decide) (o := { fresh with fill := '*', adjust := .internal, showbase := true })
  ⟨rfl, rfl, rfl, rfl, by decide⟩

/-- C115 under `std::left`: the number is right exactly if no group of nine digits below the highest one needs padding, or it
is all zeros. -/
theorem C115_left_partial {x : BigInt} (h : Canon x) {o : OStream} (ho : o.good = true) (hw : o.width = 0) (hb : o.base = .dec)
    (hs : o.showpos = false) (hl : o.adjust = .left) :
    (x.printTo o).text = o.text ++ numeral x.val ↔
    ∀ j : Nat, 1000000000 ^ (j + 1) ≤ |x.val| →
      |x.val| / 1000000000 ^ j % 1000000000 = 0 ∨ 100000000 ≤ |x.val| / 1000000000 ^ j % 1000000000 := by
  obtain ⟨t, r, e1, e2, e3, e4, e5, e6⟩ := printTo_dec h.1 ho hb hs
  rw [← low_groups h.1 e3 e4 e5 e6 (fun g => g = 0 ∨ 100000000 ≤ g), ← flatten_chunks_iff (BinsOK_cons.mp e3).2, e1,
    ← print_canon h, e2, hl, hw, field_zero, field_zero]
  simp only [written, List.append_cancel_left_eq]
  cases x.negative <;> simp

example := C115_left_partial (x := ⟨[123456789, 0, 12], true⟩) (by decide) (o := { fresh with adjust := .left }) rfl rfl rfl rfl rfl

/-- C115 under `std::hex` and `std::oct` (no prefix, no capitals): numbers below 10^9 in magnitude are right; in hexadecimal
no other number is. -/
theorem C115_base_partial {x : BigInt} (h : Canon x) {o : OStream} (ho : o.good = true) (hw : o.width = 0)
    (hb : o.showbase = false) (hu : o.uppercase = false) :
    (o.base = .oct → |x.val| < 1000000000 → (x.printTo o).text = o.text ++ numeralIn 8 x.val) ∧
    (o.base = .hex → ((x.printTo o).text = o.text ++ numeralIn 16 x.val ↔ |x.val| < 1000000000)) := by
  obtain ⟨t, r, e1, -, e3, e4, e5, -⟩ := print_split h.1
  have hn := low_nil h.1 e3 e4 e5
  have hneg := negative_iff h
  have e3' := BinsOK_cons.mp e3
  have habs := abs_val h.1
  have small : ∀ (b : Nat), (∀ o' : OStream, o'.base = o.base → o'.showbase = false → o'.uppercase = false →
      o'.numParts t = ([], Nat.toDigits b (t % 4294967296).toNat)) → |x.val| < 1000000000 →
      (x.printTo o).text = o.text ++ numeralIn b x.val := by
    intro b hp hv
    have hr := hn.mpr hv
    subst hr
    have ht : (t % 4294967296).toNat = x.val.natAbs := by
      rw [e4] at habs
      simp at habs
      have := Int.natCast_natAbs x.val
      omega
    rw [e1]
    simp only [printBins, numeralIn]
    by_cases hx : x.val < 0
    · rw [if_pos (hneg.mpr hx), if_pos hx, putStr, insert_good ho, putI32, insert_good (by exact ho),
        hp (o.written (o.pad [] ['-']) 0 o.fill) rfl hb hu, pad_nil, pad_nil, hw, ht]
      simp [written, field_zero]
    · rw [if_neg (mt hneg.mp hx), if_neg hx, putI32, insert_good ho, hp _ rfl hb hu, pad_nil, hw, ht]
      simp [written, field_zero]
  refine ⟨fun hbase => small 8 fun o' h1 h2 _ => by simp [numParts, h1, hbase, h2], fun hbase => ⟨fun he => ?_,
    small 16 fun o' h1 h2 h3 => by simp [numParts, h1, hbase, h2, h3]⟩⟩
  by_contra hv
  have hr : r ≠ [] := fun h => hv (hn.mp h)
  -- the text is longer than the number
  have hlen : ∀ (o' : OStream) (l : List Int), 9 * l.length ≤ (binsText l o').length := by
    intro o' l
    induction l with
    | nil => simp
    | cons b bs ih =>
      rw [binsText, List.length_append, List.length_cons]
      have : 9 ≤ (OStream.pad { o' with width := 9, fill := '0' } (o'.numParts b).1 (o'.numParts b).2).length := by
        unfold OStream.pad
        cases o'.adjust <;> simp <;> omega
      omega
  have hpart : ∀ o' : OStream, o'.base = .hex → o'.showbase = false → o'.uppercase = false → o'.width = 0 →
      o'.pad (o'.numParts t).1 (o'.numParts t).2 = Nat.toDigits 16 t.toNat := by
    intro o' h1 h2 h3 h4
    have : o'.numParts t = ([], Nat.toDigits 16 t.toNat) := by
      simp only [numParts, h1, h2, h3]
      simp [show t % 4294967296 = t by omega]
    rw [this, pad_nil, h4, field_zero]
  have htext : ∃ o', (x.printTo o).text = o.text ++ ((if x.negative then ['-'] else []) ++ Nat.toDigits 16 t.toNat ++ binsText r o') := by
    rw [e1]
    cases x.negative
    · simp only [Bool.false_eq_true, if_false]
      rw [putI32, insert_good ho, printBins_good _ (by exact ho), hpart o hbase hb hu hw]
      exact ⟨o.written (Nat.toDigits 16 t.toNat) 0 o.fill, by simp only [written, List.append_assoc, List.nil_append]⟩
    · simp only [if_true]
      rw [putStr, insert_good ho, putI32, insert_good (by exact ho), printBins_good _ (by exact ho), hpart (o.written (o.pad [] ['-']) 0 o.fill) hbase hb hu rfl, pad_nil, hw, field_zero]
      exact ⟨(o.written ['-'] 0 o.fill).written (Nat.toDigits 16 t.toNat) 0 (o.written ['-'] 0 o.fill).fill, by simp only [written, List.append_assoc]⟩
  obtain ⟨o', ht⟩ := htext
  rw [ht, List.append_cancel_left_eq] at he
  have hL := congrArg List.length he
  rw [List.length_append, List.length_append] at hL
  have hr1 := hlen o' r
  have hd : (numeralIn 16 x.val).length = (if x.negative then ['-'] else []).length + (Nat.toDigits 16 x.val.natAbs).length := by
    unfold numeralIn
    by_cases hx : x.val < 0
    · rw [if_pos hx, if_pos (hneg.mpr hx)]; simp; omega
    · rw [if_neg hx, if_neg (mt hneg.mp hx)]; simp
  have hr2 : 0 < r.length := List.length_pos_iff.mpr hr
  have hle : (Nat.toDigits 16 x.val.natAbs).length ≤ (Nat.toDigits 16 t.toNat).length + 8 * r.length := by
    rw [digits_length_le (by norm_num) (by omega)]
    have h1 : t.toNat < 16 ^ (Nat.toDigits 16 t.toNat).length :=
      (digits_length_le (by norm_num) Nat.length_toDigits_pos).mp le_rfl
    have h2 := mag_lt (BinsOK_reverse.mpr e3'.2)
    rw [List.length_reverse] at h2
    have h3 : (B : Int) ^ r.length ≤ (16 ^ 8) ^ r.length := pow_le_pow_left₀ (by norm_num) (by norm_num) _
    have h4 : (0 : Int) < B ^ r.length := by positivity
    have h5 : (t + 1 : Int) ≤ 16 ^ (Nat.toDigits 16 t.toNat).length := by
      have : ((t.toNat : Nat) : Int) < ((16 ^ (Nat.toDigits 16 t.toNat).length : Nat) : Int) := by exact_mod_cast h1
      push_cast at this
      omega
    have h6 : (0 : Int) ≤ t + 1 := by omega
    have : (x.val.natAbs : Int) < 16 ^ ((Nat.toDigits 16 t.toNat).length + 8 * r.length) := by
      rw [Int.natCast_natAbs, habs, e4, pow_add, pow_mul]
      calc B ^ r.length * t + mag r.reverse < B ^ r.length * (t + 1) := by linarith
        _ ≤ (16 ^ 8) ^ r.length * (t + 1) := mul_le_mul_of_nonneg_right h3 h6
        _ ≤ (16 ^ 8) ^ r.length * 16 ^ (Nat.toDigits 16 t.toNat).length := mul_le_mul_of_nonneg_left h5 (by positivity)
        _ = _ := mul_comm _ _
    exact_mod_cast this
  rw [hd] at hL
  omega

example := C115_base_partial (x := ⟨[255], true⟩) (by decide) (o := { fresh with base := .hex }) rfl rfl rfl rfl

/-- C115 under `std::showpos`: right (a sign in front of the numeral) exactly for the numbers from 0 to 10^9 - 1. -/
theorem C115_showpos_partial {x : BigInt} (h : Canon x) {o : OStream} (ho : o.good = true) (hw : o.width = 0) (hb : o.base = .dec)
    (hs : o.showpos = true) : (x.printTo o).text = o.text ++ signedNumeral x.val ↔ 0 ≤ x.val ∧ x.val < 1000000000 := by
  obtain ⟨t, r, e1, -, e3, e4, e5, -⟩ := print_split h.1
  have hn := low_nil h.1 e3 e4 e5
  have hneg := negative_iff h
  have e3' := BinsOK_cons.mp e3
  have habs := abs_val h.1
  have hnp : ∀ (o' : OStream) (b : Int), 0 ≤ b → o'.base = .dec → o'.showpos = true →
      o'.numParts b = (['+'], Nat.toDigits 10 b.natAbs) := by
    intro o' b hb0 h1 h2
    simp [numParts, h1, h2, not_lt.mpr hb0]
  have hcount : ∀ (l : List Int), BinsOK l → ∀ o' : OStream, o'.base = .dec → o'.showpos = true →
      List.count '+' (binsText l o') = l.length := by
    intro l hl o' h1 h2
    induction l with
    | nil => rfl
    | cons b bs ih =>
      rw [BinsOK_cons] at hl
      rw [binsText, List.count_append, ih hl.2, hnp o' b hl.1.1 h1 h2, List.length_cons]
      dsimp only
      have : List.count '+' (OStream.pad { o' with width := 9, fill := '0' } ['+'] (Nat.toDigits 10 b.natAbs)) = 1 := by
        unfold OStream.pad
        cases o'.adjust <;> simp [List.count_append, List.count_cons, not_plus_digits, List.count_replicate]
      omega
  have hpad : ∀ o' : OStream, o'.width = 0 → o'.base = .dec → o'.showpos = true →
      o'.pad (o'.numParts t).1 (o'.numParts t).2 = '+' :: Nat.toDigits 10 t.natAbs := by
    intro o' h0 h1 h2
    rw [hnp o' t e3'.1.1 h1 h2]
    unfold OStream.pad
    rw [h0]
    cases o'.adjust <;> simp
  have htext : ∃ o' : OStream, o'.base = .dec ∧ o'.showpos = true ∧ (x.printTo o).text =
      o.text ++ ((if x.negative then ['-'] else []) ++ '+' :: Nat.toDigits 10 t.natAbs ++ binsText r o') := by
    rw [e1]
    cases x.negative
    · simp only [Bool.false_eq_true, if_false]
      rw [putI32, insert_good ho, printBins_good _ (by exact ho), hpad o hw hb hs]
      exact ⟨o.written ('+' :: Nat.toDigits 10 t.natAbs) 0 o.fill, hb, hs, by simp only [written, List.append_assoc, List.nil_append]⟩
    · simp only [if_true]
      rw [putStr, insert_good ho, putI32, insert_good (by exact ho), printBins_good _ (by exact ho), hpad (o.written (o.pad [] ['-']) 0 o.fill) rfl hb hs, pad_nil, hw, field_zero]
      exact ⟨(o.written ['-'] 0 o.fill).written ('+' :: Nat.toDigits 10 t.natAbs) 0 (o.written ['-'] 0 o.fill).fill, hb, hs, by simp only [written, List.append_assoc]⟩
  obtain ⟨o', h1, h2, ht⟩ := htext
  rw [ht, List.append_cancel_left_eq]
  constructor
  · intro he
    have hc := congrArg (List.count '+') he
    rw [List.count_append, List.count_append, hcount r e3'.2 o' h1 h2, List.count_cons_self, not_plus_digits] at hc
    by_cases hx : x.val < 0
    · have : List.count '+' (signedNumeral x.val) = 0 := by
        rw [signedNumeral, if_pos hx, numeral, if_pos hx, List.count_cons_of_ne (by decide), not_plus_digits]
      omega
    · have : List.count '+' (signedNumeral x.val) = 1 := by
        rw [signedNumeral, if_neg hx, numeral, if_neg hx, List.count_cons_self, not_plus_digits]
      have hr : r = [] := List.length_eq_zero_iff.mp (by omega)
      have := hn.mp hr
      rw [abs_of_nonneg (by omega)] at this
      omega
  · rintro ⟨hx0, hx1⟩
    have hr : r = [] := hn.mpr (by rw [abs_of_nonneg hx0]; exact hx1)
    have hneg' : x.negative = false := by
      have := mt hneg.mp (by omega : ¬x.val < 0)
      simpa using this
    subst hr
    have : t.natAbs = x.val.natAbs := by
      rw [e4, abs_of_nonneg hx0] at habs
      simp at habs
      rw [habs]
    rw [hneg', signedNumeral, if_neg (not_lt.mpr hx0), numeral, if_neg (not_lt.mpr hx0), this]
    simp [binsText]

example : (({ fresh with fill := '*', adjust := .internal, showbase := true } : OStream).Plain) ∧
    ((⟨[5, 0, 12], true⟩ : BigInt).printTo { fresh with fill := '*', adjust := .internal, showbase := true }).text =
      "-12000000000000000005".toList := ⟨⟨rfl, rfl, rfl, rfl, by decide⟩, by decide +kernel⟩
example : ((⟨[123456789, 0, 12], true⟩ : BigInt).printTo { fresh with adjust := .left }).text = "-12000000000123456789".toList ∧
    ((⟨[255], true⟩ : BigInt).printTo { fresh with base := .hex }).text = "-ff".toList ∧
    ((⟨[255], true⟩ : BigInt).printTo { fresh with base := .oct }).text = "-377".toList ∧
    ((⟨[255], false⟩ : BigInt).printTo { fresh with showpos := true }).text = "+255".toList := by decide +kernel

/-! ### C116: field width -/

/-- C116 as stated is false: in `out << setw(6) << x` the width is used up by the sign of a negative number, or by the
highest group of digits of a number with more than nine. -/
theorem C116_refuted : (∃ x : BigInt, Canon x ∧ x.val = -5 ∧ (x.printTo (fresh.setw 6)).text = "     -5".toList ∧
      field .right 6 ' ' (numeral (-5)) = "    -5".toList) ∧
    (∃ x : BigInt, Canon x ∧ x.val = -5 ∧ (x.printTo { fresh with width := 6, adjust := .left }).text = "-     5".toList) ∧
    ∃ x : BigInt, Canon x ∧ x.val = 1234567890 ∧ (x.printTo (fresh.setw 6)).text = "     1234567890".toList :=
  ⟨⟨⟨[5], true⟩, by decide +kernel⟩, ⟨⟨[5], true⟩, by decide +kernel⟩, ⟨[234567890, 1], false⟩, by decide +kernel⟩

/-- C116, the part that holds: numbers from 0 to 10^9 - 1 are put into the field as they should, on either side. Other numbers
are preceded by the padding that their first part, of `leadLength` characters, would need; they are right exactly if none is
needed. Missing: the numbers excluded by that. -/
theorem C116_width_partial {x : BigInt} (h : Canon x) {o : OStream} (ho : o.good = true) (hb : o.base = .dec) (hs : o.showpos = false) :
    (0 ≤ x.val → x.val < 1000000000 → (x.printTo o).text = o.text ++ field o.adjust o.width o.fill (numeral x.val)) ∧
    (o.adjust ≠ .left → (x.printTo o).text = o.text ++ (List.replicate (o.width - leadLength x.val) o.fill ++ numeral x.val)) ∧
    (o.adjust ≠ .left → ((x.printTo o).text = o.text ++ field o.adjust o.width o.fill (numeral x.val) ↔
      (0 ≤ x.val ∧ x.val < 1000000000) ∨ o.width ≤ leadLength x.val)) := by
  obtain ⟨t, r, e1, e2, e3, e4, e5, -⟩ := printTo_dec h.1 ho hb hs
  have hn := low_nil h.1 e3 e4 e5
  have hneg := negative_iff h
  have e3' := BinsOK_cons.mp e3
  rw [print_canon h] at e2
  have htl : (Nat.toDigits 10 t.natAbs).length ≤ 9 := (digits_length_le (by norm_num) (by norm_num)).mpr (by norm_num; omega)
  have htp : 0 < (Nat.toDigits 10 t.natAbs).length := Nat.length_toDigits_pos
  have hlen : (numeral x.val).length = (if x.negative then ['-'] else []).length + (Nat.toDigits 10 t.natAbs).length + 9 * r.length := by
    rw [e2, List.length_append, List.length_append, chunks_length _ e3'.2]
  have hlead : leadLength x.val = if x.negative then 1 else (Nat.toDigits 10 t.natAbs).length := by
    unfold leadLength
    by_cases hx : x.val < 0
    · rw [if_pos hx, if_pos (hneg.mpr hx)]
    · have hf := mt hneg.mp hx
      rw [if_neg hf] at hlen ⊢
      rw [if_neg hx, hlen]
      simp only [List.length_nil]
      omega
  have hgen : o.adjust ≠ .left → (x.printTo o).text = o.text ++ (List.replicate (o.width - leadLength x.val) o.fill ++ numeral x.val) := by
    intro ha
    rw [e1, e2, hlead, field_append ha, field_append ha, chunk_right ha]
    cases x.negative <;> simp [written]
  refine ⟨fun h0 h1 => ?_, hgen, fun ha => ?_⟩
  · have hr : r = [] := hn.mpr (by rw [abs_of_nonneg h0]; exact h1)
    have hf := mt hneg.mp (by omega : ¬x.val < 0)
    rw [e1, e2, if_neg hf, if_neg hf, hr]
    simp [written]
  · rw [hgen ha, field_append ha, List.append_cancel_left_eq, List.append_cancel_right_eq, List.replicate_inj]
    have hcond : (0 ≤ x.val ∧ x.val < 1000000000) ↔ leadLength x.val = (numeral x.val).length := by
      rw [hlead, hlen]
      constructor
      · rintro ⟨h0, h1⟩
        have hr : r = [] := hn.mpr (by rw [abs_of_nonneg h0]; exact h1)
        have hf := mt hneg.mp (by omega : ¬x.val < 0)
        rw [if_neg hf, if_neg hf, hr]; simp
      · intro he
        by_cases hx : x.negative = true
        · rw [if_pos hx, if_pos hx] at he
          simp at he
          omega
        · rw [if_neg hx, if_neg hx] at he
          simp only [List.length_nil] at he
          have hr : r = [] := List.length_eq_zero_iff.mp (by omega)
          have h1 := hn.mp hr
          have h0 : 0 ≤ x.val := by
            by_contra hc
            exact hx (hneg.mpr (by omega))
          rw [abs_of_nonneg h0] at h1
          exact ⟨h0, h1⟩
    have hle : leadLength x.val ≤ (numeral x.val).length := by
      rw [hlead, hlen]
      split <;> simp <;> omega
    rw [hcond]
    constructor
    · rintro ⟨he, _⟩
      omega
    · intro hc
      have : o.width - leadLength x.val = o.width - (numeral x.val).length := by omega
      exact ⟨this, .inr rfl⟩

example := C116_width_partial (x := ⟨[42], true⟩) (by decide) (o := { fresh with width := 6, fill := '.', adjust := .internal }) rfl rfl rfl

/-- C115 and C116, what the code does in every formatting state of a good stream: the digits of the magnitude in base 10^9 are written one
after the other as built-in integers would be, the lower ones in fields of nine characters filled with `0`. The pending width goes to the
sign of a negative number, otherwise to the highest group. The stream is otherwise as in C117. Missing for the claims: that this is the right
text, which it is in the cases given by the other theorems. -/
theorem C116_every_state_partial {x : BigInt} (h : Canon x) {o : OStream} (ho : o.good = true) :
    (x.printTo o).text = o.text ++
      ((if x.val < 0 then field o.adjust o.width o.fill ['-'] else []) ++
      match (Nat.digits 1000000000 x.val.natAbs).reverse with
      | [] => smallText o o.width o.fill 0
      | t :: r => smallText o (if x.val < 0 then 0 else o.width) o.fill t ++ (r.map (smallText o 9 '0')).flatten) := by
  obtain ⟨t, r, h1, -, h3, h4, h5, -⟩ := print_split h.wf
  have hneg : x.negative = true ↔ x.val < 0 := h.neg_iff
  have h3' := BinsOK_cons.mp h3
  have habs : (x.val.natAbs : Int) = B ^ r.length * t + mag r.reverse := by rw [Int.natCast_natAbs, abs_val h.wf, h4]
  have hd : match (Nat.digits 1000000000 x.val.natAbs).reverse with
      | [] => t = 0 ∧ r = []
      | t' :: r' => t' = t.toNat ∧ r' = r.map Int.toNat := by
    by_cases ht : t = 0
    · have hr := h5 ht
      rw [ht, hr] at habs
      have : x.val.natAbs = 0 := by simpa using habs
      rw [this]
      exact ⟨ht, hr⟩
    · have hb : BinsOK (r.reverse ++ [t]) := by rw [BinsOK_append, BinsOK_reverse, BinsOK_cons]; exact ⟨h3'.2, h3'.1, by decide⟩
      have hm : x.val.natAbs = Nat.ofDigits 1000000000 ((r.reverse ++ [t]).map Int.toNat) := by
        have := mag_ofDigits hb
        rw [mag_append, List.length_reverse, mag_cons, mag_nil] at this
        have e : (x.val.natAbs : Int) = (Nat.ofDigits 1000000000 ((r.reverse ++ [t]).map Int.toNat) : Nat) := by
          rw [← this, habs]; ring
        exact_mod_cast e
      rw [hm, Nat.digits_ofDigits _ (by norm_num)]
      · simp
      · intro l hl
        obtain ⟨b, hb', rfl⟩ := List.mem_map.mp hl
        have := hb b hb'
        have h2 : b < 1000000000 := this.2
        omega
      · intro hl
        simp only [List.map_append, List.map_cons, List.map_nil, List.getLast_append_singleton]
        have := h3'.1.1
        omega
  have key : ∀ o' : OStream, o'.good = true → (printBins r (o'.putI32 t)).text = o'.text ++
      (smallText o' o'.width o'.fill t.toNat ++ ((r.map Int.toNat).map (smallText o' 9 '0')).flatten) := by
    intro o' ho'
    rw [putI32, insert_good ho', printBins_good _ (by exact ho'), binsText_small h3'.2]
    have e := pad_smallText (o := o') h3'.1.1 h3'.1.2 o'.width o'.fill
    simp only [written, List.append_assoc]
    rw [show o'.pad (o'.numParts t).1 (o'.numParts t).2 = _ from e]
    rfl
  rw [h1]
  have e2 : ∀ t : Nat, ∀ r : List Nat, (match (Nat.digits 1000000000 x.val.natAbs).reverse with
      | [] => t = 0 ∧ r = []
      | t' :: r' => t' = t ∧ r' = r) → (match (Nat.digits 1000000000 x.val.natAbs).reverse with
      | [] => smallText o o.width o.fill 0
      | t :: r => smallText o (if x.val < 0 then 0 else o.width) o.fill t ++ (r.map (smallText o 9 '0')).flatten) =
      smallText o (if x.val < 0 then 0 else o.width) o.fill t ++ (r.map (smallText o 9 '0')).flatten := by
    intro t r ht
    cases hl : (Nat.digits 1000000000 x.val.natAbs).reverse with
    | nil =>
      rw [hl] at ht
      have hz : ¬x.val < 0 := by
        have : Nat.digits 1000000000 x.val.natAbs = [] := by simpa using hl
        rw [Nat.digits_eq_nil_iff_eq_zero] at this
        omega
      simp [hz, ht.1, ht.2]
    | cons t' r' =>
      rw [hl] at ht
      simp only [ht.1, ht.2]
  rw [e2 t.toNat (r.map Int.toNat) (by
    revert hd
    cases (Nat.digits 1000000000 x.val.natAbs).reverse with
    | nil => rintro ⟨rfl, rfl⟩; exact ⟨rfl, rfl⟩
    | cons t' r' => exact id)]
  by_cases hn : x.val < 0
  · rw [if_pos (hneg.mpr hn), if_pos hn, if_pos hn, key _ (by rw [putStr, insert_good ho]; exact ho), putStr, insert_good ho, pad_nil]
    simp only [written, List.append_assoc]
    rfl
  · rw [if_neg (fun h => hn (hneg.mp h)), if_neg hn, if_neg hn, key o ho]
    rfl

/-- Octal, with a prefix, left-adjusted and filled: `-5000000012`. -/
example := C116_every_state_partial (x := ⟨[12, 5], true⟩) (by decide) (o := { fresh with width := 4, fill := '.', adjust := .left, base := .oct, showbase := true }) rfl
example : ((⟨[12, 5], true⟩ : BigInt).printTo { fresh with width := 4, fill := '.', adjust := .left, base := .oct, showbase := true }).text =
    "-...05014000000".toList := by decide +kernel

/-- C116, the part that holds under `showpos` and `showbase`: numbers from 0 to 10^9 - 1 get the sign or the prefix and the padding
where they should be. -/
theorem C116_prefix_partial {x : BigInt} (h : Canon x) (h0 : 0 ≤ x.val) (h1 : x.val < 1000000000) {o : OStream} (ho : o.good = true) :
    (o.base = .dec → o.showpos = true → (x.printTo o).text = o.text ++ prefixField o.adjust o.width o.fill ['+'] (numeral x.val)) ∧
    (o.base = .hex → o.showbase = true → o.uppercase = false → 0 < x.val →
      (x.printTo o).text = o.text ++ prefixField o.adjust o.width o.fill ['0', 'x'] (numeralIn 16 x.val)) ∧
    (o.base = .oct → o.showbase = true → 0 < x.val →
      (x.printTo o).text = o.text ++ prefixField o.adjust o.width o.fill [] ('0' :: numeralIn 8 x.val)) := by
  obtain ⟨t, r, e1, -, e3, e4, e5, -⟩ := print_split h.1
  have hr : r = [] := (low_nil h.1 e3 e4 e5).mpr (by rw [abs_of_nonneg h0]; exact h1)
  have hf : x.negative = false := by
    have := mt (negative_iff h).mp (by omega : ¬x.val < 0)
    simpa using this
  have e3' := BinsOK_cons.mp e3
  have ht : t = x.val := by
    have := abs_val h.1
    rw [abs_of_nonneg h0, e4, hr] at this
    simpa using this.symm
  have hpad : ∀ pre body : List Char, o.pad pre body = prefixField o.adjust o.width o.fill pre body := fun pre body => by
    unfold OStream.pad prefixField field
    cases o.adjust <;> simp
  have hp : (x.printTo o).text = o.text ++ prefixField o.adjust o.width o.fill (o.numParts x.val).1 (o.numParts x.val).2 := by
    rw [e1, hr, hf, ← hpad, ← ht]
    simp only [Bool.false_eq_true, if_false, printBins]
    rw [putI32, insert_good ho]
    rfl
  have hm : x.val % 4294967296 = x.val := Int.emod_eq_of_lt h0 (by omega)
  have hna : x.val.toNat = x.val.natAbs := by omega
  refine ⟨fun a b => ?_, fun a b c d => ?_, fun a b c => ?_⟩
  · rw [hp]
    simp [numParts, a, b, not_lt.mpr h0, numeral]
  · rw [hp]
    simp [numParts, a, b, c, d.ne', hm, hna, numeralIn, not_lt.mpr h0]
  · rw [hp]
    simp [numParts, a, b, c.ne', hm, hna, numeralIn, not_lt.mpr h0]

example : ((⟨[42], false⟩ : BigInt).printTo { fresh with width := 6, fill := '.', showpos := true, adjust := .internal }).text = "+...42".toList ∧
    ((⟨[42], false⟩ : BigInt).printTo { fresh with width := 6, fill := '.', showpos := true }).text = "...+42".toList ∧
    ((⟨[42], false⟩ : BigInt).printTo { fresh with width := 6, fill := '.', base := .hex, showbase := true, adjust := .internal }).text =
      "0x..2a".toList ∧
    ((⟨[42], false⟩ : BigInt).printTo { fresh with width := 6, fill := '.', base := .oct, showbase := true, adjust := .internal }).text =
      "...052".toList := by decide +kernel

example : ((⟨[42], false⟩ : BigInt).printTo { fresh with width := 6, fill := '.' }).text = "....42".toList ∧
    ((⟨[42], false⟩ : BigInt).printTo { fresh with width := 6, fill := '.', adjust := .left }).text = "42....".toList ∧
    leadLength 1234567890 = 1 ∧ leadLength 12345678901 = 2 ∧ leadLength 42 = 2 ∧ leadLength (-42) = 1 := by decide +kernel

/-! ### C117: what becomes of the formatting state -/

/-- C117 as stated is false: after a number of more than nine digits has been printed the fill character is `0`, and
`out << x << ' ' << setw(5) << 7` pads with zeros. -/
theorem C117_refuted : ∃ x : BigInt, Canon x ∧ x.val = 1000000000 ∧ (x.printTo fresh).fill = '0' ∧
    ((((x.printTo fresh).putStr [' ']).setw 5).putI32 7).text = "1000000000 00007".toList ∧
    (((((BigInt.mk [5] false).printTo fresh).putStr [' ']).setw 5).putI32 7).text = "5     7".toList :=
  ⟨⟨[0, 1], false⟩, by decide +kernel⟩

/-- C117 as stated is false: on a stream that is not good even a field width of 9 stays behind. -/
theorem C117_refuted_failed_stream : ∃ x : BigInt, Canon x ∧ (x.printTo { fresh with good := false }).width = 9 :=
  ⟨⟨[0, 1], false⟩, by decide +kernel⟩

/-- C117, the part that holds: all that printing an `Int` changes besides the characters is the width, which is 0 after any
formatted output, and the fill character, which becomes `0` exactly if the magnitude is at least 10^9. On a stream that is
not good nothing is written, and nothing changes for numbers below 10^9 in magnitude. Whatever the formatting state.
Missing: numbers of more than nine digits. -/
theorem C117_state_partial {x : BigInt} (h : Canon x) (o : OStream) :
    (o.good = true → ∃ s, x.printTo o = { o with text := o.text ++ s, width := 0, fill := if |x.val| < 1000000000 then o.fill else '0' }) ∧
    (o.good = false → x.printTo o = if |x.val| < 1000000000 then o else { o with width := 9, fill := '0' }) :=
  ⟨fun ho => by
    obtain ⟨s, e⟩ := printTo_good h.1 ho
    exact ⟨s, e⟩, fun ho => printTo_bad h.1 ho⟩

example := C117_state_partial (x := ⟨[42, 1], true⟩) (by decide) { fresh with width := 6, fill := '.', adjust := .internal }

/-- C117 for vectors and fractions of numbers below 10^9 in magnitude: the fill character is not touched. -/
theorem C117_small_entries {o : OStream} (ho : o.Plain) :
    (∀ x : List BigInt, (∀ a ∈ x, Canon a ∧ |a.val| < 1000000000) →
      ∃ s, Vec.printTo BigInt.printTo x o = .ok { o with text := o.text ++ s }) ∧
    (∀ x : Frac, x.Valid → |x.value.num| < 1000000000 → x.value.den < 1000000000 → ∃ s, x.printTo o = { o with text := o.text ++ s }) := by
  constructor
  · intro x hx
    obtain ⟨o', e, f, hf, rfl⟩ := Vec.printTo_tracks (z := False) (pr := BigInt.print) (prTo := BigInt.printTo) (x := x)
      (fun a ha o ho => BigInt.printTo_after (hx a ha).1.1 (fun h => by have := (hx a ha).2; omega) ho) ho _ (Vec.print_eq _ x)
    rcases hf with rfl | ⟨hf, _⟩
    · exact ⟨_, e⟩
    · exact hf.elim
  · intro x hx h1 h2
    have v1 := hx.num
    have v2 := hx.den
    obtain ⟨f, hf, e⟩ := Frac.printTo_after (z := False) ⟨hx.1.1, hx.2.1.1⟩ (fun h => by
      rw [← v1, ← v2] at h
      rcases h with h | h
      · omega
      · rw [abs_of_nonneg (by positivity)] at h; omega) ho
    rcases hf with rfl | ⟨hf, _⟩
    · exact ⟨_, e⟩
    · exact hf.elim

example : Canon ⟨[5], true⟩ ∧ (⟨[5], true⟩ : BigInt).printTo { fresh with fill := '*' } = { fresh with fill := '*', text := "-5".toList } ∧
    Vec.printTo BigInt.printTo [⟨[5], true⟩, ⟨[7], false⟩] { fresh with fill := '*' } =
      .ok { fresh with fill := '*', text := "(-5, 7)".toList } := by decide +kernel

/-! ### C118: several insertions into one stream -/

/-- C118. However many strings, integers, `Int`s, fractions, vectors, matrices, factors, terms and polynomials are inserted
into a plain stream, what is written is the sequence of their texts: that an `Int` leaves another fill character behind does
not matter. The stream stays plain. -/
theorem C118_sequences {is : List OItem} {ss : List (List Char)} (h : List.Forall₂ OItem.Text is ss) {o : OStream} (ho : o.Plain) :
    ∃ o', OItem.putAll is o = .ok o' ∧ o'.text = o.text ++ ss.flatten ∧ o'.Plain ∧ (o'.fill = o.fill ∨ o'.fill = '0') := by
  suffices ∃ o', OItem.putAll is o = .ok o' ∧ After True o ss.flatten o' by
    obtain ⟨o', e, a⟩ := this
    have hp := a.plain ho
    obtain ⟨f, hf, rfl⟩ := a
    exact ⟨_, e, rfl, hp, hf.imp_right fun h => h.2⟩
  induction h generalizing o with
  | nil => exact ⟨o, rfl, After.refl o⟩
  | cons h1 _ ih =>
    obtain ⟨o1, e1, a1⟩ := item_tracks h1 ho
    obtain ⟨o2, e2, a2⟩ := ih (a1.plain ho)
    refine ⟨o2, ?_, a1.trans a2⟩
    rw [OItem.putAll, e1]; exact e2

example : List.Forall₂ OItem.Text
      [.str "x = ".toList, .int ⟨[0, 1], false⟩, .endl, .vecInt [⟨[5], false⟩, ⟨[7], true⟩], .frac ⟨⟨[1], true⟩, ⟨[2], false⟩⟩]
      ["x = ".toList, "1000000000".toList, ['\n'], "(5, -7)".toList, ratioText (Frac.value ⟨⟨[1], true⟩, ⟨[2], false⟩⟩)] ∧
    OItem.putAll [.str "x = ".toList, .int ⟨[0, 1], false⟩, .endl, .vecInt [⟨[5], false⟩, ⟨[7], true⟩], .frac ⟨⟨[1], true⟩, ⟨[2], false⟩⟩]
      fresh = .ok { fresh with text := "x = 1000000000\n(5, -7)(-1/2)".toList, fill := '0' } :=
  ⟨.cons (.str _) (.cons (.int (x := ⟨[0, 1], false⟩) (by decide)) (.cons .endl (.cons (.vecInt (x := [⟨[5], false⟩, ⟨[7], true⟩]) (by decide))
    (.cons (.frac (by decide +kernel)) .nil)))), by decide +kernel⟩

/-! ### Streams that are not good -/

/-- C118, on a stream that is not good: whatever is inserted, nothing is written. For any objects and any formatting state. -/
theorem C118_failed_stream (is : List OItem) : ∀ {o o' : OStream}, o.good = false → OItem.putAll is o = .ok o' →
    o'.text = o.text ∧ o'.good = false := by
  suffices ∀ {o : OStream}, o.good = false → Out (fun _ => True) (OItem.putAll is o) (Mute o) by
    intro o o' h e
    rcases this h with ⟨a, e', ha⟩ | ⟨er, e', _⟩
    · rw [e] at e'; cases e'; exact ⟨ha.2, ha.1⟩
    · rw [e] at e'; cases e'
  induction is with
  | nil => intro o h; exact Out.ok ⟨h, rfl⟩
  | cons i is ih =>
    intro o h
    have hi : Out (fun _ => True) (i.put o) (Mute o) := by
      cases i with
      | str s => exact Out.ok (insert_mute h _ _)
      | i32 z => exact Out.ok (insert_mute h _ _)
      | endl => exact Out.ok (by unfold OStream.endl; rw [h]; exact ⟨h, rfl⟩)
      | int x => exact Out.ok (int_mute x h)
      | frac x => exact Out.ok (frac_mute x h)
      | vecInt x => exact vec_mute (fun t o h => int_mute t h) x h
      | vecFrac x => exact vec_mute (fun t o h => frac_mute t h) x h
      | matInt m => exact mat_mute (fun t o h => int_mute t h) m h
      | matFrac m => exact mat_mute (fun t o h => frac_mute t h) m h
      | factor f => exact factor_mute f h
      | term t => exact term_mute t h
      | poly p => exact poly_mute p h
    exact Out.bind hi fun o' a => (ih a.1).mono fun o'' a' => a.trans a'

example : OItem.putAll [.int ⟨[5], true⟩, .frac ⟨⟨[1], true⟩, ⟨[2], false⟩⟩, .matInt ⟨1, 1, [some ⟨[7], false⟩]⟩] { fresh with good := false } =
    .ok { fresh with good := false } := by decide +kernel

end CppMaths

