import Verif.Proofs.IntMem
import Verif.Proofs.IntText
/-!
# Further properties of `Int` (C89-C91)

Queries, shifted copies, and reading several numbers from one stream.
-/

namespace CppMaths
open BigInt

/-! ### C89: parity and sign -/

/-- C89 as stated is false: after `x = 0; x *= -5` the number is zero, but `is_negative()` says `true`. -/
theorem C89_refuted : ∃ x y r : BigInt, Canon x ∧ Canon y ∧ mulAssign x y = .ok r ∧ r.val = 0 ∧ r.isNegative = true :=
  ⟨⟨[0], false⟩, ⟨[5], true⟩, ⟨[0], true⟩, by decide, by decide, by decide, by decide, by decide⟩

/-- C89, the part that holds: `is_odd()` tells whether the value is odd, for positive and negative numbers and whatever the
representation; `is_negative()` tells whether a canonical number is below zero. For other well-formed objects it can
only err on a zero.
Missing: `is_negative()` of a zero that is not canonical (see `C89_refuted`). -/
theorem C89_parity_sign_partial {x : BigInt} (hx : WF x) :
    (∃ b, x.isOdd = .ok b ∧ (b = true ↔ ∃ k : Int, x.val = 2 * k + 1)) ∧
    (Canon x → (x.isNegative = true ↔ x.val < 0)) ∧
    (x.val < 0 → x.isNegative = true) ∧ (0 < x.val → x.isNegative = false) := by
  have hm := mag_nonneg hx.2
  refine ⟨⟨_, isOdd_spec hx, ?_⟩, fun hc => hc.neg_iff, fun h => ?_, fun h => ?_⟩
  · rw [decide_eq_true_iff]
    unfold val
    split
    · constructor
      · intro h; exact ⟨-(mag x.bins / 2) - 1, by omega⟩
      · rintro ⟨k, hk⟩; omega
    · constructor
      · intro h; exact ⟨mag x.bins / 2, by omega⟩
      · rintro ⟨k, hk⟩; omega
  · unfold isNegative
    by_contra hn
    rw [val_of_not_neg (by simpa using hn)] at h
    omega
  · unfold isNegative
    by_contra hn
    rw [val_of_neg (by simpa using hn)] at h
    omega

example : WF ⟨[7, 2, 0], true⟩ ∧ isOdd ⟨[7, 2, 0], true⟩ = .ok true ∧ Canon ⟨[8, 3], true⟩ ∧ isOdd ⟨[8, 3], true⟩ = .ok false ∧
    isNegative ⟨[8, 3], true⟩ = true := by decide

/-! ### C90: shifted copies -/

/-- C90 as stated is false for zero: `Int(Int(0), 1)` has a leading zero bin, and subtracting 1 from it in place aborts. -/
theorem C90_refuted : ∃ x : BigInt, Canon x ∧ ¬Canon (ofShift x 1) ∧ subAssign (ofShift x 1) ⟨[1], false⟩ = .error .assertion :=
  ⟨⟨[0], false⟩, by decide, by decide, by decide⟩

/-- C90, the part that holds: `Int(x, s)` has the value `x * 10^(9 s)`, and is canonical if `x` is and is not zero; with
`s = 0` it is `x` itself.
Missing: the canonical form for a zero (see `C90_refuted`). -/
theorem C90_shifted_copy_partial {x : BigInt} (hx : WF x) (s : Nat) :
    WF (ofShift x s) ∧ (ofShift x s).val = x.val * 10 ^ (9 * s) ∧ (Canon x → x.val ≠ 0 → Canon (ofShift x s)) ∧ ofShift x 0 = x := by
  have hb : BinsOK (List.replicate s 0 ++ x.bins) := by
    intro b hb
    rcases List.mem_append.mp hb with h | h
    · rw [List.eq_of_mem_replicate h]; omega
    · exact hx.2 b h
  have hmag : mag (List.replicate s 0 ++ x.bins) = mag x.bins * 10 ^ (9 * s) := by
    rw [mag_append, List.length_replicate, pow_mul]
    have : mag (List.replicate s 0) = 0 := by
      induction s with
      | zero => rfl
      | succ n ih =>
        rw [List.replicate_succ, mag, ih (fun b hb' => by
          rcases List.mem_append.mp hb' with h | h
          · rw [List.eq_of_mem_replicate h]; omega
          · exact hx.2 b h)]; rfl
    rw [this]; norm_num [mul_comm]
  refine ⟨⟨by simp [ofShift, hx.1], hb⟩, ?_, fun hc h0 => ?_, by simp [ofShift]⟩
  · simp only [val, ofShift, hmag]; split <;> ring
  · refine ⟨⟨by simp [ofShift, hx.1], hb⟩, ?_, fun _ => ?_⟩
    · obtain ⟨l, t, hlt⟩ := (eq_nil_or_snoc x.bins).resolve_left hx.1
      have ht := getLast_pos_of_noLead hx.1 hx.2 hc.2.1 (by rwa [ne_eq, ← val_eq_zero_iff])
      right
      simp only [ofShift, List.getLast?_append]
      intro h
      rw [hlt] at h
      simp at h
      simp [hlt] at ht
      omega
    · simp only [ofShift, hmag]
      have : mag x.bins ≠ 0 := by rwa [ne_eq, ← val_eq_zero_iff]
      exact mul_ne_zero this (by positivity)

example : Canon ⟨[3, 7], true⟩ ∧ BigInt.val ⟨[3, 7], true⟩ ≠ 0 ∧ ofShift ⟨[3, 7], true⟩ 2 = ⟨[0, 0, 3, 7], true⟩ := by decide

/-! ### C91: several numbers in one stream -/

/-- `in >> x_1 >> x_2 >> ...`. Returns the stream and the variables. -/
def extractAll : List BigInt → IStream → Res (IStream × List BigInt)
  | [], s => .ok (s, [])
  | x :: xs, s => do
    let (s, y) ← read s x
    let (s, ys) ← extractAll xs s
    return (s, y :: ys)

/-- `in >> ws >> x_1 >> ws >> x_2 >> ...`. -/
def extractAllWs : List BigInt → IStream → Res (IStream × List BigInt)
  | [], s => .ok (s, [])
  | x :: xs, s => do
    let (s, y) ← read s.ws x
    let (s, ys) ← extractAllWs xs s
    return (s, y :: ys)

/-- C91 as stated is false, for all texts: `>>` does not skip white space, so of two numbers separated by white space only
the first is read. The second extraction fails and its variable keeps its value. -/
theorem C91_refuted {pre rest : List Char} {z : Int} (h : IntText pre z) {c : Char} (hc : IStream.isSpace c = true) (x x' : BigInt) :
    ∃ y, Canon y ∧ y.val = z ∧ extractAll [x, x'] (IStream.ofString (pre ++ c :: rest)) =
      .ok (⟨pre.reverse, c :: rest, false, true, false⟩, [y, x']) := by
  have hnd : c.isDigit = false ∧ c ≠ '-' := by
    simp only [IStream.isSpace, Bool.or_eq_true, beq_iff_eq] at hc
    rcases hc with ((((hc | hc) | hc) | hc) | hc) | hc <;> subst hc <;> decide
  have hr : NoDigitAhead (c :: rest) := fun d r e => by cases e; exact hnd.1
  obtain ⟨y, y1, y2, y3⟩ := read_ok x (p := []) h hr
  refine ⟨y, y2, y3, ?_⟩
  have hno : ∀ pre' rest' z', c :: rest = pre' ++ rest' → ¬IntText pre' z' := by
    rintro pre' rest' z' e ⟨ds, hd, h1⟩
    obtain ⟨d, ds', e1, e2, e3⟩ := allDigits_cons hd
    rcases h1 with ⟨h1, _⟩ | ⟨h1, _⟩
    · rw [h1, e1] at e
      cases e; rw [hnd.1] at e2; cases e2
    · rw [h1] at e
      cases e; exact hnd.2 rfl
  obtain ⟨e, e1, e2⟩ := read_fail x' (p := pre.reverse) hno
  have e0 : e = false := by simpa using e2
  subst e0
  have h0 : IStream.ofString (pre ++ c :: rest) = goodAt [] (pre ++ c :: rest) := rfl
  have h1 : (⟨pre.reverse ++ [], c :: rest, List.isEmpty (c :: rest), false, false⟩ : IStream) = goodAt pre.reverse (c :: rest) := by
    simp [goodAt]
  rw [h1] at y1
  simp only [extractAll, h0, y1, e1, bind_ok, pure_ok]

example : IntText "12".toList 12 ∧ IStream.isSpace ' ' = true ∧
    extractAll [⟨[7], false⟩, ⟨[8], false⟩] (IStream.ofString "12 34".toList) =
      .ok (⟨"21".toList, " 34".toList, false, true, false⟩, [⟨[12], false⟩, ⟨[8], false⟩]) :=
  ⟨⟨"12".toList, ⟨by decide, by decide⟩, .inl ⟨rfl, by decide⟩⟩, by decide, by decide⟩

/-- A text made of numbers, each preceded by white space (which may be missing before the first one). -/
structure Item where
  sep : List Char
  text : List Char
  value : Int

/-- The text of a list of items. -/
def Item.texts : List Item → List Char
  | [] => []
  | i :: is => i.sep ++ (i.text ++ Item.texts is)

/-- C91, the part that holds: with `in >> ws` before each number, any sequence of numbers separated by white space is read
completely, each variable gets the canonical representation of its number, no failure is recorded, and exactly the
characters of the sequence are consumed.
Missing: reading without `ws` (see `C91_refuted`). -/
theorem C91_read_sequence_partial (items : List Item) (hsep : ∀ i ∈ items, ∀ c ∈ i.sep, IStream.isSpace c = true)
    (htext : ∀ i ∈ items, IntText i.text i.value) (hne : ∀ i ∈ items.tail, i.sep ≠ []) {rest : List Char}
    (hrest : NoDigitAhead rest) (p : List Char) (xs : List BigInt) (hl : xs.length = items.length) (h0 : items ≠ []) :
    ∃ ys, extractAllWs xs (goodAt p (Item.texts items ++ rest)) =
        .ok (⟨(Item.texts items).reverse ++ p, rest, rest.isEmpty, false, false⟩, ys) ∧
      (∀ y ∈ ys, Canon y) ∧ ys.map val = items.map (·.value) := by
  induction items generalizing p xs with
  | nil => exact absurd rfl h0
  | cons i is ih =>
    obtain ⟨x, xs, rfl⟩ : ∃ x xs', xs = x :: xs' := by cases xs with
      | nil => simp at hl
      | cons x xs => exact ⟨x, xs, rfl⟩
    have ht := htext i (by simp)
    -- the first character of a number is not white space
    obtain ⟨d, t, hd, hns⟩ : ∃ d t, i.text = d :: t ∧ IStream.isSpace d = false := by
      obtain ⟨ds, hds, h1⟩ := ht
      obtain ⟨c, cs, e1, e2, _⟩ := allDigits_cons hds
      rcases h1 with ⟨h1, _⟩ | ⟨h1, _⟩
      · refine ⟨c, cs, by rw [h1, e1], ?_⟩
        by_contra hc
        rw [Bool.not_eq_false] at hc
        simp only [IStream.isSpace, Bool.or_eq_true, beq_iff_eq] at hc
        rcases hc with ((((hc | hc) | hc) | hc) | hc) | hc <;> subst hc <;> revert e2 <;> decide
      · exact ⟨'-', ds, h1, by decide⟩
    have htail : ∀ j ∈ is, j.sep ≠ [] := fun j hj => hne j (by simpa using hj)
    have hnd : NoDigitAhead (Item.texts is ++ rest) := by
      cases is with
      | nil => simpa [Item.texts] using hrest
      | cons j js =>
        intro c r e
        obtain ⟨a, l, hal⟩ := List.exists_cons_of_ne_nil (htail j (by simp))
        have ha := hsep j (by simp) a (by rw [hal]; simp)
        rw [Item.texts, hal] at e
        cases e
        simp only [IStream.isSpace, Bool.or_eq_true, beq_iff_eq] at ha
        rcases ha with ((((hc | hc) | hc) | hc) | hc) | hc <;> subst hc <;> decide
    have hws : (goodAt p (Item.texts (i :: is) ++ rest)).ws = goodAt (i.sep.reverse ++ p) (i.text ++ (Item.texts is ++ rest)) := by
      have hs := hsep i (by simp)
      have e1 : (i.sep ++ (i.text ++ (Item.texts is ++ rest))).takeWhile IStream.isSpace = i.sep := by
        rw [List.takeWhile_append_of_pos hs, hd]
        simp [hns]
      have e2 : (i.sep ++ (i.text ++ (Item.texts is ++ rest))).dropWhile IStream.isSpace = i.text ++ (Item.texts is ++ rest) := by
        rw [List.dropWhile_append_of_pos hs, hd]
        simp [hns]
      unfold IStream.ws
      rw [goodAt_good, if_pos rfl]
      simp only [goodAt, Item.texts, List.append_assoc, e1, e2]
      rw [hd]
      simp
    obtain ⟨y, y1, y2, y3⟩ := read_ok x (p := i.sep.reverse ++ p) ht hnd
    cases is with
    | nil =>
      obtain rfl : xs = [] := by simpa using hl
      refine ⟨[y], ?_, by simpa using y2, by simpa using y3⟩
      rw [extractAllWs, hws, y1]
      simp [extractAllWs, Item.texts]
    | cons j js =>
      obtain ⟨ys, z1, z2, z3⟩ := ih (fun k hk => hsep k (by simp [hk])) (fun k hk => htext k (by simp [hk]))
        (fun k hk => htail k (List.mem_of_mem_tail hk)) (i.text.reverse ++ (i.sep.reverse ++ p)) xs (by simpa using hl) (by simp)
      refine ⟨y :: ys, ?_, ?_, ?_⟩
      · rw [extractAllWs, hws, y1, bind_ok]
        have hem : (Item.texts (j :: js) ++ rest).isEmpty = false := by
          obtain ⟨a, l, hal⟩ := List.exists_cons_of_ne_nil (htail j (by simp))
          simp [Item.texts, hal]
        have hg : (⟨i.text.reverse ++ (i.sep.reverse ++ p), Item.texts (j :: js) ++ rest, false, false, false⟩ : IStream) =
          goodAt (i.text.reverse ++ (i.sep.reverse ++ p)) (Item.texts (j :: js) ++ rest) := rfl
        rw [hem, hg]
        dsimp only
        rw [z1]
        simp [Item.texts]
      · intro z hz
        rcases List.mem_cons.mp hz with rfl | hz
        · exact y2
        · exact z2 z hz
      · simp [y3, z3]

example : Item.texts [⟨[], "12".toList, 12⟩, ⟨"\n ".toList, "-7".toList, -7⟩] = "12\n -7".toList ∧
    extractAllWs [⟨[0], false⟩, ⟨[0], false⟩] (IStream.ofString "12\n -7".toList) =
      .ok (⟨"12\n -7".toList.reverse, [], true, false, false⟩, [⟨[12], false⟩, ⟨[7], true⟩]) := by decide

end CppMaths
