import Verif.Proofs.OStream
import Verif.Proofs.FracMem
import Verif.Props.Mat
import Mathlib.Data.Nat.Digits.Lemmas
import Mathlib.Tactic.IntervalCases
import Mathlib.Tactic.Linarith
/-!
# Auxiliary facts for `Verif/Props/OStream.lean`
-/

namespace CppMaths
open BigInt OStream

theorem digits_length_le {b n k : Nat} (hb : 1 < b) (hk : 0 < k) : (Nat.toDigits b n).length ≤ k ↔ n < b ^ k :=
  Nat.length_toDigits_le_iff hb hk

theorem numeral_of_neg {x : BigInt} (h : Canon x) : numeral x.val =
    (if x.negative then ['-'] else []) ++ Nat.toDigits 10 (mag x.bins).toNat := by
  rw [← print_spec h.1, print_numeral h.1 (fun hn h0 => h.2.2 hn (val_eq_zero_iff.mp h0))]

theorem print_canon {x : BigInt} (h : Canon x) : print x = numeral x.val :=
  print_numeral h.1 (fun hn h0 => h.2.2 hn (val_eq_zero_iff.mp h0))

theorem negative_iff {x : BigInt} (h : Canon x) : x.negative = true ↔ x.val < 0 := by
  have h0 := mag_nonneg h.1.2
  unfold val
  constructor
  · intro hn
    have := h.2.2 hn
    rw [if_pos hn]; omega
  · intro hv
    by_contra hn
    rw [if_neg hn] at hv; omega

theorem chunk_length (a : OAdjust) {b : Int} (h : 0 ≤ b ∧ b < 1000000000) : (chunk a b).length = 9 := by
  have : (Nat.toDigits 10 b.natAbs).length ≤ 9 := (digits_length_le (by norm_num) (by norm_num)).mpr (by norm_num; omega)
  unfold chunk field
  split <;> simp <;> omega

theorem chunks_length (a : OAdjust) {l : List Int} (h : BinsOK l) : (l.map (chunk a)).flatten.length = 9 * l.length := by
  induction l with
  | nil => rfl
  | cons b bs ih =>
    rw [BinsOK_cons] at h
    rw [List.map_cons, List.flatten_cons, List.length_append, chunk_length a h.1, ih h.2, List.length_cons]
    omega

theorem toDigits_head_ne (n : Nat) : 0 < n → (Nat.toDigits 10 n).head? ≠ some '0' := by
  induction n using Nat.strong_induction_on with
  | _ n ih =>
    intro h
    by_cases hn : n < 10
    · rw [Nat.toDigits_of_lt_base hn]
      interval_cases n <;> decide
    · rw [Nat.toDigits_of_base_le (by norm_num) (by omega), List.head?_append_of_ne_nil _ Nat.toDigits_ne_nil]
      exact ih (n / 10) (by omega) (by omega)

/-- A bin prints left-adjusted as it should exactly if no padding is needed or it is zero. -/
theorem chunk_left_iff {b : Int} (h : 0 ≤ b ∧ b < 1000000000) : chunk .left b = chunk .right b ↔ b = 0 ∨ 100000000 ≤ b := by
  have hl : (Nat.toDigits 10 b.natAbs).length ≤ 9 := (digits_length_le (by norm_num) (by norm_num)).mpr (by norm_num; omega)
  have h8 : (Nat.toDigits 10 b.natAbs).length ≤ 8 ↔ b.natAbs < 10 ^ 8 := digits_length_le (by norm_num) (by norm_num)
  norm_num at h8
  simp only [chunk, field, if_true, if_neg (show OAdjust.right ≠ .left by decide)]
  constructor
  · intro he
    by_contra hc
    push Not at hc
    have hk : 9 - (Nat.toDigits 10 b.natAbs).length = (8 - (Nat.toDigits 10 b.natAbs).length) + 1 := by
      have := h8.mpr (by omega); omega
    rw [hk, List.replicate_succ, List.cons_append] at he
    have hh : (Nat.toDigits 10 b.natAbs).head? = some '0' := by
      cases hd : Nat.toDigits 10 b.natAbs with
      | nil => exact absurd hd Nat.toDigits_ne_nil
      | cons c cs =>
        rw [hd, List.cons_append] at he
        injection he with h1 _
        rw [h1]; rfl
    exact toDigits_head_ne _ (by omega) hh
  · rintro (rfl | hb)
    · decide
    · have : 9 - (Nat.toDigits 10 b.natAbs).length = 0 := by
        by_contra hne
        have := h8.mp (by omega)
        omega
      rw [this]; simp

theorem flatten_chunks_iff {l : List Int} (h : BinsOK l) :
    (l.map (chunk .left)).flatten = (l.map (chunk .right)).flatten ↔ ∀ b ∈ l, b = 0 ∨ 100000000 ≤ b := by
  induction l with
  | nil => simp
  | cons b bs ih =>
    rw [BinsOK_cons] at h
    simp only [List.map_cons, List.flatten_cons, List.mem_cons, forall_eq_or_imp]
    rw [← ih h.2, ← chunk_left_iff h.1]
    constructor
    · intro he
      exact List.append_inj he (by rw [chunk_length _ h.1, chunk_length _ h.1])
    · rintro ⟨h1, h2⟩; rw [h1, h2]

/-- The groups of nine digits below the highest one. -/
theorem low_groups {x : BigInt} (h : WF x) {t : Int} {r : List Int} (hok : BinsOK (t :: r)) (hm : mag x.bins = B ^ r.length * t + mag r.reverse)
    (h0 : t = 0 → r = []) (ht : x.bins.take r.length = r.reverse) (P : Int → Prop) :
    (∀ b ∈ r, P b) ↔ ∀ j : Nat, 1000000000 ^ (j + 1) ≤ |x.val| → P (|x.val| / 1000000000 ^ j % 1000000000) := by
  rw [abs_val h]
  rw [BinsOK_cons] at hok
  have hrl : r.length ≤ x.bins.length := by
    have := congrArg List.length ht
    rw [List.length_take, List.length_reverse] at this; omega
  have hget : ∀ j, j < r.length → r.reverse[j]? = some (mag x.bins / B ^ j % B) := fun j hj => by
    rw [← ht, List.getElem?_take_of_lt hj]; exact bin_eq h.2 (by omega)
  have hlt : ∀ j, j < r.length ↔ (B : Int) ^ (j + 1) ≤ mag x.bins := by
    intro j
    constructor
    · intro hj
      have ht1 : 1 ≤ t := by
        have : t ≠ 0 := fun h => by rw [h0 h] at hj; simp at hj
        omega
      have h1 : (B : Int) ^ (j + 1) ≤ B ^ r.length := pow_le_pow_right₀ (by norm_num) (by omega)
      have h2 : 0 ≤ mag r.reverse := mag_nonneg (BinsOK_reverse.mpr hok.2)
      have h3 : (0 : Int) < B ^ r.length := by positivity
      rw [hm]; nlinarith
    · intro hj
      by_contra hc
      have h1 : (B : Int) ^ (r.length + 1) ≤ B ^ (j + 1) := pow_le_pow_right₀ (by norm_num) (by omega)
      have h2 := mag_lt (BinsOK_reverse.mpr hok.2)
      rw [List.length_reverse] at h2
      have h3 : (0 : Int) < B ^ r.length := by positivity
      rw [pow_succ] at h1
      nlinarith
  constructor
  · intro hb j hj
    have hj' := (hlt j).mpr hj
    exact hb _ (List.mem_reverse.mp (List.mem_of_getElem? (hget j hj')))
  · intro hb b hbm
    obtain ⟨j, hj, e⟩ := List.mem_iff_getElem.mp (List.mem_reverse.mpr hbm)
    rw [List.length_reverse] at hj
    have := hget j hj
    rw [List.getElem?_eq_getElem (by simpa using hj), Option.some.injEq, e] at this
    rw [this]
    exact hb j ((hlt j).mp hj)

theorem not_plus_digits (n : Nat) : List.count '+' (Nat.toDigits 10 n) = 0 := by
  rw [List.count_eq_zero]
  intro h
  exact absurd (Nat.isDigit_of_mem_toDigits (by norm_num) (by norm_num) h) (by decide)

/-- Every initialised entry of a matrix object. -/
theorem entry_of_is {T K : Type} {rel : T → K → Prop} {m : Mat T} {r c : Nat} {M : Matrix (Fin r) (Fin c) K} (hm : Mat.Is rel m M)
    {k : Nat} {t : T} (h : m.data[k]? = some (some t)) : ∃ i j, rel t (M i j) := by
  have hk : k < r * c := by
    have := (List.getElem?_eq_some_iff.mp h).1
    rw [hm.2.2.1] at this; exact this
  have hc : 0 < c := by
    rcases Nat.eq_zero_or_pos c with rfl | h
    · simp at hk
    · exact h
  obtain ⟨t', h1, h2⟩ := hm.2.2.2 ⟨k / c, (Nat.div_lt_iff_lt_mul hc).mpr hk⟩ ⟨k % c, Nat.mod_lt _ hc⟩
  dsimp only at h1
  rw [show k / c * c + k % c = k by rw [mul_comm]; exact Nat.div_add_mod k c, h] at h1
  cases h1
  exact ⟨_, _, h2⟩

theorem mat_tracks {T K : Type} [Inhabited T] {rel : T → K → Prop} {m : Mat T} {r c : Nat} {M : Matrix (Fin r) (Fin c) K} (hm : Mat.Is rel m M)
    {tx : K → List Char} {pr : T → List Char} {prTo : T → OStream → OStream} (hpr : ∀ t k, rel t k → pr t = tx k)
    (hto : ∀ t k, rel t k → ∀ o, OStream.Plain o → After True o (pr t) (prTo t o)) {o : OStream} (ho : o.Plain) :
    ∃ o', m.printTo prTo o = .ok o' ∧ After True o (matText fun i j => tx (M i j)) o' := by
  choose M' h1 h2 using hm.2.2.2
  have hEq : Mat.Is Eq m (Matrix.of M' : Matrix (Fin r) (Fin c) T) := ⟨hm.1, hm.2.1, hm.2.2.1, fun i j => ⟨_, h1 i j, rfl⟩⟩
  have hs : m.data.length = m.rows * m.cols := by rw [hm.1, hm.2.1]; exact hm.2.2.1
  have hi : ∀ o ∈ m.data, o ≠ none := by
    intro e he
    obtain ⟨k, hk, e1⟩ := List.mem_iff_getElem.mp he
    rw [hm.2.2.1] at hk
    have hc : 0 < c := by
      rcases Nat.eq_zero_or_pos c with rfl | h
      · simp at hk
      · exact h
    have := h1 ⟨k / c, (Nat.div_lt_iff_lt_mul hc).mpr hk⟩ ⟨k % c, Nat.mod_lt _ hc⟩
    dsimp only at this
    rw [show k / c * c + k % c = k by rw [mul_comm]; exact Nat.div_add_mod k c, List.getElem?_eq_getElem (by rw [hm.2.2.1]; exact hk), e1] at this
    cases this; simp
  have hcopy := (C72_copy_objects m m hs hi).1
  have hp := Mat.print_ok pr hEq
  obtain ⟨o', e, a⟩ := Mat.printTo_tracks (z := True) (pr := pr) (prTo := prTo) (m := m) (fun m' i j t hc hg o ho => by
    rw [hcopy] at hc
    cases hc
    have : m.data[i * m.cols + j]? = some (some t) := by
      unfold Mat.get at hg
      split at hg
      · cases hg; assumption
      · cases hg
    obtain ⟨_, _, h⟩ := entry_of_is hm this
    exact hto t _ h o ho) ho _ hp
  refine ⟨o', e, ?_⟩
  have ht : matText (fun i j => tx (M i j)) = ['\n'].intercalate (List.ofFn fun i => (List.ofFn fun j => pr ((Matrix.of M' : Matrix (Fin r) (Fin c) T) i j) ++ [' ']).flatten) := by
    unfold matText
    congr 2
    funext i
    congr 2
    funext j
    exact congrArg (· ++ [' ']) (hpr (M' i j) (M i j) (h2 i j)).symm
  rw [ht]; exact a

theorem ratioText_eq {x : Frac} (h : x.Valid) : Frac.print x = ratioText x.value := by
  rw [Frac.print_eq h, ratioText, h.num, h.den]; simp

theorem item_tracks {i : OItem} {s : List Char} (h : i.Text s) {o : OStream} (ho : o.Plain) :
    ∃ o', i.put o = .ok o' ∧ After True o s o' := by
  have hf : ∀ x : Frac, x.Valid → ∀ o, OStream.Plain o → After True o (Frac.print x) (x.printTo o) := fun x hx o ho =>
    Frac.printTo_after ⟨hx.1.1, hx.2.1.1⟩ (fun _ => trivial) ho
  cases h with
  | str => exact ⟨_, rfl, putStr_after ho s⟩
  | i32 z => exact ⟨_, rfl, putI32_after ho z⟩
  | endl => exact ⟨_, rfl, endl_after ho⟩
  | @int x hx =>
    refine ⟨_, rfl, ?_⟩
    rw [← print_canon hx]
    exact BigInt.printTo_after hx.1 (fun _ => trivial) ho
  | @frac x hx =>
    refine ⟨_, rfl, ?_⟩
    rw [← ratioText_eq hx]
    exact hf x hx o ho
  | @vecInt x hx =>
    obtain ⟨o', e, a⟩ := Vec.printTo_tracks (z := True) (pr := BigInt.print) (prTo := BigInt.printTo) (x := x)
      (fun a ha o ho => BigInt.printTo_after (hx a ha).1 (fun _ => trivial) ho) ho _ (Vec.print_eq _ x)
    refine ⟨o', e, ?_⟩
    have : x.map (fun a => numeral a.val) = x.map BigInt.print := List.map_congr_left fun a ha => (print_canon (hx a ha)).symm
    rw [this]; exact a
  | @vecFrac x hx =>
    obtain ⟨o', e, a⟩ := Vec.printTo_tracks (z := True) (pr := Frac.print) (prTo := Frac.printTo) (x := x)
      (fun a ha o ho => hf a (hx a ha) o ho) ho _ (Vec.print_eq _ x)
    refine ⟨o', e, ?_⟩
    have : x.map (fun a => ratioText a.value) = x.map Frac.print := List.map_congr_left fun a ha => (ratioText_eq (hx a ha)).symm
    rw [this]; exact a
  | matInt hm =>
    have : Inhabited BigInt := ⟨⟨[0], false⟩⟩
    exact mat_tracks hm (tx := numeral) (pr := BigInt.print) (fun t k h => by rw [print_canon h.1, h.2])
      (fun t k h o ho => BigInt.printTo_after h.1.1 (fun _ => trivial) ho) ho
  | matFrac hm =>
    have : Inhabited Frac := ⟨⟨⟨[0], false⟩, ⟨[1], false⟩⟩⟩
    exact mat_tracks hm (tx := ratioText) (pr := Frac.print) (fun t k h => by rw [ratioText_eq h.1, h.2])
      (fun t k h o ho => hf t h.1 o ho) ho
  | factor h1 h2 => exact Factor.printTo_tracks h1.1 ho _ (Factor.print_plain h1 h2)
  | @term t h1 h2 =>
    exact Term.printTo_tracks ⟨h1.coeff.1.1, h1.coeff.2.1.1⟩ (fun p hp => (h1.keys p hp).2.1) ho _
      (Term.print_spec h1 fun p hm => h2 p.1 _ ⟨p.2, hm, rfl⟩)
  | @poly p h1 h2 =>
    exact Poly.printTo_tracks (fun t ht => ⟨⟨(h1 t ht).coeff.1.1, (h1 t ht).coeff.2.1.1⟩, fun p hp => ((h1 t ht).keys p hp).2.1⟩) ho _
      (Poly.print_spec h1 fun t ht q hq => h2 t ht q.1 _ ⟨q.2, hq, rfl⟩)

/-- Nothing was written, and the stream is still not good. -/
def Mute (o o' : OStream) : Prop := o'.good = false ∧ o'.text = o.text

theorem Mute.trans {a b c : OStream} (h : Mute a b) (h' : Mute b c) : Mute a c := ⟨h'.1, h'.2.trans h.2⟩

theorem insert_mute {o : OStream} (h : o.good = false) (p b : List Char) : Mute o (o.insert p b) := by
  rw [insert_bad h]; exact ⟨h, rfl⟩

theorem printBins_mute (bs : List Int) {o : OStream} (h : o.good = false) : Mute o (printBins bs o) := by
  rw [printBins_bad bs h]; split <;> exact ⟨h, rfl⟩

theorem int_mute (x : BigInt) {o : OStream} (h : o.good = false) : Mute o (x.printTo o) := by
  unfold BigInt.printTo
  have h1 : Mute o (if x.negative then o.putStr ['-'] else o) := by
    split
    · exact insert_mute h _ _
    · exact ⟨h, rfl⟩
  dsimp only
  split
  · exact h1.trans (insert_mute h1.1 _ _)
  · rename_i b bs _
    have h2 : Mute o (OStream.putI32 (if x.negative then o.putStr ['-'] else o) b) := h1.trans (insert_mute h1.1 _ _)
    exact h2.trans (printBins_mute _ h2.1)

theorem frac_mute (x : Frac) {o : OStream} (h : o.good = false) : Mute o (x.printTo o) := by
  have a1 : Mute o (o.putStr ['(']) := insert_mute h _ _
  have a2 := a1.trans (int_mute x.tt a1.1)
  have a3 : Mute o _ := a2.trans (insert_mute a2.1 [] ['/'])
  have a4 := a3.trans (int_mute x.bb a3.1)
  exact a4.trans (insert_mute a4.1 [] [')'])

theorem vec_mute {T : Type} {pr : T → OStream → OStream} (hpr : ∀ t o, o.good = false → Mute o (pr t o)) (x : List T) {o : OStream}
    (h : o.good = false) : Out (fun _ => True) (Vec.printTo pr x o) (Mute o) := by
  have a1 : Mute o (o.putStr ['(']) := insert_mute h _ _
  have any : ∀ {α : Type} (r : Res α), Out (fun _ => True) r (fun _ => True) := fun r => by
    cases r with
    | ok a => exact Out.ok trivial
    | error e => exact Out.err trivial
  refine Out.bind (forUp_ok (Inv := fun _ o' => Mute o o') a1 fun i o' _ _ ho' => ?_) fun o' ho' => ?_
  · refine Out.bind (any _) fun t _ => Out.ok ?_
    have := ho'.trans (hpr t o' ho'.1)
    exact this.trans (insert_mute this.1 _ _)
  · refine Out.bind (P := Mute o) ?_ fun o'' ho'' => Out.ok (ho''.trans (insert_mute ho''.1 _ _))
    split
    · exact Out.bind (any _) fun t _ => Out.ok (ho'.trans (hpr t o' ho'.1))
    · exact Out.ok ho'

theorem mat_mute {T : Type} {pr : T → OStream → OStream} (hpr : ∀ t o, o.good = false → Mute o (pr t o)) (m : Mat T) {o : OStream}
    (h : o.good = false) : Out (fun _ => True) (m.printTo pr o) (Mute o) := by
  have any : ∀ {α : Type} (r : Res α), Out (fun _ => True) r (fun _ => True) := fun r => by
    cases r with
    | ok a => exact Out.ok trivial
    | error e => exact Out.err trivial
  refine Out.bind (any _) fun m _ => ?_
  refine forUp_ok (Inv := fun _ o' => Mute o o') ⟨h, rfl⟩ fun i o' _ _ ho' => ?_
  refine Out.bind (forUp_ok (Inv := fun _ o' => Mute o o') ho' fun j o' _ _ ho' => ?_) fun o' ho' => Out.ok ?_
  · refine Out.bind (any _) fun t _ => Out.ok ?_
    have := ho'.trans (hpr t o' ho'.1)
    exact this.trans (insert_mute this.1 _ _)
  · split
    · refine ho'.trans ?_
      unfold OStream.endl; rw [ho'.1]; exact ⟨ho'.1, rfl⟩
    · exact ho'

theorem any_out {α : Type} (r : Res α) : Out (fun _ => True) r (fun _ => True) := by
  cases r with
  | ok a => exact Out.ok trivial
  | error e => exact Out.err trivial

theorem factor_mute (f : Factor) {o : OStream} (h : o.good = false) : Out (fun _ => True) (f.printTo o) (Mute o) := by
  refine Out.bind (any_out _) fun b _ => ?_
  have a1 : Mute o (o.putStr f.id) := insert_mute h _ _
  split
  · exact Out.ok a1
  · have a2 : Mute o ((o.putStr f.id).putStr ['^']) := a1.trans (insert_mute a1.1 _ _)
    exact Out.ok (a2.trans (int_mute _ a2.1))

theorem termRest_mute (fs : FactorMap) : ∀ {o : OStream}, o.good = false → Out (fun _ => True) (Term.printRestTo fs o) (Mute o) := by
  induction fs with
  | nil => intro o h; exact Out.ok ⟨h, rfl⟩
  | cons p r ih =>
    intro o h
    have a1 : Mute o (o.putStr " * ".toList) := insert_mute h _ _
    refine Out.bind (factor_mute p.2 a1.1) fun o' a2 => ?_
    exact (ih a2.1).mono fun o'' a3 => (a1.trans a2).trans a3

theorem term_mute (t : Term) {o : OStream} (h : o.good = false) : Out (fun _ => True) (t.printTo o) (Mute o) := by
  unfold Term.printTo
  refine Out.bind (any_out _) fun zero _ => Out.bind (any_out _) fun one _ => Out.bind (any_out _) fun z _ => ?_
  split
  · exact Out.ok (insert_mute h _ _)
  · refine Out.bind (any_out _) fun u _ => ?_
    have a := frac_mute t.coeff h
    split
    · split
      · exact Out.ok (insert_mute h _ _)
      · exact Out.ok a
    · split
      · exact Out.bind (factor_mute _ h) fun o' a => (termRest_mute _ a.1).mono fun o'' a' => a.trans a'
      · exact (termRest_mute _ a.1).mono fun o'' a' => a.trans a'

theorem polyRest_mute (ts : List Term) : ∀ {o : OStream}, o.good = false → Out (fun _ => True) (Poly.printRestTo ts o) (Mute o) := by
  induction ts with
  | nil => intro o h; exact Out.ok ⟨h, rfl⟩
  | cons t r ih =>
    intro o h
    have a1 : Mute o (o.putStr " + ".toList) := insert_mute h _ _
    refine Out.bind (term_mute t a1.1) fun o' a2 => ?_
    exact (ih a2.1).mono fun o'' a3 => (a1.trans a2).trans a3

theorem poly_mute (p : Poly) {o : OStream} (h : o.good = false) : Out (fun _ => True) (p.printTo o) (Mute o) := by
  unfold Poly.printTo
  split
  · exact Out.ok ⟨h, rfl⟩
  · exact Out.bind (term_mute _ h) fun o' a => (polyRest_mute _ a.1).mono fun o'' a' => a.trans a'

/-! ### What is written in any formatting state -/

theorem mag_ofDigits {l : List Int} (h : BinsOK l) : mag l = (Nat.ofDigits 1000000000 (l.map Int.toNat) : Nat) := by
  induction l with
  | nil => rfl
  | cons b l ih =>
    rw [BinsOK_cons] at h
    rw [mag_cons, ih h.2, List.map_cons, Nat.ofDigits_cons]
    push_cast
    rw [Int.toNat_of_nonneg h.1.1]

theorem pad_smallText {o : OStream} {n : Int} (h0 : 0 ≤ n) (h1 : n < 1000000000) (w : Nat) (c : Char) :
    OStream.pad { o with width := w, fill := c } (o.numParts n).1 (o.numParts n).2 = smallText o w c n.toNat := by
  obtain ⟨k, rfl⟩ := Int.eq_ofNat_of_zero_le h0
  have hk : ((k : Int) % 4294967296).toNat = k := by omega
  have hn : ¬(k : Int) < 0 := by omega
  have hz : ((k : Int) != 0) = (k != 0) := by simp [bne, BEq.beq]
  unfold smallText OStream.numParts OStream.pad prefixField field numeral numeralIn
  simp only [hk, hn, hz, Int.toNat_natCast, Int.natAbs_natCast, if_false]
  cases o.base <;> cases o.adjust <;> simp [List.append_assoc]

theorem binsText_small {bs : List Int} (h : BinsOK bs) (o : OStream) :
    OStream.binsText bs o = ((bs.map Int.toNat).map (smallText o 9 '0')).flatten := by
  induction bs with
  | nil => rfl
  | cons b bs ih =>
    rw [BinsOK_cons] at h
    rw [OStream.binsText, ih h.2, pad_smallText h.1.1 h.1.2]
    simp

theorem smallText_congr {o o' : OStream} (h1 : o.base = o'.base) (h2 : o.adjust = o'.adjust) (h3 : o.showpos = o'.showpos)
    (h4 : o.showbase = o'.showbase) (h5 : o.uppercase = o'.uppercase) (w : Nat) (c : Char) (n : Nat) :
    smallText o w c n = smallText o' w c n := by
  unfold smallText; rw [h1, h2, h3, h4, h5]

end CppMaths
