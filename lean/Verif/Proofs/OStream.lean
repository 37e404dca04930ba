import Verif.Spec.Output
import Verif.Proofs.IntSafe
import Verif.Proofs.IntText
import Verif.Proofs.FracText
import Verif.Proofs.Vec
import Verif.Proofs.MatMore
import Verif.Proofs.PolyText
/-!
# Output through a stream with formatting state
-/

namespace CppMaths
open BigInt

namespace OStream

/-- What the insertion of an integer does to the stream, whatever is written. -/
def written (o : OStream) (s : List Char) (w : Nat) (c : Char) : OStream := { o with text := o.text ++ s, width := w, fill := c }

theorem insert_good {o : OStream} (h : o.good = true) (p b : List Char) :
    o.insert p b = o.written (o.pad p b) 0 o.fill := by
  unfold insert; rw [if_pos h]; rfl

theorem insert_bad {o : OStream} (h : o.good = false) (p b : List Char) : o.insert p b = o := by
  unfold insert; rw [h]; rfl

theorem numParts_dec {o : OStream} (hb : o.base = .dec) (hs : o.showpos = false) {z : Int} (hz : 0 ≤ z) :
    o.numParts z = ([], Nat.toDigits 10 z.natAbs) := by
  unfold numParts; rw [hb]; simp [hs, not_lt.mpr hz]

theorem pad_nil (o : OStream) (b : List Char) : o.pad [] b = field o.adjust o.width o.fill b := by
  unfold pad field
  cases o.adjust <;> simp

theorem field_zero (a : OAdjust) (c : Char) (s : List Char) : field a 0 c s = s := by
  unfold field; split <;> simp

/-- The printed form of a lower bin. -/
def chunk (a : OAdjust) (b : Int) : List Char := field a 9 '0' (Nat.toDigits 10 b.natAbs)

theorem printBins_bad (bs : List Int) : ∀ {o : OStream}, o.good = false →
    printBins bs o = if bs = [] then o else { o with width := 9, fill := '0' } := by
  induction bs with
  | nil => intro o _; rfl
  | cons b bs ih =>
    intro o h
    rw [printBins, putI32, insert_bad (by exact h), ih (by exact h)]
    split <;> rfl

/-- What `printBins` writes, whatever the flags. -/
def binsText : List Int → OStream → List Char
  | [], _ => []
  | b :: bs, o => pad { o with width := 9, fill := '0' } (o.numParts b).1 (o.numParts b).2 ++ binsText bs o

theorem binsText_congr (bs : List Int) {o o' : OStream} (h1 : o.base = o'.base) (h2 : o.adjust = o'.adjust) (h3 : o.showpos = o'.showpos)
    (h4 : o.showbase = o'.showbase) (h5 : o.uppercase = o'.uppercase) : binsText bs o = binsText bs o' := by
  induction bs with
  | nil => rfl
  | cons b bs ih =>
    rw [binsText, binsText, ih]
    congr 1
    have : o.numParts b = o'.numParts b := by unfold numParts; rw [h1, h3, h4, h5]
    rw [this]; unfold pad; rw [h2]

theorem printBins_good (bs : List Int) : ∀ {o : OStream}, o.good = true →
    printBins bs o = o.written (binsText bs o) (if bs = [] then o.width else 0) (if bs = [] then o.fill else '0') := by
  induction bs with
  | nil => intro o _; simp [printBins, binsText, written]
  | cons b bs ih =>
    intro o h
    rw [printBins, putI32, insert_good (by exact h), ih (by exact h), binsText]
    rw [binsText_congr bs (o' := o) rfl rfl rfl rfl rfl]
    have : ((o.setw BIN_WIDTH).setfill '0').numParts b = o.numParts b := rfl
    rw [this]
    simp only [written, setw, setfill, List.append_assoc, BIN_WIDTH, reduceCtorEq, if_false]
    congr 1
    · congr 2
      exact binsText_congr bs rfl rfl rfl rfl rfl
    · split <;> rfl
    · split <;> rfl

theorem binsText_dec {bs : List Int} (h : BinsOK bs) {o : OStream} (hb : o.base = .dec) (hs : o.showpos = false) :
    binsText bs o = (bs.map (chunk o.adjust)).flatten := by
  induction bs with
  | nil => rfl
  | cons b bs ih =>
    rw [BinsOK_cons] at h
    rw [binsText, ih h.2, numParts_dec hb hs h.1.1]
    simp only [pad_nil, List.map_cons, List.flatten_cons, chunk]

end OStream

/-- The highest bin that is not zero, and the lower ones. -/
theorem BigInt.print_split {a : BigInt} (h : WF a) : ∃ t r,
    (∀ o, a.printTo o = printBins r ((if a.negative then o.putStr ['-'] else o).putI32 t)) ∧
    print a = (if a.negative then ['-'] else []) ++ showI32 t ++ (r.map showPadded).flatten ∧
    BinsOK (t :: r) ∧ mag a.bins = B ^ r.length * t + mag r.reverse ∧ (t = 0 → r = []) ∧ a.bins.take r.length = r.reverse := by
  have hok : BinsOK a.bins.reverse := BinsOK_reverse.mpr h.2
  have hsplit := List.takeWhile_append_dropWhile (p := (· == (0 : Int))) (l := a.bins.reverse)
  have hz : ∀ b ∈ a.bins.reverse.takeWhile (· == (0 : Int)), b = 0 := fun b hb => by
    simpa using mem_takeWhile_imp hb
  have hrep := List.eq_replicate_of_mem hz
  cases hd : a.bins.reverse.dropWhile (· == (0 : Int)) with
  | nil =>
    refine ⟨0, [], fun o => by unfold printTo; rw [hd]; rfl, by unfold print; rw [hd]; simp, by decide, ?_, fun _ => rfl, by simp⟩
    rw [hd, List.append_nil] at hsplit
    have : a.bins = List.replicate a.bins.length 0 := by
      rw [hsplit] at hrep
      rw [← List.reverse_inj, hrep]; simp
    rw [this, mag_replicate_zero]; simp
  | cons t r =>
    have ht0 : t ≠ 0 := by
      have := List.head?_dropWhile_not (p := (· == (0 : Int))) (l := a.bins.reverse)
      rw [hd] at this; simpa using this
    rw [hd] at hsplit
    have hb : a.bins = (t :: r).reverse ++ (a.bins.reverse.takeWhile (· == (0 : Int))).reverse := by
      rw [← List.reverse_append, hsplit, List.reverse_reverse]
    refine ⟨t, r, fun o => by unfold printTo; rw [hd], by unfold print; rw [hd]; simp, ?_, ?_, fun h => absurd h ht0, ?_⟩
    · rw [← hsplit, BinsOK_append] at hok; exact hok.2
    · rw [hb, hrep]
      simp only [List.reverse_cons, List.reverse_replicate, mag_append, mag_replicate_zero, List.length_reverse, mag_cons, mag_nil]
      ring
    · rw [hb]; simp

/-- There are lower bins exactly if the magnitude is at least 10^9. -/
theorem BigInt.low_nil {a : BigInt} (h : WF a) {t : Int} {r : List Int} (hok : BinsOK (t :: r))
    (hm : mag a.bins = B ^ r.length * t + mag r.reverse) (h0 : t = 0 → r = []) : (r = [] ↔ |a.val| < 1000000000) := by
  rw [abs_val h, hm]
  rw [BinsOK_cons] at hok
  cases r with
  | nil => simpa using hok.1.2
  | cons b bs =>
    simp only [reduceCtorEq, false_iff, not_lt]
    have ht : 1 ≤ t := by
      have : t ≠ 0 := fun h => by simpa using h0 h
      omega
    have hr : 0 ≤ mag (b :: bs).reverse := mag_nonneg (BinsOK_reverse.mpr hok.2)
    have : (1000000000 : Int) ≤ B ^ (b :: bs).length := by
      rw [List.length_cons, pow_succ]
      have : (1 : Int) ≤ B ^ bs.length := one_le_pow₀ (by norm_num)
      nlinarith
    nlinarith

/-- `printTo` on a good stream: what is written, and what becomes of the formatting state. -/
theorem BigInt.printTo_good {a : BigInt} (h : WF a) {o : OStream} (ho : o.good = true) :
    ∃ s, a.printTo o = o.written s 0 (if |a.val| < 1000000000 then o.fill else '0') := by
  obtain ⟨t, r, h1, -, h3, h4, h5, -⟩ := print_split h
  rw [h1]
  have hn := low_nil h h3 h4 h5
  rw [OStream.putI32]
  split
  · rw [OStream.putStr, OStream.insert_good ho, OStream.insert_good (by exact ho), OStream.printBins_good _ (by exact ho)]
    simp only [OStream.written, List.append_assoc, hn]
    exact ⟨_, by congr 1; split <;> rfl⟩
  · rw [OStream.insert_good (by exact ho), OStream.printBins_good _ (by exact ho)]
    simp only [OStream.written, List.append_assoc, hn]
    exact ⟨_, by congr 1; split <;> rfl⟩

theorem BigInt.printTo_bad {a : BigInt} (h : WF a) {o : OStream} (ho : o.good = false) :
    a.printTo o = if |a.val| < 1000000000 then o else { o with width := 9, fill := '0' } := by
  obtain ⟨t, r, h1, -, h3, h4, h5, -⟩ := print_split h
  rw [h1, OStream.putI32, OStream.putStr, OStream.insert_bad ho, ite_self, OStream.insert_bad ho, OStream.printBins_bad _ ho]
  simp only [low_nil h h3 h4 h5]

theorem BigInt.printTo_dec {a : BigInt} (h : WF a) {o : OStream} (ho : o.good = true) (hb : o.base = .dec) (hs : o.showpos = false) :
    ∃ t r, a.printTo o = o.written ((if a.negative then field o.adjust o.width o.fill ['-'] ++ Nat.toDigits 10 t.natAbs else
        field o.adjust o.width o.fill (Nat.toDigits 10 t.natAbs)) ++ (r.map (OStream.chunk o.adjust)).flatten) 0
        (if |a.val| < 1000000000 then o.fill else '0') ∧
      print a = (if a.negative then ['-'] else []) ++ Nat.toDigits 10 t.natAbs ++ (r.map (OStream.chunk .right)).flatten ∧
      BinsOK (t :: r) ∧ mag a.bins = B ^ r.length * t + mag r.reverse ∧ (t = 0 → r = []) ∧ a.bins.take r.length = r.reverse := by
  obtain ⟨t, r, h1, h2, h3, h4, h5, h6⟩ := print_split h
  have hn := low_nil h h3 h4 h5
  have h3' := h3
  rw [BinsOK_cons] at h3
  refine ⟨t, r, ?_, ?_, h3', h4, h5, h6⟩
  · rw [h1, OStream.putI32]
    cases a.negative
    · simp only [Bool.false_eq_true, if_false]
      rw [OStream.insert_good ho, OStream.printBins_good _ (by exact ho), OStream.binsText_dec h3.2 (by exact hb) (by exact hs),
        OStream.numParts_dec hb hs h3.1.1, OStream.pad_nil]
      simp only [OStream.written, List.append_assoc, hn]
      congr 1
      split <;> rfl
    · simp only [if_true]
      rw [OStream.putStr, OStream.insert_good ho, OStream.insert_good (by exact ho), OStream.printBins_good _ (by exact ho),
        OStream.binsText_dec h3.2 (by exact hb) (by exact hs),
        OStream.numParts_dec (by exact hb) (by exact hs) h3.1.1, OStream.pad_nil, OStream.pad_nil]
      simp only [OStream.written, List.append_assoc, hn, OStream.field_zero]
      congr 1
      split <;> rfl
  · rw [h2, showI32_nonneg h3.1.1, show t.toNat = t.natAbs by omega]
    congr 2
    apply List.map_congr_left
    intro b hb
    obtain ⟨b0, b1⟩ := h3.2 b hb
    rw [showPadded, showI32_nonneg b0, OStream.chunk, field, if_neg (by decide), show b.toNat = b.natAbs by omega]

theorem OStream.chunk_right {a : OAdjust} (h : a ≠ .left) : OStream.chunk a = OStream.chunk .right := by
  funext b; unfold chunk field; rw [if_neg h, if_neg (by decide)]

theorem OStream.field_append {a : OAdjust} (h : a ≠ .left) (w : Nat) (c : Char) (s : List Char) :
    field a w c s = List.replicate (w - s.length) c ++ s := by
  unfold field; rw [if_neg h]

/-- On a plain stream an `Int` is written as `print` says. -/
theorem BigInt.printTo_plain {a : BigInt} (h : WF a) {o : OStream} (ho : o.Plain) :
    a.printTo o = o.written (print a) 0 (if |a.val| < 1000000000 then o.fill else '0') := by
  obtain ⟨h1, h2, h3, h4, h5⟩ := ho
  obtain ⟨t, r, e1, e2, -⟩ := printTo_dec h h1 h3 h4
  rw [e1, e2, h2, OStream.field_zero, OStream.field_zero, OStream.chunk_right h5]
  congr 1
  cases a.negative <;> simp

/-! ### What is appended to a plain stream -/

namespace OStream

/-- `o'` is `o` with `s` appended; the fill character is as before or (only if `z` holds) `0`. -/
def After (z : Prop) (o : OStream) (s : List Char) (o' : OStream) : Prop :=
  ∃ f, (f = o.fill ∨ z ∧ f = '0') ∧ o' = { o with text := o.text ++ s, fill := f }

theorem After.refl {z : Prop} (o : OStream) : After z o [] o := ⟨o.fill, .inl rfl, by simp⟩

theorem After.plain {z : Prop} {o o' : OStream} {s : List Char} (h : After z o s o') (ho : o.Plain) : o'.Plain := by
  obtain ⟨f, -, rfl⟩ := h; exact ho

theorem After.trans {z : Prop} {o o' o'' : OStream} {s s' : List Char} (h : After z o s o') (h' : After z o' s' o'') :
    After z o (s ++ s') o'' := by
  obtain ⟨f, hf, rfl⟩ := h
  obtain ⟨f', hf', rfl⟩ := h'
  refine ⟨f', ?_, by simp⟩
  rcases hf' with rfl | hf'
  · exact hf
  · exact .inr hf'

theorem After.mono {z z' : Prop} (hz : z → z') {o o' : OStream} {s : List Char} (h : After z o s o') : After z' o s o' := by
  obtain ⟨f, hf, e⟩ := h
  exact ⟨f, hf.imp_right fun h => ⟨hz h.1, h.2⟩, e⟩

theorem putStr_after {z : Prop} {o : OStream} (ho : o.Plain) (s : List Char) : After z o s (o.putStr s) := by
  refine ⟨o.fill, .inl rfl, ?_⟩
  rw [putStr, insert_good ho.1, pad_nil, ho.2.1, field_zero]
  simp [written, ho.2.1]

theorem putI32_after {z : Prop} {o : OStream} (ho : o.Plain) (n : Int) : After z o (numeral n) (o.putI32 n) := by
  refine ⟨o.fill, .inl rfl, ?_⟩
  have : o.pad (o.numParts n).1 (o.numParts n).2 = numeral n := by
    unfold numParts pad numeral
    rw [ho.2.1, ho.2.2.1, ho.2.2.2.1]
    cases o.adjust <;> by_cases h : n < 0 <;> simp [h]
  rw [putI32, insert_good ho.1, this]
  simp [written, ho.2.1]

theorem endl_after {z : Prop} {o : OStream} (ho : o.Plain) : After z o ['\n'] o.endl := by
  refine ⟨o.fill, .inl rfl, ?_⟩
  rw [endl, if_pos ho.1]

end OStream

open OStream

theorem BigInt.printTo_after {z : Prop} {a : BigInt} (h : WF a) (hz : 1000000000 ≤ |a.val| → z) {o : OStream} (ho : o.Plain) :
    After z o (print a) (a.printTo o) := by
  rw [printTo_plain h ho]
  by_cases hv : |a.val| < 1000000000
  · rw [if_pos hv]; exact ⟨o.fill, .inl rfl, by simp [written, ho.2.1]⟩
  · rw [if_neg hv]; exact ⟨'0', .inr ⟨hz (by omega), rfl⟩, by simp [written, ho.2.1]⟩

theorem Frac.printTo_after {z : Prop} {x : Frac} (h : WF x.tt ∧ WF x.bb) (hz : 1000000000 ≤ |x.tt.val| ∨ 1000000000 ≤ |x.bb.val| → z)
    {o : OStream} (ho : o.Plain) : After z o (Frac.print x) (x.printTo o) := by
  have a1 := putStr_after (z := z) ho ['(']
  have a2 := a1.trans (BigInt.printTo_after h.1 (fun h => hz (.inl h)) (a1.plain ho))
  have a3 := a2.trans (putStr_after (a2.plain ho) ['/'])
  have a4 := a3.trans (BigInt.printTo_after h.2 (fun h => hz (.inr h)) (a3.plain ho))
  exact a4.trans (putStr_after (a4.plain ho) [')'])

/-- The stream-level computation does what the text-level one says. -/
def Tracks (z : Prop) (o : OStream) (tx : Res (List Char)) (r : Res OStream) : Prop :=
  ∀ s, tx = .ok s → ∃ o', r = .ok o' ∧ After z o s o'

theorem Tracks.ok {z : Prop} {o o' : OStream} {s : List Char} (h : After z o s o') : Tracks z o (.ok s) (.ok o') := by
  intro s' e; cases e; exact ⟨o', rfl, h⟩

theorem forUp_sim' {σ τ : Type} {R : σ → τ → Prop} {f : Nat → σ → Res σ} {g : Nat → τ → Res τ}
    (hb : ∀ i s t t', R s t → g i t = .ok t' → ∃ s', f i s = .ok s' ∧ R s' t') (n : Nat) :
    ∀ (lo : Nat) (s : σ) (t t' : τ), R s t → forUp lo n g t = .ok t' → ∃ s', forUp lo n f s = .ok s' ∧ R s' t' := by
  induction n with
  | zero => intro lo s t t' h e; cases e; exact ⟨s, rfl, h⟩
  | succ n ih =>
    intro lo s t t' h e
    unfold forUp at e ⊢
    cases hg : g lo t with
    | error er => rw [hg] at e; cases e
    | ok t1 =>
      rw [hg] at e
      obtain ⟨s1, h1, h2⟩ := hb lo s t t1 h hg
      rw [h1]
      exact ih (lo + 1) s1 t1 t' h2 e

theorem Vec.printTo_tracks {T : Type} {z : Prop} {pr : T → List Char} {prTo : T → OStream → OStream} {x : List T}
    (hpr : ∀ t ∈ x, ∀ o, OStream.Plain o → After z o (pr t) (prTo t o)) {o : OStream} (ho : o.Plain) :
    Tracks z o (Vec.print pr x) (Vec.printTo prTo x o) := by
  intro s hs
  unfold Vec.print at hs
  unfold Vec.printTo
  cases hl : forUp 0 (x.length - 1) (fun i out => do let t ← Vec.get x i; return out ++ pr t ++ [',', ' ']) ['('] with
  | error e => rw [hl] at hs; cases hs
  | ok s1 =>
    rw [hl] at hs
    have hmem : ∀ i t, Vec.get x i = .ok t → t ∈ x := by
      intro i t h
      unfold Vec.get at h
      split at h
      · cases h; exact List.mem_of_getElem? (by assumption)
      · cases h
    obtain ⟨o1, e1, a1⟩ := forUp_sim' (R := fun (o' : OStream) s => After z o s o')
      (f := fun i o => do let t ← Vec.get x i; return (prTo t o).putStr [',', ' ']) (fun i o' s s' h e => by
        cases hg : Vec.get x i with
        | error er => rw [hg] at e; cases e
        | ok t =>
          rw [hg] at e
          cases e
          refine ⟨_, rfl, ?_⟩
          have a := h.trans (hpr t (hmem i t hg) o' (h.plain ho))
          exact a.trans (putStr_after (a.plain ho) _)) _ 0 (o.putStr ['(']) ['('] s1 (putStr_after ho _) hl
    rw [e1]
    simp only [bind_ok] at hs ⊢
    by_cases hc : x.length - 1 < x.length
    · rw [if_pos hc] at hs ⊢
      cases hg : Vec.get x (x.length - 1) with
      | error er => rw [hg] at hs; cases hs
      | ok t =>
        rw [hg] at hs
        cases hs
        refine ⟨_, rfl, ?_⟩
        have a := a1.trans (hpr t (hmem _ t hg) o1 (a1.plain ho))
        exact a.trans (putStr_after (a.plain ho) _)
    · rw [if_neg hc] at hs ⊢
      cases hs
      exact ⟨_, rfl, a1.trans (putStr_after (a1.plain ho) _)⟩

theorem Mat.printTo_tracks {T : Type} {z : Prop} {pr : T → List Char} {prTo : T → OStream → OStream} {m : Mat T}
    (hpr : ∀ m' i j t, m.copy = .ok m' → m'.get i j = .ok t → ∀ o, OStream.Plain o → After z o (pr t) (prTo t o)) {o : OStream} (ho : o.Plain) :
    Tracks z o (m.print pr) (m.printTo prTo o) := by
  intro s hs
  unfold Mat.print at hs
  unfold Mat.printTo
  cases hm : m.copy with
  | error e => rw [hm] at hs; cases hs
  | ok m' =>
    rw [hm] at hs
    simp only [bind_ok] at hs ⊢
    refine forUp_sim' (R := fun (o' : OStream) s => After z o s o') (fun i o' s s' h e => ?_) _ 0 o [] s (After.refl o) hs
    cases hl : forUp 0 m'.cols (fun j out => do let t ← m'.get i j; return out ++ pr t ++ [' ']) s with
    | error er => rw [hl] at e; cases e
    | ok s1 =>
      rw [hl] at e
      obtain ⟨o1, e1, a1⟩ := forUp_sim' (R := fun (o' : OStream) s => After z o s o')
        (f := fun j o => do let t ← m'.get i j; return (prTo t o).putStr [' ']) (fun j o' s s' h e => by
          cases hg : m'.get i j with
          | error er => rw [hg] at e; cases e
          | ok t =>
            rw [hg] at e
            cases e
            refine ⟨_, rfl, ?_⟩
            have a := h.trans (hpr m' i j t hm hg o' (h.plain ho))
            exact a.trans (putStr_after (a.plain ho) _)) _ 0 o' s s1 h hl
      rw [e1]
      cases e
      simp only [bind_ok, pure_ok]
      refine ⟨_, rfl, ?_⟩
      by_cases hc : i < m'.rows - 1
      · rw [if_pos hc, if_pos hc]; exact a1.trans (endl_after (a1.plain ho))
      · rw [if_neg hc, if_neg hc]; exact a1

/-! ### Polynomials -/

theorem Factor.printTo_tracks {f : Factor} (h : WF f.power) {o : OStream} (ho : o.Plain) : Tracks True o f.print (f.printTo o) := by
  unfold Factor.print Factor.printTo
  cases f.power.equalsInt32 1 with
  | error e => intro s e; cases e
  | ok b =>
    simp only [bind_ok]
    cases b
    · have a1 := putStr_after (z := True) ho f.id
      have a2 := a1.trans (putStr_after (a1.plain ho) ['^'])
      exact Tracks.ok (a2.trans (BigInt.printTo_after h (fun _ => trivial) (a2.plain ho)))
    · exact Tracks.ok (putStr_after ho f.id)

theorem Tracks.bind {z : Prop} {o : OStream} {tx : Res (List Char)} {r : Res OStream} {f : List Char → Res (List Char)}
    {g : OStream → Res OStream} (h : Tracks z o tx r) (hf : ∀ s o', After z o s o' → Tracks z o (f s) (g o')) :
    Tracks z o (tx >>= f) (r >>= g) := by
  intro s e
  cases tx with
  | error er => cases e
  | ok s1 =>
    obtain ⟨o1, rfl, a⟩ := h s1 rfl
    exact hf s1 o1 a s e

theorem Tracks.shift {z : Prop} {o o' : OStream} {s : List Char} (h : After z o s o') {tx : Res (List Char)} {r : Res OStream}
    (ht : Tracks z o' tx r) : Tracks z o (tx >>= fun t => .ok (s ++ t)) r := by
  intro t e
  cases tx with
  | error er => cases e
  | ok s1 =>
    cases e
    obtain ⟨o1, h1, a⟩ := ht s1 rfl
    exact ⟨o1, h1, h.trans a⟩

theorem Term.printRestTo_tracks (fs : FactorMap) (h : ∀ p ∈ fs, BigInt.WF p.2.power) : ∀ {o : OStream}, o.Plain →
    Tracks True o (Term.printRest fs) (Term.printRestTo fs o) := by
  induction fs with
  | nil => intro o _; exact Tracks.ok (After.refl o)
  | cons p r ih =>
    intro o ho
    obtain ⟨k, f⟩ := p
    have a1 := putStr_after (z := True) ho " * ".toList
    intro s e
    unfold Term.printRest at e
    unfold Term.printRestTo
    cases hf : f.print with
    | error er => rw [hf] at e; cases e
    | ok s1 =>
      rw [hf] at e
      obtain ⟨o1, e1, a2⟩ := Factor.printTo_tracks (h (k, f) List.mem_cons_self) (a1.plain ho) s1 hf
      rw [e1]
      simp only [bind_ok] at e ⊢
      cases hr : Term.printRest r with
      | error er => rw [hr] at e; cases e
      | ok s2 =>
        rw [hr] at e
        cases e
        have a12 := a1.trans a2
        obtain ⟨o2, e2, a3⟩ := ih (fun p hp => h p (List.mem_cons_of_mem _ hp)) (a12.plain ho) s2 hr
        exact ⟨o2, e2, a12.trans a3⟩

theorem Term.printTo_tracks {t : Term} (hc : BigInt.WF t.coeff.tt ∧ BigInt.WF t.coeff.bb) (h : ∀ p ∈ t.factors, BigInt.WF p.2.power) {o : OStream} (ho : o.Plain) :
    Tracks True o t.print (t.printTo o) := by
  unfold Term.print Term.printTo
  have hf := Frac.printTo_after (z := True) hc (fun _ => trivial) ho
  cases Frac.ofI32 0 with
  | error e => intro s e; cases e
  | ok zero =>
  cases Frac.ofI32 1 with
  | error e => intro s e; cases e
  | ok one =>
  simp only [bind_ok]
  cases Frac.eq t.coeff zero with
  | error e => intro s e; cases e
  | ok z =>
  simp only [bind_ok]
  cases z with
  | true => exact Tracks.ok (putStr_after ho _)
  | false =>
  simp only [Bool.false_eq_true, if_false]
  cases Frac.eq t.coeff one with
  | error e => intro s e; cases e
  | ok u =>
  simp only [bind_ok]
  cases ht : t.factors with
  | nil =>
    cases u
    · exact Tracks.ok hf
    · exact Tracks.ok (putStr_after ho _)
  | cons p r =>
    obtain ⟨k, f⟩ := p
    rw [ht] at h
    cases u
    · simp only [Bool.false_eq_true, if_false]
      exact Tracks.shift hf (Term.printRestTo_tracks _ h (hf.plain ho))
    · simp only [if_true]
      refine Tracks.bind (Factor.printTo_tracks (h (k, f) List.mem_cons_self) ho) fun s o' a => ?_
      exact Tracks.shift a (Term.printRestTo_tracks _ (fun p hp => h p (List.mem_cons_of_mem _ hp)) (a.plain ho))

/-- The bins of everything in the term are in range. -/
def TermBins (t : Term) : Prop := (WF t.coeff.tt ∧ WF t.coeff.bb) ∧ ∀ p ∈ t.factors, WF p.2.power

theorem Poly.printRestTo_tracks (ts : List Term) (h : ∀ t ∈ ts, TermBins t) : ∀ {o : OStream}, o.Plain →
    Tracks True o (Poly.printRest ts) (Poly.printRestTo ts o) := by
  induction ts with
  | nil => intro o _; exact Tracks.ok (After.refl o)
  | cons t r ih =>
    intro o ho
    have a1 := putStr_after (z := True) ho " + ".toList
    intro s e
    unfold Poly.printRest at e
    unfold Poly.printRestTo
    cases hf : t.print with
    | error er => rw [hf] at e; cases e
    | ok s1 =>
      rw [hf] at e
      obtain ⟨h1, h2⟩ := h t List.mem_cons_self
      obtain ⟨o1, e1, a2⟩ := Term.printTo_tracks h1 h2 (a1.plain ho) s1 hf
      rw [e1]
      simp only [bind_ok] at e ⊢
      cases hr : Poly.printRest r with
      | error er => rw [hr] at e; cases e
      | ok s2 =>
        rw [hr] at e
        cases e
        have a12 := a1.trans a2
        obtain ⟨o2, e2, a3⟩ := ih (fun p hp => h p (List.mem_cons_of_mem _ hp)) (a12.plain ho) s2 hr
        exact ⟨o2, e2, a12.trans a3⟩

theorem Poly.printTo_tracks {p : Poly} (h : ∀ t ∈ p.terms, TermBins t) {o : OStream} (ho : o.Plain) :
    Tracks True o p.print (p.printTo o) := by
  unfold Poly.print Poly.printTo
  cases hp : p.terms with
  | nil => exact Tracks.ok (After.refl o)
  | cons t r =>
    rw [hp] at h
    obtain ⟨h1, h2⟩ := h t List.mem_cons_self
    refine Tracks.bind (Term.printTo_tracks h1 h2 ho) fun s o' a => ?_
    exact Tracks.shift a (Poly.printRestTo_tracks _ (fun p hp => h p (List.mem_cons_of_mem _ hp)) (a.plain ho))

end CppMaths
