import Verif.Model.ReadAlloc
import Verif.Proofs.IntAllocLeft
import Verif.Proofs.IntText
/-!
# Reading an `Int` when memory runs out
-/

namespace CppMaths
namespace BigInt
open GM

variable {L : ILuck}

theorem inserts_ok (cs : List Char) : ∀ (b : OBuf) (n : Nat), ∃ b' n', insertsA L b cs ((), n) = (.ok b', ((), n')) ∧
    (b'.bad = false → b.bad = false ∧ b'.text = b.text ++ cs) ∧ (b'.bad = true → b.bad = true ∨ L.Refuses) ∧ (b.bad = true → b' = b) ∧
    b'.text.length ≤ b.text.length + cs.length := by
  induction cs with
  | nil => exact fun b n => ⟨b, n, rfl, by simp, fun h => .inl h, fun _ => rfl, by simp⟩
  | cons c cs ih =>
    intro b n
    by_cases hb : b.bad = true
    · obtain ⟨b', n', h1, h2, h3, h4, h5⟩ := ih b n
      refine ⟨b', n', ?_, fun h => absurd (h2 h).1 (by simp [hb]), h3, h4, by simp only [List.length_cons]; omega⟩
      show (insertA L b c >>= fun b => insertsA L b cs) ((), n) = _
      rw [insertA, if_pos hb]
      exact h1
    · by_cases hr : L.refuse n = true
      · obtain ⟨b', n', h1, h2, h3, h4, h5⟩ := ih { b with bad := true } (n + 1)
        refine ⟨b', n', ?_, fun h => absurd (h2 h).1 (by simp), fun _ => .inr ⟨n, hr⟩, fun h => absurd h hb, ?_⟩
        · show (insertA L b c >>= fun b => insertsA L b cs) ((), n) = _
          rw [insertA, if_neg hb]
          simp only [bind, askSoft, hr]
          exact h1
        · simp only [List.length_cons] at h5 ⊢; omega
      · obtain ⟨b', n', h1, h2, h3, h4, h5⟩ := ih { b with text := b.text ++ [c] } (n + 1)
        refine ⟨b', n', ?_, fun h => ?_, h3, fun h => absurd h hb, ?_⟩
        · show (insertA L b c >>= fun b => insertsA L b cs) ((), n) = _
          rw [insertA, if_neg hb]
          simp only [bind, askSoft, hr]
          exact h1
        · obtain ⟨h5, h6⟩ := h2 h
          exact ⟨h5, by rw [h6]; simp⟩
        · simp only [List.length_append, List.length_cons, List.length_nil] at h5 ⊢; omega

theorem takeDigits_acc (f : Nat) : ∀ (s : IStream) (acc : List Char),
    takeDigits f s acc = (acc ++ (takeDigits f s []).1, (takeDigits f s []).2) := by
  induction f with
  | zero => intro s acc; simp [takeDigits]
  | succ f ih =>
    intro s acc
    unfold takeDigits
    dsimp only
    split
    · rw [ih _ (acc ++ _), ih _ ([] ++ _)]
      simp
    · simp

theorem takeDigitsA_ok (f : Nat) : ∀ (s : IStream) (b : OBuf) (n : Nat), ∃ b' n',
    takeDigitsA L f s b ((), n) = (.ok (b', (takeDigits f s []).2), ((), n')) ∧
    (b'.bad = false → b.bad = false ∧ b'.text = b.text ++ (takeDigits f s []).1) ∧ (b'.bad = true → b.bad = true ∨ L.Refuses) ∧
    b'.text.length ≤ b.text.length + (takeDigits f s []).1.length := by
  induction f with
  | zero => exact fun s b n => ⟨b, n, rfl, by simp [takeDigits], fun h => .inl h, by simp⟩
  | succ f ih =>
    intro s b n
    unfold takeDigitsA takeDigits
    dsimp only
    split
    · obtain ⟨b1, n1, h1, h2, h3, _, h5⟩ := inserts_ok (L := L) s.peek.2.get.1.toList b n
      obtain ⟨b2, n2, k1, k2, k3, k5⟩ := ih s.peek.2.get.2 b1 n1
      refine ⟨b2, n2, ?_, fun h => ?_, fun h => ?_, ?_⟩
      · rw [GM.bind_ok h1, takeDigits_acc f _ ([] ++ _)]
        exact k1
      · obtain ⟨g1, g2⟩ := k2 h
        obtain ⟨g3, g4⟩ := h2 g1
        refine ⟨g3, ?_⟩
        rw [g2, g4, takeDigits_acc f _ ([] ++ _)]
        simp
      · rcases k3 h with g | g
        · exact h3 g
        · exact .inr g
      · rw [takeDigits_acc f _ ([] ++ _)]
        simp only [List.length_append, List.nil_append]
        omega
    · exact ⟨b, n, rfl, by simp, fun h => .inl h, by simp⟩

/-- After a good stream has been read, failbit is not set. -/
theorem takeDigits_fail (f : Nat) : ∀ (s : IStream) (acc : List Char), s.good = true → (takeDigits f s acc).2.fail = false := by
  induction f with
  | zero =>
    intro s acc h
    simp only [IStream.good, Bool.and_eq_true, Bool.not_eq_true'] at h
    exact h.1.2
  | succ f ih =>
    intro s acc h
    rw [IStream_eq_goodAt h]
    unfold takeDigits
    cases hr : s.rest with
    | nil => rfl
    | cons c r =>
      rw [peek_cons]
      dsimp only
      rw [get_cons]
      dsimp only
      split
      · exact ih _ _ rfl
      · rfl

/-- Failures that come from refused requests. -/
def MemErr (L : ILuck) (e : Err) : Prop := L.Refuses ∧ (e = .badAlloc ∨ e = .invalidArgument)

theorem parseIntA_ok (ss : OBuf) (hss : ss.bad = true → L.Refuses) (k n : Nat) : match parseIntA L ss k ((), n) with
    | (.ok (v, ss'), _) => ss.bad = false ∧ ss'.bad = false ∧ parseInt ss.text k = .ok (v, ss'.text)
    | (.error e, _) => MemErr L e ∨ (ss.bad = false ∧ parseInt ss.text k = .error e) := by
  unfold parseIntA
  by_cases hr : L.refuse n = true
  · rw [GM.bind_error (GM.ask_no (s := ((), n)) hr)]
    exact .inl ⟨⟨n, hr⟩, .inl rfl⟩
  rw [GM.bind_ok (GM.ask_yes (s := ((), n)) hr)]
  dsimp only
  have hdef : ∃ ds, ds = if ss.bad = true then [] else (ss.text.take k).takeWhile (fun c => isDigit (some c)) := ⟨_, rfl⟩
  obtain ⟨ds, hds⟩ := hdef
  rw [← hds]
  obtain ⟨b, n2, h1, h2, h3, _, _⟩ := inserts_ok (L := L) ds ⟨[], false⟩ (n + 1)
  rw [GM.bind_ok h1]
  have hsoft : ∀ k : Bool → AM (Int × OBuf), (askSoft L >>= k) ((), n2) = k (!L.refuse n2) ((), n2 + 1) := fun k => rfl
  rw [hsoft]
  have hfail : ∀ m, 
      (MemErr L .invalidArgument ∨ (ss.bad = false ∧ parseInt ss.text k = .error .invalidArgument)) →
      match ((GM.ask L >>= fun _ => (GM.free (.error .invalidArgument) : AM (Int × OBuf))) ((), m)) with
      | (.ok (v, ss'), _) => ss.bad = false ∧ ss'.bad = false ∧ parseInt ss.text k = .ok (v, ss'.text)
      | (.error e, _) => MemErr L e ∨ (ss.bad = false ∧ parseInt ss.text k = .error e) := by
    intro m h
    by_cases hr : L.refuse m = true
    · rw [GM.bind_error (GM.ask_no (s := ((), m)) hr)]
      exact .inl ⟨⟨m, hr⟩, .inl rfl⟩
    · rw [GM.bind_ok (GM.ask_yes (s := ((), m)) hr)]
      exact h
  have hmem : MemErr L .invalidArgument ∨ (ss.bad = false ∧ parseInt ss.text k = .error .invalidArgument) ∨
      (b.bad = false ∧ L.refuse n2 ≠ true ∧ ss.bad = false ∧ b.text ≠ [] ∧ readDigits b.text ≤ 2147483647) := by
    by_cases g1 : b.bad = true
    · rcases h3 g1 with h | h
      · cases h
      · exact .inl ⟨h, .inr rfl⟩
    by_cases g2 : L.refuse n2 = true
    · exact .inl ⟨⟨n2, g2⟩, .inr rfl⟩
    by_cases g3 : ss.bad = true
    · exact .inl ⟨hss g3, .inr rfl⟩
    simp only [Bool.not_eq_true] at g1 g3
    have g4 := (h2 g1).2
    simp only [g3, Bool.false_eq_true, if_false] at hds
    rw [List.nil_append] at g4
    by_cases g5 : b.text = []
    · refine .inr (.inl ⟨g3, ?_⟩)
      unfold parseInt
      rw [← hds, ← g4, g5]
      rfl
    by_cases g6 : readDigits b.text ≤ 2147483647
    · exact .inr (.inr ⟨g1, g2, g3, g5, g6⟩)
    · refine .inr (.inl ⟨g3, ?_⟩)
      unfold parseInt
      rw [← hds, ← g4]
      simp [g5, not_le.mp g6]
  by_cases hc : (b.bad || !(!L.refuse n2) || b.text.isEmpty || decide (readDigits b.text > 2147483647)) = true
  · rw [if_pos hc]
    refine hfail _ ?_
    · rcases hmem with h | h | ⟨a1, a2, a3, a4, a5⟩
      · exact .inl h
      · exact .inr h
      · exfalso
        simp [a1, a2, a4, a5, not_lt.mpr a5] at hc
  · rw [if_neg hc]
    simp only [Bool.or_eq_true, not_or, decide_eq_true_eq, Bool.not_eq_true, List.isEmpty_iff] at hc
    obtain ⟨⟨⟨c1, c2⟩, c3⟩, c4⟩ := hc
    have g4 := (h2 c1).2
    rw [List.nil_append] at g4
    have g3 : ss.bad = false := by
      by_contra hb
      rw [if_pos (by simpa using hb)] at hds
      rw [g4, hds] at c3
      exact c3 rfl
    simp only [g3, Bool.false_eq_true, if_false] at hds
    refine ⟨g3, g3, ?_⟩
    unfold parseInt
    dsimp only
    rw [← hds, ← g4, if_neg (by simpa using c3), if_neg c4]

theorem readBins_suffix (n : Nat) : ∀ (ss : List Char) (bins r : List Int), readBins n ss bins = .ok r → ∃ low, r = low ++ bins := by
  induction n with
  | zero =>
    intro ss bins r h
    cases h
    exact ⟨[], rfl⟩
  | succ n ih =>
    intro ss bins r h
    unfold readBins at h
    cases hp : parseInt ss BIN_WIDTH with
    | error e => rw [hp] at h; cases h
    | ok p =>
      rw [hp] at h
      obtain ⟨low, h⟩ := ih _ _ _ h
      exact ⟨low ++ [p.1], by rw [h]; simp⟩

theorem pushFrontA_ok (v : Int) (s : IStream) (a : BigInt) (n : Nat) :
    (L.refuse n = true ∧ onObj (pushFrontA L v) ((s, a), n) = (.error .badAlloc, ((s, a), n + 1))) ∨
    (onObj (pushFrontA L v) ((s, a), n) = (.ok (), ((s, { a with bins := v :: a.bins }), n + 1))) := by
  unfold onObj pushFrontA
  dsimp only
  by_cases hr : L.refuse n = true
  · rw [GM.bind_error (GM.ask_no (s := (a, n)) hr)]
    exact .inl ⟨hr, rfl⟩
  · rw [GM.bind_ok (GM.ask_yes (s := (a, n)) hr)]
    exact .inr rfl

theorem readBinsA_ok (s : IStream) (m : Nat) : ∀ (ss : OBuf) (_ : ss.bad = true → L.Refuses ∧ m ≠ 0) (a : BigInt) (n : Nat),
    match readBinsA L m ss ((s, a), n) with
    | (.ok _, ((s', a'), _)) => s' = s ∧ a'.negative = a.negative ∧ ss.bad = false ∧ readBins m ss.text a.bins = .ok a'.bins
    | (.error e, ((s', a'), _)) => s' = s ∧ a'.negative = a.negative ∧ (∃ low, a'.bins = low ++ a.bins) ∧
      ((MemErr L e ∧ (ss.bad = true → a' = a) ∧ ∀ r, readBins m ss.text a.bins = .ok r → ss.bad = false → ∃ low, r = low ++ a'.bins) ∨
        (ss.bad = false ∧ readBins m ss.text a.bins = .error e)) := by
  induction m with
  | zero =>
    intro ss hss a n
    refine ⟨rfl, rfl, ?_, rfl⟩
    by_contra h
    exact (hss (by simpa using h)).2 rfl
  | succ m ih =>
    intro ss hss a n
    have hp := parseIntA_ok ss (fun h => (hss h).1) BIN_WIDTH n
    rcases hq : parseIntA L ss BIN_WIDTH ((), n) with ⟨o, ⟨⟨⟩, n1⟩⟩
    rw [hq] at hp
    have hq' := GM.other_eq (s := (s, a)) hq
    unfold readBinsA
    cases o with
    | error e =>
      rw [GM.bind_error hq']
      dsimp only at hp ⊢
      refine ⟨rfl, rfl, ⟨[], rfl⟩, ?_⟩
      rcases hp with hp | ⟨hp1, hp2⟩
      · exact .inl ⟨hp, fun _ => rfl, fun r hr _ => readBins_suffix _ _ _ _ hr⟩
      · refine .inr ⟨hp1, ?_⟩
        unfold readBins
        rw [hp2]
        rfl
    | ok p =>
      obtain ⟨v, ss'⟩ := p
      obtain ⟨hp1, hp2, hp3⟩ := hp
      rw [GM.bind_ok hq']
      dsimp only
      have hstep : ∀ bins, readBins (m + 1) ss.text bins = readBins m ss'.text (v :: bins) := by
        intro bins
        conv_lhs => unfold readBins
        rw [hp3]
        rfl
      rcases pushFrontA_ok (L := L) v s a n1 with ⟨hr, h⟩ | h
      · rw [GM.bind_error h]
        exact ⟨rfl, rfl, ⟨[], rfl⟩, .inl ⟨⟨⟨n1, hr⟩, .inl rfl⟩, fun _ => rfl, fun r hr _ => readBins_suffix _ _ _ _ hr⟩⟩
      · rw [GM.bind_ok h]
        have hi := ih ss' (fun h => by rw [hp2] at h; cases h) { a with bins := v :: a.bins } (n1 + 1)
        rcases hm : readBinsA L m ss' ((s, { a with bins := v :: a.bins }), n1 + 1) with ⟨o, ⟨⟨s', a'⟩, n2⟩⟩
        rw [hm] at hi
        cases o with
        | ok u =>
          obtain ⟨i1, i2, _, i4⟩ := hi
          exact ⟨i1, i2, hp1, by rw [hstep]; exact i4⟩
        | error e =>
          obtain ⟨i1, i2, ⟨low, i3⟩, i4⟩ := hi
          refine ⟨i1, i2, ⟨low ++ [v], by rw [i3]; simp⟩, ?_⟩
          rcases i4 with ⟨i4, _, i6⟩ | ⟨i4, i5⟩
          · refine .inl ⟨i4, fun h => (by rw [hp1] at h; cases h), fun r hr _ => ?_⟩
            rw [hstep] at hr
            exact i6 r hr hp2
          · exact .inr ⟨hp1, by rw [hstep]; exact i5⟩

theorem takeDigits_not_good (f : Nat) {s : IStream} (h : s.good = false) (acc : List Char) : (takeDigits f s acc).1 = acc := by
  cases f with
  | zero => rfl
  | succ f =>
    unfold takeDigits
    have : s.peek = (none, s.setFail) := by unfold IStream.peek; rw [h]; rfl
    rw [this]
    rfl

theorem insertA_mono (b : OBuf) (c : Char) (n : Nat) : ∃ b' n', insertA L b c ((), n) = (.ok b', ((), n')) ∧ b.text.length ≤ b'.text.length := by
  unfold insertA
  by_cases hb : b.bad = true
  · rw [if_pos hb]
    exact ⟨b, n, rfl, le_refl _⟩
  · rw [if_neg hb]
    by_cases hr : L.refuse n = true
    · exact ⟨{ b with bad := true }, n + 1, by simp only [bind, askSoft, hr]; rfl, le_refl _⟩
    · exact ⟨{ b with text := b.text ++ [c] }, n + 1, by simp only [bind, askSoft, hr]; rfl, by simp⟩

theorem inserts_mono (cs : List Char) : ∀ (b b' : OBuf) (n n' : Nat), insertsA L b cs ((), n) = (.ok b', ((), n')) →
    b.text.length ≤ b'.text.length := by
  induction cs with
  | nil =>
    intro b b' n n' h
    cases h
    exact le_refl _
  | cons c cs ih =>
    intro b b' n n' h
    obtain ⟨b1, n1, h1, h2⟩ := insertA_mono (L := L) b c n
    unfold insertsA at h
    rw [GM.bind_ok h1] at h
    exact h2.trans (ih _ _ _ _ h)

theorem takeDigitsA_mono (f : Nat) : ∀ (s s' : IStream) (b b' : OBuf) (n n' : Nat),
    takeDigitsA L f s b ((), n) = (.ok (b', s'), ((), n')) → b.text.length ≤ b'.text.length := by
  induction f with
  | zero =>
    intro s s' b b' n n' h
    cases h
    exact le_refl _
  | succ f ih =>
    intro s s' b b' n n' h
    unfold takeDigitsA at h
    dsimp only at h
    split at h
    · obtain ⟨b1, n1, h1, -⟩ := inserts_ok (L := L) s.peek.2.get.1.toList b n
      rw [GM.bind_ok h1] at h
      exact (inserts_mono _ _ _ _ _ h1).trans (ih _ _ _ _ _ _ h)
    · cases h
      exact le_refl _

/-- If the first digit can be stored, the digits are not lost altogether. -/
theorem takeDigitsA_first (f : Nat) {s s' : IStream} {b' : OBuf} {n n' : Nat} (h0 : L.refuse n = false)
    (h : takeDigitsA L f s ⟨[], false⟩ ((), n) = (.ok (b', s'), ((), n'))) (hd : (takeDigits f s []).1 ≠ []) : b'.text ≠ [] := by
  cases f with
  | zero => exact absurd rfl hd
  | succ f =>
    have hg : s.good = true := by
      by_contra hg
      exact hd (takeDigits_not_good _ (by simpa using hg) _)
    rw [IStream_eq_goodAt hg] at h hd
    cases hr : s.rest with
    | nil =>
      rw [hr] at hd
      exact absurd rfl hd
    | cons c r =>
      rw [hr] at h hd
      unfold takeDigitsA at h
      unfold takeDigits at hd
      rw [peek_cons] at h hd
      dsimp only at h hd
      rw [get_cons] at h hd
      by_cases hc : isDigit (some c) = true
      · rw [if_pos hc] at h
        have h1 : insertsA L ⟨[], false⟩ [c] ((), n) = (.ok ⟨[c], false⟩, ((), n + 1)) := by
          show (insertA L ⟨[], false⟩ c >>= fun b => insertsA L b []) ((), n) = _
          rw [insertA, if_neg (by simp)]
          simp only [bind, askSoft, h0]
          rfl
        have h2 : ((some c).toList : List Char) = [c] := rfl
        dsimp only at h
        rw [h2, GM.bind_ok h1] at h
        have := takeDigitsA_mono _ _ _ _ _ _ _ h
        intro hb
        rw [hb] at this
        simp at this
      · rw [if_neg hc] at hd
        exact absurd rfl hd

/-- What an attempt to read the digits of a number ends with, when the attempt with unlimited memory ends with `s2` and `z`; `first` says that there is no
memory for the first digit. -/
def ReadEnd (L : ILuck) (first : Bool) (o : Except Err Unit) (s' : IStream) (a' : BigInt) (sign : Bool) (s2 : IStream) (z : BigInt) : Prop :=
  match o with
  | .ok _ => s' = s2 ∧ (a' = z ∨ (L.Refuses ∧ first = true ∧ a' = ⟨[0], false⟩))
  | .error e => MemErr L e ∧ a'.negative = sign ∧ ∃ low, z.bins = low ++ a'.bins

theorem setValue_onObj (s : IStream) (a : BigInt) (n : Nat) :
    (L.refuse n = true ∧ onObj (setValueT L 0) ((s, a), n) = (.error .badAlloc, ((s, { a with bins := [] }), n + 1))) ∨
    (onObj (setValueT L 0) ((s, a), n) = (.ok (), ((s, ⟨[0], false⟩), n + 1))) := by
  have e : ∀ m, setValueT L 0 (a, m) = (GM.ask L >>= fun _ => GM.put ⟨[0], false⟩) ({ a with bins := [] }, m) := fun m => rfl
  unfold onObj
  dsimp only
  rw [e]
  by_cases hr : L.refuse n = true
  · rw [GM.bind_error (GM.ask_no (s := (({ a with bins := [] } : BigInt), n)) hr)]
    exact .inl ⟨hr, rfl⟩
  · rw [GM.bind_ok (GM.ask_yes (s := (({ a with bins := [] } : BigInt), n)) hr)]
    exact .inr rfl

theorem readBodyA_ok (sign : Bool) (s : IStream) (s2 : IStream) (z : BigInt) (hok : readBody sign s = .ok (s2, z)) (s0 : IStream) (a0 : BigInt) (n : Nat) :
    match readBodyA L sign s ((s0, a0), n) with
    | (o, ((s', a'), _)) => ReadEnd L (L.refuse (n + 1)) o s' a' sign s2 z := by
  unfold readBodyA
  unfold readBody at hok
  dsimp only at hok ⊢
  generalize skipZeros (s.rest.length + 1) s = t at *
  have hput : ∀ {γ : Type} (w : IStream × BigInt) (k : GM (IStream × BigInt) γ) (v : IStream × BigInt) (m : Nat),
      (GM.put w >>= fun _ => k) (v, m) = k (w, m) := fun _ _ _ _ => rfl
  rw [hput]
  have herr : ∀ e u, MemErr L e → ReadEnd L (L.refuse (n + 1)) (.error e) u ⟨[], sign⟩ sign s2 z :=
    fun e u h => ⟨h, rfl, ⟨z.bins, by simp⟩⟩
  by_cases hr : L.refuse n = true
  · rw [GM.bind_error (GM.ask_no (s := ((t, (⟨[], sign⟩ : BigInt)), n)) hr)]
    exact herr _ _ ⟨⟨n, hr⟩, .inl rfl⟩
  rw [GM.bind_ok (GM.ask_yes (s := ((t, (⟨[], sign⟩ : BigInt)), n)) hr)]
  dsimp only
  obtain ⟨b, n1, h1, h2, h3, h4⟩ := takeDigitsA_ok (L := L) (t.rest.length + 1) t ⟨[], false⟩ (n + 1)
  rw [GM.bind_ok (GM.other_eq (s := (t, (⟨[], sign⟩ : BigInt))) h1)]
  dsimp only
  rw [hput]
  simp only [Bool.false_eq_true, false_or, List.length_nil, Nat.zero_add, List.nil_append, true_and] at h2 h3 h4
  have hfi := fun hf hd => takeDigitsA_first (L := L) (t.rest.length + 1) (s := t) hf h1 hd
  have hfail := takeDigits_fail (t.rest.length + 1) t []
  have hng := fun h => takeDigits_not_good (t.rest.length + 1) (s := t) h []
  generalize takeDigits (t.rest.length + 1) t [] = td at *
  obtain ⟨ds, s1⟩ := td
  dsimp only at *
  by_cases hr : L.refuse n1 = true
  · rw [GM.bind_error (GM.ask_no (s := ((s1, (⟨[], sign⟩ : BigInt)), n1)) hr)]
    exact herr _ _ ⟨⟨n1, hr⟩, .inl rfl⟩
  rw [GM.bind_ok (GM.ask_yes (s := ((s1, (⟨[], sign⟩ : BigInt)), n1)) hr)]
  dsimp only
  by_cases h0 : b.text.length = 0
  · rw [if_pos (by simp [h0]), hput]
    rcases setValue_onObj (L := L) s1.clearFail ⟨[], sign⟩ (n1 + 1) with ⟨g1, g2⟩ | g2
    · rw [g2]
      exact herr _ _ ⟨⟨_, g1⟩, .inl rfl⟩
    · rw [g2]
      dsimp only [ReadEnd]
      by_cases hd : ds = []
      · subst hd
        replace hok : (.ok (s1.clearFail, ⟨[0], false⟩) : Res (IStream × BigInt)) = .ok (s2, z) := hok
        cases hok
        exact ⟨rfl, .inl rfl⟩
      · rw [if_neg (by simpa using hd)] at hok
        have hgood : t.good = true := by
          by_contra hg
          exact hd (hng (by simpa using hg))
        have hcl : s1.clearFail = s1 := by
          obtain ⟨p, r, e, f, bd⟩ := s1
          have := hfail hgood
          dsimp only at this
          rw [this]
          rfl
        have hfirst : L.refuse (n + 1) = true := by
          by_contra hf
          exact hfi (by simpa using hf) hd (List.length_eq_zero_iff.mp h0)
        refine ⟨?_, .inr ⟨?_, hfirst, rfl⟩⟩
        · rcases hb : digitBins ds with e | bins
          · rw [hb] at hok; cases hok
          · rw [hb] at hok
            cases hok
            exact hcl
        · cases hb : b.bad with
          | true => exact h3 hb
          | false =>
            rw [h2 hb] at h0
            exact absurd (by simpa using h0) hd
  · rw [if_neg (by simpa using h0)]
    have hd : ds ≠ [] := by
      intro hd
      rw [hd] at h4
      simp only [List.length_nil] at h4
      omega
    rw [if_neg (by simpa using hd)] at hok
    rcases hb : digitBins ds with e | bins
    · rw [hb] at hok; cases hok
    rw [hb] at hok
    cases hok
    unfold digitBins at hb
    by_cases hk : b.text.length % BIN_WIDTH > 0
    · rw [if_pos hk]
      have hp := parseIntA_ok b h3 (b.text.length % BIN_WIDTH) (n1 + 1)
      rcases hq : parseIntA L b (b.text.length % BIN_WIDTH) ((), n1 + 1) with ⟨o, ⟨⟨⟩, n2⟩⟩
      rw [hq] at hp
      have hq' := GM.other_eq (s := (s2, (⟨[], sign⟩ : BigInt))) hq
      cases o with
      | error e =>
        rw [GM.bind_error hq']
        refine herr _ _ ?_
        rcases hp with hp | ⟨hp1, hp2⟩
        · exact hp
        · rw [h2 hp1] at hp2 hk
          rw [if_pos hk, hp2] at hb
          cases hb
      | ok p =>
        obtain ⟨v, ss⟩ := p
        obtain ⟨hp1, hp2, hp3⟩ := hp
        rw [GM.bind_ok hq']
        dsimp only
        rw [h2 hp1] at hp3 hk ⊢
        rw [if_pos hk, hp3] at hb
        replace hb : readBins (ds.length / BIN_WIDTH) ss.text [v] = .ok bins := hb
        rcases pushFrontA_ok (L := L) v s2 ⟨[], sign⟩ n2 with ⟨hr, h⟩ | h
        · rw [GM.bind_error h]
          exact herr _ _ ⟨⟨_, hr⟩, .inl rfl⟩
        · rw [GM.bind_ok h]
          have hi := readBinsA_ok (L := L) s2 (ds.length / BIN_WIDTH) ss (fun h => by rw [hp2] at h; cases h) ⟨[v], sign⟩ (n2 + 1)
          rcases hm : readBinsA L (ds.length / BIN_WIDTH) ss ((s2, ⟨[v], sign⟩), n2 + 1) with ⟨o, ⟨⟨s', a'⟩, n2⟩⟩
          rw [hm] at hi
          cases o with
          | ok u =>
            obtain ⟨i1, i2, _, i4⟩ := hi
            dsimp only at i2 i4
            rw [hb] at i4
            cases i4
            exact ⟨i1, .inl (by rw [← i2])⟩
          | error e =>
            obtain ⟨i1, i2, _, i4⟩ := hi
            dsimp only at i4
            rcases i4 with ⟨i4, _, i6⟩ | ⟨i4, i5⟩
            · exact ⟨i4, i2, i6 _ hb hp2⟩
            · rw [hb] at i5
              cases i5
    · rw [if_neg hk]
      have hi := readBinsA_ok (L := L) s2 (b.text.length / BIN_WIDTH) b (fun h => ⟨h3 h, by
        simp only [BIN_WIDTH] at hk ⊢
        omega⟩) ⟨[], sign⟩ (n1 + 1)
      rcases hm : readBinsA L (b.text.length / BIN_WIDTH) b ((s2, ⟨[], sign⟩), n1 + 1) with ⟨o, ⟨⟨s', a'⟩, n2⟩⟩
      rw [hm] at hi
      cases o with
      | ok u =>
        obtain ⟨i1, i2, i3, i4⟩ := hi
        dsimp only at i2 i4
        rw [h2 i3] at i4 hk
        rw [if_neg hk, i4] at hb
        cases hb
        exact ⟨i1, .inl (by rw [← i2])⟩
      | error e =>
        obtain ⟨i1, i2, _, i4⟩ := hi
        dsimp only at i2 i4
        rcases i4 with ⟨i4, i5, i6⟩ | ⟨i4, i5⟩
        · cases hbad : b.bad with
          | true =>
            rw [i5 hbad]
            exact herr _ _ i4
          | false =>
            rw [h2 hbad] at i6 hk
            rw [if_neg hk] at hb
            exact ⟨i4, i2, i6 _ hb hbad⟩
        · rw [h2 i4] at i5 hk
          rw [if_neg hk, i5] at hb
          cases hb

theorem readBody_sign {sign : Bool} {s s2 : IStream} {z : BigInt} (h : readBody sign s = .ok (s2, z)) : z = ⟨[0], false⟩ ∨ z.negative = sign := by
  unfold readBody at h
  dsimp only at h
  split at h
  · cases h
    exact .inl rfl
  · rcases hb : digitBins (takeDigits ((skipZeros (s.rest.length + 1) s).rest.length + 1) (skipZeros (s.rest.length + 1) s) []).1 with e | bins
    · rw [hb] at h; cases h
    · rw [hb] at h
      cases h
      exact .inr rfl

theorem read_total (s : IStream) (a : BigInt) : ∃ s2 z, read s a = .ok (s2, z) ∧ (Canon z ∨ z = a) := by
  by_cases hg : s.good = true
  · rw [IStream_eq_goodAt hg]
    by_cases h : ∃ pre rest z, s.rest = pre ++ rest ∧ IntText pre z
    · obtain ⟨pre, rest, z, h1, h2⟩ := h
      obtain ⟨pre, rest, z, h1, h2, h3⟩ := exists_longest h2 h1
      obtain ⟨y, y1, y2, y3⟩ := read_ok a (p := s.past) h2 h3
      rw [h1]
      exact ⟨_, _, y1, .inl y2⟩
    · obtain ⟨e, e1, e2⟩ := read_fail a (p := s.past) (r := s.rest) fun pre rest z h1 h2 => h ⟨pre, rest, z, h1, h2⟩
      exact ⟨_, _, e1, .inr rfl⟩
  · rw [read_eq, if_neg hg]
    exact ⟨_, _, rfl, .inr rfl⟩

/-- Reading under refusals against reading with unlimited memory. -/
theorem readA_ok (s : IStream) (a : BigInt) (n : Nat) : match readA L ((s, a), n) with
    | (.ok _, ((s', a'), _)) => ∃ z, read s a = .ok (s', z) ∧ (a' = z ∨ (L.Refuses ∧ L.refuse (n + 1) = true ∧ a' = ⟨[0], false⟩))
    | (.error e, ((_, a'), _)) => MemErr L e ∧ ∃ s2 z, read s a = .ok (s2, z) ∧ Canon z ∧ (z = ⟨[0], false⟩ ∨ z.negative = a'.negative) ∧
        ∃ low, z.bins = low ++ a'.bins := by
  obtain ⟨s2, z, hz, hc⟩ := read_total s a
  have hsig : ∀ (k : IStream × BigInt → GM (IStream × BigInt) Unit), (GM.this >>= k) ((s, a), n) = k (s, a) ((s, a), n) := fun k => rfl
  unfold readA
  rw [hsig]
  rw [read_eq] at hz
  dsimp only [IStream.sentry]
  by_cases hg : s.good = true
  · simp only [hg, if_true, Bool.not_true, Bool.false_eq_true, if_false] at hz ⊢
    rcases hs : readSign s with ⟨o, t⟩
    rw [hs] at hz
    cases o with
    | none =>
      cases hz
      refine ⟨a, ?_, .inl rfl⟩
      rw [read_eq, if_pos hg, hs]
    | some sign =>
      dsimp only at hz ⊢
      have hz' : read s a = .ok (s2, z) := by rw [read_eq, if_pos hg, hs]; exact hz
      have h := readBodyA_ok (L := L) sign t s2 z hz s a n
      rcases hm : readBodyA L sign t ((s, a), n) with ⟨o, ⟨⟨s', a'⟩, n'⟩⟩
      rw [hm] at h
      cases o with
      | ok u =>
        obtain ⟨rfl, h⟩ := h
        exact ⟨z, hz', h⟩
      | error e =>
        obtain ⟨h1, h2, h3⟩ := h
        refine ⟨h1, s2, z, hz', ?_, ?_, h3⟩
        · obtain ⟨s3, z3, h4, h5⟩ := read_total s ⟨[0], false⟩
          have h6 : read s ⟨[0], false⟩ = .ok (s2, z) := by rw [read_eq, if_pos hg, hs]; exact hz
          rw [h6] at h4
          cases h4
          rcases h5 with h5 | h5
          · exact h5
          · rw [h5]
            decide
        · rw [h2]
          exact readBody_sign hz
  · simp only [hg, Bool.false_eq_true, if_false] at hz ⊢
    cases hz
    refine ⟨a, ?_, .inl rfl⟩
    rw [read_eq, if_neg hg]

end BigInt
end CppMaths
