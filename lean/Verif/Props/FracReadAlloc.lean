import Verif.Proofs.FracReadAlloc
import Verif.Proofs.FracReadAllocLocal
import Verif.Props.ReadAlloc
import Verif.Props.FracText
/-!
# C146, C147: reading a `Frac` when memory runs out

`Frac.readA L` is `in >> x` and `Frac.ofStringA L` the constructor from a string, where `L` says which requests for memory are refused; `Frac.read` and
`Frac.ofString` are the same with unlimited memory (see C41, C42 for what they do). `Frac.fromDoubleA L finite sx` is `Frac::from_double` for a number that prints as `sx` (see C43, C88).
-/

namespace CppMaths
open BigInt Frac

variable {L : ILuck}

/-! ### C146: streams and strings -/

/-- C146 as stated is false: `in >> x` may read 5/7 as 1/0, a fraction with the denominator zero that `Frac` never admits otherwise, or as 0. It neither throws an exception
nor leaves a stream that reports a failure. -/
theorem C146_refuted_zero_denominator : ∃ n, ∃ k : Nat, ∃ s' : IStream,
    Frac.readA (.only n) ((IStream.ofString "5/7 ".toList, ⟨⟨[7], false⟩, ⟨[3], false⟩⟩), 0) =
      (.ok (), ((s', ⟨⟨[1], false⟩, ⟨[0], false⟩⟩), k)) ∧ s'.good = true ∧
    Frac.read (IStream.ofString "5/7 ".toList) ⟨⟨[7], false⟩, ⟨[3], false⟩⟩ = .ok (s', ⟨⟨[5], false⟩, ⟨[7], false⟩⟩) :=
  ⟨8, 390, ⟨"7/5".toList, " ".toList, false, false, false⟩, by decide +kernel⟩

theorem C146_refuted_zero : ∃ n, ∃ k : Nat, ∃ s' : IStream,
    Frac.readA (.only n) ((IStream.ofString "5/7 ".toList, ⟨⟨[7], false⟩, ⟨[3], false⟩⟩), 0) =
      (.ok (), ((s', ⟨⟨[0], false⟩, ⟨[1], false⟩⟩), k)) ∧ s'.good = true :=
  ⟨1, 390, ⟨"7/5".toList, " ".toList, false, false, false⟩, by decide +kernel⟩

/-- C146 as stated is false: `Frac("5/7")` may be zero. -/
theorem C146_refuted_string : ∃ n, ∃ k : Nat, Frac.ofStringA (.only n) "5/7".toList ((), 0) = (.ok ⟨⟨[0], false⟩, ⟨[1], false⟩⟩, ((), k)) :=
  ⟨6, 400, by decide +kernel⟩

/-- See `C146_stream_partial`. -/
theorem fracRead_weak (L : ILuck) (s : IStream) {x : Frac} (ht : Canon x.tt) (hb : Canon x.bb) (n : Nat) : match Frac.readA L ((s, x), n) with
    | (.ok _, ((s', x'), _)) => Frac.read s x = .ok (s', x') ∨
        (L.Refuses ∧ ((∃ y, Frac.read s x = .ok (s', y)) ∨ ∃ e y, Frac.read s x = .error (e, s', y)) ∧
          (x' = ⟨⟨[0], false⟩, ⟨[1], false⟩⟩ ∨ (Canon x'.tt ∧ x'.bb = ⟨[0], false⟩ ∧ (x'.tt.val = 1 ∨ x'.tt.val = -1))))
    | (.error e, _) => (∃ s' y, Frac.read s x = .error (e, s', y)) ∨
        (L.Refuses ∧ (e = .badAlloc ∨ e = .invalidArgument ∨ e = .divideByZero ∨ e = .assertion)) := by
  unfold Frac.readA Frac.read
  rw [this_bind]
  by_cases hs : s.sentry.1 = true
  · simp only [hs, Bool.not_true, Bool.false_eq_true, if_false]
    have h := readRawA_ok (L := L) s.sentry.2 x n
    have e0 : s.sentry.2 = s := by
      have : s.good = true := by
        rcases hg : s.good with _ | _
        · simp [IStream.sentry, hg] at hs
        · rfl
      simp only [IStream.sentry, this, if_true]
    rw [e0] at h ⊢
    rcases hm : readRawA L ((s, x), n) with ⟨e | u, ⟨s1, x1⟩, n1⟩ <;> rw [hm] at h
    · rw [GM.bind_error hm]
      exact .inr ⟨h.1, h.2.elim .inl fun h => .inr (.inl h)⟩
    obtain ⟨g, h1, h2, h3⟩ := h
    obtain ⟨c1, c2⟩ := readRaw_canon ht hb h1
    rw [GM.bind_ok hm, h1]
    dsimp only
    have hg : (∃ y, (match normalize g with | .ok f => .ok (s1, f) | .error (e, f) => .error (e, s1, f) : Except (Err × IStream × Frac) (IStream × Frac)) = .ok (s1, y)) ∨
        ∃ e y, (match normalize g with | .ok f => .ok (s1, f) | .error (e, f) => .error (e, s1, f) : Except (Err × IStream × Frac) (IStream × Frac)) = .error (e, s1, y) := by
      rcases normalize g with ⟨e, f⟩ | f
      · exact .inr ⟨e, f, rfl⟩
      · exact .inl ⟨f, rfl⟩
    have h := onFrac_ok (sim_normalize (L := L) x1) s1 n1
    rcases hm : onFrac (normalizeT L) ((s1, x1), n1) with ⟨e | u, ⟨s2, x2⟩, n2⟩ <;> rw [hm] at h
    · rcases h with h | ⟨h, hl⟩
      · have hx : x1 = g ∨ (L.Refuses ∧ Canon x1.tt ∧ Canon x1.bb) := by
          have hz : Canon ⟨[0], false⟩ := by decide
          rcases h2 with h2 | ⟨hl, h2⟩
          · rcases h3 with h3 | ⟨hl, h3⟩
            · left
              cases x1; cases g
              cases h2; cases h3
              rfl
            · exact .inr ⟨hl, by rw [h2]; exact c1, by rw [h3]; exact hz⟩
          · exact .inr ⟨hl, by rw [h2]; exact hz, by
              rcases h3 with h3 | ⟨_, h3⟩ <;> rw [h3]
              · exact c2
              · exact hz⟩
        rcases hx with rfl | ⟨hl, k1, k2⟩
        · left
          rcases hn : normalize x1 with ⟨e', y⟩ | y <;> rw [hn] at h
          · cases h
            exact ⟨s1, y, rfl⟩
          · cases h
        · right
          have h4 := normalize_total k1 k2
          rcases hn : normalize x1 with ⟨e', y⟩ | y <;> rw [hn] at h
          · cases h
            have : normalize ⟨x1.tt, x1.bb⟩ = .error (e, y) := hn
            rw [this] at h4
            rcases h4 with h4 | h4
            · exact ⟨hl, .inr (.inr (.inr h4))⟩
            · exact ⟨hl, .inr (.inr (.inl h4))⟩
          · cases h
      · exact .inr ⟨hl, .inl h⟩
    · obtain ⟨rfl, h⟩ := h
      have hn : normalize ⟨x1.tt, x1.bb⟩ = .ok x2 := by
        show normalize x1 = .ok x2
        rcases hn : normalize x1 with ⟨e', y⟩ | y <;> rw [hn] at h
        · cases h
        · cases h
          rfl
      rcases normalize_lost c1 c2 h2 h3 hn with h | ⟨h, h'⟩
      · rw [h]
        exact .inl rfl
      · exact .inr ⟨h, hg, h'⟩
  · have hs : s.sentry.1 = false := by simpa using hs
    simp only [hs, Bool.not_false, if_true]
    exact .inl rfl

/-- C146, what holds of `in >> x`, whichever requests are refused: if it returns, the stream is the one that reading with unlimited memory leaves, and `x` is what reading
with unlimited memory stores or, if one of its own requests is refused, 0, 1/0 or -1/0. If it throws, then what reading with unlimited memory throws or, if one of its own requests is refused, `bad_alloc`, or
`invalid_argument`, or the exception for a division by zero, or an assertion fails.

Missing for the full claim: that the number is right whenever no exception is thrown (see the refutations). -/
theorem C146_stream_partial (L : ILuck) (s : IStream) {x : Frac} (ht : Canon x.tt) (hb : Canon x.bb) (n : Nat) : match Frac.readA L ((s, x), n) with
    | (.ok _, ((s', x'), n')) => Frac.read s x = .ok (s', x') ∨
        (L.RefusesIn n n' ∧ ((∃ y, Frac.read s x = .ok (s', y)) ∨ ∃ e y, Frac.read s x = .error (e, s', y)) ∧
          (x' = ⟨⟨[0], false⟩, ⟨[1], false⟩⟩ ∨ (Canon x'.tt ∧ x'.bb = ⟨[0], false⟩ ∧ (x'.tt.val = 1 ∨ x'.tt.val = -1))))
    | (.error e, (_, n')) => (∃ s' y, Frac.read s x = .error (e, s', y)) ∨
        (L.RefusesIn n n' ∧ (e = .badAlloc ∨ e = .invalidArgument ∨ e = .divideByZero ∨ e = .assertion)) := by
  have h0 := (loc_fracRead L ((s, x), n)).2
  dsimp only at h0
  rcases hm : Frac.readA L ((s, x), n) with ⟨o, ⟨s', x'⟩, n'⟩
  rw [hm] at h0
  have h := fracRead_weak (within L n n') s ht hb n
  rw [h0 _ (agree_within L n n')] at h
  cases o with
  | error e => exact h.imp_right fun h => ⟨within_refuses h.1, h.2⟩
  | ok u => exact h.imp_right fun h => ⟨within_refuses h.1, h.2⟩

-- what the outcomes look like
example : (Frac.readA (.only 2) ((IStream.ofString "5/7 ".toList, ⟨⟨[7], false⟩, ⟨[3], false⟩⟩), 0)).1 = .error .badAlloc ∧
    (Frac.readA (.only 4) ((IStream.ofString "5/7 ".toList, ⟨⟨[7], false⟩, ⟨[3], false⟩⟩), 0)).1 = .error .invalidArgument ∧
    (Frac.readA (.only 3) ((IStream.ofString "0/7 ".toList, ⟨⟨[7], false⟩, ⟨[3], false⟩⟩), 0)).1 = .error .badAlloc ∧
    (Frac.readA (.only 4) ((IStream.ofString "0/7 ".toList, ⟨⟨[7], false⟩, ⟨[3], false⟩⟩), 0)).1 = .error .divideByZero ∧
    (Frac.readA (.only 9999) ((IStream.ofString "(10/14)".toList, ⟨⟨[7], false⟩, ⟨[3], false⟩⟩), 0)).2.1.2 = ⟨⟨[5], false⟩, ⟨[7], false⟩⟩ := by decide +kernel

private theorem intString (L : ILuck) (t : List Char) : Outs (BigInt.ofStringA L t) fun o => match o with
    | .ok x => ∃ z y, IntText t z ∧ BigInt.ofString t = .ok y ∧ Canon y ∧ y.val = z ∧ Lost L x y
    | .error e => BigInt.ofString t = .error e ∨ MemErr L e := by
  intro n
  have h := ofStringA_weak L t n
  rcases hm : (BigInt.ofStringA L t ((), n)).1 with e | x <;> rw [hm] at h
  · exact h
  · obtain ⟨y, h1, h2⟩ := h
    obtain ⟨z, k1, k2, k3⟩ := intOfString_iff h1
    exact ⟨z, y, k1, h1, k2, k3, h2.imp_right fun h => ⟨⟨_, h.1⟩, h.2⟩⟩

/-- See `C146_string_partial`. -/
theorem fracOfString_weak (L : ILuck) (t : List Char) (n : Nat) : match (Frac.ofStringA L t ((), n)).1 with
    | .ok x => Frac.ofString t = .ok x ∨ (L.Refuses ∧ x = ⟨⟨[0], false⟩, ⟨[1], false⟩⟩ ∧ ∃ a b, RatioText t a b ∧ b ≠ 0)
    | .error e => Frac.ofString t = .error e ∨ (L.Refuses ∧ (e = .badAlloc ∨ e = .invalidArgument ∨ e = .assertion)) := by
  let Q : Except Err Frac → Prop := fun o => match o with
    | .ok x => Frac.ofString t = .ok x ∨ (L.Refuses ∧ x = ⟨⟨[0], false⟩, ⟨[1], false⟩⟩ ∧ ∃ a b, RatioText t a b ∧ b ≠ 0)
    | .error e => Frac.ofString t = .error e ∨ (L.Refuses ∧ (e = .badAlloc ∨ e = .invalidArgument ∨ e = .assertion))
  have hbad : L.Refuses → Q (.error .badAlloc) := fun h => .inr ⟨h, .inl rfl⟩
  have hmem : ∀ e, MemErr L e → Q (.error e) := fun e h => .inr ⟨h.1, h.2.elim .inl fun h => .inr (.inl h)⟩
  suffices h : Outs (Frac.ofStringA L t) Q from h n
  have hz : Canon ⟨[0], false⟩ := by decide
  unfold Frac.ofStringA
  refine Outs.bind (P := fun o => o = .ok ⟨⟨[0], false⟩, ⟨[1], false⟩⟩ ∨ (o = .error .badAlloc ∧ L.Refuses)) (SimA.outs sim_frac_default) ?_ ?_
  · rintro e (h | ⟨h, hl⟩)
    · cases h
    · cases h
      exact hbad hl
  intro f hf
  have hf : f = ⟨⟨[0], false⟩, ⟨[1], false⟩⟩ := by
    rcases hf with h | ⟨h, _⟩
    · cases h; rfl
    · cases h
  by_cases hl : t.length = 0
  · have : t = [] := List.eq_nil_of_length_eq_zero hl
    subst this hf
    exact Outs.pure (.inl rfl)
  have hl : (t.length == 0) = false := by simpa using hl
  rw [hl]
  simp only [Bool.false_eq_true, if_false]
  -- once both parts are there
  have tail : ∀ (g : Frac) (y1 y2 : BigInt), Canon y1 → Canon y2 → RatioText t y1.val y2.val → Lost L g.tt y1 → Lost L g.bb y2 →
      (Frac.ofString t = do
        let z ← y2.equalsInt32 0
        if z then .error .invalidArgument
        else drop (normalize ⟨y1, y2⟩)) →
      Outs (do
        let z ← GM.free (g.bb.equalsInt32 0)
        if z then do
          GM.ask L
          GM.free (.error .invalidArgument)
        else GM.local' g (normalizeT L)) Q := by
    intro g y1 y2 c1 c2 hr l1 l2 hs
    have cg1 : Canon g.tt := by rcases l1 with h | ⟨_, h⟩ <;> rw [h] <;> assumption
    have cg2 : Canon g.bb := by rcases l2 with h | ⟨_, h⟩ <;> rw [h] <;> assumption
    rw [equalsInt32_zero c2.1, bind_ok] at hs
    rw [equalsInt32_zero cg2.1]
    show Outs (if decide (mag g.bb.bins = 0) = true then _ else _) Q
    by_cases h0 : decide (mag g.bb.bins = 0) = true
    · rw [if_pos h0]
      refine Outs.ask hbad (Outs.free ?_)
      rcases l2 with h | ⟨hl, h⟩
      · rw [h] at h0
        rw [if_pos h0] at hs
        exact .inl hs
      · exact .inr ⟨hl, .inr (.inl rfl)⟩
    · rw [if_neg h0]
      have hg0 : g.bb.val ≠ 0 := by
        rw [ne_eq, val_eq_zero_iff]
        simpa using h0
      have l2 : g.bb = y2 := by
        rcases l2 with h | ⟨hl, h⟩
        · exact h
        · rw [h] at hg0
          exact absurd rfl hg0
      rw [← l2, if_neg h0] at hs
      refine (SimA.outs (SimA.localEnd (sim_normalize (L := L) g))).mono ?_
      rintro o (rfl | ⟨rfl, hl⟩)
      · have hn := normalize_total cg1 cg2
        rcases l1 with h | ⟨hl, h⟩
        · have : g = ⟨y1, g.bb⟩ := by
            cases g
            cases h
            rfl
          rw [← this] at hs
          rw [← hs]
          show Q (Frac.ofString t)
          rcases ho : Frac.ofString t with e | x
          · exact .inl ho
          · exact .inl ho
        · have en : normalize ⟨g.tt, g.bb⟩ = normalize g := rfl
          rw [en] at hn
          rcases hn' : normalize g with ⟨e, f⟩ | f <;> rw [hn'] at hn
          · rcases hn with hn | hn
            · exact .inr ⟨hl, .inr (.inr hn)⟩
            · have := (normalize_spec (.inl cg1) cg2 hg0)
              exfalso
              by_cases hr : ReduceAborts g.tt.val g.bb.val
              · obtain ⟨s, hs⟩ := this.2 hr
                rw [en, hn'] at hs
                cases hs
                cases hn
              · obtain ⟨s, hs, _⟩ := this.1 hr
                rw [en, hn'] at hs
                cases hs
          · rcases hn with ⟨v1, v2, v3⟩ | ⟨v, _⟩
            · refine .inr ⟨hl, v1.eq_of_value_eq zero_valid ?_, y1.val, y2.val, hr, by rw [← l2]; exact hg0⟩
              rw [v2, h]
              have e : ((⟨[0], false⟩ : BigInt).val : ℚ) = 0 := by
                have : (⟨[0], false⟩ : BigInt).val = 0 := rfl
                rw [this]; norm_num
              have e' : (⟨⟨[0], false⟩, ⟨[1], false⟩⟩ : Frac).value = 0 := by
                unfold value
                rw [e, zero_div]
              rw [e, e', zero_div]
            · exact absurd v hg0
      · exact hbad hl
  have hof : ∀ r : Res Frac, Frac.ofString t = (do
      let f ← r
      let z ← f.bb.equalsInt32 0
      if z then .error .invalidArgument
      else drop (normalize f)) → ∀ e, r = .error e → Frac.ofString t = .error e := by
    intro r h e he
    rw [h, he]
    rfl
  have ho : Frac.ofString t = (do
      let f ← (match t.dropWhile (· != '/') with
        | [] => do
          let t ← BigInt.ofString t
          let b ← ofInt64 1
          pure (⟨t, b⟩ : Frac)
        | _ :: den => do
          let t ← BigInt.ofString (t.takeWhile (· != '/'))
          let b ← BigInt.ofString den
          pure (⟨t, b⟩ : Frac))
      let z ← f.bb.equalsInt32 0
      if z then .error .invalidArgument
      else drop (normalize f)) := by
    unfold Frac.ofString
    rw [hl]
    rfl
  have h1 : ofInt64 1 = .ok ⟨[1], false⟩ := by decide +kernel
  refine Outs.bind (P := fun o => match o with
      | .ok g => ∃ y1 y2, Canon y1 ∧ Canon y2 ∧ RatioText t y1.val y2.val ∧ Lost L g.tt y1 ∧ Lost L g.bb y2 ∧ (Frac.ofString t = do
          let z ← y2.equalsInt32 0
          if z then .error .invalidArgument
          else drop (normalize ⟨y1, y2⟩))
      | .error e => Q (.error e)) ?_ (fun _ h => h) fun g ⟨y1, y2, c1, c2, hr, l1, l2, hs⟩ => tail g y1 y2 c1 c2 hr l1 l2 hs
  rcases split_cases '/' t with hn | ⟨p, q, rfl, hp⟩
  · rw [split_none hn] at ho ⊢
    refine Outs.bind (intString L t) ?_ ?_
    · rintro e (h | h)
      · refine .inl (hof _ ho e ?_)
        dsimp only
        rw [h]
        rfl
      · exact hmem e h
    rintro x ⟨z, y, k1, k2, k3, rfl, k5⟩
    refine Outs.ask hbad (Outs.bind (SimA.outs (sim_ofInt64 1 0)) ?_ ?_)
    · rintro e (h | ⟨h, hl⟩)
      · rw [h1] at h
        cases h
      · cases h
        exact hbad hl
    rintro b (h | ⟨h, _⟩)
    · rw [h1] at h
      cases h
      refine Outs.ask hbad (Outs.pure ⟨y, ⟨[1], false⟩, k3, by decide, .inr (.inl ⟨k1, rfl⟩), k5, .inl rfl, ?_⟩)
      rw [ho]
      dsimp only
      rw [k2, h1]
      rfl
    · cases h
  · obtain ⟨e1, e2⟩ := split_at (q := q) hp
    rw [e2] at ho ⊢
    dsimp only at ho ⊢
    rw [e1] at ho ⊢
    refine Outs.ask hbad (Outs.bind (intString L p) ?_ ?_)
    · rintro e (h | h)
      · refine .inl (hof _ ho e ?_)
        rw [h]
        rfl
      · exact hmem e h
    rintro x ⟨z, y, k1, k2, k3, rfl, k5⟩
    refine Outs.ask hbad (Outs.ask hbad (Outs.bind (intString L q) ?_ ?_))
    · rintro e (h | h)
      · refine .inl (hof _ ho e ?_)
        rw [k2, h]
        rfl
      · exact hmem e h
    rintro x' ⟨z', y', k1', k2', k3', rfl, k5'⟩
    refine Outs.ask hbad (Outs.pure ⟨y, y', k3, k3', .inr (.inr ⟨p, q, rfl, k1, k1'⟩), k5, k5', ?_⟩)
    rw [ho, k2, k2']
    rfl

/-- C146, what holds of `Frac(t)`, whichever requests are refused: if it returns, the fraction is the one that is constructed with unlimited memory or, if one of its own requests is refused
and `t` denotes a fraction, zero. If it throws, then what is thrown with unlimited memory or, if one of its own requests is refused, `bad_alloc`, or `invalid_argument`, or an assertion fails.
The denominator is never zero.

Missing for the full claim: that the number is right whenever no exception is thrown (see `C146_refuted_string`). -/
theorem C146_string_partial (L : ILuck) (t : List Char) (n : Nat) : match Frac.ofStringA L t ((), n) with
    | (.ok x, (_, n')) => Frac.ofString t = .ok x ∨ (L.RefusesIn n n' ∧ x = ⟨⟨[0], false⟩, ⟨[1], false⟩⟩ ∧ ∃ a b, RatioText t a b ∧ b ≠ 0)
    | (.error e, (_, n')) => Frac.ofString t = .error e ∨ (L.RefusesIn n n' ∧ (e = .badAlloc ∨ e = .invalidArgument ∨ e = .assertion)) := by
  have h0 := (loc_fracOfString t L ((), n)).2
  dsimp only at h0
  rcases hm : Frac.ofStringA L t ((), n) with ⟨o, ⟨⟩, n'⟩
  rw [hm] at h0
  have h := fracOfString_weak (within L n n') t n
  rw [h0 _ (agree_within L n n')] at h
  cases o with
  | error e => exact h.imp_right fun h => ⟨within_refuses h.1, h.2⟩
  | ok u => exact h.imp_right fun h => ⟨within_refuses h.1, h.2⟩

example : (Frac.ofStringA (.only 0) "5/7".toList ((), 0)).1 = .error .badAlloc ∧ (Frac.ofStringA (.only 17) "5/7".toList ((), 0)).1 = .error .invalidArgument ∧
    (Frac.ofStringA (.only 9999) "10/-14".toList ((), 0)).1 = .ok ⟨⟨[5], true⟩, ⟨[7], false⟩⟩ ∧
    (Frac.ofStringA (.only 9999) "5/0".toList ((), 0)).1 = .error .invalidArgument ∧
    (Frac.ofStringA (.only 9999) "5/x".toList ((), 0)).1 = .error .invalidArgument := by decide +kernel

/-! ### C147: conversion from `double` -/

/-- C147 as stated is false: 3.14 may be converted to 31/10, to 3 or to 0, without an exception; and the behaviour may be undefined. -/
theorem C147_refuted_digits : ∃ n, ∃ k : Nat, Frac.fromDoubleA (.only n) true "3.14".toList ((), 0) = (.ok ⟨⟨[31], false⟩, ⟨[10], false⟩⟩, ((), k)) :=
  ⟨4, 1660, by decide +kernel⟩

theorem C147_refuted_zero : ∃ n, ∃ k : Nat, Frac.fromDoubleA (.only n) true "3.14".toList ((), 0) = (.ok ⟨⟨[0], false⟩, ⟨[1], false⟩⟩, ((), k)) :=
  ⟨9, 424, by decide +kernel⟩

theorem C147_refuted_undefined : ∃ n, ∃ k : Nat, Frac.fromDoubleA (.only n) true "3.14".toList ((), 0) = (.error .ub, ((), k)) :=
  ⟨1, 3, by decide +kernel⟩

/-- See `C147_prefix_partial`. -/
theorem fromDouble_weak (L : ILuck) (finite : Bool) {sx : List Char} (hlen : sx.length ≤ 2147483647) (n : Nat) :
    ∃ pre, pre <+: sx ∧ (pre = sx ∨ L.Refuses) ∧ match (Frac.fromDoubleA L finite sx ((), n)).1 with
      | .ok x => Frac.fromDouble finite pre = .ok x ∨ (L.Refuses ∧ x = ⟨⟨[0], false⟩, ⟨[1], false⟩⟩)
      | .error e => Frac.fromDouble finite pre = .error e ∨ (L.Refuses ∧ (e = .badAlloc ∨ e = .invalidArgument ∨ e = .assertion)) := by
  let R : List Char → Except Err Frac → Prop := fun pre o => match o with
      | .ok x => Frac.fromDouble finite pre = .ok x ∨ (L.Refuses ∧ x = ⟨⟨[0], false⟩, ⟨[1], false⟩⟩)
      | .error e => Frac.fromDouble finite pre = .error e ∨ (L.Refuses ∧ (e = .badAlloc ∨ e = .invalidArgument ∨ e = .assertion))
  let Q : Except Err Frac → Prop := fun o => ∃ pre, pre <+: sx ∧ (pre = sx ∨ L.Refuses) ∧ R pre o
  have hbad : L.Refuses → Q (.error .badAlloc) := fun h => ⟨sx, List.prefix_rfl, .inl rfl, Or.inr ⟨h, .inl rfl⟩⟩
  have h1 : ofInt64 1 = .ok ⟨[1], false⟩ := by decide +kernel
  have hz : Canon ⟨[0], false⟩ := by decide
  suffices h : Outs (Frac.fromDoubleA L finite sx) Q from h n
  unfold Frac.fromDoubleA
  refine Outs.ask hbad (Outs.bind (inserts_outs sx) (fun e ⟨_, h, _⟩ => by cases h) ?_)
  rintro ss ⟨b, hb, hp, hr⟩
  cases hb
  -- what remains to be shown of every outcome
  have hE : ∀ e, (Frac.fromDouble finite ss.text = .error e ∨ (L.Refuses ∧ (e = .badAlloc ∨ e = .invalidArgument ∨ e = .assertion))) → Q (.error e) :=
    fun e h => ⟨ss.text, hp, hr, h⟩
  have hO : ∀ x, (Frac.fromDouble finite ss.text = .ok x ∨ (L.Refuses ∧ x = ⟨⟨[0], false⟩, ⟨[1], false⟩⟩)) → Q (.ok x) :=
    fun x h => ⟨ss.text, hp, hr, h⟩
  refine Outs.ask hbad ?_
  cases finite with
  | false =>
    simp only [Bool.not_false, if_true]
    exact Outs.ask hbad (Outs.ask hbad (Outs.free (hE _ (.inl rfl))))
  | true =>
    simp only [Bool.not_true, Bool.false_eq_true, if_false]
    have hl : ss.text.length ≤ 2147483647 := le_trans hp.length_le hlen
    have hu : Frac.fromDouble true ss.text = (match ss.text.dropWhile (· != '.') with
      | [] => .error .ub
      | _ :: frac => (do
        let tt ← BigInt.ofString (ss.text.takeWhile (· != '.') ++ frac)
        let one ← ofInt64 1
        let bb ← one.timesPowerTen (toI32 frac.length)
        Frac.mk' tt bb)) := rfl
    rcases split_cases '.' ss.text with hn | ⟨p, q, he, hp'⟩
    · rw [split_none hn] at hu ⊢
      exact Outs.free (hE _ (.inl hu))
    · obtain ⟨e1, e2⟩ := split_at (q := q) hp'
      rw [← he] at e1 e2
      rw [e2] at hu ⊢
      dsimp only at hu ⊢
      rw [e1] at hu ⊢
      have hq : q.length ≤ 2147483647 := by
        have := congrArg List.length he
        simp only [List.length_append, List.length_cons] at this
        omega
      refine Outs.bind (intString L (p ++ q)) ?_ ?_
      · rintro e (h | h)
        · refine hE _ (.inl ?_)
          rw [hu, h]
          rfl
        · exact hE _ (.inr ⟨h.1, h.2.elim .inl fun h => .inr (.inl h)⟩)
      rintro x ⟨z, y, k1, k2, k3, rfl, k5⟩
      refine Outs.bind (SimA.outs (sim_ofInt64 1 0)) ?_ ?_
      · rintro e (h | ⟨h, hl⟩)
        · rw [h1] at h
          cases h
        · cases h
          exact hbad hl
      rintro one (h | ⟨h, _⟩)
      swap
      · cases h
      rw [h1] at h
      cases h
      obtain ⟨b, b1, b2, b3⟩ := tenPower hq
      generalize hw : toI32 (q.length : Int) = w at b1 hu ⊢
      refine Outs.bind (SimA.outs (SimA.localEnd (sim_timesPowerTen (L := L) ⟨[1], false⟩ w))) ?_ ?_
      · rintro e (h | ⟨h, hl⟩)
        · rw [b1] at h
          cases h
        · cases h
          exact hbad hl
      rintro b' (h | ⟨h, _⟩)
      swap
      · cases h
      rw [b1] at h
      cases h
      have hu : Frac.fromDouble true ss.text = Frac.mk' y b := by
        rw [hu, k2, bind_ok, h1, bind_ok, b1, bind_ok]
      have hb0 : b.val ≠ 0 := by
        rw [b3]
        positivity
      refine Outs.bind (P := Q) ((SimA.outs (sim_mk (L := L) x b)).mono ?_) (fun e h => h) fun f hf => Outs.ask hbad (Outs.pure hf)
      rintro o (rfl | ⟨rfl, hl⟩)
      · rcases k5 with rfl | ⟨hl, rfl⟩
        · rw [← hu]
          rcases ho : Frac.fromDouble true ss.text with e | x
          · exact hE e (.inl ho)
          · exact hO x (.inl ho)
        · obtain ⟨_, m1, m2⟩ := red_mk' hz b2
          by_cases ha : ReduceAborts (⟨[0], false⟩ : BigInt).val b.val
          · rw [m2 hb0 ha]
            exact hE _ (.inr ⟨hl, .inr (.inr rfl)⟩)
          · obtain ⟨f, f1, f2, f3⟩ := m1 hb0 ha
            rw [f1]
            refine hO _ (.inr ⟨hl, f2.eq_of_value_eq zero_valid ?_⟩)
            rw [f3]
            have e : ((⟨[0], false⟩ : BigInt).val : ℚ) = 0 := by
              have : (⟨[0], false⟩ : BigInt).val = 0 := rfl
              rw [this]; norm_num
            have e' : (⟨⟨[0], false⟩, ⟨[1], false⟩⟩ : Frac).value = 0 := by
              unfold value
              rw [e, zero_div]
            rw [e, e', zero_div]
      · exact hbad hl

/-- C147, what holds, whichever requests are refused: `from_double` proceeds as with unlimited memory, with what fits into memory of the printed number. If it returns, the fraction is the one that the
first characters of the printed number give with unlimited memory or, if one of its own requests is refused, zero. If it throws, then what these characters give with unlimited memory (undefined behaviour if
the decimal point is missing) or, if one of its own requests is refused, `bad_alloc`, or `invalid_argument`, or an assertion fails. If none of its own requests is refused, these are all characters.

Missing for the full claim: that the number is right whenever no exception is thrown, and that the behaviour is always defined (see the refutations). -/
theorem C147_prefix_partial (L : ILuck) (finite : Bool) {sx : List Char} (hlen : sx.length ≤ 2147483647) (n : Nat) :
    ∃ pre, pre <+: sx ∧ match Frac.fromDoubleA L finite sx ((), n) with
      | (.ok x, (_, n')) => (pre = sx ∨ L.RefusesIn n n') ∧ (Frac.fromDouble finite pre = .ok x ∨ (L.RefusesIn n n' ∧ x = ⟨⟨[0], false⟩, ⟨[1], false⟩⟩))
      | (.error e, (_, n')) => (pre = sx ∨ L.RefusesIn n n') ∧
          (Frac.fromDouble finite pre = .error e ∨ (L.RefusesIn n n' ∧ (e = .badAlloc ∨ e = .invalidArgument ∨ e = .assertion))) := by
  have h0 := (loc_fromDouble finite sx L ((), n)).2
  dsimp only at h0
  rcases hm : Frac.fromDoubleA L finite sx ((), n) with ⟨o, ⟨⟩, n'⟩
  rw [hm] at h0
  obtain ⟨pre, h1, h2, h⟩ := fromDouble_weak (within L n n') finite hlen n
  rw [h0 _ (agree_within L n n')] at h
  refine ⟨pre, h1, ?_⟩
  cases o with
  | error e => exact ⟨h2.imp_right within_refuses, h.imp_right fun h => ⟨within_refuses h.1, h.2⟩⟩
  | ok u => exact ⟨h2.imp_right within_refuses, h.imp_right fun h => ⟨within_refuses h.1, h.2⟩⟩

-- with enough memory
example : (Frac.fromDoubleA (.only 99999) true "-12.375".toList ((), 0)).1 = .ok ⟨⟨[99], true⟩, ⟨[8], false⟩⟩ ∧
    (Frac.fromDoubleA (.only 99999) false "inf".toList ((), 0)).1 = .error .invalidArgument := by decide +kernel

/-- See `C147_value_partial`. -/
theorem fromDoubleValue_weak {ip fp : List Char} {z : Int} (h : IntText (ip ++ fp) z) (hip : ∀ c ∈ ip, c ≠ '.') (hl : ip.length + fp.length < 2147483647)
    {x : Frac} {n n' : Nat} (hx : Frac.fromDoubleA L true (ip ++ '.' :: fp) ((), n) = (.ok x, ((), n'))) :
    x.Valid ∧ ((∃ k, k ≤ fp.length ∧ (k = fp.length ∨ L.Refuses) ∧ x.value = ((z.tdiv (10 ^ (fp.length - k)) : Int) : ℚ) / 10 ^ k) ∨ (L.Refuses ∧ x.value = 0)) := by
  obtain ⟨pre, p1, p2, p3⟩ := fromDouble_weak L true (sx := ip ++ '.' :: fp) (by simp only [List.length_append, List.length_cons]; omega) n
  rw [hx] at p3
  have hzero : (⟨⟨[0], false⟩, ⟨[1], false⟩⟩ : Frac).value = 0 := by
    have : (⟨[0], false⟩ : BigInt).val = 0 := rfl
    unfold value
    rw [this]
    norm_num
  rcases p3 with p3 | ⟨hl, rfl⟩
  swap
  · exact ⟨zero_valid, .inr ⟨hl, hzero⟩⟩
  -- the point is among the characters
  have hpt : ∃ k, k ≤ fp.length ∧ pre = ip ++ '.' :: fp.take k ∧ (k = fp.length ∨ L.Refuses) := by
    have hcut : pre = (ip ++ '.' :: fp).take pre.length := List.prefix_iff_eq_take.mp p1
    rcases Nat.lt_or_ge ip.length pre.length with hlt | hge
    · refine ⟨pre.length - (ip.length + 1), ?_, ?_, ?_⟩
      · have := p1.length_le
        simp only [List.length_append, List.length_cons] at this
        omega
      · conv_lhs => rw [hcut]
        rw [List.take_append, List.take_of_length_le (by omega)]
        obtain ⟨m, hm⟩ : ∃ m, pre.length - ip.length = m + 1 := ⟨pre.length - ip.length - 1, by omega⟩
        rw [hm, List.take_succ_cons]
        congr 3
        omega
      · refine p2.imp_left fun h => ?_
        rw [h]
        simp only [List.length_append, List.length_cons]
        omega
    · exfalso
      rw [List.take_append_of_le_length hge] at hcut
      have : ∀ c ∈ pre, c ≠ '.' := by
        intro c hc
        rw [hcut] at hc
        exact hip c (List.mem_of_mem_take hc)
      rw [C43_refuted_precision_zero this] at p3
      cases p3
  obtain ⟨k, k1, rfl, k2⟩ := hpt
  have hlen : (fp.take k).length = k := by rw [List.length_take]; omega
  obtain ⟨e1, e2⟩ := split_at (q := fp.take k) hip
  have h1 : ofInt64 1 = .ok ⟨[1], false⟩ := by decide +kernel
  unfold Frac.fromDouble at p3
  rw [if_neg (by simp), e1, e2] at p3
  dsimp only at p3
  rcases ht : BigInt.ofString (ip ++ fp.take k) with e | t
  · rw [ht] at p3
    cases p3
  obtain ⟨w, w1, w2, w3⟩ := intOfString_iff ht
  obtain ⟨b, b1, b2, b3⟩ := tenPower (k := (fp.take k).length) (by omega)
  rw [ht, bind_ok, h1, bind_ok, b1, bind_ok] at p3
  obtain ⟨m0, m1, m2⟩ := red_mk' w2 b2
  have hb0 : b.val ≠ 0 := by
    rw [b3]
    positivity
  by_cases ha : ReduceAborts t.val b.val
  · rw [m2 hb0 ha] at p3
    cases p3
  obtain ⟨f, f1, f2, f3⟩ := m1 hb0 ha
  rw [p3] at f1
  cases f1
  refine ⟨f2, .inl ⟨k, k1, k2, ?_⟩⟩
  have hw : w = z.tdiv (10 ^ (fp.length - k)) := by
    have e : ip ++ fp = (ip ++ fp.take k) ++ fp.drop k := by rw [List.append_assoc, List.take_append_drop]
    rw [e] at h
    have := intText_cut h w1
    rwa [List.length_drop] at this
  rw [f3, w3, b3, hlen, hw]
  push_cast
  rfl

/-- C147, in numbers. If a number that prints as `ip.fp` with the digits `z` is converted without an exception, the result is the number cut off after some decimal place, after the last one if none
of its own requests is refused; or it is zero. It never has a wrong integer part.

Missing for the full claim: as above. -/
theorem C147_value_partial {ip fp : List Char} {z : Int} (h : IntText (ip ++ fp) z) (hip : ∀ c ∈ ip, c ≠ '.') (hl : ip.length + fp.length < 2147483647)
    {x : Frac} {n n' : Nat} (hx : Frac.fromDoubleA L true (ip ++ '.' :: fp) ((), n) = (.ok x, ((), n'))) :
    x.Valid ∧ ((∃ k, k ≤ fp.length ∧ (k = fp.length ∨ L.RefusesIn n n') ∧ x.value = ((z.tdiv (10 ^ (fp.length - k)) : Int) : ℚ) / 10 ^ k) ∨
      (L.RefusesIn n n' ∧ x.value = 0)) := by
  have h0 := (loc_fromDouble true (ip ++ '.' :: fp) L ((), n)).2
  dsimp only at h0
  rw [hx] at h0
  obtain ⟨h1, h2⟩ := fromDoubleValue_weak (L := within L n n') h hip hl (h0 _ (agree_within L n n'))
  refine ⟨h1, ?_⟩
  rcases h2 with ⟨k, k1, k2, k3⟩ | ⟨h2, h3⟩
  · exact .inl ⟨k, k1, k2.imp_right within_refuses, k3⟩
  · exact .inr ⟨within_refuses h2, h3⟩

example := C147_value_partial (L := .only 4) (ip := "3".toList) (fp := "14".toList) (z := 314) (x := ⟨⟨[31], false⟩, ⟨[10], false⟩⟩) (n := 0) (n' := 1660)
  ⟨"314".toList, ⟨by decide, by decide⟩, .inl ⟨rfl, by decide⟩⟩ (by decide) (by decide) (by decide +kernel)

end CppMaths
