import Verif.Model.FracReadAlloc
import Verif.Proofs.ReadAlloc
import Verif.Proofs.FracAlloc
import Verif.Proofs.FracBuilt
import Verif.Proofs.FracText
/-!
# Lemmas for C146
-/

namespace CppMaths
namespace Frac
open BigInt GM

variable {L : ILuck}

/-- What is stored for `z`: the number, or zero if memory ran out. -/
def Lost (L : ILuck) (a z : BigInt) : Prop := a = z ∨ (L.Refuses ∧ a = ⟨[0], false⟩)

theorem readTop_ok (s : IStream) (f : Frac) (n : Nat) : match readTop (BigInt.readA L) ((s, f), n) with
    | (.ok _, ((s', f'), _)) => ∃ z, BigInt.read s f.tt = .ok (s', z) ∧ Lost L f'.tt z ∧ f'.bb = f.bb
    | (.error e, _) => MemErr L e := by
  have h := BigInt.readA_ok (L := L) s f.tt n
  unfold readTop
  dsimp only
  rcases hm : BigInt.readA L ((s, f.tt), n) with ⟨_ | _, ⟨_, _⟩, _⟩ <;> rw [hm] at h
  · exact h.1
  · obtain ⟨z, h1, h2⟩ := h
    exact ⟨z, h1, h2.imp_right fun h => ⟨h.1, h.2.2⟩, rfl⟩

theorem readBottom_ok (s : IStream) (f : Frac) (n : Nat) : match readBottom (BigInt.readA L) ((s, f), n) with
    | (.ok _, ((s', f'), _)) => ∃ z, BigInt.read s f.bb = .ok (s', z) ∧ Lost L f'.bb z ∧ f'.tt = f.tt
    | (.error e, _) => MemErr L e := by
  have h := BigInt.readA_ok (L := L) s f.bb n
  unfold readBottom
  dsimp only
  rcases hm : BigInt.readA L ((s, f.bb), n) with ⟨_ | _, ⟨_, _⟩, _⟩ <;> rw [hm] at h
  · exact h.1
  · obtain ⟨z, h1, h2⟩ := h
    exact ⟨z, h1, h2.imp_right fun h => ⟨h.1, h.2.2⟩, rfl⟩

theorem onFrac_ok {m : FM Unit} {f : Frac} {r : Res Frac} (h : SimU L m f r) (s : IStream) (n : Nat) : match onFrac m ((s, f), n) with
    | (.ok _, ((s', f'), _)) => s' = s ∧ r = .ok f'
    | (.error e, _) => r = .error e ∨ (e = .badAlloc ∧ L.Refuses) := by
  have h := h.weak n
  unfold onFrac
  dsimp only
  rcases hm : m (f, n) with ⟨_ | _, _, _⟩ <;> rw [hm] at h
  · exact h
  · exact ⟨rfl, h⟩

theorem this_bind {σ α : Type} (k : σ → GM σ α) (s : σ) (n : Nat) : (GM.this >>= k) (s, n) = k s (s, n) := rfl

theorem put_bind {σ α : Type} (t : σ) (k : Unit → GM σ α) (s : σ) (n : Nat) : (GM.put t >>= k) (s, n) = k () (t, n) := rfl

theorem put_eq {σ : Type} (t s : σ) (n : Nat) : (GM.put t : GM σ Unit) (s, n) = (.ok (), (t, n)) := rfl

private theorem resOk {α β : Type} (a : α) (f : α → Res β) : ((.ok a : Res α) >>= f) = f a := rfl

theorem zero_of_val {a : BigInt} (h : Canon a) (h0 : a.val = 0) : a = ⟨[0], false⟩ := h.eq_of_val_eq (by decide) (by rw [h0]; rfl)

theorem readPartsA_ok (s : IStream) (f : Frac) (p : Bool) (n : Nat) : match readPartsA L p ((s, f), n) with
    | (.ok b, ((s', f'), _)) => ∃ g, readParts s f p = .ok (s', g, b) ∧ Lost L f'.tt g.tt ∧ Lost L f'.bb g.bb
    | (.error e, _) => MemErr L e := by
  unfold readPartsA readParts
  have h := readTop_ok (L := L) s f n
  rcases hm : readTop (BigInt.readA L) ((s, f), n) with ⟨e | u, ⟨s1, f1⟩, n1⟩ <;> rw [hm] at h
  · rw [GM.bind_error hm]
    exact h
  obtain ⟨z, h1, h2, h3⟩ := h
  rw [GM.bind_ok hm, this_bind, h1]
  simp only [resOk]
  by_cases hf : s1.failed = true
  · simp only [hf, Bool.not_true, Bool.false_eq_true, if_false, put_bind]
    exact ⟨_, rfl, h2, .inl h3⟩
  · have hf : s1.failed = false := by simpa using hf
    simp only [hf, Bool.not_false, if_true, put_bind]
    by_cases hc : (s1.peek.1 == some '/') = true
    · rw [if_pos hc, if_pos hc]
      simp only [put_bind]
      have h := readBottom_ok (L := L) s1.peek.2.get.2 f1 n1
      rcases hm : readBottom (BigInt.readA L) ((s1.peek.2.get.2, f1), n1) with ⟨e | u, ⟨s2, f2⟩, n2⟩ <;> rw [hm] at h
      · rw [GM.bind_error hm]
        exact h
      obtain ⟨y, k1, k2, k3⟩ := h
      rw [GM.bind_ok hm, this_bind]
      rw [h3] at k1
      rw [k1]
      simp only [resOk]
      have : ∃ g, (if (!s2.failed) = true then (pure (s2, ({ tt := z, bb := y } : Frac), true) : Res _) else pure (s2, { tt := z, bb := y }, false)) =
          .ok (s2, g, !s2.failed) ∧ Lost L f2.tt g.tt ∧ Lost L f2.bb g.bb := by
        refine ⟨⟨z, y⟩, ?_, by rw [k3]; exact h2, k2⟩
        cases s2.failed <;> rfl
      exact this
    · rw [if_neg hc, if_neg hc]
      have h := onFrac_ok (SimU.onBottom (f := f1) (sim_setValue (L := L) f1.bb 1)) s1.peek.2 n1
      have h1 : setValue 1 = .ok ⟨[1], false⟩ := by decide +kernel
      rw [h1] at h ⊢
      rcases hm : onFrac (onBottom (setValueT L 1)) ((s1.peek.2, f1), n1) with ⟨e | u, ⟨s2, f2⟩, n2⟩ <;> rw [hm] at h
      · rw [GM.bind_error hm]
        rcases h with h | h
        · cases h
        · exact ⟨h.2, .inl h.1⟩
      · rw [GM.bind_ok hm]
        obtain ⟨rfl, h⟩ := h
        cases h
        exact ⟨⟨z, ⟨[1], false⟩⟩, rfl, h2, .inl rfl⟩

theorem readRawA_ok (s : IStream) (f : Frac) (n : Nat) : match readRawA L ((s, f), n) with
    | (.ok _, ((s', f'), _)) => ∃ g, readRaw s f = .ok (s', g) ∧ Lost L f'.tt g.tt ∧ Lost L f'.bb g.bb
    | (.error e, _) => MemErr L e := by
  unfold readRawA readRaw
  rw [this_bind]
  dsimp only
  rw [put_bind]
  generalize hp : (s.peek.1 == some '(') = p
  have h := readPartsA_ok (L := L) (if p then s.peek.2.get.2 else s.peek.2) f p n
  rcases hm : readPartsA L p ((if p then s.peek.2.get.2 else s.peek.2, f), n) with ⟨e | b, ⟨s1, f1⟩, n1⟩ <;> rw [hm] at h
  · rw [GM.bind_error hm]
    exact h
  obtain ⟨g, h1, h2, h3⟩ := h
  rw [GM.bind_ok hm, this_bind, h1]
  exact ⟨g, rfl, h2, h3⟩

/-- What `normalize` can do with canonical parts. -/
theorem normalize_total {t b : BigInt} (ht : Canon t) (hb : Canon b) : match normalize ⟨t, b⟩ with
    | .ok h => (h.Valid ∧ h.value = (t.val : ℚ) / b.val ∧ b.val ≠ 0) ∨ (b.val = 0 ∧ t.val ≠ 0 ∧ Canon h.tt ∧ Canon h.bb ∧ h.tt.val = t.val.sign ∧ h.bb.val = 0)
    | .error (e, _) => e = .assertion ∨ e = .divideByZero := by
  by_cases hb0 : b.val = 0
  · have hs : b.negative = false := by
      have := zero_of_val hb hb0
      rw [this]
    by_cases ht0 : t.val = 0
    · rw [normalize_zero_zero ht.1 ht0 hb.1 hb0 hs]
      exact .inr rfl
    · rcases normalize_zero_den ht ht0 hb.1 hb0 hs with ⟨f, h1, h2, h3, h4, h5⟩ | ⟨s, h⟩
      · rw [h1]
        exact .inr ⟨hb0, ht0, h2, h3, h4, h5⟩
      · rw [h]
        exact .inl rfl
  · obtain ⟨n1, n2⟩ := normalize_spec (.inl ht) hb hb0
    by_cases hr : ReduceAborts t.val b.val
    · obtain ⟨s, h⟩ := n2 hr
      rw [h]
      exact .inl rfl
    · obtain ⟨f, h1, h2, h3⟩ := n1 hr
      rw [h1]
      exact .inl ⟨h2, h3, hb0⟩

theorem zero_valid : (⟨⟨[0], false⟩, ⟨[1], false⟩⟩ : Frac).Valid := by
  refine ⟨by decide, by decide, by decide +kernel, by decide +kernel⟩

/-- A fraction that came out of `normalize` after memory had run out. -/
def LostFrac (h : Frac) : Prop :=
  h = ⟨⟨[0], false⟩, ⟨[1], false⟩⟩ ∨ (Canon h.tt ∧ h.bb = ⟨[0], false⟩ ∧ (h.tt.val = 1 ∨ h.tt.val = -1))

theorem normalize_lost {a b : BigInt} {g h : Frac} (ht : Canon g.tt) (hb : Canon g.bb) (ha : Lost L a g.tt) (hb' : Lost L b g.bb)
    (hn : normalize ⟨a, b⟩ = .ok h) : normalize g = .ok h ∨ (L.Refuses ∧ LostFrac h) := by
  have hz : Canon ⟨[0], false⟩ := by decide
  have hden : ∀ {t : BigInt}, L.Refuses → Canon t → normalize ⟨t, ⟨[0], false⟩⟩ = .ok h → L.Refuses ∧ LostFrac h := by
    intro t hl hc hn
    have := normalize_total hc hz
    rw [hn] at this
    rcases this with ⟨_, _, h0⟩ | ⟨_, h1, h2, h3, h4, h5⟩
    · exact absurd rfl h0
    · refine ⟨hl, .inr ⟨h2, zero_of_val h3 h5, ?_⟩⟩
      rw [h4]
      rcases lt_trichotomy t.val 0 with hlt | heq | hgt
      · exact .inr (Int.sign_eq_neg_one_of_neg hlt)
      · exact absurd heq h1
      · exact .inl (Int.sign_eq_one_of_pos hgt)
  rcases hb' with rfl | ⟨hl, rfl⟩
  · rcases ha with rfl | ⟨hl, rfl⟩
    · exact .inl hn
    · right
      have h1 := normalize_total hz hb
      rw [hn] at h1
      rcases h1 with ⟨h1, h2, h3⟩ | ⟨_, h1, _⟩
      · refine ⟨hl, .inl (h1.eq_of_value_eq zero_valid ?_)⟩
        rw [h2]
        have e : ((⟨[0], false⟩ : BigInt).val : ℚ) = 0 := by
          have : (⟨[0], false⟩ : BigInt).val = 0 := rfl
          rw [this]; norm_num
        have e' : (⟨⟨[0], false⟩, ⟨[1], false⟩⟩ : Frac).value = 0 := by
          unfold value
          rw [e, zero_div]
        rw [e, e', zero_div]
      · exact absurd rfl h1
  · right
    rcases ha with rfl | ⟨_, rfl⟩
    · exact hden hl ht hn
    · exact hden hl hz hn

/-! ### Construction from text -/

/-- Every outcome of the computation is in `P`. -/
def Outs {α : Type} (m : AM α) (P : Except Err α → Prop) : Prop := ∀ n, P (m ((), n)).1

theorem Outs.bind {α β : Type} {m : AM α} {k : α → AM β} {P : Except Err α → Prop} {Q : Except Err β → Prop} (h : Outs m P)
    (he : ∀ e, P (.error e) → Q (.error e)) (hk : ∀ a, P (.ok a) → Outs (k a) Q) : Outs (m >>= k) Q := by
  intro n
  have h := h n
  rcases hm : m ((), n) with ⟨o, ⟨⟨⟩, n'⟩⟩
  rw [hm] at h
  cases o with
  | error e =>
    rw [GM.bind_error hm]
    exact he e h
  | ok a =>
    rw [GM.bind_ok hm]
    exact hk a h n'

theorem Outs.ask {β : Type} {k : Unit → AM β} {Q : Except Err β → Prop} (he : L.Refuses → Q (.error .badAlloc)) (hk : Outs (k ()) Q) :
    Outs (GM.ask L >>= k) Q := by
  intro n
  by_cases hr : L.refuse n = true
  · rw [GM.bind_error (GM.ask_no (s := ((), n)) hr)]
    exact he ⟨n, hr⟩
  · rw [GM.bind_ok (GM.ask_yes (s := ((), n)) hr)]
    exact hk (n + 1)

theorem Outs.pure {β : Type} {a : β} {Q : Except Err β → Prop} (h : Q (.ok a)) : Outs (Pure.pure a) Q := fun _ => h

theorem Outs.free {β : Type} {r : Res β} {Q : Except Err β → Prop} (h : Q r) : Outs (GM.free r) Q := fun _ => h

theorem Outs.mono {α : Type} {m : AM α} {P Q : Except Err α → Prop} (h : Outs m P) (hpq : ∀ o, P o → Q o) : Outs m Q := fun n => hpq _ (h n)

theorem SimA.outs {α : Type} {m : AM α} {r : Res α} (h : SimA L m r) : Outs m fun o => o = r ∨ (o = .error .badAlloc ∧ L.Refuses) := h.weak

theorem intOfString_iff {t : List Char} {y : BigInt} (h : BigInt.ofString t = .ok y) : ∃ z, IntText t z ∧ Canon y ∧ y.val = z := by
  by_cases ht : ∃ z, IntText t z
  · obtain ⟨z, hz⟩ := ht
    obtain ⟨r, h1, h2, h3⟩ := ofString_ok hz
    rw [h] at h1
    cases h1
    exact ⟨z, hz, h2, h3⟩
  · push Not at ht
    rw [BigInt.ofString_fail ht] at h
    cases h

/-- What a string stream holds after insertions. -/
theorem inserts_outs (cs : List Char) : Outs (insertsA L ⟨[], false⟩ cs) fun o => ∃ b, o = .ok b ∧ b.text <+: cs ∧ (b.text = cs ∨ L.Refuses) := by
  have bad : ∀ (cs l : List Char) (n : Nat), insertsA L ⟨l, true⟩ cs ((), n) = (.ok ⟨l, true⟩, ((), n)) := by
    intro cs
    induction cs with
    | nil => exact fun _ _ => rfl
    | cons c cs ih => exact ih
  have gen : ∀ (cs l : List Char) (n : Nat), ∃ b, (insertsA L ⟨l, false⟩ cs ((), n)).1 = .ok b ∧ (∃ p, p <+: cs ∧ b.text = l ++ p ∧ (p = cs ∨ L.Refuses)) := by
    intro cs
    induction cs with
    | nil => exact fun l n => ⟨_, rfl, [], List.prefix_rfl, by simp, .inl rfl⟩
    | cons c cs ih =>
      intro l n
      by_cases hr : L.refuse n = true
      · refine ⟨⟨l, true⟩, ?_, [], List.nil_prefix, by simp, .inr ⟨n, hr⟩⟩
        have e : insertA L ⟨l, false⟩ c ((), n) = (.ok ⟨l, true⟩, ((), n + 1)) := by
          show (Except.ok (if (!L.refuse n) = true then _ else _), _) = _
          rw [hr]
          rfl
        show ((insertA L ⟨l, false⟩ c >>= fun b => insertsA L b cs) ((), n)).1 = _
        rw [GM.bind_ok e, bad]
      · have hr : L.refuse n = false := by simpa using hr
        obtain ⟨b, h1, p, h2, h3, h4⟩ := ih (l ++ [c]) (n + 1)
        refine ⟨b, ?_, c :: p, (List.cons_prefix_cons).mpr ⟨rfl, h2⟩, by rw [h3]; simp, h4.imp_left fun h => by rw [h]⟩
        have e : insertA L ⟨l, false⟩ c ((), n) = (.ok ⟨l ++ [c], false⟩, ((), n + 1)) := by
          show (Except.ok (if (!L.refuse n) = true then _ else _), _) = _
          rw [hr]
          rfl
        show ((insertA L ⟨l, false⟩ c >>= fun b => insertsA L b cs) ((), n)).1 = _
        rw [GM.bind_ok e]
        exact h1
  intro n
  obtain ⟨b, h1, p, h2, h3, h4⟩ := gen cs [] n
  rw [List.nil_append] at h3
  exact ⟨b, h1, by rw [h3]; exact h2, by rw [h3]; exact h4⟩

theorem tenPower {k : Nat} (hk : k ≤ 2147483647) : ∃ b, BigInt.timesPowerTen ⟨[1], false⟩ (toI32 k) = .ok b ∧ Canon b ∧ b.val = 10 ^ k := by
  rw [toI32_id (by omega) (by omega)]
  rcases Nat.eq_zero_or_pos k with rfl | h0
  · exact ⟨⟨[1], false⟩, by decide +kernel, by decide, rfl⟩
  · obtain ⟨b, b1, b2, b3, b4⟩ := timesPowerTen_pos canon_one (p := k) (by omega)
    refine ⟨b, b1, b4 (.inl (by rw [val_one]; norm_num)), ?_⟩
    rw [b3, val_one, one_mul, Int.toNat_natCast]

/-- Cutting off digits of a numeral. -/
theorem intText_cut {p q : List Char} {z w : Int} (h : IntText (p ++ q) z) (hp : IntText p w) : w = z.tdiv (10 ^ q.length) := by
  have key : ∀ {l m : List Char}, (∀ c ∈ m, c.isDigit = true) → (Nat.ofDigitChars 10 (l ++ m) 0) / 10 ^ m.length = Nat.ofDigitChars 10 l 0 := by
    intro l m hm
    have hlt := ofDigitChars_lt hm
    have e : Nat.ofDigitChars 10 (l ++ m) 0 = Nat.ofDigitChars 10 l 0 * 10 ^ m.length + Nat.ofDigitChars 10 m 0 := by exact_mod_cast ofDigitChars_append' l m
    rw [e, Nat.add_comm, Nat.mul_comm, Nat.add_mul_div_left _ _ (by positivity), Nat.div_eq_of_lt hlt, Nat.zero_add]
  obtain ⟨ds, ⟨d1, d2⟩, hd⟩ := h
  obtain ⟨es, ⟨e1, e2⟩, he⟩ := hp
  have nodash : ∀ {l : List Char}, ¬(∀ c ∈ '-' :: l, c.isDigit = true) := fun h => absurd (h '-' (by simp)) (by decide)
  rcases hd with ⟨rfl, rfl⟩ | ⟨hd, rfl⟩
  · rcases he with ⟨rfl, rfl⟩ | ⟨rfl, rfl⟩
    · rw [← key (l := p) (m := q) fun c hc => d2 c (List.mem_append_right _ hc)]
      push_cast
      rw [Int.tdiv_eq_ediv_of_nonneg (by positivity)]
    · exact absurd (fun c hc => d2 c (List.mem_append_left _ hc)) nodash
  · rcases he with ⟨rfl, rfl⟩ | ⟨rfl, rfl⟩
    · cases p with
      | nil => exact absurd rfl e1
      | cons c p =>
        cases hd
        exact absurd e2 nodash
    · rw [List.cons_append, List.cons.injEq] at hd
      obtain ⟨_, rfl⟩ := hd
      rw [Int.neg_tdiv, ← key (l := es) (m := q) fun c hc => d2 c (List.mem_append_right _ hc)]
      push_cast
      rw [Int.tdiv_eq_ediv_of_nonneg (by positivity)]

end Frac
end CppMaths
