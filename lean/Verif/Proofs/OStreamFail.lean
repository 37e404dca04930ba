import Verif.Model.OStreamFail
import Verif.Spec.Output
/-!
# Output to a device that fails, against output to one that does not
-/

namespace CppMaths

variable {D : Device} {b : List Char}

/-- The stream `d` is like the stream `o` of a perfect device, or its device has refused something, and what has been written is a beginning of the text. In any case the text `b` from before is still there. -/
def Short (D : Device) (b : List Char) (d : DStream) (o : OStream) : Prop :=
  (d.o = o ∨ (d.o.good = false ∧ (∃ i, D i ≠ none) ∧ d.o.text <+: o.text)) ∧ b <+: d.o.text

theorem insert_short {d : DStream} {o : OStream} (h : Short D b d o) (pre body pre' body' : List Char) (hp : d.o = o → pre = pre' ∧ body = body') :
    Short D b (d.insert D pre body) (o.insert pre' body') := by
  obtain ⟨h | ⟨h1, h2, h3⟩, hb⟩ := h
  · obtain ⟨rfl, rfl⟩ := hp h
    subst h
    unfold DStream.insert OStream.insert
    by_cases hg : d.o.good = true
    · rw [if_pos hg, if_pos hg]
      cases hd : D d.count with
      | none => exact ⟨.inl rfl, hb.trans (List.prefix_append _ _)⟩
      | some p =>
        refine ⟨.inr ⟨rfl, ⟨d.count, by rw [hd]; simp⟩, ?_⟩, hb.trans (List.prefix_append _ _)⟩
        exact (List.prefix_append_right_inj _).mpr (List.take_prefix _ _)
    · rw [if_neg hg, if_neg hg]
      exact ⟨.inl rfl, hb⟩
  · unfold DStream.insert
    rw [if_neg (by simp [h1])]
    refine ⟨.inr ⟨h1, h2, h3.trans ?_⟩, hb⟩
    unfold OStream.insert
    split
    · exact List.prefix_append _ _
    · exact List.prefix_refl _

theorem putStr_short {d : DStream} {o : OStream} (h : Short D b d o) (s : List Char) : Short D b (d.putStr D s) (o.putStr s) :=
  insert_short h _ _ _ _ fun _ => ⟨rfl, rfl⟩

theorem putI32_short {d : DStream} {o : OStream} (h : Short D b d o) (z : Int) : Short D b (d.putI32 D z) (o.putI32 z) :=
  insert_short h _ _ _ _ fun h => by rw [h]; exact ⟨rfl, rfl⟩

theorem setw_short {d : DStream} {o : OStream} (h : Short D b d o) (n : Nat) : Short D b (d.setw n) (o.setw n) := by
  obtain ⟨h | h, hb⟩ := h
  · exact ⟨.inl (by rw [← h]; rfl), hb⟩
  · exact ⟨.inr h, hb⟩

theorem setfill_short {d : DStream} {o : OStream} (h : Short D b d o) (c : Char) : Short D b (d.setfill c) (o.setfill c) := by
  obtain ⟨h | h, hb⟩ := h
  · exact ⟨.inl (by rw [← h]; rfl), hb⟩
  · exact ⟨.inr h, hb⟩

theorem endl_short {d : DStream} {o : OStream} (h : Short D b d o) : Short D b (d.endl D) o.endl := by
  obtain ⟨h | ⟨h1, h2, h3⟩, hb⟩ := h
  · subst h
    unfold DStream.endl OStream.endl
    by_cases hg : d.o.good = true
    · rw [if_pos hg, if_pos hg]
      cases hd : D d.count with
      | none => exact ⟨.inl rfl, hb.trans (List.prefix_append _ _)⟩
      | some p =>
        refine ⟨.inr ⟨rfl, ⟨d.count, by rw [hd]; simp⟩, ?_⟩, hb.trans (List.prefix_append _ _)⟩
        exact (List.prefix_append_right_inj _).mpr (List.take_prefix _ _)
    · rw [if_neg hg, if_neg hg]
      exact ⟨.inl rfl, hb⟩
  · unfold DStream.endl
    rw [if_neg (by simp [h1])]
    refine ⟨.inr ⟨h1, h2, h3.trans ?_⟩, hb⟩
    unfold OStream.endl
    split
    · exact List.prefix_append _ _
    · exact List.prefix_refl _

theorem printBins_short (bs : List Int) : ∀ {d : DStream} {o : OStream}, Short D b d o → Short D b (BigInt.printBinsD D bs d) (BigInt.printBins bs o) := by
  induction bs with
  | nil => exact fun h => h
  | cons c bs ih => exact fun h => ih (putI32_short (setfill_short (setw_short h _) _) _)

theorem int_short (x : BigInt) {d : DStream} {o : OStream} (h : Short D b d o) : Short D b (x.printD D d) (x.printTo o) := by
  unfold BigInt.printD BigInt.printTo
  have h1 : Short D b (if x.negative then d.putStr D ['-'] else d) (if x.negative then o.putStr ['-'] else o) := by
    split
    · exact putStr_short h _
    · exact h
  dsimp only
  rcases x.bins.reverse.dropWhile (· == 0) with _ | ⟨c, bs⟩
  · exact putI32_short h1 _
  · exact printBins_short _ (putI32_short h1 _)

theorem frac_short (x : Frac) {d : DStream} {o : OStream} (h : Short D b d o) : Short D b (x.printD D d) (x.printTo o) :=
  putStr_short (int_short _ (putStr_short (int_short _ (putStr_short h _)) _)) _

/-- The same for results of functions that may throw. -/
def ShortR (D : Device) (b : List Char) (r : Res DStream) (q : Res OStream) : Prop :=
  (∃ d o, r = .ok d ∧ q = .ok o ∧ Short D b d o) ∨ ∃ e, r = .error e ∧ q = .error e

theorem ShortR.ok {d : DStream} {o : OStream} (h : Short D b d o) : ShortR D b (.ok d) (.ok o) := .inl ⟨d, o, rfl, rfl, h⟩

theorem ShortR.bind {r : Res DStream} {q : Res OStream} {f : DStream → Res DStream} {g : OStream → Res OStream} (h : ShortR D b r q)
    (hf : ∀ d o, Short D b d o → ShortR D b (f d) (g o)) : ShortR D b (r >>= f) (q >>= g) := by
  rcases h with ⟨d, o, rfl, rfl, h⟩ | ⟨e, rfl, rfl⟩
  · exact hf d o h
  · exact .inr ⟨e, rfl, rfl⟩

theorem ShortR.same {α : Type} (a : Res α) {f : α → Res DStream} {g : α → Res OStream} (hf : ∀ x, ShortR D b (f x) (g x)) :
    ShortR D b (a >>= f) (a >>= g) := by
  cases a with
  | error e => exact .inr ⟨e, rfl, rfl⟩
  | ok x => exact hf x

theorem ShortR.forUp {f : Nat → DStream → Res DStream} {g : Nat → OStream → Res OStream} (hf : ∀ i d o, Short D b d o → ShortR D b (f i d) (g i o)) (n : Nat) :
    ∀ (lo : Nat) {d : DStream} {o : OStream}, Short D b d o → ShortR D b (CppMaths.forUp lo n f d) (CppMaths.forUp lo n g o) := by
  induction n with
  | zero => exact fun lo d o h => .ok h
  | succ n ih => exact fun lo d o h => (hf lo d o h).bind fun d o h => ih _ h

theorem vec_short {T : Type} {pr : T → DStream → DStream} {qr : T → OStream → OStream} (hp : ∀ t d o, Short D b d o → Short D b (pr t d) (qr t o)) (x : List T)
    {d : DStream} {o : OStream} (h : Short D b d o) : ShortR D b (Vec.printD D pr x d) (Vec.printTo qr x o) := by
  unfold Vec.printD Vec.printTo
  refine ShortR.bind (ShortR.forUp (fun i d o h => ShortR.same (Vec.get x i) fun t => .ok (putStr_short (hp t d o h) _)) _ _ (putStr_short h _)) fun d o h => ?_
  refine ShortR.bind (q := if x.length - 1 < x.length then _ else _) ?_ fun d o h => .ok (putStr_short h _)
  split
  · exact ShortR.same _ fun t => .ok (hp t d o h)
  · exact .ok h

theorem mat_short {T : Type} {pr : T → DStream → DStream} {qr : T → OStream → OStream} (hp : ∀ t d o, Short D b d o → Short D b (pr t d) (qr t o)) (m : Mat T)
    {d : DStream} {o : OStream} (h : Short D b d o) : ShortR D b (m.printD D pr d) (m.printTo qr o) := by
  unfold Mat.printD Mat.printTo
  refine ShortR.same _ fun m => ShortR.forUp (fun i d o h => ?_) _ _ h
  refine ShortR.bind (ShortR.forUp (fun j d o h => ShortR.same (m.get i j) fun t => .ok (putStr_short (hp t d o h) _)) _ _ h) fun d o h => ?_
  refine ShortR.ok ?_
  split
  · exact endl_short h
  · exact h

theorem factor_short (x : Factor) {d : DStream} {o : OStream} (h : Short D b d o) : ShortR D b (x.printD D d) (x.printTo o) := by
  unfold Factor.printD Factor.printTo
  refine ShortR.same _ fun one => ?_
  cases one with
  | true => exact .ok (putStr_short h _)
  | false => exact .ok (int_short _ (putStr_short (putStr_short h _) _))

theorem termRest_short (r : FactorMap) : ∀ {d : DStream} {o : OStream}, Short D b d o → ShortR D b (Term.printRestD D r d) (Term.printRestTo r o) := by
  induction r with
  | nil => exact fun h => .ok h
  | cons p r ih => exact fun h => (factor_short _ (putStr_short h _)).bind fun d o h => ih h

theorem term_short (t : Term) {d : DStream} {o : OStream} (h : Short D b d o) : ShortR D b (t.printD D d) (t.printTo o) := by
  unfold Term.printD Term.printTo
  refine ShortR.same _ fun zero => ShortR.same _ fun one => ShortR.same _ fun z => ?_
  cases z with
  | true => exact .ok (putStr_short h _)
  | false =>
    refine ShortR.same _ fun u => ?_
    rcases t.factors with _ | ⟨⟨k, f⟩, r⟩ <;> cases u
    · exact .ok (frac_short _ h)
    · exact .ok (putStr_short h _)
    · exact termRest_short _ (frac_short _ h)
    · exact (factor_short _ h).bind fun d o h => termRest_short _ h

theorem polyRest_short (r : List Term) : ∀ {d : DStream} {o : OStream}, Short D b d o → ShortR D b (Poly.printRestD D r d) (Poly.printRestTo r o) := by
  induction r with
  | nil => exact fun h => .ok h
  | cons t r ih => exact fun h => (term_short _ (putStr_short h _)).bind fun d o h => ih h

theorem poly_short (p : Poly) {d : DStream} {o : OStream} (h : Short D b d o) : ShortR D b (p.printD D d) (p.printTo o) := by
  unfold Poly.printD Poly.printTo
  rcases p.terms with _ | ⟨t, r⟩
  · exact .ok h
  · exact (term_short _ h).bind fun d o h => polyRest_short _ h

end CppMaths
