import Verif.Proofs.Poly
import Mathlib.Data.Prod.Lex
/-!
# Comparing terms, and lists of terms
-/

namespace CppMaths
open BigInt

/-- What the comparisons look at. -/
def Factor.key (f : Factor) : List Char ×ₗ ℤ := toLex (f.id, f.power.val)

theorem Factor.lt_spec {x y : Factor} (hx : Canon x.power) (hy : Canon y.power) :
    Factor.lt x y = .ok (decide (x.key < y.key)) := by
  unfold Factor.lt Factor.key
  simp only [Prod.Lex.toLex_lt_toLex]
  by_cases h : x.id < y.id
  · simp [h]
  · rw [if_neg h]
    by_cases h2 : x.id = y.id
    · rw [if_pos h2, BigInt.lt_spec hx.1 hy.1]; simp [h2]
    · simp [h, h2]

theorem Factor.eq_spec {x y : Factor} (hx : Canon x.power) (hy : Canon y.power) :
    Factor.eq x y = .ok (decide (x.key = y.key)) := by
  unfold Factor.eq Factor.key
  by_cases h2 : x.id = y.id
  · rw [if_pos h2, BigInt.eq_spec hx.1 hy.1]; simp [h2]
  · simp [h2]

/-- `a` is at least as long as `b` and nowhere smaller. -/
def Covers {α : Type} [LinearOrder α] : List α → List α → Prop
  | _, [] => True
  | [], _ :: _ => False
  | a :: l, b :: m => b ≤ a ∧ Covers l m

section covers
variable {α : Type} [LinearOrder α]

theorem Covers.refl (l : List α) : Covers l l := by
  induction l with
  | nil => trivial
  | cons a l ih => exact ⟨le_rfl, ih⟩

theorem Covers.trans {l m n : List α} (h : Covers l m) (h' : Covers m n) : Covers l n := by
  induction n generalizing l m with
  | nil => cases l <;> trivial
  | cons c n ih =>
    cases m with
    | nil => exact h'.elim
    | cons b m =>
      cases l with
      | nil => exact h.elim
      | cons a l => exact ⟨h'.1.trans h.1, ih h.2 h'.2⟩

theorem Covers.antisymm {l m : List α} (h : Covers l m) (h' : Covers m l) : l = m := by
  induction l generalizing m with
  | nil =>
    cases m with
    | nil => rfl
    | cons b m => exact h.elim
  | cons a l ih =>
    cases m with
    | nil => exact h'.elim
    | cons b m => rw [le_antisymm h'.1 h.1, ih h.2 h'.2]

theorem Covers.length {l m : List α} (h : Covers l m) : m.length ≤ l.length := by
  induction l generalizing m with
  | nil =>
    cases m with
    | nil => rfl
    | cons b m => exact h.elim
  | cons a l ih =>
    cases m with
    | nil => simp
    | cons b m => simpa using ih h.2

end covers

namespace Term

/-- What the comparisons look at. -/
def keyList (t : Term) : List (List Char ×ₗ ℤ) := t.factors.map (·.2.key)

theorem ltLoop_spec {m n : FactorMap} (hm : ∀ p ∈ m, Canon p.2.power) (hn : ∀ p ∈ n, Canon p.2.power)
    (hl : n.length ≤ m.length) :
    ∃ b, ltLoop m n = .ok b ∧ (b = false ↔ Covers (m.map (·.2.key)) (n.map (·.2.key))) := by
  induction m generalizing n with
  | nil =>
    cases n with
    | nil => exact ⟨false, rfl, by simp [Covers]⟩
    | cons q n => simp at hl
  | cons p m ih =>
    cases n with
    | nil => exact ⟨false, rfl, by simp [Covers]⟩
    | cons q n =>
      obtain ⟨k, f⟩ := p
      obtain ⟨k', g⟩ := q
      obtain ⟨b, b1, b2⟩ := ih (n := n) (fun p hp => hm p (List.mem_cons_of_mem _ hp)) (fun p hp => hn p (List.mem_cons_of_mem _ hp))
        (by simpa using hl)
      unfold ltLoop
      rw [Factor.lt_spec (hm (k, f) (List.mem_cons_self ..)) (hn (k', g) (List.mem_cons_self ..)), bind_ok]
      simp only [List.map_cons, Covers]
      by_cases h : f.key < g.key
      · exact ⟨true, by simp [h], by simp [h]⟩
      · refine ⟨b, by simp [h, b1], ?_⟩
        rw [b2]
        simp [not_lt.mp h]

theorem WF.powers {t : Term} (h : t.WF) : ∀ p ∈ t.factors, Canon p.2.power := fun p hp => (h.keys p hp).2

theorem lt_spec {x y : Term} (hx : x.WF) (hy : y.WF) :
    ∃ b, Term.lt x y = .ok b ∧ (b = true ↔ ¬Covers x.keyList y.keyList) := by
  unfold Term.lt
  by_cases h : x.factors.length < y.factors.length
  · rw [if_pos h]
    refine ⟨true, rfl, ?_⟩
    simp only [true_iff]
    intro hc
    have := hc.length
    simp only [keyList, List.length_map] at this
    omega
  · rw [if_neg h]
    obtain ⟨b, b1, b2⟩ := ltLoop_spec hx.powers hy.powers (by omega)
    refine ⟨b, b1, ?_⟩
    unfold keyList
    rw [← not_congr b2]
    simp

theorem less_iff {x y : Term} (hx : x.WF) (hy : y.WF) : Less x y ↔ ¬Covers x.keyList y.keyList := by
  obtain ⟨b, b1, b2⟩ := lt_spec hx hy
  unfold Less
  rw [b1, ← b2, Except.ok.injEq]

theorem lt_false_iff {x y : Term} (hx : x.WF) (hy : y.WF) : Term.lt x y = .ok false ↔ Covers x.keyList y.keyList := by
  obtain ⟨b, b1, b2⟩ := lt_spec hx hy
  rw [b1, Except.ok.injEq]
  cases b <;> simp_all

theorem lt_total {x y : Term} (hx : x.WF) (hy : y.WF) : Less x y ∨ Term.lt x y = .ok false := by
  rw [less_iff hx hy, lt_false_iff hx hy]
  exact (Classical.em _).symm

theorem eqLoop_spec {m n : FactorMap} (hm : ∀ p ∈ m, Canon p.2.power) (hn : ∀ p ∈ n, Canon p.2.power)
    (hl : m.length = n.length) :
    ∃ b, eqLoop m n = .ok b ∧ (b = true ↔ m.map (·.2.key) = n.map (·.2.key)) := by
  induction m generalizing n with
  | nil =>
    cases n with
    | nil => exact ⟨true, rfl, by simp⟩
    | cons q n => simp at hl
  | cons p m ih =>
    cases n with
    | nil => simp at hl
    | cons q n =>
      obtain ⟨k, f⟩ := p
      obtain ⟨k', g⟩ := q
      obtain ⟨b, b1, b2⟩ := ih (n := n) (fun p hp => hm p (List.mem_cons_of_mem _ hp)) (fun p hp => hn p (List.mem_cons_of_mem _ hp))
        (by simpa using hl)
      unfold eqLoop Factor.ne
      rw [Factor.eq_spec (hm (k, f) (List.mem_cons_self ..)) (hn (k', g) (List.mem_cons_self ..))]
      simp only [bind_ok, pure_ok, List.map_cons, List.cons.injEq]
      by_cases h : f.key = g.key
      · exact ⟨b, by simp [h, b1], by simp [h, b2]⟩
      · exact ⟨false, by simp [h], by simp [h]⟩

theorem eq_spec {x y : Term} (hx : x.WF) (hy : y.WF) : ∃ b, Term.eq x y = .ok b ∧ (b = true ↔ x.keyList = y.keyList) := by
  unfold Term.eq
  by_cases h : x.factors.length = y.factors.length
  · rw [if_neg (not_not.mpr h)]
    exact eqLoop_spec hx.powers hy.powers h
  · rw [if_pos h]
    refine ⟨false, rfl, ?_⟩
    simp only [Bool.false_eq_true, false_iff]
    intro hk
    have := congrArg List.length hk
    simp only [keyList, List.length_map] at this
    exact h this

theorem same_iff {x y : Term} (hx : x.WF) (hy : y.WF) : Same x y ↔ x.keyList = y.keyList := by
  obtain ⟨b, b1, b2⟩ := eq_spec hx hy
  unfold Same
  rw [b1, ← b2, Except.ok.injEq]

theorem eq_total {x y : Term} (hx : x.WF) (hy : y.WF) : Same x y ∨ Term.eq x y = .ok false := by
  obtain ⟨b, b1, _⟩ := eq_spec hx hy
  unfold Same
  rw [b1]
  cases b <;> simp

/-- The factors are determined by the keys. -/
theorem keyList_inj {x y : Term} (hx : x.WF) (hy : y.WF) : x.keyList = y.keyList ↔ x.factors = y.factors := by
  refine ⟨fun h => ?_, fun h => by unfold keyList; rw [h]⟩
  have : ∀ {m n : FactorMap}, (∀ p ∈ m, p.1 = p.2.id ∧ Canon p.2.power) → (∀ p ∈ n, p.1 = p.2.id ∧ Canon p.2.power) →
      m.map (·.2.key) = n.map (·.2.key) → m = n := by
    intro m
    induction m with
    | nil => intro n _ _ h; exact (List.map_eq_nil_iff.mp h.symm).symm
    | cons p m ih =>
      intro n hm hn h
      cases n with
      | nil => simp at h
      | cons q n =>
        obtain ⟨k, f⟩ := p
        obtain ⟨k', g⟩ := q
        simp only [List.map_cons, List.cons.injEq] at h
        have h1 := hm (k, f) (List.mem_cons_self ..)
        have h2 := hn (k', g) (List.mem_cons_self ..)
        simp only at h1 h2
        have hid := congrArg (fun z => (ofLex z).1) h.1
        have hpw := congrArg (fun z => (ofLex z).2) h.1
        simp only [Factor.key, ofLex_toLex] at hid hpw
        have hp := h1.2.eq_of_val_eq h2.2 hpw
        have hfg : f = g := by cases f; cases g; simp_all
        have hk : k = k' := by rw [h1.1, h2.1, hid]
        rw [hfg, hk, ih (fun p hp => hm p (List.mem_cons_of_mem _ hp)) (fun p hp => hn p (List.mem_cons_of_mem _ hp)) h.2]
  exact this hx.keys hy.keys h

theorem same_iff_factors {x y : Term} (hx : x.WF) (hy : y.WF) : Same x y ↔ x.factors = y.factors := by
  rw [same_iff hx hy, keyList_inj hx hy]

theorem factors_iff_has {x y : Term} (hx : x.WF) (hy : y.WF) : x.factors = y.factors ↔ ∀ v e, x.Has v e ↔ y.Has v e := by
  constructor
  · intro h v e; unfold Has; rw [h]
  · intro h
    have hv : ∀ v, x.Var v ↔ y.Var v := fun v => by rw [var_iff, var_iff]; exact exists_congr fun e => h v e
    refine hx.map.ext hy.map hv fun v => ?_
    by_cases hvar : x.Var v
    · have h1 : x.Has v (x.expo v) := hx.has_iff.mpr ⟨hvar, rfl⟩
      exact (hy.has_iff.mp ((h _ _).mp h1)).2.symm
    · rw [FactorMap.expo_of_not_var hvar, FactorMap.expo_of_not_var fun h' => hvar ((hv v).mpr h')]

/-! The order. -/

theorem not_less_trans {x y z : Term} (hx : x.WF) (hy : y.WF) (hz : z.WF) (h1 : ¬Less x y) (h2 : ¬Less y z) : ¬Less x z := by
  rw [less_iff hx hy, not_not] at h1
  rw [less_iff hy hz, not_not] at h2
  rw [less_iff hx hz, not_not]
  exact h1.trans h2

theorem same_of_not_less {x y : Term} (hx : x.WF) (hy : y.WF) (h1 : ¬Less x y) (h2 : ¬Less y x) : Same x y := by
  rw [less_iff hx hy, not_not] at h1
  rw [less_iff hy hx, not_not] at h2
  rw [same_iff hx hy]
  exact h1.antisymm h2

theorem not_less_of_same {x y : Term} (hx : x.WF) (hy : y.WF) (h : Same x y) : ¬Less x y := by
  rw [same_iff hx hy] at h
  rw [less_iff hx hy, not_not, h]
  exact Covers.refl _

theorem Same.symm {x y : Term} (hx : x.WF) (hy : y.WF) (h : Same x y) : Same y x := by
  rw [same_iff hx hy] at h
  rw [same_iff hy hx, h]

theorem less_congr_right {x y z : Term} (hx : x.WF) (hy : y.WF) (hz : z.WF) (h : Same y z) : Less x y ↔ Less x z := by
  rw [same_iff hy hz] at h
  rw [less_iff hx hy, less_iff hx hz, h]

/-- The comparisons do not look at the coefficient. -/
theorem less_coeff {x y : Term} {c d : Frac} : Less { x with coeff := c } { y with coeff := d } ↔ Less x y := Iff.rfl

theorem mono_of_factors {x y : Term} (h : x.factors = y.factors) (ρ : List Char → ℚ) : x.mono ρ = y.mono ρ := by
  unfold mono; rw [h]

end Term

namespace Poly
open Term

/-- Where `appendTerm` stops. -/
theorem appendLoop_cases {l : List Term} (hl : ∀ t ∈ l, t.WF) {x : Term} (hx : x.WF) :
    ((∀ t ∈ l, Less t x) ∧ appendLoop x l = .error .ub) ∨
    ∃ pre t post, l = pre ++ t :: post ∧ (∀ s ∈ pre, Less s x) ∧ ¬Less t x ∧
      ((Same t x ∧ appendLoop x l = (do
          let c ← Frac.drop (t.coeff.addAssign x.coeff); return pre ++ { t with coeff := c } :: post)) ∨
       (¬Same t x ∧ appendLoop x l = .ok (pre ++ x :: t :: post))) := by
  induction l with
  | nil => exact .inl ⟨by simp, rfl⟩
  | cons t l ih =>
    have ht := hl t (List.mem_cons_self ..)
    unfold appendLoop
    rcases lt_total ht hx with h | h
    · rw [show Term.lt t x = .ok true from h, bind_ok, if_pos rfl]
      rcases ih (fun s hs => hl s (List.mem_cons_of_mem _ hs)) with ⟨h1, h2⟩ | ⟨pre, s, post, rfl, h2, h3, h4⟩
      · left
        refine ⟨fun s hs => ?_, by rw [h2]; rfl⟩
        rcases List.mem_cons.mp hs with rfl | hs
        · exact h
        · exact h1 s hs
      · right
        refine ⟨t :: pre, s, post, rfl, fun s hs => ?_, h3, ?_⟩
        · rcases List.mem_cons.mp hs with rfl | hs
          · exact h
          · exact h2 s hs
        · rcases h4 with ⟨h4, h5⟩ | ⟨h4, h5⟩
          · refine .inl ⟨h4, ?_⟩
            rw [h5]
            cases Frac.drop (s.coeff.addAssign x.coeff) <;> rfl
          · exact .inr ⟨h4, by rw [h5]; rfl⟩
    · right
      have hn : ¬Less t x := by unfold Less; rw [h]; simp
      refine ⟨[], t, l, rfl, by simp, hn, ?_⟩
      rw [h, bind_ok, if_neg (by simp)]
      rcases eq_total ht hx with e | e
      · left
        refine ⟨e, ?_⟩
        rw [show Term.eq t x = .ok true from e, bind_ok, if_pos rfl]
        rfl
      · right
        refine ⟨by unfold Same; rw [e]; simp, ?_⟩
        rw [e, bind_ok, if_neg (by simp)]
        rfl

/-- What a successful append makes of a list. -/
structure Added (l : List Term) (x : Term) (l' : List Term) : Prop where
  wf : ∀ t ∈ l', t.WF
  value : ∀ ρ, (l'.map (Term.value ρ)).sum = (l.map (Term.value ρ)).sum + x.value ρ
  ordered : l.Pairwise Less → l'.Pairwise Less

theorem pairwise_replace {α : Type} {R : α → α → Prop} {pre post : List α} {a b : α} (hl : ∀ c, R c a → R c b) (hr : ∀ c, R a c → R b c)
    (h : (pre ++ a :: post).Pairwise R) : (pre ++ b :: post).Pairwise R := by
  rw [List.pairwise_append, List.pairwise_cons] at h ⊢
  refine ⟨h.1, ⟨fun c hc => hr c (h.2.1.1 c hc), h.2.1.2⟩, fun c hc d hd => ?_⟩
  rcases List.mem_cons.mp hd with rfl | hd
  · exact hl c (h.2.2 c hc a (List.mem_cons_self ..))
  · exact h.2.2 c hc d (List.mem_cons_of_mem _ hd)

theorem added_same {pre post : List Term} {t x : Term} {c : Frac} (hl : ∀ s ∈ pre ++ t :: post, s.WF) (hx : x.WF) (hs : Same t x)
    (hc : FracRel c (t.coeff.value + x.coeff.value)) : Added (pre ++ t :: post) x (pre ++ { t with coeff := c } :: post) := by
  have ht := hl t (by simp)
  refine ⟨fun s hs => ?_, fun ρ => ?_, fun h => ?_⟩
  · rcases List.mem_append.mp hs with h | h
    · exact hl s (by simp [h])
    · rcases List.mem_cons.mp h with rfl | h
      · exact ⟨hc.1, ht.sorted, ht.keys⟩
      · exact hl s (by simp [h])
  · have e := mono_of_factors ((same_iff_factors ht hx).mp hs) ρ
    have e' : ({ t with coeff := c } : Term).mono ρ = x.mono ρ := e
    simp only [List.map_append, List.map_cons, List.sum_append, List.sum_cons]
    unfold Term.value
    rw [e', e, hc.2]
    ring
  · exact pairwise_replace (a := t) (b := { t with coeff := c }) (fun _ h => h) (fun _ h => h) h

theorem added_insert {pre post : List Term} {t x : Term} (hl : ∀ s ∈ pre ++ t :: post, s.WF) (hx : x.WF)
    (hpre : ∀ s ∈ pre, Less s x) (hn : ¬Less t x) (hs : ¬Same t x) : Added (pre ++ t :: post) x (pre ++ x :: t :: post) := by
  have ht := hl t (by simp)
  refine ⟨fun s hs => ?_, fun ρ => ?_, fun h => ?_⟩
  · rcases List.mem_append.mp hs with h | h
    · exact hl s (by simp [h])
    · rcases List.mem_cons.mp h with rfl | h
      · exact hx
      · exact hl s (List.mem_append_right _ h)
  · simp only [List.map_append, List.map_cons, List.sum_append, List.sum_cons]
    ring
  · rw [List.pairwise_append] at h ⊢
    obtain ⟨h1, h2, h3⟩ := h
    refine ⟨h1, List.pairwise_cons.mpr ⟨fun s hs' => ?_, h2⟩, fun a ha b hb => ?_⟩
    · by_contra hcon
      have hsw := hl s (List.mem_append_right _ hs')
      rcases List.mem_cons.mp hs' with rfl | hs'
      · exact hs (same_of_not_less ht hx hn hcon)
      · exact not_less_trans ht hx hsw hn hcon ((List.pairwise_cons.mp h2).1 s hs')
    · rcases List.mem_cons.mp hb with rfl | hb
      · exact hpre a ha
      · exact h3 a ha b hb

theorem drop_addAssign_out {x y : Frac} (hx : x.Valid) (hy : y.Valid) :
    Out Aborts (Frac.drop (x.addAssign y)) (fun c => FracRel c (x.value + y.value)) := by
  have hxb : (x.bb.val : ℚ) ≠ 0 := by exact_mod_cast hx.bb_ne
  have hyb : (y.bb.val : ℚ) ≠ 0 := by exact_mod_cast hy.bb_ne
  exact ((Frac.addAssign_red hx hy).yields (by unfold Frac.value; push_cast; field_simp)).out

/-- Appending a term: undefined behaviour exactly if every term is smaller; otherwise the value grows by the term, or the
addition of the coefficients aborts. -/
theorem appendLoop_ok {l : List Term} (hl : ∀ t ∈ l, t.WF) {x : Term} (hx : x.WF) :
    ((∀ t ∈ l, Less t x) → appendLoop x l = .error .ub) ∧
    ((∃ t ∈ l, ¬Less t x) → Out Aborts (appendLoop x l) (Added l x)) := by
  rcases appendLoop_cases hl hx with ⟨h1, h2⟩ | ⟨pre, t, post, rfl, h2, h3, h4⟩
  · exact ⟨fun _ => h2, fun ⟨t, ht, hn⟩ => absurd (h1 t ht) hn⟩
  · refine ⟨fun h => absurd (h t (by simp)) h3, fun _ => ?_⟩
    have ht := hl t (by simp)
    rcases h4 with ⟨h4, h5⟩ | ⟨h4, h5⟩
    · rw [h5]
      exact Out.bind (drop_addAssign_out ht.coeff hx.coeff) fun c hc => Out.ok (added_same hl hx h4 hc)
    · rw [h5]
      exact Out.ok (added_insert hl hx h2 h3 h4)

/-! Merging. -/

theorem mergeAt_perm {t : Term} {a : List Term} {rest : List Term → Res (List Term)} (ht : t.WF)
    (hrest : ∀ b : List Term, (∀ u ∈ b, u.WF) → ∃ r, rest b = .ok r ∧ r.Perm (a ++ b)) :
    ∀ {b : List Term}, (∀ u ∈ b, u.WF) → ∃ r, mergeAt t rest b = .ok r ∧ r.Perm (t :: a ++ b) := by
  intro b
  induction b with
  | nil =>
    intro _
    obtain ⟨r, r1, r2⟩ := hrest [] (by simp)
    exact ⟨t :: r, by unfold mergeAt; rw [r1]; rfl, r2.cons t⟩
  | cons u b ih =>
    intro hb
    unfold mergeAt
    rcases lt_total (hb u (List.mem_cons_self ..)) ht with h | h
    · obtain ⟨r, r1, r2⟩ := ih (fun w hw => hb w (List.mem_cons_of_mem _ hw))
      refine ⟨u :: r, ?_, (r2.cons u).trans List.perm_middle.symm⟩
      rw [show Term.lt u t = .ok true from h, bind_ok, if_pos rfl, r1]
      rfl
    · obtain ⟨r, r1, r2⟩ := hrest (u :: b) hb
      refine ⟨t :: r, ?_, r2.cons t⟩
      rw [h, bind_ok, if_neg (by simp), r1]
      rfl

theorem mergeLoop_perm {a : List Term} (ha : ∀ t ∈ a, t.WF) :
    ∀ {b : List Term}, (∀ u ∈ b, u.WF) → ∃ r, mergeLoop a b = .ok r ∧ r.Perm (a ++ b) := by
  induction a with
  | nil => intro b _; exact ⟨b, rfl, List.Perm.refl _⟩
  | cons t a ih =>
    intro b hb
    exact mergeAt_perm (ha t (List.mem_cons_self ..)) (fun b hb => ih (fun s hs => ha s (List.mem_cons_of_mem _ hs)) hb) hb

theorem noneLess_spec {t : Term} (ht : t.WF) {l : List Term} (hl : ∀ u ∈ l, u.WF) :
    ∃ b, noneLess t l = .ok b ∧ (b = true ↔ ∀ u ∈ l, ¬Less u t) := by
  induction l with
  | nil => exact ⟨true, rfl, by simp⟩
  | cons u l ih =>
    obtain ⟨b, b1, b2⟩ := ih (fun w hw => hl w (List.mem_cons_of_mem _ hw))
    unfold noneLess
    rcases lt_total (hl u (List.mem_cons_self ..)) ht with h | h
    · exact ⟨false, by rw [show Term.lt u t = .ok true from h]; rfl, by simp [h]⟩
    · refine ⟨b, by rw [h, bind_ok, if_neg (by simp), b1], ?_⟩
      have : ¬Less u t := by unfold Less; rw [h]; simp
      simp [b2, this]

theorem sorted_spec {l : List Term} (hl : ∀ u ∈ l, u.WF) :
    ∃ b, sorted l = .ok b ∧ (b = true ↔ l.Pairwise fun t u => ¬Less u t) := by
  induction l with
  | nil => exact ⟨true, rfl, by simp⟩
  | cons t l ih =>
    obtain ⟨b, b1, b2⟩ := ih (fun w hw => hl w (List.mem_cons_of_mem _ hw))
    obtain ⟨c, c1, c2⟩ := noneLess_spec (hl t (List.mem_cons_self ..)) (fun w hw => hl w (List.mem_cons_of_mem _ hw))
    unfold sorted
    rw [c1, bind_ok, List.pairwise_cons]
    cases c with
    | false => exact ⟨false, rfl, by simpa using fun h => absurd h (by simpa using c2)⟩
    | true => exact ⟨b, by rw [if_pos rfl, b1], by rw [b2]; simpa using fun _ => by simpa using c2⟩

end Poly
end CppMaths
