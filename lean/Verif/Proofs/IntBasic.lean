import Verif.Spec.Int
import Mathlib.Tactic.Ring
import Mathlib.Tactic.Linarith
import Mathlib.Tactic.Positivity
import Mathlib.Tactic.NormNum
import Mathlib.Algebra.Order.Ring.Int
/-!
# Magnitudes, comparison, cleaning, addition, subtraction
-/

namespace CppMaths

theorem i32_ok {z : Int} (h1 : -2147483648 ≤ z) (h2 : z ≤ 2147483647) : i32 z = .ok z := by
  simp [i32, h1, h2]

theorem i64_ok {z : Int} (h1 : -9223372036854775808 ≤ z) (h2 : z ≤ 9223372036854775807) :
    i64 z = .ok z := by
  simp [i64, h1, h2]

theorem toI32_id {z : Int} (h1 : -2147483648 ≤ z) (h2 : z ≤ 2147483647) : toI32 z = z := by
  unfold toI32; omega

namespace BigInt

/-- The base, as a number. -/
scoped notation "B" => (1000000000 : Int)

theorem eq_nil_or_snoc {α : Type} (l : List α) : l = [] ∨ ∃ l' t, l = l' ++ [t] := by
  rcases List.eq_nil_or_concat l with h | ⟨l', t, h⟩
  · exact .inl h
  · exact .inr ⟨l', t, by simpa using h⟩

@[simp] theorem mag_nil : mag [] = 0 := rfl
@[simp] theorem mag_cons (b : Int) (bs : List Int) : mag (b :: bs) = b + 1000000000 * mag bs := rfl

theorem mag_append (l m : List Int) : mag (l ++ m) = mag l + B ^ l.length * mag m := by
  induction l with
  | nil => simp
  | cons b bs ih => simp only [List.cons_append, mag_cons, ih, List.length_cons, pow_succ]; ring

@[simp] theorem mag_replicate_zero (n : Nat) : mag (List.replicate n 0) = 0 := by
  induction n with
  | zero => rfl
  | succ n ih => simp [List.replicate_succ, ih]

theorem B_pow_pos (n : Nat) : (0 : Int) < B ^ n := by positivity

@[simp] theorem BinsOK_nil : BinsOK [] := by simp [BinsOK]
@[simp] theorem BinsOK_cons {b : Int} {bs : List Int} :
    BinsOK (b :: bs) ↔ (0 ≤ b ∧ b < 1000000000) ∧ BinsOK bs := by simp [BinsOK]
@[simp] theorem BinsOK_append {l m : List Int} : BinsOK (l ++ m) ↔ BinsOK l ∧ BinsOK m := by
  simp only [BinsOK, List.mem_append]
  constructor
  · intro h; exact ⟨fun b hb => h b (.inl hb), fun b hb => h b (.inr hb)⟩
  · rintro ⟨h1, h2⟩ b (hb | hb); exacts [h1 b hb, h2 b hb]
@[simp] theorem BinsOK_replicate (n : Nat) : BinsOK (List.replicate n 0) := by
  intro b hb; rw [List.mem_replicate] at hb; omega
@[simp] theorem BinsOK_reverse {l : List Int} : BinsOK l.reverse ↔ BinsOK l := by
  simp [BinsOK]

theorem mag_nonneg {l : List Int} (h : BinsOK l) : 0 ≤ mag l := by
  induction l with
  | nil => simp
  | cons b bs ih =>
    rw [BinsOK_cons] at h
    have := ih h.2
    simp only [mag_cons]; omega

theorem mag_lt {l : List Int} (h : BinsOK l) : mag l < B ^ l.length := by
  induction l with
  | nil => simp
  | cons b bs ih =>
    rw [BinsOK_cons] at h
    have := ih h.2
    simp only [mag_cons, List.length_cons, pow_succ]
    omega

theorem mag_eq_zero_iff {l : List Int} (h : BinsOK l) : mag l = 0 ↔ ∀ b ∈ l, b = 0 := by
  induction l with
  | nil => simp
  | cons b bs ih =>
    rw [BinsOK_cons] at h
    have h0 := mag_nonneg h.2
    simp only [mag_cons, List.forall_mem_cons, ← ih h.2]
    omega

theorem mag_eq_zero_iff_replicate {l : List Int} (h : BinsOK l) :
    mag l = 0 ↔ l = List.replicate l.length 0 := by
  rw [mag_eq_zero_iff h, List.eq_replicate_iff]; simp

/-- The absolute value of what an `Int` stands for. -/
theorem abs_val {a : BigInt} (h : WF a) : |a.val| = mag a.bins := by
  have := mag_nonneg h.2
  unfold val; split
  · rw [abs_neg, abs_of_nonneg this]
  · rw [abs_of_nonneg this]

theorem val_eq_zero_iff {a : BigInt} : a.val = 0 ↔ mag a.bins = 0 := by
  unfold val; split <;> omega

theorem WF.pos_length {a : BigInt} (h : WF a) : 0 < a.bins.length := List.length_pos_of_ne_nil h.1

/-! ### Leading zeros -/

theorem noLead_append_singleton {l : List Int} {t : Int} : NoLead (l ++ [t]) ↔ l = [] ∨ t ≠ 0 := by
  simp only [NoLead, List.length_append, List.length_singleton, List.getLast?_append,
    List.getLast?_singleton]
  simp

/-- Numeric form of "no leading zero bins". -/
theorem noLead_iff {l : List Int} (h : BinsOK l) :
    NoLead l ↔ l.length ≤ 1 ∨ B ^ (l.length - 1) ≤ mag l := by
  rcases eq_nil_or_snoc l with rfl | ⟨l', t, rfl⟩
  · simp [NoLead]
  · rw [noLead_append_singleton, mag_append]
    rw [BinsOK_append] at h
    have h1 := mag_nonneg h.1
    have h2 := mag_lt h.1
    have ht : 0 ≤ t := (h.2 t (by simp)).1
    have hp := B_pow_pos l'.length
    simp only [List.length_append, List.length_singleton, Nat.add_sub_cancel, mag_cons, mag_nil]
    constructor
    · rintro (rfl | ht0)
      · left; simp
      · right
        have : 1 ≤ t := by omega
        nlinarith
    · rintro (hl | hm)
      · left; cases l' with
        | nil => rfl
        | cons => simp at hl
      · right; rintro rfl
        simp at hm; omega

theorem getLast_pos_of_noLead {l : List Int} (hne : l ≠ []) (h : BinsOK l) (hn : NoLead l) (hm : mag l ≠ 0) :
    l.getLast hne ≠ 0 := by
  rcases hn with hn | hn
  · match l, hne with
    | [b], _ => simpa using hm
    | _ :: _ :: _, _ => simp at hn
  · rwa [List.getLast?_eq_some_getLast hne, ne_eq, Option.some.injEq] at hn

/-- Canonical lists of bins are determined by their length and magnitude. -/
theorem mag_inj_of_length {l m : List Int} (hl : BinsOK l) (hm : BinsOK m) (hlen : l.length = m.length)
    (h : mag l = mag m) : l = m := by
  induction l generalizing m with
  | nil => cases m with
    | nil => rfl
    | cons => simp at hlen
  | cons b bs ih =>
    cases m with
    | nil => simp at hlen
    | cons c cs =>
      rw [BinsOK_cons] at hl hm
      simp only [mag_cons] at h
      have hb : b = c := by omega
      have : mag bs = mag cs := by omega
      rw [hb, ih hl.2 hm.2 (by simpa using hlen) this]

theorem length_le_of_mag_le {l m : List Int} (hl : BinsOK l) (hm : BinsOK m) (nl : NoLead l)
    (hne : m ≠ []) (h : mag l ≤ mag m) : l.length ≤ m.length := by
  rw [noLead_iff hl] at nl
  have hm1 : 0 < m.length := List.length_pos_of_ne_nil hne
  rcases nl with nl | nl
  · omega
  · by_contra hc
    have := mag_lt hm
    have : (B ^ m.length : Int) ≤ B ^ (l.length - 1) := pow_le_pow_right₀ (by norm_num) (by omega)
    omega

theorem bins_eq_of_mag_eq {l m : List Int} (hl : BinsOK l) (hm : BinsOK m) (nl : NoLead l) (nm : NoLead m)
    (hle : l ≠ []) (hme : m ≠ []) (h : mag l = mag m) : l = m :=
  mag_inj_of_length hl hm
    (le_antisymm (length_le_of_mag_le hl hm nl hme h.le) (length_le_of_mag_le hm hl nm hle h.ge)) h

/-- A canonical `Int` is determined by its value: `==` and identity of representation coincide. -/
theorem Canon.eq_of_val_eq {a b : BigInt} (ha : Canon a) (hb : Canon b) (h : a.val = b.val) : a = b := by
  have h1 : mag a.bins = mag b.bins := by rw [← abs_val ha.1, ← abs_val hb.1, h]
  have h2 := bins_eq_of_mag_eq ha.1.2 hb.1.2 ha.2.1 hb.2.1 ha.1.1 hb.1.1 h1
  have h3 : a.negative = b.negative := by
    have p1 := ha.2.2
    have p2 := hb.2.2
    have p3 := mag_nonneg ha.1.2
    have p4 := mag_nonneg hb.1.2
    unfold val at h
    cases ha' : a.negative <;> cases hb' : b.negative <;> simp only [ha', hb', if_true, if_false, Bool.false_eq_true] at h p1 p2 ⊢
    · have := p2 trivial; omega
    · have := p1 trivial; omega
  cases a; cases b; simp only [mk.injEq]; exact ⟨h2, h3⟩

/-! ### Cleaning -/

theorem cleanRev_spec (l : List Int) :
    (cleanRev l ≠ [] ↔ l ≠ []) ∧ (BinsOK l → BinsOK (cleanRev l)) ∧
    mag (cleanRev l).reverse = mag l.reverse ∧ NoLead (cleanRev l).reverse ∧ (cleanRev l).length ≤ l.length := by
  induction l with
  | nil => simp [cleanRev, NoLead]
  | cons b r ih =>
    cases r with
    | nil => simp [cleanRev, NoLead]
    | cons c r =>
      simp only [cleanRev]
      split
      · rename_i hb
        have hb : b = 0 := by simpa using hb
        obtain ⟨h1, h2, h3, h4, h5⟩ := ih
        refine ⟨by simpa using h1, fun h => h2 (BinsOK_cons.mp h).2, ?_, h4, ?_⟩
        · rw [h3, List.reverse_cons (a := b), mag_append, hb]; simp
        · simp only [List.length_cons] at *; omega
      · rename_i hb
        refine ⟨by simp, id, rfl, ?_, le_refl _⟩
        rw [List.reverse_cons (a := b), noLead_append_singleton]
        right; simpa using hb

theorem cleanBins_ne {l : List Int} (h : l ≠ []) : cleanBins l ≠ [] := by
  unfold cleanBins; simp only [ne_eq, List.reverse_eq_nil_iff]
  exact (cleanRev_spec l.reverse).1.mpr (by simpa using h)
theorem cleanBins_ok {l : List Int} (h : BinsOK l) : BinsOK (cleanBins l) := by
  unfold cleanBins; rw [BinsOK_reverse]; exact (cleanRev_spec l.reverse).2.1 (by simpa using h)
@[simp] theorem mag_cleanBins (l : List Int) : mag (cleanBins l) = mag l := by
  unfold cleanBins; rw [(cleanRev_spec l.reverse).2.2.1, List.reverse_reverse]
theorem cleanBins_noLead (l : List Int) : NoLead (cleanBins l) := (cleanRev_spec l.reverse).2.2.2.1
theorem cleanBins_length (l : List Int) : (cleanBins l).length ≤ l.length := by
  unfold cleanBins
  simpa using (cleanRev_spec l.reverse).2.2.2.2
theorem cleanBins_of_noLead {l : List Int} (h : NoLead l) : cleanBins l = l := by
  rcases eq_nil_or_snoc l with rfl | ⟨l', t, rfl⟩
  · rfl
  · rw [noLead_append_singleton] at h
    unfold cleanBins
    rw [List.reverse_append, List.reverse_singleton, List.singleton_append]
    cases hr : l'.reverse with
    | nil => simp at hr; simp [hr, cleanRev]
    | cons c r =>
      have : l' ≠ [] := by rintro rfl; simp at hr
      simp only [cleanRev, beq_iff_eq, (h.resolve_left this), if_false]
      rw [← hr]; simp

/-! ### Comparison -/

theorem cmpInts_neg (x y : Int) : -cmpInts x y = cmpInts y x := by
  unfold cmpInts; split <;> split <;> omega

theorem lexCmp_spec (n : Nat) : ∀ {l m : List Int}, BinsOK l → BinsOK m → l.length = n → m.length = n →
    lexCmp l.reverse m.reverse = .ok (cmpInts (mag l) (mag m)) := by
  induction n with
  | zero =>
    intro l m _ _ h1 h2
    rw [List.length_eq_zero_iff] at h1 h2
    subst h1 h2; simp [lexCmp, cmpInts]
  | succ n ih =>
    intro l m hl hm h1 h2
    rcases eq_nil_or_snoc l with rfl | ⟨l', t, rfl⟩
    · simp at h1
    rcases eq_nil_or_snoc m with rfl | ⟨m', s, rfl⟩
    · simp at h2
    rw [BinsOK_append] at hl hm
    simp only [List.length_append, List.length_singleton, Nat.add_right_cancel_iff] at h1 h2
    have e1 := mag_nonneg hl.1
    have e2 := mag_lt hl.1
    have e3 := mag_nonneg hm.1
    have e4 := mag_lt hm.1
    have hp := B_pow_pos n
    rw [h1] at e2
    rw [h2] at e4
    simp only [List.reverse_append, List.reverse_singleton, List.singleton_append, lexCmp, ih hl.1 hm.1 h1 h2,
      mag_append, mag_cons, mag_nil, h1, h2]
    by_cases hts : t = s
    · subst hts
      rw [if_neg (by simp [cmpInts])]
      simp [cmpInts]
    · rcases lt_or_gt_of_ne hts with hlt | hgt
      · have : cmpInts t s = -1 := by simp [cmpInts, hlt]
        rw [if_pos (by rw [this]; decide), this]
        have : mag l' + B ^ n * (t + 1000000000 * 0) < mag m' + B ^ n * (s + 1000000000 * 0) := by
          have : t + 1 ≤ s := hlt
          nlinarith
        simp only [cmpInts, this, if_true]
      · have h1 : ¬ t < s := by omega
        have : cmpInts t s = 1 := by simp [cmpInts, h1, hgt]
        rw [if_pos (by rw [this]; decide), this]
        have : mag m' + B ^ n * (s + 1000000000 * 0) < mag l' + B ^ n * (t + 1000000000 * 0) := by
          have : s + 1 ≤ t := hgt
          nlinarith
        simp only [cmpInts, this, if_true, not_lt.mpr this.le, if_false]

theorem cmpBinsGe_spec {l m : List Int} (hl : BinsOK l) (hm : BinsOK m) (h : l.length ≤ m.length) :
    cmpBinsGe l m = .ok (cmpInts (mag l) (mag m)) := by
  unfold cmpBinsGe
  obtain ⟨k, hk⟩ := Nat.exists_eq_add_of_le h
  have hoff : m.length - l.length = k := by omega
  obtain ⟨m1, m2, rfl, hm1⟩ : ∃ m1 m2, m = m1 ++ m2 ∧ m1.length = l.length :=
    ⟨m.take l.length, m.drop l.length, (List.take_append_drop _ _).symm, by simp; omega⟩
  have hm2 : m2.length = k := by simp at hk; omega
  rw [BinsOK_append] at hm
  simp only [hoff]
  have t1 : (m1 ++ m2).reverse.take k = m2.reverse := by
    rw [List.reverse_append, List.take_left' (by simp [hm2])]
  have t2 : (m1 ++ m2).reverse.drop k = m1.reverse := by
    rw [List.reverse_append, List.drop_left' (by simp [hm2])]
  rw [t1, t2, lexCmp_spec l.length hl hm.1 rfl hm1, mag_append, hm1]
  have p1 := mag_nonneg hm.1
  have p2 := mag_lt hl
  have p3 := mag_nonneg hm.2
  split
  · rename_i hany
    have : mag m2 ≠ 0 := by
      rw [ne_eq, mag_eq_zero_iff hm.2]
      simp only [List.any_reverse, List.any_eq_true, bne_iff_ne] at hany
      push Not; exact hany
    have : 1 ≤ mag m2 := by omega
    have : mag l < mag m1 + B ^ l.length * mag m2 := by nlinarith [B_pow_pos l.length]
    simp [cmpInts, this]
  · rename_i hany
    have : mag m2 = 0 := by
      rw [mag_eq_zero_iff hm.2]
      simpa using hany
    rw [this]; simp

theorem cmpBins_spec {a x : BigInt} (ha : BinsOK a.bins) (hx : BinsOK x.bins) :
    cmpBins a x = .ok (cmpInts (mag a.bins) (mag x.bins)) := by
  unfold cmpBins
  split
  · rw [cmpBinsGe_spec hx ha (by omega)]
    simp [cmpInts_neg]
  · rw [cmpBinsGe_spec ha hx (by omega)]

theorem equalsInt32_zero {a : BigInt} (h : WF a) :
    a.equalsInt32 0 = .ok (decide (mag a.bins = 0)) := by
  obtain ⟨hne, hb⟩ := h
  rcases eq_nil_or_snoc a.bins with h0 | ⟨l, t, hl⟩
  · exact absurd h0 hne
  have hm := mag_eq_zero_iff hb
  unfold equalsInt32
  rw [i32_ok (by decide) (by decide)]
  simp only [bind_ok, hl, List.getLast?_append, List.getLast?_singleton, Option.some_or]
  rw [hl] at hm
  rw [List.dropLast_concat]
  by_cases h1 : ∀ b ∈ l, b = 0
  · have : (l.any (· != 0)) = false := by simpa using h1
    rw [this]
    by_cases ht : t = 0
    · have : mag (l ++ [t]) = 0 := hm.mpr (by
        intro b hb; rw [List.mem_append, List.mem_singleton] at hb
        rcases hb with hb | hb; exacts [h1 b hb, hb.trans ht])
      subst ht; simp [this]
    · have : mag (l ++ [t]) ≠ 0 := fun h => ht (hm.mp h t (by simp))
      simp [this, ht]
  · have : (l.any (· != 0)) = true := by simpa using h1
    rw [this]
    have : mag (l ++ [t]) ≠ 0 := fun h => h1 (fun b hb => hm.mp h b (by simp [hb]))
    simp [this]

theorem cmpInts_lt {x y : Int} (h : x < y) : cmpInts x y = -1 := by simp [cmpInts, h]
theorem cmpInts_gt {x y : Int} (h : y < x) : cmpInts x y = 1 := by simp [cmpInts, h, not_lt.mpr h.le]
theorem cmpInts_self (x : Int) : cmpInts x x = 0 := by simp [cmpInts]

theorem cmp_spec {a x : BigInt} (ha : WF a) (hx : WF x) : cmp a x = .ok (cmpInts a.val x.val) := by
  unfold cmp
  rw [cmpBins_spec ha.2 hx.2, equalsInt32_zero ha]
  have h1 := mag_nonneg ha.2
  have h2 := mag_nonneg hx.2
  simp only [bind_ok]
  unfold val
  generalize mag a.bins = p at *
  generalize mag x.bins = q at *
  rcases lt_trichotomy p q with h | h | h
  · rw [cmpInts_lt h]
    cases a.negative <;> cases x.negative
    · simp [cmpInts_lt h]
    · simp [cmpInts_gt (show -q < p by omega)]
    · simp [cmpInts_lt (show -p < q by omega)]
    · simp [cmpInts_gt (show -q < -p by omega)]
  · subst h
    rw [cmpInts_self]
    by_cases hp : p = 0
    · subst hp; simp [cmpInts_self]
    · cases a.negative <;> cases x.negative
      · simp [cmpInts_self]
      · simp [cmpInts_gt (show -p < p by omega), hp]
      · simp [cmpInts_lt (show -p < p by omega), hp]
      · simp [cmpInts_self]
  · rw [cmpInts_gt h]
    cases a.negative <;> cases x.negative
    · simp [cmpInts_gt h]
    · simp [cmpInts_gt (show -q < p by omega)]
    · simp [cmpInts_lt (show -p < q by omega)]
    · simp [cmpInts_lt (show -p < -q by omega)]

theorem lt_spec {a x : BigInt} (ha : WF a) (hx : WF x) : lt a x = .ok (decide (a.val < x.val)) := by
  unfold lt; rw [cmp_spec ha hx]; simp [cmpInts]; split <;> (try split) <;> simp <;> omega
theorem gt_spec {a x : BigInt} (ha : WF a) (hx : WF x) : gt a x = .ok (decide (a.val > x.val)) := by
  unfold gt; rw [cmp_spec ha hx]; simp [cmpInts]; split <;> (try split) <;> simp <;> omega
theorem le_spec {a x : BigInt} (ha : WF a) (hx : WF x) : le a x = .ok (decide (a.val ≤ x.val)) := by
  unfold le; rw [cmp_spec ha hx]; simp [cmpInts]; split <;> (try split) <;> simp <;> omega
theorem ge_spec {a x : BigInt} (ha : WF a) (hx : WF x) : ge a x = .ok (decide (a.val ≥ x.val)) := by
  unfold ge; rw [cmp_spec ha hx]; simp [cmpInts]; split <;> (try split) <;> simp <;> omega
theorem ne_spec {a x : BigInt} (ha : WF a) (hx : WF x) : ne a x = .ok (decide (a.val ≠ x.val)) := by
  unfold ne; rw [cmp_spec ha hx]; simp [cmpInts]; split <;> (try split) <;> simp <;> omega
theorem eq_spec {a x : BigInt} (ha : WF a) (hx : WF x) : eq a x = .ok (decide (a.val = x.val)) := by
  unfold eq; rw [cmp_spec ha hx]; simp [cmpInts]; split <;> (try split) <;> simp <;> omega

/-! ### Negation -/

theorem negate_spec {a : BigInt} (h : WF a) :
    a.negate = .ok { a with negative := if mag a.bins = 0 then false else !a.negative } := by
  unfold negate; rw [equalsInt32_zero h]; simp

theorem neg_spec {a : BigInt} (h : WF a) :
    a.neg = .ok { a with negative := if mag a.bins = 0 then false else !a.negative } := negate_spec h

/-- All the facts one needs about a negated `Int`. -/
theorem negate_ok {a : BigInt} (h : WF a) : ∃ r, a.negate = .ok r ∧ WF r ∧ r.bins = a.bins ∧
    r.val = -a.val ∧ (r.negative = true → mag r.bins ≠ 0) ∧ (a.negative = true → r.negative = false) := by
  refine ⟨_, negate_spec h, h, rfl, ?_, ?_, ?_⟩
  · unfold val; dsimp only
    cases a.negative <;> by_cases h0 : mag a.bins = 0 <;> simp [h0]
  · dsimp only; split <;> simp_all
  · intro ha; simp [ha]

theorem neg_ok {a : BigInt} (h : WF a) : ∃ r, a.neg = .ok r ∧ WF r ∧ r.bins = a.bins ∧
    r.val = -a.val ∧ (r.negative = true → mag r.bins ≠ 0) ∧ (a.negative = true → r.negative = false) :=
  negate_ok h

theorem setValue_zero : setValue 0 = .ok ⟨[0], false⟩ := rfl
theorem ofInt64_zero (s : Nat) : ofInt64 0 s = .ok ⟨[0], false⟩ := rfl
theorem WF_zero : WF ⟨[0], false⟩ := by decide

theorem val_of_not_neg {a : BigInt} (h : a.negative = false) : a.val = mag a.bins := by simp [val, h]
theorem val_of_neg {a : BigInt} (h : a.negative = true) : a.val = -mag a.bins := by simp [val, h]

theorem abs_ok {a : BigInt} (h : WF a) : ∃ r, a.abs = .ok r ∧ WF r ∧ r.bins = a.bins ∧ r.val = mag a.bins := by
  unfold BigInt.abs
  rw [ofInt64_zero, bind_ok, lt_spec h WF_zero, bind_ok]
  have h0 : BigInt.val ⟨[0], false⟩ = 0 := rfl
  rw [h0]
  by_cases hv : a.val < 0
  · obtain ⟨r, hr, wr, hb, hrv, _⟩ := neg_ok h
    refine ⟨r, by simp [hv, hr], wr, hb, ?_⟩
    rw [hrv, ← abs_val h, abs_of_neg hv]
  · refine ⟨a, by simp [hv], h, rfl, ?_⟩
    rw [← abs_val h, abs_of_nonneg (not_lt.mp hv)]

/-! ### Addition of magnitudes -/

theorem max32_zero {z : Int} (h : 0 ≤ z) : max32 0 z = z := by unfold max32; split <;> omega

theorem addCarry_spec {l : List Int} {c : Int} (hl : BinsOK l) (hc : c = 0 ∨ c = 1) :
    ∃ r c', addCarry l c = .ok (r, c') ∧ BinsOK r ∧ r.length = l.length ∧ (c' = 0 ∨ c' = 1) ∧
      mag r + c' * B ^ l.length = mag l + c := by
  induction l generalizing c with
  | nil => exact ⟨[], c, rfl, by simp, rfl, hc, by simp⟩
  | cons b bs ih =>
    rw [BinsOK_cons] at hl
    by_cases h0 : c = 0
    · exact ⟨b :: bs, c, by simp [addCarry, h0], by simpa using hl, rfl, hc, by simp [h0]⟩
    · have hc1 : c = 1 := by omega
      subst hc1
      have e0 : (b + 1).tdiv 1000000000 = (b + 1) / 1000000000 := Int.tdiv_eq_ediv_of_nonneg (by omega)
      have e1 : (b + 1).tmod 1000000000 = (b + 1) % 1000000000 := Int.tmod_eq_emod_of_nonneg (by omega)
      obtain ⟨r, c', hr, hok, hlen, hc', hm⟩ := ih (c := (b + 1) / 1000000000) hl.2 (by omega)
      refine ⟨(b + 1) % 1000000000 :: r, c', ?_, ?_, by simp [hlen], hc', ?_⟩
      · simp only [addCarry, ne_eq, one_ne_zero, not_false_eq_true, if_true,
          i32_ok (z := b + 1) (by omega) (by omega), bind_ok, e0, e1,
          max32_zero (z := (b + 1) / 1000000000) (by omega), hr, pure_ok]
      · rw [BinsOK_cons]; exact ⟨by omega, hok⟩
      · simp only [mag_cons, List.length_cons, pow_succ]
        have : c' * (B ^ bs.length * B) = 1000000000 * (c' * B ^ bs.length) := by ring
        rw [this]; omega

theorem addLoop_spec {xs : List Int} : ∀ {l : List Int} {c : Int}, BinsOK l → BinsOK xs → xs.length ≤ l.length →
    (c = 0 ∨ c = 1) →
    ∃ r c', addLoop l xs c = .ok (r, c') ∧ BinsOK r ∧ r.length = l.length ∧ (c' = 0 ∨ c' = 1) ∧
      mag r + c' * B ^ l.length = mag l + mag xs + c := by
  induction xs with
  | nil =>
    intro l c hl _ _ hc
    obtain ⟨r, c', h1, h2, h3, h4, h5⟩ := addCarry_spec hl hc
    exact ⟨r, c', by cases l <;> exact h1, h2, h3, h4, by simpa using h5⟩
  | cons x xs ih =>
    intro l c hl hx hlen hc
    cases l with
    | nil => simp at hlen
    | cons b bs =>
      rw [BinsOK_cons] at hl hx
      have e0 : (b + x + c).tdiv 1000000000 = (b + x + c) / 1000000000 := Int.tdiv_eq_ediv_of_nonneg (by omega)
      have e1 : (b + x + c).tmod 1000000000 = (b + x + c) % 1000000000 := Int.tmod_eq_emod_of_nonneg (by omega)
      obtain ⟨r, c', hr, hok, hlen', hc', hm⟩ :=
        ih (c := (b + x + c) / 1000000000) hl.2 hx.2 (by simpa using hlen) (by omega)
      refine ⟨(b + x + c) % 1000000000 :: r, c', ?_, ?_, by simp [hlen'], hc', ?_⟩
      · simp only [addLoop, i32_ok (z := b + x) (by omega) (by omega), bind_ok,
          i32_ok (z := b + x + c) (by omega) (by omega), e0, e1,
          max32_zero (z := (b + x + c) / 1000000000) (by omega), hr, pure_ok]
      · rw [BinsOK_cons]; exact ⟨by omega, hok⟩
      · simp only [mag_cons, List.length_cons, pow_succ]
        have : c' * (B ^ bs.length * B) = 1000000000 * (c' * B ^ bs.length) := by ring
        rw [this]; omega

/-- `Int::add` adds magnitudes. -/
theorem add_ok {a x : BigInt} (ha : WF a) (hx : WF x) :
    ∃ r, add a x = .ok r ∧ WF r ∧ r.negative = a.negative ∧ mag r.bins = mag a.bins + mag x.bins ∧
      (r.bins.length = max a.bins.length x.bins.length ∨
        (r.bins.length = max a.bins.length x.bins.length + 1 ∧
          B ^ max a.bins.length x.bins.length ≤ mag r.bins)) := by
  set l := a.bins ++ List.replicate (x.bins.length - a.bins.length) 0 with hl
  have hlok : BinsOK l := by rw [hl]; simp [ha.2]
  have hml : mag l = mag a.bins := by rw [hl, mag_append]; simp
  have hlen : l.length = max a.bins.length x.bins.length := by rw [hl]; simp; omega
  obtain ⟨r, c, hr, hok, hrl, hc, hm⟩ := addLoop_spec (c := 0) hlok hx.2 (by omega) (.inl rfl)
  have hpos := ha.pos_length
  have hmr := mag_nonneg hok
  refine ⟨{ a with bins := if c ≠ 0 then r ++ [c] else r }, ?_, ?_, rfl, ?_, ?_⟩
  · simp only [add, ← hl, hr, bind_ok, pure_ok]
  · constructor
    · dsimp only; split
      · simp
      · exact List.ne_nil_of_length_pos (by omega)
    · dsimp only; split
      · simp only [BinsOK_append, BinsOK_cons, BinsOK_nil, and_true]; exact ⟨hok, by omega⟩
      · exact hok
  · dsimp only; split
    · rw [mag_append, hrl]; simp only [mag_cons, mag_nil]; rw [← hml]; linarith
    · rename_i h; have : c = 0 := by simpa using h
      rw [this] at hm; rw [← hml]; linarith
  · dsimp only; split
    · rename_i h
      have hc1 : c = 1 := by omega
      right
      rw [← hlen, mag_append, hrl, hc1]
      simp only [List.length_append, List.length_singleton, hrl, mag_cons, mag_nil]
      exact ⟨trivial, by linarith⟩
    · left; omega

theorem noLead_length_le {l : List Int} {k : Nat} (h : BinsOK l) (n : NoLead l) (hk : 1 ≤ k) (hm : mag l < B ^ k) :
    l.length ≤ k := by
  rw [noLead_iff h] at n
  rcases n with n | n
  · omega
  · by_contra hc
    have : (B ^ k : Int) ≤ B ^ (l.length - 1) := pow_le_pow_right₀ (by norm_num) (by omega)
    omega

/-- Sums of lists without leading zeros have none. -/
theorem add_noLead {la lx r : List Int} {ma mx : Int} (hok : BinsOK r) (ma0 : 0 ≤ ma) (mx0 : 0 ≤ mx)
    (na : la.length ≤ 1 ∨ B ^ (la.length - 1) ≤ ma) (nx : lx.length ≤ 1 ∨ B ^ (lx.length - 1) ≤ mx)
    (hm : mag r = ma + mx)
    (hlen : r.length = max la.length lx.length ∨
        (r.length = max la.length lx.length + 1 ∧ B ^ max la.length lx.length ≤ mag r)) : NoLead r := by
  rw [noLead_iff hok]
  rcases hlen with h | ⟨h, h2⟩
  · rcases Nat.lt_or_ge la.length lx.length with hlt | hge
    · rw [max_eq_right hlt.le] at h
      rcases nx with nx | nx
      · omega
      · right; rw [h, hm]; omega
    · rw [max_eq_left hge] at h
      rcases na with na | na
      · omega
      · right; rw [h, hm]; omega
  · right; rw [h]; simpa using h2

/-! ### Subtraction of magnitudes -/

theorem subBorrow_spec {l : List Int} {w : Int} (hl : BinsOK l) (hw : w = 0 ∨ w = 1) :
    ∃ r w', subBorrow l w = .ok r ∧ BinsOK r ∧ r.length = l.length ∧ (w' = 0 ∨ w' = 1) ∧
      mag r = mag l - w + w' * B ^ l.length := by
  induction l generalizing w with
  | nil => exact ⟨[], w, rfl, by simp, rfl, hw, by simp⟩
  | cons b bs ih =>
    rw [BinsOK_cons] at hl
    by_cases h0 : w = 0
    · exact ⟨b :: bs, 0, by simp [subBorrow, h0], by simpa using hl, rfl, .inl rfl, by simp [h0]⟩
    · have hw1 : w = 1 := by omega
      subst hw1
      by_cases hneg : b - 1 < 0
      · obtain ⟨r, w', hr, hok, hlen, hw', hm⟩ := ih (w := 1) hl.2 (.inr rfl)
        refine ⟨(b - 1 + 1000000000) :: r, w', ?_, ?_, by simp [hlen], hw', ?_⟩
        · simp only [subBorrow, ne_eq, one_ne_zero, not_false_eq_true, if_true, hneg,
            i32_ok (z := b - 1) (by omega) (by omega), bind_ok,
            i32_ok (z := b - 1 + 1000000000) (by omega) (by omega), hr, pure_ok]
        · rw [BinsOK_cons]; exact ⟨by omega, hok⟩
        · simp only [mag_cons, List.length_cons, pow_succ, hm]; ring
      · obtain ⟨r, w', hr, hok, hlen, hw', hm⟩ := ih (w := 0) hl.2 (.inl rfl)
        refine ⟨(b - 1) :: r, w', ?_, ?_, by simp [hlen], hw', ?_⟩
        · simp only [subBorrow, ne_eq, one_ne_zero, not_false_eq_true, if_true, hneg, if_false,
            i32_ok (z := b - 1) (by omega) (by omega), bind_ok, hr, pure_ok]
        · rw [BinsOK_cons]; exact ⟨by omega, hok⟩
        · simp only [mag_cons, List.length_cons, pow_succ, hm]; ring

theorem subLoop_spec {xs : List Int} : ∀ {l : List Int} {w : Int}, BinsOK l → BinsOK xs → xs.length ≤ l.length →
    (w = 0 ∨ w = 1) →
    ∃ r w', subLoop l xs w = .ok r ∧ BinsOK r ∧ r.length = l.length ∧ (w' = 0 ∨ w' = 1) ∧
      mag r = mag l - mag xs - w + w' * B ^ l.length := by
  induction xs with
  | nil =>
    intro l w hl _ _ hw
    obtain ⟨r, w', h1, h2, h3, h4, h5⟩ := subBorrow_spec hl hw
    exact ⟨r, w', by cases l <;> exact h1, h2, h3, h4, by simpa using h5⟩
  | cons x xs ih =>
    intro l w hl hx hlen hw
    cases l with
    | nil => simp at hlen
    | cons b bs =>
      rw [BinsOK_cons] at hl hx
      by_cases hneg : b - w - x < 0
      · obtain ⟨r, w', hr, hok, hlen', hw', hm⟩ := ih (w := 1) hl.2 hx.2 (by simpa using hlen) (.inr rfl)
        refine ⟨(b - w - x + 1000000000) :: r, w', ?_, ?_, by simp [hlen'], hw', ?_⟩
        · simp only [subLoop, i32_ok (z := b - w) (by omega) (by omega), bind_ok,
            i32_ok (z := b - w - x) (by omega) (by omega), hneg, if_true,
            i32_ok (z := b - w - x + 1000000000) (by omega) (by omega), hr, pure_ok]
        · rw [BinsOK_cons]; exact ⟨by omega, hok⟩
        · simp only [mag_cons, List.length_cons, pow_succ, hm]; ring
      · obtain ⟨r, w', hr, hok, hlen', hw', hm⟩ := ih (w := 0) hl.2 hx.2 (by simpa using hlen) (.inl rfl)
        refine ⟨(b - w - x) :: r, w', ?_, ?_, by simp [hlen'], hw', ?_⟩
        · simp only [subLoop, i32_ok (z := b - w) (by omega) (by omega), bind_ok,
            i32_ok (z := b - w - x) (by omega) (by omega), hneg, if_false, hr, pure_ok]
        · rw [BinsOK_cons]; exact ⟨by omega, hok⟩
        · simp only [mag_cons, List.length_cons, pow_succ, hm]; ring

theorem assertTop_ok {l : List Int} (h : NoLead l) : assertTop l = .ok () := by
  unfold assertTop
  split
  · rename_i hl
    have : l.getLast? ≠ some 0 := h.resolve_left (by omega)
    rw [show (l.getLast? != some 0) = true by simpa using this]; rfl
  · rfl

theorem assertTop_fail {l : List Int} (h : ¬NoLead l) : assertTop l = .error .assertion := by
  unfold NoLead at h
  push Not at h
  unfold assertTop
  rw [if_pos h.1, h.2]; rfl

/-- `Int::subtract` subtracts magnitudes, under its assertions. -/
theorem subtract_ok {a x : BigInt} (ha : WF a) (hx : WF x) (na : NoLead a.bins) (nx : NoLead x.bins)
    (hge : mag x.bins ≤ mag a.bins) :
    ∃ r, subtract a x = .ok r ∧ WF r ∧ r.negative = a.negative ∧ mag r.bins = mag a.bins - mag x.bins ∧
      NoLead r.bins := by
  obtain ⟨aa, haa, waa, _, vaa⟩ := abs_ok ha
  obtain ⟨ax, hax, wax, _, vax⟩ := abs_ok hx
  have hlen := length_le_of_mag_le hx.2 ha.2 nx ha.1 hge
  obtain ⟨r, w, hr, hok, hrl, hw, hm⟩ := subLoop_spec (w := 0) ha.2 hx.2 hlen (.inl rfl)
  have hpos := ha.pos_length
  have hw0 : w = 0 := by
    rcases hw with hw | hw
    · exact hw
    · have := mag_lt hok
      rw [hrl] at this
      subst hw
      omega
  refine ⟨{ a with bins := cleanBins r }, ?_, ?_, rfl, ?_, cleanBins_noLead r⟩
  · simp only [subtract, assertTop_ok na, assertTop_ok nx, bind_ok, haa, hax, ge_spec waa wax, vaa, vax]
    simp [hge, hr]
  · exact ⟨cleanBins_ne (List.ne_nil_of_length_pos (by omega)), cleanBins_ok hok⟩
  · simp [hm, hw0]

theorem subtract_fail {a x : BigInt} (h : ¬NoLead a.bins ∨ ¬NoLead x.bins) :
    subtract a x = .error .assertion := by
  unfold subtract
  by_cases na : NoLead a.bins
  · simp [assertTop_ok na, assertTop_fail (h.resolve_left (not_not.mpr na))]
  · simp [assertTop_fail na]

end BigInt
end CppMaths
