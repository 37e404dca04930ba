import Verif.Proofs.IntMore
import Verif.Spec.Text
/-!
# Printing and reading `Int`s
-/

namespace CppMaths.BigInt

theorem mem_takeWhile_imp {α : Type} {q : α → Bool} {l : List α} {x : α} (h : x ∈ l.takeWhile q) : q x = true := by
  induction l with
  | nil => simp at h
  | cons a l ih =>
    by_cases ha : q a = true
    · rw [List.takeWhile_cons_of_pos ha] at h
      rcases List.mem_cons.mp h with rfl | h
      · exact ha
      · exact ih h
    · rw [List.takeWhile_cons_of_neg ha] at h; simp at h

theorem takeWhile_all {α : Type} {q : α → Bool} {l : List α} (h : ∀ x ∈ l, q x = true) : l.takeWhile q = l := by
  have := List.takeWhile_append_of_pos (p := q) (l₁ := l) (l₂ := []) h
  simpa using this

/-! ### Padded digits -/

/-- The last `k` decimal digits of `b`. -/
def pad : Nat → Nat → List Char
  | 0, _ => []
  | k + 1, b => pad k (b / 10) ++ [Nat.digitChar (b % 10)]

theorem pad_zero (k : Nat) : pad k 0 = List.replicate k '0' := by
  induction k with
  | zero => rfl
  | succ k ih => rw [pad, Nat.zero_div, ih, List.replicate_succ']; rfl

theorem pad_eq (k : Nat) : ∀ {b : Nat}, b < 10 ^ (k + 1) →
    pad (k + 1) b = List.replicate (k + 1 - (Nat.toDigits 10 b).length) '0' ++ Nat.toDigits 10 b := by
  induction k with
  | zero =>
    intro b hb
    have hb : b < 10 := by simpa using hb
    rw [Nat.toDigits_of_lt_base hb]
    simp [pad, Nat.mod_eq_of_lt hb]
  | succ k ih =>
    intro b hb
    rw [pad]
    by_cases h : b < 10
    · rw [Nat.toDigits_of_lt_base h, Nat.div_eq_of_lt h, Nat.mod_eq_of_lt h, pad_zero]
      simp
    · rw [ih (b := b / 10) (by rw [Nat.div_lt_iff_lt_mul (by norm_num)]; rw [pow_succ] at hb; exact hb),
        Nat.toDigits_of_base_le (b := 10) (n := b) (by norm_num) (by omega)]
      simp

theorem toDigits_pad (k : Nat) : ∀ {a b : Nat}, 0 < a → b < 10 ^ k →
    Nat.toDigits 10 (a * 10 ^ k + b) = Nat.toDigits 10 a ++ pad k b := by
  induction k with
  | zero => intro a b _ hb; have : b = 0 := by simpa using hb
            subst this; simp [pad]
  | succ k ih =>
    intro a b ha hb
    have hq : b / 10 < 10 ^ k := by rw [Nat.div_lt_iff_lt_mul (by norm_num)]; rwa [pow_succ] at hb
    rw [pad, ← List.append_assoc, ← ih ha hq, ← Nat.toDigits_of_lt_base (b := 10) (Nat.mod_lt b (by norm_num)),
      Nat.toDigits_append_toDigits (by norm_num) (by positivity) (Nat.mod_lt b (by norm_num))]
    congr 1
    have := Nat.div_add_mod b 10
    rw [pow_succ]
    nlinarith

theorem showI32_nonneg {z : Int} (h : 0 ≤ z) : showI32 z = Nat.toDigits 10 z.toNat := by
  simp [showI32, not_lt.mpr h]

theorem showPadded_eq {z : Int} (h0 : 0 ≤ z) (h1 : z < 1000000000) : showPadded z = pad 9 z.toNat := by
  unfold showPadded
  rw [showI32_nonneg h0, pad_eq 8 (by norm_num; omega)]

theorem showBins {l : List Int} : ∀ {n : Int}, BinsOK l → 0 < n →
    Nat.toDigits 10 n.toNat ++ (l.map showPadded).flatten = Nat.toDigits 10 (B ^ l.length * n + mag l.reverse).toNat := by
  induction l with
  | nil => intro n _ _; simp
  | cons b bs ih =>
    intro n hok hn
    rw [BinsOK_cons] at hok
    rw [List.map_cons, List.flatten_cons, ← List.append_assoc, showPadded_eq hok.1.1 hok.1.2,
      ← toDigits_pad 9 (by omega) (by norm_num; omega)]
    have e : n.toNat * 10 ^ 9 + b.toNat = (1000000000 * n + b).toNat := by norm_num; omega
    rw [e, ih hok.2 (by omega)]
    congr 2
    rw [List.reverse_cons, mag_append, List.length_reverse, List.length_cons, pow_succ]
    simp only [mag_cons, mag_nil]
    ring

/-- What `print` writes, for all well-formed objects. -/
theorem print_spec {a : BigInt} (h : WF a) :
    print a = (if a.negative then ['-'] else []) ++ Nat.toDigits 10 (mag a.bins).toNat := by
  unfold print
  congr 1
  have hsplit := List.takeWhile_append_dropWhile (p := (· == (0 : Int))) (l := a.bins.reverse)
  have hz : ∀ b ∈ a.bins.reverse.takeWhile (· == (0 : Int)), b = 0 := fun b hb => by
    simpa using mem_takeWhile_imp hb
  have hok : BinsOK a.bins.reverse := BinsOK_reverse.mpr h.2
  have hrep := List.eq_replicate_of_mem hz
  cases hd : a.bins.reverse.dropWhile (· == (0 : Int)) with
  | nil =>
    rw [hd, List.append_nil] at hsplit
    have : a.bins = List.replicate a.bins.length 0 := by
      rw [hsplit] at hrep
      rw [← List.reverse_inj, hrep]; simp
    dsimp only
    rw [this, mag_replicate_zero]; rfl
  | cons t r =>
    dsimp only
    rw [hd] at hsplit
    have ht0 : t ≠ 0 := by
      have := List.head?_dropWhile_not (p := (· == (0 : Int))) (l := a.bins.reverse)
      rw [hd] at this; simpa using this
    have hall : BinsOK (t :: r) := by
      rw [← hsplit, BinsOK_append] at hok; exact hok.2
    have hmag : mag a.bins = B ^ r.length * t + mag r.reverse := by
      have : a.bins = (t :: r).reverse ++ (a.bins.reverse.takeWhile (· == (0 : Int))).reverse := by
        rw [← List.reverse_append, hsplit, List.reverse_reverse]
      rw [this, hrep]
      simp only [List.reverse_cons, List.reverse_replicate, mag_append, mag_replicate_zero, List.length_reverse, mag_cons, mag_nil]
      ring
    rw [BinsOK_cons] at hall
    rw [showI32_nonneg hall.1.1, showBins hall.2 (by omega), ← hmag]

/-! ### Reading digits -/

theorem isDigit_eq (c : Char) : isDigit (some c) = c.isDigit := by
  simp only [isDigit, Char.isDigit, Char.le_def]

theorem readDigits_eq (cs : List Char) : readDigits cs = Nat.ofDigitChars 10 cs 0 := rfl

theorem digit_lt {c : Char} (h : c.isDigit = true) : c.toNat - '0'.toNat < 10 := by
  simp only [Char.isDigit, Bool.and_eq_true, decide_eq_true_eq, ge_iff_le, UInt32.le_iff_toNat_le] at h
  have h2 := h.2
  simp only [Char.toNat]
  have e1 : UInt32.toNat '9'.val = 57 := rfl
  have e2 : UInt32.toNat '0'.val = 48 := rfl
  rw [e1] at h2
  show c.val.toNat - 48 < 10
  omega

theorem digit_pos {c : Char} (h : c.isDigit = true) (h0 : c ≠ '0') : 0 < c.toNat - '0'.toNat := by
  simp only [Char.isDigit, Bool.and_eq_true, decide_eq_true_eq, ge_iff_le, UInt32.le_iff_toNat_le] at h
  have h1 := h.1
  have e2 : UInt32.toNat '0'.val = 48 := rfl
  rw [e2] at h1
  show 0 < c.val.toNat - 48
  have : c.val.toNat ≠ 48 := by
    intro hc
    apply h0
    apply Char.ext
    apply UInt32.toNat_inj.mp
    rw [hc]; rfl
  omega

theorem ofDigitChars_lt {ds : List Char} (h : ∀ c ∈ ds, c.isDigit = true) :
    Nat.ofDigitChars 10 ds 0 < 10 ^ ds.length := by
  induction ds with
  | nil => simp
  | cons c cs ih =>
    have hc := digit_lt (h c (by simp))
    have := ih (fun d hd => h d (by simp [hd]))
    rw [Nat.ofDigitChars_cons, Nat.ofDigitChars_eq_ofDigitChars_zero, List.length_cons, pow_succ]
    generalize c.toNat - '0'.toNat = d at *
    have : 10 ^ cs.length * d ≤ 10 ^ cs.length * 9 := Nat.mul_le_mul_left _ (by omega)
    simp only [mul_zero, zero_add]
    omega

theorem parseInt_ok {ss : List Char} {k : Nat} (h : ∀ c ∈ ss, c.isDigit = true) (hk : 0 < k) (hk9 : k ≤ 9) (hl : k ≤ ss.length) :
    parseInt ss k = .ok ((Nat.ofDigitChars 10 (ss.take k) 0 : Int), ss.drop k) := by
  have htk : ∀ c ∈ ss.take k, c.isDigit = true := fun c hc => h c (List.mem_of_mem_take hc)
  have htw : (ss.take k).takeWhile (fun c => isDigit (some c)) = ss.take k := by
    apply takeWhile_all
    intro c hc; rw [isDigit_eq]; exact htk c hc
  have hlen : (ss.take k).length = k := by rw [List.length_take]; omega
  have hlt := ofDigitChars_lt htk
  have hp : (10 : Nat) ^ k ≤ 10 ^ 9 := Nat.pow_le_pow_right (by norm_num) hk9
  rw [hlen] at hlt
  unfold parseInt
  rw [htw]
  dsimp only
  have hne : (ss.take k).isEmpty = false := by
    rw [List.isEmpty_eq_false_iff]; exact List.ne_nil_of_length_pos (by omega)
  rw [readDigits_eq, hne, hlen]
  norm_num at hp
  simp only [Bool.false_eq_true, if_false]
  rw [if_neg (by omega)]

theorem readBins_ok (n : Nat) : ∀ {ss : List Char} {bins : List Int}, (∀ c ∈ ss, c.isDigit = true) → ss.length = 9 * n →
    BinsOK bins → ∃ r, readBins n ss bins = .ok (r ++ bins) ∧ BinsOK r ∧ r.length = n ∧
      mag r = Nat.ofDigitChars 10 ss 0 := by
  induction n with
  | zero =>
    intro ss bins _ hl _
    have : ss = [] := List.eq_nil_of_length_eq_zero (by omega)
    subst this
    exact ⟨[], rfl, by simp, rfl, by simp⟩
  | succ n ih =>
    intro ss bins hd hl hb
    have hlt := ofDigitChars_lt (ds := ss.take 9) (fun c hc => hd c (List.mem_of_mem_take hc))
    have hlen : (ss.take 9).length = 9 := by rw [List.length_take]; omega
    rw [hlen] at hlt
    norm_num at hlt
    obtain ⟨r, r1, r2, r3, r4⟩ := ih (ss := ss.drop 9) (bins := (Nat.ofDigitChars 10 (ss.take 9) 0 : Int) :: bins)
      (fun c hc => hd c (List.mem_of_mem_drop hc)) (by rw [List.length_drop]; omega)
      (by rw [BinsOK_cons]; exact ⟨⟨by omega, by omega⟩, hb⟩)
    refine ⟨r ++ [(Nat.ofDigitChars 10 (ss.take 9) 0 : Int)], ?_, ?_, by simp [r3], ?_⟩
    · unfold readBins
      rw [parseInt_ok (k := 9) hd (by norm_num) (by norm_num) (by omega)]
      simp only [bind_ok, r1]
      simp
    · simp only [BinsOK_append, BinsOK_cons, BinsOK_nil, and_true]
      exact ⟨r2, by omega, by omega⟩
    · rw [mag_append, r4, r3]
      simp only [mag_cons, mag_nil, mul_zero, add_zero]
      conv_rhs => rw [← List.take_append_drop 9 ss, Nat.ofDigitChars_append, Nat.ofDigitChars_eq_ofDigitChars_zero]
      rw [List.length_drop, show ss.length - 9 = 9 * n by omega, pow_mul]
      push_cast
      norm_num
      ring

/-- The value part of `read` on a nonempty string of digits without a leading zero. -/
def digitBins (digits : List Char) : Res (List Int) :=
  if digits.length % BIN_WIDTH > 0 then do
    let (v, ss) ← parseInt digits (digits.length % BIN_WIDTH)
    readBins (digits.length / BIN_WIDTH) ss [v]
  else readBins (digits.length / BIN_WIDTH) digits []

theorem ofDigitChars_ge {c : Char} {cs : List Char} (hc : c.isDigit = true) (h0 : c ≠ '0') :
    10 ^ cs.length ≤ Nat.ofDigitChars 10 (c :: cs) 0 := by
  have := digit_pos hc h0
  rw [Nat.ofDigitChars_cons, Nat.ofDigitChars_eq_ofDigitChars_zero]
  generalize c.toNat - '0'.toNat = d at *
  have : 10 ^ cs.length * 1 ≤ 10 ^ cs.length * d := Nat.mul_le_mul_left _ (by omega)
  simp only [mul_zero, zero_add]
  omega

theorem digitBins_ok {c : Char} {cs : List Char} (hd : ∀ d ∈ c :: cs, d.isDigit = true) (h0 : c ≠ '0') :
    ∃ r, digitBins (c :: cs) = .ok r ∧ r ≠ [] ∧ BinsOK r ∧ NoLead r ∧ mag r = Nat.ofDigitChars 10 (c :: cs) 0 := by
  have hge := ofDigitChars_ge (cs := cs) (hd c (by simp)) h0
  obtain ⟨ds, hds⟩ : ∃ ds, ds = c :: cs := ⟨_, rfl⟩
  have hlen : ds.length = cs.length + 1 := by rw [hds]; simp
  rw [← hds] at hd hge ⊢
  -- the number of bins is ⌈length / 9⌉
  have fin : ∀ r : List Int, BinsOK r → r ≠ [] → 9 * (r.length - 1) ≤ cs.length → mag r = Nat.ofDigitChars 10 ds 0 → NoLead r := by
    intro r hr hrne hrl hm
    rw [noLead_iff hr]
    right
    rw [hm]
    have h1 : (10 : Int) ^ (9 * (r.length - 1)) ≤ 10 ^ cs.length := pow_le_pow_right₀ (by norm_num) hrl
    rw [pow_mul] at h1
    norm_num at h1
    have h2 : ((10 ^ cs.length : Nat) : Int) ≤ (Nat.ofDigitChars 10 ds 0 : Int) := by exact_mod_cast hge
    push_cast at h2
    omega
  unfold digitBins
  by_cases hk : ds.length % 9 > 0
  · rw [if_pos hk, parseInt_ok (k := ds.length % 9) hd (by omega) (by omega) (Nat.mod_le _ _)]
    simp only [bind_ok]
    have hlt := ofDigitChars_lt (ds := ds.take (ds.length % 9)) (fun c hc => hd c (List.mem_of_mem_take hc))
    have hlen2 : (ds.take (ds.length % 9)).length = ds.length % 9 := by rw [List.length_take]; have := Nat.mod_le ds.length 9; omega
    have hp : (10 : Nat) ^ (ds.length % 9) ≤ 10 ^ 9 := Nat.pow_le_pow_right (by norm_num) (by omega)
    rw [hlen2] at hlt
    norm_num at hp
    have hvok : BinsOK [(Nat.ofDigitChars 10 (ds.take (ds.length % 9)) 0 : Int)] := by
      simp only [BinsOK_cons, BinsOK_nil, and_true]; omega
    obtain ⟨r, r1, r2, r3, r4⟩ := readBins_ok (ds.length / 9) (ss := ds.drop (ds.length % 9))
      (bins := [(Nat.ofDigitChars 10 (ds.take (ds.length % 9)) 0 : Int)])
      (fun c hc => hd c (List.mem_of_mem_drop hc)) (by rw [List.length_drop]; omega) hvok
    have hok2 : BinsOK (r ++ [(Nat.ofDigitChars 10 (ds.take (ds.length % 9)) 0 : Int)]) := by
      rw [BinsOK_append]; exact ⟨r2, hvok⟩
    have hm : mag (r ++ [(Nat.ofDigitChars 10 (ds.take (ds.length % 9)) 0 : Int)]) = Nat.ofDigitChars 10 ds 0 := by
      rw [mag_append, r4, r3]
      simp only [mag_cons, mag_nil, mul_zero, add_zero]
      conv_rhs => rw [← List.take_append_drop (ds.length % 9) ds, Nat.ofDigitChars_append, Nat.ofDigitChars_eq_ofDigitChars_zero]
      rw [List.length_drop, show ds.length - ds.length % 9 = 9 * (ds.length / 9) by omega, pow_mul]
      push_cast
      norm_num
      ring
    exact ⟨_, r1, by simp, hok2, fin _ hok2 (by simp) (by simp [r3]; omega) hm, hm⟩
  · rw [if_neg hk]
    obtain ⟨r, r1, r2, r3, r4⟩ := readBins_ok (ds.length / 9) (ss := ds) (bins := []) hd (by omega) (by simp)
    rw [List.append_nil] at r1
    have hrne : r ≠ [] := List.ne_nil_of_length_pos (by omega)
    exact ⟨r, r1, hrne, r2, fin r r2 hrne (by omega) r4, r4⟩

/-! ### The stream loops -/

/-- A stream in a good state with the given past and future. -/
def goodAt (past rest : List Char) : IStream := ⟨past, rest, false, false, false⟩

@[simp] theorem goodAt_good (p r : List Char) : (goodAt p r).good = true := rfl
@[simp] theorem goodAt_past (p r : List Char) : (goodAt p r).past = p := rfl
@[simp] theorem goodAt_rest (p r : List Char) : (goodAt p r).rest = r := rfl
theorem peek_cons (p r : List Char) (c : Char) : (goodAt p (c :: r)).peek = (some c, goodAt p (c :: r)) := rfl
theorem peek_nil (p : List Char) : (goodAt p []).peek = (none, ⟨p, [], true, false, false⟩) := rfl
theorem get_cons (p r : List Char) (c : Char) : (goodAt p (c :: r)).get = (some c, goodAt (c :: p) r) := rfl
theorem peek_eof (p r : List Char) : IStream.peek ⟨p, r, true, false, false⟩ = (none, ⟨p, r, true, true, false⟩) := rfl

theorem IStream_eq_goodAt {s : IStream} (h : s.good = true) : s = goodAt s.past s.rest := by
  cases s with
  | mk p r e f b => cases e <;> cases f <;> cases b <;> simp_all [IStream.good, goodAt]

/-- State after the `while (peek() == '0')` loop. -/
theorem skipZeros_ok (r : List Char) : ∀ (f : Nat) (p : List Char), r.length < f →
    skipZeros f (goodAt p r) = ⟨(r.takeWhile (· == '0')).reverse ++ p, r.dropWhile (· == '0'),
      (r.dropWhile (· == '0')).isEmpty, false, false⟩ := by
  induction r with
  | nil =>
    intro f p hf
    cases f with
    | zero => simp at hf
    | succ f => rfl
  | cons c r ih =>
    intro f p hf
    cases f with
    | zero => simp at hf
    | succ f =>
      unfold skipZeros
      rw [peek_cons]
      by_cases hc : c = '0'
      · subst hc
        simp only [get_cons]
        rw [if_pos (by simp), ih f _ (by simpa using hf)]
        simp
      · have hc' : (some c == some '0') = false := by simp [hc]
        simp only [hc', Bool.false_eq_true, if_false]
        have h2 : (c == '0') = false := by simp [hc]
        rw [List.takeWhile_cons_of_neg (by simp [h2]), List.dropWhile_cons_of_neg (by simp [h2])]
        rfl

theorem takeDigits_ok (r : List Char) : ∀ (f : Nat) (p acc : List Char), r.length < f →
    takeDigits f (goodAt p r) acc = (acc ++ r.takeWhile Char.isDigit, ⟨(r.takeWhile Char.isDigit).reverse ++ p,
      r.dropWhile Char.isDigit, (r.dropWhile Char.isDigit).isEmpty, false, false⟩) := by
  induction r with
  | nil =>
    intro f p acc hf
    cases f with
    | zero => simp at hf
    | succ f => simp [takeDigits, peek_nil, isDigit]
  | cons c r ih =>
    intro f p acc hf
    cases f with
    | zero => simp at hf
    | succ f =>
      unfold takeDigits
      rw [peek_cons]
      by_cases hc : c.isDigit = true
      · simp only [isDigit_eq, hc, if_true, get_cons]
        rw [ih f _ _ (by simpa using hf)]
        simp [hc]
      · have hc' : c.isDigit = false := by simpa using hc
        simp only [isDigit_eq, hc', Bool.false_eq_true, if_false]
        simp [hc', goodAt]

/-- `dropWhile` of zeros keeps the denoted number. -/
theorem ofDigitChars_dropZeros (ds : List Char) :
    Nat.ofDigitChars 10 (ds.dropWhile (· == '0')) 0 = Nat.ofDigitChars 10 ds 0 := by
  induction ds with
  | nil => rfl
  | cons c cs ih =>
    by_cases hc : c = '0'
    · subst hc
      rw [List.dropWhile_cons_of_pos (by simp), ih, Nat.ofDigitChars_cons]
      rfl
    · rw [List.dropWhile_cons_of_neg (by simp [hc])]

/-- The part of `read` after the sign. -/
def readBody (sign : Bool) (s : IStream) : Res (IStream × BigInt) :=
  let s := skipZeros (s.rest.length + 1) s
  let (digits, s) := takeDigits (s.rest.length + 1) s []
  if digits.length == 0 then do
    let z ← setValue 0
    return (s.clearFail, z)
  else do
    let bins ← digitBins digits
    return (s, ⟨bins, sign⟩)

theorem read_eq (s : IStream) (a : BigInt) : read s a =
    if s.good then
      match readSign s with
      | (none, s) => .ok (s, a)
      | (some sign, s) => readBody sign s
    else .ok (s.setFail, a) := by
  unfold read IStream.sentry
  by_cases hg : s.good = true
  · simp only [hg, if_true, Bool.not_true, Bool.false_eq_true, if_false]
    rcases h : readSign s with ⟨o, s'⟩
    cases o with
    | none => rfl
    | some sign =>
      simp only [readBody, digitBins]
      split
      · rfl
      · by_cases hk : (takeDigits ((skipZeros (s'.rest.length + 1) s').rest.length + 1) (skipZeros (s'.rest.length + 1) s') []).1.length % BIN_WIDTH > 0
        · simp only [hk, if_true, bind_assoc]
        · simp only [hk, if_false]
  · simp [hg]

/-- Reading a nonempty block of digits that is followed by a non-digit. -/
theorem readBody_ok (sign : Bool) {p ds rest : List Char} (hd : AllDigits ds) (hr : NoDigitAhead rest) :
    ∃ r, readBody sign (goodAt p (ds ++ rest)) = .ok (⟨ds.reverse ++ p, rest, rest.isEmpty, false, false⟩, r) ∧ Canon r ∧
      r.val = if sign then -(Nat.ofDigitChars 10 ds 0 : Int) else Nat.ofDigitChars 10 ds 0 := by
  -- split off the leading zeros
  have hsplit := List.takeWhile_append_dropWhile (p := (· == '0')) (l := ds)
  have hval := ofDigitChars_dropZeros ds
  have hz0 : ∀ c ∈ ds.takeWhile (· == '0'), c = '0' := fun c hc => by simpa using mem_takeWhile_imp hc
  generalize hzs : ds.takeWhile (· == '0') = zs at *
  generalize hes : ds.dropWhile (· == '0') = es at *
  have hesd : ∀ c ∈ es, c.isDigit = true := fun c hc => hd.2 c (by rw [← hsplit]; simp [hc])
  have hes0 : ∀ c r, es = c :: r → c ≠ '0' := by
    intro c r h
    have := List.head?_dropWhile_not (p := (· == '0')) (l := ds)
    rw [hes, h] at this; simpa using this
  have hrest0 : ∀ c r, rest = c :: r → c ≠ '0' := by
    rintro c r h rfl
    have := hr _ _ h
    simp at this
  have hfull : ∀ q : List Char, (∀ c r, q = c :: r → c ≠ '0') → (zs ++ q).takeWhile (· == '0') = zs ∧ (zs ++ q).dropWhile (· == '0') = q := by
    intro q hq
    have h1 : q.takeWhile (· == '0') = [] := by
      cases q with
      | nil => rfl
      | cons c r => simp [hq c r rfl]
    have h2 : q.dropWhile (· == '0') = q := by
      cases q with
      | nil => rfl
      | cons c r => simp [hq c r rfl]
    rw [List.takeWhile_append_of_pos (fun c hc => by simp [hz0 c hc]), List.dropWhile_append_of_pos (fun c hc => by simp [hz0 c hc]), h1, h2]
    simp
  have hqs : ∀ c r, es ++ rest = c :: r → c ≠ '0' := by
    intro c r h
    cases es with
    | nil => exact hrest0 c r (by simpa using h)
    | cons e es' =>
      simp only [List.cons_append, List.cons.injEq] at h
      exact h.1 ▸ hes0 e es' rfl
  have hdsr : ds ++ rest = zs ++ (es ++ rest) := by rw [← hsplit]; simp
  obtain ⟨f1, f2⟩ := hfull (es ++ rest) hqs
  unfold readBody
  rw [goodAt_rest, hdsr, skipZeros_ok _ _ _ (Nat.lt_succ_self _), f1, f2]
  dsimp only
  cases hes' : es with
  | nil =>
    subst hes'
    rw [← hval]
    rw [List.append_nil] at hsplit
    refine ⟨⟨[0], false⟩, ?_, canon_zero, by cases sign <;> simp [val]⟩
    cases hrest : rest with
    | nil => subst hrest hsplit; rfl
    | cons c r =>
      have hc := hr c r hrest
      have e : (⟨zs.reverse ++ p, [] ++ c :: r, ([] ++ c :: r).isEmpty, false, false⟩ : IStream) = goodAt (zs.reverse ++ p) (c :: r) := rfl
      have hT := takeDigits_ok (c :: r) (([] ++ c :: r).length + 1) (zs.reverse ++ p) [] (by simp)
      simp only [e, hT]
      simp [hc, setValue_zero, IStream.clearFail, hsplit]
  | cons e es' =>
    have hne : e ≠ '0' := hes0 e es' hes'
    have e1 : (⟨zs.reverse ++ p, (e :: es') ++ rest, ((e :: es') ++ rest).isEmpty, false, false⟩ : IStream) =
        goodAt (zs.reverse ++ p) (e :: es' ++ rest) := rfl
    rw [hes'] at hesd
    have hrt : rest.takeWhile Char.isDigit = [] := by
      cases hrest : rest with
      | nil => rfl
      | cons c r => simp [hr c r hrest]
    have hrd : rest.dropWhile Char.isDigit = rest := by
      cases hrest : rest with
      | nil => rfl
      | cons c r => simp [hr c r hrest]
    have t1 : (e :: es' ++ rest).takeWhile Char.isDigit = e :: es' := by
      rw [List.takeWhile_append_of_pos hesd, hrt, List.append_nil]
    have t2 : (e :: es' ++ rest).dropWhile Char.isDigit = rest := by
      rw [List.dropWhile_append_of_pos hesd, hrd]
    obtain ⟨r, r1, r2, r3, r4, r5⟩ := digitBins_ok hesd hne
    have hpos : 0 < Nat.ofDigitChars 10 (e :: es') 0 :=
      lt_of_lt_of_le (by positivity) (ofDigitChars_ge (cs := es') (hesd e (by simp)) hne)
    have hT := takeDigits_ok (e :: es' ++ rest) ((e :: es' ++ rest).length + 1) (zs.reverse ++ p) [] (Nat.lt_succ_self _)
    rw [t1, t2] at hT
    simp only [e1, hT]
    refine ⟨⟨r, sign⟩, ?_, ⟨⟨r2, r3⟩, r4, fun _ => by dsimp only; rw [r5]; exact_mod_cast hpos.ne'⟩, ?_⟩
    · simp only [List.nil_append, List.length_cons, r1, bind_ok, pure_ok]
      rw [if_neg (by simp)]
      have : ds.reverse = (e :: es').reverse ++ zs.reverse := by rw [← hsplit, hes']; simp
      rw [this]; simp
    · rw [hes'] at hval
      simp only [val, r5, hval]

theorem allDigits_cons {ds : List Char} (h : AllDigits ds) : ∃ c cs, ds = c :: cs ∧ c.isDigit = true ∧ c ≠ '-' := by
  cases ds with
  | nil => exact absurd rfl h.1
  | cons c cs =>
    refine ⟨c, cs, rfl, h.2 c (by simp), ?_⟩
    rintro rfl
    have := h.2 '-' (by simp)
    simp at this

theorem read_ok (a : BigInt) {p pre rest : List Char} {z : Int} (h : IntText pre z) (hr : NoDigitAhead rest) :
    ∃ r, read (goodAt p (pre ++ rest)) a = .ok (⟨pre.reverse ++ p, rest, rest.isEmpty, false, false⟩, r) ∧ Canon r ∧ r.val = z := by
  obtain ⟨ds, hd, ⟨rfl, rfl⟩ | ⟨rfl, rfl⟩⟩ := h
  · obtain ⟨c, cs, hc1, hc2, hc3⟩ := allDigits_cons hd
    obtain ⟨r, r1, r2, r3⟩ := readBody_ok false (p := p) hd hr
    refine ⟨r, ?_, r2, by simpa using r3⟩
    rw [read_eq, goodAt_good, if_pos rfl]
    have hs : readSign (goodAt p (pre ++ rest)) = (some false, goodAt p (pre ++ rest)) := by
      rw [hc1, List.cons_append]
      unfold readSign
      simp only [peek_cons, isDigit_eq, hc2, if_true]
      rw [if_neg (by simp [hc3])]
    rw [hs]; exact r1
  · obtain ⟨c, cs, hc1, hc2, hc3⟩ := allDigits_cons hd
    obtain ⟨r, r1, r2, r3⟩ := readBody_ok true (p := '-' :: p) hd hr
    refine ⟨r, ?_, r2, by simpa using r3⟩
    rw [read_eq, goodAt_good, if_pos rfl]
    have hs : readSign (goodAt p ('-' :: ds ++ rest)) = (some true, goodAt ('-' :: p) (ds ++ rest)) := by
      rw [hc1, List.cons_append, List.cons_append]
      unfold readSign
      simp only [peek_cons, get_cons, isDigit_eq, hc2, if_true]
      rw [if_pos (by simp)]
    rw [hs]
    simp only [List.reverse_cons, List.append_assoc, List.singleton_append]
    exact r1

/-- If no prefix is an integer numeral, reading fails and changes nothing but the state bits. -/
theorem read_fail (a : BigInt) {p r : List Char} (h : ∀ pre rest z, r = pre ++ rest → ¬IntText pre z) :
    ∃ e, read (goodAt p r) a = .ok (⟨p, r, e, true, false⟩, a) ∧ (e = true ↔ r = []) := by
  have one : ∀ {c : Char}, c.isDigit = true → AllDigits [c] := fun {c} hc => ⟨by simp, by simpa using hc⟩
  rw [read_eq, goodAt_good, if_pos rfl]
  cases r with
  | nil => exact ⟨true, rfl, by simp⟩
  | cons c r =>
    refine ⟨false, ?_, by simp⟩
    have hc : c.isDigit = false := by
      by_contra hc
      exact h [c] r _ rfl ⟨[c], one (by simpa using hc), .inl ⟨rfl, rfl⟩⟩
    unfold readSign
    by_cases hm : c = '-'
    · subst hm
      simp only [peek_cons, get_cons, beq_self_eq_true, if_true]
      cases r with
      | nil => rfl
      | cons d r =>
        have hdd : d.isDigit = false := by
          by_contra hdd
          exact h ['-', d] r _ rfl ⟨[d], one (by simpa using hdd), .inr ⟨rfl, rfl⟩⟩
        simp only [peek_cons, isDigit_eq, hdd, Bool.false_eq_true, if_false]
        rfl
    · have : (some c == some '-') = false := by simp [hm]
      simp only [peek_cons, this, Bool.false_eq_true, if_false, isDigit_eq, hc]
      rfl

/-- A text some prefix of which is a numeral splits into a maximal numeral and a rest. -/
theorem exists_longest {r pre rest : List Char} {z : Int} (h : IntText pre z) (hr : r = pre ++ rest) :
    ∃ pre' rest' z', r = pre' ++ rest' ∧ IntText pre' z' ∧ NoDigitAhead rest' := by
  have key : ∀ ds rest : List Char, AllDigits ds → ∃ ds' rest', ds ++ rest = ds' ++ rest' ∧ AllDigits ds' ∧ NoDigitAhead rest' := by
    intro ds rest hd
    refine ⟨(ds ++ rest).takeWhile Char.isDigit, (ds ++ rest).dropWhile Char.isDigit, (List.takeWhile_append_dropWhile).symm, ?_, ?_⟩
    · refine ⟨?_, fun c hc => mem_takeWhile_imp hc⟩
      rw [List.takeWhile_append_of_pos hd.2]
      simp [hd.1]
    · intro c q hq
      have := List.head?_dropWhile_not (p := Char.isDigit) (l := ds ++ rest)
      rw [hq] at this; simpa using this
  obtain ⟨ds, hd, ⟨rfl, rfl⟩ | ⟨rfl, rfl⟩⟩ := h
  · obtain ⟨ds', rest', k1, k2, k3⟩ := key _ rest hd
    exact ⟨ds', rest', _, by rw [hr, k1], ⟨ds', k2, .inl ⟨rfl, rfl⟩⟩, k3⟩
  · obtain ⟨ds', rest', k1, k2, k3⟩ := key _ rest hd
    exact ⟨'-' :: ds', rest', _, by rw [hr, List.cons_append, k1, List.cons_append], ⟨ds', k2, .inr ⟨rfl, rfl⟩⟩, k3⟩

theorem ofString_ok {cs : List Char} {z : Int} (h : IntText cs z) :
    ∃ r, ofString cs = .ok r ∧ Canon r ∧ r.val = z := by
  obtain ⟨r, r1, r2, r3⟩ := read_ok ⟨[], false⟩ (p := []) (rest := []) h (by intro c r h; simp at h)
  rw [List.append_nil] at r1
  refine ⟨r, ?_, r2, r3⟩
  unfold ofString
  have e : IStream.ofString cs = goodAt [] cs := rfl
  rw [e, r1]
  rfl

theorem ofString_fail {cs : List Char} (h : ∀ z, ¬IntText cs z) : ofString cs = .error .invalidArgument := by
  unfold ofString
  have e : IStream.ofString cs = goodAt [] cs := rfl
  rw [e]
  by_cases hp : ∃ pre rest z, cs = pre ++ rest ∧ IntText pre z
  · obtain ⟨pre, rest, z, k1, k2⟩ := hp
    obtain ⟨pre, rest, z, k1, k2, k3⟩ := exists_longest k2 k1
    obtain ⟨r, r1, _, _⟩ := read_ok ⟨[], false⟩ (p := []) k2 k3
    rw [k1, r1]
    cases hrest : rest with
    | nil => rw [hrest, List.append_nil] at k1; exact absurd (k1 ▸ k2) (h z)
    | cons c q => rfl
  · obtain ⟨e, r1, _⟩ := read_fail ⟨[], false⟩ (p := []) (r := cs) (fun pre rest z k1 k2 => hp ⟨pre, rest, z, k1, k2⟩)
    rw [r1]; rfl

theorem numeral_intText (z : Int) : IntText (numeral z) z := by
  refine ⟨Nat.toDigits 10 z.natAbs, ⟨Nat.toDigits_ne_nil, fun c hc => Nat.isDigit_of_mem_toDigits (by norm_num) (by norm_num) hc⟩, ?_⟩
  rw [Nat.ofDigitChars_ten_toDigits]
  unfold numeral
  split
  · right; exact ⟨rfl, by omega⟩
  · left; exact ⟨rfl, by omega⟩

theorem print_numeral {a : BigInt} (h : WF a) (hs : a.negative = true → a.val ≠ 0) : print a = numeral a.val := by
  rw [print_spec h]
  have h0 := mag_nonneg h.2
  unfold numeral
  cases hn : a.negative
  · rw [val_of_not_neg hn]
    simp [not_lt.mpr h0]
    congr 1; omega
  · have := hs hn
    rw [val_of_neg hn] at this ⊢
    rw [if_pos (show -mag a.bins < 0 by omega)]
    simp
    congr 1; omega

end CppMaths.BigInt
