import Verif.Proofs.Transfer
import Verif.Proofs.ScalarInst
import Verif.Proofs.DoubleErr
/-!
# Pairs of scalar types that do the same
-/

namespace CppMaths
open BigInt

variable {A F : Err → Prop}

/-- A fitting check in the source, an outcome of the target. -/
theorem Follows.of_out {α β : Type} {R : α → β → Prop} {a : α} {r' : Res β} (h : Out F r' (R a)) : Follows A F R (.ok a) r' := by
  rcases h with ⟨b, rfl, h⟩ | ⟨e, rfl, h⟩
  · exact .both h
  · exact .fail h

theorem Follows.signed {β : Type} {R : Int → β → Prop} {lim z : Int} {r' : Res β} (h : Fits lim z → Out F r' (R z)) :
    Follows Overflows F R (CppMaths.signed lim z) r' := by
  unfold CppMaths.signed
  by_cases hz : -lim - 1 ≤ z ∧ z ≤ lim
  · rw [if_pos hz]; exact .of_out (h hz)
  · rw [if_neg hz]; exact .skip rfl

theorem Follows.fit {β : Type} {R : Int → β → Prop} {ok : Int → Bool} {z : Int} {r' : Res β} (h : ok z = true → Out F r' (R z)) :
    Follows Overflows F R (if ok z then .ok z else .error .ub) r' := by
  by_cases hz : ok z = true
  · rw [if_pos hz]; exact .of_out (h hz)
  · rw [if_neg hz]; exact .skip rfl

theorem Follows.quot {β : Type} {R : Int → β → Prop} {ok : Int → Bool} {x y : Int} {r' : Res β}
    (h : ∀ q, y ≠ 0 → x = q * y → ok q = true → Out F r' (R q)) :
    Follows Overflows F R (if y ≠ 0 ∧ y ∣ x then (if ok (x / y) then .ok (x / y) else .error .ub) else .error .ub) r' := by
  by_cases hz : y ≠ 0 ∧ y ∣ x
  · rw [if_pos hz]
    exact .fit fun hq => h _ hz.1 (Int.ediv_mul_cancel hz.2).symm hq
  · rw [if_neg hz]; exact .skip rfl

/-! ### A wider machine type -/

theorem simRing_machine {lim lim' : Int} (hl : lim ≤ lim') : (Scalar.machine lim).SimRing (Scalar.machine lim') Eq Overflows Never := by
  have key : ∀ z, Follows Overflows Never Eq (signed lim z) (signed lim' z) := fun z => .signed fun hz =>
    .inl ⟨z, if_pos ⟨by have := hz.1; omega, hz.2.trans hl⟩, rfl⟩
  refine { toSimCore := ?_, neg := by rintro x _ rfl; exact key _ }
  constructor
  · intro n _; exact key _
  all_goals (rintro x y _ _ rfl rfl; first | exact key _ | exact .both rfl)

theorem simMulA_machine {lim lim' : Int} (hl : lim ≤ lim') : (Scalar.machine lim).SimMulA (Scalar.machine lim') Eq Overflows Never := by
  rintro x y _ _ rfl rfl
  exact .signed fun hz => .inl ⟨_, if_pos ⟨by have := hz.1; omega, hz.2.trans hl⟩, rfl⟩

theorem simDiv_machine {lim lim' : Int} (hl : lim ≤ lim') : (Scalar.machine lim).SimDiv (Scalar.machine lim') Eq Overflows Never := by
  have key : ∀ x y, Follows Overflows Never Eq (signedDiv lim x y) (signedDiv lim' x y) := by
    intro x y
    unfold signedDiv
    by_cases hy : y = 0
    · rw [if_pos hy, if_pos hy]; exact .same
    · rw [if_neg hy, if_neg hy]
      exact .signed fun hz => .inl ⟨_, if_pos ⟨by have := hz.1; omega, hz.2.trans hl⟩, rfl⟩
  constructor <;> (rintro x y _ _ rfl rfl; exact key _ _)

/-! ### `Int` instead of a machine type -/

theorem follows_bool {r : Res Bool} {p : Prop} [Decidable p] (h : Out F r (fun b => b = true ↔ p)) :
    Follows A F Eq (.ok (decide p)) r := by
  rcases h with ⟨b, rfl, h⟩ | ⟨e, rfl, h⟩
  · refine .both ?_
    by_cases hp : p
    · rw [decide_eq_true hp, h.mpr hp]
    · rw [decide_eq_false hp]; exact (Bool.eq_false_iff.mpr fun hb => hp (h.mp hb)).symm
  · exact .fail h

theorem exactNeg_intWF : Scalar.int.ExactNeg IntWFRel Aborts := by
  rintro x _ ⟨hx, rfl⟩
  obtain ⟨r, r1, r2, _, r4, _⟩ := neg_ok hx
  exact out_of_ex ⟨r, r1, r2, r4⟩

theorem simRing_machine_int (lim : Int) : (Scalar.machine lim).SimRing Scalar.int AsInt Overflows Aborts where
  ofInt n h := .signed fun _ => exactRing_intWF.ofInt n h
  add hx hy := .signed fun _ => exactRing_intWF.add hx hy
  sub hx hy := .signed fun _ => exactRing_intWF.sub hx hy
  mul hx hy := .signed fun _ => exactRing_intWF.mul hx hy
  neg hx := .signed fun _ => exactNeg_intWF hx
  addA hx hy := .signed fun _ => exactRing_intWF.addA hx hy
  subA hx hy := .signed fun _ => exactRing_intWF.subA hx hy
  eq hx hy := follows_bool (exactRing_intWF.eq hx hy)
  ne hx hy := follows_bool (exactRing_intWF.ne hx hy)

theorem simMulA_machine_int (lim : Int) : (Scalar.machine lim).SimMulA Scalar.int AsInt Overflows Aborts :=
  fun hx hy => .signed fun _ => exactMulA_intWF hx hy

/-- Canonical `Int`s never fail, as long as `*=` and division are not used. -/
theorem simRing_machine_canon (lim : Int) : (Scalar.machine lim).SimRing Scalar.int AsCanon Overflows Never where
  ofInt n h := .signed fun _ => exactRing_int.ofInt n h
  add hx hy := .signed fun _ => exactRing_int.add hx hy
  sub hx hy := .signed fun _ => exactRing_int.sub hx hy
  mul hx hy := .signed fun _ => exactRing_int.mul hx hy
  neg hx := .signed fun _ => exactNeg_int hx
  addA hx hy := .signed fun _ => exactRing_int.addA hx hy
  subA hx hy := .signed fun _ => exactRing_int.subA hx hy
  eq hx hy := follows_bool (exactRing_int.eq hx hy)
  ne hx hy := follows_bool (exactRing_int.ne hx hy)

theorem divide_out {x y : BigInt} (hx : WF x) (hy : WF y) (h0 : y.val ≠ 0) :
    Out Aborts (divide x y) (fun t => IntWFRel t (x.val.tdiv y.val)) := by
  obtain ⟨_, d2, d3⟩ := divide_spec hx hy
  by_cases ht : DivTrips x y
  · exact .inr ⟨_, d2 h0 ht, rfl⟩
  · obtain ⟨r, r1, r2, r3⟩ := d3 h0 ht
    exact .inl ⟨r, r1, r2.1, r3⟩

theorem simDiv_machine_int (lim : Int) : (Scalar.machine lim).SimDiv Scalar.int AsInt Overflows Aborts := by
  have key : ∀ {a b x y}, AsInt a x → AsInt b y → Follows Overflows Aborts AsInt (signedDiv lim a b) (divide x y) := by
    rintro a b x y ⟨hx, rfl⟩ ⟨hy, rfl⟩
    unfold signedDiv
    by_cases h0 : y.val = 0
    · rw [if_pos h0]; exact .skip rfl
    · rw [if_neg h0]; exact .signed fun _ => divide_out hx hy h0
  constructor
  · intro a b x y hx hy
    show Follows _ _ _ _ (opDiv x y)
    rw [opDiv_eq]; exact key hx hy
  · intro a b x y hx hy
    show Follows _ _ _ _ (divAssign x y)
    rw [divAssign_eq]; exact key hx hy

/-! ### Whole numbers on paper -/

theorem simRing_whole_int (ok : Int → Bool) : (Scalar.whole ok).SimRing Scalar.int AsInt Overflows Aborts where
  ofInt n h := .fit fun _ => exactRing_intWF.ofInt n h
  add hx hy := .fit fun _ => exactRing_intWF.add hx hy
  sub hx hy := .fit fun _ => exactRing_intWF.sub hx hy
  mul hx hy := .fit fun _ => exactRing_intWF.mul hx hy
  neg hx := .fit fun _ => exactNeg_intWF hx
  addA hx hy := .fit fun _ => exactRing_intWF.addA hx hy
  subA hx hy := .fit fun _ => exactRing_intWF.subA hx hy
  eq hx hy := follows_bool (exactRing_intWF.eq hx hy)
  ne hx hy := follows_bool (exactRing_intWF.ne hx hy)

theorem simMulA_whole_int (ok : Int → Bool) : (Scalar.whole ok).SimMulA Scalar.int AsInt Overflows Aborts :=
  fun hx hy => .fit fun _ => exactMulA_intWF hx hy

theorem simDiv_whole_int (ok : Int → Bool) : (Scalar.whole ok).SimDiv Scalar.int AsInt Overflows Aborts := by
  have key : ∀ {a b x y}, AsInt a x → AsInt b y → ∀ q, b ≠ 0 → a = q * b → Out Aborts (divide x y) (AsInt q) := by
    rintro a b x y ⟨hx, rfl⟩ ⟨hy, rfl⟩ q h0 hq
    have := divide_out hx hy h0
    rw [hq, Int.mul_tdiv_cancel _ h0] at this
    exact this
  constructor
  · intro a b x y hx hy
    refine Follows.quot fun q h0 hq _ => ?_
    show Out _ (opDiv x y) _
    rw [opDiv_eq]; exact key hx hy q h0 hq
  · intro a b x y hx hy
    refine Follows.quot fun q h0 hq _ => ?_
    show Out _ (divAssign x y) _
    rw [divAssign_eq]; exact key hx hy q h0 hq

theorem simRing_whole_machine {ok : Int → Bool} {lim : Int} (hok : ∀ z, ok z = true → Fits lim z) :
    (Scalar.whole ok).SimRing (Scalar.machine lim) Eq Overflows Never := by
  have key : ∀ z, Follows Overflows Never Eq (if ok z then .ok z else .error .ub) (signed lim z) := fun z => .fit fun hz =>
    .inl ⟨z, if_pos (hok z hz), rfl⟩
  refine { toSimCore := ?_, neg := by rintro x _ rfl; exact key _ }
  constructor
  · intro n _; exact key _
  all_goals (rintro x y _ _ rfl rfl; first | exact key _ | exact .both rfl)

theorem simMulA_whole_machine {ok : Int → Bool} {lim : Int} (hok : ∀ z, ok z = true → Fits lim z) :
    (Scalar.whole ok).SimMulA (Scalar.machine lim) Eq Overflows Never := by
  rintro x y _ _ rfl rfl
  exact .fit fun hz => .inl ⟨_, if_pos (hok _ hz), rfl⟩

theorem simDiv_whole_machine {ok : Int → Bool} {lim : Int} (hok : ∀ z, ok z = true → Fits lim z) :
    (Scalar.whole ok).SimDiv (Scalar.machine lim) Eq Overflows Never := by
  have key : ∀ x y, Follows Overflows Never Eq
      (if y ≠ 0 ∧ y ∣ x then (if ok (x / y) then .ok (x / y) else .error .ub) else .error .ub) (signedDiv lim x y) := by
    intro x y
    refine .quot fun q h0 hq hk => .inl ⟨q, ?_, rfl⟩
    unfold signedDiv
    rw [if_neg h0, hq, Int.mul_tdiv_cancel _ h0]
    exact if_pos (hok q hk)
  constructor <;> (rintro x y _ _ rfl rfl; exact key _ _)

theorem follows_decide {p q : Prop} [Decidable p] [Decidable q] (h : p ↔ q) : Follows A F Eq (.ok (decide p)) (.ok (decide q)) :=
  .both (decide_eq_decide.mpr h)

theorem simRing_whole_field (ok : Int → Bool) {K : Type} [Field K] [DecidableEq K] [CharZero K] :
    (Scalar.whole ok).SimRing (Scalar.field K) AsNum Overflows Never where
  ofInt n _ := .fit fun _ => Out.ok rfl
  add := by rintro x y _ _ rfl rfl; exact .fit fun _ => Out.ok (by simp [AsNum])
  sub := by rintro x y _ _ rfl rfl; exact .fit fun _ => Out.ok (by simp [AsNum])
  mul := by rintro x y _ _ rfl rfl; exact .fit fun _ => Out.ok (by simp [AsNum])
  neg := by rintro x _ rfl; exact .fit fun _ => Out.ok (by simp [AsNum])
  addA := by rintro x y _ _ rfl rfl; exact .fit fun _ => Out.ok (by simp [AsNum])
  subA := by rintro x y _ _ rfl rfl; exact .fit fun _ => Out.ok (by simp [AsNum])
  eq := by rintro x y _ _ rfl rfl; exact follows_decide (by simp)
  ne := by rintro x y _ _ rfl rfl; exact follows_decide (by simp)

theorem simMulA_whole_field (ok : Int → Bool) {K : Type} [Field K] [DecidableEq K] [CharZero K] :
    (Scalar.whole ok).SimMulA (Scalar.field K) AsNum Overflows Never := by
  rintro x y _ _ rfl rfl; exact .fit fun _ => Out.ok (by simp [AsNum])

theorem simDiv_whole_field (ok : Int → Bool) {K : Type} [Field K] [DecidableEq K] [CharZero K] :
    (Scalar.whole ok).SimDiv (Scalar.field K) AsNum Overflows Never := by
  have key : ∀ {x y : Int} (q : Int), y ≠ 0 → x = q * y →
      Out Never (if (y : K) = 0 then .error .divideByZero else .ok ((x : K) / (y : K))) (AsNum q) := by
    rintro x y q h0 rfl
    have h0' : (y : K) ≠ 0 := by exact_mod_cast h0
    rw [if_neg h0']
    refine Out.ok ?_
    show (_ : K) = _
    push_cast
    field_simp
  constructor <;> (rintro x y _ _ rfl rfl; exact .quot fun q h0 hq _ => key q h0 hq)

/-! ### `double` -/

namespace Double

theorem add_denotes {x y : Double} {a b : ℚ} (hx : x.Denotes a) (hy : y.Denotes b) : ∃ z, add x y = round z (a + b) := by
  obtain ⟨s, m, e, rfl, rfl⟩ := hx.fin
  obtain ⟨s', m', e', rfl, rfl⟩ := hy.fin
  exact ⟨_, rfl⟩

theorem sub_denotes {x y : Double} {a b : ℚ} (hx : x.Denotes a) (hy : y.Denotes b) : ∃ z, sub x y = round z (a - b) := by
  obtain ⟨s, m, e, rfl, rfl⟩ := hx.fin
  obtain ⟨s', m', e', rfl, rfl⟩ := hy.fin
  exact ⟨_, rfl⟩

theorem mul_denotes {x y : Double} {a b : ℚ} (hx : x.Denotes a) (hy : y.Denotes b) : ∃ z, mul x y = round z (a * b) := by
  obtain ⟨s, m, e, rfl, rfl⟩ := hx.fin
  obtain ⟨s', m', e', rfl, rfl⟩ := hy.fin
  exact ⟨_, rfl⟩

theorem neg_denotes {x : Double} {a : ℚ} (hx : x.Denotes a) : (neg x).Denotes (-a) := by
  obtain ⟨w, m, e, ⟨rfl, rfl⟩ | ⟨rfl, rfl⟩⟩ := hx
  · exact ⟨w, m, e, .inr ⟨rfl, rfl⟩⟩
  · exact ⟨w, m, e, .inl ⟨rfl, by ring⟩⟩

theorem eq_denotes {x y : Double} {a b : ℚ} (hx : x.Denotes a) (hy : y.Denotes b) : eq x y = decide (a = b) := by
  obtain ⟨s, m, e, rfl, rfl⟩ := hx.fin
  obtain ⟨s', m', e', rfl, rfl⟩ := hy.fin
  rfl

theorem round_int (z : Bool) {q : ℚ} {k : Int} (hk : |k| ≤ 2 ^ 53) (hq : q = k) : (round z q).Denotes k := by
  subst hq
  refine round_exact z (e := 0) hk (by norm_num) (by simp) ?_
  have : |(k : ℚ)| ≤ 2 ^ 53 := by exact_mod_cast hk
  exact this.trans_lt (big_gt (by norm_num))

end Double

open Double

theorem double_add {a b : Int} {x y : Double} (hx : AsDouble a x) (hy : AsDouble b y) (h : |a + b| ≤ 2 ^ 53) : AsDouble (a + b) (add x y) := by
  obtain ⟨z, hz⟩ := add_denotes hx hy
  show (add x y).Denotes _
  rw [hz]
  exact round_int z h (by push_cast; rfl)

theorem double_sub {a b : Int} {x y : Double} (hx : AsDouble a x) (hy : AsDouble b y) (h : |a - b| ≤ 2 ^ 53) : AsDouble (a - b) (Double.sub x y) := by
  obtain ⟨z, hz⟩ := sub_denotes hx hy
  show (Double.sub x y).Denotes _
  rw [hz]
  exact round_int z h (by push_cast; rfl)

theorem double_mul {a b : Int} {x y : Double} (hx : AsDouble a x) (hy : AsDouble b y) (h : |a * b| ≤ 2 ^ 53) : AsDouble (a * b) (Double.mul x y) := by
  obtain ⟨z, hz⟩ := mul_denotes hx hy
  show (Double.mul x y).Denotes _
  rw [hz]
  exact round_int z h (by push_cast; rfl)

theorem double_neg {a : Int} {x : Double} (hx : AsDouble a x) : AsDouble (-a) (Double.neg x) := by
  have := neg_denotes hx
  show (Double.neg x).Denotes _
  push_cast
  exact this

theorem simRing_whole_double {ok : Int → Bool} (hok : ∀ z, ok z = true → |z| ≤ 2 ^ 53) :
    (Scalar.whole ok).SimRing Scalar.double AsDouble Overflows Never where
  ofInt n _ := .fit fun h => Out.ok (ofInt_denotes (hok _ h))
  add hx hy := .fit fun h => Out.ok (double_add hx hy (hok _ h))
  sub hx hy := .fit fun h => Out.ok (double_sub hx hy (hok _ h))
  mul hx hy := .fit fun h => Out.ok (double_mul hx hy (hok _ h))
  neg hx := .fit fun _ => Out.ok (double_neg hx)
  addA hx hy := .fit fun h => Out.ok (double_add hx hy (hok _ h))
  subA hx hy := .fit fun h => Out.ok (double_sub hx hy (hok _ h))
  eq hx hy := .both (by rw [eq_denotes hx hy]; exact decide_eq_decide.mpr (by simp))
  ne hx hy := .both (by rw [eq_denotes hx hy, ← decide_not]; exact decide_eq_decide.mpr (by simp))

theorem simMulA_whole_double {ok : Int → Bool} (hok : ∀ z, ok z = true → |z| ≤ 2 ^ 53) :
    (Scalar.whole ok).SimMulA Scalar.double AsDouble Overflows Never :=
  fun hx hy => .fit fun h => Out.ok (double_mul hx hy (hok _ h))

theorem simDiv_whole_double {ok : Int → Bool} (hok : ∀ z, ok z = true → |z| ≤ 2 ^ 53) :
    (Scalar.whole ok).SimDiv Scalar.double AsDouble Overflows Never := by
  have key : ∀ {a b : Int} {x y : Double}, AsDouble a x → AsDouble b y → ∀ q, b ≠ 0 → a = q * b → ok q = true →
      AsDouble q (Double.div x y) := by
    intro a b x y hx hy q h0 hq hk
    have h0' : (b : ℚ) ≠ 0 := by exact_mod_cast h0
    obtain ⟨z, hz⟩ := div_denotes hx hy h0'
    show (Double.div x y).Denotes _
    rw [hz]
    refine round_int z (hok q hk) ?_
    rw [hq]; push_cast; field_simp
  constructor <;> (intro a b x y hx hy; exact .quot fun q h0 hq hk => Out.ok (key hx hy q h0 hq hk))

/-- Machine integers below 2^53 and `double`s, without division. -/
theorem simRing_machine_double {lim : Int} (hl : lim < 2 ^ 53) : (Scalar.machine lim).SimRing Scalar.double AsDouble Overflows Never := by
  have h53 : ∀ {z}, Fits lim z → |z| ≤ 2 ^ 53 := fun {z} hz => abs_le.mpr ⟨by have := hz.1; omega, by have := hz.2; omega⟩
  exact {
    ofInt := fun n _ => .signed fun h => Out.ok (ofInt_denotes (h53 h))
    add := fun hx hy => .signed fun h => Out.ok (double_add hx hy (h53 h))
    sub := fun hx hy => .signed fun h => Out.ok (double_sub hx hy (h53 h))
    mul := fun hx hy => .signed fun h => Out.ok (double_mul hx hy (h53 h))
    neg := fun hx => .signed fun _ => Out.ok (double_neg hx)
    addA := fun hx hy => .signed fun h => Out.ok (double_add hx hy (h53 h))
    subA := fun hx hy => .signed fun h => Out.ok (double_sub hx hy (h53 h))
    eq := fun hx hy => .both (by rw [eq_denotes hx hy]; exact decide_eq_decide.mpr (by simp))
    ne := fun hx hy => .both (by rw [eq_denotes hx hy, ← decide_not]; exact decide_eq_decide.mpr (by simp)) }

theorem simMulA_machine_double {lim : Int} (hl : lim < 2 ^ 53) : (Scalar.machine lim).SimMulA Scalar.double AsDouble Overflows Never :=
  fun hx hy => .signed fun h => Out.ok (double_mul hx hy (abs_le.mpr ⟨by have := h.1; omega, by have := h.2; omega⟩))

end CppMaths

namespace CppMaths

theorem forall₂_of_get? {α β : Type} {Q : α → β → Prop} : ∀ {x : List α} {y : List β}, x.length = y.length →
    (∀ i, i < x.length → ∃ a b, x[i]? = some a ∧ y[i]? = some b ∧ Q a b) → List.Forall₂ Q x y
  | [], [], _, _ => .nil
  | [], _ :: _, h, _ => by simp at h
  | _ :: _, [], h, _ => by simp at h
  | a :: x, b :: y, h, hg => by
    refine .cons ?_ (forall₂_of_get? (by simpa using h) fun i hi => ?_)
    · obtain ⟨c, d, h1, h2, h3⟩ := hg 0 (by simp)
      simp only [List.getElem?_cons_zero, Option.some.injEq] at h1 h2
      rw [h1, h2]; exact h3
    · have := hg (i + 1) (by simpa using hi)
      simpa using this

theorem Mat.Is.rel {T : Type} {rel : T → Int → Prop} {r c : Nat} {m : Mat Int} {m' : Mat T} {M : Matrix (Fin r) (Fin c) Int}
    (h : Mat.Is (fun t k => t = k) m M) (h' : Mat.Is rel m' M) : Mat.Rel (fun z t => rel t z) m m' := by
  obtain ⟨h1, h2, h3, h4⟩ := h
  obtain ⟨h1', h2', h3', h4'⟩ := h'
  refine ⟨h1.trans h1'.symm, h2.trans h2'.symm, forall₂_of_get? (h3.trans h3'.symm) fun k hk => ?_⟩
  rw [h3] at hk
  have hc : 0 < c := Nat.pos_of_ne_zero (by rintro rfl; simp at hk)
  have hi : k / c < r := Nat.div_lt_of_lt_mul (by rwa [Nat.mul_comm])
  have hj : k % c < c := Nat.mod_lt _ hc
  have e : k / c * c + k % c = k := by rw [Nat.mul_comm]; exact Nat.div_add_mod k c
  obtain ⟨t, t1, t2⟩ := h4 ⟨k / c, hi⟩ ⟨k % c, hj⟩
  obtain ⟨t', t1', t2'⟩ := h4' ⟨k / c, hi⟩ ⟨k % c, hj⟩
  dsimp only at t1 t1'
  rw [e] at t1 t1'
  subst t2
  exact ⟨_, _, t1, t1', t2'⟩

theorem Mat.Rel.is {T : Type} {rel : T → Int → Prop} {r c : Nat} {m : Mat Int} {m' : Mat T} {M : Matrix (Fin r) (Fin c) Int}
    (h : Mat.Is (fun t k => t = k) m M) (h' : Mat.Rel (fun z t => rel t z) m m') : Mat.Is rel m' M := by
  obtain ⟨h1, h2, h3, h4⟩ := h
  refine ⟨h'.1 ▸ h1, h'.2.1 ▸ h2, h'.2.2.length_eq ▸ h3, fun i j => ?_⟩
  obtain ⟨t, t1, t2⟩ := h4 i j
  rcases forall₂_get? h'.2.2 (i.val * c + j.val) with ⟨a, b, a1, b1, ab⟩ | ⟨a1, _⟩
  · rw [a1] at t1
    cases t1
    cases b with
    | none => exact ab.elim
    | some t' => exact ⟨t', b1, t2 ▸ ab⟩
  · rw [a1] at t1; cases t1

theorem Vec.Is.rel {T : Type} {rel : T → Int → Prop} {n : Nat} {x : List Int} {x' : List T} {f : Fin n → Int}
    (h : Vec.Is (fun t k => t = k) x f) (h' : Vec.Is rel x' f) : List.Forall₂ (fun z t => rel t z) x x' := by
  refine forall₂_of_get? (h.1.trans h'.1.symm) fun k hk => ?_
  obtain ⟨t, t1, t2⟩ := h.2 ⟨k, h.1 ▸ hk⟩
  obtain ⟨t', t1', t2'⟩ := h'.2 ⟨k, h.1 ▸ hk⟩
  exact ⟨t, t', t1, t1', t2 ▸ t2'⟩

theorem cellRel_eq {T : Type} {a b : Option T} (h : CellRel Eq a b) : a = b := by
  cases a <;> cases b
  · rfl
  · exact h.elim
  · exact h.elim
  · exact congrArg some h

theorem forall₂_eq' {α : Type} {Q : α → α → Prop} (hQ : ∀ a b, Q a b → a = b) {x y : List α} (h : List.Forall₂ Q x y) : x = y := by
  induction h with
  | nil => rfl
  | cons h _ ih => rw [hQ _ _ h, ih]

theorem Ty.Rel.eq {T : Type} {s : Ty} {v v' : s.Val T} (h : s.Rel Eq v v') : v = v' := by
  cases s with
  | num => exact h
  | vec => exact forall₂_eq' (fun _ _ h => h) h
  | mat =>
    obtain ⟨r, c, d⟩ := v
    obtain ⟨r', c', d'⟩ := v'
    obtain ⟨h1, h2, h3⟩ := h
    dsimp only at h1 h2 h3
    rw [h1, h2, forall₂_eq' (fun _ _ h => cellRel_eq h) h3]
  | bool => exact h

theorem Ty.Rel.refl {T : Type} : ∀ (s : Ty) (v : s.Val T), s.Rel Eq v v := by
  have hf : ∀ {α : Type} {Q : α → α → Prop}, (∀ a, Q a a) → ∀ x : List α, List.Forall₂ Q x x := by
    intro α Q hQ x
    induction x with
    | nil => exact .nil
    | cons a x ih => exact .cons (hQ a) ih
  intro s v
  cases s with
  | num => exact rfl
  | vec => exact hf (fun _ => rfl) v
  | mat => exact ⟨rfl, rfl, hf (fun a => by cases a <;> trivial) _⟩
  | bool => exact rfl

theorem Follows.cases {α β : Type} {A F : Err → Prop} {R : α → β → Prop} {r : Res α} {r' : Res β} (h : Follows A F R r r') :
    (∃ e, r = .error e ∧ A e) ∨ (∃ e, r' = .error e ∧ F e) ∨ (∃ v v', r = .ok v ∧ r' = .ok v' ∧ R v v') ∨
      (∃ e, r = .error e ∧ r' = .error e) := by
  cases h with
  | both h => exact .inr (.inr (.inl ⟨_, _, rfl, rfl, h⟩))
  | same => exact .inr (.inr (.inr ⟨_, rfl, rfl⟩))
  | skip h => exact .inl ⟨_, rfl, h⟩
  | fail h => exact .inr (.inl ⟨_, rfl, h⟩)

theorem Follows.out {α β : Type} {A F : Err → Prop} {R : α → β → Prop} {a : α} {r' : Res β} (h : Follows A F R (.ok a) r') :
    Out F r' (R a) := by
  cases h with
  | both h => exact Out.ok h
  | fail h => exact Out.err h

theorem Follows.err {α β : Type} {A F : Err → Prop} {R : α → β → Prop} {e : Err} {r' : Res β} (h : Follows A F R (.error e) r') (he : ¬A e) :
    r' = .error e ∨ ∃ e', r' = .error e' ∧ F e' := by
  cases h with
  | same => exact .inl rfl
  | skip h => exact absurd h he
  | fail h => exact .inr ⟨_, rfl, h⟩

end CppMaths

namespace CppMaths

theorem Mat.is_exists_map {T : Type} (g : Int → T) {r c : Nat} (M : Matrix (Fin r) (Fin c) Int) :
    ∃ m : Mat T, Mat.Is (fun t z => t = g z) m M := by
  refine ⟨⟨r, c, List.ofFn fun k : Fin (r * c) => some (g (M ⟨k / c, Nat.div_lt_of_lt_mul (Nat.mul_comm r c ▸ k.2)⟩
    ⟨k % c, Nat.mod_lt _ (Nat.pos_of_ne_zero (by rintro rfl; exact absurd k.2 (by simp)))⟩))⟩, rfl, rfl, by simp, fun i j => ?_⟩
  have hk : i.val * c + j.val < r * c := by
    calc i.val * c + j.val < i.val * c + c := by omega
      _ = (i.val + 1) * c := by ring
      _ ≤ r * c := Nat.mul_le_mul_right _ i.2
  refine ⟨_, by rw [List.getElem?_ofFn, dif_pos hk], ?_⟩
  have hc : 0 < c := by have := j.2; omega
  congr 2
  · exact Fin.ext (by dsimp only; rw [Nat.add_comm, Nat.add_mul_div_right _ _ hc, Nat.div_eq_of_lt j.2]; omega)
  · exact Fin.ext (by dsimp only; rw [Nat.add_comm, Nat.add_mul_mod_self_right, Nat.mod_eq_of_lt j.2])

theorem Mat.is_exists {r c : Nat} (M : Matrix (Fin r) (Fin c) Int) : ∃ m : Mat Int, Mat.Is (fun t z => t = z) m M := Mat.is_exists_map id M

theorem Mat.Is.of_map {T : Type} {g : Int → T} {r c : Nat} {m : Mat T} {M : Matrix (Fin r) (Fin c) Int}
    (h : Mat.Is (fun t z => t = g z) m M) : Mat.Is (fun t k => t = k) m (M.map g) :=
  ⟨h.1, h.2.1, h.2.2.1, fun i j => h.2.2.2 i j⟩

/-- A rational matrix whose stored entries are integers is the image of an integer matrix. -/
theorem Mat.Rel.pull {r c : Nat} {p : Mat Int} {q : Mat ℚ} {N' : Matrix (Fin r) (Fin c) ℚ} (h : Mat.Rel AsNum p q)
    (hq : Mat.Is (fun t k => t = k) q N') :
    ∃ N : Matrix (Fin r) (Fin c) Int, Mat.Is (fun t k => t = k) p N ∧ N.map (fun z => (z : ℚ)) = N' := by
  obtain ⟨h1, h2, h3⟩ := h
  obtain ⟨q1, q2, q3, q4⟩ := hq
  have key : ∀ i j, ∃ z : Int, p.data[i.val * c + j.val]? = some (some z) ∧ (z : ℚ) = N' i j := by
    intro i j
    obtain ⟨t, t1, t2⟩ := q4 i j
    rcases forall₂_get? h3 (i.val * c + j.val) with ⟨a, b, a1, b1, ab⟩ | ⟨_, b1⟩
    · rw [t1] at b1
      cases b1
      cases a with
      | none => exact ab.elim
      | some z => exact ⟨z, a1, (show t = z from ab) ▸ t2⟩
    · rw [t1] at b1
      cases b1
  choose N n1 n2 using key
  exact ⟨N, ⟨h1 ▸ q1, h2 ▸ q2, h3.length_eq ▸ q3, fun i j => ⟨N i j, n1 i j, rfl⟩⟩, by ext i j; exact n2 i j⟩

/-! ### Exact types follow the field -/

theorem simCore_exact {T K : Type} [Field K] [DecidableEq K] {S : Scalar T} {rel : T → K → Prop} {A F : Err → Prop} (h : S.ExactRing rel F) :
    (Scalar.field K).SimCore S (fun k t => rel t k) A F where
  ofInt n hn := .of_out (h.ofInt n hn)
  add hx hy := .of_out (h.add hx hy)
  sub hx hy := .of_out (h.sub hx hy)
  mul hx hy := .of_out (h.mul hx hy)
  addA hx hy := .of_out (h.addA hx hy)
  subA hx hy := .of_out (h.subA hx hy)
  eq hx hy := .of_out ((h.eq hx hy).mono fun r hr => by cases r <;> simp_all)
  ne hx hy := .of_out ((h.ne hx hy).mono fun r hr => by cases r <;> simp_all)

theorem simNeg_exact {T K : Type} [Field K] [DecidableEq K] {S : Scalar T} {rel : T → K → Prop} {A F : Err → Prop} (h : S.ExactNeg rel F) :
    (Scalar.field K).SimNeg S (fun k t => rel t k) A F := fun hx => .of_out (h hx)

theorem simMulA_exact {T K : Type} [Field K] [DecidableEq K] {S : Scalar T} {rel : T → K → Prop} {A F : Err → Prop} (h : S.ExactMulA rel F) :
    (Scalar.field K).SimMulA S (fun k t => rel t k) A F := fun hx hy => .of_out (h hx hy)

theorem simDiv_exact {T K : Type} [Field K] [DecidableEq K] {S : Scalar T} {rel : T → K → Prop} {F : Err → Prop} (h : S.ExactDiv rel F)
    (h' : S.ExactDivA rel F) : (Scalar.field K).SimDiv S (fun k t => rel t k) (fun e => e = .divideByZero) F where
  div {x y x' y'} hx hy := by
    by_cases h0 : y = 0
    · rw [show (Scalar.field K).div x y = .error .divideByZero from if_pos h0]
      exact .skip rfl
    · rw [show (Scalar.field K).div x y = .ok (x / y) from if_neg h0]
      exact .of_out (h hx hy h0)
  divA {x y x' y'} hx hy := by
    by_cases h0 : y = 0
    · rw [show (Scalar.field K).divA x y = .error .divideByZero from if_pos h0]
      exact .skip rfl
    · rw [show (Scalar.field K).divA x y = .ok (x / y) from if_neg h0]
      exact .of_out (h' hx hy h0)

end CppMaths
