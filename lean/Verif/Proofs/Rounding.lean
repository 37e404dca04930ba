import Verif.Proofs.DoubleErr
import Verif.Proofs.MatMachine
import Verif.Spec.Rounding
/-!
# Rounded results of vector and matrix operations over `double`
-/

namespace CppMaths
namespace Double

/-- Another `double` as near as the rounded number: a tie. -/
theorem rnd_tie {a : ℚ} (ha : 0 < a) {k : Nat} {e : Int} (hk : k < 2 ^ 53) (he : -1074 ≤ e) (h : |rnd a - a| = |(k : ℚ) * 2 ^ e - a|) :
    (k : ℚ) * 2 ^ e = rnd a ∨ halfEven (a / 2 ^ expOf a) % 2 = 0 := by
  obtain ⟨k1, k2, k3⟩ := expOf_spec ha
  have hp := two_zpow_pos (expOf a)
  set E := expOf a with hE
  rcases le_or_gt E e with hle | hlt
  · obtain ⟨j, hj⟩ := Int.eq_ofNat_of_zero_le (show 0 ≤ e - E by omega)
    have he' : (2 : ℚ) ^ e = 2 ^ j * 2 ^ E := by
      rw [← zpow_natCast, ← zpow_add₀ (by norm_num)]; congr 1; omega
    set n := k * 2 ^ j with hn
    have hkn : (k : ℚ) * 2 ^ e = n * 2 ^ E := by rw [he', hn]; push_cast; ring
    rw [hkn] at h ⊢
    have hr : rnd a = halfEven (a / 2 ^ E) * 2 ^ E := by rw [hE]; rfl
    rw [hr] at h ⊢
    set q := a / 2 ^ E with hq
    have hq0 : 0 ≤ q := (div_pos ha hp).le
    have hqa : a = q * 2 ^ E := by rw [hq, div_mul_cancel₀ _ hp.ne']
    rw [hqa, ← sub_mul, ← sub_mul, abs_mul, abs_mul, abs_of_pos hp] at h
    have h' := mul_right_cancel₀ hp.ne' h
    by_cases hne : n = halfEven q
    · left; rw [hne]
    · right
      refine halfEven_tie hq0 (le_antisymm (halfEven_near hq0) ?_)
      have h1 : (1 : ℚ) ≤ |(n : ℚ) - halfEven q| := by
        have : (1 : Int) ≤ |(n : Int) - halfEven q| := Int.one_le_abs (sub_ne_zero.mpr (by exact_mod_cast hne))
        exact_mod_cast this
      have h2 : |(n : ℚ) - halfEven q| ≤ |(n : ℚ) - q| + |q - halfEven q| := abs_sub_le _ _ _
      rw [abs_sub_comm q, ← h'] at h2
      linarith
  · exfalso
    have hE52 : (2 : ℚ) ^ (E + 52) ≤ a := by
      rcases k3 with k3 | k3
      · omega
      · exact k3
    have h1 : (k : ℚ) * 2 ^ e < 2 ^ (E + 52) := by
      have hk' : (k : ℚ) < 2 ^ 53 := by exact_mod_cast hk
      calc (k : ℚ) * 2 ^ e < 2 ^ 53 * 2 ^ e := mul_lt_mul_of_pos_right hk' (two_zpow_pos e)
        _ = 2 ^ (e + 53) := by rw [show (e + 53 : Int) = e + (53 : Nat) by rfl, two_zpow_add_nat]; ring
        _ ≤ 2 ^ (E + 52) := two_zpow_le (by omega)
    have h2 := rnd_nearest ha (k := 2 ^ 52) (e := E) (by norm_num) k1
    have h3 : ((2 ^ 52 : Nat) : ℚ) * 2 ^ E = 2 ^ (E + 52) := by
      rw [show (E + 52 : Int) = E + (52 : Nat) by rfl, two_zpow_add_nat]; push_cast; ring
    rw [h3, abs_of_nonpos (by linarith : (2 : ℚ) ^ (E + 52) - a ≤ 0)] at h2
    rw [abs_of_neg (by linarith : (k : ℚ) * 2 ^ e - a < 0)] at h
    linarith

/-- The rounded number compared with all `double`s. -/
theorem rnd_best {a : ℚ} (ha : 0 < a) {d' : Double} {r' : ℚ} (h : d'.Denotes r') :
    |rnd a - a| < |r' - a| ∨ r' = rnd a ∨ (|rnd a - a| = |r' - a| ∧ halfEven (a / 2 ^ expOf a) % 2 = 0) := by
  have key : ∀ {k : Nat} {e : Int}, k < 2 ^ 53 → -1074 ≤ e → |rnd a - a| < |(k : ℚ) * 2 ^ e - a| ∨ (k : ℚ) * 2 ^ e = rnd a ∨
      (|rnd a - a| = |(k : ℚ) * 2 ^ e - a| ∧ halfEven (a / 2 ^ expOf a) % 2 = 0) := by
    intro k e hk he
    rcases (rnd_nearest ha hk he).lt_or_eq with h | h
    · exact .inl h
    · rcases rnd_tie ha hk he h with h' | h'
      · exact .inr (.inl h')
      · exact .inr (.inr ⟨h, h'⟩)
  obtain ⟨w, m, e, ⟨rfl, rfl⟩ | ⟨rfl, rfl⟩⟩ := h
  · exact key w.1 w.2.1
  · by_cases hm : (m : ℚ) * 2 ^ e = 0
    · rw [hm]
      have := key (k := 0) (e := 0) (by norm_num) (by norm_num)
      simpa using this
    · left
      have hpos : 0 < (m : ℚ) * 2 ^ e := lt_of_le_of_ne (mul_nonneg (Nat.cast_nonneg _) (two_zpow_pos e).le) (Ne.symm hm)
      refine (rnd_le_two_mul ha).trans_lt ?_
      rw [abs_of_neg (by linarith)]
      linarith

theorem overflow_iff {a : ℚ} (ha : 0 < a) : ((2 ^ 53 - 1 : Nat) : ℚ) * 2 ^ (971 : Int) < rnd a ↔ (2 : ℚ) ^ (1024 : Int) - 2 ^ (970 : Int) ≤ a := by
  have h := lt_rnd_iff (a := a) (k := 2 ^ 53 - 1) (e := 971) (by norm_num) (by norm_num) (by norm_num) (by norm_num) ha
  rw [h]
  have : ((2 ^ 53 - 1 : Nat) : ℚ) = 2 ^ 53 - 1 := by norm_num
  rw [this, show (1024 : Int) = 970 + (54 : Nat) by rfl, two_zpow_add_nat, show (971 : Int) = 970 + (1 : Nat) by rfl, two_zpow_add_nat]
  have e : ((2 : ℚ) ^ 53 - 1 + 1 / 2) * (2 ^ (970 : Int) * 2 ^ 1) = 2 ^ (970 : Int) * 2 ^ 54 - 2 ^ (970 : Int) := by ring
  rw [e]

theorem roundAbs_even {s : Bool} {a : ℚ} {m : Nat} {e : Int} (h : roundAbs s a = fin s m e) (h2 : halfEven (a / 2 ^ expOf a) % 2 = 0) :
    m % 2 = 0 := by
  unfold roundAbs at h
  dsimp only at h
  generalize halfEven (a / 2 ^ expOf a) = n at h h2
  by_cases hn : n = 2 ^ 53
  · simp only [hn, if_true] at h
    split at h
    · exact absurd h (by simp)
    · injection h with _ hm _
      rw [← hm]; norm_num
  · simp only [hn, if_false] at h
    split at h
    · exact absurd h (by simp)
    · injection h with _ hm _
      rw [← hm]; exact h2

theorem Denotes.neg {d : Double} {r : ℚ} (h : d.Denotes r) : d.neg.Denotes (-r) := by
  obtain ⟨w, m, e, ⟨rfl, rfl⟩ | ⟨rfl, rfl⟩⟩ := h
  · exact ⟨w, m, e, .inr ⟨rfl, rfl⟩⟩
  · exact ⟨w, m, e, .inl ⟨rfl, by simp⟩⟩

theorem round_rounded (z : Bool) (q : ℚ) : (round z q).Rounded q := by
  unfold Rounded
  by_cases h0 : q = 0
  · subst h0
    have h : ¬(2 : ℚ) ^ (1024 : Int) - 2 ^ (970 : Int) ≤ |(0 : ℚ)| := by
      rw [abs_zero, not_le, sub_pos]
      exact zpow_lt_zpow_right₀ (by norm_num) (by norm_num)
    rw [if_neg h]
    refine ⟨0, ⟨?_, 0, -1074, ?_⟩, fun d' r' _ => ?_⟩
    · unfold round; rw [if_pos rfl]; exact ⟨by norm_num, by norm_num, by norm_num, .inr rfl⟩
    · unfold round; rw [if_pos rfl]; cases z <;> simp
    · by_cases hr : r' = 0
      · exact .inr (.inl hr)
      · left; simpa using hr
  · have ha : 0 < |q| := abs_pos.mpr h0
    have hround : round z q = roundAbs (decide (q < 0)) |q| := by unfold round; rw [if_neg h0]
    rw [hround]
    obtain ⟨w, ⟨m, e, h1, h2, h3⟩ | ⟨h1, h2⟩⟩ := roundAbs_spec (decide (q < 0)) ha
    · rw [h1] at w
      have hov : ¬(2 : ℚ) ^ (1024 : Int) - 2 ^ (970 : Int) ≤ |q| := by
        rw [← overflow_iff ha, not_lt, ← h2]
        have k1 : (m : ℚ) ≤ ((2 ^ 53 - 1 : Nat) : ℚ) := by
          have := w.1
          exact_mod_cast (by omega : m ≤ 2 ^ 53 - 1)
        exact mul_le_mul k1 (two_zpow_le w.2.2.1) (two_zpow_pos _).le (by positivity)
      rw [if_neg hov]
      by_cases hn : q < 0
      · refine ⟨-rnd |q|, ?_, fun d' r' hd => ?_⟩
        · rw [h1]; exact ⟨w, m, e, .inr ⟨by simp [hn], by rw [h2]⟩⟩
        · have e1 : |(-rnd |q|) - q| = abs (rnd |q| - |q|) := by
            rw [abs_of_neg hn, show -rnd (-q) - q = -(rnd (-q) - -q) by ring, abs_neg]
          have e2 : |r' - q| = abs (-r' - |q|) := by
            rw [abs_of_neg hn, show r' - q = -(-r' - -q) by ring, abs_neg]
          rw [e1, e2]
          rcases rnd_best ha hd.neg with h | h | ⟨h, h'⟩
          · exact .inl h
          · exact .inr (.inl (by linarith))
          · exact .inr (.inr ⟨h, _, m, e, h1, roundAbs_even h1 h'⟩)
      · refine ⟨rnd |q|, ?_, fun d' r' hd => ?_⟩
        · rw [h1]; exact ⟨w, m, e, .inl ⟨by simp [hn], by rw [h2]⟩⟩
        · have e1 : q = |q| := (abs_of_nonneg (not_lt.mp hn)).symm
          rcases rnd_best ha hd with h | h | ⟨h, h'⟩
          · exact .inl (by rw [← e1] at h ⊢; exact h)
          · exact .inr (.inl h)
          · exact .inr (.inr ⟨by rw [← e1] at h ⊢; exact h, _, m, e, h1, roundAbs_even h1 h'⟩)
    · rw [if_pos, h1]
      rw [← overflow_iff ha]
      refine lt_of_lt_of_le ?_ h2
      rw [show (1024 : Int) = 971 + (53 : Nat) by rfl, two_zpow_add_nat, mul_comm]
      refine mul_lt_mul_of_pos_left ?_ (two_zpow_pos _)
      norm_num

theorem add_rounded {x y : Double} {a b : ℚ} (hx : x.Denotes a) (hy : y.Denotes b) : (add x y).Rounded (a + b) := by
  obtain ⟨s, m, e, rfl, rfl⟩ := hx.fin
  obtain ⟨s', m', e', rfl, rfl⟩ := hy.fin
  exact round_rounded _ _

theorem sub_rounded {x y : Double} {a b : ℚ} (hx : x.Denotes a) (hy : y.Denotes b) : (sub x y).Rounded (a - b) := by
  obtain ⟨s, m, e, rfl, rfl⟩ := hx.fin
  obtain ⟨s', m', e', rfl, rfl⟩ := hy.fin
  exact round_rounded _ _

theorem mul_rounded {x y : Double} {a b : ℚ} (hx : x.Denotes a) (hy : y.Denotes b) : (mul x y).Rounded (a * b) := by
  obtain ⟨s, m, e, rfl, rfl⟩ := hx.fin
  obtain ⟨s', m', e', rfl, rfl⟩ := hy.fin
  exact round_rounded _ _

theorem div_rounded {x y : Double} {a b : ℚ} (hx : x.Denotes a) (hy : y.Denotes b) (hb : b ≠ 0) : (div x y).Rounded (a / b) := by
  obtain ⟨z, h⟩ := div_denotes hx hy hb
  rw [h]
  exact round_rounded _ _

theorem sub_wf (x y : Double) : (sub x y).WF := by
  cases x <;> cases y <;> unfold sub <;> dsimp only <;> (try split) <;> first | trivial | exact round_wf _ _ | skip
  rename_i h
  exact (roundAbs_spec _ (abs_pos.mpr h)).1

/-- A finite difference has finite operands and a small relative error. -/
theorem sub_err {x y : Double} {r : ℚ} (hx : x.WF) (hy : y.WF) (h : (sub x y).Denotes r) :
    ∃ a b, x.Denotes a ∧ y.Denotes b ∧ |r - (a - b)| ≤ |a - b| / 2 ^ 53 := by
  cases x with
  | nan => exact absurd h not_denotes_nan
  | inf s =>
    cases y with
    | nan => exact absurd h not_denotes_nan
    | inf s' =>
      unfold sub at h; dsimp only at h
      split at h
      · exact absurd h not_denotes_nan
      · exact absurd h not_denotes_inf
    | fin s' m' e' => exact absurd h not_denotes_inf
  | fin s m e =>
    cases y with
    | nan => exact absurd h not_denotes_nan
    | inf s' => exact absurd h not_denotes_inf
    | fin s' m' e' =>
      have h1 := denotes_fin hx
      have h2 := denotes_fin hy
      refine ⟨_, _, h1, h2, round_rel (z := s && !s') h (.inr ?_)⟩
      obtain ⟨k, hk⟩ := denotes_grid h1
      obtain ⟨k', hk'⟩ := denotes_grid h2
      exact ⟨k - k', by rw [hk, hk']; push_cast; ring⟩

/-- Operands denote numbers, results are rounded numbers. -/
def Step (d : Double) : ℚ ⊕ ℚ → Prop
  | .inl q => d.Denotes q
  | .inr q => d.Rounded q

end Double

namespace Vec
open Double

variable {n : Nat} {x y : List Double} {a b : Fin n → ℚ}

theorem on_inl (hx : Is Denotes x a) : On Step x n (fun i => .inl (ext a i)) := hx.on

theorem on_inr {f : Fin n → ℚ} (hx : On Step x n (fun i => .inr (ext f i))) : Is Rounded x f :=
  On.is (rel := Rounded) (g := ext f) hx fun i => ext_fin f i

theorem zipLoop_rounded {f : Double → Double → Double} {g : ℚ → ℚ → ℚ} (hf : ∀ {x y a b}, x.Denotes a → y.Denotes b → (f x y).Rounded (g a b))
    (hx : Is Denotes x a) (hy : Is Denotes y b) :
    ∃ z, zipLoop (fun s t => .ok (f s t)) (fun _ => y) n x = .ok z ∧ Is Rounded z (fun i => g (a i) (b i)) := by
  have := zipLoop_ok (A := Never) (h := fun i => .inr (ext (fun i => g (a i) (b i)) i)) (src := fun _ => y) (op := fun s t => .ok (f s t))
    (on_inl hx) (g := fun i => .inl (ext b i)) (fun {u v i} hi hu hv => Out.ok (by
      have := hf hu hv
      rw [ext_lt _ hi, ext_lt _ hi] at this
      show Rounded _ _
      rw [ext_lt _ hi]
      exact this)) (fun i x' hi _ => (on_inl hy).get hi)
  obtain ⟨z, z1, z2⟩ := this.never
  exact ⟨z, z1, on_inr z2⟩

theorem mapLoop_rounded {f : Double → Double → Double} {g : ℚ → ℚ} {l : Double} (hf : ∀ {x a}, x.Denotes a → (f x l).Rounded (g a))
    (hx : Is Denotes x a) :
    ∃ z, mapLoop (fun s t => .ok (f s t)) (fun _ => .ok l) x = .ok z ∧ Is Rounded z (fun i => g (a i)) := by
  have := loop_ok (A := Never) (g := fun i => .inr (ext (fun i => g (a i)) i)) (on_inl hx) (body := fun i x => do
      let s ← get x i
      let t ← (Except.ok l : Res Double)
      let t ← (Except.ok (f s t) : Res Double)
      set x i t) (fun i x' hi hx' => by
        refine Out.bind (hx'.get hi) fun u hu => ?_
        simp only [lt_irrefl, if_false] at hu
        rw [bind_ok, bind_ok]
        refine mapStep hi hx' ?_
        have := hf hu
        rw [ext_lt _ hi] at this
        show Rounded _ _
        rw [ext_lt _ hi]
        exact this)
  obtain ⟨z, z1, z2⟩ := this.never
  refine ⟨z, ?_, on_inr z2⟩
  unfold mapLoop
  rw [hx.1]
  exact z1

/-- The error of `p q - s t`. -/
theorem crossEntry_err {x0 y0 x1 y1 : Double} (h1 : x0.WF) (h2 : y0.WF) (h3 : x1.WF) (h4 : y1.WF) {r : ℚ}
    (h : (Double.sub (Double.mul x0 y0) (Double.mul x1 y1)).Denotes r) :
    ∃ a b c d, x0.Denotes a ∧ y0.Denotes b ∧ x1.Denotes c ∧ y1.Denotes d ∧
      |r - (a * b - c * d)| ≤ ((1 + 1 / 2 ^ 53) ^ 2 - 1) * (|a * b| + |c * d|) + 2 * eta * (1 + 1 / 2 ^ 53) := by
  obtain ⟨p, q, hp, hq, he⟩ := sub_err (mul_wf _ _) (mul_wf _ _) h
  obtain ⟨a, b, ha, hb, e1, _⟩ := mul_err h1 h2 hp
  obtain ⟨c, d, hc, hd, e2, _⟩ := mul_err h3 h4 hq
  refine ⟨a, b, c, d, ha, hb, hc, hd, ?_⟩
  set u : ℚ := 1 / 2 ^ 53 with hu
  have hu0 : 0 < u := by positivity
  rw [show |a * b| / 2 ^ 53 = u * |a * b| by rw [hu]; ring] at e1
  rw [show |c * d| / 2 ^ 53 = u * |c * d| by rw [hu]; ring] at e2
  rw [show |p - q| / 2 ^ 53 = u * |p - q| by rw [hu]; ring] at he
  clear_value u
  have t0 : p - q = (a * b - c * d) + ((p - a * b) - (q - c * d)) := by ring
  have t1 : |p - q| ≤ |a * b| + |c * d| + (|p - a * b| + |q - c * d|) := by
    rw [t0]
    exact (abs_add_le _ _).trans (add_le_add (abs_sub _ _) (abs_sub _ _))
  have t2 : |r - (a * b - c * d)| ≤ |r - (p - q)| + (|p - a * b| + |q - c * d|) := by
    have : r - (a * b - c * d) = (r - (p - q)) + ((p - a * b) - (q - c * d)) := by ring
    rw [this]
    exact (abs_add_le _ _).trans (add_le_add le_rfl (abs_sub _ _))
  have t3 := mul_le_mul_of_nonneg_left t1 hu0.le
  have t4 := mul_le_mul_of_nonneg_left (add_le_add e1 e2) hu0.le
  nlinarith

/-- The error of a sum, one step. -/
theorem sum_step {k : Nat} {s r S A p : ℚ} (hA : |S| ≤ A) (h1 : |s - S| ≤ ((1 + 1 / 2 ^ 53) ^ k - 1) * A)
    (h3 : |r - (s + p)| ≤ |s + p| / 2 ^ 53) : |r - (S + p)| ≤ ((1 + 1 / 2 ^ 53) ^ (k + 1) - 1) * (A + |p|) := by
  set u : ℚ := 1 / 2 ^ 53 with hu
  have hu0 : 0 < u := by positivity
  rw [show |s + p| / 2 ^ 53 = u * |s + p| by rw [hu]; ring] at h3
  clear_value u
  have t1 : |s + p| ≤ A + |p| + |s - S| := by
    have h : s + p = S + p + (s - S) := by ring
    rw [h]
    exact (abs_add_le _ _).trans (add_le_add ((abs_add_le _ _).trans (add_le_add hA le_rfl)) le_rfl)
  have t2 : |r - (S + p)| ≤ |r - (s + p)| + |s - S| := by
    have h : r - (S + p) = (r - (s + p)) + (s - S) := by ring
    rw [h]
    exact abs_add_le _ _
  have t3 := mul_le_mul_of_nonneg_left t1 hu0.le
  have t4 := mul_le_mul_of_nonneg_left h1 hu0.le
  have hP : 1 ≤ (1 + u) ^ k := one_le_pow₀ (by linarith)
  have hp := abs_nonneg p
  rw [pow_succ]
  nlinarith [mul_nonneg (mul_nonneg (sub_nonneg.mpr hP) hp) (by linarith : 0 ≤ 1 + u)]

end Vec

namespace Mat
open Double

variable {r c : Nat} {m m' : Mat Double} {M N : Matrix (Fin r) (Fin c) ℚ}

theorem full_inl (hm : Is Denotes m M) : Full Step m r c (fun i j => .inl (ext M i j)) := hm.full

theorem full_inr {P : Matrix (Fin r) (Fin c) ℚ} (hm : Full Step m r c (fun i j => .inr (ext P i j))) : Is Rounded m P :=
  On.is (rel := Rounded) (F := ext P) hm fun i j => ext_fin P i j

theorem fill_rounded {P : Matrix (Fin r) (Fin c) ℚ} {e : Nat → Nat → Res Double} (he : ∀ i j (hi : i < r) (hj : j < c), ∃ t, e i j = .ok t ∧ t.Rounded (P ⟨i, hi⟩ ⟨j, hj⟩)) :
    ∃ m, forEach r c (fun i j m => do let t ← e i j; m.set i j t) (alloc r c) = .ok m ∧ Is Rounded m P := by
  have := fill_ok (A := Never) (rel := Rounded) (G := ext P) (e := e) (r := r) (c := c) fun i j hi hj => by
    obtain ⟨t, t1, t2⟩ := he i j hi hj
    rw [t1, ext_lt P hi hj]
    exact Out.ok t2
  obtain ⟨z, z1, z2⟩ := this.never
  exact ⟨z, z1, z2.is fun i j => ext_fin P i j⟩

theorem Is.get_ok {T K : Type} {rel : T → K → Prop} {m : Mat T} {M : Matrix (Fin r) (Fin c) K} (h : Is rel m M) {i j : Nat} (hi : i < r) (hj : j < c) :
    ∃ t, m.get i j = .ok t ∧ rel t (M ⟨i, hi⟩ ⟨j, hj⟩) := by
  obtain ⟨t, h1, h2⟩ := h.2.2.2 ⟨i, hi⟩ ⟨j, hj⟩
  exact ⟨t, by simp only [] at h1; simp [Mat.get, h.2.1, h1], h2⟩

theorem zipLoop_rounded {f : Double → Double → Double} {g : ℚ → ℚ → ℚ} (hf : ∀ {x y a b}, x.Denotes a → y.Denotes b → (f x y).Rounded (g a b))
    (hm : Is Denotes m M) (hm' : Is Denotes m' N) {P : Matrix (Fin r) (Fin c) ℚ} (hP : ∀ i j, P i j = g (M i j) (N i j)) :
    ∃ z, zipLoop (fun s t => .ok (f s t)) m (fun _ => m') = .ok z ∧ Is Rounded z P := by
  have := zipLoop_ok (A := Never) (H := fun i j => .inr (ext P i j)) (src := fun _ => m') (op := fun s t => .ok (f s t))
    (full_inl hm) (G := fun i j => .inl (ext N i j)) (fun {u v i j} hi hj hu hv => Out.ok (by
      have := hf hu hv
      rw [ext_lt _ hi hj, ext_lt _ hi hj] at this
      show Rounded _ _
      rw [ext_lt _ hi hj, hP]
      exact this)) (fun i j x' hi hj _ => (full_inl hm').get hi hj trivial)
  obtain ⟨z, z1, z2⟩ := this.never
  exact ⟨z, z1, full_inr z2⟩

theorem mapLoop_rounded {f : Double → Double → Double} {g : ℚ → ℚ} {l : Double} (hf : ∀ {x a}, x.Denotes a → (f x l).Rounded (g a))
    (hm : Is Denotes m M) {P : Matrix (Fin r) (Fin c) ℚ} (hP : ∀ i j, P i j = g (M i j)) :
    ∃ z, mapLoop (fun s t => .ok (f s t)) m (fun _ => .ok l) = .ok z ∧ Is Rounded z P := by
  have := mapLoop_ok (A := Never) (H := fun i j => .inr (ext P i j)) (op := fun s t => .ok (f s t)) (a := l)
    (full_inl hm) (fun {u i j} hi hj hu => Out.ok (by
      have := hf hu
      rw [ext_lt _ hi hj] at this
      show Rounded _ _
      rw [ext_lt _ hi hj, hP]
      exact this))
  obtain ⟨z, z1, z2⟩ := this.never
  exact ⟨z, z1, full_inr z2⟩

/-- The matrix of the entries. -/
theorem Is.entries {T K : Type} {rel : T → K → Prop} {m : Mat T} {M : Matrix (Fin r) (Fin c) K} (h : Is rel m M) :
    ∃ D : Matrix (Fin r) (Fin c) T, Is (fun t k => t = k) m D ∧ ∀ i j, rel (D i j) (M i j) := by
  choose D h1 h2 using h.2.2.2
  exact ⟨D, ⟨h.1, h.2.1, h.2.2.1, fun i j => ⟨_, h1 i j, rfl⟩⟩, h2⟩

end Mat
end CppMaths
