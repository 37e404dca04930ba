import Verif.Proofs.Norm
/-!
# Rounding errors of `double` operations
-/

namespace CppMaths
namespace Double

/-- The relative error of rounding, unless the result is near zero. -/
theorem rnd_rel {a : ℚ} (ha : 0 < a) (h : expOf a = -1074 → rnd a = a ∨ 2 ^ (-1022 : Int) ≤ a) : |rnd a - a| ≤ a / 2 ^ 53 := by
  obtain ⟨_, _, k3 | k3⟩ := expOf_spec ha
  · rcases h k3 with h | h
    · rw [h, sub_self, abs_zero]; positivity
    · refine (rnd_near ha).trans ?_
      rw [k3]
      have : (2 : ℚ) ^ (-1074 : Int) / 2 = 2 ^ (-1022 : Int) / 2 ^ 53 := by
        rw [show (-1022 : Int) = -1074 + (52 : Nat) by norm_num, two_zpow_add_nat]; field_simp
      rw [this]
      gcongr
  · refine (rnd_near ha).trans ?_
    have h5 : (2 : ℚ) ^ expOf a / 2 = 2 ^ (expOf a + 52) / 2 ^ 53 := by
      rw [show expOf a + 52 = expOf a + (52 : Nat) by rfl, two_zpow_add_nat]; field_simp
    rw [h5]
    gcongr

theorem round_abs_sub {r q : ℚ} (h1 : 0 ≤ q → 0 ≤ r) (h2 : q ≤ 0 → r ≤ 0) : |r - q| = |(|r| - |q|)| := by
  rcases le_total 0 q with h | h
  · rw [abs_of_nonneg (h1 h), abs_of_nonneg h]
  · rw [abs_of_nonpos (h2 h), abs_of_nonpos h, show -r - -q = -(r - q) by ring, abs_neg]

/-- A finite result of `round` for a number that is not tiny, or a multiple of the smallest `double`. -/
theorem round_rel {z : Bool} {q r : ℚ} (h : (round z q).Denotes r)
    (hq : 2 ^ (-1022 : Int) ≤ |q| ∨ ∃ k : Int, q = k * 2 ^ (-1074 : Int)) : |r - q| ≤ |q| / 2 ^ 53 := by
  by_cases h0 : q = 0
  · rcases round_spec z q with ⟨r', h1, _, h3, _⟩ | ⟨h1, _⟩
    · rw [h.unique h1, h0] at *
      simp only [if_true, abs_eq_zero] at h3
      simp [h3]
    · rw [h1] at h
      obtain ⟨_, _, _, ⟨h, _⟩ | ⟨h, _⟩⟩ := h <;> cases h
  · rcases round_spec z q with ⟨r', h1, _, h3, h4, h5⟩ | ⟨h1, _⟩
    · rw [h.unique h1, round_abs_sub h4 h5, h3, if_neg h0]
      have ha : 0 < |q| := abs_pos.mpr h0
      refine rnd_rel ha fun he => ?_
      rcases hq with hq | ⟨k, hk⟩
      · exact .inr hq
      · left
        unfold rnd
        rw [he]
        have : |q| / 2 ^ (-1074 : Int) = (k.natAbs : ℚ) := by
          rw [hk, abs_mul, abs_of_pos (two_zpow_pos _), mul_div_cancel_right₀ _ (two_zpow_pos _).ne', Nat.cast_natAbs, Int.cast_abs]
        rw [this, halfEven_nat, ← this, div_mul_cancel₀ _ (two_zpow_pos _).ne']
    · rw [h1] at h
      obtain ⟨_, _, _, ⟨h, _⟩ | ⟨h, _⟩⟩ := h <;> cases h

theorem denotes_round {z : Bool} {q r : ℚ} (h : (round z q).Denotes r) : |r - q| ≤ |q| / 2 ^ 53 + eta ∧ (0 ≤ q → 0 ≤ r) := by
  rcases round_spec z q with ⟨r', h1, h2, _, h4, _⟩ | ⟨h1, _⟩
  · rw [h.unique h1]; exact ⟨h2, h4⟩
  · rw [h1] at h
    obtain ⟨_, _, _, ⟨h, _⟩ | ⟨h, _⟩⟩ := h <;> cases h

theorem not_denotes_nan {q : ℚ} : ¬nan.Denotes q := by rintro ⟨_, _, _, ⟨h, _⟩ | ⟨h, _⟩⟩ <;> cases h
theorem not_denotes_inf {s : Bool} {q : ℚ} : ¬(inf s).Denotes q := by rintro ⟨_, _, _, ⟨h, _⟩ | ⟨h, _⟩⟩ <;> cases h

/-- Every finite `double` is a multiple of the smallest one. -/
theorem denotes_grid {d : Double} {q : ℚ} (h : d.Denotes q) : ∃ k : Int, q = k * 2 ^ (-1074 : Int) := by
  obtain ⟨w, m, e, h⟩ := h
  have he : -1074 ≤ e := by
    rcases h with ⟨rfl, _⟩ | ⟨rfl, _⟩ <;> exact w.2.1
  obtain ⟨j, hj⟩ := Int.eq_ofNat_of_zero_le (show 0 ≤ e + 1074 by omega)
  have h2 : (2 : ℚ) ^ e = 2 ^ j * 2 ^ (-1074 : Int) := by
    rw [← zpow_natCast, ← zpow_add₀ (by norm_num)]; congr 1; omega
  rcases h with ⟨_, rfl⟩ | ⟨_, rfl⟩
  · exact ⟨m * 2 ^ j, by rw [h2]; push_cast; ring⟩
  · exact ⟨-(m * 2 ^ j), by rw [h2]; push_cast; ring⟩

/-- A finite sum has finite summands and a small relative error. -/
theorem add_err {x y : Double} {r : ℚ} (hx : x.WF) (hy : y.WF) (h : (add x y).Denotes r) :
    ∃ a b, x.Denotes a ∧ y.Denotes b ∧ |r - (a + b)| ≤ |a + b| / 2 ^ 53 ∧ (0 ≤ a → 0 ≤ b → 0 ≤ r) := by
  cases x with
  | nan => exact absurd h not_denotes_nan
  | inf s =>
    cases y with
    | nan => exact absurd h not_denotes_nan
    | inf s' =>
      unfold add at h; dsimp only at h
      split at h
      · exact absurd h not_denotes_inf
      · exact absurd h not_denotes_nan
    | fin s' m' e' => exact absurd h not_denotes_inf
  | fin s m e =>
    cases y with
    | nan => exact absurd h not_denotes_nan
    | inf s' => exact absurd h not_denotes_inf
    | fin s' m' e' =>
      have h1 := denotes_fin hx
      have h2 := denotes_fin hy
      refine ⟨_, _, h1, h2, round_rel (z := s && s') h (.inr ?_), fun ha hb => (denotes_round (z := s && s') h).2 (add_nonneg ha hb)⟩
      obtain ⟨k, hk⟩ := denotes_grid h1
      obtain ⟨k', hk'⟩ := denotes_grid h2
      exact ⟨k + k', by rw [hk, hk']; push_cast; ring⟩

/-- A finite product has finite factors and a small error. -/
theorem mul_err {x y : Double} {r : ℚ} (hx : x.WF) (hy : y.WF) (h : (mul x y).Denotes r) :
    ∃ a b, x.Denotes a ∧ y.Denotes b ∧ |r - a * b| ≤ |a * b| / 2 ^ 53 + eta ∧ (0 ≤ a * b → 0 ≤ r) := by
  cases x with
  | nan => exact absurd h not_denotes_nan
  | inf s =>
    cases y with
    | nan => exact absurd h not_denotes_nan
    | inf s' => exact absurd h not_denotes_inf
    | fin s' m' e' =>
      unfold mul at h; dsimp only at h
      split at h
      · exact absurd h not_denotes_nan
      · exact absurd h not_denotes_inf
  | fin s m e =>
    cases y with
    | nan => exact absurd h not_denotes_nan
    | inf s' =>
      unfold mul at h; dsimp only at h
      split at h
      · exact absurd h not_denotes_nan
      · exact absurd h not_denotes_inf
    | fin s' m' e' =>
      have := denotes_round (z := s ^^ s') h
      exact ⟨_, _, denotes_fin hx, denotes_fin hy, this⟩

theorem round_wf (z : Bool) (q : ℚ) : (round z q).WF := by
  rcases round_spec z q with ⟨r, h, _⟩ | ⟨h, _⟩
  · exact h.1
  · rw [h]; trivial

theorem add_wf (x y : Double) : (add x y).WF := by
  cases x <;> cases y <;> unfold add <;> dsimp only <;> (try split) <;> first | trivial | exact round_wf _ _

theorem mul_wf (x y : Double) : (mul x y).WF := by
  cases x <;> cases y <;> unfold mul <;> dsimp only <;> (try split) <;> first | trivial | exact round_wf _ _

/-- Division of finite numbers. -/
theorem div_denotes {x y : Double} {a b : ℚ} (hx : x.Denotes a) (hy : y.Denotes b) (hb : b ≠ 0) : ∃ z, div x y = round z (a / b) := by
  obtain ⟨s, m, e, rfl, rfl⟩ := hx.fin
  obtain ⟨s', m', e', rfl, rfl⟩ := hy.fin
  have : m' ≠ 0 := by rintro rfl; simp [real] at hb
  exact ⟨s ^^ s', by simp [div, this]⟩

/-- A result of ordinary size. -/
theorem round_normal (z : Bool) {q : ℚ} (h : q = 0 ∨ 2 ^ (-1022 : Int) ≤ |q|) (hq : |q| ≤ 2 ^ (1023 : Int)) :
    ∃ r, (round z q).Denotes r ∧ |r - q| ≤ |q| / 2 ^ 53 := by
  rcases round_spec z q with ⟨r, h1, _⟩ | ⟨_, h2⟩
  · refine ⟨r, h1, round_rel h1 ?_⟩
    rcases h with rfl | h
    · exact .inr ⟨0, by simp⟩
    · exact .inl h
  · exfalso
    by_cases h0 : q = 0
    · subst h0
      have : rnd |0| = 0 := by simp [rnd, halfEven]
      rw [this] at h2
      exact absurd h2 (not_le.mpr (two_zpow_pos _))
    · have := rnd_le (a := |q|) (k := 1) (e := 1023) (by norm_num) (by norm_num) (abs_pos.mpr h0) (by simpa using hq)
      have h3 : (2 : ℚ) ^ (1023 : Int) < 2 ^ (1024 : Int) := zpow_lt_zpow_right₀ (by norm_num) (by norm_num)
      simp only [Nat.cast_one, one_mul] at this
      exact absurd (h2.trans this) (not_le.mpr h3)

end Double

namespace Vec
open Double

/-- Bound of the error of a dot product: one step. -/
theorem dot_step {n : Nat} {s p r S A ab η : ℚ} (hη : 0 ≤ η) (hA : |S| ≤ A)
    (h1 : |s - S| ≤ ((1 + 1 / 2 ^ 53) ^ (n + 1) - 1) * A + n * η * (1 + 1 / 2 ^ 53) ^ n)
    (h2 : |p - ab| ≤ |ab| / 2 ^ 53 + η) (h3 : |r - (s + p)| ≤ |s + p| / 2 ^ 53) :
    |r - (S + ab)| ≤ ((1 + 1 / 2 ^ 53) ^ (n + 2) - 1) * (A + |ab|) + (n + 1 : Nat) * η * (1 + 1 / 2 ^ 53) ^ (n + 1) := by
  set u : ℚ := 1 / 2 ^ 53 with hu
  have hu0 : 0 < u := by positivity
  have e2 : |ab| / 2 ^ 53 = u * |ab| := by rw [hu]; ring
  have e3 : |s + p| / 2 ^ 53 = u * |s + p| := by rw [hu]; ring
  rw [e2] at h2
  rw [e3] at h3
  have t1 : |s + p| ≤ A + |ab| + |s - S| + |p - ab| := by
    have h : s + p = S + ab + (s - S) + (p - ab) := by ring
    rw [h]
    refine (abs_add_le _ _).trans (add_le_add ((abs_add_le _ _).trans (add_le_add ((abs_add_le _ _).trans (add_le_add hA le_rfl)) le_rfl)) le_rfl)
  have t2 : |r - (S + ab)| ≤ |r - (s + p)| + |s - S| + |p - ab| := by
    have h : r - (S + ab) = (r - (s + p)) + (s - S) + (p - ab) := by ring
    rw [h]
    exact (abs_add_le _ _).trans (add_le_add (abs_add_le _ _) le_rfl)
  have hab := abs_nonneg ab
  have hA0 : 0 ≤ A := (abs_nonneg _).trans hA
  set P := (1 + u) ^ n with hP
  have hP1 : 1 ≤ P := one_le_pow₀ (by linarith)
  have p1 : (1 + u) ^ (n + 1) = P * (1 + u) := pow_succ _ _
  have p2 : (1 + u) ^ (n + 2) = P * (1 + u) * (1 + u) := by rw [pow_succ, p1]
  rw [p1] at h1 ⊢
  rw [p2]
  have hn : (0 : ℚ) ≤ n := by positivity
  have s1 : |r - (S + ab)| ≤ u * (A + |ab|) + (1 + u) * (((P * (1 + u) - 1) * A + n * η * P) + (u * |ab| + η)) := by
    have : u * |s + p| ≤ u * (A + |ab| + |s - S| + |p - ab|) := mul_le_mul_of_nonneg_left t1 hu0.le
    nlinarith
  refine s1.trans ?_
  push_cast
  have q1 : 0 ≤ (P - 1) * η := mul_nonneg (by linarith) hη
  have q2 : 0 ≤ (P - 1) * |ab| := mul_nonneg (by linarith) hab
  nlinarith [mul_nonneg q1 hu0.le, mul_nonneg q2 hu0.le, mul_nonneg (mul_nonneg q2 hu0.le) hu0.le]

/-- The error of a dot product of `double`s with a finite result. -/
theorem dot_double {n : Nat} (x y : Fin n → Double) (hx : ∀ i, (x i).WF) (hy : ∀ i, (y i).WF) :
    ∃ d, dot Scalar.double (List.ofFn x) (List.ofFn y) = .ok d ∧ d.WF ∧ ∀ q, d.Denotes q →
      ∃ a b : Fin n → ℚ, (∀ i, (x i).Denotes (a i) ∧ (y i).Denotes (b i)) ∧
        |q - ∑ i, a i * b i| ≤ ((1 + 1 / 2 ^ 53) ^ (n + 1) - 1) * ∑ i, |a i * b i| + n * eta * (1 + 1 / 2 ^ 53) ^ n ∧
        ((∀ i, 0 ≤ a i * b i) → 0 ≤ q) := by
  unfold dot
  rw [if_neg (by simp)]
  have hz : (Scalar.double).ofInt 0 = .ok (fin false 0 (-1074)) := by simp [Scalar.double, Double.ofInt, Double.round]
  rw [hz, bind_ok, List.length_ofFn]
  have := forUp_ok (A := Never) (Inv := fun k d => d.WF ∧ ∀ q, d.Denotes q → ∃ a b : Nat → ℚ,
      (∀ i : Fin n, i.val < k → (x i).Denotes (a i) ∧ (y i).Denotes (b i)) ∧
      |q - ∑ i ∈ Finset.range k, a i * b i| ≤ ((1 + 1 / 2 ^ 53) ^ (k + 1) - 1) * ∑ i ∈ Finset.range k, |a i * b i| + k * eta * (1 + 1 / 2 ^ 53) ^ k ∧
      ((∀ i < k, 0 ≤ a i * b i) → 0 ≤ q)) (lo := 0) (n := n)
    (body := fun i r => do
      let a ← get (List.ofFn x) i
      let b ← get (List.ofFn y) i
      let p ← Scalar.double.mul a b
      Scalar.double.addA r p) (s := fin false 0 (-1074)) ?_ ?_
  · obtain ⟨d, d1, d2, d3⟩ := this.never
    refine ⟨d, d1, d2, fun q hq => ?_⟩
    obtain ⟨a, b, h1, h2, h3⟩ := d3 q hq
    refine ⟨fun i => a i, fun i => b i, fun i => h1 i (by omega), ?_, fun h => h3 fun i hi => h ⟨i, by omega⟩⟩
    rw [zero_add, Finset.sum_range, Finset.sum_range] at h2
    exact h2
  · refine ⟨⟨by norm_num, by norm_num, by norm_num, .inr rfl⟩, fun q hq => ⟨fun _ => 0, fun _ => 0, fun i hi => absurd hi (by omega), ?_, fun _ => ?_⟩⟩ <;>
    · obtain ⟨_, m, e, ⟨h, rfl⟩ | ⟨h, rfl⟩⟩ := hq
      · cases h; simp
      · cases h
  · intro k d _ hk hd
    have hk' : k < n := by omega
    have e1 : get (List.ofFn x) k = .ok (x ⟨k, hk'⟩) := by simp [get, hk']
    have e2 : get (List.ofFn y) k = .ok (y ⟨k, hk'⟩) := by simp [get, hk']
    simp only [e1, e2, bind_ok]
    refine Out.ok ⟨add_wf _ _, fun q hq => ?_⟩
    obtain ⟨s, p, hs, hp, he, hpos⟩ := add_err hd.1 (mul_wf _ _) hq
    obtain ⟨a', b', ha', hb', he', hpos'⟩ := mul_err (hx _) (hy _) hp
    obtain ⟨a, b, h1, h2, h3⟩ := hd.2 s hs
    refine ⟨fun i => if i = k then a' else a i, fun i => if i = k then b' else b i, fun i hi => ?_, ?_, fun h => ?_⟩
    · by_cases hik : i.val = k
      · have : i = ⟨k, hk'⟩ := Fin.ext hik
        subst this
        simp [ha', hb']
      · simp only [hik, if_false]; exact h1 i (by omega)
    · have hc : ∀ g : ℚ → ℚ, ∑ i ∈ Finset.range k, g ((if i = k then a' else a i) * (if i = k then b' else b i)) = ∑ i ∈ Finset.range k, g (a i * b i) := fun g =>
        Finset.sum_congr rfl fun i hi => by
          have : i ≠ k := by have := Finset.mem_range.mp hi; omega
          simp [this]
      rw [Finset.sum_range_succ, Finset.sum_range_succ, hc (fun t => t), hc (fun t => |t|)]
      simp only [if_true]
      exact dot_step eta_pos.le (Finset.abs_sum_le_sum_abs _ _) h2 he' he
    · refine hpos (h3 fun i hi => ?_) (hpos' ?_)
      · have := h i (by omega)
        simpa [show i ≠ k by omega] using this
      · have := h k (by omega)
        simpa using this

/-- Division of a vector of `double`s by a scalar. -/
theorem divScalar_double {n : Nat} (x : Fin n → Double) (l : Double) :
    divScalar Scalar.double (List.ofFn x) l = .ok (List.ofFn fun i => Double.div (x i) l) := by
  have h := loop_ok (A := Never) (rel := fun t (k : Option Double) => k = some t) (x := List.ofFn x) (n := n)
    (f := fun i => if h : i < n then some (x ⟨i, h⟩) else none)
    (g := fun i => if h : i < n then some (Double.div (x ⟨i, h⟩) l) else none)
    (body := fun i x => do
      let a ← get x i
      let b ← (Except.ok l : Res Double)
      let t ← Scalar.double.divA a b
      set x i t) ⟨by simp, fun i hi => ⟨x ⟨i, hi⟩, by simp [hi], by simp [hi]⟩⟩ (fun i x' hi hx' => by
        refine Out.bind (hx'.get hi) fun u hu => ?_
        simp only [lt_irrefl, if_false, dif_pos hi, Option.some.injEq] at hu
        rw [bind_ok, ← hu]
        exact mapStep hi hx' (by simp [hi]))
  unfold divScalar mapLoop
  obtain ⟨y, y1, y2⟩ := h.never
  rw [List.length_ofFn, y1]
  congr 1
  refine List.ext_getElem? fun i => ?_
  by_cases hi : i < n
  · obtain ⟨t, t1, t2⟩ := y2.2 i hi
    rw [t1, ← t2]; simp [hi]
  · have : y.length = n := y2.1
    rw [List.getElem?_eq_none (by omega), List.getElem?_eq_none (by simp; omega)]

/-- A finite square root has a finite, nonnegative argument, and a small relative error. -/
theorem sqrt_err {d : Double} {q : ℚ} (hd : d.WF) (h : (Double.sqrt d).Denotes q) :
    ∃ s, d.Denotes s ∧ 0 ≤ s ∧ 0 ≤ q ∧ |q ^ 2 - s| ≤ ((1 + 1 / 2 ^ 53) ^ 2 - 1) * s := by
  cases d with
  | nan => exact absurd h not_denotes_nan
  | inf s =>
    cases s
    · exact absurd h not_denotes_inf
    · exact absurd h not_denotes_nan
  | fin s m e =>
    by_cases hm : m = 0
    · subst hm
      have h1 := denotes_fin hd
      have h2 : real s 0 e = 0 := by simp [real]
      rw [h2] at h1
      have h3 : (Double.sqrt (fin s 0 e)) = fin s 0 e := by simp [Double.sqrt]
      rw [h3] at h
      rw [h.unique h1]
      exact ⟨0, h1, le_rfl, le_rfl, by simp⟩
    · cases s with
      | true =>
        have : Double.sqrt (fin true m e) = nan := by simp [Double.sqrt, hm]
        rw [this] at h
        exact absurd h not_denotes_nan
      | false =>
        have h1 := denotes_fin hd
        have hpos : 0 < real false m e := by
          rw [real_false]
          have : (0 : ℚ) < m := by exact_mod_cast Nat.pos_of_ne_zero hm
          have := two_zpow_pos e
          positivity
        obtain ⟨r, r1, r2, -, r4⟩ := sqrt_spec h1 hpos
        rw [h.unique r1]
        refine ⟨_, h1, hpos.le, r2.le, ?_⟩
        set a := real false m e
        have haR : (0 : ℝ) < a := by exact_mod_cast hpos
        have hss : √(a : ℝ) * √(a : ℝ) = a := Real.mul_self_sqrt haR.le
        set t := √(a : ℝ)
        have ht : 0 ≤ t := Real.sqrt_nonneg _
        have h5 : |((r : ℝ)) + t| ≤ (2 + 1 / 2 ^ 53) * t := by
          have : (r : ℝ) + t = (r - t) + 2 * t := by ring
          rw [this]
          refine (abs_add_le _ _).trans ?_
          rw [abs_of_nonneg (show 0 ≤ 2 * t by linarith)]
          linarith
        have h6 : |(r : ℝ) ^ 2 - a| ≤ ((1 + 1 / 2 ^ 53) ^ 2 - 1) * a := by
          rw [← hss, show (r : ℝ) ^ 2 - t * t = (r - t) * (r + t) by ring, abs_mul]
          have := mul_le_mul r4 h5 (abs_nonneg _) (by positivity)
          refine this.trans (le_of_eq (by ring))
        have h7 : ((|r ^ 2 - a| : ℚ) : ℝ) ≤ ((((1 + 1 / 2 ^ 53) ^ 2 - 1) * a : ℚ) : ℝ) := by
          push_cast; exact h6
        exact_mod_cast h7

/-- Bernoulli's inequality in the form needed for error bounds. -/
theorem one_add_pow_le {u : ℚ} (hu : 0 ≤ u) {k : Nat} (hk : k * u ≤ 1 / 2) : (1 + u) ^ k ≤ 1 + 2 * k * u := by
  induction k with
  | zero => simp
  | succ k ih =>
    push_cast at hk ⊢
    have h1 := ih (by linarith)
    have hk0 : (0 : ℚ) ≤ k := by positivity
    rw [pow_succ]
    have h2 : (1 + u) ^ k * (1 + u) ≤ (1 + 2 * k * u) * (1 + u) := mul_le_mul_of_nonneg_right h1 (by linarith)
    nlinarith [mul_nonneg hk0 hu]

/-- Rounding a number of absolute value at most `2^1023` gives a finite one. -/
theorem round_finite (z : Bool) {q : ℚ} (hq : |q| ≤ 2 ^ (1023 : Int)) : ∃ r, (round z q).Denotes r := by
  rcases round_spec z q with ⟨r, h1, _⟩ | ⟨_, h2⟩
  · exact ⟨r, h1⟩
  · exfalso
    by_cases h0 : q = 0
    · rw [h0] at h2
      have : rnd |0| = 0 := by simp [rnd, halfEven]
      rw [this] at h2
      exact absurd h2 (not_le.mpr (two_zpow_pos _))
    · have h7 := rnd_le (a := |q|) (k := 1) (e := 1023) (by norm_num) (by norm_num) (abs_pos.mpr h0) (by rw [Nat.cast_one, one_mul]; exact hq)
      have h8 : (2 : ℚ) ^ (1023 : Int) < 2 ^ (1024 : Int) := zpow_lt_zpow_right₀ (by norm_num) (by norm_num)
      rw [Nat.cast_one, one_mul] at h7
      exact absurd (h2.trans h7) (not_le.mpr h8)

/-- A dot product of finite `double`s is finite if its absolute products add up to at most a quarter of a number `M` below
which rounding gives finite numbers. -/
theorem dot_finite_aux {M : ℚ} (hM0 : 0 ≤ M) (hM : ∀ (z : Bool) (q : ℚ), |q| ≤ 4 * M → ∃ r, (round z q).Denotes r)
    (hMη : 2 ^ 52 * eta ≤ M) {n : Nat} (hn : n < 2 ^ 52) (x y : Fin n → Double) (a b : Fin n → ℚ) (hx : ∀ i, (x i).Denotes (a i))
    (hy : ∀ i, (y i).Denotes (b i)) (hS : ∑ i, |a i * b i| ≤ M) :
    ∃ d q, dot Scalar.double (List.ofFn x) (List.ofFn y) = .ok d ∧ d.Denotes q := by
  unfold dot
  rw [if_neg (by simp)]
  have hz : (Scalar.double).ofInt 0 = .ok (fin false 0 (-1074)) := by simp [Scalar.double, Double.ofInt, Double.round]
  rw [hz, bind_ok, List.length_ofFn]
  set u : ℚ := 1 / 2 ^ 53 with hu
  have hu0 : 0 < u := by positivity
  have hη := eta_pos
  set A : Nat → ℚ := fun k => ∑ i : Fin n, if i.val < k then |a i * b i| else 0 with hA
  have hA0 : ∀ k, 0 ≤ A k := fun k => Finset.sum_nonneg fun i _ => by split <;> positivity
  have hAn : ∀ k, A k ≤ M := fun k => (Finset.sum_le_sum fun i _ => by split; exacts [le_rfl, abs_nonneg _]).trans hS
  have hAs : ∀ k (hk : k < n), A (k + 1) = A k + |a ⟨k, hk⟩ * b ⟨k, hk⟩| := fun k hk => by
    have : |a ⟨k, hk⟩ * b ⟨k, hk⟩| = ∑ i : Fin n, if i = ⟨k, hk⟩ then |a i * b i| else 0 := by simp
    rw [hA, this]
    dsimp only
    rw [← Finset.sum_add_distrib]
    refine Finset.sum_congr rfl fun i _ => ?_
    by_cases h1 : i.val < k
    · have : i ≠ ⟨k, hk⟩ := by rintro rfl; simp at h1
      simp [this, h1, Nat.lt_succ_of_lt h1]
    · by_cases h2 : i = ⟨k, hk⟩
      · subst h2; simp
      · have : ¬i.val < k + 1 := fun h => h2 (Fin.ext (by dsimp only; omega))
        simp [h1, h2, this]
  have hP : ∀ k, k ≤ n → (1 + u) ^ (k + 1) ≤ 2 := fun k hk => by
    have hk' : ((k + 1 : Nat) : ℚ) * u ≤ 1 / 2 := by
      have : ((k + 1 : Nat) : ℚ) ≤ 2 ^ 52 := by exact_mod_cast (by omega : k + 1 ≤ 2 ^ 52)
      calc ((k + 1 : Nat) : ℚ) * u ≤ 2 ^ 52 * u := mul_le_mul_of_nonneg_right this hu0.le
        _ = 1 / 2 := by rw [hu]; norm_num
    have h := one_add_pow_le hu0.le hk'
    clear_value u
    rw [mul_assoc] at h
    linarith
  have hB : ∀ k, k ≤ n → (A k + k * eta) * (1 + u) ^ (k + 1) ≤ 4 * M := fun k hk => by
    have h1 : (k : ℚ) * eta ≤ M := by
      have : (k : ℚ) ≤ 2 ^ 52 := by exact_mod_cast (by omega : k ≤ 2 ^ 52)
      exact (mul_le_mul_of_nonneg_right this hη.le).trans hMη
    calc (A k + k * eta) * (1 + u) ^ (k + 1) ≤ (M + M) * 2 :=
          mul_le_mul (add_le_add (hAn k) h1) (hP k hk) (by positivity) (by linarith)
      _ = 4 * M := by ring
  have := forUp_ok (A := Never) (Inv := fun k d => ∃ s, d.Denotes s ∧ |s| ≤ (A k + k * eta) * (1 + u) ^ (k + 1)) (lo := 0) (n := n)
    (body := fun i r => do
      let a ← get (List.ofFn x) i
      let b ← get (List.ofFn y) i
      let p ← Scalar.double.mul a b
      Scalar.double.addA r p) (s := fin false 0 (-1074)) ?_ ?_
  · obtain ⟨d, d1, s, d2, _⟩ := this.never
    exact ⟨d, s, d1, d2⟩
  · refine ⟨real false 0 (-1074), denotes_fin ⟨by norm_num, by norm_num, by norm_num, .inr rfl⟩, ?_⟩
    have : real false 0 (-1074) = 0 := by simp [real]
    rw [this, abs_zero]
    have := hA0 0
    positivity
  · rintro k d _ hk ⟨s, hs, hsb⟩
    have hk' : k < n := by omega
    have e1 : get (List.ofFn x) k = .ok (x ⟨k, hk'⟩) := by simp [get, hk']
    have e2 : get (List.ofFn y) k = .ok (y ⟨k, hk'⟩) := by simp [get, hk']
    simp only [e1, e2, bind_ok]
    set a' := a ⟨k, hk'⟩
    set b' := b ⟨k, hk'⟩
    have hab : |a' * b'| ≤ A (k + 1) := by rw [hAs k hk']; linarith [hA0 k]
    obtain ⟨p, hp⟩ : ∃ p, (Double.mul (x ⟨k, hk'⟩) (y ⟨k, hk'⟩)).Denotes p := by
      obtain ⟨z, hz⟩ : ∃ z, Double.mul (x ⟨k, hk'⟩) (y ⟨k, hk'⟩) = round z (a' * b') := by
        obtain ⟨s1, m1, e1, h1, h1'⟩ := (hx ⟨k, hk'⟩).fin
        obtain ⟨s2, m2, e2, h2, h2'⟩ := (hy ⟨k, hk'⟩).fin
        exact ⟨s1 ^^ s2, by rw [h1, h2, show a' = _ from h1', show b' = _ from h2']; rfl⟩
      rw [hz]
      exact hM z _ (hab.trans ((hAn _).trans (by linarith)))
    obtain ⟨a2, b2, ha2, hb2, hpe, _⟩ := mul_err (hx _).1 (hy _).1 hp
    rw [ha2.unique (hx _), hb2.unique (hy _)] at hpe
    have hpb : |p| ≤ |a' * b'| * (1 + u) + eta := by
      have h1 : |p| ≤ |p - a' * b'| + |a' * b'| := by
        have := abs_add_le (p - a' * b') (a' * b'); simpa using this
      have h2 : |a' * b'| / 2 ^ 53 = |a' * b'| * u := by rw [hu]; ring
      have hpe : |p - a' * b'| ≤ |a' * b'| / 2 ^ 53 + eta := hpe
      rw [h2] at hpe
      exact (h1.trans (add_le_add hpe le_rfl)).trans (le_of_eq (by ring))
    set Q := (1 + u) ^ (k + 1) with hQ
    have hQ1 : 1 + u ≤ Q := by
      rw [hQ, pow_succ]
      have : 1 ≤ (1 + u) ^ k := one_le_pow₀ (by linarith)
      nlinarith
    have hsp : |s + p| ≤ (A (k + 1) + (k + 1 : Nat) * eta) * Q := by
      rw [hAs k hk']
      refine (abs_add_le _ _).trans ((add_le_add hsb hpb).trans ?_)
      have h1 : |a' * b'| * (1 + u) ≤ |a' * b'| * Q := mul_le_mul_of_nonneg_left hQ1 (abs_nonneg _)
      have h2 : eta * 1 ≤ eta * Q := mul_le_mul_of_nonneg_left (by linarith) hη.le
      push_cast
      linarith
    have hpos : 0 ≤ A (k + 1) + (k + 1 : Nat) * eta := add_nonneg (hA0 _) (by positivity)
    have hstep : (A (k + 1) + (k + 1 : Nat) * eta) * (1 + u) ^ (k + 1 + 1) = (A (k + 1) + (k + 1 : Nat) * eta) * Q * (1 + u) := by
      rw [pow_succ (1 + u) (k + 1)]; ring
    have hfin : |s + p| ≤ 4 * M := by
      refine hsp.trans (le_trans ?_ (hB (k + 1) hk'))
      rw [hstep]
      have : 0 ≤ (A (k + 1) + (k + 1 : Nat) * eta) * Q := mul_nonneg hpos (by linarith)
      nlinarith
    obtain ⟨z, hz⟩ : ∃ z, Double.add d (Double.mul (x ⟨k, hk'⟩) (y ⟨k, hk'⟩)) = round z (s + p) := by
      obtain ⟨s1, m1, e1, h1, h1'⟩ := hs.fin
      obtain ⟨s2, m2, e2, h2, h2'⟩ := hp.fin
      exact ⟨s1 && s2, by rw [h1, h2, h1', h2']; rfl⟩
    obtain ⟨r, hr⟩ := hM z _ hfin
    rw [← hz] at hr
    obtain ⟨s2, p2, hs2, hp2, hre, _⟩ := add_err hs.1 hp.1 hr
    rw [hs2.unique hs, hp2.unique hp] at hre
    refine Out.ok ⟨r, hr, ?_⟩
    rw [hstep]
    have h1 : |r| ≤ |r - (s + p)| + |s + p| := by
      have := abs_add_le (r - (s + p)) (s + p); simpa using this
    have h2 : |s + p| / 2 ^ 53 = |s + p| * u := by rw [hu]; ring
    have h3 : |s + p| * (1 + u) ≤ (A (k + 1) + (k + 1 : Nat) * eta) * Q * (1 + u) := mul_le_mul_of_nonneg_right hsp (by linarith)
    rw [h2] at hre
    exact ((h1.trans (add_le_add hre le_rfl)).trans (le_of_eq (by ring))).trans h3

/-- A dot product of finite `double`s is finite if its absolute products add up to at most `2^1021`. -/
theorem dot_finite {n : Nat} (hn : n < 2 ^ 52) (x y : Fin n → Double) (a b : Fin n → ℚ) (hx : ∀ i, (x i).Denotes (a i))
    (hy : ∀ i, (y i).Denotes (b i)) (hS : ∑ i, |a i * b i| ≤ 2 ^ (1021 : Int)) :
    ∃ d q, dot Scalar.double (List.ofFn x) (List.ofFn y) = .ok d ∧ d.Denotes q := by
  refine dot_finite_aux (two_zpow_pos 1021).le (fun z q h => round_finite z (h.trans (le_of_eq ?_))) ?_ hn x y a b hx hy hS
  · rw [show (4 : ℚ) = 2 ^ (2 : Int) by norm_num, ← zpow_add₀ (by norm_num)]; rfl
  · unfold eta
    rw [show (2 : ℚ) ^ 52 = 2 ^ (52 : Int) by norm_cast, ← zpow_add₀ (by norm_num)]
    exact two_zpow_le (by norm_num)

/-- The square root of a finite nonnegative number is finite. -/
theorem sqrt_finite {d : Double} {s : ℚ} (h : d.Denotes s) (hs : 0 ≤ s) : ∃ q, (Double.sqrt d).Denotes q := by
  rcases hs.lt_or_eq with h0 | h0
  · obtain ⟨r, r1, _⟩ := sqrt_spec h h0
    exact ⟨r, r1⟩
  · obtain ⟨s', m, e, rfl, h2⟩ := h.fin
    have hm : m = 0 := by
      by_contra hm
      rw [← h0] at h2
      cases s' <;> simp [real, hm, (two_zpow_pos e).ne'] at h2
    refine ⟨s, ?_⟩
    have : Double.sqrt (fin s' m e) = fin s' m e := by simp [Double.sqrt, hm]
    rw [this]; exact h

end Vec
end CppMaths
