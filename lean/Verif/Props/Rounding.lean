import Verif.Props.Machine
import Verif.Proofs.Rounding
/-!
# C113, C114: rounding in vectors and matrices of `double`
-/

namespace CppMaths
open Double

/-! ### C113: entrywise operations are correctly rounded -/

/-- C113 for vectors: sums, differences, multiples and quotients by a nonzero number, and the compound assignments, have
the entries that IEEE 754 prescribes: each is the exact entry, rounded once. -/
theorem C113_vec {n : Nat} {x y : List Double} {a b : Fin n → ℚ} (hx : Vec.Is Denotes x a) (hy : Vec.Is Denotes y b) :
    (∃ z, Vec.add .double x y = .ok z ∧ Vec.addAssign .double x y = .ok z ∧ Vec.Is Rounded z (fun i => a i + b i)) ∧
    (∃ z, Vec.sub .double x y = .ok z ∧ Vec.subAssign .double x y = .ok z ∧ Vec.Is Rounded z (fun i => a i - b i)) ∧
    ∀ {l : Double} {k : ℚ}, l.Denotes k →
      (∃ z, Vec.smul .double l x = .ok z ∧ Vec.mulScalar .double x l = .ok z ∧ Vec.mulAssign .double x l = .ok z ∧
        Vec.Is Rounded z (fun i => a i * k)) ∧
      (k ≠ 0 → ∃ z, Vec.divScalar .double x l = .ok z ∧ Vec.divAssign .double x l = .ok z ∧ Vec.Is Rounded z (fun i => a i / k)) := by
  have hl : x.length = y.length := by rw [hx.1, hy.1]
  refine ⟨?_, ?_, fun {l k} hk => ⟨?_, fun h0 => ?_⟩⟩
  · obtain ⟨z, z1, z2⟩ := Vec.zipLoop_rounded (f := Double.add) (g := fun a b => a + b) add_rounded hx hy
    refine ⟨z, ?_, ?_, z2⟩
    · unfold Vec.add; rw [if_neg (by simpa using hl), hy.1]; exact z1
    · unfold Vec.addAssign Vec.addAssignRef; rw [if_neg (by simpa using hl), hx.1]; exact z1
  · obtain ⟨z, z1, z2⟩ := Vec.zipLoop_rounded (f := Double.sub) (g := fun a b => a - b) sub_rounded hx hy
    refine ⟨z, ?_, ?_, z2⟩
    · unfold Vec.sub; rw [if_neg (by simpa using hl), hy.1]; exact z1
    · unfold Vec.subAssign Vec.subAssignRef; rw [if_neg (by simpa using hl), hx.1]; exact z1
  · obtain ⟨z, z1, z2⟩ := Vec.mapLoop_rounded (f := Double.mul) (l := l) (g := fun a => a * k) (fun h => mul_rounded h hk) hx
    exact ⟨z, z1, z1, z1, z2⟩
  · obtain ⟨z, z1, z2⟩ := Vec.mapLoop_rounded (f := Double.div) (l := l) (g := fun a => a / k) (fun h => div_rounded h hk h0) hx
    exact ⟨z, z1, z1, z2⟩

/-- `0.1 + 0.2 = 0.30000000000000004`, the operands being numbers as required -/
example : Vec.add .double [.fin false 7205759403792794 (-56)] [.fin false 7205759403792794 (-55)] = .ok [.fin false 5404319552844596 (-54)] ∧
    Vec.Is Denotes [.fin false 7205759403792794 (-56)] ![7205759403792794 * 2 ^ (-56 : Int)] := by
  refine ⟨by decide +kernel, rfl, fun i => ⟨_, by fin_cases i; rfl, by norm_num [WF], 7205759403792794, -56, .inl ⟨rfl, ?_⟩⟩⟩
  fin_cases i; norm_num

/-- C113 for matrices. -/
theorem C113_mat {r c : Nat} {x y : Mat Double} {M N : Matrix (Fin r) (Fin c) ℚ} (hx : Mat.Is Denotes x M) (hy : Mat.Is Denotes y N) :
    (∃ z, Mat.add .double x y = .ok z ∧ Mat.Is Rounded z (M + N)) ∧ (∃ z, Mat.addAssign .double x y = .ok z ∧ Mat.Is Rounded z (M + N)) ∧
    (∃ z, Mat.sub .double x y = .ok z ∧ Mat.Is Rounded z (M - N)) ∧ (∃ z, Mat.subAssign .double x y = .ok z ∧ Mat.Is Rounded z (M - N)) ∧
    (∃ z, Mat.neg .double x = .ok z ∧ Mat.Is Denotes z (-M)) ∧
    ∀ {l : Double} {k : ℚ}, l.Denotes k →
      (∃ z, Mat.smul .double l x = .ok z ∧ Mat.mulScalar .double x l = .ok z ∧ Mat.Is Rounded z (k • M)) ∧
      (∃ z, Mat.mulAssignScalar .double x l = .ok z ∧ Mat.Is Rounded z (k • M)) ∧
      (k ≠ 0 → (∃ z, Mat.divScalar .double x l = .ok z ∧ Mat.Is Rounded z (k⁻¹ • M)) ∧
        (∃ z, Mat.divAssignScalar .double x l = .ok z ∧ Mat.Is Rounded z (k⁻¹ • M))) := by
  have hd : (!Mat.dimensionsMatch x y) = false := by simp [Mat.dimensionsMatch, hx.1, hx.2.1, hy.1, hy.2.1]
  refine ⟨?_, ?_, ?_, ?_, ?_, fun {l k} hk => ⟨?_, ?_, fun h0 => ⟨?_, ?_⟩⟩⟩
  · unfold Mat.add
    rw [hd, if_neg (by simp), hx.1, hx.2.1]
    have := Mat.fill_rounded (e := fun i j => do let s ← x.get i j; let t ← y.get i j; Scalar.double.add s t) (P := M + N) fun i j hi hj => by
      obtain ⟨s, s1, s2⟩ := hx.get_ok hi hj
      obtain ⟨t, t1, t2⟩ := hy.get_ok hi hj
      exact ⟨_, by rw [s1, t1]; rfl, add_rounded s2 t2⟩
    simpa only [bind_assoc] using this
  · unfold Mat.addAssign Mat.addAssignRef
    rw [hd, if_neg (by simp)]
    exact Mat.zipLoop_rounded (f := Double.add) (g := fun a b => a + b) add_rounded hx hy fun i j => rfl
  · unfold Mat.sub
    rw [hd, if_neg (by simp), hx.1, hx.2.1]
    have := Mat.fill_rounded (e := fun i j => do let s ← x.get i j; let t ← y.get i j; Scalar.double.sub s t) (P := M - N) fun i j hi hj => by
      obtain ⟨s, s1, s2⟩ := hx.get_ok hi hj
      obtain ⟨t, t1, t2⟩ := hy.get_ok hi hj
      exact ⟨_, by rw [s1, t1]; rfl, sub_rounded s2 t2⟩
    simpa only [bind_assoc] using this
  · unfold Mat.subAssign Mat.subAssignRef
    rw [hd, if_neg (by simp)]
    exact Mat.zipLoop_rounded (f := Double.sub) (g := fun a b => a - b) sub_rounded hx hy fun i j => rfl
  · unfold Mat.neg
    rw [hx.1, hx.2.1]
    have := Mat.fill_ok (A := Never) (rel := Denotes) (G := Mat.ext (-M)) (r := r) (c := c) (e := fun i j => do let s ← x.get i j; Scalar.double.neg s) fun i j hi hj => by
      obtain ⟨s, s1, s2⟩ := hx.get_ok hi hj
      rw [s1, Mat.ext_lt _ hi hj]
      exact Out.ok s2.neg
    obtain ⟨z, z1, z2⟩ := this.never
    exact ⟨z, by simpa only [bind_assoc] using z1, z2.is fun i j => Mat.ext_fin _ i j⟩
  · have : ∃ z, Mat.smul .double l x = .ok z ∧ Mat.Is Rounded z (k • M) := by
      unfold Mat.smul
      rw [hx.1, hx.2.1]
      have := Mat.fill_rounded (e := fun i j => do let s ← x.get i j; Scalar.double.mul l s) (P := k • M) fun i j hi hj => by
        obtain ⟨s, s1, s2⟩ := hx.get_ok hi hj
        exact ⟨_, by rw [s1]; rfl, mul_rounded hk s2⟩
      simpa only [bind_assoc] using this
    obtain ⟨z, z1, z2⟩ := this
    exact ⟨z, z1, z1, z2⟩
  · exact Mat.mapLoop_rounded (f := Double.mul) (l := l) (g := fun a => a * k) (fun h => mul_rounded h hk) hx fun i j => mul_comm _ _
  · unfold Mat.divScalar
    rw [hx.1, hx.2.1]
    have := Mat.fill_rounded (e := fun i j => do let s ← x.get i j; Scalar.double.div s l) (P := k⁻¹ • M) fun i j hi hj => by
      obtain ⟨s, s1, s2⟩ := hx.get_ok hi hj
      refine ⟨_, by rw [s1]; rfl, ?_⟩
      have := div_rounded s2 hk h0
      rwa [show M ⟨i, hi⟩ ⟨j, hj⟩ / k = (k⁻¹ • M) ⟨i, hi⟩ ⟨j, hj⟩ by simp [div_eq_inv_mul]] at this
    simpa only [bind_assoc] using this
  · exact Mat.mapLoop_rounded (f := Double.div) (l := l) (g := fun a => a / k) (fun h => div_rounded h hk h0) hx fun i j => by
      simp [div_eq_inv_mul]

/-- `(2^-1074) / 3` is zero, `(2^1023) * 2` is infinite. -/
example : (Mat.divScalar .double ⟨1, 1, [some (.fin false 1 (-1074))]⟩ (.fin false (3 * 2 ^ 51) (-51))).toOption.map (·.data) = some [some (.fin false 0 (-1074))] ∧
    (Mat.smul .double (.fin false (2 ^ 52) (-51)) ⟨1, 1, [some (.fin true (2 ^ 52) 971)]⟩).toOption.map (·.data) = some [some (.inf true)] := by
  decide +kernel

/-! ### C114: errors of products, traces and cross products -/

/-- C114: every entry of the product of two matrices of finite `double`s. If it is a finite number, its error is at most
`(1 + 2^-53)^(n+1) - 1` times the entry of the product of the absolute values, and a term for products near zero. It is
finite if the entry of the product of the absolute values is at most `2^1021`. -/
theorem C114_product {r n c : Nat} {x y : Mat Double} {M : Matrix (Fin r) (Fin n) ℚ} {N : Matrix (Fin n) (Fin c) ℚ}
    (hx : Mat.Is Denotes x M) (hy : Mat.Is Denotes y N) :
    ∃ (z : Mat Double) (P : Matrix (Fin r) (Fin c) Double), Mat.mul .double x y = .ok z ∧ Mat.mulAssign .double x y = .ok z ∧
      Mat.Is (fun t k => t = k) z P ∧ ∀ i j,
        (∀ q, (P i j).Denotes q → |q - (M * N) i j| ≤ ((1 + 1 / 2 ^ 53) ^ (n + 1) - 1) * ∑ k, |M i k| * |N k j| + n * eta * (1 + 1 / 2 ^ 53) ^ n) ∧
        (∑ k, |M i k| * |N k j| ≤ 2 ^ (1021 : Int) → n < 2 ^ 52 → ∃ q, (P i j).Denotes q) := by
  obtain ⟨D, d1, d2⟩ := hx.entries
  obtain ⟨E, e1, e2⟩ := hy.entries
  obtain ⟨h1, h2⟩ := C99_product_is_dot .double d1 e1
  have hdot : ∀ i j, ∃ d, Vec.dot .double (Mat.rowList D i) (Mat.colList E j) = .ok d ∧ d.WF ∧
      (∀ q, d.Denotes q → ∃ a b : Fin n → ℚ, (∀ k, (D i k).Denotes (a k) ∧ (E k j).Denotes (b k)) ∧
        |q - ∑ i, a i * b i| ≤ ((1 + 1 / 2 ^ 53) ^ (n + 1) - 1) * ∑ i, |a i * b i| + n * eta * (1 + 1 / 2 ^ 53) ^ n) ∧
      (∀ a b : Fin n → ℚ, (∀ k, (D i k).Denotes (a k)) → (∀ k, (E k j).Denotes (b k)) → ∑ i, |a i * b i| ≤ 2 ^ (1021 : Int) → n < 2 ^ 52 →
        ∃ q, d.Denotes q) := fun i j => C96_dot_double (fun k => D i k) (fun k => E k j) (fun k => (d2 i k).1) (fun k => (e2 k j).1)
  rcases h1 with ⟨z, P, z1, z2, z3⟩ | ⟨e, z1, h | ⟨i, j, h⟩⟩
  · refine ⟨z, P, z1, h2.trans z1, z2, fun i j => ?_⟩
    obtain ⟨d, k1, _, k3, k4⟩ := hdot i j
    rw [z3 i j] at k1
    cases k1
    refine ⟨fun q hq => ?_, fun hS hn => k4 (fun k => M i k) (fun k => N k j) (fun k => d2 i k) (fun k => e2 k j) (by simpa only [abs_mul] using hS) hn⟩
    obtain ⟨a, b, h1, h2⟩ := k3 q hq
    have ha : ∀ k, a k = M i k := fun k => (h1 k).1.unique (d2 i k)
    have hb : ∀ k, b k = N k j := fun k => (h1 k).2.unique (e2 k j)
    simp only [ha, hb, abs_mul] at h2
    simpa only [Matrix.mul_apply] using h2
  · cases h
  · obtain ⟨d, k1, _⟩ := hdot i j
    rw [h] at k1
    cases k1

/-- `0.1 * 0.1 + 0.2 * 0.2`, not quite `0.05` -/
example : (Mat.mul .double ⟨1, 2, [some (.fin false 7205759403792794 (-56)), some (.fin false 7205759403792794 (-55))]⟩
      ⟨2, 1, [some (.fin false 7205759403792794 (-56)), some (.fin false 7205759403792794 (-55))]⟩).toOption.map (·.data) =
    some [some (.fin false 7205759403792795 (-57))] := by decide +kernel

/-- C114: the trace of a matrix of finite `double`s never fails; if it is a finite number, its error is at most `(1 + 2^-53)^n - 1`
times the sum of the absolute values. -/
theorem C114_trace {n : Nat} {x : Mat Double} {M : Matrix (Fin n) (Fin n) ℚ} (hx : Mat.Is Denotes x M) :
    ∃ d, Mat.trace .double x = .ok d ∧ ∀ q, d.Denotes q → |q - M.trace| ≤ ((1 + 1 / 2 ^ 53) ^ n - 1) * ∑ i, |M i i| := by
  unfold Mat.trace
  simp only [hx.1, hx.2.1, ne_eq, not_true_eq_false, if_false]
  have hz : (Scalar.double).ofInt 0 = .ok (fin false 0 (-1074)) := by simp [Scalar.double, Double.ofInt, Double.round]
  rw [hz, bind_ok]
  have hf := hx.full
  have := forUp_ok (A := Never) (Inv := fun k d => d.WF ∧ ∀ q, d.Denotes q →
      |q - ∑ i ∈ Finset.range k, Mat.ext M i i| ≤ ((1 + 1 / 2 ^ 53) ^ k - 1) * ∑ i ∈ Finset.range k, |Mat.ext M i i|) (lo := 0) (n := n)
    (body := fun i result => do
      let t ← x.get i i
      Scalar.double.addA result t) (s := fin false 0 (-1074)) ?_ ?_
  · obtain ⟨d, d1, d2, d3⟩ := this.never
    refine ⟨d, d1, fun q hq => ?_⟩
    have := d3 q hq
    rw [zero_add, Finset.sum_range, Finset.sum_range] at this
    simpa only [Mat.ext_fin, Matrix.trace, Matrix.diag] using this
  · refine ⟨⟨by norm_num, by norm_num, by norm_num, .inr rfl⟩, fun q hq => ?_⟩
    obtain ⟨_, m, e, ⟨h, rfl⟩ | ⟨h, rfl⟩⟩ := hq
    · cases h; simp
    · cases h
  · intro k d _ hk hd
    obtain ⟨t, t1, t2⟩ := hx.get_ok (i := k) (j := k) (by omega) (by omega)
    rw [t1, bind_ok]
    refine Out.ok ⟨add_wf _ _, fun q hq => ?_⟩
    obtain ⟨s, p, hs, hp, he, _⟩ := add_err hd.1 t2.1 hq
    rw [hp.unique t2, ← Mat.ext_lt M] at he
    rw [Finset.sum_range_succ, Finset.sum_range_succ]
    exact Vec.sum_step (Finset.abs_sum_le_sum_abs _ _) (hd.2 s hs) he

/-- The exact trace of this matrix with entries `1` and `2^-53` on the diagonal is no `double`. -/
example : Mat.trace .double ⟨2, 2, [some (.fin false (2 ^ 52) (-52)), some (.inf false), some .nan, some (.fin false (2 ^ 52) (-105))]⟩ =
    .ok (.fin false (2 ^ 52) (-52)) := by decide +kernel

/-- C114: the cross product of two vectors of finite `double`s never fails; the error of a finite entry `a b - c d` is at most
`(1 + 2^-53)^2 - 1` times `|a b| + |c d|`, and a term for products near zero. -/
theorem C114_cross {x y : List Double} {a b : Fin 3 → ℚ} (hx : Vec.Is Denotes x a) (hy : Vec.Is Denotes y b) :
    ∃ z : Fin 3 → Double, Vec.cross .double x y = .ok (List.ofFn z) ∧ ∀ i q, (z i).Denotes q →
      |q - (a (i + 1) * b (i + 2) - a (i + 2) * b (i + 1))| ≤
        ((1 + 1 / 2 ^ 53) ^ 2 - 1) * (|a (i + 1) * b (i + 2)| + |a (i + 2) * b (i + 1)|) + 2 * eta * (1 + 1 / 2 ^ 53) := by
  choose X hX hX' using hx.2
  choose Y hY hY' using hy.2
  refine ⟨fun i => Double.sub (Double.mul (X (i + 1)) (Y (i + 2))) (Double.mul (X (i + 2)) (Y (i + 1))), ?_, fun i q hq => ?_⟩
  · have ex : ∀ {n : Nat} {l : List Double} {f : Fin n → Double}, l.length = n → (∀ i : Fin n, l[i.val]? = some (f i)) → l = List.ofFn f := by
      intro n l f h1 h2
      refine List.ext_getElem? fun i => ?_
      by_cases hi : i < n
      · rw [h2 ⟨i, hi⟩]; simp [hi]
      · rw [List.getElem?_eq_none (by omega), List.getElem?_eq_none (by simp; omega)]
    rw [ex hx.1 hX, ex hy.1 hY]
    rfl
  · obtain ⟨p, r, s, t, hp, hr, hs, ht, h⟩ := Vec.crossEntry_err (hX' _).1 (hY' _).1 (hX' _).1 (hY' _).1 hq
    rw [hp.unique (hX' _), hr.unique (hY' _), hs.unique (hX' _), ht.unique (hY' _)] at h
    exact h

/-- `(0, 0.1, 0.2) x (0, 0.2, 0.1)` -/
example : Vec.cross .double [.fin false 0 (-1074), .fin false 7205759403792794 (-56), .fin false 7205759403792794 (-55)]
      [.fin false 0 (-1074), .fin false 7205759403792794 (-55), .fin false 7205759403792794 (-56)] =
    .ok [.fin true 8646911284551354 (-58), .fin false 0 (-1074), .fin false 0 (-1074)] := by decide +kernel

end CppMaths
