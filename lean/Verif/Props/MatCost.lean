import Verif.Proofs.MatCost
import Verif.Proofs.Machine
import Verif.Proofs.ScalarInst
/-!
# C108: running times of the matrix functions

The README says that row reduction, on which the determinant and the inverse rest, takes O(n^3) time for an n by n matrix, and that
the cofactor expansions are much slower and take O(n!) time. The functions of `Verif/Model/MatCost.lean` count steps. `Within x r b`
says that the counted computation `x` has the result of the uncounted `r`, does not run forever, and takes at most `b` steps.
-/

namespace CppMaths
open Mat Cost

/-- The types to which the bounds apply: exact rings and fields, machine integers, `double` (all values) and `Int` (all well-formed
objects). -/
theorem C108_types (K : Type) [Field K] [DecidableEq K] (lim : Int) :
    (Scalar.field K).Halts (fun _ => True) ∧ (Scalar.machine lim).Halts (fun _ => True) ∧ Scalar.double.Halts (fun _ => True) ∧
    Scalar.int.Halts BigInt.WF := by
  have hf : ∀ x y : K, Stops (if y = 0 then .error .divideByZero else .ok (x / y) : Res K) (fun _ => True) := fun x y => by
    split
    · exact .err (by simp)
    · exact .ok trivial
  have hs : ∀ x : Int, Stops (signed lim x) (fun _ => True) := fun x => by
    unfold signed
    split
    · exact .ok trivial
    · exact .err (by simp)
  have hd : ∀ x y : Int, Stops (signedDiv lim x y) (fun _ => True) := fun x y => by
    unfold signedDiv
    split
    · exact .err (by simp)
    · exact hs _
  have ab : ∀ {α : Type} {r : Res α} {P Q : α → Prop}, Out Aborts r P → (∀ a, P a → Q a) → Stops r Q := by
    rintro α r P Q (⟨a, h1, h2⟩ | ⟨e, h1, rfl⟩) h
    · exact .inl ⟨a, h1, h a h2⟩
    · exact .inr ⟨_, h1, by simp⟩
  have hi : ∀ {x y : BigInt}, BigInt.WF x → BigInt.WF y → Stops (BigInt.divide x y) BigInt.WF := fun {x y} hx hy => by
    obtain ⟨d1, d2, d3⟩ := BigInt.divide_spec hx hy
    by_cases h0 : y.val = 0
    · rw [d1 h0]; exact .err (by simp)
    · by_cases ht : BigInt.DivTrips x y
      · rw [d2 h0 ht]; exact .err (by simp)
      · obtain ⟨r, r1, r2, _⟩ := d3 h0 ht
        rw [r1]; exact .ok r2.1
  refine ⟨?_, ?_, ?_, ?_⟩
  · exact ⟨fun _ _ => .ok trivial, fun _ _ => .ok trivial, fun _ _ => .ok trivial, fun _ _ => hf _ _, fun _ _ => .ok trivial, fun _ _ => .ok trivial,
      fun _ _ => .ok trivial, fun _ _ => hf _ _, fun _ _ => .ok trivial, fun _ _ => .ok trivial⟩
  · exact ⟨fun _ _ => hs _, fun _ _ => hs _, fun _ _ => hs _, fun _ _ => hd _ _, fun _ _ => hs _, fun _ _ => hs _,
      fun _ _ => hs _, fun _ _ => hd _ _, fun _ _ => .ok trivial, fun _ _ => .ok trivial⟩
  · exact ⟨fun _ _ => .ok trivial, fun _ _ => .ok trivial, fun _ _ => .ok trivial, fun _ _ => .ok trivial, fun _ _ => .ok trivial, fun _ _ => .ok trivial,
      fun _ _ => .ok trivial, fun _ _ => .ok trivial, fun _ _ => .ok trivial, fun _ _ => .ok trivial⟩
  · have E := exactRing_intWF
    exact ⟨fun n hn => ab (E.ofInt n hn) fun _ h => h.1, fun hx hy => ab (E.sub ⟨hx, rfl⟩ ⟨hy, rfl⟩) fun _ h => h.1,
      fun hx hy => ab (E.mul ⟨hx, rfl⟩ ⟨hy, rfl⟩) fun _ h => h.1, fun {x y} hx hy => by
        show Stops (BigInt.opDiv x y) _
        rw [BigInt.opDiv_eq]
        exact hi hx hy,
      fun hx hy => ab (E.addA ⟨hx, rfl⟩ ⟨hy, rfl⟩) fun _ h => h.1, fun hx hy => ab (E.subA ⟨hx, rfl⟩ ⟨hy, rfl⟩) fun _ h => h.1,
      fun hx hy => ab (exactMulA_intWF ⟨hx, rfl⟩ ⟨hy, rfl⟩) fun _ h => h.1, fun {x y} hx hy => by
        show Stops (BigInt.divAssign x y) _
        rw [BigInt.divAssign_eq]
        exact hi hx hy,
      fun hx hy => ab (E.eq ⟨hx, rfl⟩ ⟨hy, rfl⟩) fun _ _ => trivial, fun hx hy => ab (E.ne ⟨hx, rfl⟩ ⟨hy, rfl⟩) fun _ _ => trivial⟩

namespace CostExample

/-- A 3 by 3 matrix without zeros. -/
def dense : Mat ℚ := ⟨3, 3, [some 2, some 1, some 3, some 4, some 1, some 5, some 1, some 2, some 7]⟩
theorem dense_is : Mat.Is (fun (x y : ℚ) => x = y) dense !![2, 1, 3; 4, 1, 5; 1, 2, 7] :=
  ⟨rfl, rfl, rfl, fun i j => by fin_cases i <;> fin_cases j <;> exact ⟨_, rfl, rfl⟩⟩
theorem dense_ne (i j : Fin 3) : (!![2, 1, 3; 4, 1, 5; 1, 2, 7] : Matrix (Fin 3) (Fin 3) ℚ) i j ≠ 0 := by
  fin_cases i <;> fin_cases j <;> simp
theorem dense_proper : dense.Proper (fun _ => True) := fun _ _ => trivial

/-- The 6 by 6 matrix of ones. -/
def ones : Mat ℚ := ⟨6, 6, List.replicate 36 (some 1)⟩
theorem ones_is : Mat.Is (fun (x y : ℚ) => x = y) ones (Matrix.of fun (_ _ : Fin 6) => 1) :=
  ⟨rfl, rfl, rfl, fun i j => by
    refine ⟨1, ?_, rfl⟩
    revert i j
    decide⟩

end CostExample
open CostExample

variable {T : Type} {S : Scalar T} {V : T → Prop}

/-- C108. Row reduction of an r by c matrix takes at most r(10 r c + 9 c + 2 r + 2) steps, with the copy that `rref()` makes
r(10 r c + 13 c + 2 r + 3). -/
theorem C108_row_reduction (hS : S.Halts V) {m : Mat T} (hm : m.Proper V) :
    (inplaceRrefC S m).Within (inplaceRref S m) (m.rows * (10 * (m.rows * m.cols) + 9 * m.cols + 2 * m.rows + 2)) ∧
    (rrefC S m).Within (rref S m) (m.rows * (10 * (m.rows * m.cols) + 13 * m.cols + 2 * m.rows + 3)) :=
  ⟨(le_inplaceRref hS hm).within (inplaceRrefC_res m), (le_rref hS hm).within (rrefC_res m)⟩

example := C108_row_reduction (C108_types ℚ 100).1 dense_proper

/-- C108. Cubic time for n by n matrices. -/
theorem C108_cubic (hS : S.Halts V) {m : Mat T} (hm : m.Proper V) {n : Nat} (hr : m.rows = n) (hc : m.cols = n) :
    (inplaceRrefC S m).Within (inplaceRref S m) (23 * n ^ 3) ∧ (rrefC S m).Within (rref S m) (28 * n ^ 3) ∧
    (determinantC S m).Within (determinant S m) (30 * n ^ 3 + 3) ∧ (inverseC S m).Within (inverse S m) (66 * n ^ 3 + 1) := by
  have h1 : n ≤ n ^ 3 := Nat.le_self_pow (by omega) n
  have h2 : n ^ 2 ≤ n ^ 3 := by
    rcases Nat.eq_zero_or_pos n with h | h
    · simp [h]
    · exact Nat.pow_le_pow_right h (by omega)
  have hd : Dim V n n m := ⟨hr, hc, hm⟩
  obtain ⟨a, b⟩ := C108_row_reduction hS hm
  refine ⟨⟨a.same, a.halts, a.steps.trans ?_⟩, ⟨b.same, b.halts, b.steps.trans ?_⟩, (le_determinant hS hd).within (determinantC_res m),
    (le_inverse hS hd).within (inverseC_res m)⟩
  · rw [hr, hc]; ring_nf; omega
  · rw [hr, hc]; ring_nf; omega

example := C108_cubic (C108_types ℚ 100).1 dense_proper (n := 3) rfl rfl

/-- C108. The product of an r by n and an n by c matrix takes at most 7 r n c steps and some of lower order. -/
theorem C108_product (hS : S.Halts V) {a b : Mat T} (ha : a.Proper V) (hb : b.Proper V) :
    (mulC S a b).Within (Mat.mul S a b) (7 * (a.rows * a.cols * b.cols) + a.rows * a.cols + 3 * (a.rows * b.cols) + 2 * a.rows + 1) :=
  (le_mul hS ha hb).within (mulC_res a b)

example := C108_product (C108_types ℚ 100).1 dense_proper dense_proper

/-- C108. The cofactor expansions take at most 76 n! steps. -/
theorem C108_factorial (hS : S.Halts V) {m : Mat T} (hm : m.Proper V) {n : Nat} (hr : m.rows = n) (hc : m.cols = n) :
    (rowCofactorC S m).Within (rowCofactor S m) (76 * n.factorial) ∧ (colCofactorC S m).Within (colCofactor S m) (76 * n.factorial) := by
  have hd : Dim V n n m := ⟨hr, hc, hm⟩
  refine ⟨Le.within (((le_rowCofactorF hS (m.rows + 1) n m (by omega) hd).of_le (cofSteps_le n))) (rowCofactorFC_res _ _),
    Le.within (((le_colCofactorF hS (m.rows + 1) n m (by omega) hd).of_le (cofSteps_le n))) (colCofactorFC_res _ _)⟩

example := C108_factorial (C108_types ℚ 100).1 dense_proper (n := 3) rfl rfl

/-- C108. For a matrix without zeros they take at least 7/2 n! steps, if they return; all of them take the same number of steps. So
`n!` is the order of the worst case. -/
theorem C108_factorial_needed {K : Type} [CommRing K] {rel : T → K → Prop} {A : Err → Prop} (hE : S.ExactRing rel A) {m : Mat T} {n : Nat}
    {M : Matrix (Fin n) (Fin n) K} (hm : Mat.Is rel m M) (h0 : ∀ i j, M i j ≠ 0) (hn : 2 ≤ n) :
    (∀ d, rowCofactor S m = .ok d → 7 * n.factorial ≤ 2 * (rowCofactorC S m).steps) ∧
    (∀ d, colCofactor S m = .ok d → 7 * n.factorial ≤ 2 * (colCofactorC S m).steps) ∧
    (∀ d d', rowCofactor S m = .ok d → colCofactor S m = .ok d' → (rowCofactorC S m).steps = (colCofactorC S m).steps) := by
  obtain ⟨k, rfl⟩ : ∃ k, n = k + 2 := ⟨n - 2, by omega⟩
  have hr := exact_rowCofactorF hE (m.rows + 1) (k + 2) m M (by rw [hm.1]; omega) hm h0
  have hc := exact_colCofactorF hE (m.rows + 1) (k + 2) m M (by rw [hm.1]; omega) hm h0
  have hl := le_cofSteps k
  refine ⟨fun d hd => ?_, fun d hd => ?_, fun d d' hd hd' => ?_⟩
  · rw [rowCofactorC, hr d ((rowCofactorFC_res _ _).trans hd)]; exact hl
  · rw [colCofactorC, hc d ((colCofactorFC_res _ _).trans hd)]; exact hl
  · rw [rowCofactorC, colCofactorC, hr d ((rowCofactorFC_res _ _).trans hd), hc d' ((colCofactorFC_res _ _).trans hd')]

example := C108_factorial_needed (exactField_field ℚ).toExactRing dense_is dense_ne (by decide)

/-- C108. From size 6 on `determinant()` takes fewer steps than a cofactor expansion of a matrix without zeros. -/
theorem C108_determinant_faster {K : Type} [CommRing K] {rel : T → K → Prop} {A : Err → Prop} (hS : S.Halts V) (hE : S.ExactRing rel A)
    {m : Mat T} {n : Nat} {M : Matrix (Fin n) (Fin n) K} (hm : Mat.Is rel m M) (hp : m.Proper V) (h0 : ∀ i j, M i j ≠ 0) (hn : 6 ≤ n) :
    (∀ d, rowCofactor S m = .ok d → (determinantC S m).steps < (rowCofactorC S m).steps) ∧
    (∀ d, colCofactor S m = .ok d → (determinantC S m).steps < (colCofactorC S m).steps) := by
  have hd := (C108_cubic hS hp hm.1 hm.2.1).2.2.1.steps
  obtain ⟨k, rfl⟩ : ∃ k, n = k + 6 := ⟨n - 6, by omega⟩
  have hr := exact_rowCofactorF hE (m.rows + 1) (k + 6) m M (by rw [hm.1]; omega) hm h0
  have hc := exact_colCofactorF hE (m.rows + 1) (k + 6) m M (by rw [hm.1]; omega) hm h0
  have hl := cubic_lt_cofSteps k
  refine ⟨fun d hd' => ?_, fun d hd' => ?_⟩
  · rw [rowCofactorC, hr d ((rowCofactorFC_res _ _).trans hd')]; omega
  · rw [colCofactorC, hc d ((colCofactorFC_res _ _).trans hd')]; omega

example := C108_determinant_faster (C108_types ℚ 100).1 (exactField_field ℚ).toExactRing ones_is (fun _ _ => trivial) (by simp) (by decide)

/-- What is counted for this matrix. -/
example : (rrefC (Scalar.field ℚ) dense).steps = 216 ∧ (determinantC (Scalar.field ℚ) dense).steps = 136 ∧
    (inverseC (Scalar.field ℚ) dense).steps = 502 ∧ (rowCofactorC (Scalar.field ℚ) dense).steps = 97 := by
  decide +kernel

end CppMaths
