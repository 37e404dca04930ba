import Verif.Proofs.TransferInst
import Verif.Props.Machine
import Verif.Props.MatElim
import Verif.Proofs.Witness
/-!
# Properties of computations under a change of the scalar type (C104-C106)

A computation is any combination of the operations of `Vec` and `Mat` and of scalar operations, with branches, local variables
and counting loops (`Calc`).
-/

namespace CppMaths
open Mat

/-! ### C104: changing the scalar type -/

/-- C104. A computation that does not overflow over a signed type gives the same value, or throws the same exception, over every wider
type. -/
theorem C104_wider_type {lim lim' : Int} (hl : lim ≤ lim') {s : Ty} (e : Calc s) (env : Vars Int) :
    e.run (Scalar.machine lim) env = .error .ub ∨ e.run (Scalar.machine lim') env = e.run (Scalar.machine lim) env := by
  rcases (Calc.run_fol (simRing_machine hl).toSimCore e (fun _ => simMulA_machine hl) (fun _ => simDiv_machine hl)
    (fun _ => (simRing_machine hl).neg) env env (fun s x => Ty.Rel.refl s _)).cases with ⟨e, h, rfl⟩ | ⟨e, h, hn⟩ | ⟨v, v', h, h', hv⟩ | ⟨e, h, h'⟩
  · exact .inl h
  · exact hn.elim
  · right; rw [h, h', hv.eq]
  · right; rw [h, h']

/-- C104. A computation that does not overflow over a machine type gives the same values over `Int`, or throws the same exception; the
only other outcome is that `Int` aborts. -/
theorem C104_Int {lim : Int} {s : Ty} (e : Calc s) {env : Vars Int} {env' : Vars BigInt}
    (henv : ∀ (t : Ty) x, t.Rel AsInt (env t x) (env' t x)) :
    e.run (Scalar.machine lim) env = .error .ub ∨ e.run .int env' = .error .assertion ∨
    (∃ v v', e.run (Scalar.machine lim) env = .ok v ∧ e.run .int env' = .ok v' ∧ s.Rel AsInt v v') ∨
    (∃ err, e.run (Scalar.machine lim) env = .error err ∧ e.run .int env' = .error err) := by
  rcases (Calc.run_fol (simRing_machine_int lim).toSimCore e (fun _ => simMulA_machine_int lim) (fun _ => simDiv_machine_int lim)
    (fun _ => (simRing_machine_int lim).neg) env env' henv).cases with ⟨e, h, rfl⟩ | ⟨e, h, rfl⟩ | h | h
  · exact .inl h
  · exact .inr (.inl h)
  · exact .inr (.inr (.inl h))
  · exact .inr (.inr (.inr h))

/-- C104. `Int` does not abort in a computation without divisions and without `*=`, and the results are canonical. -/
theorem C104_Int_returns {lim : Int} {s : Ty} (e : Calc s) (hd : e.divides = false) (hs : e.scales = false) {env : Vars Int}
    {env' : Vars BigInt} (henv : ∀ (t : Ty) x, t.Rel AsCanon (env t x) (env' t x)) :
    e.run (Scalar.machine lim) env = .error .ub ∨
    (∃ v v', e.run (Scalar.machine lim) env = .ok v ∧ e.run .int env' = .ok v' ∧ s.Rel AsCanon v v') ∨
    (∃ err, e.run (Scalar.machine lim) env = .error err ∧ e.run .int env' = .error err) := by
  rcases (Calc.run_fol (simRing_machine_canon lim).toSimCore e (fun h => by rw [hs] at h; cases h) (fun h => by rw [hd] at h; cases h)
    (fun _ => (simRing_machine_canon lim).neg) env env' henv).cases with ⟨e, h, rfl⟩ | ⟨e, h, hn⟩ | h | h
  · exact .inl h
  · exact hn.elim
  · exact .inr (.inl h)
  · exact .inr (.inr h)

namespace TransferExample

/-- The `k`-th power of the matrix `m0`, by repeated multiplication. -/
def matPower (k : Nat) : Calc .mat := .loop .mat 1 k (.matIdentity 2) (.matMul (.var .mat 1) (.var .mat 0))
/-- The determinant of the matrix `m0`, found by elimination, as an entry of a vector that is then divided by the number `x0`. -/
def divided : Calc .vec := .vecDiv (.vecSet (.vecSize 2) 1 (.matDet (.var .mat 0))) (.var .num 0)

def envOf {T : Type} (m : Mat T) (t : T) : Vars T := fun s _ => match s with
  | .num => t
  | .vec => []
  | .mat => m
  | .bool => false

def fib : Mat Int := ⟨2, 2, [some 1, some 1, some 1, some 0]⟩
def swapped : Mat Int := ⟨3, 3, [0, 2, 1, 3, 1, 1, 6, 2, 5].map some⟩

end TransferExample

open TransferExample in
/-- The 46th power of the Fibonacci matrix fits an `int`, the 47th does not, but it fits a `long`. -/
example : ((matPower 45).run Scalar.i32 (envOf fib 0)).toOption.map (·.data) = some [some 1836311903, some 1134903170, some 1134903170, some 701408733] ∧
    ((matPower 46).run Scalar.i32 (envOf fib 0)).toOption.map (·.data) = none ∧
    ((matPower 46).run (Scalar.machine (2 ^ 63 - 1)) (envOf fib 0)).toOption.map (·.data) =
      some [some 2971215073, some 1836311903, some 1836311903, some 1134903170] ∧
    ((matPower 45).run .int (envOf ⟨2, 2, [some ⟨[1], false⟩, some ⟨[1], false⟩, some ⟨[1], false⟩, some ⟨[0], false⟩]⟩ ⟨[0], false⟩)).toOption.map
      (·.data) = some [some ⟨[836311903, 1], false⟩, some ⟨[134903170, 1], false⟩, some ⟨[134903170, 1], false⟩, some ⟨[701408733], false⟩] ∧
    (matPower 45).divides = false ∧ (matPower 45).scales = false := by
  set_option maxRecDepth 100000 in decide +kernel

open TransferExample in
/-- Related variables exist, with a division that truncates. -/
example : (∀ (t : Ty) (x : Nat), t.Rel AsInt (envOf swapped 4 t x) (envOf ⟨3, 3, ([0, 2, 1, 3, 1, 1, 6, 2, 5] : List Int).map
      fun k => some (⟨[k], false⟩ : BigInt)⟩ ⟨[4], false⟩ t x)) ∧
    divided.run Scalar.i32 (envOf swapped 4) = .ok [0, -4] ∧
    divided.run .int (envOf ⟨3, 3, ([0, 2, 1, 3, 1, 1, 6, 2, 5] : List Int).map fun k => some (⟨[k], false⟩ : BigInt)⟩ ⟨[4], false⟩) =
      .ok [⟨[0], false⟩, ⟨[4], true⟩] := by
  have key : ∀ k : Int, 0 ≤ k → k < 1000000000 → AsInt k ⟨[k], false⟩ := fun k h1 h2 => ⟨by
    refine ⟨by simp, fun b hb => ?_⟩
    obtain rfl := List.mem_singleton.1 hb
    exact ⟨h1, h2⟩, by simp [BigInt.val, BigInt.mag]⟩
  refine ⟨?_, by decide +kernel, by decide +kernel⟩
  intro t x
  cases t with
  | num => exact key 4 (by norm_num) (by norm_num)
  | vec => exact .nil
  | mat =>
    refine ⟨rfl, rfl, ?_⟩
    unfold envOf swapped
    repeat' first | exact .nil | refine .cons (key _ (by norm_num) (by norm_num)) ?_
  | bool => rfl

/-! ### C105: whole numbers in `double`s -/

/-- C105. `double`s that hold whole numbers compute exactly what whole numbers on paper do, as long as every number that occurs has an
absolute value of at most 2^53 and every quotient is a whole number. -/
theorem C105_whole_numbers {s : Ty} (e : Calc s) {env : Vars Int} {env' : Vars Double}
    (henv : ∀ (t : Ty) x, t.Rel AsDouble (env t x) (env' t x)) {ok : Int → Bool} (hok : ∀ z, ok z = true → |z| ≤ 2 ^ 53) :
    (∀ v, e.run (Scalar.whole ok) env = .ok v → ∃ v', e.run .double env' = .ok v' ∧ s.Rel AsDouble v v') ∧
    (∀ err, e.run (Scalar.whole ok) env = .error err → err ≠ .ub → e.run .double env' = .error err) := by
  have key := Calc.run_fol (simRing_whole_double hok).toSimCore e (fun _ => simMulA_whole_double hok) (fun _ => simDiv_whole_double hok)
    (fun _ => (simRing_whole_double hok).neg) env env' henv
  refine ⟨fun v hv => ?_, fun err he hne => ?_⟩
  · rw [hv] at key
    exact key.out.never
  · rw [he] at key
    rcases key.err hne with h | ⟨_, _, h⟩
    · exact h
    · exact h.elim

/-- C105. The dot product of whole numbers in `double`s is exact if the absolute products add up to less than 2^53. -/
theorem C105_dot {n : Nat} (f g : Fin n → Int) {x y : List Double} (hx : Vec.Is (fun (d : Double) (z : Int) => d.Denotes (z : ℚ)) x f)
    (hy : Vec.Is (fun (d : Double) (z : Int) => d.Denotes (z : ℚ)) y g) (h : ∑ i, |f i * g i| < 2 ^ 53) :
    ∃ d, Vec.dot .double x y = .ok d ∧ d.Denotes ((∑ i, f i * g i : Int) : ℚ) := by
  have e : ∀ f : Fin n → Int, Vec.Is (fun t k => t = k) (List.ofFn f) f := fun f => ⟨by simp, fun i => ⟨f i, by simp, rfl⟩⟩
  have key := Vec.dot_fol (simRing_machine_double (lim := 2 ^ 53 - 1) (by norm_num)).toSimCore ((e f).rel hx) ((e g).rel hy)
  rw [Vec.dot_machine f g (by omega)] at key
  exact key.out.never

example : ∃ d, Vec.dot .double [.ofInt 3, .ofInt (-2)] [.ofInt (2 ^ 40), .ofInt 5] = .ok d ∧ d.Denotes ((∑ i, ![3, -2] i * ![2 ^ 40, 5] i : Int) : ℚ) :=
  C105_dot ![3, -2] ![2 ^ 40, 5] ⟨rfl, fun i => by fin_cases i <;> exact ⟨_, rfl, Double.ofInt_denotes (by norm_num)⟩⟩
    ⟨rfl, fun i => by fin_cases i <;> exact ⟨_, rfl, Double.ofInt_denotes (by norm_num)⟩⟩ (by decide)

/-- C105. The product of matrices of whole numbers in `double`s is exact if the absolute products of every row and column add up to
less than 2^53. -/
theorem C105_mat_mul {r n c : Nat} {a b : Mat Double} {M : Matrix (Fin r) (Fin n) Int} {N : Matrix (Fin n) (Fin c) Int}
    (ha : Mat.Is (fun (d : Double) (z : Int) => d.Denotes (z : ℚ)) a M) (hb : Mat.Is (fun (d : Double) (z : Int) => d.Denotes (z : ℚ)) b N)
    (h : ∀ i j, ∑ k, |M i k * N k j| < 2 ^ 53) :
    ∃ m, Mat.mul .double a b = .ok m ∧ Mat.Is (fun (d : Double) (z : Int) => d.Denotes (z : ℚ)) m (M * N) := by
  obtain ⟨m1, hm1⟩ := Mat.is_exists M
  obtain ⟨m2, hm2⟩ := Mat.is_exists N
  have key := Mat.mul_fol (simRing_machine_double (lim := 2 ^ 53 - 1) (by norm_num)).toSimCore (hm1.rel ha) (hm2.rel hb)
  obtain ⟨⟨p, p1, p2⟩, _⟩ := C92_mat_mul hm1 hm2 (lim := 2 ^ 53 - 1) (by norm_num) (fun i j => by have := h i j; omega)
  rw [p1] at key
  obtain ⟨m, m1', m2'⟩ := key.out.never
  exact ⟨m, m1', Mat.Rel.is p2 m2'⟩

example := C105_mat_mul (a := ⟨1, 2, [some (.ofInt 3), some (.ofInt (-2))]⟩) (b := ⟨2, 1, [some (.ofInt (2 ^ 40)), some (.ofInt 5)]⟩)
  (M := !![3, -2]) (N := !![2 ^ 40; 5]) ⟨rfl, rfl, rfl, fun i j => by fin_cases i; fin_cases j <;> exact ⟨_, rfl, Double.ofInt_denotes (by norm_num)⟩⟩
  ⟨rfl, rfl, rfl, fun i j => by fin_cases j; fin_cases i <;> exact ⟨_, rfl, Double.ofInt_denotes (by norm_num)⟩⟩ (by decide)

/-- C105. Both cofactor expansions of a matrix of whole numbers in `double`s are exact if its entries are bounded by `B` and `n! B^n` is
less than 2^53. -/
theorem C105_cofactor_expansions {n : Nat} (h0 : 0 < n) {B : Int} (hB : 1 ≤ B) {a : Mat Double} {M : Matrix (Fin n) (Fin n) Int}
    (ha : Mat.Is (fun (d : Double) (z : Int) => d.Denotes (z : ℚ)) a M) (hb : ∀ i j, |M i j| ≤ B) (h : (n.factorial : Int) * B ^ n < 2 ^ 53) :
    (∃ d, Mat.rowCofactor .double a = .ok d ∧ d.Denotes (M.det : ℚ)) ∧ (∃ d, Mat.colCofactor .double a = .ok d ∧ d.Denotes (M.det : ℚ)) := by
  obtain ⟨m, hm⟩ := Mat.is_exists M
  have hS := simRing_machine_double (lim := 2 ^ 53 - 1) (by norm_num)
  obtain ⟨h1, h2⟩ := C92_cofactor_expansions (lim := 2 ^ 53 - 1) hB h0 hm hb (by omega)
  have k1 := Mat.rowCofactor_fol hS.toSimCore (hm.rel ha)
  have k2 := Mat.colCofactor_fol hS.toSimCore (hm.rel ha)
  rw [h1] at k1
  rw [h2] at k2
  exact ⟨k1.out.never, k2.out.never⟩

open TransferExample in
/-- The determinant of `swapped` by elimination and by expansion in `double`s, and the product of `(2^26, 3)` with itself. The bound is
sharp: `2^53 * 1 + 1 * 1` is rounded to `2^53`. -/
example :
    let d := Double.ofInt
    Mat.determinant .double ⟨3, 3, swapped.data.map (·.map d)⟩ = .ok (d (-18)) ∧
    Mat.rowCofactor .double ⟨3, 3, swapped.data.map (·.map d)⟩ = .ok (d (-18)) ∧
    Vec.dot .double [d (2 ^ 26), d 3] [d (2 ^ 26), d 3] = .ok (d (2 ^ 52 + 9)) ∧
    Vec.dot .double [d (2 ^ 53), d 1] [d 1, d 1] = .ok (d (2 ^ 53)) ∧
    (d 3).Denotes 3 ∧ (d (2 ^ 53)).Denotes (2 ^ 53) := by
  refine ⟨by decide +kernel, by decide +kernel, by decide +kernel, by decide +kernel, ?_, ?_⟩
  · rw [show Double.ofInt 3 = .fin false 6755399441055744 (-51) by decide +kernel]
    exact ⟨by norm_num [Double.WF], _, _, .inl ⟨rfl, by norm_num⟩⟩
  · rw [show Double.ofInt (2 ^ 53) = .fin false (2 ^ 52) 1 by decide +kernel]
    exact ⟨by norm_num [Double.WF], _, _, .inl ⟨rfl, by norm_num⟩⟩

/-! ### C106: elimination with whole quotients -/

/-- C106 for the determinant. If all quotients that occur are whole numbers (and all numbers are in the range `ok`), `determinant()` is right
over `Int`, over every machine type that contains the range, and over `double` if the range lies within 2^53. -/
theorem C106_determinant {n : Nat} {M : Matrix (Fin n) (Fin n) Int} {m : Mat Int} (hm : Mat.Is (fun t k => t = k) m M) {ok : Int → Bool} {d : Int}
    (h : Mat.determinant (Scalar.whole ok) m = .ok d) :
    d = M.det ∧
    (∀ a, Mat.Is IntWFRel a M → Out Aborts (Mat.determinant .int a) (fun t => IntWFRel t M.det)) ∧
    (∀ lim, (∀ z, ok z = true → Fits lim z) → Mat.determinant (Scalar.machine lim) m = .ok M.det) ∧
    ((∀ z, ok z = true → |z| ≤ 2 ^ 53) → ∀ a, Mat.Is (fun (d : Double) (z : Int) => d.Denotes (z : ℚ)) a M →
      ∃ t, Mat.determinant .double a = .ok t ∧ t.Denotes (M.det : ℚ)) := by
  obtain ⟨q, hq⟩ := Mat.is_exists_map (fun z : Int => (z : ℚ)) M
  have hd : d = M.det := by
    have key := Mat.determinant_fol (simRing_whole_field ok).toSimCore (simMulA_whole_field ok) (simDiv_whole_field ok) (hm.rel hq)
    rw [h, C66_returns (Mat.Is.of_map hq)] at key
    obtain ⟨_, h1, h2⟩ := key.out.never
    cases h1
    have : (M.map fun z : Int => (z : ℚ)).det = ((M.det : Int) : ℚ) := ((Int.castRingHom ℚ).map_det M).symm
    rw [AsNum, this] at h2
    exact_mod_cast h2.symm
  subst hd
  refine ⟨rfl, fun a ha => ?_, fun lim hl => ?_, fun hl a ha => ?_⟩
  · have key := Mat.determinant_fol (simRing_whole_int ok).toSimCore (simMulA_whole_int ok) (simDiv_whole_int ok) (hm.rel ha)
    rw [h] at key
    exact key.out
  · have key := Mat.determinant_fol (simRing_whole_machine hl).toSimCore (simMulA_whole_machine hl) (simDiv_whole_machine hl)
      (Ty.Rel.refl .mat m)
    rw [h] at key
    obtain ⟨t, h1, rfl⟩ := key.out.never
    exact h1
  · have key := Mat.determinant_fol (simRing_whole_double hl).toSimCore (simMulA_whole_double hl) (simDiv_whole_double hl) (hm.rel ha)
    rw [h] at key
    exact key.out.never

open TransferExample in
example := C106_determinant (M := !![0, 2, 1; 3, 1, 1; 6, 2, 5]) (m := swapped)
  ⟨rfl, rfl, rfl, fun i j => by fin_cases i <;> fin_cases j <;> exact ⟨_, rfl, rfl⟩⟩ (ok := fun z => decide (|z| ≤ 100)) (d := -18) (by decide +kernel)

/-- C106 for the reduced row echelon form, which then has integer entries. -/
theorem C106_rref {r c : Nat} {M : Matrix (Fin r) (Fin c) Int} {m p : Mat Int} (hm : Mat.Is (fun t k => t = k) m M) {ok : Int → Bool}
    (h : Mat.rref (Scalar.whole ok) m = .ok p) :
    ∃ N : Matrix (Fin r) (Fin c) Int, Mat.Is (fun t k => t = k) p N ∧
    RowEquiv (M.map fun z => (z : ℚ)) (N.map fun z => (z : ℚ)) ∧ IsRref (N.map fun z => (z : ℚ)) ∧
    (∀ a, Mat.Is IntWFRel a M → Out Aborts (Mat.rref .int a) (fun t => Mat.Is IntWFRel t N)) ∧
    (∀ lim, (∀ z, ok z = true → Fits lim z) → Mat.rref (Scalar.machine lim) m = .ok p) ∧
    ((∀ z, ok z = true → |z| ≤ 2 ^ 53) → ∀ a, Mat.Is (fun (d : Double) (z : Int) => d.Denotes (z : ℚ)) a M →
      ∃ t, Mat.rref .double a = .ok t ∧ Mat.Is (fun (d : Double) (z : Int) => d.Denotes (z : ℚ)) t N) := by
  obtain ⟨q, hq⟩ := Mat.is_exists_map (fun z : Int => (z : ℚ)) M
  obtain ⟨N, hN, hr, hf⟩ : ∃ N : Matrix (Fin r) (Fin c) Int, Mat.Is (fun t k => t = k) p N ∧
      RowEquiv (M.map fun z => (z : ℚ)) (N.map fun z => (z : ℚ)) ∧ IsRref (N.map fun z => (z : ℚ)) := by
    have key := Mat.rref_fol (simRing_whole_field ok).toSimCore (simDiv_whole_field ok) (hm.rel hq)
    rw [h] at key
    obtain ⟨q', h1, h2⟩ := key.out.never
    obtain ⟨_, h3, N', h4, h5, h6⟩ := (C67_rref (exactField_field ℚ) (Mat.Is.of_map hq)).1.never
    rw [h1] at h3
    cases h3
    obtain ⟨N, h7, rfl⟩ := Mat.Rel.pull h2 h4
    exact ⟨N, h7, h5, h6⟩
  refine ⟨N, hN, hr, hf, fun a ha => ?_, fun lim hl => ?_, fun hl a ha => ?_⟩
  · have key := Mat.rref_fol (simRing_whole_int ok).toSimCore (simDiv_whole_int ok) (hm.rel ha)
    rw [h] at key
    exact key.out.mono fun t ht => Mat.Rel.is hN ht
  · have key := Mat.rref_fol (simRing_whole_machine hl).toSimCore (simDiv_whole_machine hl) (Ty.Rel.refl .mat m)
    rw [h] at key
    obtain ⟨t, h1, h2⟩ := key.out.never
    rw [h1, Ty.Rel.eq (s := .mat) h2]
  · have key := Mat.rref_fol (simRing_whole_double hl).toSimCore (simDiv_whole_double hl) (hm.rel ha)
    rw [h] at key
    exact (key.out.mono fun t ht => Mat.Rel.is hN ht).never

example := C106_rref (M := !![0, 2, 4; 3, 3, 9]) (m := ⟨2, 3, [some 0, some 2, some 4, some 3, some 3, some 9]⟩)
  (p := ⟨2, 3, [some 1, some 0, some 1, some 0, some 1, some 2]⟩)
  ⟨rfl, rfl, rfl, fun i j => by fin_cases i <;> fin_cases j <;> exact ⟨_, rfl, rfl⟩⟩ (ok := fun z => decide (|z| ≤ 100)) (by decide +kernel)

/-- C106 for the inverse: if it is returned, it is the inverse with integer entries over every type, and if the matrix is found
to be singular, it is, and every type finds so. -/
theorem C106_inverse {n : Nat} {M : Matrix (Fin n) (Fin n) Int} {m : Mat Int} (hm : Mat.Is (fun t k => t = k) m M) {ok : Int → Bool} :
    (∀ p, Mat.inverse (Scalar.whole ok) m = .ok p → IsUnit M.det ∧ Mat.Is (fun t k => t = k) p M⁻¹ ∧
      (∀ a, Mat.Is IntWFRel a M → Out Aborts (Mat.inverse .int a) (fun t => Mat.Is IntWFRel t M⁻¹)) ∧
      (∀ lim, (∀ z, ok z = true → Fits lim z) → Mat.inverse (Scalar.machine lim) m = .ok p) ∧
      ((∀ z, ok z = true → |z| ≤ 2 ^ 53) → ∀ a, Mat.Is (fun (d : Double) (z : Int) => d.Denotes (z : ℚ)) a M →
        ∃ t, Mat.inverse .double a = .ok t ∧ Mat.Is (fun (d : Double) (z : Int) => d.Denotes (z : ℚ)) t M⁻¹)) ∧
    (Mat.inverse (Scalar.whole ok) m = .error .domainError → M.det = 0 ∧
      (∀ a, Mat.Is IntWFRel a M → Mat.inverse .int a = .error .domainError ∨ ∃ e, Mat.inverse .int a = .error e ∧ Aborts e) ∧
      (∀ lim, (∀ z, ok z = true → Fits lim z) → Mat.inverse (Scalar.machine lim) m = .error .domainError) ∧
      ((∀ z, ok z = true → |z| ≤ 2 ^ 53) → ∀ a, Mat.Is (fun (d : Double) (z : Int) => d.Denotes (z : ℚ)) a M →
        Mat.inverse .double a = .error .domainError)) := by
  obtain ⟨q, hq⟩ := Mat.is_exists_map (fun z : Int => (z : ℚ)) M
  have hdet : (M.map fun z : Int => (z : ℚ)).det = ((M.det : Int) : ℚ) := ((Int.castRingHom ℚ).map_det M).symm
  have key := Mat.inverse_fol (simRing_whole_field ok).toSimCore (simDiv_whole_field ok) (hm.rel hq)
  refine ⟨fun p h => ?_, fun h => ?_⟩
  · rw [h] at key
    obtain ⟨q', h1, h2⟩ := key.out.never
    have hP : IsUnit M.det ∧ Mat.Is (fun t k => t = k) p M⁻¹ := by
      rcases inverse_ok (exactField_field ℚ) (Mat.Is.of_map hq) with ⟨_, h3, N', h4, h5, h6⟩ | ⟨e, h3, _⟩
      · rw [h1] at h3
        cases h3
        obtain ⟨N, h7, rfl⟩ := Mat.Rel.pull h2 h4
        have hMN : M * N = 1 := by
          have e : (M * N).map (fun z : Int => (z : ℚ)) = (1 : Matrix (Fin n) (Fin n) Int).map fun z : Int => (z : ℚ) := by
            rw [Matrix.map_one _ (by simp) (by simp), ← h5]
            exact Matrix.map_mul (f := Int.castRingHom ℚ)
          ext i j
          have := congrFun (congrFun e i) j
          simp only [Matrix.map_apply] at this
          exact_mod_cast this
        refine ⟨(Matrix.isUnit_iff_isUnit_det M).1 (IsUnit.of_mul_eq_one _ hMN), ?_⟩
        rwa [Matrix.inv_eq_right_inv hMN]
      · rw [h1] at h3
        cases h3
    refine ⟨hP.1, hP.2, fun a ha => ?_, fun lim hl => ?_, fun hl a ha => ?_⟩
    · have key := Mat.inverse_fol (simRing_whole_int ok).toSimCore (simDiv_whole_int ok) (hm.rel ha)
      rw [h] at key
      exact key.out.mono fun t ht => Mat.Rel.is hP.2 ht
    · have key := Mat.inverse_fol (simRing_whole_machine hl).toSimCore (simDiv_whole_machine hl) (Ty.Rel.refl .mat m)
      rw [h] at key
      obtain ⟨t, h1, h2⟩ := key.out.never
      rw [h1, Ty.Rel.eq (s := .mat) h2]
    · have key := Mat.inverse_fol (simRing_whole_double hl).toSimCore (simDiv_whole_double hl) (hm.rel ha)
      rw [h] at key
      exact (key.out.mono fun t ht => Mat.Rel.is hP.2 ht).never
  · have no : ∀ {F : Err → Prop} {T : Type} {R : Mat Int → Mat T → Prop} {r' : Res (Mat T)}, Follows Overflows F R (.error .domainError) r' →
        r' = .error .domainError ∨ ∃ e, r' = .error e ∧ F e := fun h => h.err (by rintro ⟨⟩)
    rw [h] at key
    refine ⟨?_, fun a ha => ?_, fun lim hl => ?_, fun hl a ha => ?_⟩
    · rcases no key with h1 | ⟨_, _, h⟩
      · rcases inverse_ok (exactField_field ℚ) (Mat.Is.of_map hq) with ⟨_, h3, _⟩ | ⟨e, h3, h4 | ⟨_, h4⟩⟩
        · rw [h1] at h3
          cases h3
        · exact h4.elim
        · rw [hdet] at h4
          exact_mod_cast h4
      · exact h.elim
    · have key := Mat.inverse_fol (simRing_whole_int ok).toSimCore (simDiv_whole_int ok) (hm.rel ha)
      rw [h] at key
      exact no key
    · have key := Mat.inverse_fol (simRing_whole_machine hl).toSimCore (simDiv_whole_machine hl) (Ty.Rel.refl .mat m)
      rw [h] at key
      rcases no key with h | ⟨_, _, h⟩
      · exact h
      · exact h.elim
    · have key := Mat.inverse_fol (simRing_whole_double hl).toSimCore (simDiv_whole_double hl) (hm.rel ha)
      rw [h] at key
      rcases no key with h | ⟨_, _, h⟩
      · exact h
      · exact h.elim

open TransferExample in
/-- The hypotheses are met by matrices whose elimination exchanges rows and divides: (0 2 1; 3 1 1; 6 2 5) with determinant -18, an
invertible integer matrix, and a singular one. -/
example :
    let ok : Int → Bool := fun z => decide (|z| ≤ 100)
    Mat.determinant (Scalar.whole ok) swapped = .ok (-18) ∧
    Mat.determinant Scalar.i32 swapped = .ok (-18) ∧
    Mat.inverse (Scalar.whole ok) ⟨3, 3, [some 0, some 1, some 2, some 1, some 3, some 1, some 2, some 6, some 3]⟩ =
      .ok ⟨3, 3, [some (-3), some (-9), some 5, some 1, some 4, some (-2), some 0, some (-2), some 1]⟩ ∧
    Mat.inverse (Scalar.whole ok) ⟨2, 2, [some 1, some 2, some 1, some 2]⟩ = .error .domainError ∧
    Mat.rref (Scalar.whole ok) ⟨2, 3, [some 0, some 2, some 4, some 3, some 3, some 9]⟩ =
      .ok ⟨2, 3, [some 1, some 0, some 1, some 0, some 1, some 2]⟩ ∧
    -- a quotient that is not whole
    Mat.rref (Scalar.whole ok) ⟨2, 3, [some 0, some 2, some 4, some 3, some 4, some 9]⟩ = .error .ub := by decide +kernel

/-! ### C107: exact types -/

/-- C107. Over a scalar type whose operations are exact in a field `K`, every computation that does not divide by zero gives the values
it has in `K`, or fails as it does there; the only other outcome is a failure of the scalar operations. -/
theorem C107_exact_field {T K : Type} [Field K] [DecidableEq K] {S : Scalar T} {rel : T → K → Prop} {F : Err → Prop} (hS : S.ExactField rel F)
    {s : Ty} (e : Calc s) {env : Vars K} {env' : Vars T} (henv : ∀ (t : Ty) x, t.Rel (fun k y => rel y k) (env t x) (env' t x)) :
    e.run (Scalar.field K) env = .error .divideByZero ∨ (∃ err, e.run S env' = .error err ∧ F err) ∨
    (∃ v v', e.run (Scalar.field K) env = .ok v ∧ e.run S env' = .ok v' ∧ s.Rel (fun k y => rel y k) v v') ∨
    (∃ err, e.run (Scalar.field K) env = .error err ∧ e.run S env' = .error err) := by
  rcases (Calc.run_fol (simCore_exact hS.toExactRing) e (fun _ => simMulA_exact hS.mulA) (fun _ => simDiv_exact hS.div hS.divA)
    (fun _ => simNeg_exact (rel := rel) hS.neg) env env' henv).cases with ⟨e, h, rfl⟩ | h | h | h
  · exact .inl h
  · exact .inr (.inl h)
  · exact .inr (.inr (.inl h))
  · exact .inr (.inr (.inr h))

/-- A matrix over the rationals divided by a number, and the determinant of the quotient. -/
example := C107_exact_field Ex.rat (.matDet (.var .mat 0)) (env := TransferExample.envOf Ex.d 2) (env' := TransferExample.envOf Ex.d 2)
  (fun t x => by
    have e : (fun k y : ℚ => Ex.Same y k) = Eq := by funext k y; exact propext eq_comm
    rw [e]
    exact Ty.Rel.refl t _)

/-- C107 for `Frac`: every computation without unary minus (which `Frac` lacks) that does not divide by zero over the rational numbers
gives these rational numbers in lowest terms, or throws the same exception, or aborts in a division of `Int`s. (Computations with
members that do not compile for `Frac`, listed at `Scalar.frac`, are no programs; the theorem says nothing about the code for them.) -/
theorem C107_Frac {s : Ty} (e : Calc s) (hn : e.negates = false) {env : Vars ℚ} {env' : Vars Frac}
    (henv : ∀ (t : Ty) x, t.Rel (fun q f => FracRel f q) (env t x) (env' t x)) :
    e.run (Scalar.field ℚ) env = .error .divideByZero ∨ e.run .frac env' = .error .assertion ∨
    (∃ v v', e.run (Scalar.field ℚ) env = .ok v ∧ e.run .frac env' = .ok v' ∧ s.Rel (fun q f => FracRel f q) v v') ∨
    (∃ err, e.run (Scalar.field ℚ) env = .error err ∧ e.run .frac env' = .error err) := by
  rcases (Calc.run_fol (simCore_exact exactRing_frac) e (fun _ => simMulA_exact exactMulA_frac)
    (fun _ => simDiv_exact exactDiv_frac exactDivA_frac) (fun h => by rw [hn] at h; cases h) env env' henv).cases with
    ⟨e, h, rfl⟩ | ⟨e, h, rfl⟩ | h | h
  · exact .inl h
  · exact .inr (.inl h)
  · exact .inr (.inr (.inl h))
  · exact .inr (.inr (.inr h))

namespace TransferExample

/-- Two rounds of `v = (v . v) v + w` for vectors. -/
def iterate : Calc .vec := .loop .vec 1 2 (.var .vec 0) (.vecAdd (.vecSmul (.vecDot (.var .vec 1) (.var .vec 1)) (.var .vec 1)) (.var .vec 0))

def vecOf {T : Type} (x : List T) (t : T) : Vars T := fun s _ => match s with
  | .num => t
  | .vec => x
  | .mat => ⟨0, 0, []⟩
  | .bool => false

end TransferExample

open TransferExample in
/-- The iteration over `Frac` and over the rational numbers, starting from (-1/2, 0). -/
example : iterate.negates = false ∧
    (iterate.run (Scalar.field ℚ) (vecOf [-1 / 2, 0] 0)).toOption = some [-381 / 512, 0] ∧
    (iterate.run .frac (vecOf [⟨⟨[1], true⟩, ⟨[2], false⟩⟩, ⟨⟨[0], false⟩, ⟨[1], false⟩⟩] ⟨⟨[0], false⟩, ⟨[1], false⟩⟩)).toOption =
      some [⟨⟨[381], true⟩, ⟨[512], false⟩⟩, ⟨⟨[0], false⟩, ⟨[1], false⟩⟩] := by
  decide +kernel

open TransferExample in
example : ∀ (t : Ty) (x : Nat), t.Rel (fun q f => FracRel f q) (vecOf [(-1 / 2 : ℚ), 0] 0 t x)
    (vecOf [⟨⟨[1], true⟩, ⟨[2], false⟩⟩, ⟨⟨[0], false⟩, ⟨[1], false⟩⟩] (⟨⟨[0], false⟩, ⟨[1], false⟩⟩ : Frac) t x) := by
  have h0 : FracRel ⟨⟨[0], false⟩, ⟨[1], false⟩⟩ 0 := ⟨by decide, by norm_num [Frac.value, BigInt.val, BigInt.mag]⟩
  have h1 : FracRel ⟨⟨[1], true⟩, ⟨[2], false⟩⟩ (-1 / 2) := ⟨by decide, by norm_num [Frac.value, BigInt.val, BigInt.mag]⟩
  intro t x
  cases t with
  | num => exact h0
  | vec => exact .cons h1 (.cons h0 .nil)
  | mat => exact ⟨rfl, rfl, .nil⟩
  | bool => rfl

end CppMaths
