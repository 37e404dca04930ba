import Verif.Spec.Cost
import Verif.Proofs.MatCofactor
import Mathlib.Data.Nat.Factorial.Basic
/-!
# Running times of the members of `Mat<T>`
-/

namespace CppMaths
namespace Cost
variable {α β σ : Type}

theorem pure_res (a : α) : (pure a : Cost α).res = .ok a := rfl
theorem step_res (r : Res α) : (step r).res = r := rfl
theorem fail_res (e : Err) : (fail e : Cost α).res = .error e := rfl

theorem bind_res (x : Cost α) (f : α → Cost β) : (x >>= f).res = x.res >>= fun a => (f a).res := by
  show (match x.res with
    | .ok a => (⟨(f a).res, x.steps + (f a).steps⟩ : Cost β)
    | .error e => ⟨.error e, x.steps⟩).res = _
  cases h : x.res <;> rfl

theorem ite_res (c : Prop) [Decidable c] (x y : Cost α) : (if c then x else y).res = if c then x.res else y.res := by
  split <;> rfl

theorem forUp_res (body : Nat → σ → Cost σ) : ∀ (n lo : Nat) (s : σ),
    (forUp lo n body s).res = CppMaths.forUp lo n (fun i s => (body i s).res) s
  | 0, _, _ => rfl
  | n + 1, lo, s => by
    show (step (.ok ()) >>= fun _ => body lo s >>= fun s' => forUp (lo + 1) n body s').res = _
    rw [bind_res, step_res]
    show (body lo s >>= fun s' => forUp (lo + 1) n body s').res = _
    rw [bind_res]
    show _ = (body lo s).res >>= fun s' => CppMaths.forUp (lo + 1) n (fun i s => (body i s).res) s'
    congr 1
    funext s'
    exact forUp_res body n (lo + 1) s'

/-- At most `b` steps; the result has property `P`, or the failure is not that of running forever. -/
def Le (x : Cost α) (b : Nat) (P : α → Prop) : Prop := x.steps ≤ b ∧ Out (fun e => e ≠ .diverge) x.res P

theorem Le.bind {x : Cost α} {f : α → Cost β} {a b : Nat} {P : α → Prop} {Q : β → Prop} (h : x.Le a P) (hf : ∀ v, P v → (f v).Le b Q) :
    (x >>= f).Le (a + b) Q := by
  refine ⟨?_, by rw [bind_res]; exact Out.bind h.2 fun v hv => (hf v hv).2⟩
  show (match x.res with
    | .ok a => (⟨(f a).res, x.steps + (f a).steps⟩ : Cost β)
    | .error e => ⟨.error e, x.steps⟩).steps ≤ _
  have h1 := h.1
  rcases h.2 with ⟨v, hv, hp⟩ | ⟨e, he, _⟩
  · rw [hv]
    exact Nat.add_le_add h.1 (hf v hp).1
  · rw [he]
    show x.steps ≤ _
    omega

theorem Le.mono {x : Cost α} {a b : Nat} {P Q : α → Prop} (h : x.Le a P) (hab : a ≤ b) (hpq : ∀ v, P v → Q v) : x.Le b Q :=
  ⟨h.1.trans hab, h.2.mono hpq⟩

theorem Le.of_le {x : Cost α} {a b : Nat} {P : α → Prop} (h : x.Le a P) (hab : a ≤ b) : x.Le b P := h.mono hab fun _ => id

theorem le_pure {a : α} {b : Nat} {P : α → Prop} (h : P a) : (pure a : Cost α).Le b P := ⟨Nat.zero_le _, .ok h⟩

theorem le_fail {e : Err} {b : Nat} {P : α → Prop} (h : e ≠ .diverge) : (fail e : Cost α).Le b P := ⟨Nat.zero_le _, .err h⟩

theorem le_step {r : Res α} {P : α → Prop} (h : Out (fun e => e ≠ .diverge) r P) : (step r).Le 1 P := ⟨le_refl _, h⟩

theorem le_forUp {body : Nat → σ → Cost σ} {P : σ → Prop} {b : Nat} : ∀ {n lo : Nat} {s : σ},
    P s → (∀ i s, lo ≤ i → i < lo + n → P s → (body i s).Le b P) → (forUp lo n body s).Le (n * (b + 1)) P
  | 0, _, _, hs, _ => le_pure hs
  | n + 1, lo, s, hs, h => by
    have h1 : (step (.ok ()) >>= fun _ => body lo s >>= fun s' => forUp (lo + 1) n body s').Le (1 + (b + n * (b + 1))) P :=
      (le_step (P := fun _ => True) (.ok trivial)).bind fun _ _ => (h lo s (le_refl _) (by omega) hs).bind fun s' hs' =>
        le_forUp hs' fun i s hi hi' => h i s (by omega) (by omega)
    exact h1.of_le (by ring_nf; omega)

theorem Le.within {x : Cost α} {r : Res α} {b : Nat} {P : α → Prop} (h : x.Le b P) (hr : x.res = r) : x.Within r b :=
  ⟨hr, hr ▸ h.2.ne_error (fun h => h rfl), h.1⟩

/-- Exactly `b` steps if the computation returns. -/
def Exact (x : Cost α) (b : Nat) : Prop := ∀ a, x.res = .ok a → x.steps = b

theorem Exact.bind {x : Cost α} {f : α → Cost β} {a b : Nat} (h : x.Exact a) (hf : ∀ v, x.res = .ok v → (f v).Exact b) :
    (x >>= f).Exact (a + b) := by
  intro w hw
  rw [bind_res] at hw
  show (match x.res with
    | .ok a => (⟨(f a).res, x.steps + (f a).steps⟩ : Cost β)
    | .error e => ⟨.error e, x.steps⟩).steps = _
  cases hx : x.res with
  | error e => rw [hx] at hw; cases hw
  | ok v =>
    rw [hx] at hw
    show x.steps + (f v).steps = _
    rw [h v hx, hf v hx w hw]

theorem exact_step (r : Res α) : (step r).Exact 1 := fun _ _ => rfl

theorem exact_forUp {body : Nat → σ → Cost σ} {b : Nat} : ∀ {n lo : Nat} {s : σ},
    (∀ i s, lo ≤ i → i < lo + n → (body i s).Exact b) → (forUp lo n body s).Exact (n * (b + 1))
  | 0, _, s, _ => fun _ _ => (Nat.zero_mul _).symm
  | n + 1, lo, s, h => by
    have h1 : (step (.ok ()) >>= fun _ => body lo s >>= fun s' => forUp (lo + 1) n body s').Exact (1 + (b + n * (b + 1))) :=
      (exact_step _).bind fun _ _ => (h lo s (le_refl _) (by omega)).bind fun s' _ => exact_forUp fun i s hi hi' => h i s (by omega) (by omega)
    rw [show (n + 1) * (b + 1) = 1 + (b + n * (b + 1)) by ring]
    exact h1

end Cost

namespace Mat
open Cost
variable {T : Type} {S : Scalar T}

/-! ### The same results -/

theorem forEachC_res {σ : Type} (r c : Nat) (body : Nat → Nat → σ → Cost σ) (s : σ) :
    (forEachC r c body s).res = forEach r c (fun i j s => (body i j s).res) s := by
  unfold forEachC forEach
  simp only [forUp_res]

theorem allocC_res (r c : Nat) : (allocC r c : Cost (Mat T)).res = .ok (alloc r c) := rfl

theorem ok_bind {α β : Type} (a : α) (f : α → Res β) : ((.ok a : Res α) >>= f) = f a := rfl

theorem copyC_res (x : Mat T) : (copyC x).res = copy x := by
  simp only [copyC, copy, bind_res, allocC_res, ok_bind, forEachC_res, step_res]

theorem filledC_res (r c : Nat) (v : T) : (filledC r c v).res = filled r c v := by
  simp only [filledC, filled, setAll, setAllRef, bind_res, allocC_res, ok_bind, forEachC_res, step_res]
  rfl

theorem mulC_res (a b : Mat T) : (mulC S a b).res = mul S a b := by
  simp only [mulC, mul, ite_res, fail_res, bind_res, filledC_res, forUp_res, step_res]

theorem firstMinorC_res (m : Mat T) (i j : Nat) : (firstMinorC m i j).res = firstMinor m i j := by
  simp only [firstMinorC, firstMinor, ite_res, fail_res, bind_res, allocC_res, ok_bind, forUp_res, step_res]

theorem neZeroC_res (t : T) : (neZeroC S t).res = neZero S t := by simp only [neZeroC, neZero, bind_res, step_res]
theorem eqZeroC_res (t : T) : (eqZeroC S t).res = eqZero S t := by simp only [eqZeroC, eqZero, bind_res, step_res]
theorem det2C_res (m : Mat T) : (det2C S m).res = det2 S m := by simp only [det2C, det2, bind_res, step_res]

theorem rowCofactorFC_res : ∀ (fuel : Nat) (m : Mat T), (rowCofactorFC S fuel m).res = rowCofactorF S fuel m
  | 0, _ => rfl
  | fuel + 1, m => by
    simp only [rowCofactorFC, rowCofactorF, ite_res, fail_res, bind_res, step_res, det2C_res, forUp_res, neZeroC_res, firstMinorC_res,
      rowCofactorFC_res fuel]
    rfl

theorem colCofactorFC_res : ∀ (fuel : Nat) (m : Mat T), (colCofactorFC S fuel m).res = colCofactorF S fuel m
  | 0, _ => rfl
  | fuel + 1, m => by
    simp only [colCofactorFC, colCofactorF, ite_res, fail_res, bind_res, step_res, det2C_res, forUp_res, neZeroC_res, firstMinorC_res,
      colCofactorFC_res fuel]
    rfl

theorem findPivotC_res (m : Mat T) (r : Nat) : ∀ (fuel i pivot : Nat), (findPivotC S m r fuel i pivot).res = findPivot S m r fuel i pivot
  | 0, _, _ => rfl
  | fuel + 1, i, pivot => by
    simp only [findPivotC, findPivot, ite_res, bind_res, step_res, ok_bind, eqZeroC_res, findPivotC_res m r fuel]
    rfl

theorem swapRowsC_res (m : Mat T) (a b : Nat) : (swapRowsC m a b).res = swapRows m a b := by
  simp only [swapRowsC, swapRows, ite_res, bind_res, step_res, forUp_res, pure_res]

theorem detEliminateC_res (m : Mat T) (r p : Nat) : (detEliminateC S m r p).res = detEliminate S m r p := by
  simp only [detEliminateC, detEliminate, ite_res, bind_res, step_res, forUp_res, pure_res]

theorem detLoopC_res : ∀ (n r pivot : Nat) (factor : T) (m : Mat T), (detLoopC S n r pivot factor m).res = detLoop S n r pivot factor m
  | 0, _, _, _, _ => rfl
  | n + 1, r, pivot, factor, m => by
    unfold detLoopC detLoop
    simp only [ite_res, bind_res, step_res, ok_bind, pure_res, findPivotC_res]
    split
    · rfl
    · congr 1
      funext f
      cases f with
      | none => rfl
      | some ip =>
        simp only [ite_res, bind_res, step_res, pure_res, swapRowsC_res, detEliminateC_res, detLoopC_res n]
        rfl

theorem determinantC_res (m : Mat T) : (determinantC S m).res = determinant S m := by
  simp only [determinantC, determinant, ite_res, fail_res, bind_res, step_res, det2C_res, forUp_res, copyC_res, detLoopC_res]

theorem scaleRowC_res (m : Mat T) (r p : Nat) : (scaleRowC S m r p).res = scaleRow S m r p := by
  simp only [scaleRowC, scaleRow, bind_res, step_res, forUp_res]

theorem clearColumnC_res (m : Mat T) (r p : Nat) : (clearColumnC S m r p).res = clearColumn S m r p := by
  simp only [clearColumnC, clearColumn, ite_res, bind_res, step_res, forUp_res, pure_res]

theorem rrefLoopC_res : ∀ (n r pivot : Nat) (m : Mat T), (rrefLoopC S n r pivot m).res = rrefLoop S n r pivot m
  | 0, _, _, _ => rfl
  | n + 1, r, pivot, m => by
    unfold rrefLoopC rrefLoop
    simp only [ite_res, bind_res, step_res, ok_bind, pure_res, findPivotC_res]
    split
    · rfl
    · congr 1
      funext f
      cases f with
      | none => rfl
      | some ip => simp only [bind_res, swapRowsC_res, scaleRowC_res, clearColumnC_res, rrefLoopC_res n]

theorem inplaceRrefC_res (m : Mat T) : (inplaceRrefC S m).res = inplaceRref S m := rrefLoopC_res _ _ _ _

theorem rrefC_res (m : Mat T) : (rrefC S m).res = rref S m := by
  simp only [rrefC, rref, bind_res, copyC_res, inplaceRrefC_res]

theorem identityMatrixC_res (n : Nat) : (identityMatrixC S n).res = identityMatrix S n := by
  simp only [identityMatrixC, identityMatrix, bind_res, step_res, filledC_res, forUp_res]

theorem augmentedMatrixC_res (a b : Mat T) : (augmentedMatrixC a b).res = augmentedMatrix a b := by
  simp only [augmentedMatrixC, augmentedMatrix, ite_res, fail_res, bind_res, step_res, allocC_res, ok_bind, forUp_res]

theorem inverseC_res (m : Mat T) : (inverseC S m).res = inverse S m := by
  simp only [inverseC, inverse, ite_res, fail_res, bind_res, step_res, identityMatrixC_res, augmentedMatrixC_res, inplaceRrefC_res,
    allocC_res, ok_bind, forEachC_res]

/-! ### Upper bounds -/

variable {V : T → Prop}

/-- A proper matrix of the given dimensions. -/
def Dim (V : T → Prop) (r c : Nat) (m : Mat T) : Prop := m.rows = r ∧ m.cols = c ∧ m.Proper V

theorem le_get {m : Mat T} {r c : Nat} (h : Dim V r c m) (i j : Nat) : (step (m.get i j)).Le 1 V := by
  refine le_step ?_
  unfold get
  split
  · rename_i t ht
    exact .ok (h.2.2 t (List.mem_of_getElem? ht))
  · exact .err (by simp)

theorem le_dataAt {m : Mat T} {r c : Nat} (h : Dim V r c m) (k : Nat) : (step (m.dataAt k)).Le 1 V := by
  refine le_step ?_
  unfold dataAt
  split
  · rename_i t ht
    exact .ok (h.2.2 t (List.mem_of_getElem? ht))
  · exact .err (by simp)

theorem le_set {m : Mat T} {r c : Nat} (h : Dim V r c m) (i j : Nat) {t : T} (ht : V t) : (step (m.set i j t)).Le 1 (Dim V r c) := by
  refine le_step ?_
  unfold set
  split
  · refine .ok ⟨h.1, h.2.1, fun u hu => ?_⟩
    rcases List.mem_or_eq_of_mem_set hu with hu | hu
    · exact h.2.2 u hu
    · exact Option.some.inj hu ▸ ht
  · exact .err (by simp)

theorem le_alloc (r c : Nat) : (allocC r c : Cost (Mat T)).Le (r * c) (Dim V r c) :=
  ⟨le_refl _, .ok ⟨rfl, rfl, fun t ht => by simp [alloc] at ht⟩⟩

theorem le_forEach {σ : Type} {r c b : Nat} {body : Nat → Nat → σ → Cost σ} {s : σ} {P : σ → Prop} (hs : P s)
    (h : ∀ i j s, i < r → j < c → P s → (body i j s).Le b P) : (forEachC r c body s).Le (r * (c * (b + 1) + 1)) P :=
  le_forUp hs fun i s _ hi hs => le_forUp hs fun j s _ hj hs => h i j s (by omega) (by omega) hs

theorem le_copy {x : Mat T} (hx : x.Proper V) : (copyC x).Le (4 * (x.rows * x.cols) + x.rows) (Dim V x.rows x.cols) := by
  have hx' : Dim V x.rows x.cols x := ⟨rfl, rfl, hx⟩
  have h : (copyC x).Le (x.rows * x.cols + x.rows * (x.cols * (1 + 1 + 1) + 1)) (Dim V x.rows x.cols) :=
    (le_alloc _ _).bind fun m hm => le_forEach hm fun i j m _ _ hm => (le_dataAt (by assumption) _).bind fun t htV => le_set hm _ _ (by assumption)
  exact h.of_le (by ring_nf; omega)

theorem le_filled (r c : Nat) {v : T} (hv : V v) : (filledC r c v).Le (3 * (r * c) + r) (Dim V r c) := by
  have h : (filledC r c v).Le (r * c + r * (c * (1 + 1) + 1)) (Dim V r c) :=
    (le_alloc _ _).bind fun m hm => le_forEach hm fun i j m _ _ hm => le_set hm _ _ (by assumption)
  exact h.of_le (by ring_nf; omega)

variable (hS : S.Halts V)
include hS

theorem le_mul {a b : Mat T} (ha : a.Proper V) (hb : b.Proper V) :
    (mulC S a b).Le (7 * (a.rows * a.cols * b.cols) + a.rows * a.cols + 3 * (a.rows * b.cols) + 2 * a.rows + 1) (Dim V a.rows b.cols) := by
  unfold mulC
  have ha' : Dim V a.rows a.cols a := ⟨rfl, rfl, ha⟩
  have hb' : Dim V b.rows b.cols b := ⟨rfl, rfl, hb⟩
  split
  · exact le_fail (by simp)
  · have h := (le_step (hS.ofInt 0 (by decide))).bind fun z hzV => (le_filled a.rows b.cols hzV).bind (Q := Dim V a.rows b.cols)
      (f := fun r => Cost.forUp 0 a.rows (fun i r => Cost.forUp 0 a.cols (fun k r => Cost.forUp 0 b.cols (fun j r => do
      let x ← step (a.get i k)
      let y ← step (b.get k j)
      let p ← step (S.mul x y)
      let z ← step (r.get i j)
      let t ← step (S.addA z p)
      step (r.set i j t)) r) r) r) fun r hr => le_forUp hr fun i r _ _ hr => le_forUp hr fun k r _ _ hr => le_forUp hr fun j r _ _ hr =>
      (le_get (by assumption) _ _).bind fun x hxV => (le_get (by assumption) _ _).bind fun y hyV => (le_step (hS.mul hxV hyV)).bind fun p hpV => (le_get (by assumption) _ _).bind fun z hzV =>
        (le_step (hS.addA hzV hpV)).bind fun t htV => le_set hr _ _ (by assumption)
    refine h.of_le ?_
    ring_nf
    omega

theorem le_findPivot {m : Mat T} {r : Nat} (hm : Dim V m.rows m.cols m) (hr : r < m.rows) : ∀ (fuel i pivot : Nat), i < m.rows → pivot < m.cols →
    (m.cols - pivot) * m.rows - i ≤ fuel →
    (findPivotC S m r fuel i pivot).Le (4 * ((m.cols - pivot) * m.rows - i)) (fun f => ∀ i' p', f = some (i', p') → p' < m.cols)
  | 0, i, pivot, hi, hp, hf => by
    have : m.rows ≤ (m.cols - pivot) * m.rows := Nat.le_mul_of_pos_left _ (by omega)
    omega
  | fuel + 1, i, pivot, hi, hp, hf => by
    obtain ⟨k, hk⟩ : ∃ k, m.cols - pivot = k + 1 := ⟨m.cols - pivot - 1, by omega⟩
    have hk' : m.cols - (pivot + 1) = k := by omega
    have hmul : (k + 1) * m.rows = k * m.rows + m.rows := by ring
    rw [hk, hmul] at hf ⊢
    have h : (findPivotC S m r (fuel + 1) i pivot).Le (1 + (1 + ((1 + 1) + 4 * (k * m.rows + m.rows - i - 1))))
        (fun f => ∀ i' p', f = some (i', p') → p' < m.cols) := by
      refine (le_step (P := fun _ => True) (.ok trivial)).bind fun _ h_V => (le_get (by assumption) _ _).bind fun e heV =>
        Le.bind (P := fun _ => True) ((le_step (hS.ofInt 0 (by decide))).bind fun z hzV => le_step (hS.eq (by assumption) (by assumption))) fun z _ => ?_
      split
      · split
        · split
          · exact le_pure (by simp)
          · refine (le_findPivot hm hr fuel r (pivot + 1) hr (by omega) (by rw [hk']; omega)).of_le ?_
            rw [hk']
            omega
        · refine (le_findPivot hm hr fuel (i + 1) pivot (by omega) hp (by rw [hk, hmul]; omega)).of_le ?_
          rw [hk, hmul]
          omega
      · exact le_pure (by rintro _ _ ⟨⟩; exact hp)
    exact h.of_le (by omega)

theorem le_findPivot' {m : Mat T} {r pivot : Nat} (hm : Dim V m.rows m.cols m) (hr : r < m.rows) (hp : pivot < m.cols) :
    (findPivotC S m r (m.rows * m.cols + 1) r pivot).Le (4 * (m.rows * m.cols)) (fun f => ∀ i' p', f = some (i', p') → p' < m.cols) := by
  have h : (m.cols - pivot) * m.rows ≤ m.rows * m.cols := by
    rw [Nat.mul_comm m.rows]
    exact Nat.mul_le_mul_right _ (by omega)
  exact (le_findPivot hS hm hr _ r pivot hr hp (by omega)).of_le (by omega)

omit hS in
theorem le_swapRows {m : Mat T} {r c : Nat} (h : Dim V r c m) (a b : Nat) : (swapRowsC m a b).Le (5 * c) (Dim V r c) := by
  unfold swapRowsC
  split
  · rw [h.2.1]
    refine (le_forUp (b := 1 + (1 + (1 + 1))) h fun i s _ _ hs => ?_).of_le (by omega)
    exact (le_get (by assumption) _ _).bind fun x hxV => (le_get (by assumption) _ _).bind fun y hyV => (le_set hs _ _ (by assumption)).bind fun m hm => le_set hm _ _ (by assumption)
  · exact le_pure h

theorem le_detEliminate {m : Mat T} {r c : Nat} (h : Dim V r c m) (i p : Nat) : (detEliminateC S m i p).Le (8 * (r * c) + 2 * r) (Dim V r c) := by
  unfold detEliminateC
  rw [h.1]
  refine (le_forUp (b := 1 + c * (7 + 1)) h fun i s _ _ hs => ?_).of_le ?_
  · split
    · refine (le_get (by assumption) _ _).bind fun v hvV => ?_
      rw [hs.2.1]
      refine (le_forUp (b := 1 + (1 + (1 + (1 + (1 + (1 + 1)))))) hs fun j s _ _ hs => ?_).of_le (Nat.mul_le_mul_right _ (by omega))
      exact (le_get (by assumption) _ _).bind fun x hxV => (le_step (hS.mul (by assumption) (by assumption))).bind fun q hqV => (le_get (by assumption) _ _).bind fun d hdV => (le_step (hS.div (by assumption) (by assumption))).bind fun q hqV =>
        (le_get (by assumption) _ _).bind fun y hyV => (le_step (hS.subA (by assumption) (by assumption))).bind fun t htV => le_set hs _ _ (by assumption)
    · exact le_pure hs
  · refine (Nat.mul_le_mul_right _ (show r - (p + 1) ≤ r by omega)).trans ?_
    ring_nf
    omega

theorem le_detLoop {r c : Nat} : ∀ (n i pivot : Nat) (f : T) (m : Mat T), V f → Dim V r c m → i + n ≤ r →
    (detLoopC S n i pivot f m).Le (n * (12 * (r * c) + 5 * c + 2 * r + 3)) (fun s => V s.1 ∧ Dim V r c s.2)
  | 0, _, _, _, _, hf, h, _ => le_pure ⟨hf, h⟩
  | n + 1, i, pivot, f, m, hfV, h, hi => by
    unfold detLoopC
    have key : ∀ b, 1 + b ≤ (n + 1) * (12 * (r * c) + 5 * c + 2 * r + 3) → ∀ {x : Cost (T × Mat T)}, x.Le b (fun s => V s.1 ∧ Dim V r c s.2) →
        (step (.ok ()) >>= fun _ => x).Le ((n + 1) * (12 * (r * c) + 5 * c + 2 * r + 3)) (fun s => V s.1 ∧ Dim V r c s.2) := fun b hb x hx =>
      ((le_step (P := fun _ => True) (.ok trivial)).bind fun _ h_V => hx).of_le hb
    refine key (4 * (r * c) + (5 * c + (1 + (1 + 0)) + ((8 * (r * c) + 2 * r) + n * (12 * (r * c) + 5 * c + 2 * r + 3)))) (by ring_nf; omega) ?_
    split
    · exact le_pure ⟨hfV, h⟩
    · rename_i hp
      have hf := le_findPivot' hS (m := m) (r := i) (pivot := pivot) ⟨rfl, rfl, h.2.2⟩ (by rw [h.1]; omega) (by omega)
      rw [h.1, h.2.1] at hf ⊢
      refine hf.bind fun f' _ => ?_
      cases f' with
      | none => exact le_pure ⟨hfV, h⟩
      | some ip =>
        refine Le.bind (P := fun s : T × Mat T => V s.1 ∧ Dim V r c s.2) ?_ fun s hs => (le_detEliminate hS hs.2 _ _).bind fun m hm => ?_
        · split
          · rw [Nat.add_comm (5 * c), Nat.add_comm _ (5 * c)]
            exact (le_swapRows h _ _).bind fun m hm => (le_step (hS.ofInt (-1) (by decide))).bind fun k hkV => (le_step (hS.mulA (by assumption) (by assumption))).bind fun f hfV => le_pure ⟨hfV, hm⟩
          · exact le_pure ⟨hfV, h⟩
        · exact le_detLoop n _ _ _ _ hs.1 hm (by omega)

theorem le_det2 {m : Mat T} {r c : Nat} (h : Dim V r c m) : (det2C S m).Le 7 V :=
  (le_dataAt h _).bind (b := 6) fun a ha => (le_dataAt h _).bind (b := 5) fun d hd => (le_step (hS.mul ha hd)).bind (b := 4) fun p hp =>
    (le_dataAt h _).bind (b := 3) fun b hb => (le_dataAt h _).bind (b := 2) fun c hc => (le_step (hS.mul hb hc)).bind (b := 1) fun q hq =>
      le_step (hS.sub hp hq)

theorem le_determinant {m : Mat T} {n : Nat} (h : Dim V n n m) : (determinantC S m).Le (30 * n ^ 3 + 3) V := by
  unfold determinantC
  have h1 : n ≤ n ^ 3 := Nat.le_self_pow (by omega) n
  have h2 : n ^ 2 ≤ n ^ 3 := by
    rcases Nat.eq_zero_or_pos n with h | h
    · simp [h]
    · exact Nat.pow_le_pow_right h (by omega)
  split
  · exact le_fail (by simp)
  · split
    · exact (le_dataAt (by assumption) _).of_le (by omega)
    · split
      · refine (le_det2 hS h).of_le ?_
        have : n = 2 := by rw [← h.1]; assumption
        subst this
        norm_num
      · have key : ∀ {x : Cost T}, x.Le (4 * (n * n) + n + (1 + (n * (12 * (n * n) + 5 * n + 2 * n + 3) + (1 + (n * (1 + 1 + 1) + 1))))) V →
            x.Le (30 * n ^ 3 + 3) V := fun hx => hx.of_le (by ring_nf; omega)
        refine key ?_
        have hc := le_copy h.2.2
        rw [h.1, h.2.1] at hc
        refine hc.bind fun t htV => (le_step (hS.ofInt 1 (by decide))).bind fun f hfV => ?_
        rw [htV.1]
        refine (le_detLoop hS n 0 0 f t hfV htV (by omega)).bind fun s hs => (le_step (hS.ofInt 1 (by decide))).bind fun p hpV => ?_
        rw [hs.2.1]
        refine (le_forUp (P := V) hpV fun i p _ _ hpV => ?_).bind fun p hpV => le_step (hS.div hpV hs.1)
        exact (le_get hs.2 _ _).bind fun x hxV => le_step (hS.mulA hpV hxV)

theorem le_scaleRow {m : Mat T} {r c : Nat} (h : Dim V r c m) (i p : Nat) : (scaleRowC S m i p).Le (4 * c + 1) (Dim V r c) := by
  have h' : (scaleRowC S m i p).Le (1 + c * (1 + (1 + 1) + 1)) (Dim V r c) := by
    refine (le_get (by assumption) _ _).bind fun v hvV => ?_
    rw [h.2.1]
    exact le_forUp h fun j s _ _ hs => (le_get (by assumption) _ _).bind fun x hxV => (le_step (hS.divA (by assumption) (by assumption))).bind fun t htV => le_set hs _ _ (by assumption)
  exact h'.of_le (by omega)

theorem le_clearColumn {m : Mat T} {r c : Nat} (h : Dim V r c m) (i p : Nat) : (clearColumnC S m i p).Le (6 * (r * c) + 2 * r) (Dim V r c) := by
  unfold clearColumnC
  rw [h.1]
  refine (le_forUp (b := 1 + c * (1 + (1 + (1 + (1 + 1))) + 1)) h fun i s _ _ hs => ?_).of_le (by ring_nf; omega)
  split
  · refine (le_get (by assumption) _ _).bind fun v hvV => ?_
    rw [hs.2.1]
    refine le_forUp hs fun j s _ _ hs => ?_
    exact (le_get (by assumption) _ _).bind fun x hxV => (le_step (hS.mul (by assumption) (by assumption))).bind fun q hqV => (le_get (by assumption) _ _).bind fun y hyV => (le_step (hS.subA (by assumption) (by assumption))).bind fun t htV =>
      le_set hs _ _ (by assumption)
  · exact le_pure hs

theorem le_rrefLoop {r c : Nat} : ∀ (n i pivot : Nat) (m : Mat T), Dim V r c m → i + n ≤ r →
    (rrefLoopC S n i pivot m).Le (n * (10 * (r * c) + 9 * c + 2 * r + 2)) (Dim V r c)
  | 0, _, _, _, h, _ => le_pure h
  | n + 1, i, pivot, m, h, hi => by
    unfold rrefLoopC
    have key : ∀ b, 1 + b ≤ (n + 1) * (10 * (r * c) + 9 * c + 2 * r + 2) → ∀ {x : Cost (Mat T)}, x.Le b (Dim V r c) →
        (step (.ok ()) >>= fun _ => x).Le ((n + 1) * (10 * (r * c) + 9 * c + 2 * r + 2)) (Dim V r c) := fun b hb x hx =>
      ((le_step (P := fun _ => True) (.ok trivial)).bind fun _ h_V => hx).of_le hb
    refine key (4 * (r * c) + (5 * c + ((4 * c + 1) + ((6 * (r * c) + 2 * r) + n * (10 * (r * c) + 9 * c + 2 * r + 2))))) (by ring_nf; omega) ?_
    split
    · exact le_pure h
    · have hf := le_findPivot' hS (m := m) (r := i) (pivot := pivot) ⟨rfl, rfl, h.2.2⟩ (by rw [h.1]; omega) (by omega)
      rw [h.1, h.2.1] at hf ⊢
      refine hf.bind fun f' _ => ?_
      cases f' with
      | none => exact le_pure h
      | some ip =>
        exact (le_swapRows h _ _).bind fun m hm => (le_scaleRow hS hm _ _).bind fun m hm => (le_clearColumn hS hm _ _).bind fun m hm =>
          le_rrefLoop n _ _ _ hm (by omega)

theorem le_inplaceRref {m : Mat T} (hm : m.Proper V) :
    (inplaceRrefC S m).Le (m.rows * (10 * (m.rows * m.cols) + 9 * m.cols + 2 * m.rows + 2)) (Dim V m.rows m.cols) :=
  le_rrefLoop hS m.rows 0 0 m ⟨rfl, rfl, hm⟩ (by omega)

theorem le_rref {m : Mat T} (hm : m.Proper V) :
    (rrefC S m).Le (m.rows * (10 * (m.rows * m.cols) + 13 * m.cols + 2 * m.rows + 3)) (Dim V m.rows m.cols) := by
  have h := (le_copy hm).bind (f := inplaceRrefC S) (Q := Dim V m.rows m.cols) fun x hx => by
    have := le_inplaceRref hS hx.2.2
    rw [hx.1, hx.2.1] at this
    exact this
  exact h.of_le (by ring_nf; omega)

theorem le_identity (n : Nat) : (identityMatrixC S n).Le (3 * (n * n) + 4 * n + 1) (Dim V n n) := by
  have h : (identityMatrixC S n).Le (1 + ((3 * (n * n) + n) + n * (1 + 1 + 1))) (Dim V n n) :=
    (le_step (hS.ofInt 0 (by decide))).bind fun z hzV => (le_filled n n hzV).bind fun r hr => le_forUp hr fun i r _ _ hr =>
      (le_step (hS.ofInt 1 (by decide))).bind fun t htV => le_set hr _ _ (by assumption)
  exact h.of_le (by omega)

omit hS in
theorem le_augmented {a b : Mat T} {n : Nat} (ha : Dim V n n a) (hb : Dim V n n b) : (augmentedMatrixC a b).Le (8 * (n * n) + n) (Dim V n (n + n)) := by
  unfold augmentedMatrixC
  rw [ha.1, ha.2.1, hb.1, hb.2.1]
  simp only [ne_eq, not_true_eq_false, if_false]
  have h := (le_alloc (T := T) n (n + n)).bind (b := n * (n * (1 + 1 + 1) + n * (1 + 1 + 1) + 1)) (Q := Dim V n (n + n))
    (f := fun r => Cost.forUp 0 n (fun i r => do
      let r ← Cost.forUp 0 n (fun j r => do
        let t ← step (a.get i j)
        step (r.set i j t)) r
      Cost.forUp 0 n (fun j r => do
        let t ← step (b.get i j)
        step (r.set i (j + n) t)) r) r) fun r hr => le_forUp hr fun i r _ _ hr =>
      Le.bind (le_forUp hr fun j r _ _ hr => (le_get (by assumption) _ _).bind fun t htV => le_set hr _ _ (by assumption)) fun r hr =>
        le_forUp hr fun j r _ _ hr => (le_get (by assumption) _ _).bind fun t htV => le_set hr _ _ (by assumption)
  exact h.of_le (by ring_nf; omega)

theorem le_inverse {m : Mat T} {n : Nat} (h : Dim V n n m) : (inverseC S m).Le (66 * n ^ 3 + 1) (Dim V n n) := by
  unfold inverseC
  have h1 : n ≤ n ^ 3 := Nat.le_self_pow (by omega) n
  have h2 : n ^ 2 ≤ n ^ 3 := by
    rcases Nat.eq_zero_or_pos n with h | h
    · simp [h]
    · exact Nat.pow_le_pow_right h (by omega)
  split
  · exact le_fail (by simp)
  · have key : ∀ {x : Cost (Mat T)}, x.Le (3 * (n * n) + 4 * n + 1 + ((8 * (n * n) + n) + ((n * (10 * (n * (n + n)) + 9 * (n + n) + 2 * n + 2)) +
        (n * n + n * (n * (1 + (1 + (1 + (1 + 1))) + 1) + 1))))) (Dim V n n) → x.Le (66 * n ^ 3 + 1) (Dim V n n) := fun hx => hx.of_le (by ring_nf; omega)
    refine key ?_
    rw [h.1, h.2.1]
    refine (le_identity hS n).bind fun I hI => (le_augmented h hI).bind fun r hr => ?_
    have hrr := le_inplaceRref hS hr.2.2
    rw [hr.1, hr.2.1] at hrr
    refine hrr.bind fun r hrV => (le_alloc _ _).bind fun q hq => le_forEach hq fun i j q _ _ hq => ?_
    refine (le_get (by assumption) _ _).bind (b := 4) fun x hxV => (le_get (by assumption) _ _).bind (b := 3) fun y hyV => (le_step (hS.ne (by assumption) (by assumption))).bind (b := 2) fun d hdV => ?_
    split
    · exact le_fail (by simp)
    · exact (le_get (by assumption) _ _).bind (b := 1) fun t htV => le_set hq _ _ (by assumption)

omit hS in
theorem le_firstMinor {m : Mat T} {n : Nat} (h : Dim V (n + 1) (n + 1) m) (i j : Nat) : (firstMinorC m i j).Le (4 * (n * n) + n) (Dim V n n) := by
  unfold firstMinorC
  rw [h.1, h.2.1, if_neg (by omega)]
  refine Le.of_le (a := n * n + n * (n * (1 + 1 + 1) + 1)) ((le_alloc _ _).bind fun r hr => le_forUp hr fun a r _ _ hr => ?_) (by ring_nf; omega)
  exact le_forUp hr fun b r _ _ hr => (le_get (by assumption) _ _).bind fun t htV => le_set hr _ _ (by assumption)

/-- The number of steps of a cofactor expansion of a matrix without zeros. -/
def cofSteps : Nat → Nat
  | 0 => 1
  | 1 => 1
  | 2 => 7
  | n + 3 => 1 + (n + 3) * (6 + (4 * ((n + 2) * (n + 2)) + (n + 2)) + cofSteps (n + 2) + 1)

omit hS in
theorem cofSteps_add : ∀ n, cofSteps (n + 2) + 36 * (n + 2) ^ 2 ≤ 76 * (n + 2).factorial
  | 0 => by decide
  | n + 1 => by
    have ih := Nat.mul_le_mul_left (n + 3) (cofSteps_add n)
    rw [show n + 1 + 2 = (n + 2) + 1 by omega, Nat.factorial_succ]
    show 1 + (n + 3) * (6 + (4 * ((n + 2) * (n + 2)) + (n + 2)) + cofSteps (n + 2) + 1) + 36 * (n + 2 + 1) ^ 2 ≤ _
    nlinarith [ih]

omit hS in
theorem cofSteps_le (n : Nat) : cofSteps n ≤ 76 * n.factorial := by
  match n with
  | 0 => decide
  | 1 => decide
  | n + 2 => have := cofSteps_add n; omega

omit hS in
theorem cubic_lt_cofSteps : ∀ n, 30 * (n + 6) ^ 3 + 3 < cofSteps (n + 6)
  | 0 => by decide
  | n + 1 => by
    have ih := Nat.mul_le_mul_left (n + 7) (cubic_lt_cofSteps n)
    show _ < 1 + (n + 4 + 3) * (6 + (4 * ((n + 4 + 2) * (n + 4 + 2)) + (n + 4 + 2)) + cofSteps (n + 6) + 1)
    have h2 : (n + 7) * cofSteps (n + 6) ≤ (n + 4 + 3) * (6 + (4 * ((n + 4 + 2) * (n + 4 + 2)) + (n + 4 + 2)) + cofSteps (n + 6) + 1) :=
      Nat.mul_le_mul (by omega) (by omega)
    have h3 : 30 * (n + 1 + 6) ^ 3 + 3 ≤ (n + 7) * (30 * (n + 6) ^ 3 + 3 + 1) := by
      have : (n + 7) ^ 2 ≤ (n + 6) ^ 3 := by nlinarith [Nat.zero_le (n ^ 3), Nat.zero_le (n ^ 2)]
      nlinarith [Nat.mul_le_mul_left (n + 7) this]
    have ih' : (n + 7) * (30 * (n + 6) ^ 3 + 3 + 1) ≤ (n + 7) * cofSteps (n + 6) := ih
    omega

omit hS in
theorem le_cofSteps : ∀ n, 7 * (n + 2).factorial ≤ 2 * cofSteps (n + 2)
  | 0 => by decide
  | n + 1 => by
    have ih := Nat.mul_le_mul_left (n + 3) (le_cofSteps n)
    rw [show n + 1 + 2 = (n + 2) + 1 by omega, Nat.factorial_succ]
    show _ ≤ 2 * (1 + (n + 3) * (6 + (4 * ((n + 2) * (n + 2)) + (n + 2)) + cofSteps (n + 2) + 1))
    nlinarith [ih]

theorem le_rowCofactorF : ∀ (fuel n : Nat) (m : Mat T), n < fuel → Dim V n n m → (rowCofactorFC S fuel m).Le (cofSteps n) V
  | fuel + 1, n, m, hf, h => by
    unfold rowCofactorFC
    rw [h.1, h.2.1]
    simp only [ne_eq, not_true_eq_false, if_false]
    match n with
    | 0 => exact (le_step (hS.ofInt 0 (by decide))).bind (b := 0) fun z hzV => le_pure hzV
    | 1 => exact le_dataAt h _
    | 2 => exact le_det2 hS h
    | n + 3 =>
      rw [if_neg (by omega), if_neg (by omega)]
      refine (le_step (hS.ofInt 0 (by decide))).bind fun z hzV => le_forUp (P := V) hzV fun j res _ _ hres => ?_
      refine Le.of_le (a := 1 + ((1 + 1) + (1 + ((4 * ((n + 2) * (n + 2)) + (n + 2)) + (cofSteps (n + 2) + (1 + 1)))))) ?_ (by omega)
      refine (le_get (by assumption) _ _).bind fun e heV => Le.bind (P := fun _ => True) ((le_step (hS.ofInt 0 (by decide))).bind fun z hzV => le_step (hS.ne (by assumption) (by assumption))) fun z _ => ?_
      split
      · refine (le_get (by assumption) _ _).bind fun e heV => (le_firstMinor h _ _).bind fun q hq => (le_rowCofactorF fuel (n + 2) q (by omega) hq).bind fun d hdV =>
          (le_step (hS.mul heV hdV)).bind fun p hpV => ?_
        split
        · exact le_step (hS.subA hres hpV)
        · exact le_step (hS.addA hres hpV)
      · exact le_pure hres

theorem le_colCofactorF : ∀ (fuel n : Nat) (m : Mat T), n < fuel → Dim V n n m → (colCofactorFC S fuel m).Le (cofSteps n) V
  | fuel + 1, n, m, hf, h => by
    unfold colCofactorFC
    rw [h.1, h.2.1]
    simp only [ne_eq, not_true_eq_false, if_false]
    match n with
    | 0 => exact (le_step (hS.ofInt 0 (by decide))).bind (b := 0) fun z hzV => le_pure hzV
    | 1 => exact le_dataAt h _
    | 2 => exact le_det2 hS h
    | n + 3 =>
      rw [if_neg (by omega), if_neg (by omega)]
      refine (le_step (hS.ofInt 0 (by decide))).bind fun z hzV => le_forUp (P := V) hzV fun j res _ _ hres => ?_
      refine Le.of_le (a := 1 + ((1 + 1) + (1 + ((4 * ((n + 2) * (n + 2)) + (n + 2)) + (cofSteps (n + 2) + (1 + 1)))))) ?_ (by omega)
      refine (le_get (by assumption) _ _).bind fun e heV => Le.bind (P := fun _ => True) ((le_step (hS.ofInt 0 (by decide))).bind fun z hzV => le_step (hS.ne (by assumption) (by assumption))) fun z _ => ?_
      split
      · refine (le_get (by assumption) _ _).bind fun e heV => (le_firstMinor h _ _).bind fun q hq => (le_colCofactorF fuel (n + 2) q (by omega) hq).bind fun d hdV =>
          (le_step (hS.mul heV hdV)).bind fun p hpV => ?_
        split
        · exact le_step (hS.subA hres hpV)
        · exact le_step (hS.addA hres hpV)
      · exact le_pure hres

omit hS

/-! ### Lower bounds -/

section Lower
variable {K : Type} [CommRing K] {rel : T → K → Prop} {A : Err → Prop}

theorem out_ok {α : Type} {r : Res α} {P : α → Prop} {v : α} (h : Out A r P) (hr : r = .ok v) : P v := by
  rw [hr] at h
  exact out_ok_iff.mp h

theorem exact_firstMinor {m : Mat T} {n : Nat} (hr : m.rows = n + 1) (hc : m.cols = n + 1) (i j : Nat) : (firstMinorC m i j).Exact (4 * (n * n) + n) := by
  unfold firstMinorC
  rw [hr, hc, if_neg (by omega)]
  rw [show 4 * (n * n) + n = n * n + n * (n * (1 + 1 + 1) + 1) by ring]
  refine Exact.bind (fun _ _ => rfl) fun r _ => exact_forUp fun a r _ _ => exact_forUp fun b r _ _ => (exact_step _).bind fun t _ => exact_step _

theorem exact_det2 (m : Mat T) : (det2C S m).Exact 7 :=
  (exact_step _).bind (b := 6) fun a _ => (exact_step _).bind (b := 5) fun d _ => (exact_step _).bind (b := 4) fun p _ =>
    (exact_step _).bind (b := 3) fun b _ => (exact_step _).bind (b := 2) fun c _ => (exact_step _).bind (b := 1) fun q _ => exact_step _

variable (hE : S.ExactRing rel A)
include hE

theorem exact_rowCofactorF : ∀ (fuel n : Nat) (m : Mat T) (M : Matrix (Fin n) (Fin n) K), n < fuel → Is rel m M → (∀ i j, M i j ≠ 0) →
    (rowCofactorFC S fuel m).Exact (cofSteps n)
  | fuel + 1, n, m, M, hf, h, hM => by
    unfold rowCofactorFC
    simp only [h.1, h.2.1, ne_eq, not_true_eq_false, if_false]
    match n with
    | 0 => exact (exact_step _).bind (b := 0) fun z _ => fun _ _ => rfl
    | 1 => exact exact_step _
    | 2 => exact exact_det2 m
    | n + 3 =>
      rw [if_neg (by omega), if_neg (by omega)]
      refine (exact_step _).bind fun z _ => exact_forUp fun j res _ hj => ?_
      rw [show 6 + (4 * ((n + 2) * (n + 2)) + (n + 2)) + cofSteps (n + 2) =
        1 + ((1 + 1) + (1 + ((4 * ((n + 2) * (n + 2)) + (n + 2)) + (cofSteps (n + 2) + (1 + 1))))) by omega]
      have hj' : j < n + 3 := by omega
      refine (exact_step _).bind fun e he => Exact.bind ((exact_step _).bind fun z _ => exact_step _) fun z hz => ?_
      have he' : rel e (M 0 ⟨j, hj'⟩) := by
        have := out_ok (h.full.get (A := A) (i := 0) (j := j) (by omega) hj' trivial) he
        rwa [ext_lt M (by omega) hj'] at this
      have hz' : z = true := (out_ok (neZero_ok hE he') ((neZeroC_res e).symm.trans hz)).mpr (hM _ _)
      rw [if_pos hz']
      refine (exact_step _).bind fun e _ => (exact_firstMinor h.1 h.2.1 _ _).bind fun q hq => Exact.bind ?_ fun d _ => (exact_step _).bind fun p _ => ?_
      · rw [firstMinorC_res] at hq
        have hq' := out_ok (firstMinor_is (A := A) h 0 ⟨j, hj'⟩) hq
        exact exact_rowCofactorF fuel (n + 2) q _ (by omega) hq' fun _ _ => hM _ _
      · split <;> exact exact_step _

theorem exact_colCofactorF : ∀ (fuel n : Nat) (m : Mat T) (M : Matrix (Fin n) (Fin n) K), n < fuel → Is rel m M → (∀ i j, M i j ≠ 0) →
    (colCofactorFC S fuel m).Exact (cofSteps n)
  | fuel + 1, n, m, M, hf, h, hM => by
    unfold colCofactorFC
    simp only [h.1, h.2.1, ne_eq, not_true_eq_false, if_false]
    match n with
    | 0 => exact (exact_step _).bind (b := 0) fun z _ => fun _ _ => rfl
    | 1 => exact exact_step _
    | 2 => exact exact_det2 m
    | n + 3 =>
      rw [if_neg (by omega), if_neg (by omega)]
      refine (exact_step _).bind fun z _ => exact_forUp fun j res _ hj => ?_
      rw [show 6 + (4 * ((n + 2) * (n + 2)) + (n + 2)) + cofSteps (n + 2) =
        1 + ((1 + 1) + (1 + ((4 * ((n + 2) * (n + 2)) + (n + 2)) + (cofSteps (n + 2) + (1 + 1))))) by omega]
      have hj' : j < n + 3 := by omega
      refine (exact_step _).bind fun e he => Exact.bind ((exact_step _).bind fun z _ => exact_step _) fun z hz => ?_
      have he' : rel e (M ⟨j, hj'⟩ 0) := by
        have := out_ok (h.full.get (A := A) (i := j) (j := 0) hj' (by omega) trivial) he
        rwa [ext_lt M hj' (by omega)] at this
      have hz' : z = true := (out_ok (neZero_ok hE he') ((neZeroC_res e).symm.trans hz)).mpr (hM _ _)
      rw [if_pos hz']
      refine (exact_step _).bind fun e _ => (exact_firstMinor h.1 h.2.1 _ _).bind fun q hq => Exact.bind ?_ fun d _ => (exact_step _).bind fun p _ => ?_
      · rw [firstMinorC_res] at hq
        have hq' := out_ok (firstMinor_is (A := A) h ⟨j, hj'⟩ 0) hq
        exact exact_colCofactorF fuel (n + 2) q _ (by omega) hq' fun _ _ => hM _ _
      · split <;> exact exact_step _

end Lower

end Mat
end CppMaths
