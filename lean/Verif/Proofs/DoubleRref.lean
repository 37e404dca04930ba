import Verif.Proofs.MatRref
import Verif.Proofs.Rounding
import Verif.Proofs.TransferInst
/-!
# `inplace_rref()` over `double`
-/

namespace CppMaths
namespace Double

/-- The number denoted, zero for infinities and NaN. -/
def val : Double → ℚ
  | fin s m e => real s m e
  | _ => 0

theorem Denotes.val {d : Double} {q : ℚ} (h : d.Denotes q) : d.val = q := by
  obtain ⟨_, m, e, ⟨rfl, rfl⟩ | ⟨rfl, rfl⟩⟩ := h <;> simp [Double.val, real]

/-- Neither infinite nor NaN. -/
def IsFin (d : Double) : Prop := ∃ s m e, d = fin s m e

theorem denotes_val {d : Double} (hd : d.WF) (h : d.IsFin) : d.Denotes d.val := by
  obtain ⟨s, m, e, rfl⟩ := h
  refine ⟨hd, m, e, ?_⟩
  cases s <;> simp [Double.val, real]

theorem Denotes.isFin {d : Double} {q : ℚ} (h : d.Denotes q) : d.IsFin := by
  obtain ⟨_, m, e, ⟨rfl, _⟩ | ⟨rfl, _⟩⟩ := h <;> exact ⟨_, _, _, rfl⟩

theorem sub_fin_left {x y : Double} (h : (sub x y).IsFin) : x.IsFin := by
  obtain ⟨s, m, e, h⟩ := h
  cases x with
  | fin => exact ⟨_, _, _, rfl⟩
  | nan => cases y <;> simp [sub] at h
  | inf a =>
    cases y with
    | nan => simp [sub] at h
    | inf b => simp only [sub] at h; split at h <;> cases h
    | fin => simp [sub] at h

theorem sub_fin_right {x y : Double} (h : (sub x y).IsFin) : y.IsFin := by
  obtain ⟨s, m, e, h⟩ := h
  cases y with
  | fin => exact ⟨_, _, _, rfl⟩
  | nan => cases x <;> simp [sub] at h
  | inf a =>
    cases x with
    | nan => simp [sub] at h
    | inf b => simp only [sub] at h; split at h <;> cases h
    | fin => simp [sub] at h

theorem div_self_fin {x : Double} (h : (div x x).IsFin) : x.IsFin := by
  obtain ⟨s, m, e, h⟩ := h
  cases x with
  | fin => exact ⟨_, _, _, rfl⟩
  | nan => simp [div] at h
  | inf a => simp [div] at h

theorem div_fin_left {x y : Double} (h : (div x y).IsFin) : x.IsFin := by
  obtain ⟨s, m, e, h⟩ := h
  cases x with
  | fin => exact ⟨_, _, _, rfl⟩
  | nan => simp [div] at h
  | inf a => cases y <;> simp [div] at h

theorem div_wf (x y : Double) : (div x y).WF := by
  cases x <;> cases y <;> simp only [div] <;> (try split) <;> (try split) <;> first | exact round_wf _ _ | trivial | simp [WF]

/-- A number that is a `double` is rounded to itself. -/
theorem round_denotes (z : Bool) {d : Double} {q : ℚ} (h : d.Denotes q) : (round z q).Denotes q := by
  obtain ⟨hwf, m, e, h⟩ := h
  have key : ∀ s, d = fin s m e → |(m : ℚ) * 2 ^ e| < 2 ^ (1024 : Int) ∧ m < 2 ^ 53 ∧ -1074 ≤ e := by
    rintro s rfl
    obtain ⟨h1, h2, h3, _⟩ := hwf
    refine ⟨?_, h1, h2⟩
    rw [abs_of_nonneg (by positivity), mul_comm, show (1024 : Int) = 971 + (53 : Nat) by norm_num, two_zpow_add_nat]
    have h4 : (m : ℚ) < 2 ^ 53 := by exact_mod_cast h1
    have h5 := two_zpow_le h3
    have h6 := two_zpow_pos e
    exact mul_lt_mul_of_le_of_lt_of_pos_of_nonneg h5 h4 h6 (by positivity)
  rcases h with ⟨h, rfl⟩ | ⟨h, rfl⟩
  · obtain ⟨h1, h2, h3⟩ := key _ h
    exact round_exact z (k := m) (e := e) (by rw [Nat.abs_cast]; exact_mod_cast h2.le) h3 (by simp) h1
  · obtain ⟨h1, h2, h3⟩ := key _ h
    exact round_exact z (k := -m) (e := e) (by rw [abs_neg, Nat.abs_cast]; exact_mod_cast h2.le) h3 (by simp) (by rw [abs_neg]; exact h1)

theorem sub_zero' {x y : Double} {a : ℚ} (hx : x.Denotes a) (hy : y.Denotes 0) : (sub x y).Denotes a := by
  obtain ⟨z, h⟩ := sub_denotes hx hy
  rw [h, _root_.sub_zero]
  exact round_denotes z hx

theorem mul_zero' {x y : Double} (hx : x.IsFin) (hxw : x.WF) (hy : y.Denotes 0) : (mul x y).Denotes 0 := by
  obtain ⟨z, h⟩ := mul_denotes (denotes_val hxw hx) hy
  rw [h, MulZeroClass.mul_zero]
  exact round_denotes z hy

theorem mul_one' {x y : Double} {a : ℚ} (hx : x.Denotes a) (hy : y.Denotes 1) : (mul x y).Denotes a := by
  obtain ⟨z, h⟩ := mul_denotes hx hy
  rw [h, _root_.mul_one]
  exact round_denotes z hx

theorem denotes_zero (z : Bool) : (round z 0).Denotes 0 :=
  round_denotes z (d := zero) ⟨by decide, 0, -1074, .inl ⟨rfl, by simp⟩⟩

theorem denotes_one (z : Bool) : (round z 1).Denotes 1 := by
  have := ofInt_denotes (k := 1) (by norm_num)
  rw [Int.cast_one] at this
  exact round_denotes z this

theorem sub_self' {x y : Double} {a : ℚ} (hx : x.Denotes a) (hy : y.Denotes a) : (sub x y).Denotes 0 := by
  obtain ⟨z, h⟩ := sub_denotes hx hy
  rw [h, _root_.sub_self]
  exact denotes_zero z

theorem div_self' {x : Double} {a : ℚ} (hx : x.Denotes a) (ha : a ≠ 0) : (div x x).Denotes 1 := by
  obtain ⟨z, h⟩ := div_denotes hx hx ha
  rw [h, _root_.div_self ha]
  exact denotes_one z

theorem zero_div' {x y : Double} {a : ℚ} (hx : x.Denotes 0) (hy : y.Denotes a) (ha : a ≠ 0) : (div x y).Denotes 0 := by
  obtain ⟨z, h⟩ := div_denotes hx hy ha
  rw [h, _root_.zero_div]
  exact denotes_zero z

theorem eq_zero_iff {x y : Double} (hx : x.WF) (hy : y.Denotes 0) : Double.eq x y = true ↔ x.Denotes 0 := by
  obtain ⟨s', m', e', rfl, h0⟩ := hy.fin
  cases x with
  | nan => exact ⟨fun h => absurd h (by simp [Double.eq]), fun h => absurd h not_denotes_nan⟩
  | inf a => exact ⟨fun h => absurd h (by simp [Double.eq]), fun h => absurd h not_denotes_inf⟩
  | fin s m e =>
    simp only [Double.eq, decide_eq_true_eq, ← h0]
    have h1 := denotes_val hx ⟨s, m, e, rfl⟩
    exact ⟨fun h => by rw [← h]; exact h1, fun h => h1.unique h⟩

end Double

namespace Mat
open Double

/-- An entry with its bit pattern. -/
def Bits (t d : Double) : Prop := t = d ∧ d.WF

/-- All entries are finite. -/
def AllFin (F : Nat → Nat → Double) (r c : Nat) : Prop := ∀ i < r, ∀ j < c, (F i j).IsFin

/-- The numbers denoted. -/
def vals (F : Nat → Nat → Double) : Nat → Nat → ℚ := fun i j => (F i j).val

def dscaleF (F : Nat → Nat → Double) (a : Nat) (v : Double) : Nat → Nat → Double :=
  fun i j => if i = a then Double.div (F i j) v else F i j

def dclearF (F : Nat → Nat → Double) (a p : Nat) : Nat → Nat → Double :=
  fun i j => if i = a then F i j else Double.sub (F i j) (Double.mul (F i p) (F a j))

theorem dscale_ok {m : Mat Double} {r c : Nat} {F : Nat → Nat → Double} (hm : Full Bits m r c F) {a p : Nat} (ha : a < r) (hp : p < c) :
    Out Never (scaleRow Scalar.double m a p) (fun m => Full Bits m r c (dscaleF F a (F a p))) :=
  scaleRow_of hm ha hp (fun j _ {x v} hx hv => by
    rw [dscaleF, if_pos rfl, ← hx.1, ← hv.1]
    exact Out.ok ⟨rfl, div_wf _ _⟩) fun i j h => by rw [dscaleF, if_neg h]

theorem dclear_ok {m : Mat Double} {r c : Nat} {F : Nat → Nat → Double} (hm : Full Bits m r c F) {a p : Nat} (ha : a < r) (hp : p < c) :
    Out Never (clearColumn Scalar.double m a p) (fun m => Full Bits m r c (dclearF F a p)) :=
  clearColumn_of hm ha hp (fun i _ h j _ {v x y} hv hx hy => by
    rw [dclearF, if_neg h, ← hv.1, ← hx.1, ← hy.1]
    exact Out.ok ⟨rfl, sub_wf _ _⟩) fun j => by rw [dclearF, if_pos rfl]

/-- Whether the entries are zero, as a matrix of numbers. -/
noncomputable def marks (F : Nat → Nat → Double) : Nat → Nat → ℚ := fun i j => if Double.eq (F i j) (Double.ofInt 0) = true then 0 else 1

theorem full_marks {m : Mat Double} {r c : Nat} {F : Nat → Nat → Double} (hm : Full Bits m r c F) :
    Full (fun t k => Double.eq t (Double.ofInt 0) = true ↔ k = (0 : ℚ)) m r c (marks F) := by
  refine ⟨hm.1, hm.2.1, hm.2.2.1, fun i j hi hj _ => ?_⟩
  obtain ⟨t, h1, h2, _⟩ := hm.2.2.2 i j hi hj trivial
  refine ⟨t, h1, ?_⟩
  rw [h2, marks]
  split <;> simp [*]

theorem dfind_ok {m : Mat Double} {r c r0 p : Nat} {F : Nat → Nat → Double} (hm : Full Bits m r c F) (hr0 : r0 < r) (hp : p < c) :
    Out Never (findPivot Scalar.double m r0 (m.rows * m.cols + 1) r0 p) (Found (marks F) r c r0 r0 p) :=
  findPivot_start_of (fun {x k} h => .inl ⟨_, rfl, h⟩) (full_marks hm) hr0 hp

theorem ofInt_zero : (Double.ofInt 0).Denotes 0 := by
  have := ofInt_denotes (k := 0) (by norm_num)
  rwa [Int.cast_zero] at this

theorem marks_iff {F : Nat → Nat → Double} {i j : Nat} (h : (F i j).WF) (hf : (F i j).IsFin) : marks F i j = 0 ↔ vals F i j = 0 := by
  have h1 : (Double.eq (F i j) (Double.ofInt 0) = true) ↔ (F i j).val = 0 := by
    rw [eq_zero_iff h ofInt_zero]
    have h2 := denotes_val h hf
    exact ⟨fun h => h.val, fun h => by rwa [h] at h2⟩
  rw [marks, vals, ← h1]
  split <;> simp [*]

/-- After the pivot row has been scaled and the column cleared. -/
theorem Stage.next {K : Type} [Field K] {F G : Nat → Nat → K} {r k q : Nat} {piv : Nat → Nat} (h : Stage F r k q piv) (hk : k < r)
    (hq : G k q = 1) (col : ∀ i < r, ∀ j < q, G i j = F i j ∨ (i = k ∧ G i j = 0)) (colq : ∀ i < r, i ≠ k → G i q = 0) :
    Stage G r (k + 1) (q + 1) (Function.update piv k q) := by
  have old : ∀ a < k, Function.update piv k q a = piv a := fun a ha => Function.update_of_ne (by omega) _ _
  have new : Function.update piv k q k = q := Function.update_self _ _ _
  have col' : ∀ i < r, ∀ j < q, G i j = F i j := fun i hi j hj => by
    rcases col i hi j hj with h1 | ⟨rfl, h1⟩
    · exact h1
    · rw [h1, h.below i le_rfl hk j hj]
  refine ⟨fun a ha => ?_, fun a b hab hb => ?_, fun a ha => ?_, fun a ha j hj => ?_, fun a ha i hi hia => ?_, fun i hi hir j hj => ?_⟩
  · by_cases hak : a < k
    · rw [old a hak]; have := h.bound a hak; omega
    · obtain rfl : a = k := by omega
      rw [new]; omega
  · rw [old a (by omega)]
    by_cases hbk : b < k
    · rw [old b hbk]; exact h.mono a b hab hbk
    · obtain rfl : b = k := by omega
      rw [new]; exact h.bound a hab
  · by_cases hak : a < k
    · rw [old a hak, col' _ (by omega) _ (h.bound a hak), h.one a hak]
    · obtain rfl : a = k := by omega
      rw [new, hq]
  · by_cases hak : a < k
    · rw [old a hak] at hj
      rw [col' _ (by omega) _ (hj.trans (h.bound a hak)), h.left a hak j hj]
    · obtain rfl : a = k := by omega
      rw [new] at hj
      rw [col' _ hk _ hj, h.below a le_rfl hk j hj]
  · by_cases hak : a < k
    · rw [old a hak, col' _ hi _ (h.bound a hak), h.alone a hak i hi hia]
    · obtain rfl : a = k := by omega
      rw [new, colq i hi hia]
  · by_cases hjq : j < q
    · rw [col' _ hir _ hjq, h.below i (by omega) hir j hjq]
    · obtain rfl : j = q := by omega
      exact colq i hir (by omega)

/-- One step of the reduction: if everything is finite afterwards, everything was finite before, and the reduced part has grown. -/
theorem dstep {r c k q : Nat} {F : Nat → Nat → Double} (hw : ∀ i < r, ∀ j < c, (F i j).WF) (hk : k < r) (hq : q < c)
    (hnz : ¬(F k q).Denotes 0) (hfin : AllFin (dclearF (dscaleF F k (F k q)) k q) r c) :
    AllFin F r c ∧ ∀ piv, Stage (vals F) r k q piv →
      Stage (vals (dclearF (dscaleF F k (F k q)) k q)) r (k + 1) (q + 1) (Function.update piv k q) := by
  -- before clearing
  have f1 : AllFin (dscaleF F k (F k q)) r c := fun i hi j hj => by
    have := hfin i hi j hj
    rw [dclearF] at this
    split at this
    · exact this
    · exact sub_fin_left this
  -- the pivot
  have fp : (F k q).IsFin := by
    have := f1 k hk q hq
    rw [dscaleF, if_pos rfl] at this
    exact div_self_fin this
  have f0 : AllFin F r c := fun i hi j hj => by
    have := f1 i hi j hj
    rw [dscaleF] at this
    split at this
    · exact div_fin_left this
    · exact this
  refine ⟨f0, fun piv h => ?_⟩
  have hv := denotes_val (hw k hk q hq) fp
  have hv0 : (F k q).val ≠ 0 := fun h => hnz (by rwa [h] at hv)
  -- the scaled row
  have s1 : (dscaleF F k (F k q) k q).Denotes 1 := by
    rw [dscaleF, if_pos rfl]
    exact div_self' hv hv0
  have sz : ∀ j < q, (dscaleF F k (F k q) k j).Denotes 0 := fun j hj => by
    rw [dscaleF, if_pos rfl]
    refine zero_div' ?_ hv hv0
    have h1 := denotes_val (hw k hk j (by omega)) (f0 k hk j (by omega))
    rwa [show (F k j).val = 0 from h.below k le_rfl hk j hj] at h1
  have so : ∀ i j, i ≠ k → dscaleF F k (F k q) i j = F i j := fun i j h => by rw [dscaleF, if_neg h]
  refine h.next hk ?_ (fun i hi j hj => ?_) (fun i hi hik => ?_)
  · rw [vals, dclearF, if_pos rfl]
    exact s1.val
  · by_cases hik : i = k
    · refine .inr ⟨hik, ?_⟩
      rw [hik, vals, dclearF, if_pos rfl]
      exact (sz j hj).val
    · left
      rw [vals, vals, dclearF, if_neg hik, so i j hik, so i q hik]
      have hj' : j < c := by omega
      have h2 := mul_zero' (f0 i hi q hq) (hw i hi q hq) (sz j hj)
      exact (sub_zero' (denotes_val (hw i hi j hj') (f0 i hi j hj')) h2).val
  · rw [vals, dclearF, if_neg hik, so i q hik]
    have h1 := denotes_val (hw i hi q hq) (f0 i hi q hq)
    exact (sub_self' h1 (mul_one' h1 s1)).val

theorem dRrefLoop_ok {r c : Nat} (n : Nat) :
    ∀ (k p : Nat) (m : Mat Double) (F : Nat → Nat → Double), k + n = r → p ≤ c → Full Bits m r c F →
    Out Never (rrefLoop Scalar.double n k p m) (fun m' => ∃ G, Full Bits m' r c G ∧
      (AllFin G r c → AllFin F r c ∧ ∀ piv, Stage (vals F) r k p piv → IsRref (toM r c (vals G))) ∧
      ∀ j < c, (∀ i < r, (G i j).IsFin) → ∀ i < r, (F i j).IsFin) := by
  induction n with
  | zero =>
    intro k p m F hk hp hm
    exact Out.ok ⟨F, hm, fun hf => ⟨hf, fun piv h => Stage.isRref (h.advance hp fun j _ _ i hi hir => by omega)⟩, fun j _ h => h⟩
  | succ n ih =>
    intro k p m F hk hp hm
    have hw : ∀ i < r, ∀ j < c, (F i j).WF := fun i hi j hj => by
      obtain ⟨t, _, _, h⟩ := hm.2.2.2 i j hi hj trivial
      exact h
    unfold rrefLoop
    by_cases hc : m.cols ≤ p
    · rw [if_pos hc]
      rw [hm.2.1] at hc
      exact Out.ok ⟨F, hm, fun hf => ⟨hf, fun piv h => Stage.isRref (h.advance hp fun j _ _ i hi hir => by omega)⟩, fun j _ h => h⟩
    · rw [if_neg hc]
      rw [hm.2.1] at hc
      have hkr : k < r := by omega
      refine Out.bind (dfind_ok hm hkr (by omega)) fun o ho => ?_
      match o, ho with
      | none, ho =>
        refine Out.ok ⟨F, hm, fun hf => ⟨hf, fun piv h => Stage.isRref (h.advance hp fun j hj hjc i hi hir => ?_)⟩, fun j _ h => h⟩
        rw [← marks_iff (hw i hir j hjc) (hf i hir j hjc)]
        rcases hj.eq_or_lt with rfl | hj
        · exact ho.1 i hi hir
        · exact ho.2 j hj hjc i hi hir
      | some (i, q), ho =>
        obtain ⟨a1, a2, a3, a4, a5, a6, a7⟩ := ho
        dsimp only
        refine Out.bind (swapRows_ok hm a2 hkr) fun m1 hm1 => ?_
        have e1 : swapF F i k k q = F i q := by
          unfold swapF
          by_cases hki : k = i
          · rw [if_pos hki, hki]
          · rw [if_neg hki, if_pos rfl]
        have hw1 : ∀ i' < r, ∀ j < c, (swapF F i k i' j).WF := fun i' hi j hj => by
          obtain ⟨t, _, _, h⟩ := hm1.2.2.2 i' j hi hj trivial
          exact h
        have hne : ¬(swapF F i k k q).Denotes 0 := by
          rw [e1]
          intro h
          refine a5 ?_
          rw [marks, if_pos ((eq_zero_iff (hw i a2 q a4) ofInt_zero).mpr h)]
        refine Out.bind (dscale_ok hm1 hkr a4) fun m2 hm2 => ?_
        refine Out.bind (dclear_ok hm2 hkr a4) fun m3 hm3 => ?_
        refine (ih (k + 1) (q + 1) m3 _ (by omega) (by omega) hm3).mono ?_
        rintro m' ⟨G, h1, h2, hcol⟩
        have swapFin : ∀ j < c, (∀ i' < r, (swapF F i k i' j).IsFin) → ∀ i' < r, (F i' j).IsFin := fun j hj h5 i' hi => by
          by_cases hik : i' = k
          · have := h5 i a2
            rw [swapF, if_pos rfl] at this
            rwa [hik]
          · by_cases hii : i' = i
            · have := h5 k hkr
              rw [swapF] at this
              by_cases hki : k = i
              · rw [if_pos hki] at this; rw [hii, ← hki]; exact this
              · rw [if_neg hki, if_pos rfl] at this; rw [hii]; exact this
            · have := h5 i' hi
              rw [swapF, if_neg hii, if_neg hik] at this
              exact this
        refine ⟨G, h1, fun hf => ?_, fun j hj hG => swapFin j hj fun i' hi => ?_⟩
        swap
        · have h3 := hcol j hj hG i' hi
          have h4 : (dscaleF (swapF F i k) k (swapF F i k k q) i' j).IsFin := by
            rw [dclearF] at h3
            split at h3
            · exact h3
            · exact sub_fin_left h3
          rw [dscaleF] at h4
          split at h4
          · exact div_fin_left h4
          · exact h4
        obtain ⟨h3, h4⟩ := h2 hf
        obtain ⟨h5, h6⟩ := dstep hw1 hkr a4 hne h3
        have h7 : AllFin F r c := fun i' hi j hj => swapFin j hj (fun a ha => h5 a ha j hj) i' hi
        refine ⟨h7, fun piv h => h4 _ (h6 piv ?_)⟩
        have h' : Stage (vals F) r k q piv := h.advance a3 fun j hj hjq i' hi hir => by
          rw [← marks_iff (hw i' hir j (by omega)) (h7 i' hir j (by omega))]
          rcases hj.eq_or_lt with rfl | hj
          · exact a6 hjq i' hi hir
          · exact a7 j hj hjq i' hi hir
        have e2 : vals (swapF F i k) = swapF (vals F) i k := by
          funext x y
          simp only [vals, swapF]
          split
          · rfl
          · split <;> rfl
        rw [e2]
        exact h'.swap a1 a2 hkr

/-- `rref()` and `inplace_rref()` of a matrix of `double`s. -/
theorem rref_double {r c : Nat} {x : Mat Double} {D : Matrix (Fin r) (Fin c) Double}
    (hx : Is Bits x D) : ∃ (y : Mat Double) (N : Matrix (Fin r) (Fin c) Double),
      rref .double x = .ok y ∧ inplaceRref .double x = .ok y ∧ Is Bits y N ∧
      (∀ Q : Matrix (Fin r) (Fin c) ℚ, (∀ i j, (N i j).Denotes (Q i j)) → IsRref Q) ∧
      ∀ j, (∀ i, (N i j).IsFin) → ∀ i, (D i j).IsFin := by
  letI : Zero Double := ⟨Double.ofInt 0⟩
  have h := hx.full
  have hcopy : x.copy = .ok x := by
    rcases Mat.copy_ok (A := Never) h with ⟨m, h1, h2⟩ | ⟨_, _, h⟩
    · rw [h1]
      congr 1
      have e : m.data = x.data := by
        refine List.ext_getElem? fun k => ?_
        by_cases hk : k < r * c
        · have hc : 0 < c := by
            rcases Nat.eq_zero_or_pos c with h | h
            · subst h; omega
            · exact h
          have h3 : k / c < r := Nat.div_lt_of_lt_mul (by rwa [Nat.mul_comm])
          have h4 := Nat.div_add_mod k c
          rw [Nat.mul_comm] at h4
          obtain ⟨t, t1, rfl, _⟩ := h.2.2.2 _ _ h3 (Nat.mod_lt k hc) trivial
          obtain ⟨t', t1', rfl, _⟩ := h2.2.2.2 _ _ h3 (Nat.mod_lt k hc) trivial
          rw [h4] at t1 t1'
          rw [t1, t1']
        · rw [List.getElem?_eq_none (by rw [h2.2.2.1]; omega), List.getElem?_eq_none (by rw [h.2.2.1]; omega)]
      obtain ⟨a, b, d⟩ := m
      obtain ⟨a', b', d'⟩ := x
      have q1 := h.1; have q2 := h.2.1; have q3 := h2.1; have q4 := h2.2.1
      simp only at q1 q2 q3 q4 e
      subst q1 q2 q3 q4 e
      rfl
    · exact h.elim
  rcases Mat.dRrefLoop_ok r 0 0 x _ (by omega) (by omega) h with ⟨y, h1, G, h2, h3, h4⟩ | ⟨_, _, h⟩
  · refine ⟨y, fun i j => G i j, ?_, ?_, h2.is fun _ _ => rfl, fun Q hQ => ?_, fun j hj i => ?_⟩
    · unfold rref inplaceRref
      rw [hcopy, bind_ok, h.1]
      exact h1
    · unfold inplaceRref
      rw [h.1]
      exact h1
    · obtain ⟨_, h5⟩ := h3 fun i hi j hj => (hQ ⟨i, hi⟩ ⟨j, hj⟩).isFin
      have := h5 (fun _ => 0) ⟨fun a ha => absurd ha (by omega), fun a b _ hb => absurd hb (by omega),
        fun a ha => absurd ha (by omega), fun a ha => absurd ha (by omega), fun a ha => absurd ha (by omega), fun i _ _ j hj => absurd hj (by omega)⟩
      have e : Mat.toM r c (Mat.vals G) = Q := by
        funext i j
        exact (hQ i j).val
      rwa [e] at this
    · have := h4 j j.2 (fun i hi => hj ⟨i, hi⟩) i i.2
      rwa [Mat.ext_fin] at this
  · exact h.elim

end Mat
end CppMaths
