import Verif.Props.Frac
import Verif.Props.Vec
import Verif.Props.Mat
import Verif.Proofs.FracMem
import Verif.Proofs.Machine
import Verif.Proofs.MatMachine
/-!
# Lemmas about vectors and matrices of `Frac`s
-/

namespace CppMaths
open Frac BigInt

/-- The denominator of a number in lowest terms divides every other denominator of it. -/
theorem Frac.Valid.bb_dvd {f : Frac} (h : f.Valid) {t b : Int} (hb : b ≠ 0) (hv : f.value = (t : ℚ) / b) : f.bb.val ∣ b := by
  have h1 : (f.bb.val : ℚ) ≠ 0 := by exact_mod_cast h.bb_ne
  have h2 : (b : ℚ) ≠ 0 := by exact_mod_cast hb
  unfold Frac.value at hv
  rw [div_eq_div_iff h1 h2] at hv
  have h3 : f.tt.val * b = t * f.bb.val := by exact_mod_cast hv
  have h4 : f.bb.val ∣ f.tt.val * b := ⟨t, by rw [h3, mul_comm]⟩
  have hc : IsCoprime f.bb.val f.tt.val := (Int.isCoprime_iff_gcd_eq_one.mpr h.2.2.2).symm
  exact hc.dvd_of_dvd_mul_left h4

namespace Vec

theorem eqLoop_total {T : Type} {S : Scalar T} {x y : List T} (h : ∀ a ∈ x, ∀ b ∈ y, ∃ d, S.ne a b = .ok d) :
    ∀ n i, i + n ≤ x.length → i + n ≤ y.length → ∃ b, eqLoop S x y i n = .ok b
  | 0, _, _, _ => ⟨true, by simp only [eqLoop]⟩
  | n + 1, i, h1, h2 => by
    have g1 : get x i = .ok x[i] := by simp [get, List.getElem?_eq_getElem (show i < x.length by omega)]
    have g2 : get y i = .ok y[i] := by simp [get, List.getElem?_eq_getElem (show i < y.length by omega)]
    obtain ⟨d, hd⟩ := h x[i] (List.getElem_mem _) y[i] (List.getElem_mem _)
    simp only [eqLoop, g1, g2, hd, bind_ok]
    cases d
    · exact eqLoop_total h n (i + 1) (by omega) (by omega)
    · exact ⟨false, rfl⟩

theorem is_valid {x : List Frac} {n : Nat} {f : Fin n → ℚ} (hx : Vec.Is FracRel x f) : ∀ a ∈ x, a.Valid := by
  intro a ha
  obtain ⟨i, hi, rfl⟩ := List.mem_iff_getElem.mp ha
  obtain ⟨t, h1, h2⟩ := hx.2 ⟨i, hx.1 ▸ hi⟩
  rw [List.getElem?_eq_getElem hi, Option.some.injEq] at h1
  exact h1 ▸ h2.1

end Vec

theorem frac_ne_total {a b : Frac} (ha : a.Valid) (hb : b.Valid) : ∃ d, Scalar.frac.ne a b = .ok d :=
  ⟨!decide (a.value = b.value), by simp only [Scalar.frac, Frac.ne, Frac.eq_spec ha hb, bind_ok, pure_ok]⟩

namespace Vec

/-- `==` on vectors of `Frac`s never fails. -/
theorem eq_frac {n : Nat} {x y : List Frac} {f g : Fin n → ℚ} (hx : Vec.Is FracRel x f) (hy : Vec.Is FracRel y g) :
    Vec.eq Scalar.frac x y = .ok (decide (f = g)) := by
  have h := (C56_equality exactRing_frac hx hy).1
  have ht : ∃ b, Vec.eq Scalar.frac x y = .ok b := by
    unfold Vec.eq
    rw [if_neg (by simp [hx.1, hy.1])]
    exact eqLoop_total (fun a ha b hb => frac_ne_total (is_valid hx a ha) (is_valid hy b hb)) _ _ (by omega)
      (by rw [hx.1, hy.1]; omega)
  obtain ⟨b, hb⟩ := ht
  rw [hb] at h ⊢
  rcases h with ⟨b', h1, h2⟩ | ⟨e, h1, _⟩
  · cases h1
    have : (∃ h : n = n, ∀ i, f i = g (Fin.cast h i)) ↔ f = g := by
      simp [funext_iff]
    rw [this] at h2
    congr 1
    rw [Bool.eq_iff_iff, h2]; simp
  · cases h1

/-- The dot product of `Frac`s: the partial sums have denominators that divide the product of the denominators met. -/
theorem dot_frac {n : Nat} {x y : Fin n → Frac} (hx : ∀ i, (x i).Valid) (hy : ∀ i, (y i).Valid)
    (hD : ∏ i, ((x i).bb.val * (y i).bb.val) < 10 ^ 18)
    (hN : (∑ i, |(x i).value * (y i).value|) * ∏ i, (((x i).bb.val : ℚ) * (y i).bb.val) < 10 ^ 18) :
    ∃ d, dot Scalar.frac (List.ofFn x) (List.ofFn y) = .ok d ∧ d.Valid ∧ d.value = ∑ i, (x i).value * (y i).value := by
  set den : Fin n → Int := fun i => (x i).bb.val * (y i).bb.val with hden
  have hpos : ∀ i, 0 < den i := fun i => mul_pos (hx i).2.2.1 (hy i).2.2.1
  set p : Nat → ℚ := fun i => if h : i < n then (x ⟨i, h⟩).value * (y ⟨i, h⟩).value else 0 with hp
  set e : Nat → Int := fun i => if h : i < n then den ⟨i, h⟩ else 1 with he
  have epos : ∀ i, 0 < e i := fun i => by
    by_cases h : i < n
    · simp only [he, dif_pos h]; exact hpos _
    · simp only [he, dif_neg h]; norm_num
  have hPe : ∏ i ∈ Finset.range n, e i = ∏ i, den i := by
    rw [Finset.prod_range]; exact Finset.prod_congr rfl fun i _ => by simp [he]
  have hSp : ∀ g : ℚ → ℚ, ∑ i ∈ Finset.range n, g (p i) = ∑ i, g ((x i).value * (y i).value) := fun g => by
    rw [Finset.sum_range]; exact Finset.sum_congr rfl fun i _ => by simp [hp]
  have hDe : ∏ i ∈ Finset.range n, e i < 10 ^ 18 := by rw [hPe]; exact hD
  have hNe : (∑ i ∈ Finset.range n, |p i|) * ((∏ i ∈ Finset.range n, e i : Int) : ℚ) < 10 ^ 18 := by
    rw [hPe, hSp (fun q => |q|), Int.cast_prod]
    simpa [hden] using hN
  -- products over fewer factors are smaller
  have mono : ∀ i, i ≤ n → ∏ j ∈ Finset.range i, e j ≤ ∏ j ∈ Finset.range n, e j := fun i hi =>
    Int.le_of_dvd (Finset.prod_pos fun j _ => epos j) (Finset.prod_dvd_prod_of_subset _ _ _ (Finset.range_subset_range.mpr hi))
  have posP : ∀ i, 0 < ∏ j ∈ Finset.range i, e j := fun i => Finset.prod_pos fun j _ => epos j
  -- a number of absolute value at most the sum of the absolute products, with a denominator at most `D`
  have small : ∀ (q : ℚ) (t b : Int), 0 < b → b ≤ ∏ j ∈ Finset.range n, e j → q = (t : ℚ) / b →
      |q| ≤ ∑ i ∈ Finset.range n, |p i| → ¬ReduceAborts t b := by
    intro q t b hb hb' hq hqs
    refine not_reduceAborts_small ?_ ?_
    · have hbq : (0 : ℚ) < b := by exact_mod_cast hb
      have h1 : |(t : ℚ)| = |q| * b := by rw [hq, abs_div, abs_of_pos hbq]; field_simp
      have h2 : |(t : ℚ)| < 10 ^ 18 := by
        rw [h1]
        refine lt_of_le_of_lt (mul_le_mul hqs (by exact_mod_cast hb') hbq.le (Finset.sum_nonneg fun _ _ => abs_nonneg _)) hNe
      have h3 : ((|t| : Int) : ℚ) < ((1000000000000000000 : Int) : ℚ) := by
        rw [Int.cast_abs]; refine lt_of_lt_of_eq h2 (by norm_num)
      exact_mod_cast h3
    · rw [abs_of_pos hb]; exact lt_of_le_of_lt hb' (lt_of_lt_of_eq hDe (by norm_num))
  unfold dot
  rw [if_neg (by simp)]
  have hz : Scalar.frac.ofInt 0 = .ok ⟨⟨[0], false⟩, ⟨[1], false⟩⟩ := by decide +kernel
  rw [hz, bind_ok, List.length_ofFn]
  have := forUp_ok (A := Never) (Inv := fun i (r : Frac) => r.Valid ∧ r.value = ∑ j ∈ Finset.range i, p j ∧
      r.bb.val ∣ ∏ j ∈ Finset.range i, e j) (lo := 0) (n := n)
    (body := fun i r => do
      let a ← get (List.ofFn x) i
      let b ← get (List.ofFn y) i
      let p ← Scalar.frac.mul a b
      Scalar.frac.addA r p) (s := ⟨⟨[0], false⟩, ⟨[1], false⟩⟩)
    ⟨by decide, by simp [Frac.value, BigInt.val], by simp [BigInt.val]⟩ (fun i r _ hi hr => by
      obtain ⟨r1, r2, r3⟩ := hr
      have hi' : i < n := by omega
      have e1 : get (List.ofFn x) i = .ok (x ⟨i, hi'⟩) := by simp [get, hi']
      have e2 : get (List.ofFn y) i = .ok (y ⟨i, hi'⟩) := by simp [get, hi']
      rw [e1, e2, bind_ok, bind_ok]
      have hvx := hx ⟨i, hi'⟩
      have hvy := hy ⟨i, hi'⟩
      set a := x ⟨i, hi'⟩
      set b := y ⟨i, hi'⟩
      have hpi : p i = a.value * b.value := by simp only [hp, dif_pos hi']; rfl
      have hei : e i = a.bb.val * b.bb.val := by simp only [he, dif_pos hi', hden]; rfl
      have hxb : (a.bb.val : ℚ) ≠ 0 := by exact_mod_cast hvx.bb_ne
      have hyb : (b.bb.val : ℚ) ≠ 0 := by exact_mod_cast hvy.bb_ne
      have hprod : Yields (opMul a b) (a.value * b.value) (a.tt.val * b.tt.val) (a.bb.val * b.bb.val) :=
        (opMul_red hvx hvy).yields (mul_ne_zero hvx.bb_ne hvy.bb_ne) (by unfold Frac.value; push_cast; field_simp)
      have hq : a.value * b.value = ((a.tt.val * b.tt.val : Int) : ℚ) / ((a.bb.val * b.bb.val : Int) : ℚ) := by
        unfold Frac.value; push_cast; field_simp
      have hle : e i ≤ ∏ j ∈ Finset.range n, e j :=
        Int.le_of_dvd (posP n) (Finset.dvd_prod_of_mem e (Finset.mem_range.mpr hi'))
      obtain ⟨c, c1, c2, c3⟩ := hprod.1 (small _ _ _ (hei ▸ epos i) (hei ▸ hle) hq (by
        rw [← hpi]; exact Finset.single_le_sum (f := fun j => |p j|) (fun _ _ => abs_nonneg _) (Finset.mem_range.mpr hi')))
      have hcm : Scalar.frac.mul a b = .ok c := c1
      rw [hcm, bind_ok]
      have hcd : c.bb.val ∣ e i := hei ▸ c2.bb_dvd (mul_ne_zero hvx.bb_ne hvy.bb_ne) (c3.trans hq)
      have hrb : (r.bb.val : ℚ) ≠ 0 := by exact_mod_cast r1.bb_ne
      have hcb : (c.bb.val : ℚ) ≠ 0 := by exact_mod_cast c2.bb_ne
      have hsum : Yields (drop (Frac.addAssign r c)) (r.value + c.value) (r.tt.val * c.bb.val + c.tt.val * r.bb.val) (r.bb.val * c.bb.val) :=
        (addAssign_red r1 c2).yields (by unfold Frac.value; push_cast; field_simp)
      have hs : r.value + c.value = ((r.tt.val * c.bb.val + c.tt.val * r.bb.val : Int) : ℚ) / ((r.bb.val * c.bb.val : Int) : ℚ) := by
        unfold Frac.value; push_cast; field_simp
      have hd : r.bb.val * c.bb.val ∣ ∏ j ∈ Finset.range (i + 1), e j := by
        rw [Finset.prod_range_succ]; exact mul_dvd_mul r3 hcd
      have hv : r.value + c.value = ∑ j ∈ Finset.range (i + 1), p j := by
        rw [Finset.sum_range_succ, r2, c3, hpi]
      obtain ⟨d, d1, d2, d3⟩ := hsum.1 (small _ _ _ (mul_pos r1.2.2.1 c2.2.2.1)
        ((Int.le_of_dvd (posP _) hd).trans (mono (i + 1) hi')) hs (by
          rw [hv]
          exact (Finset.abs_sum_le_sum_abs _ _).trans (Finset.sum_le_sum_of_subset_of_nonneg
            (Finset.range_subset_range.mpr hi') fun _ _ _ => abs_nonneg _)))
      have hds : Scalar.frac.addA r c = .ok d := d1
      rw [hds]
      exact Out.ok ⟨d2, d3.trans hv, (d2.bb_dvd (mul_ne_zero r1.bb_ne c2.bb_ne) (d3.trans hs)).trans hd⟩)
  obtain ⟨d, d1, d2, d3, _⟩ := this.never
  refine ⟨d, d1, d2, ?_⟩
  rw [d3, zero_add]
  exact hSp id

end Vec

namespace Mat

theorem eqRow_total {T : Type} {S : Scalar T} {a b : Mat T} (i : Nat)
    (h : ∀ j, j < a.cols → ∃ s t d, a.get i j = .ok s ∧ b.get i j = .ok t ∧ S.ne s t = .ok d) :
    ∀ n j, j + n ≤ a.cols → ∃ e, eqRow S a b i j n = .ok e
  | 0, _, _ => ⟨true, by simp only [eqRow]⟩
  | n + 1, j, h1 => by
    obtain ⟨s, t, d, g1, g2, hd⟩ := h j (by omega)
    simp only [eqRow, g1, g2, hd, bind_ok]
    cases d
    · exact eqRow_total i h n (j + 1) (by omega)
    · exact ⟨false, rfl⟩

theorem eqRows_total {T : Type} {S : Scalar T} {a b : Mat T}
    (h : ∀ i, i < a.rows → ∀ j, j < a.cols → ∃ s t d, a.get i j = .ok s ∧ b.get i j = .ok t ∧ S.ne s t = .ok d) :
    ∀ n i, i + n ≤ a.rows → ∃ e, eqRows S a b i n = .ok e
  | 0, _, _ => ⟨true, by simp only [eqRows]⟩
  | n + 1, i, h1 => by
    obtain ⟨e, he⟩ := eqRow_total i (h i (by omega)) a.cols 0 (by omega)
    simp only [eqRows, he, bind_ok]
    cases e
    · exact ⟨false, rfl⟩
    · exact eqRows_total h n (i + 1) (by omega)

/-- `==` on matrices of `Frac`s never fails. -/
theorem eq_frac {r c : Nat} {a b : Mat Frac} {M N : Matrix (Fin r) (Fin c) ℚ} (ha : Mat.Is FracRel a M) (hb : Mat.Is FracRel b N) :
    Mat.eq Scalar.frac a b = .ok (decide (M = N)) := by
  have h := (C72_equality exactRing_frac ha hb).1
  have ht : ∃ b', Mat.eq Scalar.frac a b = .ok b' := by
    unfold Mat.eq dimensionsMatch
    rw [if_neg (by simp [ha.1, hb.1, ha.2.1, hb.2.1])]
    refine eqRows_total (fun i hi j hj => ?_) _ _ (by omega)
    obtain ⟨s, s1, s2⟩ := ha.2.2.2 ⟨i, ha.1 ▸ hi⟩ ⟨j, ha.2.1 ▸ hj⟩
    obtain ⟨t, t1, t2⟩ := hb.2.2.2 ⟨i, ha.1 ▸ hi⟩ ⟨j, ha.2.1 ▸ hj⟩
    obtain ⟨d, hd⟩ := frac_ne_total s2.1 t2.1
    exact ⟨s, t, d, by simp only [Mat.get, ha.2.1, s1], by simp only [Mat.get, hb.2.1, t1], hd⟩
  obtain ⟨b', hb'⟩ := ht
  rw [hb'] at h ⊢
  rcases h with ⟨b'', h1, h2⟩ | ⟨e, h1, _⟩
  · cases h1
    have : (∃ (hr : r = r) (hc : c = c), ∀ i j, M i j = N (i.cast hr) (j.cast hc)) ↔ M = N := by
      simp [← Matrix.ext_iff]
    rw [this] at h2
    congr 1
    rw [Bool.eq_iff_iff, h2]; simp
  · cases h1

end Mat
/-- A number before (`false`) and after (`true`) its division by zero. -/
def Mixed (f : Frac) (k : ℚ × Bool) : Prop := if k.2 then OverZero f k.1 else FracRel f k.1

instance : Zero (ℚ × Bool) := ⟨(0, false)⟩

theorem divA_zero {x t : Frac} {q : ℚ} (hx : FracRel x q) (hq : q ≠ 0) (ht : FracRel t 0) :
    Out Aborts (Scalar.frac.divA x t) (fun f => OverZero f q) := by
  obtain ⟨hv, rfl⟩ := hx
  rcases (C34_refuted_always hv ht.1 ht.2).1 hq with ⟨f, f1, f2, f3⟩ | ⟨s, h⟩
  · refine .inl ⟨f, by simp only [Scalar.frac, f1, drop], f3, fun h => ?_, fun h => ?_⟩
    · rw [f2]
      refine Int.sign_eq_one_of_pos ?_
      have hb : (0 : ℚ) < x.bb.val := by exact_mod_cast hv.2.2.1
      unfold Frac.value at h
      have := (div_pos_iff_of_pos_right hb).mp h
      exact_mod_cast this
    · rw [f2]
      refine Int.sign_eq_neg_one_of_neg ?_
      have hb : (0 : ℚ) < x.bb.val := by exact_mod_cast hv.2.2.1
      unfold Frac.value at h
      have : (x.tt.val : ℚ) < 0 := by
        by_contra hc
        exact absurd h (not_lt.mpr (div_nonneg (not_lt.mp hc) hb.le))
      exact_mod_cast this
  · exact .inr ⟨.assertion, by simp only [Scalar.frac, h, drop], rfl⟩

end CppMaths
