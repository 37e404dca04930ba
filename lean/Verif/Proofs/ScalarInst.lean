import Verif.Proofs.Scalar
import Verif.Proofs.FracBuilt
import Verif.Proofs.IntSafe
import Verif.Proofs.IntMem
import Mathlib.Tactic.FieldSimp
/-!
# The scalar types at hand are exact
-/

namespace CppMaths
open BigInt

theorem out_of_ex {α : Type} {A : Err → Prop} {r : Res α} {P : α → Prop} (h : ∃ a, r = .ok a ∧ P a) : Out A r P := .inl h

theorem exactRing_ring (K : Type) [CommRing K] [DecidableEq K] : (Scalar.ring K).ExactRing (fun t k => t = k) Never where
  ofInt n _ := Out.ok rfl
  add := by rintro x y _ _ rfl rfl; exact Out.ok rfl
  sub := by rintro x y _ _ rfl rfl; exact Out.ok rfl
  mul := by rintro x y _ _ rfl rfl; exact Out.ok rfl
  addA := by rintro x y _ _ rfl rfl; exact Out.ok rfl
  subA := by rintro x y _ _ rfl rfl; exact Out.ok rfl
  eq := by rintro x y _ _ rfl rfl; exact Out.ok (by simp)
  ne := by rintro x y _ _ rfl rfl; exact Out.ok (by simp)

theorem exactField_field (K : Type) [Field K] [DecidableEq K] : (Scalar.field K).ExactField (fun t k => t = k) Never where
  ofInt n _ := Out.ok rfl
  add := by rintro x y _ _ rfl rfl; exact Out.ok rfl
  sub := by rintro x y _ _ rfl rfl; exact Out.ok rfl
  mul := by rintro x y _ _ rfl rfl; exact Out.ok rfl
  addA := by rintro x y _ _ rfl rfl; exact Out.ok rfl
  subA := by rintro x y _ _ rfl rfl; exact Out.ok rfl
  eq := by rintro x y _ _ rfl rfl; exact Out.ok (by simp)
  ne := by rintro x y _ _ rfl rfl; exact Out.ok (by simp)
  neg := by rintro x _ rfl; exact Out.ok rfl
  mulA := by rintro x y _ _ rfl rfl; exact Out.ok rfl
  div := by
    rintro x y _ _ rfl rfl h
    simp only [Scalar.field, if_neg h]
    exact Out.ok rfl
  divA := by
    rintro x y _ _ rfl rfl h
    simp only [Scalar.field, if_neg h]
    exact Out.ok rfl

theorem exactRing_int : Scalar.int.ExactRing IntRel Never where
  ofInt n h := by
    obtain ⟨r, r1, r2, r3, _⟩ := ofInt64_ok (x := n) 0 (by omega) (by omega)
    exact out_of_ex ⟨r, r1, r2, by simpa using r3⟩
  add := by rintro x y _ _ ⟨hx, rfl⟩ ⟨hy, rfl⟩; exact out_of_ex (opAdd_ok hx.clean hy.clean)
  sub := by rintro x y _ _ ⟨hx, rfl⟩ ⟨hy, rfl⟩; exact out_of_ex (opSub_ok hx.clean hy.clean)
  mul := by rintro x y _ _ ⟨hx, rfl⟩ ⟨hy, rfl⟩; exact out_of_ex (opMul_ok hx.clean hy.clean)
  addA := by rintro x y _ _ ⟨hx, rfl⟩ ⟨hy, rfl⟩; exact out_of_ex (addAssign_ok hx.clean hy.clean)
  subA := by rintro x y _ _ ⟨hx, rfl⟩ ⟨hy, rfl⟩; exact out_of_ex (subAssign_ok hx.clean hy.clean)
  eq := by rintro x y _ _ ⟨hx, rfl⟩ ⟨hy, rfl⟩; exact out_of_ex ⟨_, eq_spec hx.1 hy.1, by simp⟩
  ne := by rintro x y _ _ ⟨hx, rfl⟩ ⟨hy, rfl⟩; exact out_of_ex ⟨_, ne_spec hx.1 hy.1, by simp⟩

theorem exactNeg_int : Scalar.int.ExactNeg IntRel Never := by
  rintro x _ ⟨hx, rfl⟩
  obtain ⟨r, r1, r2, r3, r4, r5, _⟩ := neg_ok hx.1
  exact out_of_ex ⟨r, r1, ⟨r2, r3 ▸ hx.2.1, r5⟩, r4⟩

theorem BigInt.Good.out {r : Res BigInt} {v : Int} (h : Good r v) : Out Aborts r (fun t => IntWFRel t v) := by
  rcases h with ⟨a, rfl, h1, h2, _⟩ | rfl
  · exact Out.ok ⟨h1, h2⟩
  · exact Out.err rfl

theorem exactRing_intWF : Scalar.int.ExactRing IntWFRel Aborts where
  ofInt n h := by
    obtain ⟨r, r1, r2, r3, _⟩ := ofInt64_ok (x := n) 0 (by omega) (by omega)
    exact out_of_ex ⟨r, r1, r2.1, by simpa using r3⟩
  add := by rintro x y _ _ ⟨hx, rfl⟩ ⟨hy, rfl⟩; exact (opAdd_wf hx hy).out
  sub := by rintro x y _ _ ⟨hx, rfl⟩ ⟨hy, rfl⟩; exact (opSub_wf hx hy).out
  mul := by
    rintro x y _ _ ⟨hx, rfl⟩ ⟨hy, rfl⟩
    rcases IOp.mul.run_refines hx hy with h | ⟨a, h1, h2, h3⟩
    · exact .inr ⟨_, h, rfl⟩
    · exact out_of_ex ⟨a, h1, h2, h3⟩
  addA := by rintro x y _ _ ⟨hx, rfl⟩ ⟨hy, rfl⟩; exact (addAssign_wf hx hy).out
  subA := by rintro x y _ _ ⟨hx, rfl⟩ ⟨hy, rfl⟩; exact (subAssign_wf hx hy).out
  eq := by rintro x y _ _ ⟨hx, rfl⟩ ⟨hy, rfl⟩; exact out_of_ex ⟨_, eq_spec hx hy, by simp⟩
  ne := by rintro x y _ _ ⟨hx, rfl⟩ ⟨hy, rfl⟩; exact out_of_ex ⟨_, ne_spec hx hy, by simp⟩

theorem exactMulA_intWF : Scalar.int.ExactMulA IntWFRel Aborts := by
  rintro x y _ _ ⟨hx, rfl⟩ ⟨hy, rfl⟩
  obtain ⟨r, r1, r2, r3, _⟩ := mulAssign_ok hx hy
  exact out_of_ex ⟨r, r1, r2, r3⟩

theorem exactWhole_intWF : Scalar.int.ExactWhole IntWFRel Aborts := by
  rintro x y a b ⟨hx, hx'⟩ ⟨hy, rfl⟩ hb
  show Out Aborts (opDiv x y) _
  rw [opDiv_eq]
  obtain ⟨_, d2, d3⟩ := divide_spec hx hy
  by_cases ht : DivTrips x y
  · exact .inr ⟨_, d2 hb ht, rfl⟩
  · obtain ⟨r, r1, r2, r3⟩ := d3 hb ht
    exact .inl ⟨r, r1, r2.1, by rw [r3, hx', Int.mul_tdiv_cancel _ hb]⟩

theorem Yields.out {r : Res Frac} {q : ℚ} {t b : Int} (h : Yields r q t b) : Out Aborts r (fun f => FracRel f q) := by
  by_cases ha : ReduceAborts t b
  · exact .inr ⟨_, h.2 ha, rfl⟩
  · exact .inl (h.1 ha)

section
open Frac

theorem exactRing_frac : Scalar.frac.ExactRing FracRel Aborts where
  ofInt n h := by
    obtain ⟨r, r1, r2, r3, _⟩ := ofInt64_ok (x := n) 0 (by omega) (by omega)
    refine out_of_ex ⟨⟨r, ⟨[1], false⟩⟩, ?_, ofInt_valid r2, by rw [ofInt_value, r3]; simp⟩
    simp only [Scalar.frac, Frac.ofI32, r1, ofInt64_one, bind_ok, pure_ok]
  add := by
    rintro x y _ _ ⟨hx, rfl⟩ ⟨hy, rfl⟩
    have hxb : (x.bb.val : ℚ) ≠ 0 := by exact_mod_cast hx.bb_ne
    have hyb : (y.bb.val : ℚ) ≠ 0 := by exact_mod_cast hy.bb_ne
    exact ((opAdd_red hx hy).yields (mul_ne_zero hx.bb_ne hy.bb_ne) (by unfold value; push_cast; field_simp)).out
  sub := by
    rintro x y _ _ ⟨hx, rfl⟩ ⟨hy, rfl⟩
    have hxb : (x.bb.val : ℚ) ≠ 0 := by exact_mod_cast hx.bb_ne
    have hyb : (y.bb.val : ℚ) ≠ 0 := by exact_mod_cast hy.bb_ne
    exact ((opSub_red hx hy).yields (mul_ne_zero hx.bb_ne hy.bb_ne) (by unfold value; push_cast; field_simp)).out
  mul := by
    rintro x y _ _ ⟨hx, rfl⟩ ⟨hy, rfl⟩
    have hxb : (x.bb.val : ℚ) ≠ 0 := by exact_mod_cast hx.bb_ne
    have hyb : (y.bb.val : ℚ) ≠ 0 := by exact_mod_cast hy.bb_ne
    exact ((opMul_red hx hy).yields (mul_ne_zero hx.bb_ne hy.bb_ne) (by unfold value; push_cast; field_simp)).out
  addA := by
    rintro x y _ _ ⟨hx, rfl⟩ ⟨hy, rfl⟩
    have hxb : (x.bb.val : ℚ) ≠ 0 := by exact_mod_cast hx.bb_ne
    have hyb : (y.bb.val : ℚ) ≠ 0 := by exact_mod_cast hy.bb_ne
    exact ((addAssign_red hx hy).yields (by unfold value; push_cast; field_simp)).out
  subA := by
    rintro x y _ _ ⟨hx, rfl⟩ ⟨hy, rfl⟩
    have hxb : (x.bb.val : ℚ) ≠ 0 := by exact_mod_cast hx.bb_ne
    have hyb : (y.bb.val : ℚ) ≠ 0 := by exact_mod_cast hy.bb_ne
    exact ((subAssign_red hx hy).yields (by unfold value; push_cast; field_simp)).out
  eq := by
    rintro x y _ _ ⟨hx, rfl⟩ ⟨hy, rfl⟩
    exact out_of_ex ⟨_, Frac.eq_spec hx hy, by simp⟩
  ne := by
    rintro x y _ _ ⟨hx, rfl⟩ ⟨hy, rfl⟩
    refine out_of_ex ⟨!decide (x.value = y.value), ?_, by simp⟩
    simp only [Scalar.frac, Frac.ne, Frac.eq_spec hx hy, bind_ok, pure_ok]

theorem exactMulA_frac : Scalar.frac.ExactMulA FracRel Aborts := by
  rintro x y _ _ ⟨hx, rfl⟩ ⟨hy, rfl⟩
  have hxb : (x.bb.val : ℚ) ≠ 0 := by exact_mod_cast hx.bb_ne
  have hyb : (y.bb.val : ℚ) ≠ 0 := by exact_mod_cast hy.bb_ne
  exact ((mulAssign_red hx hy).yields (by unfold value; push_cast; field_simp)).out

theorem exactDiv_frac : Scalar.frac.ExactDiv FracRel Aborts := by
  rintro x y _ _ ⟨hx, rfl⟩ ⟨hy, rfl⟩ h0
  have ht : y.tt.val ≠ 0 := fun hz => h0 (hy.tt_zero.mp hz)
  have hxb : (x.bb.val : ℚ) ≠ 0 := by exact_mod_cast hx.bb_ne
  have hyb : (y.bb.val : ℚ) ≠ 0 := by exact_mod_cast hy.bb_ne
  have ht' : (y.tt.val : ℚ) ≠ 0 := by exact_mod_cast ht
  exact ((opDiv_red hx hy).yields (mul_ne_zero hx.bb_ne ht) (by unfold value; push_cast; field_simp)).out

theorem exactDivA_frac : Scalar.frac.ExactDivA FracRel Aborts := by
  rintro x y _ _ ⟨hx, rfl⟩ ⟨hy, rfl⟩ h0
  have ht : y.tt.val ≠ 0 := fun hz => h0 (hy.tt_zero.mp hz)
  have hxb : (x.bb.val : ℚ) ≠ 0 := by exact_mod_cast hx.bb_ne
  have hyb : (y.bb.val : ℚ) ≠ 0 := by exact_mod_cast hy.bb_ne
  have ht' : (y.tt.val : ℚ) ≠ 0 := by exact_mod_cast ht
  exact ((divAssign_red hx hy ht).yields (by unfold value; push_cast; field_simp)).out

end
end CppMaths
