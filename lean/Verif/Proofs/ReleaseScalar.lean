import Verif.Proofs.FracReleaseText
import Verif.Proofs.TransferInst
import Verif.Proofs.VecSafe
/-!
# `Int` and `Frac` without assertions as scalar types of vectors and matrices
-/

namespace CppMaths
open BigInt

/-! ### Results of the build with assertions are kept -/

theorem follows_keeps {α : Type} {r r' : Res α} (h : Keeps r r') : Follows (fun _ => True) Never Eq r r' := by
  cases r with
  | error e => exact .skip trivial
  | ok v => rw [h v rfl]; exact .both rfl

theorem simCore_intR : Scalar.int.SimCore Scalar.intR Eq (fun _ => True) Never where
  ofInt n _ := follows_keeps (Keeps.refl _)
  add := by rintro x y _ _ rfl rfl; exact follows_keeps (opAdd_keeps _ _)
  sub := by rintro x y _ _ rfl rfl; exact follows_keeps (opSub_keeps _ _)
  mul := by rintro x y _ _ rfl rfl; exact follows_keeps (opMul_keeps _ _)
  addA := by rintro x y _ _ rfl rfl; exact follows_keeps (addAssign_keeps _ _).outcome
  subA := by rintro x y _ _ rfl rfl; exact follows_keeps (subAssign_keeps _ _).outcome
  eq := by rintro x y _ _ rfl rfl; exact follows_keeps (Keeps.refl _)
  ne := by rintro x y _ _ rfl rfl; exact follows_keeps (Keeps.refl _)

theorem simMulA_intR : Scalar.int.SimMulA Scalar.intR Eq (fun _ => True) Never := by
  rintro x y _ _ rfl rfl; exact follows_keeps (mulAssign_keeps _ _).outcome

theorem simDiv_intR : Scalar.int.SimDiv Scalar.intR Eq (fun _ => True) Never := by
  constructor <;> rintro x y _ _ rfl rfl
  · exact follows_keeps (opDiv_keeps _ _)
  · exact follows_keeps (divAssign_keeps _ _).outcome

theorem simNeg_intR : Scalar.int.SimNeg Scalar.intR Eq (fun _ => True) Never := by
  rintro x _ rfl; exact follows_keeps (Keeps.refl _)

theorem simCore_fracR : Scalar.frac.SimCore Scalar.fracR Eq (fun _ => True) Never where
  ofInt n _ := follows_keeps (Keeps.refl _)
  add := by rintro x y _ _ rfl rfl; exact follows_keeps (Frac.opAdd_keeps _ _)
  sub := by rintro x y _ _ rfl rfl; exact follows_keeps (Frac.opSub_keeps _ _)
  mul := by rintro x y _ _ rfl rfl; exact follows_keeps (Frac.opMul_keeps _ _)
  addA := by rintro x y _ _ rfl rfl; exact follows_keeps (Frac.addAssign_keeps _ _).drop
  subA := by rintro x y _ _ rfl rfl; exact follows_keeps (Frac.subAssign_keeps _ _).drop
  eq := by rintro x y _ _ rfl rfl; exact follows_keeps (Keeps.refl _)
  ne := by rintro x y _ _ rfl rfl; exact follows_keeps (Keeps.refl _)

theorem simMulA_fracR : Scalar.frac.SimMulA Scalar.fracR Eq (fun _ => True) Never := by
  rintro x y _ _ rfl rfl; exact follows_keeps (Frac.mulAssign_keeps _ _).drop

theorem simDiv_fracR : Scalar.frac.SimDiv Scalar.fracR Eq (fun _ => True) Never := by
  constructor <;> rintro x y _ _ rfl rfl
  · exact follows_keeps (Frac.opDiv_keeps _ _)
  · exact follows_keeps (Frac.divAssign_keeps _ _).drop

theorem simNeg_fracR : Scalar.frac.SimNeg Scalar.fracR Eq (fun _ => True) Never := by
  rintro x _ rfl; exact follows_keeps (Keeps.refl _)

/-! ### Exactness -/

theorem exactRing_intR : Scalar.intR.ExactRing IntRel Never where
  ofInt n h := exactRing_int.ofInt n h
  add := by
    rintro x y _ _ ⟨hx, rfl⟩ ⟨hy, rfl⟩
    exact out_of_ex (Frac.opAddR_canon hx.clean hy.clean)
  sub := by
    rintro x y _ _ ⟨hx, rfl⟩ ⟨hy, rfl⟩
    exact out_of_ex (Frac.opSubR_canon hx.clean hy.clean)
  mul := by
    rintro x y _ _ ⟨hx, rfl⟩ ⟨hy, rfl⟩
    exact out_of_ex (Frac.opMulR_canon hx.clean hy.clean)
  addA := by
    rintro x y _ _ ⟨hx, rfl⟩ ⟨hy, rfl⟩
    obtain ⟨r, r1, r2⟩ := Frac.addAssignU_canon hx.clean hy.clean
    exact out_of_ex ⟨r, show outcome (addAssignU x y) = .ok r by rw [r1]; rfl, r2⟩
  subA := by
    rintro x y _ _ ⟨hx, rfl⟩ ⟨hy, rfl⟩
    obtain ⟨r, r1, r2⟩ := Frac.subAssignU_canon hx.clean hy.clean
    exact out_of_ex ⟨r, show outcome (subAssignU x y) = .ok r by rw [r1]; rfl, r2⟩
  eq := exactRing_int.eq
  ne := exactRing_int.ne

theorem BigInt.RightOrThrows.out {r : Res BigInt} {v : Int} (h : RightOrThrows r v) : Out Throws r (fun t => IntWFRel t v) := by
  rcases h with ⟨a, rfl, h1, h2⟩ | rfl
  · exact Out.ok ⟨h1, h2⟩
  · exact Out.err rfl

theorem BigInt.RightU.out {u : Upd BigInt} {v : Int} (h : RightU u v) : Out Throws (outcome u) (fun t => IntWFRel t v) := by
  rcases h with ⟨a, rfl, h1, h2⟩ | ⟨s, rfl, _⟩
  · exact Out.ok ⟨h1, h2⟩
  · exact Out.err rfl

theorem exactRing_intWFR : Scalar.intR.ExactRing IntWFRel Throws where
  ofInt n h := by
    obtain ⟨r, r1, r2, r3, _⟩ := ofInt64_ok (x := n) 0 (by omega) (by omega)
    exact out_of_ex ⟨r, r1, r2.1, by simpa using r3⟩
  add := by rintro x y _ _ ⟨hx, rfl⟩ ⟨hy, rfl⟩; exact (opAddR_right hx hy).out
  sub := by rintro x y _ _ ⟨hx, rfl⟩ ⟨hy, rfl⟩; exact (opSubR_right hx hy).out
  mul := by rintro x y _ _ ⟨hx, rfl⟩ ⟨hy, rfl⟩; exact out_of_ex (opMulR_ok hx hy)
  addA := by rintro x y _ _ ⟨hx, rfl⟩ ⟨hy, rfl⟩; exact (addAssignU_rightU hx hy).out
  subA := by rintro x y _ _ ⟨hx, rfl⟩ ⟨hy, rfl⟩; exact (subAssignU_rightU hx hy).out
  eq := by rintro x y _ _ ⟨hx, rfl⟩ ⟨hy, rfl⟩; exact out_of_ex ⟨_, eq_spec hx hy, by simp⟩
  ne := by rintro x y _ _ ⟨hx, rfl⟩ ⟨hy, rfl⟩; exact out_of_ex ⟨_, ne_spec hx hy, by simp⟩

theorem exactMulA_intWFR : Scalar.intR.ExactMulA IntWFRel Throws := by
  rintro x y _ _ ⟨hx, rfl⟩ ⟨hy, rfl⟩
  obtain ⟨r, r1, r2, r3⟩ := mulAssignU_ok hx hy
  exact out_of_ex ⟨r, show outcome (mulAssignU x y) = .ok r by rw [r1]; rfl, r2, r3⟩

theorem exactWhole_intWFR : Scalar.intR.ExactWhole IntWFRel Throws := by
  rintro x y a b ⟨hx, hx'⟩ ⟨hy, rfl⟩ hb
  show Out Throws (opDivR x y) _
  rw [opDivR_eq]
  obtain ⟨_, d2, d3⟩ := divideU_spec hx hy
  by_cases ht : DivTrips x y
  · obtain ⟨k, s, _, hs, _⟩ := d2 hb ht
    exact .inr ⟨_, by rw [hs]; rfl, rfl⟩
  · obtain ⟨r, r1, r2, r3⟩ := d3 hb ht
    exact .inl ⟨r, by rw [r1]; rfl, r2.1, by rw [r3, hx', Int.mul_tdiv_cancel _ hb]⟩

theorem RedR.out {r : Res Frac} {t b : Int} {q : ℚ} (h : Frac.RedR r t b) (h0 : b ≠ 0) (hq : (t : ℚ) / b = q) :
    Out Throws r (fun f => FracRel f q) := by
  by_cases ha : ReduceAborts t b
  · exact .inr ⟨_, h.2.2 h0 ha, rfl⟩
  · rw [← hq]; exact .inl (h.2.1 h0 ha)

theorem MRedU.out {r : MRes Frac Frac} {t b : Int} {q : ℚ} (h : Frac.MRedU r t b) (hq : (t : ℚ) / b = q) :
    Out Throws (Frac.drop r) (fun f => FracRel f q) := by
  by_cases ha : ReduceAborts t b
  · obtain ⟨s, s1, _⟩ := h.2 ha
    exact .inr ⟨_, by rw [s1]; rfl, rfl⟩
  · obtain ⟨f, f1, f2, f3⟩ := h.1 ha
    exact .inl ⟨f, by rw [f1]; rfl, f2, by rw [f3, hq]⟩

section
open Frac

theorem exactRing_fracR : Scalar.fracR.ExactRing FracRel Throws where
  ofInt n h := by
    rcases exactRing_frac.ofInt n h with h | ⟨e, h1, _⟩
    · exact .inl h
    · obtain ⟨r, r1, r2, r3, _⟩ := ofInt64_ok (x := n) 0 (by omega) (by omega)
      simp only [Scalar.frac, Frac.ofI32, r1, ofInt64_one, bind_ok, pure_ok] at h1
      cases h1
  add := by
    rintro x y _ _ ⟨hx, rfl⟩ ⟨hy, rfl⟩
    have hxb : (x.bb.val : ℚ) ≠ 0 := by exact_mod_cast hx.bb_ne
    have hyb : (y.bb.val : ℚ) ≠ 0 := by exact_mod_cast hy.bb_ne
    exact RedR.out (opAddR_red hx hy) (mul_ne_zero hx.bb_ne hy.bb_ne) (by unfold value; push_cast; field_simp)
  sub := by
    rintro x y _ _ ⟨hx, rfl⟩ ⟨hy, rfl⟩
    have hxb : (x.bb.val : ℚ) ≠ 0 := by exact_mod_cast hx.bb_ne
    have hyb : (y.bb.val : ℚ) ≠ 0 := by exact_mod_cast hy.bb_ne
    exact RedR.out (opSubR_red hx hy) (mul_ne_zero hx.bb_ne hy.bb_ne) (by unfold value; push_cast; field_simp)
  mul := by
    rintro x y _ _ ⟨hx, rfl⟩ ⟨hy, rfl⟩
    have hxb : (x.bb.val : ℚ) ≠ 0 := by exact_mod_cast hx.bb_ne
    have hyb : (y.bb.val : ℚ) ≠ 0 := by exact_mod_cast hy.bb_ne
    exact RedR.out (opMulR_red hx hy) (mul_ne_zero hx.bb_ne hy.bb_ne) (by unfold value; push_cast; field_simp)
  addA := by
    rintro x y _ _ ⟨hx, rfl⟩ ⟨hy, rfl⟩
    have hxb : (x.bb.val : ℚ) ≠ 0 := by exact_mod_cast hx.bb_ne
    have hyb : (y.bb.val : ℚ) ≠ 0 := by exact_mod_cast hy.bb_ne
    exact MRedU.out (addAssignU_red hx hy) (by unfold value; push_cast; field_simp)
  subA := by
    rintro x y _ _ ⟨hx, rfl⟩ ⟨hy, rfl⟩
    have hxb : (x.bb.val : ℚ) ≠ 0 := by exact_mod_cast hx.bb_ne
    have hyb : (y.bb.val : ℚ) ≠ 0 := by exact_mod_cast hy.bb_ne
    exact MRedU.out (subAssignU_red hx hy) (by unfold value; push_cast; field_simp)
  eq := by
    rintro x y _ _ ⟨hx, rfl⟩ ⟨hy, rfl⟩
    exact out_of_ex ⟨_, Frac.eq_spec hx hy, by simp⟩
  ne := by
    rintro x y _ _ ⟨hx, rfl⟩ ⟨hy, rfl⟩
    refine out_of_ex ⟨!decide (x.value = y.value), ?_, by simp⟩
    simp only [Scalar.fracR, Frac.ne, Frac.eq_spec hx hy, bind_ok, pure_ok]

theorem exactMulA_fracR : Scalar.fracR.ExactMulA FracRel Throws := by
  rintro x y _ _ ⟨hx, rfl⟩ ⟨hy, rfl⟩
  have hxb : (x.bb.val : ℚ) ≠ 0 := by exact_mod_cast hx.bb_ne
  have hyb : (y.bb.val : ℚ) ≠ 0 := by exact_mod_cast hy.bb_ne
  exact MRedU.out (mulAssignU_red hx hy) (by unfold value; push_cast; field_simp)

theorem exactDiv_fracR : Scalar.fracR.ExactDiv FracRel Throws := by
  rintro x y _ _ ⟨hx, rfl⟩ ⟨hy, rfl⟩ h0
  have ht : y.tt.val ≠ 0 := fun hz => h0 (hy.tt_zero.mp hz)
  have hxb : (x.bb.val : ℚ) ≠ 0 := by exact_mod_cast hx.bb_ne
  have hyb : (y.bb.val : ℚ) ≠ 0 := by exact_mod_cast hy.bb_ne
  have ht' : (y.tt.val : ℚ) ≠ 0 := by exact_mod_cast ht
  exact RedR.out (opDivR_red hx hy) (mul_ne_zero hx.bb_ne ht) (by unfold value; push_cast; field_simp)

theorem exactDivA_fracR : Scalar.fracR.ExactDivA FracRel Throws := by
  rintro x y _ _ ⟨hx, rfl⟩ ⟨hy, rfl⟩ h0
  have ht : y.tt.val ≠ 0 := fun hz => h0 (hy.tt_zero.mp hz)
  have hxb : (x.bb.val : ℚ) ≠ 0 := by exact_mod_cast hx.bb_ne
  have hyb : (y.bb.val : ℚ) ≠ 0 := by exact_mod_cast hy.bb_ne
  have ht' : (y.tt.val : ℚ) ≠ 0 := by exact_mod_cast ht
  exact MRedU.out (divAssignU_red hx hy ht) (by unfold value; push_cast; field_simp)

end

/-! ### Nothing but these failures -/

theorem closed_intR : Scalar.intR.Closed BigInt.WF IntThrows := by
  have lift : ∀ {r : Res BigInt} {v : Int}, Out Throws r (fun t => IntWFRel t v) → Out IntThrows r BigInt.WF := by
    rintro r v (⟨a, rfl, h1, _⟩ | ⟨e, rfl, rfl⟩)
    · exact Out.ok h1
    · exact Out.err (.inr rfl)
  have div : ∀ {x y : BigInt}, WF x → WF y → Out IntThrows (outcome (divideU x y)) BigInt.WF := by
    intro x y hx hy
    obtain ⟨d1, d2, d3⟩ := divideU_spec hx hy
    by_cases h0 : y.val = 0
    · rw [d1 h0]; exact Out.err (.inl rfl)
    · by_cases ht : DivTrips x y
      · obtain ⟨k, s, _, hs, _⟩ := d2 h0 ht
        rw [hs]; exact Out.err (.inr rfl)
      · obtain ⟨r, r1, r2, _⟩ := d3 h0 ht
        rw [r1]; exact Out.ok r2.1
  refine ⟨fun n hn => ?_, ?_, ?_, ?_, ?_, ?_, ?_, ?_, ?_, ?_, ?_, ?_⟩
  · obtain ⟨r, r1, r2, _⟩ := BigInt.ofInt64_ok (x := n) 0 (by omega) (by omega)
    exact .inl ⟨r, r1, r2.1⟩
  · exact fun hx hy => lift (exactRing_intWFR.add ⟨hx, rfl⟩ ⟨hy, rfl⟩)
  · exact fun hx hy => lift (exactRing_intWFR.sub ⟨hx, rfl⟩ ⟨hy, rfl⟩)
  · exact fun hx hy => lift (exactRing_intWFR.mul ⟨hx, rfl⟩ ⟨hy, rfl⟩)
  · intro x y hx hy
    show Out _ (opDivR x y) _
    rw [opDivR_eq]; exact div hx hy
  · intro x hx
    obtain ⟨r, r1, r2, _⟩ := neg_ok hx
    exact .inl ⟨r, r1, r2⟩
  · exact fun hx hy => lift (exactRing_intWFR.addA ⟨hx, rfl⟩ ⟨hy, rfl⟩)
  · exact fun hx hy => lift (exactRing_intWFR.subA ⟨hx, rfl⟩ ⟨hy, rfl⟩)
  · exact fun hx hy => lift (exactMulA_intWFR ⟨hx, rfl⟩ ⟨hy, rfl⟩)
  · intro x y hx hy
    show Out _ (outcome (divAssignU x y)) _
    rw [divAssignU_eq]; exact div hx hy
  · exact fun hx hy => .inl ⟨_, BigInt.eq_spec hx hy, trivial⟩
  · exact fun hx hy => .inl ⟨_, BigInt.ne_spec hx hy, trivial⟩

end CppMaths
