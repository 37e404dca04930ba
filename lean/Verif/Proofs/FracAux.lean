import Verif.Proofs.FracBuilt
/-!
# Auxiliary facts for `Verif/Props/Frac.lean`
-/

namespace CppMaths
open BigInt Frac

/-- `x *= 1` does not change a canonical object. -/
theorem mulAssign_one {x : BigInt} (hx : Canon x) : BigInt.mulAssign x ⟨[1], false⟩ = .ok x := by
  by_cases hz : x.val = 0
  · have hb : x = ⟨[0], false⟩ := by
      refine Canon.eq_of_val_eq hx (by decide) ?_
      rw [hz]; rfl
    rw [hb]; rfl
  · obtain ⟨r, r1, r2, r3⟩ := mulAssign_canon hx.clean canon_one.clean hz (by rw [val_one]; norm_num)
    rw [r1, Canon.eq_of_val_eq r2 hx (by rw [r3, val_one, mul_one])]

theorem reduceAborts_comm {t b : Int} : ReduceAborts t b ↔ ReduceAborts b t := by
  unfold ReduceAborts
  rw [max_comm, min_comm, Int.gcd_comm]
  tauto

end CppMaths
