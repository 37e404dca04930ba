import Verif.Proofs.IntMem
/-!
# Auxiliary facts for `Verif/Props/Int.lean`
-/

namespace CppMaths
open BigInt

theorem two_ten_ne (k : Nat) : (2000000000 : Int) ≠ 1000000000 ^ k := by
  intro h
  rcases Nat.lt_or_ge k 2 with hk | hk
  · rcases (show k = 0 ∨ k = 1 by omega) with rfl | rfl <;> norm_num at h
  · have : (1000000000 : Int) ^ 2 ≤ 1000000000 ^ k := pow_le_pow_right₀ (by norm_num) hk
    norm_num at this
    omega

end CppMaths
