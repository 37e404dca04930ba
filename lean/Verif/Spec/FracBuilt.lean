import Verif.Spec.FracProg
/-!
# Which `Frac` objects a program can get hold of
-/

namespace CppMaths
open BigInt

/-- The objects that constructors, operators, compound assignments and stream extraction produce when they return, from
canonical `Int`s and from objects of the same kind. Compound division by zero and extraction of a ratio with denominator
zero are left out. -/
inductive Built : Frac → Prop
  | default {f} : Frac.default = .ok f → Built f
  | ofI32 {n f} : -2147483648 ≤ n → n ≤ 2147483647 → Frac.ofI32 n = .ok f → Built f
  | ofInt {a f} : Canon a → Frac.ofInt a = .ok f → Built f
  | mk {a b f} : Canon a → Canon b → Frac.mk' a b = .ok f → Built f
  | str {s f} : Frac.ofString s = .ok f → Built f
  | recip {x f} : Built x → Frac.reciprocal x = .ok f → Built f
  | bin {op : FOp} {x y f} : Built x → Built y → op.run x y = .ok f → Built f
  | binInt {op : FOp} {x a f} : Built x → Canon a → op.runInt x a = .ok f → Built f
  | intBin {op : FOp} {x a f} : Built x → Canon a → op.intRun a x = .ok f → Built f
  | pow {x a f} : Built x → Canon a → Frac.opPow x a = .ok f → Built f
  | addAssign {x y f} : Built x → Built y → Frac.addAssign x y = .ok f → Built f
  | subAssign {x y f} : Built x → Built y → Frac.subAssign x y = .ok f → Built f
  | mulAssign {x y f} : Built x → Built y → Frac.mulAssign x y = .ok f → Built f
  | divAssign {x y f} : Built x → Built y → y.value ≠ 0 → Frac.divAssign x y = .ok f → Built f
  | asgInt {op : FOp} {x a f} : Built x → Canon a → (op = .div → a.val ≠ 0) → op.asgInt x a = .ok f → Built f
  | powAssign {x a f} : Built x → Canon a → Frac.powAssign x a = .ok f → Built f
  | read {s s' x f} : Built x → Frac.read s x = .ok (s', f) → f.bb.val ≠ 0 → Built f
  | fromDouble {ip fp f} {z : Int} : IntText (ip ++ fp) z → (∀ c ∈ ip, c ≠ '.') → 0 < fp.length →
      fp.length ≤ 2147483647 → Frac.fromDouble true (ip ++ '.' :: fp) = .ok f → Built f

end CppMaths
