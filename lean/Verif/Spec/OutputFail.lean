import Verif.Model.OStreamFail
import Verif.Spec.Output
/-!
# Sequences of insertions into a stream whose device may fail
-/

namespace CppMaths

/-- `out << item`. -/
def OItem.putD (D : Device) : OItem → DStream → Res DStream
  | .str s, d => return d.putStr D s
  | .i32 z, d => return d.putI32 D z
  | .endl, d => return d.endl D
  | .int x, d => return x.printD D d
  | .frac x, d => return x.printD D d
  | .vecInt x, d => Vec.printD D (BigInt.printD D) x d
  | .vecFrac x, d => Vec.printD D (Frac.printD D) x d
  | .matInt m, d => m.printD D (BigInt.printD D) d
  | .matFrac m, d => m.printD D (Frac.printD D) d
  | .factor f, d => f.printD D d
  | .term t, d => t.printD D d
  | .poly p, d => p.printD D d

/-- `out << item₁ << item₂ << ...`. -/
def OItem.putAllD (D : Device) : List OItem → DStream → Res DStream
  | [], d => .ok d
  | i :: is, d => do let d ← i.putD D d; putAllD D is d

/-- The device refuses something. -/
def Device.Fails (D : Device) : Prop := ∃ i, D i ≠ none

/-- A device with room for `n` insertions and `k` characters of the next one. -/
def Device.full (n k : Nat) : Device := fun i => if i < n then none else some (k, true)

end CppMaths
