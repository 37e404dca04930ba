import Verif.Model.IntAlloc
import Verif.Spec.Int
/-!
# Specification vocabulary for `Int` when memory runs out
-/

namespace CppMaths
open BigInt

/-- Some request is refused. -/
def ILuck.Refuses (L : ILuck) : Prop := ∃ k, L.refuse k = true

/-- One of the requests from number `a` to before number `b` is refused. -/
def ILuck.RefusesIn (L : ILuck) (a b : Nat) : Prop := ∃ k, a ≤ k ∧ k < b ∧ L.refuse k = true

/-- An assignment between deques that fails leaves at least one bin and only bins in range, if both deques were like that. -/
def ILuck.Sane (L : ILuck) : Prop :=
  ∀ k old new, old ≠ [] → BinsOK old → new ≠ [] → BinsOK new → L.left k old new ≠ [] ∧ BinsOK (L.left k old new)

/-- What `std::deque` of GNU's library leaves: the elements that are there have been overwritten, no new ones have been added. -/
def gnuLeft (_ : Nat) (old new : List Int) : List Int := new.take old.length

/-- The request number `n` is the only one that is refused. -/
def ILuck.only (n : Nat) : ILuck := ⟨fun k => k == n, gnuLeft⟩

/-- What may be left of `x` when the addition of a number to it fails. The number is `y` or `-y`; `same` says that it has the sign of `x`.
Nothing has happened; or the minus sign is lost; or, if the signs are the same, the magnitudes have been added, but the topmost carry is lost;
or, if the signs differ and `x` is not larger in magnitude, the difference of the magnitudes has been stored, without the change of
sign that should follow for a negative `x`, or the assignment of this difference has failed. -/
def SumLeft (L : ILuck) (same : Prop) (x y x' : BigInt) : Prop :=
  x' = x ∨ x' = { x with negative := false } ∨
  (same ∧ WF x' ∧ x'.negative = false ∧ x'.val = |x.val| + |y.val| - 1000000000 ^ max x.bins.length y.bins.length) ∨
  (¬same ∧ |x.val| ≤ |y.val| ∧ (x'.val = |x.val| - |y.val| ∨
    ∃ k b, mag b = |y.val| - |x.val| ∧ x' = ⟨L.left k x.bins b, false⟩))

end CppMaths
