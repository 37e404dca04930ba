import Verif.Spec.Frac
/-!
# Specification vocabulary for `Int` and `Frac` without assertions
-/

namespace CppMaths.BigInt

/-- `y` is stored with leading zero bins that reach beyond all digits of `x`. -/
def Padded (y x : BigInt) : Prop := 2 ≤ y.bins.length ∧ |x.val| < 1000000000 ^ (y.bins.length - 1)

/-- The operands of a subtraction of magnitudes, done on a copy without leading zero bins, in which the smaller one is stored with
leading zero bins that reach beyond the larger one. -/
def SubThrows (x y : BigInt) : Prop :=
  (|y.val| < |x.val| ∧ Padded y x) ∨ (|x.val| ≤ |y.val| ∧ Padded x y)

/-- The operands of a subtraction of magnitudes, done in place, in which the smaller one is stored in more bins. -/
def SubAssignThrows (x y : BigInt) : Prop :=
  (|y.val| < |x.val| ∧ x.bins.length < y.bins.length) ∨ (|x.val| ≤ |y.val| ∧ y.bins.length < x.bins.length)

/-- The call returned a well-formed object that stands for `v`, or it threw `out_of_range`. -/
def RightOrThrows (r : Res BigInt) (v : Int) : Prop :=
  (∃ z, r = .ok z ∧ WF z ∧ z.val = v) ∨ r = .error .outOfRange

/-- `k` is the number of bins below the first one, counted from the most significant end, at which the division of `x` by `y`
loses a bin that it still needs. -/
def LostAt (x y : BigInt) (k : Nat) : Prop :=
  (1 ≤ k ∧ k + 1 < x.bins.length ∧ x.bins[k]? = some 0 ∧ |x.val| / |y.val| < 1000000000 ^ (k + 1)) ∧
  ∀ j, k < j → ¬(j + 1 < x.bins.length ∧ x.bins[j]? = some 0 ∧ |x.val| / |y.val| < 1000000000 ^ (j + 1))

end CppMaths.BigInt

namespace CppMaths
open BigInt

/-- `r` is the fraction `q` in lowest terms, except that it is an `out_of_range` exception exactly if reducing `t / b` to lowest
terms meets a pair of numbers on which the division of `Int` loses a bin. -/
def YieldsOrThrows (r : Res Frac) (q : ℚ) (t b : Int) : Prop :=
  (¬ReduceAborts t b → ∃ f, r = .ok f ∧ f.Valid ∧ f.value = q) ∧ (ReduceAborts t b → r = .error .outOfRange)

/-- `k` is the place of the highest zero among the base-10^9 digits of `x`, not counting the lowest one. -/
def HighestZero (x : Int) (k : Nat) : Prop :=
  (1 ≤ k ∧ 1000000000 ^ (k + 1) ≤ |x| ∧ |x| / 1000000000 ^ k % 1000000000 = 0) ∧
  ∀ j, k < j → ¬(1000000000 ^ (j + 1) ≤ |x| ∧ |x| / 1000000000 ^ j % 1000000000 = 0)

/-- What is left in a fraction that was to become `t / b` when the reduction throws: if Euclid's algorithm throws, `t` and `b` with
the sign in the numerator; if not, one of them divides the other and has lost its digits from its highest zero on. -/
def LeftUnreduced (s : Frac) (t b : Int) : Prop :=
  (EuclidAborts (max |t| |b|) (min |t| |b|) ∧ s.tt.val = b.sign * t ∧ s.bb.val = |b|) ∨
  (t ∣ b ∧ s.bb.val = |b| ∧ ∃ k, HighestZero t k ∧ s.tt.val = (b.sign * t).tmod (1000000000 ^ k)) ∨
  (b ∣ t ∧ s.tt.val = t / b ∧ ∃ k, HighestZero b k ∧ s.bb.val = |b| % 1000000000 ^ k)

/-- Both parts are well-formed numbers and the denominator is not negative; it may be zero. -/
def Frac.PartsOK (f : Frac) : Prop := WF f.tt ∧ WF f.bb ∧ 0 ≤ f.bb.val

instance (f : Frac) : Decidable f.PartsOK := by unfold Frac.PartsOK; infer_instance

/-- The call returned `q` in lowest terms, or it threw `out_of_range`. -/
def Frac.RightOrThrows (r : Res Frac) (q : ℚ) : Prop :=
  (∃ f, r = .ok f ∧ f.Valid ∧ f.value = q) ∨ r = .error .outOfRange

/-- The object was changed to `q` in lowest terms, or `out_of_range` was thrown and left an object with well-formed parts. -/
def Frac.RightOrThrowsU (r : MRes Frac Frac) (q : ℚ) : Prop :=
  (∃ f, r = .ok f ∧ f.Valid ∧ f.value = q) ∨ ∃ s, r = .error (.outOfRange, s) ∧ s.PartsOK

/-- Only `std::out_of_range` is allowed. -/
def Throws : Err → Prop := fun e => e = .outOfRange

/-- The failures of `Int` arithmetic without assertions. -/
def IntThrows : Err → Prop := fun e => e = .divideByZero ∨ e = .outOfRange

end CppMaths
