import Verif.Proofs.Witness
import Verif.Proofs.Vec
import Verif.Proofs.ScalarInst
import Mathlib.Tactic.Abel
import Mathlib.Tactic.Ring
/-!
# Properties of `Vec` (C50-C59)

`T` is any scalar type whose operations compute in a commutative ring (or field) `K` in the sense of
`Verif/Spec/Linear.lean`. `Vec.Is rel x f` reads: the object `x` stands for the vector `f : Fin n → K`. `Out A r P` reads:
the call `r` returns something with property `P`, or ends in a failure that the scalar operations are allowed (`A`). The
instances proved in `Verif/Proofs/ScalarInst.lean` are: exact rings and fields and `Int` (no failures), `Int` with
`*=` and `Frac` (the only failure is an abort in the arithmetic of `Int`).
-/

namespace CppMaths
open Vec

variable {T K : Type} {rel : T → K → Prop} {A : Err → Prop} {S : Scalar T}

/-! ### C50: addition and subtraction -/

/-- C50. `x + y`, `x - y`, `x += y`, `x -= y` are entrywise, also if `y` is `x` itself. -/
theorem C50_entrywise [CommRing K] (hS : S.ExactRing rel A) {x y : List T} {n : Nat} {f g : Fin n → K}
    (hx : Vec.Is rel x f) (hy : Vec.Is rel y g) :
    Out A (Vec.add S x y) (fun z => Vec.Is rel z (f + g)) ∧ Out A (Vec.sub S x y) (fun z => Vec.Is rel z (f - g)) ∧
    Out A (Vec.addAssign S x y) (fun z => Vec.Is rel z (f + g)) ∧
    Out A (Vec.subAssign S x y) (fun z => Vec.Is rel z (f - g)) ∧
    Out A (Vec.addAssignSelf S x) (fun z => Vec.Is rel z (f + f)) ∧
    Out A (Vec.subAssignSelf S x) (fun z => Vec.Is rel z (0 : Fin n → K)) := by
  have ha : ∀ (p q : Nat → K) {a b} {i : Nat}, i < n → rel a (p i) → rel b (q i) →
      Out A (S.addA a b) (fun t => rel t (p i + q i)) := fun _ _ _ _ _ _ h1 h2 => hS.addA h1 h2
  have hs : ∀ (p q : Nat → K) {a b} {i : Nat}, i < n → rel a (p i) → rel b (q i) →
      Out A (S.subA a b) (fun t => rel t (p i - q i)) := fun _ _ _ _ _ _ h1 h2 => hS.subA h1 h2
  simp only [Vec.add, Vec.sub, Vec.addAssign, Vec.subAssign, Vec.addAssignSelf, Vec.subAssignSelf, Vec.addAssignRef,
    Vec.subAssignRef, id, ne_eq, not_true_eq_false, if_false, hx.1, hy.1]
  refine ⟨(zipLoop_ok hx.on (ha (ext f) (ext g)) ?_).mono fun z hz => hz.is ?_, (zipLoop_ok hx.on (hs (ext f) (ext g)) ?_).mono fun z hz => hz.is ?_,
    (zipLoop_ok hx.on (ha (ext f) (ext g)) ?_).mono fun z hz => hz.is ?_, (zipLoop_ok hx.on (hs (ext f) (ext g)) ?_).mono fun z hz => hz.is ?_,
    (zipLoop_ok hx.on (ha (ext f) (ext f)) ?_).mono fun z hz => hz.is ?_,
    (zipLoop_ok hx.on (hs (ext f) (ext f)) ?_).mono fun z hz => hz.is ?_⟩
  · exact fun i _ hi _ => hy.on.get hi
  · intro i; simp [ext_fin]
  · exact fun i _ hi _ => hy.on.get hi
  · intro i; simp [ext_fin]
  · exact fun i _ hi _ => hy.on.get hi
  · intro i; simp [ext_fin]
  · exact fun i _ hi _ => hy.on.get hi
  · intro i; simp [ext_fin]
  · exact fun i _ hi h => by simpa using h.get (A := A) hi
  · intro i; simp [ext_fin]
  · exact fun i _ hi h => by simpa using h.get (A := A) hi
  · intro i; simp

example := C50_entrywise Ex.rat.toExactRing Ex.x_is Ex.y_is

/-- C50. They throw `invalid_argument` exactly if the lengths differ (provided the scalar operations never throw it). -/
theorem C50_throws_iff [CommRing K] (hS : S.ExactRing rel A) (hA : ¬A .invalidArgument) {x y : List T} {n m : Nat}
    {f : Fin n → K} {g : Fin m → K} (hx : Vec.Is rel x f) (hy : Vec.Is rel y g) :
    (Vec.add S x y = .error .invalidArgument ↔ n ≠ m) ∧ (Vec.sub S x y = .error .invalidArgument ↔ n ≠ m) ∧
    (Vec.addAssign S x y = .error .invalidArgument ↔ n ≠ m) ∧ (Vec.subAssign S x y = .error .invalidArgument ↔ n ≠ m) := by
  by_cases h : n = m
  · subst h
    have no : ∀ {α : Type} {r : Res α} {P : α → Prop}, Out A r P → r ≠ .error .invalidArgument := by
      rintro α r P (⟨a, rfl, _⟩ | ⟨e, rfl, he⟩) hr
      · cases hr
      · cases hr; exact hA he
    obtain ⟨h1, h2, h3, h4, _⟩ := C50_entrywise hS hx hy
    simp [no h1, no h2, no h3, no h4]
  · simp [Vec.add, Vec.sub, Vec.addAssign, Vec.subAssign, Vec.addAssignRef, Vec.subAssignRef, hx.1, hy.1, h]

example : Vec.add (Scalar.field ℚ) Ex.x Ex.w = .error .invalidArgument :=
  (C50_throws_iff Ex.rat.toExactRing (Ex.never _) Ex.x_is Ex.w_is).1.mpr (by decide)

-- the hypotheses can be met: exact rationals, big integers, fractions
example : Vec.Is (fun t k => t = k) [1 / 2, -3] (![1 / 2, -3] : Fin 2 → ℚ) :=
  ⟨rfl, fun i => by fin_cases i <;> exact ⟨_, rfl, rfl⟩⟩
example : Vec.Is IntRel [⟨[5, 1], true⟩, ⟨[7], false⟩] (![-1000000005, 7] : Fin 2 → ℤ) :=
  ⟨rfl, fun i => by fin_cases i <;> exact ⟨_, rfl, by decide, by decide⟩⟩
example : Vec.add Scalar.int [⟨[5, 1], true⟩, ⟨[7], false⟩] [⟨[6, 1], false⟩, ⟨[7], true⟩] =
    .ok [⟨[1], false⟩, ⟨[0], false⟩] := by decide +kernel
example : Vec.add (Scalar.field ℚ) [1 / 2, -3] [1 / 3, 3] = .ok [5 / 6, 0] ∧
    Vec.subAssignSelf (Scalar.field ℚ) [1 / 2, -3] = .ok [0, 0] ∧
    Vec.add (Scalar.field ℚ) [1 / 2, -3] [1] = .error .invalidArgument := by decide +kernel

/-! ### C51: scaling -/

/-- C51. `a * x`, `x * a` and `x *= a` multiply every entry by `a` (here `a` is not an entry of the vector being
changed). -/
theorem C51_multiply [CommRing K] (hM : S.ExactMulA rel A) {x : List T} {a : T} {n : Nat} {f : Fin n → K} {c : K}
    (hx : Vec.Is rel x f) (ha : rel a c) :
    Out A (Vec.smul S a x) (fun z => Vec.Is rel z (c • f)) ∧ Out A (Vec.mulScalar S x a) (fun z => Vec.Is rel z (c • f)) ∧
    Out A (Vec.mulAssign S x a) (fun z => Vec.Is rel z (c • f)) := by
  have key : Out A (mapLoop S.mulA (fun _ => .ok a) x) (fun z => Vec.Is rel z (c • f)) :=
    (mapLoop_ok (g := fun i => ext f i * c) hx.on (fun _ h1 h2 => hM h1 h2) ha).mono fun z hz => hz.is fun i => by
      simp [ext_fin, mul_comm]
  exact ⟨key, key, key⟩

example := C51_multiply Ex.rat.mulA Ex.x_is (a := 1 / 2) rfl

/-- C51. `x / a` and `x /= a` divide every entry by a nonzero `a`. -/
theorem C51_divide [Field K] (hD : S.ExactDivA rel A) {x : List T} {a : T} {n : Nat} {f : Fin n → K} {c : K}
    (hx : Vec.Is rel x f) (ha : rel a c) (hc : c ≠ 0) :
    Out A (Vec.divScalar S x a) (fun z => Vec.Is rel z (fun i => f i / c)) ∧
    Out A (Vec.divAssign S x a) (fun z => Vec.Is rel z (fun i => f i / c)) := by
  have key : Out A (mapLoop S.divA (fun _ => .ok a) x) (fun z => Vec.Is rel z (fun i => f i / c)) :=
    (mapLoop_ok (g := fun i => ext f i / c) hx.on (fun _ h1 h2 => hD h1 h2 hc) ha).mono fun z hz => hz.is fun i => by
      simp [ext_fin]
  exact ⟨key, key⟩

example := C51_divide Ex.rat.divA Ex.x_is (a := 4) rfl (by norm_num)

/-- C51. Dividing a vector by zero throws over an exact field, unless the vector is empty. -/
theorem C51_divide_by_zero [Field K] [DecidableEq K] (x : List K) :
    (Vec.divScalar (Scalar.field K) x 0 = .error .divideByZero ↔ x ≠ []) ∧
    (Vec.divAssign (Scalar.field K) x 0 = .error .divideByZero ↔ x ≠ []) := by
  have key : Vec.divScalar (Scalar.field K) x 0 = .error .divideByZero ↔ x ≠ [] := by
    cases x with
    | nil => simp [Vec.divScalar, mapLoop, forUp]
    | cons t l => simp [Vec.divScalar, mapLoop, forUp, Vec.get, Scalar.field]
  exact ⟨key, key⟩

example : Vec.divScalar (Scalar.field ℚ) Ex.x 0 = .error .divideByZero := (C51_divide_by_zero _).1.mpr (by decide)

example : Vec.smul (Scalar.field ℚ) (1 / 2) [4, -3] = .ok [2, -3 / 2] ∧ Vec.divAssign (Scalar.field ℚ) [4, -3] 2 = .ok [2, -3 / 2] := by
  decide +kernel
-- with Int entries the values are exact, though a zero entry can become the negative zero of C04
example : Vec.smul Scalar.int ⟨[2], true⟩ [⟨[0], false⟩, ⟨[0, 5], false⟩] = .ok [⟨[0], true⟩, ⟨[0, 10], true⟩] := by decide +kernel
-- with Frac entries, division by zero does not throw (C34): (1/2, 0/1) / 0
example : Vec.divScalar Scalar.frac [⟨⟨[1], false⟩, ⟨[2], false⟩⟩] ⟨⟨[0], false⟩, ⟨[1], false⟩⟩ =
    .ok [⟨⟨[1], false⟩, ⟨[0], false⟩⟩] := by decide +kernel

/-! ### C52: dot product -/

/-- C52. `x.dot(y)` is the sum of the products of the entries. -/
theorem C52_dot [CommRing K] (hS : S.ExactRing rel A) {x y : List T} {n : Nat} {f g : Fin n → K}
    (hx : Vec.Is rel x f) (hy : Vec.Is rel y g) : Out A (Vec.dot S x y) (fun t => rel t (∑ i, f i * g i)) := dot_ok hS hx hy

example := C52_dot exactRing_int Ex.u_is Ex.u_is

/-- C52. It throws `invalid_argument` exactly if the lengths differ. -/
theorem C52_throws_iff [CommRing K] (hS : S.ExactRing rel A) (hA : ¬A .invalidArgument) {x y : List T} {n m : Nat}
    {f : Fin n → K} {g : Fin m → K} (hx : Vec.Is rel x f) (hy : Vec.Is rel y g) :
    Vec.dot S x y = .error .invalidArgument ↔ n ≠ m := by
  by_cases h : n = m
  · subst h
    rcases dot_ok hS hx hy with ⟨a, ha, _⟩ | ⟨e, he, hAe⟩
    · simp [ha]
    · rw [he]; simp only [Except.error.injEq, ne_eq, not_true_eq_false, iff_false]; rintro rfl; exact hA hAe
  · simp [Vec.dot, hx.1, hy.1, h]

example : Vec.dot (Scalar.field ℚ) Ex.x Ex.w = .error .invalidArgument :=
  (C52_throws_iff Ex.rat.toExactRing (Ex.never _) Ex.x_is Ex.w_is).mpr (by decide)

/-- C52. The product is symmetric and additive and homogeneous in its first argument, as far as the calls return. -/
theorem C52_symmetric_bilinear [CommRing K] (hS : S.ExactRing rel A) (hM : S.ExactMulA rel A) {x y z : List T} {n : Nat}
    {f g h : Fin n → K} (hx : Vec.Is rel x f) (hy : Vec.Is rel y g) (hz : Vec.Is rel z h) {c : T} {k : K} (hc : rel c k) :
    (∀ t u, Vec.dot S x y = .ok t → Vec.dot S y x = .ok u → ∃ v, rel t v ∧ rel u v) ∧
    (∀ s t u v, Vec.add S x y = .ok s → Vec.dot S s z = .ok t → Vec.dot S x z = .ok u → Vec.dot S y z = .ok v →
      ∃ a b, rel u a ∧ rel v b ∧ rel t (a + b)) ∧
    (∀ s t u, Vec.smul S c x = .ok s → Vec.dot S s z = .ok t → Vec.dot S x z = .ok u →
      ∃ a, rel u a ∧ rel t (k * a)) := by
  have get : ∀ {α : Type} {r : Res α} {P : α → Prop}, Out A r P → ∀ {a : α}, r = .ok a → P a := by
    rintro α r P h a rfl; exact out_ok_iff.mp h
  refine ⟨fun t u h1 h2 => ⟨f ⬝ᵥ g, get (dot_ok hS hx hy) (a := t) h1, ?_⟩, fun s t u v h1 h2 h3 h4 => ?_, fun s t u h1 h2 h3 => ?_⟩
  · rw [dotProduct_comm]; exact get (dot_ok hS hy hx) (a := u) h2
  · have hs := get (C50_entrywise hS hx hy).1 h1
    refine ⟨_, _, get (dot_ok hS hx hz) (a := u) h3, get (dot_ok hS hy hz) (a := v) h4, ?_⟩
    rw [← add_dotProduct]
    exact get (dot_ok hS hs hz) (a := t) h2
  · have hs := get (C51_multiply hM hx hc).1 h1
    refine ⟨_, get (dot_ok hS hx hz) (a := u) h3, ?_⟩
    have := get (dot_ok hS hs hz) (a := t) h2
    rwa [smul_dotProduct] at this

example := C52_symmetric_bilinear Ex.rat.toExactRing Ex.rat.mulA Ex.x_is Ex.y_is Ex.x_is (c := 1 / 2) rfl

example : Vec.dot (Scalar.field ℚ) [1, 2, 3] [1 / 2, -1, 4] = .ok (21 / 2) ∧
    Vec.dot Scalar.int [⟨[999999999], false⟩, ⟨[2], false⟩] [⟨[999999999], false⟩, ⟨[1], true⟩] = .ok ⟨[999999999, 999999997], false⟩ ∧
    Vec.dot (Scalar.field ℚ) [] [] = .ok 0 := by decide +kernel

/-! ### C53, C54: cross product and triple products -/

/-- C53. The entries of `x.cross(y)`. -/
theorem C53_cross [CommRing K] (hS : S.ExactRing rel A) {x y : List T} {f g : Fin 3 → K}
    (hx : Vec.Is rel x f) (hy : Vec.Is rel y g) :
    Out A (Vec.cross S x y) (fun z => Vec.Is rel z
      ![f 1 * g 2 - f 2 * g 1, f 2 * g 0 - f 0 * g 2, f 0 * g 1 - f 1 * g 0]) := by
  have := cross_ok hS hx hy
  rwa [cross_apply] at this

example := C53_cross Ex.rat.toExactRing Ex.x_is Ex.y_is

/-- C53. `x.cross(y)` is orthogonal to both arguments, its square is `|x|²|y|² - (x·y)²`, and `y.cross(x)` is its
negative. -/
theorem C53_cross_laws [CommRing K] (hS : S.ExactRing rel A) {x y z w : List T} {f g : Fin 3 → K}
    (hx : Vec.Is rel x f) (hy : Vec.Is rel y g) (hz : Vec.cross S x y = .ok z) (hw : Vec.cross S y x = .ok w) :
    Out A (Vec.dot S x z) (fun t => rel t 0) ∧ Out A (Vec.dot S y z) (fun t => rel t 0) ∧
    Out A (Vec.dot S z z) (fun t => rel t ((∑ i, f i * f i) * (∑ i, g i * g i) - (∑ i, f i * g i) ^ 2)) ∧
    ∃ h : Fin 3 → K, Vec.Is rel z h ∧ Vec.Is rel w (-h) := by
  have h1 := cross_ok hS hx hy
  have h2 := cross_ok hS hy hx
  rw [hz, out_ok_iff] at h1
  rw [hw, out_ok_iff] at h2
  refine ⟨(dot_ok hS hx h1).mono fun t ht => ?_, (dot_ok hS hy h1).mono fun t ht => ?_, (dot_ok hS h1 h1).mono fun t ht => ?_,
    _, h1, ?_⟩
  · rwa [dot_self_cross] at ht
  · rwa [dot_cross_self] at ht
  · rw [cross_dot_cross] at ht
    convert ht using 1
    simp only [dotProduct, Fin.sum_univ_three]
    ring
  · rwa [cross_anticomm]

example := C53_cross_laws (z := [-1, 5, -3]) (w := [1, -5, 3]) Ex.rat.toExactRing Ex.x_is Ex.y_is (by decide +kernel) (by decide +kernel)

/-- C53. It throws `invalid_argument` exactly unless both vectors have three entries. -/
theorem C53_throws_iff [CommRing K] (hS : S.ExactRing rel A) (hA : ¬A .invalidArgument) {x y : List T} {n m : Nat}
    {f : Fin n → K} {g : Fin m → K} (hx : Vec.Is rel x f) (hy : Vec.Is rel y g) :
    Vec.cross S x y = .error .invalidArgument ↔ ¬(n = 3 ∧ m = 3) := by
  by_cases h : n = 3 ∧ m = 3
  · obtain ⟨rfl, rfl⟩ := h
    rcases cross_ok hS hx hy with ⟨a, ha, _⟩ | ⟨e, he, hAe⟩
    · simp [ha]
    · rw [he]; simp only [Except.error.injEq, and_self, not_true_eq_false, iff_false]; rintro rfl; exact hA hAe
  · have : n ≠ 3 ∨ m ≠ 3 := by tauto
    simp [Vec.cross, hx.1, hy.1, h, this]

example : Vec.cross (Scalar.field ℚ) Ex.x Ex.w = .error .invalidArgument :=
  (C53_throws_iff Ex.rat.toExactRing (Ex.never _) Ex.x_is Ex.w_is).mpr (by decide)

example : Vec.cross (Scalar.field ℚ) [1, 2, 3] [4, 5, 7] = .ok [-1, 5, -3] ∧ Vec.cross (Scalar.field ℚ) [1, 2] [4, 5, 7] = .error .invalidArgument := by
  decide +kernel

/-- C54. `scalar_triple_product(x, y, z)` is the determinant of the matrix with rows `x`, `y`, `z`, and
`vector_triple_product(x, y, z)` is `y (x·z) - z (x·y)`. -/
theorem C54_triple_products [CommRing K] (hS : S.ExactRing rel A) {x y z : List T} {f g h : Fin 3 → K}
    (hx : Vec.Is rel x f) (hy : Vec.Is rel y g) (hz : Vec.Is rel z h) :
    Out A (Vec.scalarTriple S x y z) (fun t => rel t (Matrix.det ![f, g, h])) ∧
    Out A (Vec.vectorTriple S x y z) (fun w => Vec.Is rel w (fun i => g i * (∑ j, f j * h j) - h i * (∑ j, f j * g j))) := by
  constructor
  · refine Out.bind (cross_ok hS hy hz) fun c hc => ?_
    rw [← triple_product_eq_det]
    exact dot_ok hS hx hc
  · refine Out.bind (cross_ok hS hy hz) fun c hc => ?_
    refine (cross_ok hS hx hc).mono fun w hw => ?_
    convert hw using 1
    funext i
    simp only [Fin.sum_univ_three, cross_apply]
    fin_cases i <;> simp <;> ring

example := C54_triple_products Ex.rat.toExactRing Ex.x_is Ex.y_is Ex.x_is

example : Vec.scalarTriple (Scalar.field ℚ) [1, 2, 3] [4, 5, 6] [7, 8, 10] = .ok (-3) ∧
    Vec.vectorTriple (Scalar.field ℚ) [1, 2, 3] [4, 5, 6] [7, 8, 10] = .ok [-12, 9, -2] := by decide +kernel

/-! ### C55, C56, C57: concatenation, equality, output -/

/-- C55. `x.concatenate(y)` has the entries of `x` followed by those of `y`, `constantVec(n, v)` has `n` entries `v`, and
`Vec(n)` has `n` zeros. -/
theorem C55_concatenate_constant [CommRing K] (hS : S.ExactRing rel A) {x y : List T} {n m : Nat} {f : Fin n → K}
    {g : Fin m → K} (hx : Vec.Is rel x f) (hy : Vec.Is rel y g) {v : T} {c : K} (hv : rel v c) (k : Nat) :
    Out A (Vec.concatenate S x y) (fun z => Vec.Is rel z (Fin.append f g)) ∧
    Out A (Vec.constantVec S k v) (fun z => Vec.Is rel z (fun _ : Fin k => c) ∧ z = List.replicate k v) ∧
    Out A (Vec.ofSize S k) (fun z => Vec.Is rel z (0 : Fin k → K)) := by
  refine ⟨(concatenate_ok hS hx.on hy.on).mono fun z hz => hz.is fun i => ?_, ?_, (ofSize_ok hS k).mono fun z hz => hz.is
    fun i => rfl⟩
  · refine Fin.addCases (fun i => ?_) (fun i => ?_) i
    · simp [Fin.append_left, ext_fin, i.2]
    · simp [Fin.append_right, ext_fin]
  · refine Out.bind (ofSize_ok hS k) fun r hr => Out.ok ?_
    rw [hr.1]
    exact ⟨⟨by simp, fun i => ⟨v, by simp, hv⟩⟩, rfl⟩

example := C55_concatenate_constant Ex.rat.toExactRing Ex.x_is Ex.w_is (v := 7) rfl 4

/-- C55. Concatenation copies the objects themselves. -/
theorem C55_concatenate_objects [CommRing K] (hS : S.ExactRing rel A) (x y : List T) :
    Out A (Vec.concatenate S x y) (fun z => z = x ++ y) := by
  refine Out.bind (ofSize_ok hS _) fun r hr => ?_
  have hlen : r.length = x.length + y.length := hr.1
  have step : ∀ (off : Nat) (l : List T) (r : List T), off + l.length ≤ r.length →
      Out A (forUp 0 l.length (fun i r => do let t ← get l i; set r (off + i) t) r)
        (fun z => z = r.take off ++ l ++ r.drop (off + l.length)) := by
    intro off l r h
    refine Out.mono (forUp_ok (Inv := fun i z => z = r.take off ++ l.take i ++ r.drop (off + i)) ?_ ?_) ?_
    · simp
    · rintro i z _ hi rfl
      have hi' : i < l.length := by omega
      have hg : Vec.get l i = .ok l[i] := by simp [Vec.get, hi']
      simp only [hg, bind_ok]
      have hlen' : off + i < (r.take off ++ l.take i ++ r.drop (off + i)).length := by
        simp only [List.length_append, List.length_take, List.length_drop]; omega
      refine .inl ⟨_, if_pos hlen', ?_⟩
      have h1 : (r.take off ++ l.take i).length = off + i := by
        simp only [List.length_append, List.length_take]; omega
      rw [List.set_append_right _ _ (by omega), h1, Nat.sub_self, List.drop_eq_getElem_cons (by omega : off + i < r.length),
        List.set_cons_zero, List.take_succ_eq_append_getElem hi']
      simp only [Nat.add_assoc, List.append_assoc, List.singleton_append]
    · rintro z rfl; simp
  refine Out.bind (P := fun z => z = x ++ r.drop x.length) ?_ fun r' hr' => ?_
  · have := step 0 x r (by omega)
    simpa using this
  · subst hr'
    have := step x.length y (x ++ r.drop x.length) (by simp [hlen])
    refine this.mono fun z hz => ?_
    rw [hz]
    simp [hlen]

example := C55_concatenate_objects exactRing_int Ex.u Ex.u

example : Vec.concatenate (Scalar.field ℚ) [1, 2] [3] = .ok [1, 2, 3] ∧ Vec.constantVec (Scalar.field ℚ) 3 7 = .ok [7, 7, 7] := by
  decide +kernel

/-- C56. `x == y` holds exactly if the lengths and all entries agree, and `x != y` is its negation. -/
theorem C56_equality [CommRing K] (hS : S.ExactRing rel A) {x y : List T} {n m : Nat} {f : Fin n → K} {g : Fin m → K}
    (hx : Vec.Is rel x f) (hy : Vec.Is rel y g) :
    Out A (Vec.eq S x y) (fun b => b = true ↔ ∃ h : n = m, ∀ i, f i = g (Fin.cast h i)) ∧
    Out A (Vec.ne S x y) (fun b => b = false ↔ ∃ h : n = m, ∀ i, f i = g (Fin.cast h i)) := by
  have key : Out A (Vec.eq S x y) (fun b => b = true ↔ ∃ h : n = m, ∀ i, f i = g (Fin.cast h i)) := by
    unfold Vec.eq
    rw [hx.1, hy.1]
    by_cases h : n = m
    · subst h
      simp only [ne_eq, not_true_eq_false, if_false, exists_true_left]
      refine (eqLoop_ok hS hx.on hy.on n 0 (by omega)).mono fun b hb => hb.trans ⟨fun h i => ?_, fun h j _ hj => ?_⟩
      · have := h i (by omega) i.2
        rwa [ext_fin, ext_fin] at this
      · rw [ext_lt f hj, ext_lt g hj]; exact h ⟨j, hj⟩
    · simp only [ne_eq, h, not_false_eq_true, if_true]
      exact Out.ok (by simp)
  refine ⟨key, Out.bind key fun b hb => Out.ok ?_⟩
  cases b <;> simp_all

example := C56_equality Ex.rat.toExactRing Ex.x_is Ex.w_is

example : Vec.eq (Scalar.field ℚ) [1, 2] [1, 2] = .ok true ∧ Vec.eq (Scalar.field ℚ) [1, 2] [1, 3] = .ok false ∧
    Vec.ne (Scalar.field ℚ) [1, 2] [1, 2, 0] = .ok true := by decide +kernel

/-- C57. `operator<<` prints the entries in parentheses, separated by a comma and a blank, and `()` for the empty vector. -/
theorem C57_output (pr : T → List Char) :
    Vec.print pr [] = .ok "()".toList ∧
    (∀ t, Vec.print pr [t] = .ok ("(".toList ++ pr t ++ ")".toList)) ∧
    (∀ (x : List T) (t : T), x ≠ [] → Vec.print pr (x ++ [t]) =
      .ok ("(".toList ++ (x.map (fun u => pr u ++ ", ".toList)).flatten ++ pr t ++ ")".toList)) ∧
    ∀ x : List T, Vec.print pr x = .ok ("(".toList ++ ", ".toList.intercalate (x.map pr) ++ ")".toList) := by
  refine ⟨by rw [print_eq]; rfl, fun t => by rw [print_eq]; simp [List.intercalate], fun x t _ => ?_, fun x => print_eq pr x⟩
  rw [print_eq, List.map_append, List.map_cons, List.map_nil, intercalate_snoc, List.map_map]
  simp [Function.comp_def]

example : Vec.print BigInt.print [⟨[5], true⟩, ⟨[0, 1], false⟩, ⟨[7], false⟩] = .ok "(-5, 1000000000, 7)".toList := by decide +kernel

/-! ### C58: scaling by an own entry -/

/-- C58 as stated is false: after `x = (2, 3); x *= x[0]` the vector is `(4, 12)`, not `(4, 6)`, and after
`x = (2, 3); x /= x[0]` it is `(1, 3)`, not `(1, 3/2)`. -/
theorem C58_refuted : Vec.mulAssignEntry (Scalar.field ℚ) [2, 3] 0 = .ok [4, 12] ∧
    Vec.mulAssign (Scalar.field ℚ) [2, 3] 2 = .ok [4, 6] ∧
    Vec.divAssignEntry (Scalar.field ℚ) [2, 3] 0 = .ok [1, 3] ∧
    Vec.divAssign (Scalar.field ℚ) [2, 3] 2 = .ok [1, 3 / 2] := by decide +kernel

/-- C58, what the code does: `x *= x[k]` multiplies the entries up to `k` by the old value `c` of `x[k]`, but those after
`k` by `c²`. -/
theorem C58_multiply_by_entry_partial [CommRing K] (hM : S.ExactMulA rel A) {x : List T} {n : Nat} {f : Fin n → K} (k : Fin n)
    (hx : Vec.Is rel x f) :
    Out A (Vec.mulAssignEntry S x k) (fun z => Vec.Is rel z (fun i => if i ≤ k then f i * f k else f i * (f k * f k))) ∧
    (k.val + 1 = n → Out A (Vec.mulAssignEntry S x k) (fun z => Vec.Is rel z (fun i => f i * f k))) := by
  have key : Out A (Vec.mulAssignEntry S x k)
      (fun z => Vec.Is rel z (fun i => if i ≤ k then f i * f k else f i * (f k * f k))) := by
    unfold Vec.mulAssignEntry mapLoop
    rw [hx.1]
    refine Out.mono (loop_ok (g := fun i => if i ≤ k then ext f i * ext f k else ext f i * (ext f k * ext f k)) hx.on
      fun i x' hi hx' => ?_) fun z hz => hz.is fun i => ?_
    · refine Out.bind (hx'.get hi) fun u hu => ?_
      refine Out.bind (hx'.get k.2) fun v hv => ?_
      simp only [lt_irrefl, if_false] at hu
      refine Out.bind (hM hu hv) fun t ht => mapStep hi hx' ?_
      by_cases h : i ≤ k
      · rw [if_neg (by omega)] at ht
        simpa only [if_pos h] using ht
      · rw [if_pos (by omega), if_pos le_rfl] at ht
        simpa only [if_neg h] using ht
    · simp only [ext_fin, Fin.le_def]
  refine ⟨key, fun hk => key.mono fun z hz => ?_⟩
  convert hz using 1
  funext i
  rw [if_pos (by rw [Fin.le_def]; omega)]

example := C58_multiply_by_entry_partial Ex.rat.mulA 1 Ex.x_is

/-- C58, what the code does: `x /= x[k]` (not zero) divides the entries before `k` by it, turns `x[k]` into 1 and leaves
the later ones alone. -/
theorem C58_divide_by_entry_partial [Field K] (hD : S.ExactDivA rel A) {x : List T} {n : Nat} {f : Fin n → K} (k : Fin n)
    (hx : Vec.Is rel x f) (hk : f k ≠ 0) :
    Out A (Vec.divAssignEntry S x k) (fun z => Vec.Is rel z (fun i => if i ≤ k then f i / f k else f i)) ∧
    (k.val + 1 = n → Out A (Vec.divAssignEntry S x k) (fun z => Vec.Is rel z (fun i => f i / f k))) := by
  have key : Out A (Vec.divAssignEntry S x k) (fun z => Vec.Is rel z (fun i => if i ≤ k then f i / f k else f i)) := by
    unfold Vec.divAssignEntry mapLoop
    rw [hx.1]
    refine Out.mono (loop_ok (g := fun i => if i ≤ k then ext f i / ext f k else ext f i) hx.on
      fun i x' hi hx' => ?_) fun z hz => hz.is fun i => ?_
    · refine Out.bind (hx'.get hi) fun u hu => ?_
      refine Out.bind (hx'.get k.2) fun v hv => ?_
      simp only [lt_irrefl, if_false] at hu
      have hk' : ext f k ≠ 0 := by rwa [ext_fin]
      by_cases h : i ≤ k
      · rw [if_neg (by omega)] at hv
        refine Out.bind (hD hu hv hk') fun t ht => mapStep hi hx' ?_
        simpa only [if_pos h] using ht
      · rw [if_pos (by omega), if_pos le_rfl, div_self hk'] at hv
        refine Out.bind (hD hu hv one_ne_zero) fun t ht => mapStep hi hx' ?_
        simpa only [if_neg h, div_one] using ht
    · simp only [ext_fin, Fin.le_def]
  refine ⟨key, fun hk => key.mono fun z hz => ?_⟩
  convert hz using 1
  funext i
  rw [if_pos (by rw [Fin.le_def]; omega)]

example := C58_divide_by_entry_partial Ex.rat.divA 1 Ex.x_is (by simp [Ex.xf])

example : Vec.mulAssignEntry (Scalar.field ℚ) [5, 2, 3, 7] 1 = .ok [10, 4, 12, 28] ∧
    Vec.divAssignEntry (Scalar.field ℚ) [5, 2, 3, 4] 3 = .ok [5 / 4, 1 / 2, 3 / 4, 1] := by decide +kernel

/-! ### C59: setEntries and the constructors -/

/-- C59. `setEntries(vals, m)` throws `invalid_argument` exactly if `m < size()`, and then the vector is unchanged;
otherwise (if the array does hold `size()` values) the entries are the first `size()` values, converted. -/
theorem C59_set_entries {U L : Type} {ru : U → L → Prop} {conv : U → Res T} {x : List T} {vals : List U} {m : Nat}
    {w : Nat → L} {φ : L → K} (hA : ¬A .invalidArgument)
    (hconv : ∀ {s l}, ru s l → Out A (conv s) (fun t => rel t (φ l)))
    (hv : ∀ i, i < x.length → ∃ s, vals[i]? = some s ∧ ru s (w i)) (hx : ∃ f : Fin x.length → K, Vec.Is rel x f) :
    (m < x.length → Vec.setEntriesM conv x vals m = .error (.invalidArgument, x)) ∧
    (x.length ≤ m → Out A (Vec.setEntries conv x vals m) (fun z => Vec.Is rel z (fun i : Fin x.length => φ (w i)))) ∧
    (Vec.setEntries conv x vals m = .error .invalidArgument ↔ m < x.length) := by
  have h1 : m < x.length → Vec.setEntriesM conv x vals m = .error (.invalidArgument, x) := fun h => if_pos h
  have h2 : x.length ≤ m → Out A (Vec.setEntries conv x vals m) (fun z => Vec.Is rel z (fun i : Fin x.length => φ (w i))) := by
    intro h
    obtain ⟨f, hf⟩ := hx
    rcases Nat.eq_zero_or_pos x.length with h0 | h0
    · refine .inl ⟨x, ?_, rfl, fun i => absurd i.2 (by omega)⟩
      have : x = [] := List.eq_nil_of_length_eq_zero h0
      subst this
      simp [Vec.setEntries, Vec.setEntriesM, forUp, Frac.drop]
    · have hon : Vec.On rel x x.length (fun i => if h : i < x.length then f ⟨i, h⟩ else f ⟨0, h0⟩) :=
        ⟨rfl, fun i hi => by simpa [hi] using hf.2 ⟨i, hi⟩⟩
      exact (setEntries_ok (f := fun i => φ (w i)) hon h hv (fun _ hs => hconv hs)).mono fun z hz => hz.is fun i => rfl
  refine ⟨h1, h2, fun h => ?_, fun h => by rw [Vec.setEntries, h1 h]; rfl⟩
  by_contra hm
  rcases h2 (by omega) with ⟨a, ha, _⟩ | ⟨e, he, hAe⟩
  · rw [ha] at h; cases h
  · rw [he] at h; cases h; exact hA hAe

/-- The values (4, 5, 7) for the vector (1, 2, 3), and too few of them. -/
example := C59_set_entries (m := 3) (φ := id) (w := fun i => (Ex.y[i]?).getD 0) (conv := fun t => .ok t) (Ex.never _)
  (fun h => Out.ok h) (x := Ex.x) (vals := Ex.y) (ru := Ex.Same) (rel := Ex.Same)
  (fun i hi => by have : i < 3 := hi; interval_cases i <;> exact ⟨_, rfl, rfl⟩) ⟨Ex.xf, Ex.x_is⟩

/-- C59. The constructors from an array or another vector convert the values one by one, in order. -/
theorem C59_constructors {U L : Type} {ru : U → L → Prop} {conv : U → Res T} {vals : List U} {n : Nat}
    {w : Fin n → L} {φ : L → K} (hconv : ∀ {s l}, ru s l → Out A (conv s) (fun t => rel t (φ l)))
    (hv : Vec.Is ru vals w) : Out A (Vec.ofArray conv vals n) (fun z => Vec.Is rel z (fun i => φ (w i))) := by
  rcases n with _ | n
  · exact Out.ok ⟨rfl, fun i => i.elim0⟩
  · refine (ofArray_ok (rs := ru) (w := fun i => w (Fin.ofNat (n + 1) i)) (f := fun i => φ (w (Fin.ofNat (n + 1) i))) ?_
      fun _ hs => hconv hs).mono fun z hz => hz.is fun i => by simp
    intro i hi
    have := hv.2 ⟨i, hi⟩
    simpa [Fin.ofNat, Nat.mod_eq_of_lt hi] using this

example := C59_constructors (φ := id) (conv := fun t : ℚ => .ok t) (A := Never) (rel := Ex.Same) (fun h => Out.ok h) Ex.y_is

/-- C59. `setEntries(val)` sets every entry to the converted value. -/
theorem C59_set_all {U : Type} {conv : U → Res T} {x : List T} {v : U} {c : K} (hv : Out A (conv v) (fun t => rel t c)) :
    Out A (Vec.setAll conv x v) (fun z => Vec.Is rel z (fun _ : Fin x.length => c)) :=
  Out.bind hv fun t ht => Out.ok ⟨by simp, fun i => ⟨t, by simp, ht⟩⟩

example := C59_set_all (x := Ex.x) (conv := fun t : ℚ => .ok t) (A := Never) (rel := Ex.Same) (v := 7) (Out.ok rfl)

example : Vec.setAll (T := Frac) Frac.ofInt [⟨⟨[1], false⟩, ⟨[2], false⟩⟩] ⟨[7], true⟩ = .ok [⟨⟨[7], true⟩, ⟨[1], false⟩⟩] := by
  decide +kernel
example : Vec.setEntriesM (T := Frac) Frac.ofInt [⟨⟨[1], false⟩, ⟨[2], false⟩⟩] [⟨[7], true⟩, ⟨[8], true⟩] 2 =
    .ok [⟨⟨[7], true⟩, ⟨[1], false⟩⟩] := by decide +kernel
example : Vec.setEntriesM (S := ℚ) .ok [1, 2, 3] [5, 6] 2 = .error (.invalidArgument, [1, 2, 3]) := by decide +kernel

end CppMaths
