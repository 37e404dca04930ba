import Verif.Proofs.VecSafe
import Verif.Props.MatElim
/-!
# C101: matrices and vectors of any scalar type are memory safe
-/

namespace CppMaths
variable {T : Type} {P : T → Prop} {A : Err → Prop} {S : Scalar T}
open Mat

theorem Out.all {x : Res (Mat T)} {r c : Nat} (h : Out A x (Fu P r c)) : Out A x (Mat.All P r c) := h.mono fun _ hm => all_iff.mpr hm

/-- Objects for the examples: matrices of NaN, infinity and `Int`, and a vector of NaN. -/
private def nn : Mat Double := ⟨2, 2, [some .nan, some (.inf true), some (.inf false), some .nan]⟩
private theorem nn_all : Mat.All (fun _ => True) 2 2 nn := ⟨rfl, rfl, rfl, by simp [nn]⟩
private def iii : Mat BigInt := ⟨2, 2, [some ⟨[3], false⟩, some ⟨[1], false⟩, some ⟨[1], true⟩, some ⟨[2], false⟩]⟩
private theorem iii_all : Mat.All BigInt.WF 2 2 iii := ⟨rfl, rfl, rfl, by decide +kernel⟩
private def vn : List Double := [.nan, .inf true, .nan]
private theorem vn_all : Vec.All (fun _ => True) 3 vn := ⟨rfl, by simp⟩

/-- C101: for any scalar type, whatever its operations compute: on initialised matrices of fitting dimensions the arithmetic operators return
initialised matrices of the right dimensions, or fail as a scalar operation does. -/
theorem C101_arithmetic (hS : S.Closed P A) {r n c : Nat} {a a' b : Mat T} {k : T} (ha : Mat.All P r n a) (ha' : Mat.All P r n a')
    (hb : Mat.All P n c b) (hk : P k) :
    Out A (neg S a) (Mat.All P r n) ∧ Out A (add S a a') (Mat.All P r n) ∧ Out A (sub S a a') (Mat.All P r n) ∧
    Out A (mul S a b) (Mat.All P r c) ∧ Out A (smul S k a) (Mat.All P r n) ∧ Out A (mulScalar S a k) (Mat.All P r n) ∧
    Out A (divScalar S a k) (Mat.All P r n) ∧ Out A (addAssign S a a') (Mat.All P r n) ∧ Out A (addAssignSelf S a) (Mat.All P r n) ∧
    Out A (subAssign S a a') (Mat.All P r n) ∧ Out A (subAssignSelf S a) (Mat.All P r n) ∧ Out A (mulAssign S a b) (Mat.All P r c) ∧
    Out A (mulAssignScalar S a k) (Mat.All P r n) ∧ Out A (divAssignScalar S a k) (Mat.All P r n) ∧
    (∀ i j, i < r → j < n → Out A (mulAssignEntry S a i j) (Mat.All P r n) ∧ Out A (divAssignEntry S a i j) (Mat.All P r n)) ∧
    Out A (eq S a b) (fun _ => True) := by
  have fa := all_iff.mp ha
  have fa' := all_iff.mp ha'
  have fb := all_iff.mp hb
  refine ⟨(neg_fu hS fa).all, (add_fu hS fa fa').all, (sub_fu hS fa fa').all, (mul_fu hS fa fb).1.all, (smul_fu hS hk fa).all,
    (smul_fu hS hk fa).all, (divScalar_fu hS hk fa).all, (addAssignRef_fu hS fa fun _ _ => fa').all,
    (addAssignRef_fu hS fa fun _ h => h).all, (subAssignRef_fu hS fa fun _ _ => fa').all,
    (subAssignRef_fu hS fa fun _ h => h).all, (mul_fu hS fa fb).2.all, (mapLoop_fu hS.mulA fa fun _ _ => Out.ok hk).all,
    (mapLoop_fu hS.divA fa fun _ _ => Out.ok hk).all, fun i j hi hj => ⟨(mapLoop_fu hS.mulA fa fun _ h => h.get hi hj).all,
      (mapLoop_fu hS.divA fa fun _ h => h.get hi hj).all⟩, eq_fu hS fa fb⟩

example := C101_arithmetic closed_int iii_all iii_all iii_all (k := ⟨[0], true⟩) (by decide)

/-- C101: the functions that rearrange entries and the factories. -/
theorem C101_shapes (hS : S.Closed P A) {r c d : Nat} {a b e : Mat T} {k : T} {vals : List T} (ha : Mat.All P r c a) (hb : Mat.All P r d b)
    (he : Mat.All P (r + 1) (c + 1) e) (hk : P k) (hv : ∀ t ∈ vals, P t) :
    Out A a.copy (Mat.All P r c) ∧ Out A a.transpose (Mat.All P c r) ∧ Out A (augmentedMatrix a b) (Mat.All P r (c + d)) ∧
    (∀ i j, Out A (e.firstMinor i j) (Mat.All P r c) ∧ Out A (cofactor S e i j) (Mat.All P r c)) ∧
    Out A (filled r c k) (Mat.All P r c) ∧ Out A (identityMatrix S r) (Mat.All P r r) ∧
    (r ≤ vals.length → Out A (diagonalMatrix S vals r) (Mat.All P r r)) ∧
    (r * c ≤ vals.length → Out A (ofArray vals r c) (Mat.All P r c)) := by
  have fa := all_iff.mp ha
  have fb := all_iff.mp hb
  have fe := all_iff.mp he
  refine ⟨(copy_fu fa).all, (transpose_fu fa).all, (augmented_fu fa fb).all, fun i j => ⟨(firstMinor_fu fe i j).all, ?_⟩,
    (filled_fu hk).all, (identity_fu hS r).all, fun h => (diagonal_fu hS hv h).all,
    fun h => (setEntries_fu (alloc_on r c fun _ _ => ()) hv h le_rfl).all⟩
  unfold cofactor
  split
  · exact (Out.bind (firstMinor_fu fe i j) fun x hx => neg_fu hS hx).all
  · exact (firstMinor_fu fe i j).all

example := C101_shapes closed_double (r := 2) (c := 2) (e := ⟨3, 3, List.replicate 9 (some .nan)⟩) (vals := [.nan, .nan, .nan, .nan]) nn_all nn_all
  ⟨rfl, rfl, rfl, by simp⟩ (k := .nan) trivial (by simp)

/-- C101: determinants, trace, elimination and inversion. Only inversion throws on its own account, `std::domain_error`. -/
theorem C101_elimination (hS : S.Closed P A) {r c n : Nat} {a m : Mat T} (ha : Mat.All P r c a) (hm : Mat.All P n n m) :
    Out A (rref S a) (Mat.All P r c) ∧ Out A (inplaceRref S a) (Mat.All P r c) ∧ Out A (determinant S m) P ∧ Out A (trace S m) P ∧
    Out A (rowCofactor S m) P ∧ Out A (colCofactor S m) P ∧ Out (OrDomain A) (inverse S m) (Mat.All P n n) := by
  have fa := all_iff.mp ha
  have fm := all_iff.mp hm
  refine ⟨(Out.bind (copy_fu fa) fun x hx => inplaceRref_fu hS hx).all, (inplaceRref_fu hS fa).all, determinant_fu hS fm, trace_fu hS fm,
    ?_, ?_, (inverse_fu hS fm).all⟩
  · exact rowCofactorF_fu hS n _ (by rw [fm.1]; omega) m fm
  · exact colCofactorF_fu hS n _ (by rw [fm.1]; omega) m fm

example := C101_elimination closed_int iii_all iii_all

/-- C101: vectors, for operands of fitting lengths. -/
theorem C101_vectors (hS : S.Closed P A) {n k : Nat} {x y z : List T} {t : T} (hx : Vec.All P n x) (hy : Vec.All P n y) (hz : Vec.All P k z)
    (ht : P t) :
    Out A (Vec.add S x y) (Vec.All P n) ∧ Out A (Vec.sub S x y) (Vec.All P n) ∧ Out A (Vec.smul S t x) (Vec.All P n) ∧
    Out A (Vec.mulScalar S x t) (Vec.All P n) ∧ Out A (Vec.divScalar S x t) (Vec.All P n) ∧
    Out A (Vec.addAssign S x y) (Vec.All P n) ∧ Out A (Vec.addAssignSelf S x) (Vec.All P n) ∧
    Out A (Vec.subAssign S x y) (Vec.All P n) ∧ Out A (Vec.subAssignSelf S x) (Vec.All P n) ∧
    Out A (Vec.mulAssign S x t) (Vec.All P n) ∧ Out A (Vec.divAssign S x t) (Vec.All P n) ∧
    (∀ i, i < n → Out A (Vec.mulAssignEntry S x i) (Vec.All P n) ∧ Out A (Vec.divAssignEntry S x i) (Vec.All P n)) ∧
    Out A (Vec.constantVec S n t) (Vec.All P n) ∧
    Out A (Vec.dot S x y) P ∧ Out A (Vec.concatenate S x z) (Vec.All P (n + k)) ∧ Out A (Vec.eq S x z) (fun _ => True) ∧
    Out A (Vec.ne S x z) (fun _ => True) := by
  have e : Out A (Vec.eq S x z) (fun _ => True) := by
    unfold Vec.eq
    split
    · exact Out.ok trivial
    · next h =>
      rw [not_not, hx.1, hz.1] at h
      subst h
      rw [hx.1]
      exact Vec.eqLoop_all hS hx hz n 0 (by omega)
  have hl : ¬x.length ≠ y.length := by rw [hx.1, hy.1]; simp
  refine ⟨?_, ?_, Vec.mapLoop_all hS.mulA hx fun _ _ => Out.ok ht, Vec.mapLoop_all hS.mulA hx fun _ _ => Out.ok ht,
    Vec.mapLoop_all hS.divA hx fun _ _ => Out.ok ht, ?_, ?_, ?_, ?_, Vec.mapLoop_all hS.mulA hx fun _ _ => Out.ok ht,
    Vec.mapLoop_all hS.divA hx fun _ _ => Out.ok ht,
    fun i hi => ⟨Vec.mapLoop_all hS.mulA hx fun _ h => h.get hi, Vec.mapLoop_all hS.divA hx fun _ h => h.get hi⟩, ?_,
    Vec.dot_all hS hx hy, Vec.concatenate_all hS hx hz, e, Out.bind e fun _ _ => Out.ok trivial⟩
  · unfold Vec.add
    rw [if_neg hl, hy.1]
    exact Vec.zipLoop_all hS.addA hx fun _ _ => hy
  · unfold Vec.sub
    rw [if_neg hl, hy.1]
    exact Vec.zipLoop_all hS.subA hx fun _ _ => hy
  · unfold Vec.addAssign Vec.addAssignRef
    rw [if_neg hl, hx.1]
    exact Vec.zipLoop_all hS.addA hx fun _ _ => hy
  · unfold Vec.addAssignSelf Vec.addAssignRef
    rw [if_neg (by simp), hx.1]
    exact Vec.zipLoop_all hS.addA hx fun _ h => h
  · unfold Vec.subAssign Vec.subAssignRef
    rw [if_neg hl, hx.1]
    exact Vec.zipLoop_all hS.subA hx fun _ _ => hy
  · unfold Vec.subAssignSelf Vec.subAssignRef
    rw [if_neg (by simp), hx.1]
    exact Vec.zipLoop_all hS.subA hx fun _ h => h
  · unfold Vec.constantVec Vec.ofSize
    refine Out.bind (P := fun r => r.length = n) (Out.bind (hS.ofInt 0 (by simp)) fun z _ => Out.ok (by simp)) fun r hr => ?_
    unfold Vec.setAll
    exact Out.ok ⟨by simp [hr], fun u hu => by rw [List.eq_of_mem_replicate hu]; exact ht⟩

example := C101_vectors closed_double vn_all vn_all vn_all (t := .inf true) trivial

/-- C101: the products of vectors in space. -/
theorem C101_space (hS : S.Closed P A) {x y z : List T} (hx : Vec.All P 3 x) (hy : Vec.All P 3 y) (hz : Vec.All P 3 z) :
    Out A (Vec.cross S x y) (Vec.All P 3) ∧ Out A (Vec.scalarTriple S x y z) P ∧ Out A (Vec.vectorTriple S x y z) (Vec.All P 3) :=
  ⟨Vec.cross_all hS hx hy, Out.bind (Vec.cross_all hS hy hz) fun _ hc => Vec.dot_all hS hx hc,
    Out.bind (Vec.cross_all hS hy hz) fun _ hc => Vec.cross_all hS hx hc⟩

example := C101_space closed_double vn_all vn_all vn_all

/-- C101: `double` is such a scalar type, with every value, NaN included, and without failures. -/
theorem C101_double : Scalar.double.Closed (fun _ => True) Never := closed_double

example : Scalar.double.div (.fin false 1 0) (.fin false 0 0) = .ok (.inf false) ∧ Scalar.double.mul (.inf true) (.fin true 0 0) = .ok .nan := by
  decide +kernel

/-- C101: `Int` is such a scalar type: well-formed values; division by zero and the length limit are the failures. -/
theorem C101_int : Scalar.int.Closed BigInt.WF IntFails := closed_int

example : Scalar.int.div ⟨[7], true⟩ ⟨[0], false⟩ = .error .divideByZero ∧ Scalar.int.div ⟨[7], true⟩ ⟨[2], false⟩ = .ok ⟨[3], true⟩ := by
  decide +kernel

/-- C101: every field is such a scalar type; division by zero is the failure. -/
theorem C101_field (K : Type) [Field K] [DecidableEq K] : (Scalar.field K).Closed (fun _ => True) (fun e => e = .divideByZero) :=
  closed_field K

example := C101_elimination (C101_field ℚ) (a := ⟨1, 2, [some 0, some (1 / 2)]⟩) (m := ⟨2, 2, [some 0, some 0, some 0, some 0]⟩)
  ⟨rfl, rfl, rfl, by simp⟩ ⟨rfl, rfl, rfl, by simp⟩

/-- C101: no function of `Mat<double>` on initialised matrices of fitting dimensions ever fails, except that `inverse` may throw
`std::domain_error`. -/
theorem C101_double_elimination {r c n : Nat} {a m : Mat Double} (ha : Mat.All (fun _ => True) r c a) (hm : Mat.All (fun _ => True) n n m) :
    (∃ b, rref .double a = .ok b) ∧ (∃ t, determinant .double m = .ok t) ∧ (∃ t, rowCofactor .double m = .ok t) ∧
    (∃ t, colCofactor .double m = .ok t) ∧ ((∃ b, inverse .double m = .ok b) ∨ inverse .double m = .error .domainError) := by
  obtain ⟨h1, -, h2, -, h3, h4, h5⟩ := C101_elimination closed_double ha hm
  have g : ∀ {α : Type} {x : Res α} {Q : α → Prop}, Out Never x Q → ∃ y, x = .ok y := by
    rintro α x Q (⟨y, h, -⟩ | ⟨e, -, h⟩)
    · exact ⟨y, h⟩
    · exact h.elim
  refine ⟨g h1, g h2, g h3, g h4, ?_⟩
  rcases h5 with ⟨y, h, -⟩ | ⟨e, h, h' | rfl⟩
  · exact .inl ⟨y, h⟩
  · exact h'.elim
  · exact .inr h

example := C101_double_elimination nn_all nn_all

/-- C101: elimination on matrices of `Int`, where division truncates, ends with a matrix of well-formed numbers, or with one of the two
failures of `Int`. -/
theorem C101_int_elimination {r c n : Nat} {a m : Mat BigInt} (ha : Mat.All BigInt.WF r c a) (hm : Mat.All BigInt.WF n n m) :
    Out IntFails (rref .int a) (Mat.All BigInt.WF r c) ∧ Out IntFails (determinant .int m) BigInt.WF ∧
    Out (OrDomain IntFails) (inverse .int m) (Mat.All BigInt.WF n n) := by
  obtain ⟨h1, -, h2, -, -, -, h5⟩ := C101_elimination closed_int ha hm
  exact ⟨h1, h2, h5⟩

example := C101_int_elimination iii_all iii_all

/-- A matrix of NaN and infinity. -/
example : Mat.All (fun _ => True) 2 2 (⟨2, 2, [some .nan, some (.inf true), some (.inf false), some .nan]⟩ : Mat Double) ∧
    (rref .double ⟨2, 2, [some .nan, some (.inf true), some (.inf false), some .nan]⟩).toOption.map (·.data) =
      some [some .nan, some .nan, some .nan, some .nan] := by
  refine ⟨⟨rfl, rfl, rfl, by simp⟩, by decide +kernel⟩

/-- Matrices and vectors of `Int`, on which elimination is not exact. -/
example : Mat.All BigInt.WF 2 2 (⟨2, 2, [some ⟨[3], false⟩, some ⟨[1], false⟩, some ⟨[1], true⟩, some ⟨[2], false⟩]⟩ : Mat BigInt) ∧
    Vec.All BigInt.WF 2 [⟨[3], false⟩, ⟨[1], true⟩] ∧
    (rref .int ⟨2, 2, [some ⟨[3], false⟩, some ⟨[1], false⟩, some ⟨[1], true⟩, some ⟨[2], false⟩]⟩).isOk = true := by
  refine ⟨⟨rfl, rfl, rfl, by decide +kernel⟩, ⟨rfl, by decide +kernel⟩, by decide +kernel⟩

end CppMaths
