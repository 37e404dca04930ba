import Verif.Proofs.MatMem
/-!
# The functions of `Mat<T>` when memory runs out: lemmas
-/

namespace CppMaths
variable {T α β : Type}

namespace MObj
open HM MHeap
open Mat (Fu)
variable {L : Luck T} {h : MHeap T} {Q : α → MHeap T → Prop} {X : Err → MHeap T → Prop} {N : Nat}
variable {P : T → Prop} {A : Err → Prop} {S : Scalar T}

theorem good_of_fu {R C : Nat} {m : Mat T} (hm : Fu P R C m) (hRC : R * C < 2 ^ 64) : Good m ∧ m.rows * m.cols = R * C := by
  have hs := hm.some
  refine ⟨⟨?_, hs.init, ?_⟩, by rw [hm.1, hm.2.1]⟩
  · exact hs.2.2.1
  · rw [hm.1, hm.2.1]; exact hRC

theorem out_ok {r : Res α} {Q : α → Prop} (hr : Out A r Q) {a : α} (e : r = .ok a) : Q a := by
  obtain ⟨b, h1, h2⟩ | ⟨er, h1, -⟩ := hr
  · rw [e] at h1; cases h1; exact h2
  · rw [e] at h1; cases h1

theorem makes_throw (e : Err) : Makes L N h (.error e) (lift (.error e)) :=
  Sat.lift (fun _ e => by cases e) fun e he => ⟨.inr (by cases he; rfl), fun _ => Clean.refl⟩

/-- A function that makes a local matrix, fills it and returns it. -/
theorem makes_local {R C : Nat} {r : Res (Mat T)} {body : MObj → HM T Unit} (hRC : R * C < 2 ^ 64) (hN : h.live + 2 * (R * C) ≤ N)
    (hr : ∀ m, r = .ok m → Fu P R C m)
    (hb : ∀ o h1, Fresh h h1 o (Mat.alloc R C) → ∀ Q X, Sat (o.fill L r) h1 Q X → Sat (body o) h1 Q X) :
    Makes L N h r (do
      let o ← ctor L R C
      giveBack L o (body o)) := by
  refine Sat.bind (Q' := fun o h' => Fresh h h' o (Mat.alloc R C)) ?_ fun o h1 hf => ?_
  · exact sat_ctor hRC (by omega) (fun p h' hf => hf) fun hs => ⟨.inl ⟨rfl, .inr hs⟩, fun _ => Clean.refl⟩
  refine sat_giveBack (hb o h1 hf _ _ (fill_over hf (alloc_sized R C) fun m e => ?_)) fun m e => ?_
  · exact ⟨(hr m e).1, (hr m e).2.1⟩
  · obtain ⟨h2, h3⟩ := good_of_fu (hr m e) hRC
    rw [h3]; exact ⟨h2, hN⟩

theorem makes_val {R C : Nat} {v : T} (hv : P v) (hRC : R * C < 2 ^ 64) (hN : h.live + R * C ≤ N) :
    Makes L N h (Mat.filled R C v) (ctorVal L R C v) := by
  have h1 := Mat.filled_fu (A := Never) (r := R) (c := C) hv
  exact makes_fill hRC hN (fun m e => ⟨(out_ok h1 e).1, (out_ok h1 e).2.1⟩) fun e he => by
    obtain ⟨m, h2, -⟩ := h1.never
    rw [h2] at he; cases he

theorem makes_array {R C : Nat} {vals : List T} (hl : R * C ≤ vals.length) (hv : ∀ t ∈ vals, P t) (hRC : R * C < 2 ^ 64) (hN : h.live + R * C ≤ N) :
    Makes L N h (Mat.ofArray vals R C) (ctorArray L vals R C) := by
  have h1 : Out Never (Mat.ofArray vals R C) (Fu P R C) := Mat.setEntries_fu (Mat.alloc_on R C fun _ _ => ()) hv hl le_rfl
  exact makes_fill hRC hN (fun m e => ⟨(out_ok h1 e).1, (out_ok h1 e).2.1⟩) fun e he => by
    obtain ⟨m, h2, -⟩ := h1.never
    rw [h2] at he; cases he

/-- A function that makes a local matrix of zeros and goes on with it. -/
theorem sat_zeros {R C : Nat} {r : Res (Mat T)} {rest : MObj → HM T MObj} (hz : Out A (S.ofInt 0) P) (hRC : R * C < 2 ^ 64)
    (hN : h.live + R * C ≤ N) (hr : ∀ e, S.ofInt 0 = .error e → r = .error e)
    (hb : ∀ o h1 m0, Fresh h h1 o m0 → Fu P R C m0 →
      Sat (rest o) h1 (fun o' h' => ∃ m, r = .ok m ∧ Fresh h h' o' m) (Fails L N h (r = .error ·))) :
    Makes L N h r (do
      interrupt L
      let z ← lift (S.ofInt 0)
      let o ← ctorVal L R C z
      rest o) := by
  refine Sat.bind (Q' := fun _ h' => h' = h) (sat_interrupt rfl fun hi => ⟨.inl ⟨rfl, .inl hi⟩, fun _ => Clean.refl⟩) fun _ h' e => ?_
  subst e
  refine Sat.bind (Q' := fun z h2 => h2 = h' ∧ P z) (Sat.lift (fun z e => ⟨rfl, out_ok hz e⟩) fun e he => ⟨.inr (hr e he), fun _ => Clean.refl⟩) fun z h2 hq => ?_
  obtain ⟨rfl, hz⟩ := hq
  have h1 := Mat.filled_fu (A := Never) (r := R) (c := C) hz
  refine Sat.bind ((makes_val (L := L) (N := N) (h := h2) hz hRC hN).mono (fun _ _ h => h) fun e h3 he => ⟨he.1.imp id fun he => ?_, he.2⟩) fun o h3 hq => ?_
  · obtain ⟨m, h2, -⟩ := h1.never
    rw [h2] at he; cases he
  · obtain ⟨m0, h4, h5⟩ := hq
    exact hb o h3 m0 h5 (out_ok h1 h4)

theorem makes_neg (hS : S.Closed P A) {R C : Nat} {o : MObj} {m : Mat T} (ho : Is h o m) (hm : Fu P R C m) (hRC : R * C < 2 ^ 64)
    (hN : h.live + 2 * (R * C) ≤ N) : Makes L N h (Mat.neg S m) (neg L S o) := by
  unfold neg
  rw [ho.1, ho.2.1, hm.1, hm.2.1]
  exact makes_local (body := fun r => do
    let x ← o.load
    r.fill L (Mat.neg S x)) hRC hN (fun _ e => out_ok (Mat.neg_fu hS hm) e) fun o' h1 hf Q X hs => sat_load (m := m) ⟨ho.1, ho.2.1, hf.keep ho.2.2⟩ hs

theorem makes_smul (hS : S.Closed P A) {R C : Nat} {o : MObj} {m : Mat T} {k : T} (hk : P k) (ho : Is h o m) (hm : Fu P R C m) (hRC : R * C < 2 ^ 64)
    (hN : h.live + 2 * (R * C) ≤ N) : Makes L N h (Mat.smul S k m) (smul L S k o) := by
  unfold smul
  rw [ho.1, ho.2.1, hm.1, hm.2.1]
  exact makes_local (body := fun r => do
    let x ← o.load
    r.fill L (Mat.smul S k x)) hRC hN (fun _ e => out_ok (Mat.smul_fu hS hk hm) e) fun o' h1 hf Q X hs => sat_load (m := m) ⟨ho.1, ho.2.1, hf.keep ho.2.2⟩ hs

theorem makes_mulScalar (hS : S.Closed P A) {R C : Nat} {o : MObj} {m : Mat T} {k : T} (hk : P k) (ho : Is h o m) (hm : Fu P R C m) (hRC : R * C < 2 ^ 64)
    (hN : h.live + 2 * (R * C) ≤ N) : Makes L N h (Mat.mulScalar S m k) (mulScalar L S o k) := by
  refine Sat.bind (makes_smul (L := L) hS hk ho hm hRC hN) fun o' h1 hq => ?_
  obtain ⟨m', h2, h3⟩ := hq
  obtain ⟨h4, h5⟩ := good_of_fu (out_ok (Mat.smul_fu hS hk hm) h2) hRC
  exact (sat_handOver h3 h4 (by omega)).mono (fun o'' h6 h7 => ⟨m', h2, h7⟩) fun _ _ he => he

theorem makes_divScalar (hS : S.Closed P A) {R C : Nat} {o : MObj} {m : Mat T} {k : T} (hk : P k) (ho : Is h o m) (hm : Fu P R C m) (hRC : R * C < 2 ^ 64)
    (hN : h.live + 2 * (R * C) ≤ N) : Makes L N h (Mat.divScalar S m k) (divScalar L S o k) := by
  unfold divScalar
  rw [ho.1, ho.2.1, hm.1, hm.2.1]
  exact makes_local (body := fun r => do
    let x ← o.load
    r.fill L (Mat.divScalar S x k)) hRC hN (fun _ e => out_ok (Mat.divScalar_fu hS hk hm) e) fun o' h1 hf Q X hs => sat_load (m := m) ⟨ho.1, ho.2.1, hf.keep ho.2.2⟩ hs

theorem makes_transpose {R C : Nat} {o : MObj} {m : Mat T} (ho : Is h o m) (hm : Fu P R C m) (hRC : R * C < 2 ^ 64)
    (hN : h.live + 2 * (R * C) ≤ N) : Makes L N h m.transpose (transpose L o) := by
  unfold transpose
  rw [ho.1, ho.2.1, hm.1, hm.2.1]
  rw [Nat.mul_comm R C] at hRC hN
  exact makes_local (body := fun r => do
    let x ← o.load
    r.fill L (Mat.transpose x)) hRC hN (fun _ e => out_ok (A := Never) (Mat.transpose_fu hm) e) fun o' h1 hf Q X hs => sat_load (m := m) ⟨ho.1, ho.2.1, hf.keep ho.2.2⟩ hs

theorem makes_firstMinor {R C : Nat} {o : MObj} {m : Mat T} (ho : Is h o m) (hm : Fu P (R + 1) (C + 1) m) (hRC : R * C < 2 ^ 64)
    (hN : h.live + 2 * (R * C) ≤ N) (i j : Nat) : Makes L N h (m.firstMinor i j) (firstMinor L o i j) := by
  unfold firstMinor predSize
  rw [ho.1, ho.2.1, hm.1, hm.2.1, if_neg (by omega), if_neg (by omega)]
  exact makes_local (body := fun r => do
    let x ← o.load
    r.fill L (Mat.firstMinor x i j)) hRC hN (fun _ e => out_ok (A := Never) (Mat.firstMinor_fu hm i j) e) fun o' h1 hf Q X hs => sat_load (m := m) ⟨ho.1, ho.2.1, hf.keep ho.2.2⟩ hs

theorem makes_cofactor (hS : S.Closed P A) {R C : Nat} {o : MObj} {m : Mat T} (ho : Is h o m) (hm : Fu P (R + 1) (C + 1) m) (hRC : R * C < 2 ^ 64)
    (hN : h.live + 3 * (R * C) ≤ N) (i j : Nat) : Makes L N h (m.cofactor S i j) (cofactor L S o i j) := by
  unfold cofactor Mat.cofactor
  split
  · refine Sat.bind ((makes_firstMinor (L := L) (N := N) ho hm hRC (by omega) i j).mono (fun _ _ h => h) fun e h' he =>
      ⟨he.1.imp id fun he => by rw [he]; rfl, he.2⟩) fun t h1 hq => ?_
    obtain ⟨m1, h2, h3⟩ := hq
    rw [h2, bind_ok]
    have hm1 := out_ok (A := Never) (Mat.firstMinor_fu hm i j) h2
    obtain ⟨h4, h5⟩ := good_of_fu hm1 hRC
    refine sat_owned ?_
    refine Sat.bind ((makes_neg (L := L) (N := N) hS h3.is hm1 hRC (by rw [h3.live h4.1]; omega)).mono (fun _ _ h => h)
      fun e h' he => FailsOver.of_fails (fun _ h => h) h3.over he) fun r h6 hq => ?_
    obtain ⟨m2, h7, h8⟩ := hq
    obtain ⟨h9, h10⟩ := good_of_fu (out_ok (Mat.neg_fu hS hm1) h7) hRC
    refine (sat_handOver (B := fun _ => False) h8 h9 (by rw [h3.live h4.1]; omega)).mono (fun o' h11 h12 => ?_)
      fun e h' he => FailsOver.of_fails (fun _ h => h.elim) h3.over he
    exact ⟨by rw [h12.keep h3.is.2.2]; simp, fun h13 e13 => ⟨m2, h7, h3.swap h12 e13⟩⟩
  · refine Sat.bind (makes_firstMinor (L := L) (N := N) ho hm hRC (by omega) i j) fun t h1 hq => ?_
    obtain ⟨m1, h2, h3⟩ := hq
    have hm1 := out_ok (A := Never) (Mat.firstMinor_fu hm i j) h2
    obtain ⟨h4, h5⟩ := good_of_fu hm1 hRC
    exact (sat_handOver h3 h4 (by omega)).mono (fun o'' h6 h7 => ⟨m1, h2, h7⟩) fun _ _ he => he

theorem makes_add (hS : S.Closed P A) {a b : MObj} {x y : Mat T} {R C R' C' : Nat} (ha : Is h a x) (hb : Is h b y) (hx : Fu P R C x) (hy : Fu P R' C' y)
    (hRC : R * C < 2 ^ 64) (hN : h.live + 2 * (R * C) ≤ N) :
    Makes L N h (Mat.add S x y) (add L S a b) ∧ Makes L N h (Mat.sub S x y) (sub L S a b) := by
  unfold add sub
  rw [ha.1, ha.2.1, hb.1, hb.2.1]
  by_cases he : x.rows = y.rows ∧ x.cols = y.cols
  · rw [if_neg (by simp [he.1, he.2]), if_neg (by simp [he.1, he.2]), hx.1, hx.2.1]
    rw [hx.1, hx.2.1, hy.1, hy.2.1] at he
    obtain ⟨rfl, rfl⟩ := he
    exact ⟨makes_local (body := fun r => do
        let x ← a.load
        let y ← b.load
        r.fill L (Mat.add S x y)) hRC hN (fun _ e => out_ok (Mat.add_fu hS hx hy) e)
        fun o' h1 hf Q X hs => sat_load (m := x) ⟨ha.1, ha.2.1, hf.keep ha.2.2⟩ (sat_load (m := y) ⟨hb.1, hb.2.1, hf.keep hb.2.2⟩ hs),
      makes_local (body := fun r => do
        let x ← a.load
        let y ← b.load
        r.fill L (Mat.sub S x y)) hRC hN (fun _ e => out_ok (Mat.sub_fu hS hx hy) e)
        fun o' h1 hf Q X hs => sat_load (m := x) ⟨ha.1, ha.2.1, hf.keep ha.2.2⟩ (sat_load (m := y) ⟨hb.1, hb.2.1, hf.keep hb.2.2⟩ hs)⟩
  · have hd : (!(x.rows == y.rows && x.cols == y.cols)) = true := by simp; tauto
    rw [if_pos hd, if_pos hd]
    unfold Mat.add Mat.sub Mat.dimensionsMatch
    rw [if_pos hd, if_pos hd]
    exact ⟨makes_throw _,
      makes_throw _⟩

theorem makes_augmented {a b : MObj} {x y : Mat T} {R C R' C' : Nat} (ha : Is h a x) (hb : Is h b y) (hx : Fu P R C x) (hy : Fu P R' C' y)
    (hC : C + C' < 2 ^ 64) (hRC : R * (C + C') < 2 ^ 64) (hN : h.live + 2 * (R * (C + C')) ≤ N) :
    Makes L N h (Mat.augmentedMatrix x y) (augmentedMatrix L a b) := by
  unfold augmentedMatrix
  rw [ha.1, ha.2.1, hb.1, hb.2.1]
  by_cases he : x.rows = y.rows
  · rw [if_neg (by simpa using he), hx.1, hx.2.1, hy.2.1, Nat.mod_eq_of_lt (show C + C' < sizeMod from hC)]
    rw [hx.1, hy.1] at he
    subst he
    exact makes_local (body := fun r => do
        let x ← a.load
        let y ← b.load
        r.fill L (Mat.augmentedMatrix x y)) hRC hN (fun _ e => out_ok (A := Never) (Mat.augmented_fu hx hy) e)
        fun o' h1 hf Q X hs => sat_load (m := x) ⟨ha.1, ha.2.1, hf.keep ha.2.2⟩ (sat_load (m := y) ⟨hb.1, hb.2.1, hf.keep hb.2.2⟩ hs)
  · rw [if_pos he]
    unfold Mat.augmentedMatrix
    rw [if_pos he]
    exact makes_throw _

theorem makes_mul (hS : S.Closed P A) {a b : MObj} {x y : Mat T} {R C R' C' : Nat} (ha : Is h a x) (hb : Is h b y) (hx : Fu P R C x) (hy : Fu P R' C' y)
    (hRC : R * C' < 2 ^ 64) (hN : h.live + 2 * (R * C') ≤ N) : Makes L N h (Mat.mul S x y) (mul L S a b) := by
  unfold mul
  rw [ha.1, ha.2.1, hb.1, hb.2.1]
  by_cases he : x.cols = y.rows
  · rw [if_neg (by simpa using he), hx.1, hy.2.1]
    have he' := he
    rw [hx.2.1, hy.1] at he'
    subst he'
    refine sat_zeros (hS.ofInt 0 (.inl rfl)) hRC (by omega) (fun e he2 => ?_) fun o h1 m0 hf h0 => ?_
    · unfold Mat.mul; rw [if_neg (by simpa using he), he2]; rfl
    · refine sat_giveBack (sat_load (m := x) ⟨ha.1, ha.2.1, hf.keep ha.2.2⟩ (sat_load (m := y) ⟨hb.1, hb.2.1, hf.keep hb.2.2⟩
        (fill_over hf (good_of_fu h0 hRC).1.1 fun m e => ?_))) fun m e => ?_
      · have := out_ok (Mat.mul_fu hS hx hy).1 e
        exact ⟨by rw [this.1, h0.1], by rw [this.2.1, h0.2.1]⟩
      · obtain ⟨h4, h5⟩ := good_of_fu (out_ok (Mat.mul_fu hS hx hy).1 e) hRC
        exact ⟨h4, by omega⟩
  · rw [if_pos he]
    unfold Mat.mul
    rw [if_pos he]
    exact makes_throw _

theorem makes_mulAssign (hS : S.Closed P A) {a b : MObj} {x y : Mat T} {R C R' C' : Nat} (ha : Is h a x) (hb : Is h b y) (hx : Fu P R C x) (hy : Fu P R' C' y)
    (hRC : R * C' < 2 ^ 64) (hN : h.live + R * C' ≤ N) : Makes L N h (Mat.mulAssign S x y) (mulAssign L S a b) := by
  unfold mulAssign
  rw [ha.1, ha.2.1, hb.1, hb.2.1]
  by_cases he : x.cols = y.rows
  · rw [if_neg (by simpa using he), hx.1, hy.2.1]
    have he' := he
    rw [hx.2.1, hy.1] at he'
    subst he'
    refine sat_zeros (hS.ofInt 0 (.inl rfl)) hRC hN (fun e he2 => ?_) fun o h1 m0 hf h0 => ?_
    · unfold Mat.mulAssign; rw [if_neg (by simpa using he), he2]; rfl
    · refine Sat.bind (sat_cleanup (sat_load (m := x) ⟨ha.1, ha.2.1, hf.keep ha.2.2⟩ (sat_load (m := y) ⟨hb.1, hb.2.1, hf.keep hb.2.2⟩
        (fill_over hf (good_of_fu h0 hRC).1.1 fun m e => ?_)))) fun _ h2 hq => Sat.pure hq
      have := out_ok (Mat.mul_fu hS hx hy).2 e
      exact ⟨by rw [this.1, h0.1], by rw [this.2.1, h0.2.1]⟩
  · rw [if_pos he]
    unfold Mat.mulAssign
    rw [if_pos he]
    exact makes_throw _

theorem makes_identity (hS : S.Closed P A) {n : Nat} (hn : n * n < 2 ^ 64) (hN : h.live + 2 * (n * n) ≤ N) :
    Makes L N h (Mat.identityMatrix S n) (identityMatrix L S n) := by
  refine sat_zeros (hS.ofInt 0 (.inl rfl)) hn (by omega) (fun e he2 => ?_) fun o h1 m0 hf h0 => ?_
  · unfold Mat.identityMatrix; rw [he2]; rfl
  · refine sat_giveBack (fill_over hf (good_of_fu h0 hn).1.1 fun m e => ?_) fun m e => ?_
    · have := out_ok (Mat.identity_fu hS n) e
      exact ⟨by rw [this.1, h0.1], by rw [this.2.1, h0.2.1]⟩
    · obtain ⟨h4, h5⟩ := good_of_fu (out_ok (Mat.identity_fu hS n) e) hn
      exact ⟨h4, by omega⟩

theorem makes_diagonal (hS : S.Closed P A) {vals : List T} {n : Nat} (hv : ∀ t ∈ vals, P t) (hl : n ≤ vals.length) (hn : n * n < 2 ^ 64)
    (hN : h.live + 2 * (n * n) ≤ N) : Makes L N h (Mat.diagonalMatrix S vals n) (diagonalMatrix L S vals n) := by
  refine sat_zeros (hS.ofInt 0 (.inl rfl)) hn (by omega) (fun e he2 => ?_) fun o h1 m0 hf h0 => ?_
  · unfold Mat.diagonalMatrix; rw [he2]; rfl
  · refine sat_giveBack (fill_over hf (good_of_fu h0 hn).1.1 fun m e => ?_) fun m e => ?_
    · have := out_ok (Mat.diagonal_fu hS hv hl) e
      exact ⟨by rw [this.1, h0.1], by rw [this.2.1, h0.2.1]⟩
    · obtain ⟨h4, h5⟩ := good_of_fu (out_ok (Mat.diagonal_fu hS hv hl) e) hn
      exact ⟨h4, by omega⟩

theorem makes_rref (hS : S.Closed P A) {R C : Nat} {o : MObj} {m : Mat T} (ho : Is h o m) (hm : Fu P R C m) (hRC : R * C < 2 ^ 64)
    (hN : h.live + 2 * (R * C) ≤ N) : Makes L N h (Mat.rref S m) (rref L S o) := by
  obtain ⟨h1, h2⟩ := good_of_fu hm hRC
  have hc : Mat.rref S m = Mat.inplaceRref S m := by
    unfold Mat.rref
    rw [(C72_copy_objects m m h1.1 h1.2.1).1]; rfl
  rw [hc]
  refine Sat.bind ((makes_copy (L := L) (N := N) ho h1 (by omega)).mono (fun _ _ h => h) fun e h' he => ⟨he.1.imp id fun he => (by cases he), he.2⟩) fun r h3 hq => ?_
  obtain ⟨m', h4, h5⟩ := hq
  cases h4
  refine sat_giveBack (sat_load h5.is (fill_over h5 h1.1 fun m' e => ?_)) fun m' e => ?_
  · have := out_ok (Mat.inplaceRref_fu hS hm) e
    exact ⟨by rw [this.1, hm.1], by rw [this.2.1, hm.2.1]⟩
  · obtain ⟨h4, h5⟩ := good_of_fu (out_ok (Mat.inplaceRref_fu hS hm) e) hRC
    exact ⟨h4, by omega⟩

/-- A local object in a free store that has changed since the object was made. -/
theorem sat_cleanup_base {h1 : MHeap T} {o : MObj} {B : Err → Prop} {K : MHeap T → Prop} {x : HM T α}
    (hx : Sat x h1 Q (fun e h' => Cause L N B e ∧ (Thrown e → ∃ hb, K hb ∧ Over L hb o h'))) :
    Sat (HM.cleanup x o.destroy) h1 Q (fun e h' => Cause L N B e ∧ (Thrown e → ∃ hb, K hb ∧ Clean L hb h')) := by
  refine Sat.cleanup hx (fun e h' he ht => ?_) fun e h' he ht => ⟨he.1, fun h => (ht h).elim⟩
  obtain ⟨hb, h2, h3⟩ := he.2 ht
  exact sat_destroy h3.2.1 fun h'' e2 => ⟨he.1, fun _ => ⟨hb, h2, h3.destroy e2⟩⟩

theorem inverse_eq (S : Scalar T) {m : Mat T} (hm : m.rows = m.cols) : Mat.inverse S m = (do
    let identity ← Mat.identityMatrix S m.rows
    let r ← Mat.augmentedMatrix m identity
    let r ← Mat.inplaceRref S r
    Mat.rightHalf S m.rows m.cols r identity) := by
  unfold Mat.inverse
  rw [if_neg (by simpa using hm)]
  rfl

theorem rightHalf_like (S : Scalar T) (R C : Nat) (r i : Mat T) : Out Mat.Any (Mat.rightHalf S R C r i) (Mat.Like R C) := by
  refine Mat.forEach_like (Mat.alloc_like R C) fun i j m hm => Mat.any_bind fun x => Mat.any_bind fun y => Mat.any_bind fun d => ?_
  split
  · exact Out.err trivial
  · exact Mat.any_bind fun t => Mat.set_like hm _ _ _

theorem makes_inverse (hS : S.Closed P A) {n C : Nat} {o : MObj} {m : Mat T} (ho : Is h o m) (hm : Fu P n C m) (hn : C + C < 2 ^ 64)
    (hn2 : n * (C + C) < 2 ^ 64) (hN : h.live + 5 * (n * C) ≤ N) : Makes L N h (Mat.inverse S m) (inverse L S o) := by
  unfold inverse
  rw [ho.1, ho.2.1]
  by_cases hsq : m.rows = m.cols
  swap
  · rw [if_pos hsq]
    unfold Mat.inverse
    rw [if_pos hsq]
    exact makes_throw _
  rw [if_neg (by simpa using hsq), inverse_eq S hsq]
  have hnC : n = C := by rw [hm.1, hm.2.1] at hsq; exact hsq
  subst hnC
  rw [hm.1, hm.2.1]
  have e2 : n * (n + n) = 2 * (n * n) := by ring
  have hnn : n * n < 2 ^ 64 := by omega
  have hI := Mat.identity_fu hS n
  refine Sat.bind ((makes_identity (L := L) (N := N) hS hnn (by omega)).mono (fun _ _ h => h) fun e h' he =>
    ⟨he.1.imp id fun he => by dsimp only at he; rw [he]; rfl, he.2⟩) fun t h1 hq => ?_
  obtain ⟨I, h2, h3⟩ := hq
  rw [h2, bind_ok]
  have hI2 := out_ok hI h2
  obtain ⟨hIg, hIs⟩ := good_of_fu hI2 hnn
  refine Sat.bind (sat_handOver h3 hIg (by omega)) fun id' h4 h5 => ?_
  refine sat_owned ?_
  have hx : Is h4 o m := ⟨ho.1, ho.2.1, h5.keep ho.2.2⟩
  have l4 := h5.live hIg.1
  refine Sat.bind ((makes_augmented (L := L) (N := N) hx h5.is hm hI2 hn hn2 (by omega)).mono (fun _ _ h => h)
    fun e h' he => FailsOver.of_fails (fun e he => by rw [he]; rfl) h5.over he) fun t2 h6 hq => ?_
  obtain ⟨G, h7, h8⟩ := hq
  rw [h7, bind_ok]
  have hG := out_ok (A := Never) (Mat.augmented_fu hm hI2) h7
  obtain ⟨hGg, hGs⟩ := good_of_fu hG hn2
  refine Sat.bind ((sat_handOver (B := fun _ => False) h8 hGg (by omega)).mono (fun _ _ h => h)
    fun e h' he => FailsOver.of_fails (fun e he => he.elim) h5.over he) fun r h9 h10 => ?_
  have l9 := h10.live hGg.1
  refine (sat_owned (h := h4) (N := N) (L := L) (B := fun e => (do
      let r ← Mat.inplaceRref S G
      Mat.rightHalf S n n r I) = .error e) (Q := fun o' h' => ∃ m', (do
      let r ← Mat.inplaceRref S G
      Mat.rightHalf S n n r I) = .ok m' ∧ Fresh h4 h' o' m') ?_).mono ?_ fun e h' he => FailsOver.of_fails (fun e he => he) h5.over he
  swap
  · rintro o' h' ⟨m', h11, h12⟩
    exact ⟨by rw [h12.keep h5.is.2.2]; simp, fun h13 e13 => ⟨m', h11, h5.swap h12 e13⟩⟩
  -- the third matrix
  refine Sat.bind (Q' := fun o' h' => Fresh h9 h' o' (Mat.alloc n n)) (sat_ctor hnn (by omega) (fun p h' hf => hf)
    fun hs => ⟨.inl ⟨rfl, .inr hs⟩, fun _ => h10.over⟩) fun res h11 h12 => ?_
  have hne : res.ptr ≠ r.ptr := fun e => by
    have := h12.2.2.1
    rw [e, h10.is.2.2] at this; cases this
  have hrr := Mat.inplaceRref_fu hS hG
  unfold giveBack
  -- what holds once `r` has been reduced
  refine Sat.bind (Q' := fun _ h' => ∃ G' R' hb, Mat.inplaceRref S G = .ok G' ∧ Mat.rightHalf S n n G' I = .ok R' ∧
    Fresh h4 hb r G' ∧ Fresh hb h' res R') ((sat_cleanup_base (L := L) (N := N) (K := Over L h4 r) (B := fun e => (do
      let r ← Mat.inplaceRref S G
      Mat.rightHalf S n n r I) = .error e) ?_).mono (fun _ _ h => h) ?_) ?_
  · refine sat_load (m := G) ⟨h10.1, h10.2.1, h12.keep h10.is.2.2⟩ ?_
    refine Sat.bind (Q' := fun _ h' => ∃ G' hb, Mat.inplaceRref S G = .ok G' ∧ Fresh h4 hb r G' ∧ Fresh hb h' res (Mat.alloc n n)) ?_ ?_
    · -- the loop on `r`
      unfold fill
      refine Sat.bind (Q' := fun _ h' => h' = h11) (Sat.onHeap (h' := h11) ?_ rfl) fun _ h' e => ?_
      · rw [view_eq_some.mp (h12.keep h10.is.2.2)]
        dsimp only
        rw [if_pos (by rw [h10.1, h10.2.1]; exact hGg.1)]
      subst e
      refine Sat.bind (Q' := fun _ h2 => h2 = h') (sat_interrupt rfl fun hi => ⟨.inl ⟨rfl, .inl hi⟩, fun _ => ⟨h9, h10.over, h12.over⟩⟩) fun _ h2 e => ?_
      subst e
      refine Sat.bind (Q' := fun G' h3 => Mat.inplaceRref S G = .ok G' ∧ h3 = h2) (Sat.lift (fun m hr => ⟨hr, rfl⟩)
        fun e hr => ⟨.inr (by rw [hr]; rfl), fun _ => ⟨h9, h10.over, h12.over⟩⟩) fun G' h3 hm3 => ?_
      obtain ⟨hr, rfl⟩ := hm3
      obtain ⟨h13, h14, h15⟩ := store_view (h := h3) (p := r.ptr) (by rw [h12.keep h10.is.2.2]; simp) G'.data
      obtain ⟨hb, -, h17⟩ := store_view (h := h9) (p := r.ptr) (by rw [h10.is.2.2]; simp) G'.data
      have hG' := out_ok hrr hr
      refine Sat.onHeap h14 ⟨G', hb, hr, ⟨by rw [h10.1, hG.1, hG'.1], by rw [h10.2.1, hG.2.1, hG'.2.1], h10.2.2.1, ?_⟩, h12.1, h12.2.1, ?_, ?_⟩
      · rw [h17, h10.2.2.2, Function.update_idem]
      · rw [h17, Function.update_of_ne hne]; exact h12.2.2.1
      · rw [h15, h12.2.2.2, h17, Function.update_comm hne]
    · rintro _ h13 ⟨G', hb, hr, h14, h15⟩
      refine sat_load (m := G') ⟨h14.1, h14.2.1, h15.keep h14.is.2.2⟩ (sat_load (m := I) ⟨h5.1, h5.2.1, h15.keep (h14.keep h5.is.2.2)⟩ ?_)
      refine (sat_fill h15 (alloc_sized n n) fun m' e => ?_).mono ?_ ?_
      · exact ⟨(out_ok (rightHalf_like S n n G' I) e).1, (out_ok (rightHalf_like S n n G' I) e).2.1⟩
      · rintro _ h16 ⟨R', h17, h18⟩
        exact ⟨G', R', hb, hr, h17, h14, h18⟩
      · rintro e h16 ⟨h17, h18⟩
        refine ⟨h17.imp (fun h => ⟨h.1, .inl h.2⟩) fun h => ?_, fun _ => ⟨hb, h14.over, h18⟩⟩
        rw [hr, bind_ok]; exact h
  · rintro e h' ⟨h13, h14⟩
    refine ⟨h13, fun ht => ?_⟩
    obtain ⟨hb, h15, h16⟩ := h14 ht
    exact h15.clean h16
  · rintro _ h13 ⟨G', R', hb, hr, h14, h15, h16⟩
    have hG' := out_ok hrr hr
    have hR' : Fu P n n R' := by
      have := Mat.inverse_fu hS hm
      rw [inverse_eq S hsq, hm.1, hm.2.1, h2, bind_ok, h7, bind_ok, hr, bind_ok] at this
      exact out_ok this h14
    obtain ⟨hRg, hRs⟩ := good_of_fu hR' hnn
    obtain ⟨hG'g, hG's⟩ := good_of_fu hG' hn2
    have lb := h15.live hG'g.1
    refine (sat_handOver (L := L) (N := N) (B := fun _ => False) h16 hRg (by omega)).mono ?_ ?_
    · intro o' h17 h18
      refine ⟨by rw [h18.keep h15.is.2.2]; simp, fun h19 e19 => ⟨R', by rw [hr, bind_ok]; exact h14, h15.swap h18 e19⟩⟩
    · rintro e h17 ⟨h18, h19⟩
      exact ⟨h18.imp id fun (h : False) => h.elim, fun ht => h15.over.clean (h19 ht)⟩

/-- The computation returns what `r` returns and leaves nothing behind, or fails as `r` does, or fails because memory runs out. -/
def Gives (L : Luck T) (N : Nat) (h : MHeap T) (r : Res α) (x : HM T α) : Prop :=
  Sat x h (fun a h' => r = .ok a ∧ h'.view = h.view) (Fails L N h (r = .error ·))

theorem gives_lift (r : Res α) : Gives L N h r (lift r) :=
  Sat.lift (fun _ e => ⟨e, rfl⟩) fun _ e => ⟨.inr e, fun _ => Clean.refl⟩

theorem Gives.congr {h' : MHeap T} {r : Res α} {x : HM T α} (e : h'.view = h.view) (hx : Gives L N h' r x) :
    Sat x h' (fun a h'' => r = .ok a ∧ h''.view = h.view) (Fails L N h (r = .error ·)) :=
  hx.mono (fun a h'' hq => ⟨hq.1, hq.2.trans e⟩) fun er h'' he => ⟨he.1, fun ht => by
    obtain ⟨h1, h2⟩ := he.2 ht
    exact ⟨fun p c hp => h1 p c (by rw [e]; exact hp), fun hi => (h2 hi).trans e⟩⟩

theorem gives_bind {r : Res β} {f : β → Res α} {x : HM T β} {g : β → HM T α} (hx : Gives L N h r x)
    (hf : ∀ b h', r = .ok b → h'.view = h.view → Gives L N h' (f b) (g b)) : Gives L N h (r >>= f) (x >>= g) := by
  refine Sat.bind (Q' := fun a h' => r = .ok a ∧ h'.view = h.view) (hx.mono (fun _ _ h => h) fun e h' he => ⟨he.1.imp id fun he => ?_, he.2⟩)
    fun b h' hb => ?_
  · dsimp only at he; rw [he]; rfl
  · rw [hb.1, bind_ok]; exact (hf b h' hb.1 hb.2).congr hb.2

theorem gives_interrupt {r : Res α} {x : HM T α} (hx : Gives L N h r x) : Gives L N h r (do interrupt L; x) :=
  Sat.bind (Q' := fun _ h' => h' = h) (sat_interrupt rfl fun hi => ⟨.inl ⟨rfl, .inl hi⟩, fun _ => Clean.refl⟩) fun _ h' e => by subst e; exact hx

theorem gives_load {o : MObj} {m : Mat T} (ho : Is h o m) {r : Res α} {f : Mat T → HM T α} (hf : Gives L N h r (f m)) : Gives L N h r (o.load >>= f) :=
  sat_load ho hf

theorem gives_forUp {σ : Type} {vb : Nat → σ → Res σ} {body : Nat → σ → HM T σ} (n : Nat) : ∀ (lo : Nat) (s : σ) (h' : MHeap T), h'.view = h.view →
    (∀ i s h', lo ≤ i → i < lo + n → h'.view = h.view → Gives L N h' (vb i s) (body i s)) →
    Gives L N h' (CppMaths.forUp lo n vb s) (HM.forUp lo n body s) := by
  induction n with
  | zero => exact fun _ s h' _ _ => Sat.pure ⟨rfl, rfl⟩
  | succ n ih =>
    intro lo s h' e hb
    exact gives_bind (hb lo s h' le_rfl (by omega) e) fun s' h'' _ e2 => ih (lo + 1) s' h'' (e2.trans e)
      fun i s h3 h4 h5 h6 => hb i s h3 (by omega) (by omega) h6

theorem Is.congr {h' : MHeap T} {o : MObj} {m : Mat T} (ho : Is h o m) (e : h'.view = h.view) : Is h' o m := ⟨ho.1, ho.2.1, by rw [e]; exact ho.2.2⟩

/-- A computation that makes a temporary matrix and uses it. -/
theorem gives_temp {r : Res (Mat T)} {f : Mat T → Res α} {x : HM T MObj} {g : MObj → HM T α} (hx : Makes L N h r x)
    (hg : ∀ o m h1, r = .ok m → Fresh h h1 o m → Gives L N h1 (f m) (g o)) :
    Gives L N h (r >>= f) (do
      let o ← x
      owned o (g o)) := by
  refine Sat.bind (hx.mono (fun _ _ h => h) fun e h' he => ⟨he.1.imp id fun he => ?_, he.2⟩) fun o h1 hq => ?_
  · dsimp only at he; rw [he]; rfl
  obtain ⟨m, h2, h3⟩ := hq
  rw [h2, bind_ok]
  refine sat_owned ((hg o m h1 h2 h3).mono (fun a h4 h5 => ?_) fun e h4 he => FailsOver.of_fails (fun _ h => h) h3.over he)
  refine ⟨by rw [h5.2, h3.is.2.2]; simp, fun h6 e6 => ⟨h5.1, ?_⟩⟩
  rw [e6, h5.2, h3.2.2.2, Function.update_idem, ← h3.2.2.1, Function.update_eq_self]

theorem gives_determinant {n C : Nat} {o : MObj} {m : Mat T} (ho : Is h o m) (hm : Fu P n C m) (hn : n * C < 2 ^ 64)
    (hN : h.live + n * C ≤ N) : Gives L N h (Mat.determinant S m) (determinant L S o) := by
  unfold determinant Mat.determinant
  rw [ho.1, ho.2.1]
  split
  · exact gives_lift _
  split
  · exact gives_load ho (gives_lift _)
  split
  · exact gives_load ho (gives_interrupt (gives_lift _))
  obtain ⟨h1, h2⟩ := good_of_fu hm hn
  rw [(C72_copy_objects m m h1.1 h1.2.1).1]
  exact gives_temp (f := Mat.detOf S) (makes_copy ho h1 (by omega)) fun o m h1 _ hf => gives_load hf.is (gives_interrupt (gives_lift _))

theorem cube_room {k N l : Nat} (hN : l + (k + 1) ^ 3 ≤ N) (hk : 2 ≤ k) : l + 2 * (k * k) ≤ N ∧ l + k * k + k ^ 3 ≤ N := by
  have : (k + 1) ^ 3 = k ^ 3 + 3 * (k * k) + 3 * k + 1 := by ring
  omega

theorem gives_rowCofactorF : ∀ (fuel n C : Nat) (h : MHeap T) (o : MObj) (m : Mat T), Is h o m → Fu P n C m → n * C < 2 ^ 64 →
    h.live + n ^ 3 ≤ N → Gives L N h (Mat.rowCofactorF S fuel m) (rowCofactorF L S fuel o) := by
  intro fuel
  induction fuel with
  | zero => intro n C h o m _ _ _ _; exact gives_lift _
  | succ fuel ih =>
    intro n C h o m ho hm hn hN
    unfold rowCofactorF Mat.rowCofactorF
    rw [ho.1, ho.2.1]
    split
    · exact gives_lift _
    split
    · exact gives_load ho (gives_lift _)
    split
    · exact gives_load ho (gives_interrupt (gives_lift _))
    next hsq h1 h2 =>
    have hsq' : n = C := by rw [hm.1, hm.2.1] at hsq; omega
    subst hsq'
    rw [hm.1] at h1 h2
    refine gives_interrupt (gives_bind (gives_lift _) fun z h3 _ e3 => gives_forUp (h := h3) _ 0 z h3 rfl fun j s h4 _ hj e4 => ?_)
    rw [hm.2.1] at hj
    have hlive : h4.live = h.live := live_congr (e4.trans e3)
    have ho4 : Is h4 o m := ho.congr (e4.trans e3)
    refine gives_interrupt (gives_load ho4 (gives_bind (gives_lift _) fun e h5 _ e5 => gives_bind (gives_lift _) fun nz h6 _ e6 => ?_))
    split
    · refine gives_bind (gives_lift _) fun e h7 _ e7 => ?_
      have e74 := e7.trans (e6.trans e5)
      have ho7 := ho4.congr e74
      have hl7 : h7.live = h.live := (live_congr e74).trans hlive
      obtain ⟨k, rfl⟩ : ∃ k, n = k + 1 := ⟨n - 1, by omega⟩
      have hk : k * k < 2 ^ 64 := by nlinarith
      obtain ⟨c1, c2⟩ := cube_room hN (by omega)
      refine gives_temp (f := fun sub => do
        let d ← Mat.rowCofactorF S fuel sub
        let p ← S.mul e d
        if (0 + j) % 2 = 1 then S.subA s p else S.addA s p) (makes_firstMinor ho7 hm hk (by rw [hl7]; exact c1) 0 j) fun t mt h8 hr hf => ?_
      have hmt := out_ok (A := Never) (Mat.firstMinor_fu hm 0 j) hr
      obtain ⟨g1, g2⟩ := good_of_fu hmt hk
      refine gives_bind (ih k k h8 t mt hf.is hmt hk (by rw [hf.live g1.1, hl7, g2]; exact c2)) fun d h9 _ e9 =>
        gives_interrupt (gives_bind (gives_lift _) fun p h10 _ e10 => ?_)
      split
      · exact gives_lift _
      · exact gives_lift _
    · exact Sat.pure ⟨rfl, rfl⟩

theorem gives_colCofactorF : ∀ (fuel n C : Nat) (h : MHeap T) (o : MObj) (m : Mat T), Is h o m → Fu P n C m → n * C < 2 ^ 64 →
    h.live + n ^ 3 ≤ N → Gives L N h (Mat.colCofactorF S fuel m) (colCofactorF L S fuel o) := by
  intro fuel
  induction fuel with
  | zero => intro n C h o m _ _ _ _; exact gives_lift _
  | succ fuel ih =>
    intro n C h o m ho hm hn hN
    unfold colCofactorF Mat.colCofactorF
    rw [ho.1, ho.2.1]
    split
    · exact gives_lift _
    split
    · exact gives_load ho (gives_lift _)
    split
    · exact gives_load ho (gives_interrupt (gives_lift _))
    next hsq h1 h2 =>
    have hsq' : n = C := by rw [hm.1, hm.2.1] at hsq; omega
    subst hsq'
    rw [hm.1] at h1 h2
    refine gives_interrupt (gives_bind (gives_lift _) fun z h3 _ e3 => gives_forUp (h := h3) _ 0 z h3 rfl fun j s h4 _ hj e4 => ?_)
    rw [hm.1] at hj
    have hlive : h4.live = h.live := live_congr (e4.trans e3)
    have ho4 : Is h4 o m := ho.congr (e4.trans e3)
    refine gives_interrupt (gives_load ho4 (gives_bind (gives_lift _) fun e h5 _ e5 => gives_bind (gives_lift _) fun nz h6 _ e6 => ?_))
    split
    · refine gives_bind (gives_lift _) fun e h7 _ e7 => ?_
      have e74 := e7.trans (e6.trans e5)
      have ho7 := ho4.congr e74
      have hl7 : h7.live = h.live := (live_congr e74).trans hlive
      obtain ⟨k, rfl⟩ : ∃ k, n = k + 1 := ⟨n - 1, by omega⟩
      have hk : k * k < 2 ^ 64 := by nlinarith
      obtain ⟨c1, c2⟩ := cube_room hN (by omega)
      refine gives_temp (f := fun sub => do
        let d ← Mat.colCofactorF S fuel sub
        let p ← S.mul e d
        if (j + 0) % 2 = 1 then S.subA s p else S.addA s p) (makes_firstMinor ho7 hm hk (by rw [hl7]; exact c1) j 0) fun t mt h8 hr hf => ?_
      have hmt := out_ok (A := Never) (Mat.firstMinor_fu hm j 0) hr
      obtain ⟨g1, g2⟩ := good_of_fu hmt hk
      refine gives_bind (ih k k h8 t mt hf.is hmt hk (by rw [hf.live g1.1, hl7, g2]; exact c2)) fun d h9 _ e9 =>
        gives_interrupt (gives_bind (gives_lift _) fun p h10 _ e10 => ?_)
      split
      · exact gives_lift _
      · exact gives_lift _
    · exact Sat.pure ⟨rfl, rfl⟩

end MObj
end CppMaths
