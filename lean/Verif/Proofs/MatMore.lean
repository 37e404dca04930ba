import Verif.Proofs.MatRref
import Verif.Proofs.Vec
/-!
# Special matrices, `inverse()`, scaling by an own entry, output
-/

namespace CppMaths
namespace Mat
variable {T K : Type} {rel : T → K → Prop} {A : Err → Prop} {S : Scalar T}

theorem diag_loop_ok {n : Nat} {r : Mat T} {v : Nat → K} {o : K} {e : Nat → Res T} (hr : Full rel r n n (fun _ _ => o))
    (he : ∀ i, i < n → Out A (e i) (fun t => rel t (v i))) :
    Out A (forUp 0 n (fun i r => do let t ← e i; r.set i i t) r)
      (fun m => Full rel m n n (fun i j => if i = j then v i else o)) := by
  have h := forUp_ok (A := A) (Inv := fun k m => Full rel m n n (fun i j => if i = j ∧ i < k then v i else o))
    (lo := 0) (n := n) (body := fun i r => do let t ← e i; r.set i i t) (s := r)
    (hr.weaken fun i j _ _ _ => ⟨trivial, by simp⟩) (fun k m _ hk hm => by
      refine Out.bind (he k (by omega)) fun t ht => ?_
      refine hm.set (by omega) (by omega) (by simpa using ht) fun i j _ _ _ hne => ⟨trivial, ?_⟩
      have : (i = j ∧ i < k + 1) ↔ (i = j ∧ i < k) := by omega
      simp only [this])
  rw [zero_add] at h
  refine h.mono fun m hm => hm.weaken fun i j hi _ _ => ⟨trivial, ?_⟩
  simp only [hi, and_true]

section
variable [CommRing K]

theorem diagonalMatrix_ok (hS : S.ExactRing rel A) {vals : List T} {n : Nat} {v : Nat → K}
    (hv : ∀ i, i < n → ∃ t, vals[i]? = some t ∧ rel t (v i)) :
    Out A (diagonalMatrix S vals n) (fun m => Full rel m n n (fun i j => if i = j then v i else 0)) := by
  refine Out.bind (hS.ofInt 0 (.inl rfl)) fun z hz => ?_
  rw [Int.cast_zero] at hz
  refine Out.bind (filled_ok hz) fun r hr => ?_
  refine diag_loop_ok (e := arrayAt vals) hr fun i hi => ?_
  obtain ⟨t, h1, h2⟩ := hv i hi
  exact .inl ⟨t, by simp [arrayAt, h1], h2⟩

theorem identityMatrix_ok (hS : S.ExactRing rel A) (n : Nat) :
    Out A (identityMatrix S n) (fun m => Full rel m n n (fun i j => if i = j then 1 else 0)) := by
  refine Out.bind (hS.ofInt 0 (.inl rfl)) fun z hz => ?_
  rw [Int.cast_zero] at hz
  refine Out.bind (filled_ok hz) fun r hr => ?_
  refine diag_loop_ok (v := fun _ => 1) (e := fun _ => S.ofInt 1) hr fun i hi => ?_
  simpa using hS.ofInt 1 (.inr (.inl rfl))

end

theorem augmentedMatrix_ok {a b : Mat T} {r c d : Nat} {F G : Nat → Nat → K} (ha : Full rel a r c F) (hb : Full rel b r d G) :
    Out A (augmentedMatrix a b) (fun m => Full rel m r (c + d) (fun i j => if j < c then F i j else G i (j - c))) := by
  unfold augmentedMatrix
  simp only [ha.1, ha.2.1, hb.1, hb.2.1, ne_eq, not_true_eq_false, if_false]
  let H : Nat → Nat → K := fun i j => if j < c then F i j else G i (j - c)
  have e := forUp_ok (A := A) (Inv := fun i m => On rel m r (c + d) (fun x _ => x < i) H) (lo := 0) (n := r)
    (body := fun i r => do
      let r ← forUp 0 c (fun j r => do
        let t ← a.get i j
        r.set i j t) r
      forUp 0 d (fun j r => do
        let t ← b.get i j
        r.set i (j + c) t) r) (s := alloc r (c + d))
    ((alloc_on r (c + d) H).weaken fun i j _ _ h => absurd h (by omega)) (fun i m _ hi hm => by
      have e1 := forUp_ok (A := A) (Inv := fun j m => On rel m r (c + d) (fun x y => x < i ∨ (x = i ∧ y < j)) H) (lo := 0) (n := c)
        (body := fun j r => do
          let t ← a.get i j
          r.set i j t) (s := m) (hm.weaken fun x y _ _ h => ⟨by omega, rfl⟩) (fun j m _ hj hm => by
            refine Out.bind (ha.get (show i < r by omega) (show j < c by omega) trivial) fun t ht => ?_
            have hj' : j < c := by omega
            refine hm.set (by omega) (by omega) (by simpa [H, hj'] using ht) fun x y _ _ h hne => ⟨by omega, rfl⟩)
      rw [zero_add] at e1
      refine Out.bind e1 fun m hm => ?_
      have e2 := forUp_ok (A := A) (Inv := fun j m => On rel m r (c + d) (fun x y => x < i ∨ (x = i ∧ y < j + c)) H) (lo := 0) (n := d)
        (body := fun j r => do
          let t ← b.get i j
          r.set i (j + c) t) (s := m) (hm.weaken fun x y _ _ h => ⟨by omega, rfl⟩) (fun j m _ hj hm => by
            refine Out.bind (hb.get (show i < r by omega) (show j < d by omega) trivial) fun t ht => ?_
            refine hm.set (by omega) (by omega) (by simpa [H] using ht) fun x y _ _ h hne => ⟨by omega, rfl⟩)
      rw [zero_add] at e2
      exact e2.mono fun m hm => hm.weaken fun x y _ hy h => ⟨by omega, rfl⟩)
  rw [zero_add] at e
  exact e.mono fun m hm => hm.weaken fun i j hi _ _ => ⟨hi, rfl⟩

section
variable [Field K]

theorem leftBlock_isRref {n c : Nat} {F : Nat → Nat → K} (h : IsRref (toM n c F)) {d : Nat} (hd : d ≤ c) : IsRref (toM n d F) := by
  have up : ∀ {i : Fin n} {j : Fin d}, Leads (toM n d F) i j → Leads (toM n c F) i (j.castLE hd) := fun {i j} h =>
    ⟨h.1, fun j' hj' => h.2 ⟨j'.val, by have : j'.val < j.val := hj'; omega⟩ hj'⟩
  refine ⟨fun {i j} hl => h.one (up hl), fun {i j i'} hl hne => h.alone (up hl) hne, fun {i i' j'} hlt hl => ?_⟩
  obtain ⟨j, hj, hl'⟩ := h.stairs hlt (up hl)
  have hjd : j.val < j'.val := hj
  exact ⟨⟨j.val, by omega⟩, hjd, hl'.1, fun q hq => hl'.2 (q.castLE hd) hq⟩

theorem inverse_ok (hS : S.ExactField rel A) {m : Mat T} {n : Nat} {M : Matrix (Fin n) (Fin n) K} (hm : Is rel m M) :
    Out (fun e => A e ∨ (e = .domainError ∧ M.det = 0)) (inverse S m)
      (fun m' => ∃ N : Matrix (Fin n) (Fin n) K, Is rel m' N ∧ M * N = 1 ∧ N * M = 1) := by
  have lift : ∀ {α : Type} {r : Res α} {P : α → Prop}, Out A r P → Out (fun e => A e ∨ (e = .domainError ∧ M.det = 0)) r P := by
    rintro α r P (h | ⟨e, h1, h2⟩)
    · exact .inl h
    · exact .inr ⟨e, h1, .inl h2⟩
  unfold inverse
  simp only [hm.1, hm.2.1, ne_eq, not_true_eq_false, if_false]
  refine Out.bind (lift (identityMatrix_ok hS.toExactRing n)) fun id1 hid => ?_
  refine Out.bind (lift (augmentedMatrix_ok hm.full hid)) fun aug haug => ?_
  refine Out.bind (lift (inplaceRref_ok hS (haug.is (M := toM n (n + n)
    (fun i j => if j < n then ext M i j else if i = j - n then (1 : K) else 0)) fun i j => rfl))) fun red hred => ?_
  obtain ⟨N, hN, ⟨P, Q, hPQ, hQP, hNP⟩, hR⟩ := hred
  -- the two halves of the reduced matrix
  let F := ext N
  have hF : Full rel red n (n + n) F := hN.full
  have hleft : toM n n F = P * M := by
    funext i j
    have hj : j.val < n + n := by have := j.2; omega
    have h1 : F i j = N i ⟨j, hj⟩ := by
      change ext N i j = _
      rw [ext_lt N i.2 hj]
    change F i j = _
    rw [h1, hNP, Matrix.mul_apply, Matrix.mul_apply]
    refine Finset.sum_congr rfl fun k _ => ?_
    simp only [toM, j.2, if_true, ext_fin]
  have hright : toM n n (fun i j => F i (j + n)) = P := by
    funext i j
    have hj : j.val + n < n + n := by have := j.2; omega
    have h1 : F i (j + n) = N i ⟨j + n, hj⟩ := by
      change ext N i (j + n) = _
      rw [ext_lt N i.2 hj]
    change F i (j + n) = _
    rw [h1, hNP, Matrix.mul_apply]
    have : ∀ k : Fin n, P i k * toM n (n + n) (fun i j => if j < n then ext M i j else if i = j - n then (1 : K) else 0) k ⟨j + n, hj⟩ =
        if k = j then P i k else 0 := by
      intro k
      simp only [toM, Nat.add_sub_cancel]
      rw [if_neg (by omega)]
      by_cases hk : k = j
      · simp [hk]
      · have : ¬(k : Nat) = j := fun h => hk (Fin.ext h)
        simp [hk, this]
    simp only [this, Finset.sum_ite_eq', Finset.mem_univ, if_true]
  have hNF : toM n (n + n) F = N := toM_ext N
  -- an invertible matrix leaves the identity on the left
  have hdet : M.det ≠ 0 → toM n n F = 1 := by
    intro hd
    have hu : IsUnit M.det := isUnit_iff_ne_zero.mpr hd
    have hrr : IsRref (toM n n F) := leftBlock_isRref (by rw [hNF]; exact hR) (by omega)
    refine hrr.unique isRref_one ?_
    rw [hleft]
    refine RowEquiv.of_det (P := M⁻¹ * Q) ?_ ?_
    · rw [Matrix.det_mul]
      refine IsUnit.mul (Matrix.isUnit_nonsing_inv_det M hu) ?_
      rw [isUnit_iff_ne_zero]
      intro h0
      have := congrArg Matrix.det hPQ
      rw [Matrix.det_mul, h0, mul_zero, Matrix.det_one] at this
      exact absurd this zero_ne_one
    · rw [Matrix.mul_assoc, ← Matrix.mul_assoc Q, hQP, Matrix.one_mul, Matrix.nonsing_inv_mul M hu]
  -- the loop that compares and copies
  have loop := forEach_ok (A := fun e => A e ∨ (e = .domainError ∧ M.det = 0)) (r := n) (c := n)
    (body := fun i j result => do
      let x ← red.get i j
      let y ← id1.get i j
      let d ← S.ne x y
      if d then .error .domainError
      else do
        let t ← red.get i (j + n)
        Mat.set result i j t) (s := alloc n n)
    (P := fun i j m => On rel m n n (Vis i j) (fun a b => F a (b + n)) ∧
      ∀ a b, a < n → b < n → Vis i j a b → F a b = if a = b then 1 else 0)
    ⟨(alloc_on n n F).weaken fun a b _ _ h => by unfold Vis at h; omega, fun a b _ _ h => by unfold Vis at h; omega⟩
    (fun i j s hi hj hs => by
      refine Out.bind (hF.get hi (show j < n + n by omega) trivial) fun x hx => ?_
      refine Out.bind (hid.get hi hj trivial) fun y hy => ?_
      refine Out.bind (lift (hS.ne hx hy)) fun d hd => ?_
      cases d with
      | true =>
        refine Out.err (.inr ⟨rfl, ?_⟩)
        by_contra h0
        refine hd.mp rfl ?_
        have := congrFun (congrFun (hdet h0) ⟨i, hi⟩) ⟨j, hj⟩
        rw [Matrix.one_apply] at this
        simpa [toM] using this
      | false =>
        have heq : F i j = if i = j then 1 else 0 := by
          by_contra h
          exact absurd (hd.mpr h) (by simp)
        simp only [Bool.false_eq_true, if_false]
        refine Out.bind (hF.get hi (show j + n < n + n by omega) trivial) fun t ht => ?_
        refine (hs.1.set (D' := Vis i (j + 1)) (G := fun a b => F a (b + n)) hi hj ht fun a b _ _ h hne => ⟨by unfold Vis at h ⊢; omega, rfl⟩).mono
          fun m' hm' => ⟨hm', fun a b ha hb hv => ?_⟩
        by_cases e : a = i ∧ b = j
        · obtain ⟨rfl, rfl⟩ := e
          exact heq
        · exact hs.2 a b ha hb (by unfold Vis at hv ⊢; omega))
    (fun i s _ hs => ⟨hs.1.weaken fun a b _ _ h => ⟨by unfold Vis at h ⊢; omega, rfl⟩, fun a b ha hb hv => hs.2 a b ha hb
      (by unfold Vis at hv ⊢; omega)⟩)
  refine Out.mono loop fun m' hm' => ?_
  have hfull : Full rel m' n n (fun a b => F a (b + n)) := hm'.1.weaken fun a b ha _ _ => ⟨.inl ha, rfl⟩
  have hone : P * M = 1 := by
    rw [← hleft]
    funext i j
    rw [Matrix.one_apply]
    simpa [toM, Fin.ext_iff] using hm'.2 i j i.2 j.2 (.inl i.2)
  refine ⟨P, hfull.is fun i j => ?_, mul_eq_one_comm.mp hone, hone⟩
  exact congrFun (congrFun hright i) j

end

/-! ### Scaling by an own entry -/

theorem mulAssignEntry_ok [CommRing K] (hM : S.ExactMulA rel A) {m : Mat T} {r c k l : Nat} {F : Nat → Nat → K} (hm : Full rel m r c F)
    (hk : k < r) (hl : l < c) :
    Out A (mulAssignEntry S m k l) (fun m => Full rel m r c (fun a b =>
      if Vis k (l + 1) a b then F a b * F k l else F a b * (F k l * F k l))) := by
  unfold mulAssignEntry mapLoop
  rw [hm.1, hm.2.1]
  refine pass_ok hm fun i j m' hi hj hm' => ?_
  refine Out.bind (hm'.get hi hj trivial) fun x hx => ?_
  refine Out.bind (On.get hm' hk hl (.inr trivial)) fun y hy => ?_
  refine Out.bind (hM hx hy) fun t ht => hm'.step hi hj ?_
  have hkl : Vis k (l + 1) k l := by unfold Vis; omega
  by_cases hv : Vis i j k l
  · have h1 : ¬Vis k (l + 1) i j := by unfold Vis at hv ⊢; omega
    rw [if_pos hv] at ht
    dsimp only at ht
    rw [if_pos hkl] at ht
    rwa [if_neg h1]
  · have h1 : Vis k (l + 1) i j := by unfold Vis at hv ⊢; omega
    rw [if_neg hv] at ht
    rwa [if_pos h1]

theorem divAssignEntry_ok [Field K] (hD : S.ExactDivA rel A) {m : Mat T} {r c k l : Nat} {F : Nat → Nat → K} (hm : Full rel m r c F)
    (hk : k < r) (hl : l < c) (hne : F k l ≠ 0) :
    Out A (divAssignEntry S m k l) (fun m => Full rel m r c (fun a b =>
      if Vis k (l + 1) a b then F a b / F k l else F a b)) := by
  unfold divAssignEntry mapLoop
  rw [hm.1, hm.2.1]
  refine pass_ok hm fun i j m' hi hj hm' => ?_
  refine Out.bind (hm'.get hi hj trivial) fun x hx => ?_
  refine Out.bind (On.get hm' hk hl (.inr trivial)) fun y hy => ?_
  have hkl : Vis k (l + 1) k l := by unfold Vis; omega
  by_cases hv : Vis i j k l
  · have h1 : ¬Vis k (l + 1) i j := by unfold Vis at hv ⊢; omega
    rw [if_pos hv] at hy
    dsimp only at hy
    rw [if_pos hkl, div_self hne] at hy
    refine Out.bind (hD hx hy one_ne_zero) fun t ht => hm'.step hi hj ?_
    rw [div_one] at ht
    rwa [if_neg h1]
  · have h1 : Vis k (l + 1) i j := by unfold Vis at hv ⊢; omega
    rw [if_neg hv] at hy
    refine Out.bind (hD hx hy hne) fun t ht => hm'.step hi hj ?_
    rwa [if_pos h1]

theorem setAllEntry_ok {m : Mat T} {r c k l : Nat} {F : Nat → Nat → K} (hm : Full rel m r c F)
    (hk : k < r) (hl : l < c) :
    Out A (setAllRef m (fun m => m.get k l)) (fun m => Full rel m r c (fun _ _ => F k l)) := by
  unfold setAllRef
  rw [hm.1, hm.2.1]
  refine pass_ok hm fun i j m' hi hj hm' => ?_
  refine Out.bind (On.get hm' hk hl (.inr trivial)) fun y hy => hm'.step hi hj ?_
  rwa [ite_self] at hy

/-! ### Matrices as objects -/

/-- The cell `(i, j)` of the buffer. -/
def cell (m : Mat T) (i j : Nat) : Option T := (m.data[i * m.cols + j]?).join

/-- A fully initialised matrix with its own cells. -/
theorem full_cell {m : Mat T} (hl : m.data.length = m.rows * m.cols) (h : ∀ o ∈ m.data, o ≠ none) :
    Full (fun t o => some t = o) m m.rows m.cols m.cell := by
  refine ⟨rfl, rfl, hl, fun i j hi hj _ => ?_⟩
  have hk := idx_lt hi hj
  rw [← hl] at hk
  obtain ⟨t, ht⟩ := Option.ne_none_iff_exists'.mp (h _ (List.getElem_mem hk))
  exact ⟨t, by rw [List.getElem?_eq_getElem hk, ht], by simp [cell, List.getElem?_eq_getElem hk, ht]⟩

/-- A matrix with the cells of `m` is `m`. -/
theorem eq_of_full_cell {m m' : Mat T} (hl : m.data.length = m.rows * m.cols) (h : ∀ o ∈ m.data, o ≠ none)
    (h' : Full (fun t o => some t = o) m' m.rows m.cols m.cell) : m' = m := by
  obtain ⟨h1, h2, h3, h4⟩ := h'
  cases m' with
  | mk r c d =>
  cases m with
  | mk r' c' d' =>
  simp only at h1 h2 h3 hl h
  subst h1 h2
  congr 1
  refine List.ext_getElem? fun k => ?_
  by_cases hk : k < r * c
  · have hc : 0 < c := by
      rcases Nat.eq_zero_or_pos c with h0 | h0
      · rw [h0] at hk; omega
      · exact h0
    have hi : k / c < r := by rw [Nat.div_lt_iff_lt_mul hc]; exact hk
    have e : k / c * c + k % c = k := Nat.div_add_mod' k c
    obtain ⟨t, t1, t2⟩ := h4 (k / c) (k % c) hi (Nat.mod_lt k hc) trivial
    simp only [cell] at t2
    rw [e] at t1 t2
    rw [t1]
    rw [← hl] at hk
    rw [List.getElem?_eq_getElem hk] at t2 ⊢
    obtain ⟨u, hu⟩ := Option.ne_none_iff_exists'.mp (h _ (List.getElem_mem hk))
    rw [hu] at t2 ⊢
    simp only [Option.join_some] at t2
    rw [t2]
  · rw [List.getElem?_eq_none (by omega), List.getElem?_eq_none (by omega)]

/-! ### Output -/

theorem ofFn_val {α : Type} {n : Nat} (f : Nat → α) : (List.ofFn fun i : Fin n => f i) = (List.range n).map f := by
  rw [List.ofFn_eq_map, ← List.map_coe_finRange_eq_range, List.map_map]
  rfl

theorem print_full (pr : T → List Char) {m : Mat T} {r c : Nat} {F : Nat → Nat → T} (hm : Full Eq m r c F) :
    m.print pr = .ok (['\n'].intercalate ((List.range r).map fun i =>
      ((List.range c).map fun j => pr (F i j) ++ [' ']).flatten)) := by
  let row : Nat → List Char := fun i => ((List.range c).map fun j => pr (F i j) ++ [' ']).flatten
  have main : Out Never (m.print pr) (fun out => out =
      ((List.range r).map fun i => row i ++ (if i < r - 1 then ['\n'] else [])).flatten) := by
    unfold print
    refine Out.bind (copy_ok hm) fun m hm => ?_
    rw [hm.1, hm.2.1]
    have e := forUp_ok (A := Never) (Inv := fun i out => out =
      ((List.range i).map fun i => row i ++ (if i < r - 1 then ['\n'] else [])).flatten) (lo := 0) (n := r)
      (body := fun i out => do
        let out ← forUp 0 c (fun j out => do
          let t ← m.get i j
          return out ++ pr t ++ [' ']) out
        return (if i < r - 1 then out ++ ['\n'] else out)) (s := []) rfl (fun i out _ hi hout => by
          have e := forUp_ok (A := Never) (Inv := fun j out' => out' =
            out ++ ((List.range j).map fun j => pr (F i j) ++ [' ']).flatten) (lo := 0) (n := c)
            (body := fun j out => do
              let t ← m.get i j
              return out ++ pr t ++ [' ']) (s := out) (by simp) (fun j out' _ hj hout' => by
                refine Out.bind (hm.get (show i < r by omega) (show j < c by omega) trivial) fun t ht => ?_
                refine Out.ok ?_
                rw [hout', ht, List.range_succ, List.map_append, List.flatten_append]
                simp)
          rw [zero_add] at e
          refine Out.bind e fun out' hout' => Out.ok ?_
          rw [hout', hout, List.range_succ, List.map_append, List.flatten_append]
          split <;> simp [row, *])
    rw [zero_add] at e
    exact e
  obtain ⟨out, h1, h2⟩ := main.never
  rw [h1, h2]
  rcases r with _ | r
  · simp [List.intercalate]
  · rw [List.range_succ, List.map_append, List.map_append, List.map_singleton, List.map_singleton, Vec.intercalate_snoc,
      List.flatten_append, List.map_map]
    congr 2
    · congr 1
      refine List.map_congr_left fun a ha => ?_
      rw [List.mem_range] at ha
      simp [row, ha]
    · simp [row]

theorem print_ok [Inhabited T] (pr : T → List Char) {m : Mat T} {r c : Nat} {M : Matrix (Fin r) (Fin c) T} (hm : Is Eq m M) :
    m.print pr = .ok (['\n'].intercalate (List.ofFn fun i => (List.ofFn fun j => pr (M i j) ++ [' ']).flatten)) := by
  let F : Nat → Nat → T := fun i j => if h : i < r ∧ j < c then M ⟨i, h.1⟩ ⟨j, h.2⟩ else default
  have hF : ∀ (i : Fin r) (j : Fin c), M i j = F i j := fun i j => by simp [F]
  have hfull : Full Eq m r c F := ⟨hm.1, hm.2.1, hm.2.2.1, fun i j hi hj _ => by
    obtain ⟨t, h1, h2⟩ := hm.2.2.2 ⟨i, hi⟩ ⟨j, hj⟩
    exact ⟨t, h1, by rw [h2]; simp [F, hi, hj]⟩⟩
  rw [print_full pr hfull]
  simp only [hF]
  rw [← ofFn_val (n := r)]
  congr 3
  funext i
  rw [← ofFn_val (n := c) (fun j => pr (F i j) ++ [' '])]

end Mat
end CppMaths
