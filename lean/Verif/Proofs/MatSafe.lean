import Verif.Spec.Safe
import Verif.Proofs.MatMore
/-!
# Memory safety of `Mat` for any scalar type
-/

namespace CppMaths

theorem Out.weakenErr {α : Type} {A B : Err → Prop} {r : Res α} {P : α → Prop} (h : Out A r P) (hAB : ∀ e, A e → B e) : Out B r P := by
  obtain ⟨a, rfl, ha⟩ | ⟨e, rfl, he⟩ := h
  · exact Out.ok ha
  · exact Out.err (hAB e he)

namespace Mat
variable {T : Type} {P : T → Prop} {A : Err → Prop} {S : Scalar T}

/-- The relation that only records `P`. -/
def U (P : T → Prop) : T → Unit → Prop := fun t _ => P t

/-- `Full` for `U P`. -/
abbrev Fu (P : T → Prop) (r c : Nat) (m : Mat T) : Prop := Full (U P) m r c (fun _ _ => ())

theorem all_iff {r c : Nat} {m : Mat T} : All P r c m ↔ Fu P r c m := by
  constructor
  · rintro ⟨h1, h2, h3, h4⟩
    refine ⟨h1, h2, h3, fun i j hi hj _ => ?_⟩
    have hl : i * c + j < m.data.length := by rw [h3]; exact idx_lt hi hj
    obtain ⟨t, t1, t2⟩ := h4 _ (List.getElem_mem hl)
    exact ⟨t, by rw [List.getElem?_eq_getElem hl, t1], t2⟩
  · rintro ⟨h1, h2, h3, h4⟩
    refine ⟨h1, h2, h3, fun o ho => ?_⟩
    obtain ⟨k, hk, rfl⟩ := List.getElem_of_mem ho
    have hc : 0 < c := by
      rcases Nat.eq_zero_or_pos c with rfl | hc
      · rw [h3, mul_zero] at hk; omega
      · exact hc
    obtain ⟨t, t1, t2⟩ := h4 (k / c) (k % c) (by rw [Nat.div_lt_iff_lt_mul hc]; omega) (Nat.mod_lt _ hc) trivial
    rw [Nat.div_add_mod' k c, List.getElem?_eq_getElem hk] at t1
    exact ⟨t, by simpa using t1, t2⟩

theorem Fu.get {r c i j : Nat} {m : Mat T} (h : Fu P r c m) (hi : i < r) (hj : j < c) : Out A (m.get i j) P :=
  On.get h hi hj trivial

theorem Fu.set {r c i j : Nat} {m : Mat T} (h : Fu P r c m) (hi : i < r) (hj : j < c) {t : T} (ht : P t) :
    Out A (m.set i j t) (Fu P r c) := On.set h hi hj ht fun _ _ _ _ _ _ => ⟨trivial, rfl⟩

theorem forUp_fu {r c n lo : Nat} {body : Nat → Mat T → Res (Mat T)} {m : Mat T} (h : Fu P r c m)
    (hb : ∀ i m, lo ≤ i → i < lo + n → Fu P r c m → Out A (body i m) (Fu P r c)) : Out A (forUp lo n body m) (Fu P r c) :=
  forUp_ok (Inv := fun _ => Fu P r c) h fun i m h1 h2 hm => hb i m h1 h2 hm

theorem forEach_fu {r c a b : Nat} {body : Nat → Nat → Mat T → Res (Mat T)} {m : Mat T} (h : Fu P r c m)
    (hb : ∀ i j m, i < a → j < b → Fu P r c m → Out A (body i j m) (Fu P r c)) : Out A (forEach a b body m) (Fu P r c) :=
  forUp_fu h fun i m _ hi hm => forUp_fu hm fun j m _ hj hm => hb i j m (by omega) (by omega) hm

theorem fill_fu {r c : Nat} {e : Nat → Nat → Res T} (he : ∀ i j, i < r → j < c → Out A (e i j) P) :
    Out A (forEach r c (fun i j m => do let t ← e i j; m.set i j t) (alloc r c)) (Fu P r c) :=
  fill_ok (rel := U P) (G := fun _ _ => ()) he

theorem neg_fu (hS : S.Closed P A) {r c : Nat} {m : Mat T} (h : Fu P r c m) : Out A (neg S m) (Fu P r c) := by
  unfold neg
  rw [h.1, h.2.1]
  have := fill_fu (A := A) (P := P) (r := r) (c := c) (e := fun i j => m.get i j >>= S.neg) fun i j hi hj => Out.bind (h.get hi hj) fun x hx => hS.neg hx
  simpa only [bind_assoc] using this

theorem add_fu (hS : S.Closed P A) {r c : Nat} {a b : Mat T} (ha : Fu P r c a) (hb : Fu P r c b) : Out A (add S a b) (Fu P r c) := by
  unfold add dimensionsMatch
  rw [ha.1, ha.2.1, hb.1, hb.2.1, if_neg (by simp)]
  have := fill_fu (A := A) (P := P) (r := r) (c := c) (e := fun i j => do
    let x ← a.get i j
    let y ← b.get i j
    S.add x y) fun i j hi hj => Out.bind (ha.get hi hj) fun x hx => Out.bind (hb.get hi hj) fun y hy => hS.add hx hy
  simpa only [bind_assoc] using this

theorem sub_fu (hS : S.Closed P A) {r c : Nat} {a b : Mat T} (ha : Fu P r c a) (hb : Fu P r c b) : Out A (sub S a b) (Fu P r c) := by
  unfold sub dimensionsMatch
  rw [ha.1, ha.2.1, hb.1, hb.2.1, if_neg (by simp)]
  have := fill_fu (A := A) (P := P) (r := r) (c := c) (e := fun i j => do
    let x ← a.get i j
    let y ← b.get i j
    S.sub x y) fun i j hi hj => Out.bind (ha.get hi hj) fun x hx => Out.bind (hb.get hi hj) fun y hy => hS.sub hx hy
  simpa only [bind_assoc] using this

theorem zipLoop_fu {op : T → T → Res T} (hop : ∀ {x y}, P x → P y → Out A (op x y) P) {r c : Nat} {a : Mat T} {src : Mat T → Mat T}
    (ha : Fu P r c a) (hs : ∀ m, Fu P r c m → Fu P r c (src m)) : Out A (zipLoop op a src) (Fu P r c) := by
  unfold zipLoop
  rw [ha.1, ha.2.1]
  exact forEach_fu ha fun i j m hi hj hm => Out.bind (hm.get hi hj) fun x hx => Out.bind ((hs m hm).get hi hj) fun y hy =>
    Out.bind (hop hx hy) fun t ht => hm.set hi hj ht

theorem mapLoop_fu {op : T → T → Res T} (hop : ∀ {x y}, P x → P y → Out A (op x y) P) {r c : Nat} {a : Mat T} {src : Mat T → Res T}
    (ha : Fu P r c a) (hs : ∀ m, Fu P r c m → Out A (src m) P) : Out A (mapLoop op a src) (Fu P r c) := by
  unfold mapLoop
  rw [ha.1, ha.2.1]
  exact forEach_fu ha fun i j m hi hj hm => Out.bind (hm.get hi hj) fun x hx => Out.bind (hs m hm) fun y hy =>
    Out.bind (hop hx hy) fun t ht => hm.set hi hj ht

theorem addAssignRef_fu (hS : S.Closed P A) {r c : Nat} {a : Mat T} {src : Mat T → Mat T}
    (ha : Fu P r c a) (hs : ∀ m, Fu P r c m → Fu P r c (src m)) : Out A (addAssignRef S a src) (Fu P r c) := by
  unfold addAssignRef dimensionsMatch
  rw [ha.1, ha.2.1, (hs a ha).1, (hs a ha).2.1, if_neg (by simp)]
  exact zipLoop_fu hS.addA ha hs

theorem subAssignRef_fu (hS : S.Closed P A) {r c : Nat} {a : Mat T} {src : Mat T → Mat T}
    (ha : Fu P r c a) (hs : ∀ m, Fu P r c m → Fu P r c (src m)) : Out A (subAssignRef S a src) (Fu P r c) := by
  unfold subAssignRef dimensionsMatch
  rw [ha.1, ha.2.1, (hs a ha).1, (hs a ha).2.1, if_neg (by simp)]
  exact zipLoop_fu hS.subA ha hs

theorem smul_fu (hS : S.Closed P A) {r c : Nat} {m : Mat T} {k : T} (hk : P k) (h : Fu P r c m) : Out A (smul S k m) (Fu P r c) := by
  unfold smul
  rw [h.1, h.2.1]
  have := fill_fu (A := A) (P := P) (r := r) (c := c) (e := fun i j => m.get i j >>= S.mul k) fun i j hi hj => Out.bind (h.get hi hj) fun x hx => hS.mul hk hx
  simpa only [bind_assoc] using this

theorem divScalar_fu (hS : S.Closed P A) {r c : Nat} {m : Mat T} {k : T} (hk : P k) (h : Fu P r c m) : Out A (divScalar S m k) (Fu P r c) := by
  unfold divScalar
  rw [h.1, h.2.1]
  have := fill_fu (A := A) (P := P) (r := r) (c := c) (e := fun i j => m.get i j >>= fun x => S.div x k) fun i j hi hj => Out.bind (h.get hi hj) fun x hx => hS.div hx hk
  simpa only [bind_assoc] using this

theorem setAll_fu {D : Nat → Nat → Prop} {r c : Nat} {m : Mat T} {k : T} (hk : P k) (h : On (U P) m r c D (fun _ _ => ())) :
    Out A (m.setAll k) (Fu P r c) := setAll_ok h hk

theorem filled_fu {r c : Nat} {k : T} (hk : P k) : Out A (filled r c k) (Fu P r c) := filled_ok (rel := U P) (k := ()) hk

theorem setEntries_fu {D : Nat → Nat → Prop} {r c size : Nat} {m : Mat T} {vals : List T} (h : On (U P) m r c D (fun _ _ => ()))
    (hv : ∀ t ∈ vals, P t) (hl : r * c ≤ vals.length) (hs : r * c ≤ size) : Out A (m.setEntries vals size) (Fu P r c) :=
  setEntries_ok h hs fun i j hi hj => by
    have hk : i * c + j < vals.length := lt_of_lt_of_le (idx_lt hi hj) hl
    exact ⟨vals[i * c + j], List.getElem?_eq_getElem hk, hv _ (List.getElem_mem hk)⟩

theorem mulLoop_fu (hS : S.Closed P A) {r n c : Nat} {a b m : Mat T} (ha : Fu P r n a) (hb : Fu P n c b) (hm : Fu P r c m) :
    Out A (forUp 0 r (fun i r => forUp 0 n (fun k r => forUp 0 c (fun j r => do
      let x ← a.get i k
      let y ← b.get k j
      let p ← S.mul x y
      let z ← r.get i j
      let t ← S.addA z p
      r.set i j t) r) r) m) (Fu P r c) :=
  forUp_fu hm fun i m _ hi hm => forUp_fu hm fun k m _ hk hm => forUp_fu hm fun j m _ hj hm => by
    rw [zero_add] at hi hj hk
    exact Out.bind (ha.get hi hk) fun x hx => Out.bind (hb.get hk hj) fun y hy =>
      Out.bind (hS.mul hx hy) fun p hp => Out.bind (hm.get hi hj) fun z hz => Out.bind (hS.addA hz hp) fun t ht =>
      hm.set hi hj ht

theorem mul_fu (hS : S.Closed P A) {r n c : Nat} {a b : Mat T} (ha : Fu P r n a) (hb : Fu P n c b) :
    Out A (mul S a b) (Fu P r c) ∧ Out A (mulAssign S a b) (Fu P r c) := by
  unfold mul mulAssign
  simp only [ha.1, ha.2.1, hb.1, hb.2.1, ne_eq, not_true_eq_false, if_false]
  exact ⟨Out.bind (hS.ofInt 0 (.inl rfl)) fun z hz => Out.bind (filled_fu hz) fun m hm => mulLoop_fu hS ha hb hm,
    Out.bind (hS.ofInt 0 (.inl rfl)) fun z hz => Out.bind (filled_fu hz) fun m hm => Out.bind (mulLoop_fu hS ha hb hm) fun m hm => Out.ok hm⟩

theorem eqRow_fu (hS : S.Closed P A) {a b : Mat T} {r c : Nat} (ha : Fu P r c a) (hb : Fu P r c b) {i : Nat} (hi : i < r) (k : Nat) :
    ∀ j, j + k = c → Out A (eqRow S a b i j k) (fun _ => True) := by
  induction k with
  | zero => intro j hj; exact Out.ok trivial
  | succ k ih =>
    intro j hj
    refine Out.bind (ha.get hi (by omega)) fun x hx => Out.bind (hb.get hi (by omega)) fun y hy => Out.bind (hS.ne hx hy) fun d _ => ?_
    cases d with
    | true => exact Out.ok trivial
    | false => exact ih (j + 1) (by omega)

theorem eqRows_fu (hS : S.Closed P A) {a b : Mat T} {r c : Nat} (ha : Fu P r c a) (hb : Fu P r c b) (k : Nat) :
    ∀ i, i + k = r → Out A (eqRows S a b i k) (fun _ => True) := by
  induction k with
  | zero => intro i hi; exact Out.ok trivial
  | succ k ih =>
    intro i hi
    unfold eqRows
    rw [ha.2.1]
    refine Out.bind (eqRow_fu hS ha hb (by omega) c 0 (by omega)) fun d _ => ?_
    cases d with
    | false => exact Out.ok trivial
    | true => exact ih (i + 1) (by omega)

theorem eq_fu (hS : S.Closed P A) {a b : Mat T} {r c r' c' : Nat} (ha : Fu P r c a) (hb : Fu P r' c' b) :
    Out A (eq S a b) (fun _ => True) := by
  unfold Mat.eq dimensionsMatch
  rw [ha.1, ha.2.1, hb.1, hb.2.1]
  by_cases h : r = r' ∧ c = c'
  · obtain ⟨rfl, rfl⟩ := h
    rw [if_neg (by simp)]
    exact eqRows_fu hS ha hb r 0 (by omega)
  · rw [if_pos (by simp; tauto)]
    exact Out.ok trivial

theorem firstMinor_fu {r c : Nat} {m : Mat T} (hm : Fu P (r + 1) (c + 1) m) (i j : Nat) : Out A (m.firstMinor i j) (Fu P r c) :=
  firstMinor_ok hm i j

theorem neZero_fu (hS : S.Closed P A) {t : T} (ht : P t) : Out A (neZero S t) (fun _ => True) :=
  Out.bind (hS.ofInt 0 (.inl rfl)) fun z hz => hS.ne ht hz

theorem eqZero_fu (hS : S.Closed P A) {t : T} (ht : P t) : Out A (eqZero S t) (fun _ => True) :=
  Out.bind (hS.ofInt 0 (.inl rfl)) fun z hz => hS.eq ht hz

theorem Fu.dataAt {r c k : Nat} {m : Mat T} (h : Fu P r c m) (hk : k < r * c) : Out A (m.dataAt k) P := by
  have hl : k < m.data.length := by rw [h.2.2.1]; exact hk
  obtain ⟨t, t1, t2⟩ := (all_iff.mpr h).2.2.2 _ (List.getElem_mem hl)
  unfold Mat.dataAt
  rw [List.getElem?_eq_getElem hl, t1]
  exact Out.ok t2

theorem det2_fu (hS : S.Closed P A) {m : Mat T} (h : Fu P 2 2 m) : Out A (det2 S m) P :=
  Out.bind (h.dataAt (by omega)) fun _ h0 => Out.bind (h.dataAt (by omega)) fun _ h3 => Out.bind (hS.mul h0 h3) fun _ hp =>
    Out.bind (h.dataAt (by omega)) fun _ h1 => Out.bind (h.dataAt (by omega)) fun _ h2 => Out.bind (hS.mul h1 h2) fun _ hq => hS.sub hp hq

theorem rowCofactorF_fu (hS : S.Closed P A) : ∀ (n fuel : Nat), n < fuel → ∀ (m : Mat T), Fu P n n m → Out A (rowCofactorF S fuel m) P := by
  intro n fuel
  induction fuel generalizing n with
  | zero => intro h; omega
  | succ fuel ih =>
    intro hn m hm
    unfold rowCofactorF
    rw [hm.1, hm.2.1, if_neg (by simp)]
    split
    · next h => subst h; exact hm.dataAt (by omega)
    · split
      · next h => subst h; exact det2_fu hS hm
      · refine Out.bind (hS.ofInt 0 (.inl rfl)) fun z hz => ?_
        refine forUp_ok (Inv := fun _ => P) hz fun j s _ hj hs => ?_
        refine Out.bind (hm.get (by omega) (by omega)) fun e he => Out.bind (neZero_fu hS he) fun nz _ => ?_
        cases nz with
        | false => exact Out.ok hs
        | true =>
          refine Out.bind (hm.get (by omega) (by omega)) fun e he => ?_
          obtain ⟨k, rfl⟩ : ∃ k, n = k + 1 := ⟨n - 1, by omega⟩
          refine Out.bind (firstMinor_fu hm 0 j) fun sub hsub => Out.bind (ih k (by omega) sub hsub) fun d hd =>
            Out.bind (hS.mul he hd) fun p hp => ?_
          split
          · exact hS.subA hs hp
          · exact hS.addA hs hp

theorem colCofactorF_fu (hS : S.Closed P A) : ∀ (n fuel : Nat), n < fuel → ∀ (m : Mat T), Fu P n n m → Out A (colCofactorF S fuel m) P := by
  intro n fuel
  induction fuel generalizing n with
  | zero => intro h; omega
  | succ fuel ih =>
    intro hn m hm
    unfold colCofactorF
    rw [hm.1, hm.2.1, if_neg (by simp)]
    split
    · next h => subst h; exact hm.dataAt (by omega)
    · split
      · next h => subst h; exact det2_fu hS hm
      · refine Out.bind (hS.ofInt 0 (.inl rfl)) fun z hz => ?_
        refine forUp_ok (Inv := fun _ => P) hz fun j s _ hj hs => ?_
        refine Out.bind (hm.get (by omega) (by omega)) fun e he => Out.bind (neZero_fu hS he) fun nz _ => ?_
        cases nz with
        | false => exact Out.ok hs
        | true =>
          refine Out.bind (hm.get (by omega) (by omega)) fun e he => ?_
          obtain ⟨k, rfl⟩ : ∃ k, n = k + 1 := ⟨n - 1, by omega⟩
          refine Out.bind (firstMinor_fu hm j 0) fun sub hsub => Out.bind (ih k (by omega) sub hsub) fun d hd =>
            Out.bind (hS.mul he hd) fun p hp => ?_
          split
          · exact hS.subA hs hp
          · exact hS.addA hs hp

theorem findPivot_fu (hS : S.Closed P A) {m : Mat T} {r c r0 : Nat} (hm : Fu P r c m) (hr0 : r0 < r) (fuel : Nat) :
    ∀ i p, r0 ≤ i → i < r → p < c → (c - 1 - p) * (r - r0) + (r - i) ≤ fuel →
    Out A (findPivot S m r0 fuel i p) (fun o => ∀ i' p', o = some (i', p') → i' < r ∧ p' < c) := by
  induction fuel with
  | zero => intro i p h1 h2 h3 h4; omega
  | succ fuel ih =>
    intro i p h1 h2 h3 h4
    unfold findPivot
    rw [hm.1, hm.2.1]
    refine Out.bind (hm.get h2 h3) fun e he => Out.bind (eqZero_fu hS he) fun z _ => ?_
    cases z with
    | false => exact Out.ok fun i' p' h => by cases h; exact ⟨h2, h3⟩
    | true =>
      simp only [if_true]
      by_cases h5 : r = i + 1
      · rw [if_pos h5]
        by_cases h6 : c = p + 1
        · rw [if_pos h6]
          exact Out.ok fun i' p' h => by cases h
        · rw [if_neg h6]
          have h7 : (c - 1 - p) = (c - 1 - (p + 1)) + 1 := by omega
          rw [h7, Nat.add_mul] at h4
          exact ih r0 (p + 1) le_rfl hr0 (by omega) (by omega)
      · rw [if_neg h5]
        exact ih (i + 1) p (by omega) (by omega) h3 (by omega)

theorem findPivot_start_fu (hS : S.Closed P A) {m : Mat T} {r c r0 p : Nat} (hm : Fu P r c m) (hr0 : r0 < r) (hp : p < c) :
    Out A (findPivot S m r0 (m.rows * m.cols + 1) r0 p) (fun o => ∀ i' p', o = some (i', p') → i' < r ∧ p' < c) := by
  rw [hm.1, hm.2.1]
  refine findPivot_fu hS hm hr0 _ r0 p le_rfl hr0 hp ?_
  have : (c - 1 - p) * (r - r0) + (r - r0) = (c - 1 - p + 1) * (r - r0) := by ring
  rw [this]
  have h2 : (c - 1 - p + 1) * (r - r0) ≤ c * r := Nat.mul_le_mul (by omega) (by omega)
  have h3 : c * r = r * c := by ring
  omega

theorem swapRows_fu {r c a b : Nat} {m : Mat T} (hm : Fu P r c m) (ha : a < r) (hb : b < r) : Out A (swapRows m a b) (Fu P r c) := by
  unfold swapRows
  rw [hm.2.1]
  split
  · refine forUp_fu hm fun k m _ hk hm => ?_
    rw [zero_add] at hk
    exact Out.bind (hm.get ha hk) fun x hx => Out.bind (hm.get hb hk) fun y hy => Out.bind (hm.set ha hk hy) fun m hm => hm.set hb hk hx
  · exact Out.ok hm

theorem scaleRow_fu (hS : S.Closed P A) {r c a p : Nat} {m : Mat T} (hm : Fu P r c m) (ha : a < r) (hp : p < c) :
    Out A (scaleRow S m a p) (Fu P r c) := by
  unfold scaleRow
  rw [hm.2.1]
  refine Out.bind (hm.get ha hp) fun v hv => forUp_fu hm fun k m _ hk hm => ?_
  rw [zero_add] at hk
  exact Out.bind (hm.get ha hk) fun x hx => Out.bind (hS.divA hx hv) fun t ht => hm.set ha hk ht

theorem clearColumn_fu (hS : S.Closed P A) {r c a p : Nat} {m : Mat T} (hm : Fu P r c m) (ha : a < r) (hp : p < c) :
    Out A (clearColumn S m a p) (Fu P r c) := by
  unfold clearColumn
  rw [hm.1]
  refine forUp_fu hm fun i m _ hi hm => ?_
  rw [zero_add] at hi
  split
  · rw [hm.2.1]
    refine Out.bind (hm.get hi hp) fun v hv => forUp_fu hm fun j m _ hj hm => ?_
    rw [zero_add] at hj
    exact Out.bind (hm.get ha hj) fun x hx => Out.bind (hS.mul hv hx) fun q hq => Out.bind (hm.get hi hj) fun y hy =>
      Out.bind (hS.subA hy hq) fun t ht => hm.set hi hj ht
  · exact Out.ok hm

theorem rrefLoop_fu (hS : S.Closed P A) {r c : Nat} (n : Nat) : ∀ (i p : Nat) (m : Mat T), i + n ≤ r → Fu P r c m →
    Out A (rrefLoop S n i p m) (Fu P r c) := by
  induction n with
  | zero => exact fun i p m _ h => Out.ok h
  | succ n ih =>
    intro i p m hi hm
    unfold rrefLoop
    split
    · exact Out.ok hm
    · next hp =>
      rw [hm.2.1] at hp
      refine Out.bind (findPivot_start_fu hS hm (by omega) (by omega)) fun f hf => ?_
      split
      · exact Out.ok hm
      · next i' p' =>
        obtain ⟨h1, h2⟩ := hf i' p' rfl
        exact Out.bind (swapRows_fu hm h1 (by omega)) fun m hm => Out.bind (scaleRow_fu hS hm (by omega) h2) fun m hm =>
          Out.bind (clearColumn_fu hS hm (by omega) h2) fun m hm => ih _ _ m (by omega) hm

theorem inplaceRref_fu (hS : S.Closed P A) {r c : Nat} {m : Mat T} (hm : Fu P r c m) : Out A (inplaceRref S m) (Fu P r c) := by
  unfold inplaceRref
  rw [hm.1]
  exact rrefLoop_fu hS r 0 0 m (by omega) hm

theorem detEliminate_fu (hS : S.Closed P A) {r c a p : Nat} {m : Mat T} (hm : Fu P r c m) (ha : a < r) (hp : p < c) :
    Out A (detEliminate S m a p) (Fu P r c) := by
  unfold detEliminate
  rw [hm.1]
  refine forUp_fu hm fun i m h1 h2 hm => ?_
  split
  · rw [hm.2.1]
    refine Out.bind (hm.get (by omega) hp) fun v hv => forUp_fu hm fun j m h3 h4 hm => ?_
    exact Out.bind (hm.get ha (by omega)) fun x hx => Out.bind (hS.mul hv hx) fun q hq => Out.bind (hm.get ha hp) fun d hd =>
      Out.bind (hS.div hq hd) fun q hq => Out.bind (hm.get (by omega) (by omega)) fun y hy =>
      Out.bind (hS.subA hy hq) fun t ht => hm.set (by omega) (by omega) ht
  · exact Out.ok hm

theorem detLoop_fu (hS : S.Closed P A) {r c : Nat} (n : Nat) : ∀ (i p : Nat) (f : T) (m : Mat T), i + n ≤ r → P f → Fu P r c m →
    Out A (detLoop S n i p f m) (fun s => P s.1 ∧ Fu P r c s.2) := by
  induction n with
  | zero => exact fun i p f m _ hf h => Out.ok ⟨hf, h⟩
  | succ n ih =>
    intro i p f m hi hf hm
    unfold detLoop
    split
    · exact Out.ok ⟨hf, hm⟩
    · next hp =>
      rw [hm.2.1] at hp
      refine Out.bind (findPivot_start_fu hS hm (by omega) (by omega)) fun fo hfo => ?_
      split
      · exact Out.ok ⟨hf, hm⟩
      · next i' p' =>
        obtain ⟨h1, h2⟩ := hfo i' p' rfl
        refine Out.bind (P := fun s => P s.1 ∧ Fu P r c s.2) ?_ fun s hs => ?_
        · split
          · exact Out.bind (swapRows_fu hm h1 (by omega)) fun m hm => Out.bind (hS.ofInt (-1) (by simp)) fun z hz =>
              Out.bind (hS.mulA hf hz) fun f hf => Out.ok ⟨hf, hm⟩
          · exact Out.ok ⟨hf, hm⟩
        · exact Out.bind (detEliminate_fu hS hs.2 (by omega) h2) fun m hm => ih _ _ _ m (by omega) hs.1 hm

theorem copy_fu {r c : Nat} {m : Mat T} (hm : Fu P r c m) : Out A m.copy (Fu P r c) := copy_ok hm

theorem determinant_fu (hS : S.Closed P A) {n : Nat} {m : Mat T} (hm : Fu P n n m) : Out A (determinant S m) P := by
  unfold determinant
  rw [hm.1, hm.2.1, if_neg (by simp)]
  split
  · next h => subst h; exact hm.dataAt (by omega)
  · split
    · next h => subst h; exact det2_fu hS hm
    · refine Out.bind (copy_fu hm) fun tmp ht => Out.bind (hS.ofInt 1 (by simp)) fun f hf => ?_
      rw [ht.1]
      refine Out.bind (detLoop_fu hS n 0 0 f tmp (by omega) hf ht) fun s hs => Out.bind (hS.ofInt 1 (by simp)) fun p hp => ?_
      rw [hs.2.1]
      refine Out.bind (P := P) (forUp_ok (Inv := fun _ => P) hp fun i q _ hi hq => ?_) fun p hp => hS.div hp hs.1
      exact Out.bind (hs.2.get (by omega) (by omega)) fun x hx => hS.mulA hq hx

theorem trace_fu (hS : S.Closed P A) {n : Nat} {m : Mat T} (hm : Fu P n n m) : Out A (trace S m) P := by
  unfold trace
  rw [hm.1, hm.2.1, if_neg (by simp)]
  refine Out.bind (hS.ofInt 0 (by simp)) fun z hz => forUp_ok (Inv := fun _ => P) hz fun i q _ hi hq => ?_
  exact Out.bind (hm.get (by omega) (by omega)) fun x hx => hS.addA hq hx

theorem transpose_fu {r c : Nat} {m : Mat T} (hm : Fu P r c m) : Out A m.transpose (Fu P c r) := transpose_ok hm

theorem augmented_fu {r c d : Nat} {a b : Mat T} (ha : Fu P r c a) (hb : Fu P r d b) : Out A (augmentedMatrix a b) (Fu P r (c + d)) :=
  (augmentedMatrix_ok ha hb).mono fun m hm => hm.weaken fun _ _ _ _ _ => ⟨trivial, rfl⟩

theorem identity_fu (hS : S.Closed P A) (n : Nat) : Out A (identityMatrix S n) (Fu P n n) :=
  Out.bind (hS.ofInt 0 (by simp)) fun z hz => Out.bind (filled_fu hz) fun m hm => forUp_fu hm fun i m _ hi hm =>
    Out.bind (hS.ofInt 1 (by simp)) fun t ht => hm.set (by omega) (by omega) ht

theorem diagonal_fu (hS : S.Closed P A) {vals : List T} (hv : ∀ t ∈ vals, P t) {n : Nat} (hn : n ≤ vals.length) :
    Out A (diagonalMatrix S vals n) (Fu P n n) := by
  refine Out.bind (hS.ofInt 0 (by simp)) fun z hz => Out.bind (filled_fu hz) fun m hm => forUp_fu hm fun i m _ hi hm => ?_
  have hk : i < vals.length := by omega
  unfold arrayAt
  rw [List.getElem?_eq_getElem hk]
  exact hm.set (by omega) (by omega) (hv _ (List.getElem_mem hk))

theorem inverse_fu (hS : S.Closed P A) {n : Nat} {m : Mat T} (hm : Fu P n n m) : Out (OrDomain A) (inverse S m) (Fu P n n) := by
  unfold inverse
  rw [hm.1, hm.2.1, if_neg (by simp)]
  have up : ∀ {α : Type} {r : Res α} {Q : α → Prop}, Out A r Q → Out (OrDomain A) r Q := fun h => h.weakenErr fun e he => .inl he
  refine Out.bind (up (identity_fu hS n)) fun idm hid => Out.bind (up (augmented_fu hm hid)) fun r hr =>
    Out.bind (up (inplaceRref_fu hS hr)) fun r hr => ?_
  refine pass_ok (rel := U P) (G := fun _ _ => ()) (alloc_on n n fun _ _ => ()) fun i j m' hi hj hm' => ?_
  refine Out.bind (hr.get hi (by omega)) fun x hx => Out.bind (hid.get hi hj) fun y hy => Out.bind (up (hS.ne hx hy)) fun d _ => ?_
  split
  · exact Out.err (.inr rfl)
  · exact Out.bind (hr.get hi (by omega)) fun t ht => hm'.step hi hj ht

end Mat
end CppMaths
