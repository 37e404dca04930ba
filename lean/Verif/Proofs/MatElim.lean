import Verif.Proofs.MatCofactor
/-!
# The row operations of `determinant()` and `inplace_rref()`
-/

namespace CppMaths
namespace Mat
variable {T K : Type} {rel : T → K → Prop} {A : Err → Prop} {S : Scalar T}

/-- Rows `a` and `b` exchanged. -/
def swapF (F : Nat → Nat → K) (a b : Nat) : Nat → Nat → K :=
  fun i j => if i = a then F b j else if i = b then F a j else F i j

theorem swapRows_ok {m : Mat T} {r c : Nat} {F : Nat → Nat → K} (hm : Full rel m r c F) {a b : Nat} (ha : a < r) (hb : b < r) :
    Out A (m.swapRows a b) (fun m => Full rel m r c (swapF F a b)) := by
  unfold swapRows
  by_cases hab : a = b
  · rw [if_neg (by simpa using hab)]
    subst hab
    refine Out.ok (hm.weaken fun i j _ _ _ => ⟨trivial, ?_⟩)
    unfold swapF
    by_cases h : i = a
    · rw [if_pos h, h]
    · rw [if_neg h, if_neg h]
  · rw [if_pos hab, hm.2.1]
    have e := forUp_ok (A := A) (Inv := fun k m => Full rel m r c (fun i j => if j < k then swapF F a b i j else F i j))
      (lo := 0) (n := c)
      (body := fun k m => do
        let x ← m.get a k
        let y ← m.get b k
        let m ← m.set a k y
        m.set b k x) (s := m) (hm.weaken fun i j _ _ _ => ⟨trivial, by simp⟩) (fun k m _ hk hm => by
          refine Out.bind (hm.get ha (by omega) trivial) fun x hx => ?_
          refine Out.bind (hm.get hb (by omega) trivial) fun y hy => ?_
          rw [if_neg (by omega)] at hx hy
          refine Out.bind (hm.set (D' := fun _ _ => True)
            (G := fun i j => if j < k then swapF F a b i j else if i = a ∧ j = k then F b k else F i j)
            ha (by omega) ?_ ?_) fun m hm => ?_
          · simpa using hy
          · intro i j _ _ _ hne
            rw [if_neg hne]
            exact ⟨trivial, rfl⟩
          · refine hm.set hb (by omega) ?_ ?_
            · have : ¬b = a := fun h => hab h.symm
              simpa [swapF, this] using hx
            · intro i j _ _ _ hne
              refine ⟨trivial, ?_⟩
              by_cases h1 : j < k
              · rw [if_pos h1, if_pos (by omega)]
              · rw [if_neg h1]
                by_cases h2 : j = k
                · subst h2
                  have h3 : ¬i = b := fun h => hne ⟨h, rfl⟩
                  by_cases h4 : i = a
                  · simp [swapF, h4]
                  · simp [swapF, h3, h4]
                · rw [if_neg (by omega), if_neg (by omega)])
    rw [zero_add] at e
    refine e.mono fun m hm => hm.weaken fun i j _ hj _ => ⟨trivial, by rw [if_pos hj]⟩

/-- What the search for a pivot finds: `(i', q)` is the first nonzero entry, column by column from column `p` on, in the rows
from `r0` on (in column `p` from row `i` on). -/
def Found [Zero K] (F : Nat → Nat → K) (r c r0 i p : Nat) : Option (Nat × Nat) → Prop
  | none => (∀ k, i ≤ k → k < r → F k p = 0) ∧ ∀ q, p < q → q < c → ∀ k, r0 ≤ k → k < r → F k q = 0
  | some (i', q) => r0 ≤ i' ∧ i' < r ∧ p ≤ q ∧ q < c ∧ F i' q ≠ 0 ∧
      (p < q → ∀ k, i ≤ k → k < r → F k p = 0) ∧
      (∀ q', p < q' → q' < q → ∀ k, r0 ≤ k → k < r → F k q' = 0)

theorem findPivot_of [Zero K] (hS : ∀ {x : T} {k : K}, rel x k → Out A (eqZero S x) (fun d => d = true ↔ k = 0))
    {m : Mat T} {r c r0 : Nat} {F : Nat → Nat → K} (hm : Full rel m r c F) (hr0 : r0 < r) (fuel : Nat) : ∀ i p, r0 ≤ i → i < r → p < c → (c - 1 - p) * (r - r0) + (r - i) ≤ fuel →
    Out A (findPivot S m r0 fuel i p) (Found F r c r0 i p) := by
  induction fuel with
  | zero => intro i p h1 h2 h3 h4; omega
  | succ fuel ih =>
    intro i p h1 h2 h3 h4
    unfold findPivot
    rw [hm.1, hm.2.1]
    refine Out.bind (hm.get h2 h3 trivial) fun e he => ?_
    refine Out.bind (hS he) fun z hz => ?_
    cases z with
    | false =>
      have hne : F i p ≠ 0 := fun h => absurd (hz.mpr h) (by simp)
      exact Out.ok ⟨h1, h2, le_rfl, h3, hne, fun h => absurd h (lt_irrefl p), fun q' h5 h6 => by omega⟩
    | true =>
      have h0 : F i p = 0 := hz.mp rfl
      simp only [if_true]
      by_cases h5 : r = i + 1
      · rw [if_pos h5]
        have hcol : ∀ k, i ≤ k → k < r → F k p = 0 := fun k h6 h7 => by
          obtain rfl : k = i := by omega
          exact h0
        by_cases h6 : c = p + 1
        · rw [if_pos h6]
          exact Out.ok ⟨hcol, fun q h7 h8 => by omega⟩
        · rw [if_neg h6]
          have h7 : (c - 1 - p) = (c - 1 - (p + 1)) + 1 := by omega
          rw [h7, Nat.add_mul] at h4
          refine (ih r0 (p + 1) le_rfl hr0 (by omega) (by omega)).mono fun o ho => ?_
          match o, ho with
          | none, ho =>
            refine ⟨hcol, fun q h8 h9 k h10 h11 => ?_⟩
            by_cases h12 : q = p + 1
            · subst h12; exact ho.1 k h10 h11
            · exact ho.2 q (by omega) h9 k h10 h11
          | some (i', q), ho =>
            obtain ⟨a1, a2, a3, a4, a5, a6, a7⟩ := ho
            refine ⟨a1, a2, by omega, a4, a5, fun _ => hcol, fun q' b1 b2 k b3 b4 => ?_⟩
            by_cases h12 : q' = p + 1
            · subst h12; exact a6 b2 k b3 b4
            · exact a7 q' (by omega) b2 k b3 b4
      · rw [if_neg h5]
        refine (ih (i + 1) p (by omega) (by omega) h3 (by omega)).mono fun o ho => ?_
        have hcol : (∀ k, i + 1 ≤ k → k < r → F k p = 0) → ∀ k, i ≤ k → k < r → F k p = 0 := fun h k h6 h7 => by
          rcases h6.eq_or_lt with h8 | h8
          · exact h8 ▸ h0
          · exact h k h8 h7
        match o, ho with
        | none, ho => exact ⟨hcol ho.1, ho.2⟩
        | some (i', q), ho =>
          obtain ⟨a1, a2, a3, a4, a5, a6, a7⟩ := ho
          exact ⟨a1, a2, a3, a4, a5, fun h => hcol (a6 h), a7⟩

/-- The search as it is started: from row `r0` on. -/
theorem findPivot_start_of [Zero K] (hS : ∀ {x : T} {k : K}, rel x k → Out A (eqZero S x) (fun d => d = true ↔ k = 0))
    {m : Mat T} {r c r0 p : Nat} {F : Nat → Nat → K} (hm : Full rel m r c F) (hr0 : r0 < r) (hp : p < c) :
    Out A (findPivot S m r0 (m.rows * m.cols + 1) r0 p) (Found F r c r0 r0 p) := by
  rw [hm.1, hm.2.1]
  refine findPivot_of hS hm hr0 _ r0 p le_rfl hr0 hp ?_
  have : (c - 1 - p) * (r - r0) + (r - r0) = (c - 1 - p + 1) * (r - r0) := by ring
  rw [this]
  have h2 : (c - 1 - p + 1) * (r - r0) ≤ c * r := Nat.mul_le_mul (by omega) (by omega)
  have h3 : c * r = r * c := by ring
  omega

theorem findPivot_start [CommRing K] (hS : S.ExactRing rel A) {m : Mat T} {r c r0 p : Nat} {F : Nat → Nat → K}
    (hm : Full rel m r c F) (hr0 : r0 < r) (hp : p < c) :
    Out A (findPivot S m r0 (m.rows * m.cols + 1) r0 p) (Found F r c r0 r0 p) :=
  findPivot_start_of (eqZero_ok hS) hm hr0 hp

/-- The scaling of a row, when it is known what the divisions yield. -/
theorem scaleRow_of {m : Mat T} {r c : Nat} {F G : Nat → Nat → K} (hm : Full rel m r c F) {a p : Nat} (ha : a < r) (hp : p < c)
    (hdiv : ∀ j < c, ∀ {x v}, rel x (F a j) → rel v (F a p) → Out A (S.divA x v) (fun t => rel t (G a j)))
    (hG : ∀ i j, i ≠ a → G i j = F i j) : Out A (scaleRow S m a p) (fun m => Full rel m r c G) := by
  unfold scaleRow
  refine Out.bind (hm.get ha hp trivial) fun v hv => ?_
  rw [hm.2.1]
  have e := forUp_ok (A := A) (Inv := fun k m => Full rel m r c (fun i j => if j < k then G i j else F i j))
    (lo := 0) (n := c)
    (body := fun j m => do
      let x ← m.get a j
      let t ← S.divA x v
      m.set a j t) (s := m) (hm.weaken fun i j _ _ _ => ⟨trivial, by simp⟩) (fun k m _ hk hm => by
        refine Out.bind (hm.get ha (by omega) trivial) fun x hx => ?_
        rw [if_neg (by omega)] at hx
        refine Out.bind (hdiv k (by omega) hx hv) fun t ht => ?_
        refine hm.set ha (by omega) ?_ fun i j _ _ _ hne => ⟨trivial, ?_⟩
        · rw [if_pos (by omega)]; exact ht
        · by_cases h1 : j < k
          · rw [if_pos h1, if_pos (by omega)]
          · rw [if_neg h1]
            by_cases h2 : j = k
            · have h3 : ¬i = a := fun h => hne ⟨h, h2⟩
              rw [if_pos (by omega), hG i j h3]
            · rw [if_neg (by omega)])
  rw [zero_add] at e
  exact e.mono fun m hm => hm.weaken fun i j _ hj _ => ⟨trivial, by rw [if_pos hj]⟩

/-- Clearing a column, when it is known what the multiplications and subtractions yield. -/
theorem clearColumn_of {m : Mat T} {r c : Nat} {F G : Nat → Nat → K} (hm : Full rel m r c F) {a p : Nat} (ha : a < r) (hp : p < c)
    (hop : ∀ i < r, i ≠ a → ∀ j < c, ∀ {v x y}, rel v (F i p) → rel x (F a j) → rel y (F i j) →
      Out A (do let q ← S.mul v x; S.subA y q) (fun t => rel t (G i j)))
    (hG : ∀ j, G a j = F a j) : Out A (clearColumn S m a p) (fun m => Full rel m r c G) := by
  unfold clearColumn
  rw [hm.1]
  have e := forUp_ok (A := A) (Inv := fun k m => Full rel m r c (fun i j => if i < k then G i j else F i j))
    (lo := 0) (n := r)
    (body := fun i m => if i ≠ a then do
        let val ← m.get i p
        forUp 0 m.cols (fun j m => do
          let x ← m.get a j
          let p ← S.mul val x
          let y ← m.get i j
          let t ← S.subA y p
          m.set i j t) m
      else .ok m) (s := m) (hm.weaken fun i j _ _ _ => ⟨trivial, by simp⟩) (fun k m _ hk hm => by
        by_cases hka : k = a
        · rw [if_neg (by simpa using hka)]
          refine Out.ok (hm.weaken fun i j _ _ _ => ⟨trivial, ?_⟩)
          by_cases h1 : i < k
          · rw [if_pos h1, if_pos (by omega)]
          · rw [if_neg h1]
            by_cases h2 : i = a
            · rw [if_pos (by omega), h2, hG]
            · rw [if_neg (by omega)]
        · rw [if_pos hka]
          refine Out.bind (hm.get (by omega) hp trivial) fun v hv => ?_
          rw [if_neg (by omega)] at hv
          rw [hm.2.1]
          have e := forUp_ok (A := A) (Inv := fun l m => Full rel m r c (fun i j =>
              if i < k ∨ (i = k ∧ j < l) then G i j else F i j)) (lo := 0) (n := c)
            (body := fun j m => do
              let x ← m.get a j
              let p ← S.mul v x
              let y ← m.get k j
              let t ← S.subA y p
              m.set k j t) (s := m) (hm.weaken fun i j _ _ _ => ⟨trivial, by simp⟩) (fun l m _ hl hm => by
                refine Out.bind (hm.get ha (show l < c by omega) trivial) fun x hx => ?_
                have hx : rel x (F a l) := by
                  by_cases h : a < k ∨ (a = k ∧ l < l)
                  · rw [if_pos h, hG] at hx; exact hx
                  · rwa [if_neg h] at hx
                obtain ⟨y, hg, hy⟩ : ∃ y, m.get k l = .ok y ∧ rel y (F k l) := by
                  obtain ⟨y, h1, h2⟩ := hm.2.2.2 k l (by omega) (by omega) trivial
                  dsimp only at h2
                  rw [if_neg (by omega)] at h2
                  exact ⟨y, by simp [Mat.get, hm.2.1, h1], h2⟩
                have e1 : (do
                    let q ← S.mul v x
                    let y ← m.get k l
                    let t ← S.subA y q
                    m.set k l t) = (do
                    let t ← (do let q ← S.mul v x; S.subA y q)
                    m.set k l t) := by
                  rw [hg, bind_assoc]; rfl
                rw [e1]
                refine Out.bind (hop k (by omega) hka l (by omega) hv hx hy) fun t ht => ?_
                refine hm.set (by omega) (by omega) ?_ fun i j _ _ _ hne => ⟨trivial, ?_⟩
                · rw [if_pos (by omega)]; exact ht
                · have : (i < k ∨ (i = k ∧ j < l + 1)) ↔ (i < k ∨ (i = k ∧ j < l)) := by omega
                  simp only [this])
          rw [zero_add] at e
          refine e.mono fun m hm => hm.weaken fun i j _ hj _ => ⟨trivial, ?_⟩
          have : (i < k ∨ (i = k ∧ j < c)) ↔ i < k + 1 := by omega
          simp only [this])
  rw [zero_add] at e
  exact e.mono fun m hm => hm.weaken fun i j hi _ _ => ⟨trivial, by rw [if_pos hi]⟩

/-- The elimination below the pivot, when it is known what the operations yield. -/
theorem detEliminate_raw {m : Mat T} {r c : Nat} {F G : Nat → Nat → K} (hm : Full rel m r c F) {a p : Nat}
    (ha : a < r) (hp : p < c) (hap : a ≤ p) (hpr : p < r)
    (hop : ∀ i j, p < i → i < r → p ≤ j → j < c → ∀ {v x d y}, rel v (F i p) → rel x (F a j) → rel d (F a p) → rel y (F i j) →
      Out A (do let q ← S.mul v x; let q ← S.div q d; S.subA y q) (fun t => rel t (G i j)))
    (hG : ∀ i j, ¬(p < i ∧ p ≤ j) → G i j = F i j) :
    Out A (detEliminate S m a p) (fun m => Full rel m r c G) := by
  unfold detEliminate
  rw [hm.1]
  have e := forUp_ok (A := A) (Inv := fun k m => Full rel m r c (fun i j => if i < k then G i j else F i j))
    (lo := p + 1) (n := r - (p + 1))
    (body := fun i m => if i ≠ a then do
        let val ← m.get i p
        forUp p (m.cols - p) (fun j m => do
          let x ← m.get a j
          let q ← S.mul val x
          let d ← m.get a p
          let q ← S.div q d
          let y ← m.get i j
          let t ← S.subA y q
          m.set i j t) m
      else .ok m) (s := m) (hm.weaken fun i j _ _ _ => ⟨trivial, by
        by_cases h : i < p + 1
        · rw [if_pos h, hG i j (by omega)]
        · rw [if_neg h]⟩) (fun k m hk0 hk hm => by
        have hka : k ≠ a := by omega
        rw [if_pos hka]
        refine Out.bind (hm.get (show k < r by omega) hp trivial) fun v hv => ?_
        rw [if_neg (by omega)] at hv
        rw [hm.2.1]
        have e := forUp_ok (A := A) (Inv := fun l m => Full rel m r c (fun i j =>
            if i < k ∨ (i = k ∧ j < l) then G i j else F i j)) (lo := p) (n := c - p)
          (body := fun j m => do
            let x ← m.get a j
            let q ← S.mul v x
            let d ← m.get a p
            let q ← S.div q d
            let y ← m.get k j
            let t ← S.subA y q
            m.set k j t) (s := m) (hm.weaken fun i j _ _ _ => ⟨trivial, by
              by_cases h : i < k
              · rw [if_pos h, if_pos (.inl h)]
              · rw [if_neg h]
                by_cases h2 : i = k ∧ j < p
                · rw [if_pos (.inr h2), hG i j (by omega)]
                · rw [if_neg (by omega)]⟩) (fun l m hl0 hl hm => by
              have row : ∀ {x : T} {j : Nat}, rel x (if a < k ∨ (a = k ∧ j < l) then G a j else F a j) →
                  rel x (F a j) := fun {x j} hx => by
                by_cases h : a < k ∨ (a = k ∧ j < l)
                · rwa [if_pos h, hG a j (by omega)] at hx
                · rwa [if_neg h] at hx
              refine Out.bind (hm.get ha (show l < c by omega) trivial) fun x hx => ?_
              obtain ⟨d, hg1, hd⟩ : ∃ d, m.get a p = .ok d ∧ rel d (F a p) := by
                obtain ⟨y, h1, h2⟩ := hm.2.2.2 a p ha hp trivial
                exact ⟨y, by simp [Mat.get, hm.2.1, h1], row h2⟩
              obtain ⟨y, hg2, hy⟩ : ∃ y, m.get k l = .ok y ∧ rel y (F k l) := by
                obtain ⟨y, h1, h2⟩ := hm.2.2.2 k l (by omega) (by omega) trivial
                dsimp only at h2
                rw [if_neg (by omega)] at h2
                exact ⟨y, by simp [Mat.get, hm.2.1, h1], h2⟩
              have e1 : (do
                  let q ← S.mul v x
                  let d ← m.get a p
                  let q ← S.div q d
                  let y ← m.get k l
                  let t ← S.subA y q
                  m.set k l t) = (do
                  let t ← (do let q ← S.mul v x; let q ← S.div q d; S.subA y q)
                  m.set k l t) := by
                simp only [hg1, hg2, bind_assoc, bind_ok]
              rw [e1]
              refine Out.bind (hop k l (by omega) (by omega) hl0 (by omega) hv (row hx) hd hy) fun t ht => ?_
              refine hm.set (by omega) (by omega) ?_ fun i j _ _ _ hne => ⟨trivial, ?_⟩
              · have h1 : k < k ∨ (k = k ∧ l < l + 1) := by omega
                rw [if_pos h1]
                exact ht
              · have : (i < k ∨ (i = k ∧ j < l + 1)) ↔ (i < k ∨ (i = k ∧ j < l)) := by omega
                simp only [this])
        rw [show p + (c - p) = c by omega] at e
        refine e.mono fun m hm => hm.weaken fun i j _ hj _ => ⟨trivial, ?_⟩
        have : (i < k ∨ (i = k ∧ j < c)) ↔ i < k + 1 := by omega
        simp only [this])
  rw [show p + 1 + (r - (p + 1)) = r by omega] at e
  exact e.mono fun m hm => hm.weaken fun i j hi _ _ => ⟨trivial, by rw [if_pos hi]⟩

section
variable [Field K]

/-- The row `a` divided by `v`. -/
def scaleF (F : Nat → Nat → K) (a : Nat) (v : K) : Nat → Nat → K := fun i j => if i = a then F i j / v else F i j

theorem scaleRow_ok (hS : S.ExactField rel A) {m : Mat T} {r c : Nat} {F : Nat → Nat → K} (hm : Full rel m r c F) {a p : Nat}
    (ha : a < r) (hp : p < c) (hne : F a p ≠ 0) :
    Out A (scaleRow S m a p) (fun m => Full rel m r c (scaleF F a (F a p))) :=
  scaleRow_of hm ha hp (fun j _ {x v} hx hv => by rw [scaleF, if_pos rfl]; exact hS.divA hx hv hne)
    fun i j h => by rw [scaleF, if_neg h]

/-- Row `a`, times the entry in column `p`, subtracted from every other row. -/
def clearF (F : Nat → Nat → K) (a p : Nat) : Nat → Nat → K := fun i j => if i = a then F i j else F i j - F i p * F a j

theorem clearColumn_ok (hS : S.ExactRing rel A) {m : Mat T} {r c : Nat} {F : Nat → Nat → K} (hm : Full rel m r c F) {a p : Nat}
    (ha : a < r) (hp : p < c) : Out A (clearColumn S m a p) (fun m => Full rel m r c (clearF F a p)) :=
  clearColumn_of hm ha hp (fun i _ h j _ {v x y} hv hx hy => by
    rw [clearF, if_neg h]
    exact Out.bind (hS.mul hv hx) fun q hq => hS.subA hy hq) fun j => by rw [clearF, if_pos rfl]

/-- Multiples of row `a` subtracted from the rows below row `p`, in the columns from `p` on. -/
def elimF (F : Nat → Nat → K) (a p : Nat) : Nat → Nat → K := fun i j =>
  if p < i ∧ i ≠ a ∧ p ≤ j then F i j - F i p * F a j / F a p else F i j

/-- Elimination, when the divisions that occur are known to be exact. -/
theorem detEliminate_of (hS : S.ExactRing rel A) {m : Mat T} {r c : Nat} {F : Nat → Nat → K} (hm : Full rel m r c F) {a p : Nat}
    (ha : a < r) (hp : p < c) (hap : a ≤ p) (hpr : p < r)
    (hdiv : ∀ {i j}, p < i → i < r → p ≤ j → j < c → ∀ {x d}, rel x (F i p * F a j) → rel d (F a p) →
      Out A (S.div x d) (fun t => rel t (F i p * F a j / F a p))) :
    Out A (detEliminate S m a p) (fun m => Full rel m r c (elimF F a p)) :=
  detEliminate_raw hm ha hp hap hpr (fun i j h1 h2 h3 h4 {v x d y} hv hx hd hy => by
    rw [elimF, if_pos ⟨h1, by omega, h3⟩]
    exact Out.bind (hS.mul hv hx) fun q hq => Out.bind (hdiv h1 h2 h3 h4 hq hd) fun q hq => hS.subA hy hq)
    fun i j h => by rw [elimF, if_neg (fun h' => h ⟨h'.1, h'.2.2⟩)]

theorem detEliminate_ok (hS : S.ExactField rel A) {m : Mat T} {r c : Nat} {F : Nat → Nat → K} (hm : Full rel m r c F) {a p : Nat}
    (ha : a < r) (hp : p < c) (hap : a ≤ p) (hpr : p < r) (hne : F a p ≠ 0) :
    Out A (detEliminate S m a p) (fun m => Full rel m r c (elimF F a p)) :=
  detEliminate_of hS.toExactRing hm ha hp hap hpr fun _ _ _ _ _ _ hx hd => hS.div hx hd hne

end
end Mat
end CppMaths
