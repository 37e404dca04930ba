import Verif.Proofs.Scalar
import Mathlib.Data.Matrix.Mul
import Mathlib.LinearAlgebra.Matrix.Trace
import Mathlib.Algebra.BigOperators.Fin
import Mathlib.Tactic.Linarith
/-!
# Loops over `Mat`: filling, entrywise changes, product, minors
-/

namespace CppMaths
namespace Mat
variable {T K : Type} {rel : T → K → Prop} {A : Err → Prop}

/-- The cells `(i, j)` with `D i j` are initialised and stand for `F i j`. -/
def On (rel : T → K → Prop) (m : Mat T) (r c : Nat) (D : Nat → Nat → Prop) (F : Nat → Nat → K) : Prop :=
  m.rows = r ∧ m.cols = c ∧ m.data.length = r * c ∧
    ∀ i j, i < r → j < c → D i j → ∃ t, m.data[i * c + j]? = some (some t) ∧ rel t (F i j)

/-- All cells are initialised. -/
abbrev Full (rel : T → K → Prop) (m : Mat T) (r c : Nat) (F : Nat → Nat → K) : Prop := On rel m r c (fun _ _ => True) F

/-- A matrix as a function on all pairs of natural numbers. -/
def ext [Zero K] {r c : Nat} (M : Matrix (Fin r) (Fin c) K) (i j : Nat) : K :=
  if h : i < r ∧ j < c then M ⟨i, h.1⟩ ⟨j, h.2⟩ else 0

theorem ext_fin [Zero K] {r c : Nat} (M : Matrix (Fin r) (Fin c) K) (i : Fin r) (j : Fin c) : ext M i.val j.val = M i j := by
  simp [ext]

theorem ext_lt [Zero K] {r c : Nat} (M : Matrix (Fin r) (Fin c) K) {i j : Nat} (hi : i < r) (hj : j < c) :
    ext M i j = M ⟨i, hi⟩ ⟨j, hj⟩ := by
  simp [ext, hi, hj]

theorem Is.full [Zero K] {m : Mat T} {r c : Nat} {M : Matrix (Fin r) (Fin c) K} (h : Is rel m M) :
    Full rel m r c (ext M) :=
  ⟨h.1, h.2.1, h.2.2.1, fun i j hi hj _ => by rw [ext_lt M hi hj]; exact h.2.2.2 ⟨i, hi⟩ ⟨j, hj⟩⟩

theorem On.is {m : Mat T} {r c : Nat} {F : Nat → Nat → K} {M : Matrix (Fin r) (Fin c) K} (h : Full rel m r c F)
    (hM : ∀ (i : Fin r) (j : Fin c), F i j = M i j) : Is rel m M :=
  ⟨h.1, h.2.1, h.2.2.1, fun i j => by rw [← hM i j]; exact h.2.2.2 i j i.2 j.2 trivial⟩

theorem On.weaken {m : Mat T} {r c : Nat} {D D' : Nat → Nat → Prop} {F G : Nat → Nat → K} (h : On rel m r c D F)
    (hD : ∀ i j, i < r → j < c → D' i j → D i j ∧ F i j = G i j) : On rel m r c D' G :=
  ⟨h.1, h.2.1, h.2.2.1, fun i j hi hj hd => by
    obtain ⟨h1, h2⟩ := hD i j hi hj hd
    rw [← h2]; exact h.2.2.2 i j hi hj h1⟩

theorem idx_lt {r c i j : Nat} (hi : i < r) (hj : j < c) : i * c + j < r * c := by
  calc i * c + j < i * c + c := by omega
    _ = (i + 1) * c := by ring
    _ ≤ r * c := Nat.mul_le_mul_right c hi

theorem idx_inj {c i j i' j' : Nat} (hj : j < c) (hj' : j' < c) (h : i * c + j = i' * c + j') : i = i' ∧ j = j' := by
  have h1 : (i * c + j) / c = (i' * c + j') / c := by rw [h]
  have hc : 0 < c := by omega
  rw [mul_comm i, mul_comm i', Nat.mul_add_div hc, Nat.mul_add_div hc, Nat.div_eq_of_lt hj, Nat.div_eq_of_lt hj'] at h1
  have h2 : i = i' := by omega
  subst h2
  exact ⟨rfl, by omega⟩

theorem On.get {m : Mat T} {r c : Nat} {D : Nat → Nat → Prop} {F : Nat → Nat → K} (h : On rel m r c D F) {i j : Nat}
    (hi : i < r) (hj : j < c) (hd : D i j) : Out A (m.get i j) (fun t => rel t (F i j)) := by
  obtain ⟨t, h1, h2⟩ := h.2.2.2 i j hi hj hd
  exact .inl ⟨t, by simp [Mat.get, h.2.1, h1], h2⟩

theorem On.dataAt {m : Mat T} {r c : Nat} {D : Nat → Nat → Prop} {F : Nat → Nat → K} (h : On rel m r c D F) {i j : Nat}
    (hi : i < r) (hj : j < c) (hd : D i j) : Out A (m.dataAt (i * c + j)) (fun t => rel t (F i j)) := by
  obtain ⟨t, h1, h2⟩ := h.2.2.2 i j hi hj hd
  exact .inl ⟨t, by simp [Mat.dataAt, h1], h2⟩

theorem On.set {m : Mat T} {r c : Nat} {D D' : Nat → Nat → Prop} {F G : Nat → Nat → K} (h : On rel m r c D F) {i j : Nat}
    (hi : i < r) (hj : j < c) {t : T} (ht : rel t (G i j))
    (hG : ∀ a b, a < r → b < c → D' a b → ¬(a = i ∧ b = j) → D a b ∧ F a b = G a b) :
    Out A (m.set i j t) (fun m' => On rel m' r c D' G) := by
  have hl : i * m.cols + j < m.data.length := by rw [h.2.1, h.2.2.1]; exact idx_lt hi hj
  refine .inl ⟨_, if_pos hl, h.1, h.2.1, by simp [h.2.2.1], fun a b ha hb hd => ?_⟩
  rw [h.2.1] at hl ⊢
  by_cases e : a = i ∧ b = j
  · obtain ⟨rfl, rfl⟩ := e
    exact ⟨t, by simp [hl], ht⟩
  · obtain ⟨h1, h2⟩ := hG a b ha hb hd e
    rw [← h2]
    obtain ⟨u, u1, u2⟩ := h.2.2.2 a b ha hb h1
    refine ⟨u, ?_, u2⟩
    dsimp only
    rw [List.getElem?_set_ne (fun he => e ?_), u1]
    obtain ⟨h3, h4⟩ := idx_inj hj hb he
    exact ⟨h3.symm, h4.symm⟩

theorem alloc_on (r c : Nat) (F : Nat → Nat → K) : On rel (alloc r c : Mat T) r c (fun _ _ => False) F :=
  ⟨rfl, rfl, by simp [alloc], fun _ _ _ _ h => h.elim⟩

/-- The rule for the double loop. -/
theorem forEach_ok {σ : Type} {r c : Nat} {body : Nat → Nat → σ → Res σ} {s : σ} {P : Nat → Nat → σ → Prop} (h0 : P 0 0 s)
    (hb : ∀ i j s, i < r → j < c → P i j s → Out A (body i j s) (P i (j + 1))) (hr : ∀ i s, i < r → P i c s → P (i + 1) 0 s) :
    Out A (forEach r c body s) (P r 0) := by
  have := forUp_ok (A := A) (Inv := fun i s => P i 0 s) (lo := 0) (n := r)
    (body := fun i s => forUp 0 c (fun j s => body i j s) s) (s := s) h0 (fun i s _ hi hs => by
      have := forUp_ok (A := A) (Inv := fun j s => P i j s) (lo := 0) (n := c) (body := fun j s => body i j s) (s := s) hs
        (fun j s _ hj hs => hb i j s (by omega) (by omega) hs)
      rw [zero_add] at this
      exact this.mono fun s hs => hr i s (by omega) hs)
  rw [zero_add] at this
  exact this

/-- Position `(a, b)` comes before `(i, j)` in the double loop. -/
def Vis (i j a b : Nat) : Prop := a < i ∨ (a = i ∧ b < j)

instance (i j a b : Nat) : Decidable (Vis i j a b) := by unfold Vis; infer_instance

/-- The state of a pass over the matrix that turns `F` into `G`, arrived at `(i, j)`. -/
def Mid (rel : T → K → Prop) (r c : Nat) (D : Nat → Nat → Prop) (F G : Nat → Nat → K) (i j : Nat) (m : Mat T) : Prop :=
  On rel m r c (fun a b => Vis i j a b ∨ D a b) (fun a b => if Vis i j a b then G a b else F a b)

theorem pass_ok {m : Mat T} {r c : Nat} {D : Nat → Nat → Prop} {F G : Nat → Nat → K} {body : Nat → Nat → Mat T → Res (Mat T)}
    (hm : On rel m r c D F)
    (hb : ∀ i j m', i < r → j < c → Mid rel r c D F G i j m' → Out A (body i j m') (Mid rel r c D F G i (j + 1))) :
    Out A (forEach r c body m) (fun m' => Full rel m' r c G) := by
  refine (forEach_ok (P := Mid rel r c D F G) ?_ hb ?_).mono fun m' hm' => ?_
  · refine On.weaken hm fun a b _ _ h => ?_
    have hv : ¬Vis 0 0 a b := by unfold Vis; omega
    exact ⟨h.resolve_left hv, by rw [if_neg hv]⟩
  · intro i m' _ h
    refine On.weaken h fun a b _ hb h => ?_
    have e : Vis (i + 1) 0 a b ↔ Vis i c a b := by unfold Vis; omega
    exact ⟨by rwa [e] at h, by simp only [e]⟩
  · refine On.weaken hm' fun a b ha _ _ => ?_
    have e : Vis r 0 a b := .inl ha
    exact ⟨.inl e, by rw [if_pos e]⟩

theorem Mid.step {m : Mat T} {r c : Nat} {D : Nat → Nat → Prop} {F G : Nat → Nat → K} {i j : Nat}
    (h : Mid rel r c D F G i j m) (hi : i < r) (hj : j < c) {t : T} (ht : rel t (G i j)) :
    Out A (m.set i j t) (Mid rel r c D F G i (j + 1)) := by
  refine On.set h hi hj ?_ fun a b _ _ hd hne => ?_
  · have e : Vis i (j + 1) i j := .inr ⟨rfl, by omega⟩
    rwa [if_pos e]
  · have e : Vis i (j + 1) a b ↔ Vis i j a b := by unfold Vis; omega
    exact ⟨by rwa [e] at hd, by simp only [e]⟩

theorem Mid.get {m : Mat T} {r c : Nat} {D : Nat → Nat → Prop} {F G : Nat → Nat → K} {i j : Nat}
    (h : Mid rel r c D F G i j m) (hi : i < r) (hj : j < c) (hd : D i j) : Out A (m.get i j) (fun t => rel t (F i j)) := by
  have e : ¬Vis i j i j := by unfold Vis; omega
  have := On.get (A := A) h hi hj (.inr hd)
  rwa [if_neg e] at this

/-- Filling a new matrix. -/
theorem fill_ok {r c : Nat} {G : Nat → Nat → K} {e : Nat → Nat → Res T}
    (he : ∀ i j, i < r → j < c → Out A (e i j) (fun t => rel t (G i j))) :
    Out A (forEach r c (fun i j m => do let t ← e i j; m.set i j t) (alloc r c)) (fun m' => Full rel m' r c G) :=
  pass_ok (alloc_on r c G) fun i j m' hi hj hm' => Out.bind (he i j hi hj) fun _ ht => hm'.step hi hj ht

theorem copy_ok {x : Mat T} {r c : Nat} {F : Nat → Nat → K} (hx : Full rel x r c F) :
    Out A x.copy (fun m => Full rel m r c F) := by
  unfold copy
  rw [hx.1, hx.2.1]
  exact fill_ok (e := fun i j => x.dataAt (i * c + j)) fun i j hi hj => hx.dataAt hi hj trivial

theorem setAll_ok {m : Mat T} {r c : Nat} {D : Nat → Nat → Prop} {F : Nat → Nat → K} {v : T} {k : K} (hm : On rel m r c D F)
    (hv : rel v k) : Out A (m.setAll v) (fun m => Full rel m r c (fun _ _ => k)) := by
  unfold setAll setAllRef
  rw [hm.1, hm.2.1]
  exact pass_ok hm fun i j m' hi hj hm' => hm'.step hi hj hv

theorem filled_ok {r c : Nat} {v : T} {k : K} (hv : rel v k) :
    Out A (filled r c v) (fun m => Full rel m r c (fun _ _ => k)) := setAll_ok (alloc_on r c (fun _ _ => k)) hv

theorem setEntries_ok {m : Mat T} {r c size : Nat} {D : Nat → Nat → Prop} {F G : Nat → Nat → K} {vals : List T}
    (hm : On rel m r c D F) (hs : r * c ≤ size)
    (hv : ∀ i j, i < r → j < c → ∃ t, vals[i * c + j]? = some t ∧ rel t (G i j)) :
    Out A (m.setEntries vals size) (fun m => Full rel m r c G) := by
  unfold setEntries
  rw [hm.1, hm.2.1, if_neg (by omega)]
  refine pass_ok hm fun i j m' hi hj hm' => ?_
  obtain ⟨t, t1, t2⟩ := hv i j hi hj
  rw [hm'.2.1]
  simp only [arrayAt, t1, bind_ok]
  exact hm'.step hi hj t2

theorem zipLoop_ok {a : Mat T} {r c : Nat} {F G H : Nat → Nat → K} {op : T → T → Res T} {src : Mat T → Mat T}
    (ha : Full rel a r c F)
    (hop : ∀ {x y i j}, i < r → j < c → rel x (F i j) → rel y (G i j) → Out A (op x y) (fun t => rel t (H i j)))
    (hsrc : ∀ i j m', i < r → j < c → Mid rel r c (fun _ _ => True) F H i j m' →
      Out A ((src m').get i j) (fun t => rel t (G i j))) :
    Out A (zipLoop op a src) (fun m => Full rel m r c H) := by
  unfold zipLoop
  rw [ha.1, ha.2.1]
  refine pass_ok ha fun i j m' hi hj hm' => ?_
  refine Out.bind (hm'.get hi hj trivial) fun x hx => ?_
  refine Out.bind (hsrc i j m' hi hj hm') fun y hy => ?_
  exact Out.bind (hop hi hj hx hy) fun t ht => hm'.step hi hj ht

theorem mapLoop_ok {m : Mat T} {r c : Nat} {F H : Nat → Nat → K} {op : T → T → Res T} {a : T}
    (hm : Full rel m r c F)
    (hop : ∀ {x i j}, i < r → j < c → rel x (F i j) → Out A (op x a) (fun t => rel t (H i j))) :
    Out A (mapLoop op m (fun _ => .ok a)) (fun m => Full rel m r c H) := by
  unfold mapLoop
  rw [hm.1, hm.2.1]
  refine pass_ok hm fun i j m' hi hj hm' => ?_
  refine Out.bind (hm'.get hi hj trivial) fun x hx => ?_
  rw [bind_ok]
  exact Out.bind (hop hi hj hx) fun t ht => hm'.step hi hj ht

theorem transpose_ok {m : Mat T} {r c : Nat} {F : Nat → Nat → K} (hm : Full rel m r c F) :
    Out A m.transpose (fun t => Full rel t c r (fun i j => F j i)) := by
  unfold transpose
  rw [hm.1, hm.2.1]
  refine (forEach_ok (P := fun i j t => On rel t c r (fun a b => Vis i j b a) (fun a b => F b a)) ?_ ?_ ?_).mono
    fun t ht => ?_
  · exact (alloc_on c r (fun a b => F b a)).weaken fun a b _ _ h => by unfold Vis at h; omega
  · intro i j t hi hj ht
    refine Out.bind (hm.get hi hj trivial) fun x hx => ?_
    refine ht.set hj hi hx fun a b _ _ h hne => ⟨?_, rfl⟩
    unfold Vis at h ⊢; omega
  · intro i t _ ht
    exact ht.weaken fun a b _ _ h => ⟨by unfold Vis at h ⊢; omega, rfl⟩
  · exact ht.weaken fun a b _ hb _ => ⟨.inl hb, rfl⟩

section
/-- The loops of the matrix product. `acc i j k` stands for entry `(i, j)` of the result after `k` products were added. -/
theorem mulLoop_gen {S : Scalar T} {KA KB : Type} {relA : T → KA → Prop} {relB : T → KB → Prop} {a b m : Mat T} {r n c : Nat}
    {F : Nat → Nat → KA} {G : Nat → Nat → KB} {acc : Nat → Nat → Nat → K} (ha : Full relA a r n F)
    (hb : Full relB b n c G) (hm : Full rel m r c (fun i j => acc i j 0))
    (hstep : ∀ i k j x y z, i < r → k < n → j < c → relA x (F i k) → relB y (G k j) → rel z (acc i j k) →
      Out A (S.mul x y >>= fun p => S.addA z p) (fun t => rel t (acc i j (k + 1)))) :
    Out A (forUp 0 r (fun i m => forUp 0 n (fun k m => forUp 0 c (fun j m => do
      let x ← a.get i k
      let y ← b.get k j
      let p ← S.mul x y
      let z ← m.get i j
      let t ← S.addA z p
      m.set i j t) m) m) m) (fun m => Full rel m r c (fun i j => acc i j n)) := by
  -- the partial sums when the loops have arrived at `(i, k, j)`
  let H : Nat → Nat → Nat → Nat → Nat → K := fun i k j a b =>
    if a < i then acc a b n else if a = i then acc a b (if b < j then k + 1 else k) else acc a b 0
  have e := forUp_ok (A := A) (Inv := fun i m => Full rel m r c (H i 0 0)) (lo := 0) (n := r)
    (body := fun i m => forUp 0 n (fun k m => forUp 0 c (fun j m => do
      let x ← a.get i k
      let y ← b.get k j
      let p ← S.mul x y
      let z ← m.get i j
      let t ← S.addA z p
      m.set i j t) m) m) (s := m)
      (hm.weaken fun a b _ _ _ => ⟨trivial, by simp [H]⟩)
      (fun i m _ hi hm => by
        have e := forUp_ok (A := A) (Inv := fun k m => Full rel m r c (H i k 0)) (lo := 0) (n := n)
          (body := fun k m => forUp 0 c (fun j m => do
            let x ← a.get i k
            let y ← b.get k j
            let p ← S.mul x y
            let z ← m.get i j
            let t ← S.addA z p
            m.set i j t) m) (s := m) hm
          (fun k m _ hk hm => by
            have e := forUp_ok (A := A) (Inv := fun j m => Full rel m r c (H i k j)) (lo := 0) (n := c)
              (body := fun j m => do
                let x ← a.get i k
                let y ← b.get k j
                let p ← S.mul x y
                let z ← m.get i j
                let t ← S.addA z p
                m.set i j t) (s := m) hm
              (fun j m _ hj hm => by
                obtain ⟨x, x1, hx⟩ := (ha.get (A := Never) (show i < r by omega) (show k < n by omega) trivial).never
                obtain ⟨y, y1, hy⟩ := (hb.get (A := Never) (show k < n by omega) (show j < c by omega) trivial).never
                obtain ⟨z, z1, hz⟩ := (hm.get (A := Never) (i := i) (j := j) (by omega) (by omega) trivial).never
                have hz' : rel z (acc i j k) := by simpa [H] using hz
                have h1 := hstep i k j x y z (by omega) (by omega) (by omega) hx hy hz'
                have h2 := Out.bind h1 (f := fun t => m.set i j t) (Q := fun m => Full rel m r c (H i k (j + 1))) fun t ht => by
                  refine hm.set (by omega) (by omega) ?_ fun a b _ _ _ hne => ⟨trivial, ?_⟩
                  · simpa [H] using ht
                  · by_cases h1 : a < i
                    · simp [H, h1]
                    · by_cases h2 : a = i
                      · have h3 : b < j + 1 ↔ b < j := by omega
                        simp [H, h2, h3]
                      · simp [H, h1, h2]
                simp only [x1, y1, bind_ok]
                cases hp : S.mul x y with
                | ok p =>
                  rw [hp] at h2
                  simp only [bind_ok, z1] at h2 ⊢
                  exact h2
                | error e =>
                  rw [hp] at h2
                  exact h2)
            rw [zero_add] at e
            refine e.mono fun m hm => hm.weaken fun a b _ hb _ => ⟨trivial, ?_⟩
            simp only [H, hb, if_true, Nat.not_lt_zero, if_false])
        rw [zero_add] at e
        refine e.mono fun m hm => hm.weaken fun a b _ hb _ => ⟨trivial, ?_⟩
        by_cases h1 : a < i
        · simp [H, h1, Nat.lt_succ_of_lt h1]
        · by_cases h2 : a = i
          · simp [H, h2]
          · have h3 : ¬a < i + 1 := by omega
            simp [H, h1, h2, h3])
  rw [zero_add] at e
  refine e.mono fun m hm => hm.weaken fun a b ha _ _ => ⟨trivial, ?_⟩
  simp [H, ha]

variable [CommRing K] {S : Scalar T}

theorem mulLoop_ok (hS : S.ExactRing rel A) {a b m : Mat T} {r n c : Nat} {F G : Nat → Nat → K} (ha : Full rel a r n F)
    (hb : Full rel b n c G) (hm : Full rel m r c (fun _ _ => 0)) :
    Out A (forUp 0 r (fun i m => forUp 0 n (fun k m => forUp 0 c (fun j m => do
      let x ← a.get i k
      let y ← b.get k j
      let p ← S.mul x y
      let z ← m.get i j
      let t ← S.addA z p
      m.set i j t) m) m) m) (fun m => Full rel m r c (fun i j => ∑ k ∈ Finset.range n, F i k * G k j)) := by
  refine mulLoop_gen (acc := fun i j k => ∑ l ∈ Finset.range k, F i l * G l j) ha hb (by simpa using hm) ?_
  intro i k j x y z _ _ _ hx hy hz
  rw [Finset.sum_range_succ]
  exact Out.bind (hS.mul hx hy) fun p hp => hS.addA hz hp

theorem mul_ok (hS : S.ExactRing rel A) {a b : Mat T} {r n c : Nat} {F G : Nat → Nat → K} (ha : Full rel a r n F)
    (hb : Full rel b n c G) :
    Out A (mul S a b) (fun m => Full rel m r c (fun i j => ∑ k ∈ Finset.range n, F i k * G k j)) ∧
    Out A (mulAssign S a b) (fun m => Full rel m r c (fun i j => ∑ k ∈ Finset.range n, F i k * G k j)) := by
  unfold mul mulAssign
  simp only [ha.1, ha.2.1, hb.1, hb.2.1, ne_eq, not_true_eq_false, if_false]
  constructor
  · refine Out.bind (hS.ofInt 0 (.inl rfl)) fun z hz => ?_
    refine Out.bind (filled_ok hz) fun m hm => ?_
    rw [Int.cast_zero] at hm
    exact mulLoop_ok hS ha hb hm
  · refine Out.bind (hS.ofInt 0 (.inl rfl)) fun z hz => ?_
    refine Out.bind (filled_ok hz) fun m hm => ?_
    rw [Int.cast_zero] at hm
    exact Out.bind (mulLoop_ok hS ha hb hm) fun m hm => Out.ok hm

theorem trace_ok (hS : S.ExactRing rel A) {m : Mat T} {n : Nat} {F : Nat → Nat → K} (hm : Full rel m n n F) :
    Out A (trace S m) (fun t => rel t (∑ k ∈ Finset.range n, F k k)) := by
  unfold trace
  simp only [hm.1, hm.2.1, ne_eq, not_true_eq_false, if_false]
  refine Out.bind (hS.ofInt 0 (.inl rfl)) fun z hz => ?_
  have := forUp_ok (A := A) (Inv := fun i t => rel t (∑ k ∈ Finset.range i, F k k)) (lo := 0) (n := n)
    (body := fun i result => do
      let x ← m.get i i
      S.addA result x) (s := z) (by simpa using hz) (fun i t _ hi ht => by
        refine Out.bind (hm.get (by omega) (by omega) trivial) fun x hx => ?_
        rw [Finset.sum_range_succ]
        exact hS.addA ht hx)
  rwa [zero_add] at this

theorem eqRow_ok (hS : S.ExactRing rel A) {a b : Mat T} {r c : Nat} {F G : Nat → Nat → K} (ha : Full rel a r c F)
    (hb : Full rel b r c G) {i : Nat} (hi : i < r) (k : Nat) : ∀ j, j + k = c →
    Out A (eqRow S a b i j k) (fun d => d = true ↔ ∀ l, j ≤ l → l < c → F i l = G i l) := by
  induction k with
  | zero => intro j hj; exact Out.ok ⟨fun _ l h1 h2 => absurd h1 (by omega), fun _ => rfl⟩
  | succ k ih =>
    intro j hj
    refine Out.bind (ha.get hi (by omega) trivial) fun x hx => ?_
    refine Out.bind (hb.get hi (by omega) trivial) fun y hy => ?_
    refine Out.bind (hS.ne hx hy) fun d hd => ?_
    cases d with
    | true => exact Out.ok ⟨fun h => by simp at h, fun h => absurd (h j le_rfl (by omega)) (hd.mp rfl)⟩
    | false =>
      simp only [Bool.false_eq_true, if_false]
      have hfg : F i j = G i j := by by_contra h; exact absurd (hd.mpr h) (by simp)
      refine Out.mono (ih (j + 1) (by omega)) fun d hd => hd.trans ⟨fun h l h1 h2 => ?_, fun h l h1 h2 => h l (by omega) h2⟩
      rcases h1.eq_or_lt with h3 | h3
      · exact h3 ▸ hfg
      · exact h l h3 h2

theorem eqRows_ok (hS : S.ExactRing rel A) {a b : Mat T} {r c : Nat} {F G : Nat → Nat → K} (ha : Full rel a r c F)
    (hb : Full rel b r c G) (k : Nat) : ∀ i, i + k = r →
    Out A (eqRows S a b i k) (fun d => d = true ↔ ∀ l j, i ≤ l → l < r → j < c → F l j = G l j) := by
  induction k with
  | zero => intro i hi; exact Out.ok ⟨fun _ l j h1 h2 => absurd h1 (by omega), fun _ => rfl⟩
  | succ k ih =>
    intro i hi
    unfold eqRows
    rw [ha.2.1]
    refine Out.bind (eqRow_ok hS ha hb (by omega) c 0 (by omega)) fun d hd => ?_
    cases d with
    | false =>
      exact Out.ok ⟨fun h => by simp at h, fun h => hd.mpr fun l _ hl => h i l le_rfl (by omega) hl⟩
    | true =>
      simp only [if_true]
      have hrow := hd.mp rfl
      refine Out.mono (ih (i + 1) (by omega)) fun d hd => hd.trans ⟨fun h l j h1 h2 h3 => ?_, fun h l j h1 => h l j (by omega)⟩
      rcases h1.eq_or_lt with h4 | h4
      · exact h4 ▸ hrow j (by omega) h3
      · exact h l j h4 h2 h3

end

theorem firstMinor_ok {m : Mat T} {r c : Nat} {F : Nat → Nat → K} (hm : Full rel m (r + 1) (c + 1) F) (i j : Nat) :
    Out A (m.firstMinor i j) (fun t => Full rel t r c (fun a b => F (if a ≥ i then a + 1 else a) (if b ≥ j then b + 1 else b))) := by
  unfold firstMinor
  rw [hm.1, hm.2.1, if_neg (by omega)]
  exact fill_ok (e := fun a b => m.get (if a ≥ i then a + 1 else a) (if b ≥ j then b + 1 else b)) fun a b ha hb =>
    hm.get (by split <;> omega) (by split <;> omega) trivial

end Mat
end CppMaths
