import Verif.Spec.MatHeap
import Verif.Props.Mat
/-!
# Matrix objects on the free store represent matrix values
-/

namespace CppMaths
namespace Mat
variable {T : Type}

/-- Any failure is allowed. -/
def Any : Err → Prop := fun _ => True

/-- Dimensions, and a buffer of the right size. -/
def Like (r c : Nat) (m : Mat T) : Prop := m.rows = r ∧ m.cols = c ∧ m.data.length = r * c

theorem out_any {α : Type} (r : Res α) : Out Any r (fun _ => True) := by
  cases r with
  | ok a => exact Out.ok trivial
  | error e => exact Out.err trivial

theorem any_bind {α β : Type} {Q : β → Prop} {r : Res α} {f : α → Res β} (hf : ∀ a, Out Any (f a) Q) : Out Any (r >>= f) Q :=
  Out.bind (out_any r) fun a _ => hf a

theorem alloc_like (r c : Nat) : Like r c (alloc r c : Mat T) := ⟨rfl, rfl, by simp [alloc]⟩

theorem set_like {r c : Nat} {m : Mat T} (h : Like r c m) (i j : Nat) (t : T) : Out Any (m.set i j t) (Like r c) := by
  unfold Mat.set
  split
  · exact Out.ok ⟨h.1, h.2.1, by simp [h.2.2]⟩
  · exact Out.err trivial

theorem forUp_like {r c lo n : Nat} {body : Nat → Mat T → Res (Mat T)} {m : Mat T} (h : Like r c m)
    (hb : ∀ i m, Like r c m → Out Any (body i m) (Like r c)) : Out Any (forUp lo n body m) (Like r c) :=
  forUp_ok (Inv := fun _ => Like r c) h fun i m _ _ hm => hb i m hm

theorem forEach_like {r c a b : Nat} {body : Nat → Nat → Mat T → Res (Mat T)} {m : Mat T} (h : Like r c m)
    (hb : ∀ i j m, Like r c m → Out Any (body i j m) (Like r c)) : Out Any (forEach a b body m) (Like r c) :=
  forUp_like h fun i m hm => forUp_like hm fun j m hm => hb i j m hm

theorem setAll_like {r c : Nat} {m : Mat T} (h : Like r c m) (v : T) : Out Any (m.setAll v) (Like r c) :=
  forEach_like h fun _ _ _ hm => any_bind fun _ => set_like hm _ _ _

theorem setEntries_like {r c : Nat} {m : Mat T} (h : Like r c m) (vals : List T) (n : Nat) :
    Out Any (m.setEntries vals n) (Like r c) := by
  unfold setEntries
  split
  · exact Out.err trivial
  · exact forEach_like h fun _ _ _ hm => any_bind fun _ => set_like hm _ _ _

theorem filled_like (r c : Nat) (v : T) : Out Any (filled r c v) (Like r c) := setAll_like (alloc_like r c) v

theorem copy_like (m : Mat T) : Out Any m.copy (Like m.rows m.cols) :=
  forEach_like (alloc_like _ _) fun _ _ _ hm => any_bind fun _ => set_like hm _ _ _

theorem mapLoop_like {r c : Nat} {m : Mat T} (h : Like r c m) (op : T → T → Res T) (src : Mat T → Res T) :
    Out Any (mapLoop op m src) (Like r c) :=
  forEach_like h fun _ _ _ hm => any_bind fun _ => any_bind fun _ => any_bind fun _ => set_like hm _ _ _

theorem zipLoop_like {r c : Nat} {m : Mat T} (h : Like r c m) (op : T → T → Res T) (src : Mat T → Mat T) :
    Out Any (zipLoop op m src) (Like r c) :=
  forEach_like h fun _ _ _ hm => any_bind fun _ => any_bind fun _ => any_bind fun _ => set_like hm _ _ _

theorem swapRows_like {r c : Nat} {m : Mat T} (h : Like r c m) (a b : Nat) : Out Any (swapRows m a b) (Like r c) := by
  unfold swapRows
  split
  · exact forUp_like h fun _ m hm => any_bind fun _ => any_bind fun _ => Out.bind (set_like hm _ _ _) fun m hm => set_like hm _ _ _
  · exact Out.ok h

theorem scaleRow_like {r c : Nat} {m : Mat T} (h : Like r c m) (S : Scalar T) (a b : Nat) : Out Any (scaleRow S m a b) (Like r c) :=
  any_bind fun _ => forUp_like h fun _ _ hm => any_bind fun _ => any_bind fun _ => set_like hm _ _ _

theorem clearColumn_like {r c : Nat} {m : Mat T} (h : Like r c m) (S : Scalar T) (a b : Nat) :
    Out Any (clearColumn S m a b) (Like r c) := by
  refine forUp_like h fun i m hm => ?_
  split
  · exact any_bind fun _ => forUp_like hm fun _ _ hm => any_bind fun _ => any_bind fun _ => any_bind fun _ => any_bind fun _ =>
      set_like hm _ _ _
  · exact Out.ok hm

theorem rrefLoop_like (S : Scalar T) {r c : Nat} (n : Nat) : ∀ (i p : Nat) (m : Mat T), Like r c m →
    Out Any (rrefLoop S n i p m) (Like r c) := by
  induction n with
  | zero => exact fun i p m h => Out.ok h
  | succ n ih =>
    intro i p m h
    unfold rrefLoop
    split
    · exact Out.ok h
    · refine any_bind fun f => ?_
      split
      · exact Out.ok h
      · exact Out.bind (swapRows_like h _ _) fun m hm => Out.bind (scaleRow_like hm S _ _) fun m hm =>
          Out.bind (clearColumn_like hm S _ _) fun m hm => ih _ _ m hm

theorem inplaceRref_like {r c : Nat} {m : Mat T} (h : Like r c m) (S : Scalar T) : Out Any (inplaceRref S m) (Like r c) :=
  rrefLoop_like S _ _ _ m h

/-- A buffer of the right size. -/
def Sized (m : Mat T) : Prop := m.data.length = m.rows * m.cols

theorem Like.sized {r c : Nat} {m : Mat T} (h : Like r c m) : Sized m := by
  unfold Sized; rw [h.2.2, h.1, h.2.1]

theorem mul_like (S : Scalar T) (a b : Mat T) : Out Any (mul S a b) Sized := by
  unfold mul
  split
  · exact Out.err trivial
  · refine (any_bind fun z => Out.bind (filled_like a.rows b.cols z) fun r hr => ?_ : Out Any _ (Like a.rows b.cols)).mono fun m hm => hm.sized
    exact forUp_like hr fun _ _ hm => forUp_like hm fun _ _ hm => forUp_like hm fun _ _ hm =>
      any_bind fun _ => any_bind fun _ => any_bind fun _ => any_bind fun _ => any_bind fun _ => set_like hm _ _ _

theorem mulAssign_like (S : Scalar T) (a b : Mat T) : Out Any (mulAssign S a b) Sized := by
  unfold mulAssign
  split
  · exact Out.err trivial
  · refine (any_bind fun z => Out.bind (filled_like a.rows b.cols z) fun r hr => ?_ : Out Any _ (Like a.rows b.cols)).mono fun m hm => hm.sized
    exact Out.bind (P := Like a.rows b.cols) (forUp_like hr fun _ _ hm => forUp_like hm fun _ _ hm => forUp_like hm fun _ _ hm =>
      any_bind fun _ => any_bind fun _ => any_bind fun _ => any_bind fun _ => any_bind fun _ => set_like hm _ _ _) fun m hm => Out.ok hm

theorem augmented_like (a b : Mat T) : Out Any (augmentedMatrix a b) (Like a.rows (a.cols + b.cols)) := by
  unfold augmentedMatrix
  split
  · exact Out.err trivial
  · exact forUp_like (alloc_like _ _) fun _ _ hm => Out.bind (forUp_like hm fun _ _ hm => any_bind fun _ => set_like hm _ _ _)
      fun _ hm => forUp_like hm fun _ _ hm => any_bind fun _ => set_like hm _ _ _

theorem firstMinor_like (m : Mat T) (i j : Nat) : Out Any (firstMinor m i j) (Like (m.rows - 1) (m.cols - 1)) := by
  unfold firstMinor
  split
  · exact Out.err trivial
  · exact forUp_like (alloc_like _ _) fun _ _ hm => forUp_like hm fun _ _ hm => any_bind fun _ => set_like hm _ _ _

theorem neg_like (S : Scalar T) (m : Mat T) : Out Any (neg S m) (Like m.rows m.cols) :=
  forEach_like (alloc_like _ _) fun _ _ _ hm => any_bind fun _ => any_bind fun _ => set_like hm _ _ _

theorem identity_like (S : Scalar T) (n : Nat) : Out Any (identityMatrix S n) (Like n n) :=
  any_bind fun z => Out.bind (filled_like n n z) fun _ hr => forUp_like hr fun _ _ hm => any_bind fun _ => set_like hm _ _ _

theorem inverse_like (S : Scalar T) (m : Mat T) : Out Any (inverse S m) (Like m.rows m.cols) := by
  unfold inverse
  split
  · exact Out.err trivial
  · refine any_bind fun _ => any_bind fun _ => any_bind fun _ => forEach_like (alloc_like _ _) fun _ _ _ hm => ?_
    refine any_bind fun _ => any_bind fun _ => any_bind fun d => ?_
    split
    · exact Out.err trivial
    · exact any_bind fun _ => set_like hm _ _ _

theorem eval_sized (S : Scalar T) (look : Nat → Res (Mat T)) (e : MExpr T) : Out Any (e.eval S look) Sized := by
  cases e with
  | raw r c => exact Out.ok (alloc_like r c).sized
  | filled r c v => exact (filled_like r c v).mono fun m hm => hm.sized
  | array vals r c => exact (setEntries_like (alloc_like r c) vals _).mono fun m hm => hm.sized
  | identity n => exact (identity_like S n).mono fun m hm => hm.sized
  | diagonal vals n =>
    exact (any_bind fun z => Out.bind (filled_like n n z) fun _ hr => forUp_like hr fun _ _ hm => any_bind fun _ => set_like hm _ _ _ :
      Out Any (diagonalMatrix S vals n) (Like n n)).mono fun m hm => hm.sized
  | augmented a b => exact any_bind fun x => any_bind fun y => (augmented_like x y).mono fun m hm => hm.sized
  | neg a => exact any_bind fun x => (neg_like S x).mono fun m hm => hm.sized
  | add a b =>
    refine any_bind fun x => any_bind fun y => ?_
    unfold Mat.add
    split
    · exact Out.err trivial
    · exact (forEach_like (alloc_like _ _) fun _ _ _ hm => any_bind fun _ => any_bind fun _ => any_bind fun _ => set_like hm _ _ _).mono
        fun m hm => hm.sized
  | sub a b =>
    refine any_bind fun x => any_bind fun y => ?_
    unfold Mat.sub
    split
    · exact Out.err trivial
    · exact (forEach_like (alloc_like _ _) fun _ _ _ hm => any_bind fun _ => any_bind fun _ => any_bind fun _ => set_like hm _ _ _).mono
        fun m hm => hm.sized
  | mul a b => exact any_bind fun x => any_bind fun y => mul_like S x y
  | smul k a =>
    exact any_bind fun x => (forEach_like (alloc_like _ _) fun _ _ _ hm => any_bind fun _ => any_bind fun _ => set_like hm _ _ _).mono
      fun m hm => hm.sized
  | muls a k =>
    exact any_bind fun x => (forEach_like (alloc_like _ _) fun _ _ _ hm => any_bind fun _ => any_bind fun _ => set_like hm _ _ _).mono
      fun m hm => hm.sized
  | divs a k =>
    exact any_bind fun x => (forEach_like (alloc_like _ _) fun _ _ _ hm => any_bind fun _ => any_bind fun _ => set_like hm _ _ _).mono
      fun m hm => hm.sized
  | minor a i j => exact any_bind fun x => (firstMinor_like x i j).mono fun m hm => hm.sized
  | cofactor a i j =>
    refine any_bind fun x => ?_
    unfold Mat.cofactor
    split
    · exact Out.bind (firstMinor_like x i j) fun m hm => (neg_like S m).mono fun m hm => hm.sized
    · exact (firstMinor_like x i j).mono fun m hm => hm.sized
  | rref a => exact any_bind fun x => Out.bind (copy_like x) fun m hm => (inplaceRref_like hm S).mono fun m hm => hm.sized
  | inverse a => exact any_bind fun x => (inverse_like S x).mono fun m hm => hm.sized
  | transpose a =>
    exact any_bind fun x => (forEach_like (alloc_like _ _) fun _ _ _ hm => any_bind fun _ => set_like hm _ _ _).mono fun m hm => hm.sized

theorem upd_like (S : Scalar T) (look : Nat → Res (Mat T)) (d : Nat) {r c : Nat} {m : Mat T} (h : Like r c m) (u : MUpd T) :
    Out Any (u.run S look d m) (Like r c) := by
  have zip : ∀ (op : T → T → Res T) (src : Mat T → Mat T),
      Out Any (if !dimensionsMatch m (src m) then .error .domainError else zipLoop op m src) (Like r c) := by
    intro op src
    split
    · exact Out.err trivial
    · exact zipLoop_like h op src
  cases u with
  | set i j t => exact set_like h i j t
  | setAll t => exact setAll_like h t
  | setEntries vals n => exact setEntries_like h vals n
  | addA x =>
    simp only [MUpd.run]
    split
    · exact zip S.addA id
    · exact any_bind fun b => zip S.addA (fun _ => b)
  | subA x =>
    simp only [MUpd.run]
    split
    · exact zip S.subA id
    · exact any_bind fun b => zip S.subA (fun _ => b)
  | mulS k => exact mapLoop_like h _ _
  | divS k => exact mapLoop_like h _ _
  | mulE i j => exact mapLoop_like h _ _
  | divE i j => exact mapLoop_like h _ _
  | rref => exact inplaceRref_like h S

end Mat

theorem forUp_sim {σ τ : Type} {R : σ → τ → Prop} {f : Nat → σ → Res σ} {g : Nat → τ → Res τ}
    (hb : ∀ i s t t', R s t → g i t = .ok t' → ∃ s', f i s = .ok s' ∧ R s' t') (n : Nat) :
    ∀ (lo : Nat) (s : σ) (t t' : τ), R s t → forUp lo n g t = .ok t' → ∃ s', forUp lo n f s = .ok s' ∧ R s' t' := by
  induction n with
  | zero => intro lo s t t' h e; cases e; exact ⟨s, rfl, h⟩
  | succ n ih =>
    intro lo s t t' h e
    unfold forUp at e ⊢
    cases hg : g lo t with
    | error er => rw [hg] at e; cases e
    | ok t1 =>
      rw [hg] at e
      obtain ⟨s1, h1, h2⟩ := hb lo s t t1 h hg
      rw [h1]
      exact ih (lo + 1) s1 t1 t' h2 e

namespace MHeap
variable {T : Type}

/-- The block at `p` is allocated and holds `c`. -/
def At (h : MHeap T) (p : Nat) (c : List (Option T)) : Prop := h[p]? = some (some c)

theorem At.unique {h : MHeap T} {p : Nat} {c c' : List (Option T)} (h1 : h.At p c) (h2 : h.At p c') : c = c' := by
  unfold At at h1 h2; rw [h1] at h2; cases h2; rfl

theorem At.lt {h : MHeap T} {p : Nat} {c : List (Option T)} (h1 : h.At p c) : p < h.length := by
  by_contra hp
  unfold At at h1
  rw [List.getElem?_eq_none (by omega)] at h1
  cases h1

theorem at_append (h : MHeap T) (b : List (Option T)) (p : Nat) (c : List (Option T)) :
    (h ++ [some b] : MHeap T).At p c ↔ h.At p c ∨ p = h.length ∧ c = b := by
  unfold At
  rcases Nat.lt_trichotomy p h.length with hp | rfl | hp
  · rw [List.getElem?_append_left hp]
    exact ⟨.inl, fun h1 => h1.resolve_right fun h2 => by omega⟩
  · rw [List.getElem?_append_right le_rfl, List.getElem?_eq_none (le_rfl : h.length ≤ h.length)]
    simp [eq_comm]
  · rw [List.getElem?_append_right hp.le, List.getElem?_eq_none (show h.length ≤ p by omega)]
    have : ([some b] : MHeap T)[p - h.length]? = none := List.getElem?_eq_none (by simp; omega)
    rw [this]
    simp; omega

theorem delete_ok {h : MHeap T} {p : Nat} {b : List (Option T)} (hb : h.At p b) :
    ∃ h', h.delete p = .ok h' ∧ ∀ q c, h'.At q c ↔ q ≠ p ∧ h.At q c := by
  refine ⟨h.set p none, ?_, fun q c => ?_⟩
  · unfold delete; unfold At at hb; rw [hb]
  · unfold At
    by_cases hq : q = p
    · subst hq
      rw [List.getElem?_set_self hb.lt]
      simp
    · rw [List.getElem?_set_ne (Ne.symm hq)]
      simp [hq]

theorem store_ok {h : MHeap T} {p : Nat} {b : List (Option T)} (hb : h.At p b) (b' : List (Option T)) :
    ∃ h', h.store p b' = .ok h' ∧ ∀ q c, h'.At q c ↔ q = p ∧ c = b' ∨ q ≠ p ∧ h.At q c := by
  refine ⟨h.set p (some b'), ?_, fun q c => ?_⟩
  · unfold store; unfold At at hb; rw [hb]
  · unfold At
    by_cases hq : q = p
    · subst hq
      rw [List.getElem?_set_self hb.lt]
      simp [eq_comm]
    · rw [List.getElem?_set_ne (Ne.symm hq)]
      simp [hq]

/-- `o` is a new object in `h'`, which otherwise is `h`, and it stands for `m`. -/
def Fresh (h h' : MHeap T) (o : MObj) (m : Mat T) : Prop :=
  o.rows = m.rows ∧ o.cols = m.cols ∧ (∀ c, ¬h.At o.ptr c) ∧ ∀ q c, h'.At q c ↔ q = o.ptr ∧ c = m.data ∨ h.At q c

theorem result_fresh (h : MHeap T) (m : Mat T) : Fresh h (h.result m).1 (h.result m).2 m := by
  refine ⟨rfl, rfl, fun c hc => lt_irrefl _ hc.lt, fun q c => ?_⟩
  unfold result
  rw [at_append]
  exact or_comm

theorem copyCtor_ok {h : MHeap T} {o : MObj} {m : Mat T} (hr : o.rows = m.rows) (hc : o.cols = m.cols) (hm : m.Sized)
    (hi : MEnv.Init m) (ho : h.At o.ptr m.data) : ∃ r, h.copyCtor o = .ok r ∧ Fresh h r.1 r.2 m := by
  have hcopy := (C72_copy_objects m m hm hi).1
  unfold Mat.copy at hcopy
  have key := forUp_sim (R := fun (g : MHeap T) (t : Mat T) => g = h ++ [some t.data] ∧ t.cols = m.cols)
    (f := fun i g => forUp 0 o.cols (fun j g => do
      let t ← read g o.ptr (i * o.cols + j)
      write g (h.new (o.rows * o.cols)).2 (i * o.cols + j) t) g)
    (g := fun i s => forUp 0 m.cols (fun j s => do
      let t ← m.dataAt (i * m.cols + j)
      s.set i j t) s) (fun i g s s' hg hs => ?_) m.rows 0 (h.new (o.rows * o.cols)).1 (Mat.alloc m.rows m.cols) m ?_ hcopy
  · obtain ⟨g, h1, h2, -⟩ := key
    refine ⟨(g, ⟨o.rows, o.cols, h.length⟩), ?_, hr, hc, fun c hc => lt_irrefl _ hc.lt, fun q c => ?_⟩
    · unfold copyCtor Mat.forEach
      rw [hr] at h1 ⊢
      dsimp only
      rw [h1]
      rfl
    · dsimp only
      rw [h2, at_append]
      exact or_comm
  · rw [hc]
    refine forUp_sim (R := fun (g : MHeap T) (t : Mat T) => g = h ++ [some t.data] ∧ t.cols = m.cols)
      (fun j g s s' hg hs => ?_) m.cols 0 g s s' hg hs
    obtain ⟨rfl, hg⟩ := hg
    unfold read
    rw [List.getElem?_append_left ho.lt, show h[o.ptr]? = some (some m.data) from ho]
    unfold Mat.dataAt at hs
    dsimp only
    cases hd : m.data[i * m.cols + j]? with
    | none => rw [hd] at hs; cases hs
    | some t =>
      cases t with
      | none => rw [hd] at hs; cases hs
      | some t =>
        rw [hd] at hs
        simp only [bind_ok] at hs ⊢
        unfold Mat.set at hs
        rw [hg] at hs
        split at hs
        · cases hs
          refine ⟨_, ?_, rfl, rfl⟩
          unfold write new
          simp [*]
        · cases hs
  · rw [hr, hc]
    exact ⟨rfl, rfl⟩

theorem passOn_ok (n : Nat) : ∀ {h g : MHeap T} {o : MObj} {m : Mat T}, m.Sized → (n ≠ 0 → MEnv.Init m) → Fresh h g o m →
    ∃ r, passOn n g o = .ok r ∧ Fresh h r.1 r.2 m := by
  induction n with
  | zero => exact fun _ _ hf => ⟨_, rfl, hf⟩
  | succ n ih =>
    intro h g o m hm hi hf
    obtain ⟨⟨g', o'⟩, h1, h2⟩ := copyCtor_ok hf.1 hf.2.1 hm (hi (by simp)) ((hf.2.2.2 _ _).mpr (.inl ⟨rfl, rfl⟩))
    obtain ⟨g'', h3, h4⟩ := delete_ok (h := g') (p := o.ptr) (b := m.data)
      ((h2.2.2.2 _ _).mpr (.inr ((hf.2.2.2 _ _).mpr (.inl ⟨rfl, rfl⟩))))
    have hne : o'.ptr ≠ o.ptr := fun e => h2.2.2.1 m.data (e ▸ (hf.2.2.2 _ _).mpr (.inl ⟨rfl, rfl⟩))
    obtain ⟨r, h5, h6⟩ := ih (h := h) (g := g'') (o := o') (m := m) hm (fun _ => hi (by simp))
      ⟨h2.1, h2.2.1, fun c hc => h2.2.2.1 c ((hf.2.2.2 _ _).mpr (.inr hc)), fun q c => by
        rw [h4, h2.2.2.2, hf.2.2.2]
        constructor
        · rintro ⟨h7, h8 | h8 | h8⟩
          · exact .inl h8
          · exact (h7 h8.1).elim
          · exact .inr h8
        · rintro (h8 | h8)
          · exact ⟨h8.1 ▸ hne, .inl h8⟩
          · exact ⟨fun e => hf.2.2.1 c (e ▸ h8), .inr (.inr h8)⟩⟩
    refine ⟨r, ?_, h6⟩
    unfold passOn
    rw [h1]
    simp only [bind_ok, destroy]
    rw [h3]
    exact h5

end MHeap

namespace MEnv
variable {T : Type} {s : MState T} {v : MEnv T}
open MHeap

/-- The checks of the code are those of the specification. -/
theorem MEnv.check_eq (v : MEnv T) (m : Mat T) (u : MUpd T) : u.check v.look m = v.fits m u := by
  have dims : ∀ b : Mat T, (if !Mat.dimensionsMatch m b then Except.error Err.domainError else Except.ok () : Res Unit) =
      if b.rows = m.rows ∧ b.cols = m.cols then .ok () else .error .domainError := by
    intro b
    unfold Mat.dimensionsMatch
    by_cases h : b.rows = m.rows ∧ b.cols = m.cols
    · rw [if_pos h, if_neg (by simp [h.1, h.2])]
    · rw [if_neg h, if_pos (by simp; by_contra hc; rw [not_or, not_not, not_not] at hc; exact h ⟨hc.1.symm, hc.2.symm⟩)]
  cases u with
  | setEntries vals size =>
    unfold MUpd.check MEnv.fits
    by_cases h : m.rows * m.cols ≤ size
    · simp only [if_pos h, if_neg (not_lt.mpr h)]
    · simp only [if_neg h, if_pos (not_le.mp h)]
  | addA x | subA x =>
    cases h : v x with
    | none => simp only [MUpd.check, MEnv.fits, MEnv.look, h, bind, Except.bind]
    | some b => simp only [MUpd.check, MEnv.fits, MEnv.look, h, bind, Except.bind]; exact dims b
  | _ => rfl

theorem Represents.look_eq (h : Represents s v) : s.look = v.look := by
  funext x
  unfold MState.look MEnv.look
  cases hx : v x with
  | none => rw [h.dead x hx]
  | some m =>
    obtain ⟨o, h1, h2, h3, h4, -⟩ := h.live x m hx
    rw [h1]
    unfold MHeap.load
    dsimp only
    rw [h4, h2, h3]

theorem Represents.var_of (h : Represents s v) {x : Nat} {o : MObj} (hx : s.vars x = some o) :
    ∃ m, v x = some m ∧ o.rows = m.rows ∧ o.cols = m.cols ∧ s.heap.At o.ptr m.data ∧ m.Sized := by
  cases hv : v x with
  | none => rw [h.dead x hv] at hx; cases hx
  | some m =>
    obtain ⟨o', h1, h2⟩ := h.live x m hv
    rw [hx] at h1; cases h1
    exact ⟨m, rfl, h2⟩

theorem represents_empty : Represents (MState.empty : MState T) (fun _ => none) :=
  ⟨fun _ _ => rfl, fun _ _ h => (Option.some_ne_none _ h.symm).elim, fun _ _ _ _ h => (Option.some_ne_none _ h.symm).elim,
    fun p b h => by simp [MState.empty] at h⟩

/-- A new variable. -/
theorem Represents.declare (h : Represents s v) {d : Nat} (hd : v d = none) {g : MHeap T} {o : MObj} {m : Mat T} (hm : m.Sized)
    (hf : Fresh s.heap g o m) : Represents (s.setVar g d (some o)) (v.set d (some m)) := by
  have hsd := h.dead d hd
  constructor
  · intro x hx
    simp only [MState.setVar, MEnv.set] at hx ⊢
    split at hx
    · cases hx
    · rw [if_neg (by assumption)]; exact h.dead x hx
  · intro x m' hx
    simp only [MState.setVar, MEnv.set] at hx ⊢
    split at hx
    · rw [if_pos (by assumption)]
      cases hx
      exact ⟨o, rfl, hf.1, hf.2.1, (hf.2.2.2 _ _).mpr (.inl ⟨rfl, rfl⟩), hm⟩
    · rw [if_neg (by assumption)]
      obtain ⟨o', h1, h2, h3, h4, h5⟩ := h.live x m' hx
      exact ⟨o', h1, h2, h3, (hf.2.2.2 _ _).mpr (.inr h4), h5⟩
  · intro x y a b hx hy hab
    simp only [MState.setVar] at hx hy
    have aux : ∀ z a, s.vars z = some a → a.ptr ≠ o.ptr := fun z a hz e => by
      obtain ⟨m', -, -, -, h4, -⟩ := h.var_of hz
      exact hf.2.2.1 m'.data (e ▸ h4)
    split at hx <;> split at hy
    · simp [*]
    · cases hx; exact (aux y b hy hab.symm).elim
    · cases hy; exact (aux x a hx hab).elim
    · exact h.unshared x y a b hx hy hab
  · intro p b hp
    rcases (hf.2.2.2 p b).mp hp with ⟨rfl, rfl⟩ | hp
    · exact ⟨d, o, by simp [MState.setVar], rfl⟩
    · obtain ⟨x, a, h1, h2⟩ := h.owned p b hp
      refine ⟨x, a, ?_, h2⟩
      simp only [MState.setVar]
      rw [if_neg]
      · exact h1
      · rintro rfl
        rw [hsd] at h1; cases h1

/-- The block of a variable is deleted together with the variable. -/
theorem Represents.remove (h : Represents s v) {d : Nat} {o : MObj} (hd : s.vars d = some o) :
    ∃ g, s.heap.destroy o = .ok g ∧ Represents (s.setVar g d none) (v.set d none) := by
  obtain ⟨m, h1, h2, h3, h4, h5⟩ := h.var_of hd
  obtain ⟨g, h6, h7⟩ := delete_ok h4
  refine ⟨g, h6, ?_⟩
  constructor
  · intro x hx
    simp only [MState.setVar, MEnv.set] at hx ⊢
    split at hx
    · rw [if_pos (by assumption)]
    · rw [if_neg (by assumption)]; exact h.dead x hx
  · intro x m' hx
    simp only [MState.setVar, MEnv.set] at hx ⊢
    split at hx
    · cases hx
    · next hxd =>
      rw [if_neg hxd]
      obtain ⟨o', j1, j2, j3, j4, j5⟩ := h.live x m' hx
      exact ⟨o', j1, j2, j3, (h7 _ _).mpr ⟨fun e => hxd (h.unshared x d o' o j1 hd e), j4⟩, j5⟩
  · intro x y a b hx hy hab
    simp only [MState.setVar] at hx hy
    split at hx
    · cases hx
    · split at hy
      · cases hy
      · exact h.unshared x y a b hx hy hab
  · intro p b hp
    obtain ⟨hpo, hp⟩ := (h7 p b).mp hp
    obtain ⟨x, a, j1, j2⟩ := h.owned p b hp
    refine ⟨x, a, ?_, j2⟩
    simp only [MState.setVar]
    rw [if_neg]
    · exact j1
    · rintro rfl
      rw [hd] at j1; cases j1; exact hpo j2.symm

theorem set_set (v : MEnv T) (d : Nat) (a b : Option (Mat T)) : (v.set d a).set d b = v.set d b := by
  funext x; unfold MEnv.set; split <;> rfl

theorem setVar_setVar (s : MState T) (g g' : MHeap T) (d : Nat) (a b : Option MObj) :
    (s.setVar g d a).setVar g' d b = s.setVar g' d b := by
  unfold MState.setVar
  congr 1
  funext x; dsimp only; split <;> rfl

/-- Assignment from a new object. -/
theorem Represents.assign (h : Represents s v) {d : Nat} (hd : v d ≠ none) {g : MHeap T} {o : MObj} {m : Mat T} (hm : m.Sized)
    (hf : Fresh s.heap g o m) : ∃ s', s.assignParam g d o = .ok s' ∧ Represents s' (v.set d (some m)) := by
  cases hv : v d with
  | none => exact (hd hv).elim
  | some m0 =>
    obtain ⟨o0, h1, h2, h3, h4, h5⟩ := h.live d m0 hv
    obtain ⟨g0, j1, j2⟩ := h.remove h1
    obtain ⟨g1, k1, k2⟩ := delete_ok (show s.heap.At o0.ptr m0.data from h4)
    unfold MHeap.destroy at j1
    rw [k1] at j1
    injection j1 with j1
    subst j1
    have hne : o.ptr ≠ o0.ptr := fun e => hf.2.2.1 m0.data (e ▸ h4)
    obtain ⟨g2, l1, l2⟩ := delete_ok (h := g) (p := o0.ptr) (b := m0.data) ((hf.2.2.2 _ _).mpr (.inr h4))
    have hf2 : Fresh g1 g2 o m := by
      refine ⟨hf.1, hf.2.1, fun c hc => hf.2.2.1 c ((k2 _ _).mp hc).2, fun q c => ?_⟩
      rw [l2, hf.2.2.2, k2]
      constructor
      · rintro ⟨h7, h8 | h8⟩
        · exact .inl h8
        · exact .inr ⟨h7, h8⟩
      · rintro (h8 | h8)
        · exact ⟨h8.1 ▸ hne, .inl h8⟩
        · exact ⟨h8.1, .inr h8.2⟩
    have fin := j2.declare (d := d) (by simp [MEnv.set]) hm hf2
    rw [set_set, setVar_setVar] at fin
    refine ⟨_, ?_, fin⟩
    unfold MState.assignParam
    rw [h1]
    dsimp only [MObj.swap, MHeap.destroy]
    rw [l1]
    rfl

/-- New contents for the block of a variable. -/
theorem Represents.write (h : Represents s v) {d : Nat} {o : MObj} (hd : s.vars d = some o) {m : Mat T} (hr : o.rows = m.rows)
    (hc : o.cols = m.cols) (hm : m.Sized) :
    ∃ g, s.heap.store o.ptr m.data = .ok g ∧ Represents ⟨g, s.vars⟩ (v.set d (some m)) := by
  obtain ⟨m0, h1, -, -, h4, -⟩ := h.var_of hd
  obtain ⟨g, h6, h7⟩ := store_ok h4 m.data
  refine ⟨g, h6, ?_, ?_, h.unshared, ?_⟩
  · intro x hx
    simp only [MEnv.set] at hx
    split at hx
    · cases hx
    · exact h.dead x hx
  · intro x m' hx
    simp only [MEnv.set] at hx
    split at hx
    · next e =>
      subst e
      cases hx
      exact ⟨o, hd, hr, hc, (h7 _ _).mpr (.inl ⟨rfl, rfl⟩), hm⟩
    · next hxd =>
      obtain ⟨o', j1, j2, j3, j4, j5⟩ := h.live x m' hx
      exact ⟨o', j1, j2, j3, (h7 _ _).mpr (.inr ⟨fun e => hxd (h.unshared x d o' o j1 hd e), j4⟩), j5⟩
  · intro p b hp
    rcases (h7 p b).mp hp with ⟨rfl, -⟩ | ⟨-, hp⟩
    · exact ⟨d, o, hd, rfl⟩
    · exact h.owned p b hp

theorem Represents.swap (h : Represents s v) {a b : Nat} {x y : MObj} (ha : s.vars a = some x) (hb : s.vars b = some y) :
    Represents ((s.setVar s.heap a (some (MObj.swap x y).1)).setVar s.heap b (some (MObj.swap x y).2))
      (fun i => if i = a then v b else if i = b then v a else v i) := by
  have hvars : ∀ i, ((s.setVar s.heap a (some (MObj.swap x y).1)).setVar s.heap b (some (MObj.swap x y).2)).vars i =
      s.vars (if i = a then b else if i = b then a else i) := by
    intro i
    simp only [MState.setVar, MObj.swap]
    by_cases h1 : i = b
    · subst h1
      by_cases h2 : i = a
      · subst h2; simp [ha]
      · simp [ha, h2]
    · by_cases h2 : i = a
      · subst h2; simp [hb, h1]
      · simp [h1, h2]
  have hv : (fun i => if i = a then v b else if i = b then v a else v i) = fun i => v (if i = a then b else if i = b then a else i) := by
    funext i; split
    · rfl
    · split <;> rfl
  have hinj : ∀ i j, (if i = a then b else if i = b then a else i) = (if j = a then b else if j = b then a else j) → i = j := by
    intro i j; split_ifs <;> omega
  rw [hv]
  refine ⟨fun i hi => ?_, fun i m hi => ?_, fun i j o o' hi hj e => ?_, fun p c hp => ?_⟩
  · rw [hvars]; exact h.dead _ hi
  · rw [hvars]; exact h.live _ m hi
  · rw [hvars] at hi hj; exact hinj i j (h.unshared _ _ o o' hi hj e)
  · obtain ⟨i, o, h1, h2⟩ := h.owned p c hp
    refine ⟨if i = a then b else if i = b then a else i, o, ?_, h2⟩
    rw [hvars]
    rw [← h1]
    congr 1
    split_ifs <;> omega

theorem thrown_iff (e : Err) : e.isException = true ↔ Thrown e := by cases e <;> simp [Err.isException, Thrown]

/-- What a statement does, compared with its meaning. -/
def Agrees (r : MRes (MState T) (MState T)) : MOut T → Prop
  | .done v' => ∃ s', r = .ok s' ∧ Represents s' v'
  | .threw v' => ∃ e s', r = .error (e, s') ∧ e.isException = true ∧ Represents s' v'
  | .stopped e => ∃ s', r = .error (e, s') ∧ e.isException = false
  | .undefined => True

theorem agrees_fail {s' : MState T} {v' : MEnv T} (h : Represents s' v') (e : Err) : Agrees (.error (e, s')) (fail e v') := by
  unfold fail
  split
  · trivial
  · split
    · next h1 => exact ⟨e, s', rfl, (thrown_iff e).mpr h1, h⟩
    · next h1 => exact ⟨s', rfl, by rw [← thrown_iff] at h1; simpa using h1⟩

theorem step_agrees (S : Scalar T) (h : Represents s v) (c : MStmt T) : Agrees (c.step S s) (step S v c) := by
  cases c with
  | declare d e n =>
    unfold step MStmt.step
    dsimp only
    by_cases hd : v d ≠ none
    · rw [if_pos hd]; trivial
    · rw [if_neg hd]
      push Not at hd
      rw [h.dead d hd, h.look_eq]
      dsimp only
      have hs := Mat.eval_sized S v.look e
      cases he : e.eval S v.look with
      | error er => exact agrees_fail h er
      | ok m =>
        rw [he] at hs
        have hm : m.Sized := out_ok_iff.mp hs
        dsimp only
        split
        · trivial
        · next hn =>
          obtain ⟨r, h1, h2⟩ := passOn_ok n hm (fun h0 => by_contra fun hi => hn ⟨h0, hi⟩) (result_fresh s.heap m)
          refine ⟨s.setVar r.1 d (some r.2), ?_, h.declare hd hm h2⟩
          simp only [bind_ok, h1]
          rfl
  | declareCopy d x =>
    unfold step MStmt.step
    dsimp only
    by_cases hd : v d ≠ none
    · rw [if_pos hd]; trivial
    · rw [if_neg hd]
      push Not at hd
      rw [h.dead d hd]
      cases hx : v x with
      | none => trivial
      | some m =>
        dsimp only
        by_cases hi : Init m
        · rw [if_pos hi]
          obtain ⟨o, h1, h2, h3, h4, h5⟩ := h.live x m hx
          obtain ⟨r, h6, h7⟩ := copyCtor_ok h2 h3 h5 hi h4
          refine ⟨s.setVar r.1 d (some r.2), ?_, h.declare hd h5 h7⟩
          rw [h1]
          simp only [bind_ok, h6]
          rfl
        · rw [if_neg hi]; trivial
  | destroy d =>
    unfold step MStmt.step
    dsimp only
    cases hd : v d with
    | none => rw [if_pos rfl]; trivial
    | some m =>
      rw [if_neg (by simp)]
      obtain ⟨o, h1, -⟩ := h.live d m hd
      obtain ⟨g, h2, h3⟩ := h.remove h1
      refine ⟨_, ?_, h3⟩
      rw [h1]
      simp only [bind_ok, h2]
      rfl
  | assignExpr d e n =>
    unfold step MStmt.step
    dsimp only
    rw [h.look_eq]
    have hs := Mat.eval_sized S v.look e
    cases he : e.eval S v.look with
    | error er => exact agrees_fail h er
    | ok m =>
      rw [he] at hs
      have hm : m.Sized := out_ok_iff.mp hs
      dsimp only
      split
      · trivial
      · next hn =>
        push Not at hn
        obtain ⟨r, h1, h2⟩ := passOn_ok n hm hn.2 (result_fresh s.heap m)
        obtain ⟨s', h3, h4⟩ := h.assign hn.1 hm h2
        refine ⟨s', ?_, h4⟩
        simp only [bind_ok, h1, h3]
        rfl
  | assign d x =>
    unfold step MStmt.step
    dsimp only
    cases hx : v x with
    | none => trivial
    | some m =>
      dsimp only
      by_cases hi : v d ≠ none ∧ Init m
      · rw [if_pos hi]
        obtain ⟨o, h1, h2, h3, h4, h5⟩ := h.live x m hx
        obtain ⟨r, h6, h7⟩ := copyCtor_ok h2 h3 h5 hi.2 h4
        obtain ⟨s', h8, h9⟩ := h.assign hi.1 h5 h7
        refine ⟨s', ?_, h9⟩
        rw [h1]
        simp only [bind_ok, h6, h8]
        rfl
      · rw [if_neg hi]; trivial
  | swap a b =>
    unfold step MStmt.step
    dsimp only
    by_cases hn : v a = none ∨ v b = none
    · rw [if_pos hn]; trivial
    · rw [if_neg hn]
      push Not at hn
      obtain ⟨m1, h1⟩ := Option.ne_none_iff_exists'.mp hn.1
      obtain ⟨m2, h2⟩ := Option.ne_none_iff_exists'.mp hn.2
      obtain ⟨x, h3, -⟩ := h.live a m1 h1
      obtain ⟨y, h4, -⟩ := h.live b m2 h2
      refine ⟨_, ?_, h.swap h3 h4⟩
      rw [h3, h4]
  | mulAssign d x =>
    unfold step MStmt.step
    dsimp only
    rw [h.look_eq]
    unfold MEnv.look
    cases hd : v d with
    | none => trivial
    | some a =>
      cases hx : v x with
      | none => trivial
      | some b =>
        simp only [bind_ok]
        have hs := Mat.mulAssign_like S a b
        cases he : Mat.mulAssign S a b with
        | error er => exact agrees_fail h er
        | ok m =>
          rw [he] at hs
          have hm : m.Sized := out_ok_iff.mp hs
          obtain ⟨s', h3, h4⟩ := h.assign (d := d) (by simp [hd]) hm (result_fresh s.heap m)
          refine ⟨s', ?_, h4⟩
          simp only [bind_ok, h3]
          rfl
  | update d u junk =>
    unfold step MStmt.step
    dsimp only
    rw [h.look_eq]
    cases hd : v d with
    | none => trivial
    | some m =>
      obtain ⟨o, h1, h2, h3, h4, h5⟩ := h.live d m hd
      rw [h1]
      have hl : s.heap.load o = .ok m := by unfold MHeap.load; rw [h4, h2, h3]
      dsimp only
      rw [hl]
      dsimp only [Frac.at', bind, Except.bind]
      rw [MEnv.check_eq]
      cases hck : v.fits m u with
      | error er => exact agrees_fail h er
      | ok _ =>
        dsimp only
        have hs := Mat.upd_like S v.look d (r := m.rows) (c := m.cols) ⟨rfl, rfl, h5⟩ u
        cases he : u.run S v.look d m with
        | ok m' =>
          rw [he] at hs
          have hm := out_ok_iff.mp hs
          obtain ⟨g, h6, h7⟩ := h.write h1 (m := m') (by rw [h2, hm.1]) (by rw [h3, hm.2.1]) hm.sized
          refine ⟨_, ?_, h7⟩
          dsimp only
          rw [h6]
          rfl
        | error er =>
          obtain ⟨g, h6, h7⟩ := h.write h1 (m := ⟨m.rows, m.cols, (List.range (m.rows * m.cols)).map junk⟩) h2 h3
            (by simp [Mat.Sized])
          dsimp only at h6 ⊢
          rw [h2, h3, h6]
          exact agrees_fail h7 er
  | print x =>
    unfold step MStmt.step
    dsimp only
    cases hx : v x with
    | none => trivial
    | some m =>
      dsimp only
      by_cases hi : Init m
      · rw [if_pos hi]
        obtain ⟨o, h1, h2, h3, h4, h5⟩ := h.live x m hx
        obtain ⟨r, h6, h7⟩ := copyCtor_ok h2 h3 h5 hi h4
        obtain ⟨g, h8, h9⟩ := delete_ok (h := r.1) (p := r.2.ptr) ((h7.2.2.2 _ _).mpr (.inl ⟨rfl, rfl⟩))
        refine ⟨⟨g, s.vars⟩, ?_, ?_⟩
        · rw [h1]
          simp only [bind_ok, h6, MHeap.destroy, h8]
          rfl
        · have hg : ∀ q c, g.At q c ↔ s.heap.At q c := fun q c => by
            rw [h9, h7.2.2.2]
            constructor
            · rintro ⟨j1, j2 | j2⟩
              · exact (j1 j2.1).elim
              · exact j2
            · exact fun j => ⟨fun e => h7.2.2.1 c (e ▸ j), .inr j⟩
          refine ⟨h.dead, fun x m hx => ?_, h.unshared, fun p b hp => h.owned p b ((hg _ _).mp hp)⟩
          obtain ⟨o, h1, h2, h3, h4, h5⟩ := h.live x m hx
          exact ⟨o, h1, h2, h3, (hg _ _).mpr h4, h5⟩
      · rw [if_neg hi]; trivial

end MEnv
end CppMaths
