import Verif.Spec.MatMem
import Verif.Proofs.MatHeapSafe
import Mathlib.Algebra.BigOperators.Group.Finset.Basic
/-!
# Matrix functions when memory runs out: lemmas
-/

namespace CppMaths
variable {T α β : Type}

namespace MHeap

theorem view_new (h : MHeap T) (n : Nat) : (h.new n).1.view = Function.update h.view h.length (some (List.replicate n none)) := by
  funext p
  unfold view new
  by_cases hp : p = h.length
  · subst hp; simp
  · rw [Function.update_of_ne hp]
    rcases Nat.lt_or_gt_of_ne hp with h1 | h1
    · rw [List.getElem?_append_left h1]
    · rw [List.getElem?_eq_none (by simp; omega), List.getElem?_eq_none (by omega)]

theorem view_length (h : MHeap T) : h.view h.length = none := by simp [view]

theorem view_eq_some {h : MHeap T} {p : Nat} {b : List (Option T)} : h.view p = some b ↔ h[p]? = some (some b) := by
  simp [view, Option.join_eq_some_iff]

theorem delete_view {h : MHeap T} {p : Nat} (hp : h.view p ≠ none) :
    ∃ h', h.delete p = .ok h' ∧ h'.view = Function.update h.view p none := by
  obtain ⟨b, hb⟩ := Option.ne_none_iff_exists'.mp hp
  rw [view_eq_some] at hb
  refine ⟨h.set p none, by unfold delete; rw [hb], funext fun q => ?_⟩
  unfold view
  have hl : p < h.length := by
    by_contra hl
    rw [List.getElem?_eq_none (by omega)] at hb; cases hb
  by_cases hq : q = p
  · subst hq; simp [hl]
  · rw [Function.update_of_ne hq, List.getElem?_set_ne (Ne.symm hq)]

theorem store_view {h : MHeap T} {p : Nat} (hp : h.view p ≠ none) (c : List (Option T)) :
    ∃ h', h.store p c = .ok h' ∧ h'.view = Function.update h.view p (some c) := by
  obtain ⟨b, hb⟩ := Option.ne_none_iff_exists'.mp hp
  rw [view_eq_some] at hb
  refine ⟨h.set p (some c), by unfold store; rw [hb], funext fun q => ?_⟩
  unfold view
  have hl : p < h.length := by
    by_contra hl
    rw [List.getElem?_eq_none (by omega)] at hb; cases hb
  by_cases hq : q = p
  · subst hq; simp [hl]
  · rw [Function.update_of_ne hq, List.getElem?_set_ne (Ne.symm hq)]

/-- The memory in use as a sum over addresses. -/
theorem live_eq (h : MHeap T) {n : Nat} (hn : h.length ≤ n) :
    h.live = ∑ p ∈ Finset.range n, ((h.view p).map List.length).getD 0 := by
  induction h using List.reverseRecOn generalizing n with
  | nil => simp [live, view]
  | append_singleton h b ih =>
    simp only [List.length_append, List.length_singleton] at hn
    have h1 : live (h ++ [b]) = live h + (b.map List.length).getD 0 := by simp [live]
    rw [h1, ih (le_refl _)]
    have h2 : ∀ p, p ∈ Finset.range h.length → ((view (h ++ [b]) p).map List.length).getD 0 = ((view h p).map List.length).getD 0 := by
      intro p hp
      unfold view
      rw [List.getElem?_append_left (Finset.mem_range.mp hp)]
    have h3 : ∑ p ∈ Finset.range n, ((view (h ++ [b]) p).map List.length).getD 0 =
        ∑ p ∈ Finset.range (h.length + 1), ((view (h ++ [b]) p).map List.length).getD 0 := by
      symm
      apply Finset.sum_subset (Finset.range_mono hn)
      intro p _ hp
      simp only [Finset.mem_range, not_lt] at hp
      unfold view
      rw [List.getElem?_eq_none (by simpa using hp)]
      rfl
    rw [h3, Finset.sum_range_succ, Finset.sum_congr rfl h2]
    congr 1
    cases b <;> simp [view]

theorem live_congr {h h' : MHeap T} (e : h'.view = h.view) : h'.live = h.live := by
  rw [live_eq h (Nat.le_max_left _ h'.length), live_eq h' (Nat.le_max_right h.length _), e]

theorem live_update {h h' : MHeap T} {p : Nat} {c : List (Option T)} (h0 : h.view p = none)
    (e : h'.view = Function.update h.view p (some c)) : h'.live = h.live + c.length := by
  set n := max (max h.length h'.length) (p + 1)
  rw [live_eq h (n := n) (by omega), live_eq h' (n := n) (by omega), e,
    ← Finset.add_sum_erase _ _ (Finset.mem_range.mpr (show p < n by omega)),
    ← Finset.add_sum_erase (Finset.range n) (fun p => ((h.view p).map List.length).getD 0) (Finset.mem_range.mpr (show p < n by omega)), h0]
  have : ∑ q ∈ (Finset.range n).erase p, ((Function.update h.view p (some c) q).map List.length).getD 0 =
      ∑ q ∈ (Finset.range n).erase p, ((h.view q).map List.length).getD 0 :=
    Finset.sum_congr rfl fun q hq => by rw [Function.update_of_ne (Finset.ne_of_mem_erase hq)]
  rw [this]
  simp; omega

end MHeap

namespace HM

/-- What a computation does, started on the free store `h`: it returns and `Q` holds, or it fails and `X` holds. -/
def Sat (x : HM T α) (h : MHeap T) (Q : α → MHeap T → Prop) (X : Err → MHeap T → Prop) : Prop :=
  ∀ t, match x ⟨h, t⟩ with
    | (.ok a, m) => Q a m.heap
    | (.error e, m) => X e m.heap

variable {h : MHeap T} {Q : α → MHeap T → Prop} {X : Err → MHeap T → Prop}

theorem Sat.bind {x : HM T β} {f : β → HM T α} {Q' : β → MHeap T → Prop} (hx : Sat x h Q' X)
    (hf : ∀ b h', Q' b h' → Sat (f b) h' Q X) : Sat (x >>= f) h Q X := by
  intro t
  have h1 := hx t
  show match (match x ⟨h, t⟩ with
    | (.ok a, m') => f a m'
    | (.error e, m') => (.error e, m')) with
    | (.ok a, m) => Q a m.heap
    | (.error e, m) => X e m.heap
  rcases hr : x ⟨h, t⟩ with ⟨b | b, m⟩
  · rw [hr] at h1; exact h1
  · rw [hr] at h1; exact hf _ _ h1 m.tick

theorem Sat.pure {a : α} (ha : Q a h) : Sat (pure a : HM T α) h Q X := fun _ => ha

theorem Sat.lift {r : Res α} (ho : ∀ a, r = .ok a → Q a h) (he : ∀ e, r = .error e → X e h) : Sat (HM.lift r : HM T α) h Q X := by
  intro t
  cases r with
  | ok a => exact ho a rfl
  | error e => exact he e rfl

theorem Sat.mono {x : HM T α} {Q' : α → MHeap T → Prop} {X' : Err → MHeap T → Prop} (hx : Sat x h Q X)
    (hQ : ∀ a h', Q a h' → Q' a h') (hX : ∀ e h', X e h' → X' e h') : Sat x h Q' X' := by
  intro t
  have h1 := hx t
  rcases hr : x ⟨h, t⟩ with ⟨b | b, m⟩
  · rw [hr] at h1; exact hX _ _ h1
  · rw [hr] at h1; exact hQ _ _ h1

theorem Sat.cleanup {x : HM T α} {c : HM T Unit} {X' : Err → MHeap T → Prop} (hx : Sat x h Q X')
    (h1 : ∀ e h', X' e h' → Thrown e → Sat c h' (fun _ h'' => X e h'') X) (h2 : ∀ e h', X' e h' → ¬Thrown e → X e h') :
    Sat (HM.cleanup x c) h Q X := by
  intro t
  have h3 := hx t
  unfold HM.cleanup
  rcases hr : x ⟨h, t⟩ with ⟨e | a, m⟩
  · rw [hr] at h3
    dsimp only
    by_cases he : e.isException = true
    · rw [if_pos he]
      have h4 := h1 e m.heap h3 ((MEnv.thrown_iff e).mp he) m.tick
      rcases hc : c m with ⟨e' | u, m'⟩
      · rw [show (⟨m.heap, m.tick⟩ : Store T) = m from rfl, hc] at h4; exact h4
      · rw [show (⟨m.heap, m.tick⟩ : Store T) = m from rfl, hc] at h4; exact h4
    · rw [if_neg he]; exact h2 e m.heap h3 fun ht => he ((MEnv.thrown_iff e).mpr ht)
  · rw [hr] at h3; exact h3

theorem Sat.onHeap {f : MHeap T → Res (MHeap T)} {Q : Unit → MHeap T → Prop} {h' : MHeap T} (e : f h = .ok h') (hQ : Q () h') :
    Sat (HM.onHeap f) h Q X := by
  intro t
  unfold HM.onHeap
  dsimp only
  rw [e]
  exact hQ

end HM

namespace MObj
open HM MHeap
variable {L : Luck T} {h : MHeap T} {Q : α → MHeap T → Prop} {X : Err → MHeap T → Prop} {N : Nat}

/-- The object stands for the matrix. -/
def Is (h : MHeap T) (o : MObj) (m : Mat T) : Prop := o.rows = m.rows ∧ o.cols = m.cols ∧ h.view o.ptr = some m.data

/-- `o` is a new object in `h'`, which otherwise is `h`, and it stands for `m`. -/
def Fresh (h h' : MHeap T) (o : MObj) (m : Mat T) : Prop :=
  o.rows = m.rows ∧ o.cols = m.cols ∧ h.view o.ptr = none ∧ h'.view = Function.update h.view o.ptr (some m.data)

/-- Everything allocated in `h` is still there; and nothing else, unless scalar operations run out of memory. -/
def Clean (L : Luck T) (h h' : MHeap T) : Prop := (∀ p c, h.view p = some c → h'.view p = some c) ∧ (¬L.Interrupts → h'.view = h.view)

/-- As `Clean`, apart from the block of the local object `o`. -/
def Over (L : Luck T) (h : MHeap T) (o : MObj) (h' : MHeap T) : Prop :=
  h.view o.ptr = none ∧ h'.view o.ptr ≠ none ∧ (∀ p c, h.view p = some c → h'.view p = some c) ∧
  (¬L.Interrupts → ∀ q, q ≠ o.ptr → h'.view q = h.view q)

/-- Memory has run out, or `B` allows the failure. -/
def Cause (L : Luck T) (N : Nat) (B : Err → Prop) (e : Err) : Prop := e = .badAlloc ∧ (L.Interrupts ∨ L.Short N) ∨ B e

/-- A failure for a good cause that leaves everything as it was. -/
def Fails (L : Luck T) (N : Nat) (h : MHeap T) (B : Err → Prop) (e : Err) (h' : MHeap T) : Prop :=
  Cause L N B e ∧ (Thrown e → Clean L h h')

/-- As `Fails`, apart from the block of the local object `o`. -/
def FailsOver (L : Luck T) (N : Nat) (h : MHeap T) (o : MObj) (B : Err → Prop) (e : Err) (h' : MHeap T) : Prop :=
  Cause L N B e ∧ (Thrown e → Over L h o h')

/-- The matrix can be copied: the block has the right size, every entry is initialised, the size is below 2^64. -/
def Good (m : Mat T) : Prop := m.Sized ∧ MEnv.Init m ∧ m.rows * m.cols < 2 ^ 64

/-- The computation makes the matrix `r`, or fails as `r` does, or fails because memory runs out. -/
def Makes (L : Luck T) (N : Nat) (h : MHeap T) (r : Res (Mat T)) (x : HM T MObj) : Prop :=
  Sat x h (fun o h' => ∃ m, r = .ok m ∧ Fresh h h' o m) (Fails L N h (r = .error ·))

theorem Clean.refl : Clean L h h := ⟨fun _ _ h => h, fun _ => rfl⟩

theorem Fresh.is {h h' : MHeap T} {o : MObj} {m : Mat T} (hf : Fresh h h' o m) : Is h' o m :=
  ⟨hf.1, hf.2.1, by rw [hf.2.2.2, Function.update_self]⟩

theorem Fresh.keep {h h' : MHeap T} {o : MObj} {m : Mat T} (hf : Fresh h h' o m) {p : Nat} {c : List (Option T)} (hp : h.view p = some c) :
    h'.view p = some c := by
  rw [hf.2.2.2, Function.update_of_ne]
  · exact hp
  · rintro rfl; rw [hf.2.2.1] at hp; cases hp

theorem Fresh.live {h h' : MHeap T} {o : MObj} {m : Mat T} (hf : Fresh h h' o m) (hm : m.Sized) : h'.live = h.live + m.rows * m.cols := by
  rw [live_update hf.2.2.1 hf.2.2.2, hm]

theorem Fresh.over {h h' : MHeap T} {o : MObj} {m : Mat T} (hf : Fresh h h' o m) : Over L h o h' :=
  ⟨hf.2.2.1, by rw [hf.is.2.2]; simp, fun _ _ hp => hf.keep hp, fun _ q hq => by rw [hf.2.2.2, Function.update_of_ne hq]⟩

theorem Over.clean {h h1 h2 : MHeap T} {o : MObj} (h3 : Over L h o h1) (h4 : Clean L h1 h2) : Over L h o h2 := by
  obtain ⟨a, b, c, d⟩ := h3
  obtain ⟨x, hx⟩ := Option.ne_none_iff_exists'.mp b
  refine ⟨a, by rw [h4.1 _ _ hx]; simp, fun p c' hp => h4.1 _ _ (c _ _ hp), fun hi q hq => ?_⟩
  rw [h4.2 hi, d hi q hq]

theorem sat_interrupt {Q : Unit → MHeap T → Prop} (ho : Q () h) (he : L.Interrupts → X .badAlloc h) : Sat (interrupt L) h Q X := by
  intro t
  unfold interrupt
  by_cases hi : L.interrupt t = true
  · simp only [hi, if_true]; exact he ⟨t, hi⟩
  · simp only [hi]; exact ho

theorem sat_load {o : MObj} {m : Mat T} (ho : Is h o m) {f : Mat T → HM T α} (hf : Sat (f m) h Q X) : Sat (o.load >>= f) h Q X := by
  refine Sat.bind (Q' := fun x h' => x = m ∧ h' = h) (fun t => ?_) fun x h' hx => by rw [hx.1, hx.2]; exact hf
  unfold load MHeap.load
  dsimp only
  rw [view_eq_some.mp ho.2.2]
  dsimp only
  rw [ho.1, ho.2.1]
  exact ⟨rfl, rfl⟩

theorem sat_destroy {o : MObj} {Q : Unit → MHeap T → Prop} (ho : h.view o.ptr ≠ none)
    (hQ : ∀ h', h'.view = Function.update h.view o.ptr none → Q () h') : Sat o.destroy h Q X := by
  obtain ⟨h', h1, h2⟩ := delete_view ho
  exact Sat.onHeap h1 (hQ h' h2)

/-- Destroying the local object. -/
theorem Over.destroy {h h1 h2 : MHeap T} {o : MObj} (ho : Over L h o h1) (e : h2.view = Function.update h1.view o.ptr none) : Clean L h h2 := by
  obtain ⟨a, b, c, d⟩ := ho
  refine ⟨fun p x hp => ?_, fun hi => funext fun q => ?_⟩
  · rw [e, Function.update_of_ne]
    · exact c p x hp
    · rintro rfl; rw [a] at hp; cases hp
  · rw [e]
    by_cases hq : q = o.ptr
    · subst hq; rw [Function.update_self, a]
    · rw [Function.update_of_ne hq, d hi q hq]

theorem sat_cleanup {h1 : MHeap T} {o : MObj} {B : Err → Prop} {x : HM T α} (hx : Sat x h1 Q (FailsOver L N h o B)) :
    Sat (HM.cleanup x o.destroy) h1 Q (Fails L N h B) := by
  refine Sat.cleanup hx (fun e h' he ht => ?_) fun e h' he ht => ⟨he.1, fun h => (ht h).elim⟩
  exact sat_destroy (he.2 ht).2.1 fun h'' e2 => ⟨he.1, fun _ => (he.2 ht).destroy e2⟩

/-- A local object is destroyed. -/
theorem sat_owned {h1 : MHeap T} {o : MObj} {B : Err → Prop} {x : HM T α}
    (hx : Sat x h1 (fun a h' => h'.view o.ptr ≠ none ∧ ∀ h'', h''.view = Function.update h'.view o.ptr none → Q a h'') (FailsOver L N h o B)) :
    Sat (owned o x) h1 Q (Fails L N h B) := by
  refine Sat.bind (sat_cleanup hx) fun a h' ha => ?_
  exact Sat.bind (Q' := fun _ h'' => Q a h'') (sat_destroy ha.1 fun h'' e => ha.2 h'' e) fun _ h'' hq => Sat.pure hq

theorem sat_ctor {R C : Nat} {Q : MObj → MHeap T → Prop} (hRC : R * C < 2 ^ 64) (hN : h.live + R * C ≤ N)
    (ho : ∀ p h', Fresh h h' ⟨R, C, p⟩ (Mat.alloc R C) → Q ⟨R, C, p⟩ h') (he : L.Short N → X .badAlloc h) : Sat (ctor L R C) h Q X := by
  refine Sat.bind (Q' := fun p h' => Q ⟨R, C, p⟩ h') (fun t => ?_) fun p h' hp => Sat.pure hp
  unfold new
  dsimp only
  rw [Nat.mod_eq_of_lt (show R * C < sizeMod from hRC)]
  by_cases hr : L.refuse t h (R * C) = true
  · rw [if_pos hr]; exact he ⟨t, h, R * C, hr, hN⟩
  · rw [if_neg hr]
    exact ho _ _ ⟨rfl, rfl, view_length h, view_new h _⟩

/-- A loop over the entries of a local object. -/
theorem sat_fill {h1 : MHeap T} {o : MObj} {m0 : Mat T} {r : Res (Mat T)} (hf : Fresh h h1 o m0) (hm : m0.Sized)
    (hd : ∀ m, r = .ok m → m.rows = m0.rows ∧ m.cols = m0.cols) :
    Sat (fill L o r) h1 (fun _ h2 => ∃ m, r = .ok m ∧ Fresh h h2 o m)
      (fun e h2 => (e = .badAlloc ∧ L.Interrupts ∨ r = .error e) ∧ Over L h o h2) := by
  unfold fill
  refine Sat.bind (Q' := fun _ h' => h' = h1) (Sat.onHeap (h' := h1) ?_ rfl) fun _ h' e => ?_
  · rw [view_eq_some.mp hf.is.2.2]
    dsimp only
    rw [if_pos (by rw [hf.1, hf.2.1]; exact hm)]
  subst e
  refine Sat.bind (Q' := fun _ h2 => h2 = h') (sat_interrupt rfl fun hi => ⟨.inl ⟨rfl, hi⟩, hf.over⟩) fun _ h2 e => ?_
  subst e
  refine Sat.bind (Q' := fun m h3 => r = .ok m ∧ h3 = h2) (Sat.lift (fun m hr => ⟨hr, rfl⟩) fun e hr => ⟨.inr hr, hf.over⟩) fun m h3 hm3 => ?_
  obtain ⟨hr, rfl⟩ := hm3
  obtain ⟨h4, h5, h6⟩ := store_view (h := h3) (p := o.ptr) (by rw [hf.is.2.2]; simp) m.data
  refine Sat.onHeap h5 ⟨m, hr, ?_, ?_, hf.2.2.1, ?_⟩
  · rw [hf.1, (hd m hr).1]
  · rw [hf.2.1, (hd m hr).2]
  · rw [h6, hf.2.2.2, Function.update_idem]

theorem alloc_sized (R C : Nat) : (Mat.alloc R C : Mat T).Sized := by simp [Mat.Sized, Mat.alloc]

/-- A constructor that fills the block. If the loop is interrupted the block is lost. -/
theorem makes_fill {R C : Nat} {r : Res (Mat T)} (hRC : R * C < 2 ^ 64) (hN : h.live + R * C ≤ N)
    (hd : ∀ m, r = .ok m → m.rows = R ∧ m.cols = C) (he : ∀ e, r = .error e → ¬Thrown e) :
    Makes L N h r (do
      let o ← ctor L R C
      o.fill L r
      return o) := by
  refine Sat.bind (Q' := fun o h' => Fresh h h' o (Mat.alloc R C)) ?_ fun o h1 hf => ?_
  · exact sat_ctor hRC hN (fun p h' hf => hf) fun hs => ⟨.inl ⟨rfl, .inr hs⟩, fun _ => Clean.refl⟩
  refine Sat.bind (Q' := fun _ h2 => ∃ m, r = .ok m ∧ Fresh h h2 o m) ((sat_fill hf (alloc_sized R C) hd).mono (fun _ _ hq => hq) ?_)
    fun _ h2 hq => Sat.pure hq
  rintro e h2 ⟨h3, h4⟩
  refine ⟨h3.imp (fun h3 => ⟨h3.1, .inl h3.2⟩) id, fun ht => ⟨h4.2.2.1, fun hi => ?_⟩⟩
  rcases h3 with ⟨-, h3⟩ | h3
  · exact (hi h3).elim
  · exact (he e h3 ht).elim

theorem fill_over {h1 : MHeap T} {o : MObj} {m0 : Mat T} {r : Res (Mat T)} (hf : Fresh h h1 o m0) (hm : m0.Sized)
    (hd : ∀ m, r = .ok m → m.rows = m0.rows ∧ m.cols = m0.cols) :
    Sat (fill L o r) h1 (fun _ h2 => ∃ m, r = .ok m ∧ Fresh h h2 o m) (FailsOver L N h o (r = .error ·)) :=
  (sat_fill hf hm hd).mono (fun _ _ hq => hq) fun _ _ he => ⟨he.1.imp (fun h3 => ⟨h3.1, .inl h3.2⟩) id, fun _ => he.2⟩

theorem makes_copy {o : MObj} {m : Mat T} (ho : Is h o m) (hm : Good m) (hN : h.live + m.rows * m.cols ≤ N) :
    Makes L N h (.ok m) (copyCtor L o) := by
  have hc : m.copy = .ok m := (C72_copy_objects m m hm.1 hm.2.1).1
  unfold copyCtor
  rw [ho.1, ho.2.1]
  refine Sat.bind (Q' := fun o h' => Fresh h h' o (Mat.alloc m.rows m.cols)) ?_ fun o' h1 hf => ?_
  · exact sat_ctor hm.2.2 hN (fun p h' hf => hf) fun hs => ⟨.inl ⟨rfl, .inr hs⟩, fun _ => Clean.refl⟩
  refine sat_load (m := m) ⟨ho.1, ho.2.1, hf.keep ho.2.2⟩ ?_
  rw [hc]
  refine Sat.bind (Q' := fun _ h2 => ∃ m', (.ok m : Res (Mat T)) = .ok m' ∧ Fresh h h2 o' m')
    ((sat_fill hf (alloc_sized _ _) fun m' e => by cases e; exact ⟨rfl, rfl⟩).mono (fun _ _ hq => hq) ?_) fun _ h2 hq => Sat.pure hq
  rintro e h2 ⟨h3, h4⟩
  refine ⟨h3.imp (fun h3 => ⟨h3.1, .inl h3.2⟩) id, fun ht => ⟨h4.2.2.1, fun hi => ?_⟩⟩
  rcases h3 with ⟨-, h3⟩ | h3
  · exact (hi h3).elim
  · cases h3

/-- A local object made in `h1` on top of `h` is the only thing that is there in addition. -/
theorem FailsOver.of_fails {h1 : MHeap T} {o : MObj} {B B' : Err → Prop} (hB : ∀ e, B e → B' e) (ho : Over L h o h1) {e : Err} {h2 : MHeap T}
    (hx : Fails L N h1 B e h2) : FailsOver L N h o B' e h2 :=
  ⟨hx.1.imp id (hB e), fun ht => ho.clean (hx.2 ht)⟩

theorem Fresh.swap {h h1 h2 h3 : MHeap T} {o o' : MObj} {m m' : Mat T} (ho : Fresh h h1 o m) (ho' : Fresh h1 h2 o' m')
    (e : h3.view = Function.update h2.view o.ptr none) : Fresh h h3 o' m' := by
  have hne : o'.ptr ≠ o.ptr := fun h5 => by
    have := ho'.2.2.1
    rw [h5, ho.is.2.2] at this
    cases this
  refine ⟨ho'.1, ho'.2.1, ?_, ?_⟩
  · have := ho'.2.2.1
    rw [ho.2.2.2, Function.update_of_ne hne] at this
    exact this
  · rw [e, ho'.2.2.2, ho.2.2.2, Function.update_comm hne.symm, Function.update_idem, Function.update_comm hne,
      ← ho.2.2.1, Function.update_eq_self]

/-- Handing a new object on. -/
theorem sat_handOver {h1 : MHeap T} {o : MObj} {m : Mat T} (ho : Fresh h h1 o m) (hm : Good m) (hN : h.live + 2 * (m.rows * m.cols) ≤ N)
    {B : Err → Prop} : Sat (handOver L o) h1 (fun o' h2 => Fresh h h2 o' m) (Fails L N h B) := by
  refine Sat.bind (Q' := fun _ h' => h' = h1) (fun t => rfl) fun k h' e => ?_
  subst e
  cases k with
  | true => exact Sat.pure ho
  | false =>
    refine sat_owned ((makes_copy (L := L) (N := N) ho.is hm (by rw [ho.live hm.1]; omega)).mono ?_ fun e h2 he => FailsOver.of_fails (fun e h => by cases h) ho.over he)
    rintro o' h2 ⟨m', e, hf⟩
    cases e
    exact ⟨by rw [hf.keep ho.is.2.2]; simp, fun h3 e3 => ho.swap hf e3⟩

/-- A function that ends by returning its local matrix. -/
theorem sat_giveBack {h1 : MHeap T} {o : MObj} {r : Res (Mat T)} {body : HM T Unit}
    (hb : Sat body h1 (fun _ h2 => ∃ m, r = .ok m ∧ Fresh h h2 o m) (FailsOver L N h o (r = .error ·)))
    (hr : ∀ m, r = .ok m → Good m ∧ h.live + 2 * (m.rows * m.cols) ≤ N) :
    Sat (giveBack L o body) h1 (fun o' h2 => ∃ m, r = .ok m ∧ Fresh h h2 o' m) (Fails L N h (r = .error ·)) := by
  refine Sat.bind (Q' := fun _ h2 => ∃ m, r = .ok m ∧ Fresh h h2 o m) (sat_cleanup hb) fun _ h2 hq => ?_
  obtain ⟨m, h3, h4⟩ := hq
  exact (sat_handOver h4 (hr m h3).1 (hr m h3).2).mono (fun o' h5 h6 => ⟨m, h3, h6⟩) fun _ _ h => h

end MObj
end CppMaths
