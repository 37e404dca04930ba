import Verif.Proofs.Scalar
import Mathlib.Data.Matrix.Mul
import Mathlib.LinearAlgebra.CrossProduct
import Mathlib.Algebra.BigOperators.Fin
import Mathlib.Tactic.IntervalCases
/-!
# Loops over `Vec`
-/

namespace CppMaths
namespace Vec
variable {T K : Type} {rel : T → K → Prop} {A : Err → Prop}

/-- `Vec.Is` with a function on all natural numbers. -/
def On (rel : T → K → Prop) (x : List T) (n : Nat) (f : Nat → K) : Prop :=
  x.length = n ∧ ∀ i, i < n → ∃ t, x[i]? = some t ∧ rel t (f i)

/-- A vector as a function on all natural numbers. -/
def ext [Zero K] {n : Nat} (f : Fin n → K) (i : Nat) : K := if h : i < n then f ⟨i, h⟩ else 0

theorem ext_fin [Zero K] {n : Nat} (f : Fin n → K) (i : Fin n) : ext f i.val = f i := by simp [ext]

theorem ext_lt [Zero K] {n : Nat} (f : Fin n → K) {i : Nat} (h : i < n) : ext f i = f ⟨i, h⟩ := by simp [ext, h]

theorem Is.on [Zero K] {x : List T} {n : Nat} {f : Fin n → K} (h : Is rel x f) : On rel x n (ext f) :=
  ⟨h.1, fun i hi => by rw [ext_lt f hi]; exact h.2 ⟨i, hi⟩⟩

theorem On.is {x : List T} {n : Nat} {g : Nat → K} {f : Fin n → K} (h : On rel x n g) (hf : ∀ i : Fin n, g i = f i) :
    Is rel x f :=
  ⟨h.1, fun i => by rw [← hf i]; exact h.2 i i.2⟩

theorem On.congr {x : List T} {n : Nat} {g f : Nat → K} (h : On rel x n g) (hf : ∀ i, i < n → g i = f i) : On rel x n f :=
  ⟨h.1, fun i hi => by rw [← hf i hi]; exact h.2 i hi⟩

theorem On.get {x : List T} {n : Nat} {f : Nat → K} (h : On rel x n f) {i : Nat} (hi : i < n) :
    Out A (get x i) (fun t => rel t (f i)) := by
  obtain ⟨t, h1, h2⟩ := h.2 i hi
  exact .inl ⟨t, by simp [Vec.get, h1], h2⟩

theorem On.set {x : List T} {n : Nat} {f g : Nat → K} (h : On rel x n f) {i : Nat} (hi : i < n) {t : T}
    (ht : rel t (g i)) (hg : ∀ j, j < n → j ≠ i → f j = g j) : Out A (set x i t) (fun x' => On rel x' n g) := by
  refine .inl ⟨x.set i t, by simp [Vec.set, h.1, hi], by simp [h.1], fun j hj => ?_⟩
  by_cases e : i = j
  · subst e
    exact ⟨t, by simp [h.1, hi], ht⟩
  · rw [← hg j hj (Ne.symm e)]
    obtain ⟨u, h1, h2⟩ := h.2 j hj
    exact ⟨u, by rw [List.getElem?_set_ne e, h1], h2⟩

/-- A loop that gives entry `i` its final value in round `i`. -/
theorem loop_ok {x : List T} {n : Nat} {f g : Nat → K} (hx : On rel x n f) {body : Nat → List T → Res (List T)}
    (hb : ∀ i x', i < n → On rel x' n (fun j => if j < i then g j else f j) →
      Out A (body i x') (fun x'' => On rel x'' n (fun j => if j < i + 1 then g j else f j))) :
    Out A (forUp 0 n body x) (fun x' => On rel x' n g) := by
  refine Out.mono (forUp_ok (Inv := fun i x' => On rel x' n (fun j => if j < i then g j else f j)) ?_ ?_) ?_
  · exact hx.congr (fun i _ => by simp)
  · intro i s _ hi hs
    exact hb i s (by omega) hs
  · intro a ha
    exact ha.congr (fun i hi => by simp [hi])

theorem mapStep {x : List T} {n : Nat} {f g : Nat → K} {i : Nat} (hi : i < n)
    (hx : On rel x n (fun j => if j < i then g j else f j)) {t : T} (ht : rel t (g i)) :
    Out A (set x i t) (fun x'' => On rel x'' n (fun j => if j < i + 1 then g j else f j)) := by
  refine hx.set hi (by simpa using ht) fun j _ hj => ?_
  by_cases h : j < i
  · simp [h, Nat.lt_succ_of_lt h]
  · simp [h, show ¬j < i + 1 by omega]

theorem zipLoop_ok {x : List T} {n : Nat} {f g h : Nat → K} {op : T → T → Res T} {src : List T → List T}
    (hx : On rel x n f) (hop : ∀ {a b i}, i < n → rel a (f i) → rel b (g i) → Out A (op a b) (fun t => rel t (h i)))
    (hsrc : ∀ i x', i < n → On rel x' n (fun j => if j < i then h j else f j) →
      Out A (Vec.get (src x') i) (fun t => rel t (g i))) :
    Out A (zipLoop op src n x) (fun x' => On rel x' n h) := by
  refine loop_ok hx fun i x' hi hx' => ?_
  refine Out.bind (hx'.get hi) fun a ha => ?_
  refine Out.bind (hsrc i x' hi hx') fun b hb => ?_
  simp only [lt_irrefl, if_false] at ha
  exact Out.bind (hop hi ha hb) fun t ht => mapStep hi hx' ht

theorem mapLoop_ok {x : List T} {n : Nat} {f g : Nat → K} {c : K} {op : T → T → Res T} {a : T}
    (hx : On rel x n f) (hop : ∀ {u i}, i < n → rel u (f i) → rel a c → Out A (op u a) (fun t => rel t (g i)))
    (ha : rel a c) : Out A (mapLoop op (fun _ => .ok a) x) (fun x' => On rel x' n g) := by
  unfold mapLoop
  rw [hx.1]
  refine loop_ok hx fun i x' hi hx' => ?_
  refine Out.bind (hx'.get hi) fun u hu => ?_
  simp only [lt_irrefl, if_false] at hu
  rw [bind_ok]
  exact Out.bind (hop hi hu ha) fun t ht => mapStep hi hx' ht

theorem ofArray_ok {S L : Type} {conv : S → Res T} {vals : List S} {n : Nat} {rs : S → L → Prop} {w : Nat → L} {f : Nat → K}
    (hv : ∀ i, i < n → ∃ s, vals[i]? = some s ∧ rs s (w i))
    (hconv : ∀ {s i}, i < n → rs s (w i) → Out A (conv s) (fun t => rel t (f i))) :
    Out A (ofArray conv vals n) (fun x => On rel x n f) := by
  have := forUp_ok (A := A) (Inv := fun i x => On rel x i f) (lo := 0) (n := n) (body := fun i data => do
    let s ← get vals i
    let t ← conv s
    return data ++ [t]) (s := []) ⟨rfl, by simp⟩ (fun i x _ hi hx => by
      obtain ⟨s, s1, s2⟩ := hv i (by omega)
      simp only [Vec.get, s1, bind_ok]
      refine Out.bind (hconv (by omega) s2) fun t ht => ?_
      refine Out.ok ⟨by simp [hx.1], fun j hj => ?_⟩
      rcases Nat.lt_succ_iff_lt_or_eq.mp hj with h | h
      · obtain ⟨u, u1, u2⟩ := hx.2 j h
        exact ⟨u, by rw [List.getElem?_append_left (by rw [hx.1]; exact h), u1], u2⟩
      · subst h
        exact ⟨t, by simp [← hx.1], ht⟩)
  simpa [ofArray] using this

theorem eqLoop_ok [CommRing K] {S : Scalar T} (hS : S.ExactRing rel A) {x y : List T} {n : Nat} {f g : Nat → K}
    (hx : On rel x n f) (hy : On rel y n g) (k : Nat) : ∀ i, i + k = n →
    Out A (eqLoop S x y i k) (fun b => b = true ↔ ∀ j, i ≤ j → j < n → f j = g j) := by
  induction k with
  | zero => intro i hi; exact Out.ok ⟨fun _ j h1 h2 => absurd h1 (by omega), fun _ => rfl⟩
  | succ k ih =>
    intro i hi
    refine Out.bind (hx.get (by omega)) fun a ha => ?_
    refine Out.bind (hy.get (by omega)) fun b hb => ?_
    refine Out.bind (hS.ne ha hb) fun d hd => ?_
    cases d with
    | true =>
      have := hd.mp rfl
      exact Out.ok ⟨fun h => by simp at h, fun h => absurd (h i le_rfl (by omega)) this⟩
    | false =>
      simp only [Bool.false_eq_true, if_false]
      have hfg : f i = g i := by by_contra h; exact absurd (hd.mpr h) (by simp)
      refine Out.mono (ih (i + 1) (by omega)) fun c hc => hc.trans ⟨fun h j h1 h2 => ?_, fun h j h1 h2 => h j (by omega) h2⟩
      rcases h1.eq_or_lt with h3 | h3
      · exact h3 ▸ hfg
      · exact h j h3 h2

theorem dot_ok [CommRing K] {S : Scalar T} (hS : S.ExactRing rel A) {x y : List T} {n : Nat} {f g : Fin n → K}
    (hx : Is rel x f) (hy : Is rel y g) : Out A (dot S x y) (fun t => rel t (f ⬝ᵥ g)) := by
  unfold dot
  rw [hx.1, hy.1]
  simp only [ne_eq, not_true_eq_false, if_false]
  refine Out.bind (hS.ofInt 0 (.inl rfl)) fun z hz => ?_
  refine Out.mono (forUp_ok (Inv := fun i r => rel r (∑ j ∈ Finset.range i, ext f j * ext g j)) ?_ ?_) ?_
  · simpa using hz
  · intro i r _ hi hr
    refine Out.bind (hx.on.get (by omega)) fun a ha => ?_
    refine Out.bind (hy.on.get (by omega)) fun b hb => ?_
    refine Out.bind (hS.mul ha hb) fun p hp => ?_
    rw [Finset.sum_range_succ]
    exact hS.addA hr hp
  · intro t ht
    rw [zero_add, Finset.sum_range] at ht
    simpa only [ext_fin, dotProduct] using ht

theorem crossEntry_ok [CommRing K] {S : Scalar T} (hS : S.ExactRing rel A) {x y : List T} {f g : Fin 3 → K}
    (hx : Is rel x f) (hy : Is rel y g) (i j k l : Fin 3) :
    Out A (crossEntry S x y i j k l) (fun t => rel t (f i * g j - f k * g l)) := by
  have e := fun (f : Fin 3 → K) (i : Fin 3) => (ext_fin f i).symm
  rw [e f i, e g j, e f k, e g l]
  refine Out.bind (hx.on.get i.2) fun a ha => ?_
  refine Out.bind (hy.on.get j.2) fun b hb => ?_
  refine Out.bind (hS.mul ha hb) fun p hp => ?_
  refine Out.bind (hx.on.get k.2) fun c hc => ?_
  refine Out.bind (hy.on.get l.2) fun d hd => ?_
  refine Out.bind (hS.mul hc hd) fun q hq => ?_
  exact hS.sub hp hq

theorem cross_ok [CommRing K] {S : Scalar T} (hS : S.ExactRing rel A) {x y : List T} {f g : Fin 3 → K}
    (hx : Is rel x f) (hy : Is rel y g) : Out A (cross S x y) (fun z => Is rel z (crossProduct f g)) := by
  unfold cross
  rw [hx.1, hy.1]
  simp only [ne_eq, not_true_eq_false, or_self, if_false]
  refine Out.bind (crossEntry_ok hS hx hy 1 2 2 1) fun a ha => ?_
  refine Out.bind (crossEntry_ok hS hx hy 2 0 0 2) fun b hb => ?_
  refine Out.bind (crossEntry_ok hS hx hy 0 1 1 0) fun c hc => ?_
  refine Out.mono (ofArray_ok (rs := rel) (w := ext (crossProduct f g)) (f := ext (crossProduct f g)) ?_ ?_) fun z hz =>
    hz.is (ext_fin _)
  · intro i hi
    interval_cases i
    · exact ⟨a, rfl, by simpa [cross_apply, ext] using ha⟩
    · exact ⟨b, rfl, by simpa [cross_apply, ext] using hb⟩
    · exact ⟨c, rfl, by simpa [cross_apply, ext] using hc⟩
  · intro s i _ hs
    exact Out.ok hs

theorem ofSize_ok [CommRing K] {S : Scalar T} (hS : S.ExactRing rel A) (n : Nat) :
    Out A (ofSize S n) (fun x => On rel x n (fun _ => 0)) := by
  refine Out.bind (hS.ofInt 0 (.inl rfl)) fun z hz => ?_
  refine Out.ok ⟨by simp, fun i hi => ⟨z, by simp [hi], by simpa using hz⟩⟩

theorem concatenate_ok [CommRing K] {S : Scalar T} (hS : S.ExactRing rel A) {x y : List T} {n m : Nat} {f g : Nat → K}
    (hx : On rel x n f) (hy : On rel y m g) :
    Out A (concatenate S x y) (fun z => On rel z (n + m) (fun i => if i < n then f i else g (i - n))) := by
  unfold concatenate
  rw [hx.1, hy.1]
  refine Out.bind (ofSize_ok hS _) fun r hr => ?_
  refine Out.bind (P := fun r => On rel r (n + m) (fun i => if i < n then f i else 0)) ?_ fun r hr => ?_
  · refine Out.mono (forUp_ok (Inv := fun k r => On rel r (n + m) (fun i => if i < k then f i else 0)) ?_ ?_) ?_
    · simpa using hr
    · intro i r _ hi hr
      refine Out.bind (hx.get (by omega)) fun t ht => ?_
      refine hr.set (by omega) (by simpa using ht) fun j _ hj => ?_
      by_cases h : j < i
      · simp [h, Nat.lt_succ_of_lt h]
      · simp [h, show ¬j < i + 1 by omega]
    · intro r hr; simpa using hr
  · refine Out.mono (forUp_ok (Inv := fun k r => On rel r (n + m) (fun i => if i < n then f i else
      if i < n + k then g (i - n) else 0)) ?_ ?_) ?_
    · refine hr.congr fun i _ => ?_
      by_cases h : i < n <;> simp [h]
    · intro i r _ hi hr
      refine Out.bind (hy.get (by omega)) fun t ht => ?_
      refine hr.set (by omega) (by simpa using ht) fun j _ hj => ?_
      by_cases h : j < n
      · simp [h]
      · by_cases h' : j < n + i
        · simp [h, h', show j < n + (i + 1) by omega]
        · simp [h, h', show ¬j < n + (i + 1) by omega]
    · intro r hr
      refine hr.congr fun i hi => ?_
      by_cases h : i < n <;> simp [h, hi]

theorem setEntries_ok {S L : Type} {conv : S → Res T} {vals : List S} {x : List T} {m n : Nat} {rs : S → L → Prop}
    {w : Nat → L} {f g : Nat → K} (hx : On rel x n g) (hmn : n ≤ m)
    (hv : ∀ i, i < n → ∃ s, vals[i]? = some s ∧ rs s (w i))
    (hconv : ∀ {s i}, i < n → rs s (w i) → Out A (conv s) (fun t => rel t (f i))) :
    Out A (setEntries conv x vals m) (fun x => On rel x n f) := by
  unfold setEntries setEntriesM
  rw [hx.1, if_neg (by omega), drop_forUp]
  refine loop_ok hx fun i x' hi hx' => ?_
  obtain ⟨s, s1, s2⟩ := hv i hi
  simp only [Vec.get, s1, bind_ok]
  exact Out.bind (hconv hi s2) fun t ht => mapStep hi hx' ht

theorem print_loop (pr : T → List Char) (x : List T) (k : Nat) : ∀ (i : Nat) (out : List Char), i + k ≤ x.length →
    forUp i k (fun i out => do
      let t ← get x i
      return out ++ pr t ++ [',', ' ']) out =
      (.ok (out ++ (((x.drop i).take k).map (fun t => pr t ++ [',', ' '])).flatten) : Res (List Char)) := by
  induction k with
  | zero => intro i out _; simp [forUp]
  | succ k ih =>
    intro i out h
    have hi : i < x.length := by omega
    have hg : Vec.get x i = .ok x[i] := by simp [Vec.get, hi]
    unfold forUp
    dsimp only
    rw [hg, bind_ok, pure_ok, bind_ok, ih (i + 1) _ (by omega)]
    rw [List.drop_eq_getElem_cons hi, List.take_succ_cons, List.map_cons, List.flatten_cons]
    simp only [List.append_assoc]

theorem intercalate_snoc (sep : List Char) (l : List (List Char)) (a : List Char) :
    sep.intercalate (l ++ [a]) = (l.map (· ++ sep)).flatten ++ a := by
  induction l with
  | nil => simp [List.intercalate]
  | cons b l ih =>
    cases l with
    | nil => simp [List.intercalate]
    | cons c l =>
      simp only [List.intercalate, List.cons_append, List.intersperse_cons_cons, List.flatten_cons, List.map_cons] at ih ⊢
      rw [ih]
      simp [List.append_assoc]

theorem print_eq (pr : T → List Char) (x : List T) :
    print pr x = .ok (['('] ++ [',', ' '].intercalate (x.map pr) ++ [')']) := by
  unfold print
  rw [print_loop pr x _ 0 _ (by omega)]
  rcases List.eq_nil_or_concat x with rfl | ⟨l, a, rfl⟩
  · simp [List.intercalate]
  · simp only [bind_ok, List.length_append, List.length_singleton, Nat.add_sub_cancel, List.concat_eq_append]
    rw [if_pos (by omega)]
    simp only [Vec.get, List.getElem?_concat_length, bind_ok, pure_ok, List.drop_zero, List.map_append, List.map_cons,
      List.map_nil, intercalate_snoc, List.take_left']
    simp [List.append_assoc, Function.comp_def]

end Vec
end CppMaths
