import Verif.Spec.Transfer
import Verif.Proofs.Scalar
/-!
# Transfer of computations between scalar types
-/

namespace CppMaths
variable {α β γ δ σ τ : Type} {A B : Err → Prop}

theorem Follows.pure {R : α → β → Prop} {a : α} {b : β} (h : R a b) :
    Follows A B R (Pure.pure a : Res α) (Pure.pure b : Res β) := .both h

theorem Follows.bind {R : α → β → Prop} {Q : γ → δ → Prop} {r : Res α} {r' : Res β} {f : α → Res γ} {f' : β → Res δ}
    (h : Follows A B R r r') (hf : ∀ a b, R a b → Follows A B Q (f a) (f' b)) : Follows A B Q (r >>= f) (r' >>= f') := by
  cases h with
  | both h => exact hf _ _ h
  | same => exact .same
  | skip h => exact .skip h
  | fail h => exact .fail h

theorem Follows.mono {R Q : α → β → Prop} {r : Res α} {r' : Res β} (h : Follows A B R r r') (hq : ∀ a b, R a b → Q a b) :
    Follows A B Q r r' := by
  cases h with
  | both h => exact .both (hq _ _ h)
  | same => exact .same
  | skip h => exact .skip h
  | fail h => exact .fail h

theorem Follows.forUp {R : σ → τ → Prop} {body : Nat → σ → Res σ} {body' : Nat → τ → Res τ}
    (hb : ∀ i s s', R s s' → Follows A B R (body i s) (body' i s')) (n : Nat) :
    ∀ (lo : Nat) (s : σ) (s' : τ), R s s' → Follows A B R (forUp lo n body s) (forUp lo n body' s') := by
  induction n with
  | zero => intro lo s s' h; exact .both h
  | succ n ih => intro lo s s' h; exact Follows.bind (hb lo s s' h) fun t t' ht => ih (lo + 1) t t' ht

theorem Follows.forEach {R : σ → τ → Prop} {r c r' c' : Nat} {body : Nat → Nat → σ → Res σ} {body' : Nat → Nat → τ → Res τ}
    {s : σ} {s' : τ} (hr : r = r') (hc : c = c') (hs : R s s')
    (hb : ∀ i j s s', R s s' → Follows A B R (body i j s) (body' i j s')) :
    Follows A B R (Mat.forEach r c body s) (Mat.forEach r' c' body' s') := by
  subst hr hc
  exact Follows.forUp (fun i s s' h => Follows.forUp (fun j s s' h => hb i j s s' h) c 0 s s' h) r 0 s s' hs

theorem Follows.ite {R : α → β → Prop} {p q : Prop} [Decidable p] [Decidable q] {r1 r2 : Res α} {r1' r2' : Res β} (hpq : p ↔ q)
    (h1 : q → Follows A B R r1 r1') (h2 : ¬q → Follows A B R r2 r2') : Follows A B R (if p then r1 else r2) (if q then r1' else r2') := by
  by_cases hq : q
  · rw [if_pos hq, if_pos (hpq.mpr hq)]; exact h1 hq
  · rw [if_neg hq, if_neg (fun h => hq (hpq.mp h))]; exact h2 hq

section
variable {T T' : Type} {S : Scalar T} {S' : Scalar T'} {R : T → T' → Prop}

theorem forall₂_get? {x : List α} {y : List β} {Q : α → β → Prop} (h : List.Forall₂ Q x y) (i : Nat) :
    (∃ a b, x[i]? = some a ∧ y[i]? = some b ∧ Q a b) ∨ (x[i]? = none ∧ y[i]? = none) := by
  induction h generalizing i with
  | nil => right; simp
  | cons hab _ ih =>
    cases i with
    | zero => left; exact ⟨_, _, rfl, rfl, hab⟩
    | succ i => simpa using ih i

theorem forall₂_set {x : List α} {y : List β} {Q : α → β → Prop} (h : List.Forall₂ Q x y) {a : α} {b : β} (hab : Q a b) (i : Nat) :
    List.Forall₂ Q (x.set i a) (y.set i b) := by
  induction h generalizing i with
  | nil => simp
  | cons h1 h2 ih =>
    cases i with
    | zero => exact .cons hab h2
    | succ i => exact .cons h1 (ih i)

theorem forall₂_replicate {Q : α → β → Prop} {a : α} {b : β} (h : Q a b) (n : Nat) :
    List.Forall₂ Q (List.replicate n a) (List.replicate n b) := by
  induction n with
  | zero => exact .nil
  | succ n ih => exact .cons h ih

theorem forall₂_append {Q : α → β → Prop} {x x' : List α} {y y' : List β} (h : List.Forall₂ Q x y) (h' : List.Forall₂ Q x' y') :
    List.Forall₂ Q (x ++ x') (y ++ y') := by
  induction h with
  | nil => exact h'
  | cons h1 _ ih => exact .cons h1 ih

namespace Vec

theorem get_fol {x : List T} {x' : List T'} (h : List.Forall₂ R x x') (i : Nat) : Follows A B R (get x i) (get x' i) := by
  unfold get
  rcases forall₂_get? h i with ⟨a, b, h1, h2, h3⟩ | ⟨h1, h2⟩
  · rw [h1, h2]; exact .both h3
  · rw [h1, h2]; exact .same

theorem set_fol {x : List T} {x' : List T'} (h : List.Forall₂ R x x') (i : Nat) {t : T} {t' : T'} (ht : R t t') :
    Follows A B (List.Forall₂ R) (set x i t) (set x' i t') := by
  unfold set
  rw [h.length_eq]
  exact Follows.ite Iff.rfl (fun _ => .both (forall₂_set h ht i)) fun _ => .same

theorem ofSize_fol (h : S.SimCore S' R A B) (n : Nat) : Follows A B (List.Forall₂ R) (ofSize S n) (ofSize S' n) :=
  Follows.bind (h.ofInt 0 (.inl rfl)) fun _ _ hz => .pure (forall₂_replicate hz n)

theorem ofArray_fol {x : List T} {x' : List T'} (h : List.Forall₂ R x x') (n : Nat) :
    Follows A B (List.Forall₂ R) (ofArray .ok x n) (ofArray .ok x' n) := by
  refine Follows.forUp (fun i s s' hs => ?_) n 0 [] [] .nil
  refine Follows.bind (get_fol h i) fun a b hab => ?_
  exact .pure (forall₂_append hs (.cons hab .nil))

theorem setAll_fol {x : List T} {x' : List T'} (h : List.Forall₂ R x x') {t : T} {t' : T'} (ht : R t t') :
    Follows A B (List.Forall₂ R) (setAll .ok x t) (setAll .ok x' t') := by
  unfold setAll
  rw [h.length_eq]
  exact .both (forall₂_replicate ht _)

theorem setEntries_fol {x y : List T} {x' y' : List T'} (h : List.Forall₂ R x x') (hy : List.Forall₂ R y y') (n : Nat) :
    Follows A B (List.Forall₂ R) (setEntries .ok x y n) (setEntries .ok x' y' n) := by
  unfold setEntries setEntriesM
  rw [h.length_eq]
  by_cases hn : n < x'.length
  · rw [if_pos hn, if_pos hn]; exact .same
  · rw [if_neg hn, if_neg hn, drop_forUp, drop_forUp]
    refine Follows.forUp (fun i s s' hs => ?_) _ 0 x x' h
    exact Follows.bind (get_fol hy i) fun a b hab => set_fol hs i hab

theorem zipLoop_fol {op : T → T → Res T} {op' : T' → T' → Res T'} {src : List T → List T} {src' : List T' → List T'}
    (hop : ∀ {x y x' y'}, R x x' → R y y' → Follows A B R (op x y) (op' x' y'))
    (hsrc : ∀ {x x'}, List.Forall₂ R x x' → List.Forall₂ R (src x) (src' x')) (n : Nat)
    {x : List T} {x' : List T'} (h : List.Forall₂ R x x') :
    Follows A B (List.Forall₂ R) (zipLoop op src n x) (zipLoop op' src' n x') := by
  refine Follows.forUp (fun i s s' hs => ?_) n 0 x x' h
  exact Follows.bind (get_fol hs i) fun a b hab => Follows.bind (get_fol (hsrc hs) i) fun c d hcd =>
    Follows.bind (hop hab hcd) fun t t' ht => set_fol hs i ht

theorem mapLoop_fol {op : T → T → Res T} {op' : T' → T' → Res T'} {src : List T → Res T} {src' : List T' → Res T'}
    (hop : ∀ {x y x' y'}, R x x' → R y y' → Follows A B R (op x y) (op' x' y'))
    (hsrc : ∀ {x x'}, List.Forall₂ R x x' → Follows A B R (src x) (src' x'))
    {x : List T} {x' : List T'} (h : List.Forall₂ R x x') :
    Follows A B (List.Forall₂ R) (mapLoop op src x) (mapLoop op' src' x') := by
  unfold mapLoop
  rw [h.length_eq]
  refine Follows.forUp (fun i s s' hs => ?_) _ 0 x x' h
  exact Follows.bind (get_fol hs i) fun a b hab => Follows.bind (hsrc hs) fun c d hcd =>
    Follows.bind (hop hab hcd) fun t t' ht => set_fol hs i ht

variable {x y z : List T} {x' y' z' : List T'} {a : T} {a' : T'}

theorem add_fol (h : S.SimCore S' R A B) (hx : List.Forall₂ R x x') (hy : List.Forall₂ R y y') :
    Follows A B (List.Forall₂ R) (add S x y) (add S' x' y') := by
  unfold add
  rw [hx.length_eq, hy.length_eq]
  exact Follows.ite Iff.rfl (fun _ => .same) fun _ => zipLoop_fol h.addA (fun _ => hy) _ hx

theorem sub_fol (h : S.SimCore S' R A B) (hx : List.Forall₂ R x x') (hy : List.Forall₂ R y y') :
    Follows A B (List.Forall₂ R) (sub S x y) (sub S' x' y') := by
  unfold sub
  rw [hx.length_eq, hy.length_eq]
  exact Follows.ite Iff.rfl (fun _ => .same) fun _ => zipLoop_fol h.subA (fun _ => hy) _ hx

theorem addAssignRef_fol (h : S.SimCore S' R A B) {src : List T → List T} {src' : List T' → List T'}
    (hsrc : ∀ {x x'}, List.Forall₂ R x x' → List.Forall₂ R (src x) (src' x')) (hx : List.Forall₂ R x x') :
    Follows A B (List.Forall₂ R) (addAssignRef S x src) (addAssignRef S' x' src') := by
  unfold addAssignRef
  rw [(hsrc hx).length_eq, hx.length_eq]
  exact Follows.ite Iff.rfl (fun _ => .same) fun _ => zipLoop_fol h.addA hsrc _ hx

theorem subAssignRef_fol (h : S.SimCore S' R A B) {src : List T → List T} {src' : List T' → List T'}
    (hsrc : ∀ {x x'}, List.Forall₂ R x x' → List.Forall₂ R (src x) (src' x')) (hx : List.Forall₂ R x x') :
    Follows A B (List.Forall₂ R) (subAssignRef S x src) (subAssignRef S' x' src') := by
  unfold subAssignRef
  rw [(hsrc hx).length_eq, hx.length_eq]
  exact Follows.ite Iff.rfl (fun _ => .same) fun _ => zipLoop_fol h.subA hsrc _ hx

theorem smul_fol (h : S.SimMulA S' R A B) (ha : R a a') (hx : List.Forall₂ R x x') :
    Follows A B (List.Forall₂ R) (smul S a x) (smul S' a' x') := mapLoop_fol h (fun _ => .both ha) hx

theorem divScalar_fol (h : S.SimDiv S' R A B) (ha : R a a') (hx : List.Forall₂ R x x') :
    Follows A B (List.Forall₂ R) (divScalar S x a) (divScalar S' x' a') := mapLoop_fol h.divA (fun _ => .both ha) hx

theorem mulAssignEntry_fol (h : S.SimMulA S' R A B) (k : Nat) (hx : List.Forall₂ R x x') :
    Follows A B (List.Forall₂ R) (mulAssignEntry S x k) (mulAssignEntry S' x' k) := mapLoop_fol h (fun hx => get_fol hx k) hx

theorem divAssignEntry_fol (h : S.SimDiv S' R A B) (k : Nat) (hx : List.Forall₂ R x x') :
    Follows A B (List.Forall₂ R) (divAssignEntry S x k) (divAssignEntry S' x' k) := mapLoop_fol h.divA (fun hx => get_fol hx k) hx

theorem eqLoop_fol (h : S.SimCore S' R A B) (hx : List.Forall₂ R x x') (hy : List.Forall₂ R y y') (n : Nat) :
    ∀ i, Follows A B Eq (eqLoop S x y i n) (eqLoop S' x' y' i n) := by
  induction n with
  | zero => intro i; exact .both rfl
  | succ n ih =>
    intro i
    refine Follows.bind (get_fol hx i) fun a b hab => Follows.bind (get_fol hy i) fun c d hcd => Follows.bind (h.ne hab hcd) ?_
    rintro u _ rfl
    exact Follows.ite Iff.rfl (fun _ => .pure rfl) fun _ => ih (i + 1)

theorem eq_fol (h : S.SimCore S' R A B) (hx : List.Forall₂ R x x') (hy : List.Forall₂ R y y') :
    Follows A B Eq (eq S x y) (eq S' x' y') := by
  unfold eq
  rw [hx.length_eq, hy.length_eq]
  exact Follows.ite Iff.rfl (fun _ => .both rfl) fun _ => eqLoop_fol h hx hy _ 0

theorem ne_fol (h : S.SimCore S' R A B) (hx : List.Forall₂ R x x') (hy : List.Forall₂ R y y') :
    Follows A B Eq (ne S x y) (ne S' x' y') :=
  Follows.bind (eq_fol h hx hy) fun u v huv => .pure (by rw [huv])

theorem constantVec_fol (h : S.SimCore S' R A B) (n : Nat) (ha : R a a') :
    Follows A B (List.Forall₂ R) (constantVec S n a) (constantVec S' n a') :=
  Follows.bind (ofSize_fol h n) fun _ _ hr => setAll_fol hr ha

theorem dot_fol (h : S.SimCore S' R A B) (hx : List.Forall₂ R x x') (hy : List.Forall₂ R y y') :
    Follows A B R (dot S x y) (dot S' x' y') := by
  unfold dot
  rw [hx.length_eq, hy.length_eq]
  refine Follows.ite Iff.rfl (fun _ => .same) fun _ => Follows.bind (h.ofInt 0 (.inl rfl)) fun z z' hz => ?_
  refine Follows.forUp (fun i s s' hs => ?_) _ 0 z z' hz
  exact Follows.bind (get_fol hx i) fun a b hab => Follows.bind (get_fol hy i) fun c d hcd =>
    Follows.bind (h.mul hab hcd) fun p q hpq => h.addA hs hpq

theorem crossEntry_fol (h : S.SimCore S' R A B) (hx : List.Forall₂ R x x') (hy : List.Forall₂ R y y') (i j k l : Nat) :
    Follows A B R (crossEntry S x y i j k l) (crossEntry S' x' y' i j k l) :=
  Follows.bind (get_fol hx i) fun _ _ h1 => Follows.bind (get_fol hy j) fun _ _ h2 => Follows.bind (h.mul h1 h2) fun _ _ h3 =>
    Follows.bind (get_fol hx k) fun _ _ h4 => Follows.bind (get_fol hy l) fun _ _ h5 => Follows.bind (h.mul h4 h5) fun _ _ h6 =>
    h.sub h3 h6

theorem cross_fol (h : S.SimCore S' R A B) (hx : List.Forall₂ R x x') (hy : List.Forall₂ R y y') :
    Follows A B (List.Forall₂ R) (cross S x y) (cross S' x' y') := by
  unfold cross
  rw [hx.length_eq, hy.length_eq]
  refine Follows.ite Iff.rfl (fun _ => .same) fun _ => ?_
  exact Follows.bind (crossEntry_fol h hx hy ..) fun _ _ h1 => Follows.bind (crossEntry_fol h hx hy ..) fun _ _ h2 =>
    Follows.bind (crossEntry_fol h hx hy ..) fun _ _ h3 => ofArray_fol (.cons h1 (.cons h2 (.cons h3 .nil))) 3

theorem concatenate_fol (h : S.SimCore S' R A B) (hx : List.Forall₂ R x x') (hy : List.Forall₂ R y y') :
    Follows A B (List.Forall₂ R) (concatenate S x y) (concatenate S' x' y') := by
  unfold concatenate
  rw [hx.length_eq, hy.length_eq]
  refine Follows.bind (ofSize_fol h _) fun r r' hr => Follows.bind (R := List.Forall₂ R) ?_ fun r r' hr => ?_
  · exact Follows.forUp (fun i s s' hs => Follows.bind (get_fol hx i) fun _ _ ht => set_fol hs i ht) _ 0 r r' hr
  · refine Follows.forUp (fun i s s' hs => ?_) _ 0 r r' hr
    exact Follows.bind (get_fol hy i) fun _ _ ht => set_fol hs _ ht

end Vec

namespace Mat
variable {m n : Mat T} {m' n' : Mat T'} {a : T} {a' : T'}

theorem dataAt_fol (h : m.Rel R m') (k : Nat) : Follows A B R (m.dataAt k) (m'.dataAt k) := by
  unfold dataAt
  rcases forall₂_get? h.2.2 k with ⟨a, b, h1, h2, h3⟩ | ⟨h1, h2⟩
  · rw [h1, h2]
    cases a <;> cases b
    · exact .same
    · exact h3.elim
    · exact h3.elim
    · exact .both h3
  · rw [h1, h2]; exact .same

theorem get_fol (h : m.Rel R m') (i j : Nat) : Follows A B R (m.get i j) (m'.get i j) := by
  show Follows A B R (m.dataAt (i * m.cols + j)) (m'.dataAt (i * m'.cols + j))
  rw [h.2.1]
  exact dataAt_fol h _

theorem set_fol (h : m.Rel R m') (i j : Nat) (ha : R a a') : Follows A B (Mat.Rel R) (m.set i j a) (m'.set i j a') := by
  unfold set
  rw [h.2.1, h.2.2.length_eq]
  refine Follows.ite Iff.rfl (fun _ => .both ⟨h.1, rfl, ?_⟩) fun _ => .same
  exact forall₂_set h.2.2 (show CellRel R (some a) (some a') from ha) _

theorem arrayAt_fol {x : List T} {x' : List T'} (h : List.Forall₂ R x x') (i : Nat) : Follows A B R (arrayAt x i) (arrayAt x' i) :=
  Vec.get_fol h i

theorem alloc_rel (r c : Nat) : (alloc r c : Mat T).Rel R (alloc r c : Mat T') :=
  ⟨rfl, rfl, forall₂_replicate (Q := CellRel R) (a := none) (b := none) trivial _⟩

theorem setEntries_fol (h : m.Rel R m') {x : List T} {x' : List T'} (hx : List.Forall₂ R x x') (n : Nat) :
    Follows A B (Mat.Rel R) (m.setEntries x n) (m'.setEntries x' n) := by
  unfold setEntries
  rw [h.1, h.2.1]
  refine Follows.ite Iff.rfl (fun _ => .same) fun _ => Follows.forEach rfl rfl h fun i j s s' hs => ?_
  rw [hs.2.1]
  exact Follows.bind (arrayAt_fol hx _) fun _ _ ht => set_fol hs i j ht

theorem setAll_fol (h : m.Rel R m') (ha : R a a') : Follows A B (Mat.Rel R) (m.setAll a) (m'.setAll a') :=
  Follows.forEach h.1 h.2.1 h fun i j _ _ hs => Follows.bind (.both ha) fun _ _ ht => set_fol hs i j ht

theorem copy_fol (h : m.Rel R m') : Follows A B (Mat.Rel R) m.copy m'.copy := by
  unfold copy
  rw [h.1, h.2.1]
  exact Follows.forEach rfl rfl (alloc_rel ..) fun i j _ _ hs => Follows.bind (dataAt_fol h _) fun _ _ ht => set_fol hs i j ht

theorem filled_fol (r c : Nat) (ha : R a a') : Follows A B (Mat.Rel R) (filled r c a) (filled r c a') :=
  setAll_fol (alloc_rel r c) ha

theorem ofArray_fol {x : List T} {x' : List T'} (hx : List.Forall₂ R x x') (r c : Nat) :
    Follows A B (Mat.Rel R) (ofArray x r c) (ofArray x' r c) := setEntries_fol (alloc_rel r c) hx _

theorem dimensionsMatch_rel (h : m.Rel R m') (hn : n.Rel R n') : dimensionsMatch m n = dimensionsMatch m' n' := by
  unfold dimensionsMatch
  rw [h.1, h.2.1, hn.1, hn.2.1]

theorem neg_fol (h : S.SimNeg S' R A B) (hm : m.Rel R m') : Follows A B (Mat.Rel R) (neg S m) (neg S' m') := by
  unfold neg
  rw [hm.1, hm.2.1]
  exact Follows.forEach rfl rfl (alloc_rel ..) fun i j _ _ hs => Follows.bind (get_fol hm i j) fun _ _ h1 =>
    Follows.bind (h h1) fun _ _ h2 => set_fol hs i j h2

theorem add_fol (h : S.SimCore S' R A B) (hm : m.Rel R m') (hn : n.Rel R n') : Follows A B (Mat.Rel R) (add S m n) (add S' m' n') := by
  unfold add
  rw [dimensionsMatch_rel hm hn, hm.1, hm.2.1]
  exact Follows.ite Iff.rfl (fun _ => .same) fun _ => Follows.forEach rfl rfl (alloc_rel ..) fun i j _ _ hs =>
    Follows.bind (get_fol hm i j) fun _ _ h1 => Follows.bind (get_fol hn i j) fun _ _ h2 =>
    Follows.bind (h.add h1 h2) fun _ _ h3 => set_fol hs i j h3

theorem sub_fol (h : S.SimCore S' R A B) (hm : m.Rel R m') (hn : n.Rel R n') : Follows A B (Mat.Rel R) (sub S m n) (sub S' m' n') := by
  unfold sub
  rw [dimensionsMatch_rel hm hn, hm.1, hm.2.1]
  exact Follows.ite Iff.rfl (fun _ => .same) fun _ => Follows.forEach rfl rfl (alloc_rel ..) fun i j _ _ hs =>
    Follows.bind (get_fol hm i j) fun _ _ h1 => Follows.bind (get_fol hn i j) fun _ _ h2 =>
    Follows.bind (h.sub h1 h2) fun _ _ h3 => set_fol hs i j h3

theorem zipLoop_fol {op : T → T → Res T} {op' : T' → T' → Res T'} {src : Mat T → Mat T} {src' : Mat T' → Mat T'}
    (hop : ∀ {x y x' y'}, R x x' → R y y' → Follows A B R (op x y) (op' x' y'))
    (hsrc : ∀ {x x'}, x.Rel R x' → (src x).Rel R (src' x')) (h : m.Rel R m') :
    Follows A B (Mat.Rel R) (zipLoop op m src) (zipLoop op' m' src') :=
  Follows.forEach h.1 h.2.1 h fun i j _ _ hs => Follows.bind (get_fol hs i j) fun _ _ h1 =>
    Follows.bind (get_fol (hsrc hs) i j) fun _ _ h2 => Follows.bind (hop h1 h2) fun _ _ h3 => set_fol hs i j h3

theorem mapLoop_fol {op : T → T → Res T} {op' : T' → T' → Res T'} {src : Mat T → Res T} {src' : Mat T' → Res T'}
    (hop : ∀ {x y x' y'}, R x x' → R y y' → Follows A B R (op x y) (op' x' y'))
    (hsrc : ∀ {x x'}, x.Rel R x' → Follows A B R (src x) (src' x')) (h : m.Rel R m') :
    Follows A B (Mat.Rel R) (mapLoop op m src) (mapLoop op' m' src') :=
  Follows.forEach h.1 h.2.1 h fun i j _ _ hs => Follows.bind (get_fol hs i j) fun _ _ h1 =>
    Follows.bind (hsrc hs) fun _ _ h2 => Follows.bind (hop h1 h2) fun _ _ h3 => set_fol hs i j h3

theorem addAssignRef_fol (h : S.SimCore S' R A B) {src : Mat T → Mat T} {src' : Mat T' → Mat T'}
    (hsrc : ∀ {x x'}, x.Rel R x' → (src x).Rel R (src' x')) (hm : m.Rel R m') :
    Follows A B (Mat.Rel R) (addAssignRef S m src) (addAssignRef S' m' src') := by
  unfold addAssignRef
  rw [dimensionsMatch_rel hm (hsrc hm)]
  exact Follows.ite Iff.rfl (fun _ => .same) fun _ => zipLoop_fol h.addA hsrc hm

theorem subAssignRef_fol (h : S.SimCore S' R A B) {src : Mat T → Mat T} {src' : Mat T' → Mat T'}
    (hsrc : ∀ {x x'}, x.Rel R x' → (src x).Rel R (src' x')) (hm : m.Rel R m') :
    Follows A B (Mat.Rel R) (subAssignRef S m src) (subAssignRef S' m' src') := by
  unfold subAssignRef
  rw [dimensionsMatch_rel hm (hsrc hm)]
  exact Follows.ite Iff.rfl (fun _ => .same) fun _ => zipLoop_fol h.subA hsrc hm

theorem smul_fol (h : S.SimCore S' R A B) (ha : R a a') (hm : m.Rel R m') : Follows A B (Mat.Rel R) (smul S a m) (smul S' a' m') := by
  unfold smul
  rw [hm.1, hm.2.1]
  exact Follows.forEach rfl rfl (alloc_rel ..) fun i j _ _ hs => Follows.bind (get_fol hm i j) fun _ _ h1 =>
    Follows.bind (h.mul ha h1) fun _ _ h2 => set_fol hs i j h2

theorem divScalar_fol (h : S.SimDiv S' R A B) (ha : R a a') (hm : m.Rel R m') :
    Follows A B (Mat.Rel R) (divScalar S m a) (divScalar S' m' a') := by
  unfold divScalar
  rw [hm.1, hm.2.1]
  exact Follows.forEach rfl rfl (alloc_rel ..) fun i j _ _ hs => Follows.bind (get_fol hm i j) fun _ _ h1 =>
    Follows.bind (h.div h1 ha) fun _ _ h2 => set_fol hs i j h2

theorem mulLoops_fol (h : S.SimCore S' R A B) (hm : m.Rel R m') (hn : n.Rel R n') {r : Mat T} {r' : Mat T'} (hr : r.Rel R r')
    (p q s : Nat) : Follows A B (Mat.Rel R)
      (forUp 0 p (fun i r => forUp 0 q (fun k r => forUp 0 s (fun j r => do
        let x ← m.get i k
        let y ← n.get k j
        let p ← S.mul x y
        let z ← r.get i j
        let t ← S.addA z p
        r.set i j t) r) r) r)
      (forUp 0 p (fun i r => forUp 0 q (fun k r => forUp 0 s (fun j r => do
        let x ← m'.get i k
        let y ← n'.get k j
        let p ← S'.mul x y
        let z ← r.get i j
        let t ← S'.addA z p
        r.set i j t) r) r) r') := by
  refine Follows.forUp (fun i s s' hs => ?_) _ 0 r r' hr
  refine Follows.forUp (fun k s s' hs => ?_) _ 0 s s' hs
  refine Follows.forUp (fun j s s' hs => ?_) _ 0 s s' hs
  exact Follows.bind (get_fol hm i k) fun _ _ h1 => Follows.bind (get_fol hn k j) fun _ _ h2 =>
    Follows.bind (h.mul h1 h2) fun _ _ h3 => Follows.bind (get_fol hs i j) fun _ _ h4 =>
    Follows.bind (h.addA h4 h3) fun _ _ h5 => set_fol hs i j h5

theorem mul_fol (h : S.SimCore S' R A B) (hm : m.Rel R m') (hn : n.Rel R n') : Follows A B (Mat.Rel R) (mul S m n) (mul S' m' n') := by
  unfold mul
  rw [hm.1, hm.2.1, hn.1, hn.2.1]
  exact Follows.ite Iff.rfl (fun _ => .same) fun _ => Follows.bind (h.ofInt 0 (.inl rfl)) fun _ _ hz =>
    Follows.bind (filled_fol _ _ hz) fun _ _ hr => mulLoops_fol h hm hn hr _ _ _

theorem mulAssign_fol (h : S.SimCore S' R A B) (hm : m.Rel R m') (hn : n.Rel R n') :
    Follows A B (Mat.Rel R) (mulAssign S m n) (mulAssign S' m' n') := by
  unfold mulAssign
  rw [hm.1, hm.2.1, hn.1, hn.2.1]
  exact Follows.ite Iff.rfl (fun _ => .same) fun _ => Follows.bind (h.ofInt 0 (.inl rfl)) fun _ _ hz =>
    Follows.bind (filled_fol _ _ hz) fun _ _ hr => Follows.bind (mulLoops_fol h hm hn hr _ _ _) fun _ _ ht => .pure ht

theorem eqRow_fol (h : S.SimCore S' R A B) (hm : m.Rel R m') (hn : n.Rel R n') (i k : Nat) :
    ∀ j, Follows A B Eq (eqRow S m n i j k) (eqRow S' m' n' i j k) := by
  induction k with
  | zero => intro j; exact .both rfl
  | succ k ih =>
    intro j
    refine Follows.bind (get_fol hm i j) fun a b hab => Follows.bind (get_fol hn i j) fun c d hcd => Follows.bind (h.ne hab hcd) ?_
    rintro u _ rfl
    exact Follows.ite Iff.rfl (fun _ => .pure rfl) fun _ => ih (j + 1)

theorem eqRows_fol (h : S.SimCore S' R A B) (hm : m.Rel R m') (hn : n.Rel R n') (k : Nat) :
    ∀ i, Follows A B Eq (eqRows S m n i k) (eqRows S' m' n' i k) := by
  induction k with
  | zero => intro j; exact .both rfl
  | succ k ih =>
    intro i
    unfold eqRows
    rw [hm.2.1]
    refine Follows.bind (eqRow_fol h hm hn i _ 0) ?_
    rintro u _ rfl
    exact Follows.ite Iff.rfl (fun _ => ih (i + 1)) fun _ => .pure rfl

theorem eq_fol (h : S.SimCore S' R A B) (hm : m.Rel R m') (hn : n.Rel R n') : Follows A B Eq (eq S m n) (eq S' m' n') := by
  unfold eq
  rw [dimensionsMatch_rel hm hn, hm.1]
  exact Follows.ite Iff.rfl (fun _ => .both rfl) fun _ => eqRows_fol h hm hn _ 0

theorem ne_fol (h : S.SimCore S' R A B) (hm : m.Rel R m') (hn : n.Rel R n') : Follows A B Eq (ne S m n) (ne S' m' n') :=
  Follows.bind (eq_fol h hm hn) fun _ _ hu => .pure (by rw [hu])

theorem firstMinor_fol (hm : m.Rel R m') (i j : Nat) : Follows A B (Mat.Rel R) (firstMinor m i j) (firstMinor m' i j) := by
  unfold firstMinor
  rw [hm.1, hm.2.1]
  refine Follows.ite Iff.rfl (fun _ => .same) fun _ => Follows.forUp (fun a s s' hs => ?_) _ 0 _ _ (alloc_rel ..)
  refine Follows.forUp (fun b s s' hs => ?_) _ 0 _ _ hs
  exact Follows.bind (get_fol hm _ _) fun _ _ h1 => set_fol hs a b h1

theorem cofactor_fol (h : S.SimNeg S' R A B) (hm : m.Rel R m') (i j : Nat) :
    Follows A B (Mat.Rel R) (cofactor S m i j) (cofactor S' m' i j) := by
  unfold cofactor
  exact Follows.ite Iff.rfl (fun _ => Follows.bind (firstMinor_fol hm i j) fun _ _ hr => neg_fol h hr) fun _ => firstMinor_fol hm i j

theorem neZero_fol (h : S.SimCore S' R A B) (ha : R a a') : Follows A B Eq (neZero S a) (neZero S' a') :=
  Follows.bind (h.ofInt 0 (.inl rfl)) fun _ _ hz => h.ne ha hz

theorem eqZero_fol (h : S.SimCore S' R A B) (ha : R a a') : Follows A B Eq (eqZero S a) (eqZero S' a') :=
  Follows.bind (h.ofInt 0 (.inl rfl)) fun _ _ hz => h.eq ha hz

theorem det2_fol (h : S.SimCore S' R A B) (hm : m.Rel R m') : Follows A B R (det2 S m) (det2 S' m') :=
  Follows.bind (dataAt_fol hm _) fun _ _ h1 => Follows.bind (dataAt_fol hm _) fun _ _ h2 => Follows.bind (h.mul h1 h2) fun _ _ h3 =>
    Follows.bind (dataAt_fol hm _) fun _ _ h4 => Follows.bind (dataAt_fol hm _) fun _ _ h5 => Follows.bind (h.mul h4 h5) fun _ _ h6 =>
    h.sub h3 h6

theorem rowCofactorF_fol (h : S.SimCore S' R A B) (fuel : Nat) : ∀ (m : Mat T) (m' : Mat T'), m.Rel R m' →
    Follows A B R (rowCofactorF S fuel m) (rowCofactorF S' fuel m') := by
  induction fuel with
  | zero => intro m m' _; exact .same
  | succ fuel ih =>
    intro m m' hm
    unfold rowCofactorF
    rw [hm.1, hm.2.1]
    refine Follows.ite Iff.rfl (fun _ => .same) fun _ => Follows.ite Iff.rfl (fun _ => dataAt_fol hm 0) fun _ =>
      Follows.ite Iff.rfl (fun _ => det2_fol h hm) fun _ => ?_
    refine Follows.bind (h.ofInt 0 (.inl rfl)) fun z z' hz => Follows.forUp (fun j s s' hs => ?_) _ 0 z z' hz
    refine Follows.bind (get_fol hm 0 j) fun e e' he => Follows.bind (neZero_fol h he) ?_
    rintro u _ rfl
    refine Follows.ite Iff.rfl (fun _ => ?_) fun _ => .pure hs
    refine Follows.bind (get_fol hm 0 j) fun e e' he => Follows.bind (firstMinor_fol hm 0 j) fun _ _ hsub =>
      Follows.bind (ih _ _ hsub) fun _ _ hd => Follows.bind (h.mul he hd) fun _ _ hp => ?_
    exact Follows.ite Iff.rfl (fun _ => h.subA hs hp) fun _ => h.addA hs hp

theorem colCofactorF_fol (h : S.SimCore S' R A B) (fuel : Nat) : ∀ (m : Mat T) (m' : Mat T'), m.Rel R m' →
    Follows A B R (colCofactorF S fuel m) (colCofactorF S' fuel m') := by
  induction fuel with
  | zero => intro m m' _; exact .same
  | succ fuel ih =>
    intro m m' hm
    unfold colCofactorF
    rw [hm.1, hm.2.1]
    refine Follows.ite Iff.rfl (fun _ => .same) fun _ => Follows.ite Iff.rfl (fun _ => dataAt_fol hm 0) fun _ =>
      Follows.ite Iff.rfl (fun _ => det2_fol h hm) fun _ => ?_
    refine Follows.bind (h.ofInt 0 (.inl rfl)) fun z z' hz => Follows.forUp (fun j s s' hs => ?_) _ 0 z z' hz
    refine Follows.bind (get_fol hm j 0) fun e e' he => Follows.bind (neZero_fol h he) ?_
    rintro u _ rfl
    refine Follows.ite Iff.rfl (fun _ => ?_) fun _ => .pure hs
    refine Follows.bind (get_fol hm j 0) fun e e' he => Follows.bind (firstMinor_fol hm j 0) fun _ _ hsub =>
      Follows.bind (ih _ _ hsub) fun _ _ hd => Follows.bind (h.mul he hd) fun _ _ hp => ?_
    exact Follows.ite Iff.rfl (fun _ => h.subA hs hp) fun _ => h.addA hs hp

theorem rowCofactor_fol (h : S.SimCore S' R A B) (hm : m.Rel R m') : Follows A B R (rowCofactor S m) (rowCofactor S' m') := by
  unfold rowCofactor
  rw [hm.1]
  exact rowCofactorF_fol h _ _ _ hm

theorem colCofactor_fol (h : S.SimCore S' R A B) (hm : m.Rel R m') : Follows A B R (colCofactor S m) (colCofactor S' m') := by
  unfold colCofactor
  rw [hm.1]
  exact colCofactorF_fol h _ _ _ hm

theorem findPivot_fol (h : S.SimCore S' R A B) (hm : m.Rel R m') (r : Nat) (fuel : Nat) :
    ∀ i p, Follows A B Eq (findPivot S m r fuel i p) (findPivot S' m' r fuel i p) := by
  induction fuel with
  | zero => intro i p; exact .same
  | succ fuel ih =>
    intro i p
    unfold findPivot
    rw [hm.1, hm.2.1]
    refine Follows.bind (get_fol hm i p) fun _ _ he => Follows.bind (eqZero_fol h he) ?_
    rintro u _ rfl
    refine Follows.ite Iff.rfl (fun _ => ?_) fun _ => .pure rfl
    refine Follows.ite Iff.rfl (fun _ => ?_) fun _ => ih _ _
    exact Follows.ite Iff.rfl (fun _ => .pure rfl) fun _ => ih _ _

theorem swapRows_fol (hm : m.Rel R m') (i j : Nat) : Follows A B (Mat.Rel R) (swapRows m i j) (swapRows m' i j) := by
  unfold swapRows
  rw [hm.2.1]
  refine Follows.ite Iff.rfl (fun _ => Follows.forUp (fun k s s' hs => ?_) _ 0 _ _ hm) fun _ => .both hm
  exact Follows.bind (get_fol hs i k) fun _ _ h1 => Follows.bind (get_fol hs j k) fun _ _ h2 =>
    Follows.bind (set_fol hs i k h2) fun _ _ hs => set_fol hs j k h1

theorem detEliminate_fol (h : S.SimCore S' R A B) (hd : S.SimDiv S' R A B) (hm : m.Rel R m') (r p : Nat) :
    Follows A B (Mat.Rel R) (detEliminate S m r p) (detEliminate S' m' r p) := by
  unfold detEliminate
  rw [hm.1]
  refine Follows.forUp (fun i s s' hs => ?_) _ _ _ _ hm
  refine Follows.ite Iff.rfl (fun _ => Follows.bind (get_fol hs i p) fun v v' hv => ?_) fun _ => .both hs
  rw [hs.2.1]
  refine Follows.forUp (fun j s s' hs => ?_) _ _ _ _ hs
  exact Follows.bind (get_fol hs r j) fun _ _ h1 => Follows.bind (h.mul hv h1) fun _ _ h2 =>
    Follows.bind (get_fol hs r p) fun _ _ h3 => Follows.bind (hd.div h2 h3) fun _ _ h4 =>
    Follows.bind (get_fol hs i j) fun _ _ h5 => Follows.bind (h.subA h5 h4) fun _ _ h6 => set_fol hs i j h6

theorem detLoop_fol (h : S.SimCore S' R A B) (hM : S.SimMulA S' R A B) (hd : S.SimDiv S' R A B) (k : Nat) : ∀ (r p : Nat) (f : T) (f' : T') (m : Mat T) (m' : Mat T'),
    R f f' → m.Rel R m' → Follows A B (fun x y => R x.1 y.1 ∧ x.2.Rel R y.2) (detLoop S k r p f m) (detLoop S' k r p f' m') := by
  induction k with
  | zero => intro r p f f' m m' hf hm; exact .both ⟨hf, hm⟩
  | succ k ih =>
    intro r p f f' m m' hf hm
    unfold detLoop
    rw [hm.1, hm.2.1]
    refine Follows.ite Iff.rfl (fun _ => .both ⟨hf, hm⟩) fun _ => ?_
    refine Follows.bind (findPivot_fol h hm _ _ _ _) ?_
    rintro u _ rfl
    rcases u with _ | ⟨i, q⟩
    · exact .pure ⟨hf, hm⟩
    · dsimp only
      refine Follows.bind (R := fun x y => R x.1 y.1 ∧ x.2.Rel R y.2) ?_ fun x y hxy =>
        Follows.bind (detEliminate_fol h hd hxy.2 _ _) fun _ _ ht => ih _ _ _ _ _ _ hxy.1 ht
      exact Follows.ite Iff.rfl (fun _ => Follows.bind (swapRows_fol hm _ _) fun _ _ h1 =>
        Follows.bind (h.ofInt (-1) (.inr (.inr rfl))) fun _ _ h2 => Follows.bind (hM hf h2) fun _ _ h3 => .pure ⟨h3, h1⟩)
        fun _ => .both ⟨hf, hm⟩

theorem determinant_fol (h : S.SimCore S' R A B) (hM : S.SimMulA S' R A B) (hd : S.SimDiv S' R A B) (hm : m.Rel R m') :
    Follows A B R (determinant S m) (determinant S' m') := by
  unfold determinant
  rw [hm.1, hm.2.1]
  refine Follows.ite Iff.rfl (fun _ => .same) fun _ => Follows.ite Iff.rfl (fun _ => dataAt_fol hm 0) fun _ =>
    Follows.ite Iff.rfl (fun _ => det2_fol h hm) fun _ => ?_
  refine Follows.bind (copy_fol hm) fun t t' ht => Follows.bind (h.ofInt 1 (.inr (.inl rfl))) fun f f' hf => ?_
  rw [ht.1]
  refine Follows.bind (detLoop_fol h hM hd _ _ _ _ _ _ _ hf ht) fun s s' hs => Follows.bind (h.ofInt 1 (.inr (.inl rfl))) fun p p' hp => ?_
  rw [hs.2.1]
  refine Follows.bind (Follows.forUp (fun i a a' ha => ?_) _ 0 p p' hp) fun q q' hq => hd.div hq hs.1
  exact Follows.bind (get_fol hs.2 i i) fun _ _ h1 => hM ha h1

theorem scaleRow_fol (hd : S.SimDiv S' R A B) (hm : m.Rel R m') (r p : Nat) :
    Follows A B (Mat.Rel R) (scaleRow S m r p) (scaleRow S' m' r p) := by
  unfold scaleRow
  rw [hm.2.1]
  refine Follows.bind (get_fol hm r p) fun v v' hv => Follows.forUp (fun j s s' hs => ?_) _ _ _ _ hm
  exact Follows.bind (get_fol hs r j) fun _ _ h1 => Follows.bind (hd.divA h1 hv) fun _ _ h2 => set_fol hs r j h2

theorem clearColumn_fol (h : S.SimCore S' R A B) (hm : m.Rel R m') (r p : Nat) :
    Follows A B (Mat.Rel R) (clearColumn S m r p) (clearColumn S' m' r p) := by
  unfold clearColumn
  rw [hm.1]
  refine Follows.forUp (fun i s s' hs => ?_) _ _ _ _ hm
  refine Follows.ite Iff.rfl (fun _ => Follows.bind (get_fol hs i p) fun v v' hv => ?_) fun _ => .both hs
  rw [hs.2.1]
  refine Follows.forUp (fun j s s' hs => ?_) _ _ _ _ hs
  exact Follows.bind (get_fol hs r j) fun _ _ h1 => Follows.bind (h.mul hv h1) fun _ _ h2 =>
    Follows.bind (get_fol hs i j) fun _ _ h5 => Follows.bind (h.subA h5 h2) fun _ _ h6 => set_fol hs i j h6

theorem rrefLoop_fol (h : S.SimCore S' R A B) (hd : S.SimDiv S' R A B) (k : Nat) : ∀ (r p : Nat) (m : Mat T) (m' : Mat T'),
    m.Rel R m' → Follows A B (Mat.Rel R) (rrefLoop S k r p m) (rrefLoop S' k r p m') := by
  induction k with
  | zero => intro r p m m' hm; exact .both hm
  | succ k ih =>
    intro r p m m' hm
    unfold rrefLoop
    rw [hm.1, hm.2.1]
    refine Follows.ite Iff.rfl (fun _ => .both hm) fun _ => ?_
    refine Follows.bind (findPivot_fol h hm _ _ _ _) ?_
    rintro u _ rfl
    rcases u with _ | ⟨i, q⟩
    · exact .pure hm
    · dsimp only
      exact Follows.bind (swapRows_fol hm _ _) fun _ _ h1 => Follows.bind (scaleRow_fol hd h1 _ _) fun _ _ h2 =>
        Follows.bind (clearColumn_fol h h2 _ _) fun _ _ h3 => ih _ _ _ _ h3

theorem inplaceRref_fol (h : S.SimCore S' R A B) (hd : S.SimDiv S' R A B) (hm : m.Rel R m') :
    Follows A B (Mat.Rel R) (inplaceRref S m) (inplaceRref S' m') := by
  unfold inplaceRref
  rw [hm.1]
  exact rrefLoop_fol h hd _ _ _ _ _ hm

theorem rref_fol (h : S.SimCore S' R A B) (hd : S.SimDiv S' R A B) (hm : m.Rel R m') :
    Follows A B (Mat.Rel R) (rref S m) (rref S' m') :=
  Follows.bind (copy_fol hm) fun _ _ hr => inplaceRref_fol h hd hr

theorem diagonalMatrix_fol (h : S.SimCore S' R A B) {x : List T} {x' : List T'} (hx : List.Forall₂ R x x') (n : Nat) :
    Follows A B (Mat.Rel R) (diagonalMatrix S x n) (diagonalMatrix S' x' n) :=
  Follows.bind (h.ofInt 0 (.inl rfl)) fun _ _ hz => Follows.bind (filled_fol _ _ hz) fun _ _ hr =>
    Follows.forUp (fun i _ _ hs => Follows.bind (arrayAt_fol hx i) fun _ _ h1 => set_fol hs i i h1) _ _ _ _ hr

theorem identityMatrix_fol (h : S.SimCore S' R A B) (n : Nat) : Follows A B (Mat.Rel R) (identityMatrix S n) (identityMatrix S' n) :=
  Follows.bind (h.ofInt 0 (.inl rfl)) fun _ _ hz => Follows.bind (filled_fol _ _ hz) fun _ _ hr =>
    Follows.forUp (fun i _ _ hs => Follows.bind (h.ofInt 1 (.inr (.inl rfl))) fun _ _ h1 => set_fol hs i i h1) _ _ _ _ hr

theorem augmentedMatrix_fol (hm : m.Rel R m') (hn : n.Rel R n') : Follows A B (Mat.Rel R) (augmentedMatrix m n) (augmentedMatrix m' n') := by
  unfold augmentedMatrix
  rw [hm.1, hm.2.1, hn.1, hn.2.1]
  refine Follows.ite Iff.rfl (fun _ => .same) fun _ => Follows.forUp (fun i s s' hs => ?_) _ _ _ _ (alloc_rel ..)
  refine Follows.bind (Follows.forUp (fun j s s' hs => Follows.bind (get_fol hm i j) fun _ _ h1 => set_fol hs i j h1) _ _ _ _ hs)
    fun r r' hr => ?_
  refine Follows.forUp (fun j s s' hs => ?_) _ _ _ _ hr
  exact Follows.bind (get_fol hn i j) fun _ _ h1 => set_fol hs i _ h1

theorem inverse_fol (h : S.SimCore S' R A B) (hd : S.SimDiv S' R A B) (hm : m.Rel R m') :
    Follows A B (Mat.Rel R) (inverse S m) (inverse S' m') := by
  unfold inverse
  rw [hm.1, hm.2.1]
  refine Follows.ite Iff.rfl (fun _ => .same) fun _ => Follows.bind (identityMatrix_fol h _) fun u u' hu =>
    Follows.bind (augmentedMatrix_fol hm hu) fun r r' hr => Follows.bind (inplaceRref_fol h hd hr) fun r r' hr =>
    Follows.forEach rfl rfl (alloc_rel ..) fun i j s s' hs => ?_
  refine Follows.bind (get_fol hr i j) fun _ _ h1 => Follows.bind (get_fol hu i j) fun _ _ h2 => Follows.bind (h.ne h1 h2) ?_
  rintro b _ rfl
  exact Follows.ite Iff.rfl (fun _ => .same) fun _ => Follows.bind (get_fol hr i _) fun _ _ h3 => set_fol hs i j h3

theorem trace_fol (h : S.SimCore S' R A B) (hm : m.Rel R m') : Follows A B R (trace S m) (trace S' m') := by
  unfold trace
  rw [hm.1, hm.2.1]
  exact Follows.ite Iff.rfl (fun _ => .same) fun _ => Follows.bind (h.ofInt 0 (.inl rfl)) fun _ _ hz =>
    Follows.forUp (fun i _ _ hs => Follows.bind (get_fol hm i i) fun _ _ h1 => h.addA hs h1) _ _ _ _ hz

theorem transpose_fol (hm : m.Rel R m') : Follows A B (Mat.Rel R) m.transpose m'.transpose := by
  unfold transpose
  rw [hm.1, hm.2.1]
  exact Follows.forEach rfl rfl (alloc_rel ..) fun i j _ _ hs => Follows.bind (get_fol hm i j) fun _ _ h1 => set_fol hs j i h1

end Mat
end

/-! ### Every computation -/

variable {T T' : Type} {S : Scalar T} {S' : Scalar T'} {R : T → T' → Prop}

theorem Vars.set_rel {env : Vars T} {env' : Vars T'} (h : ∀ (s : Ty) x, s.Rel R (env s x) (env' s x)) (s : Ty) (x : Nat) {v : s.Val T} {v' : s.Val T'}
    (hv : s.Rel R v v') : ∀ (t : Ty) y, t.Rel R (env.set s x v t y) (env'.set s x v' t y) := by
  intro t y
  cases s <;> cases t <;> dsimp only [Vars.set] <;> first | exact h _ _ | (split <;> first | exact hv | exact h _ _)

theorem NumOp.run_fol (h : S.SimCore S' R A B) (o : NumOp) (hM : o = .mulA → S.SimMulA S' R A B) (hd : o = .div ∨ o = .divA → S.SimDiv S' R A B) {x y : T} {x' y' : T'}
    (hx : R x x') (hy : R y y') : Follows A B R (o.run S x y) (o.run S' x' y') := by
  cases o
  · exact h.add hx hy
  · exact h.sub hx hy
  · exact h.mul hx hy
  · exact (hd (.inl rfl)).div hx hy
  · exact h.addA hx hy
  · exact h.subA hx hy
  · exact hM rfl hx hy
  · exact (hd (.inr rfl)).divA hx hy

theorem Calc.run_fol (h : S.SimCore S' R A B) {s : Ty} (e : Calc s) (hm : e.scales = true → S.SimMulA S' R A B)
    (hd : e.divides = true → S.SimDiv S' R A B) (hn : e.negates = true → S.SimNeg S' R A B) :
    ∀ (env : Vars T) (env' : Vars T'), (∀ (s : Ty) x, s.Rel R (env s x) (env' s x)) → Follows A B (s.Rel R) (e.run S env) (e.run S' env') := by
  induction e with
  | var s x => intro env env' henv; exact .both (henv s x)
  | lit n hl => intro env env' henv; exact h.ofInt n hl
  | op o x y ihx ihy =>
    intro env env' henv
    refine Follows.bind (ihx (fun hh => hm (by simp [Calc.scales, hh])) (fun hh => hd (by simp [Calc.divides, hh])) (fun hh => hn (by simp [Calc.negates, hh])) env env' henv) fun _ _ h1 =>
      Follows.bind (ihy (fun hh => hm (by simp [Calc.scales, hh])) (fun hh => hd (by simp [Calc.divides, hh])) (fun hh => hn (by simp [Calc.negates, hh])) env env' henv) fun _ _ h2 => ?_
    refine NumOp.run_fol h o (fun ho => hm ?_) (fun ho => hd ?_) h1 h2
    · subst ho; rfl
    · rcases ho with rfl | rfl <;> rfl
  | ite b x y ihb ihx ihy =>
    intro env env' henv
    refine Follows.bind (ihb (fun hh => hm (by simp [Calc.scales, hh])) (fun hh => hd (by simp [Calc.divides, hh])) (fun hh => hn (by simp [Calc.negates, hh])) env env' henv) ?_
    rintro u _ rfl
    exact Follows.ite Iff.rfl (fun _ => ihx (fun hh => hm (by simp [Calc.scales, hh])) (fun hh => hd (by simp [Calc.divides, hh])) (fun hh => hn (by simp [Calc.negates, hh])) env env' henv)
      fun _ => ihy (fun hh => hm (by simp [Calc.scales, hh])) (fun hh => hd (by simp [Calc.divides, hh])) (fun hh => hn (by simp [Calc.negates, hh])) env env' henv
  | not b ih =>
    intro env env' henv
    refine Follows.bind (ih (fun hh => hm (by simp [Calc.scales, hh])) (fun hh => hd (by simp [Calc.divides, hh])) (fun hh => hn (by simp [Calc.negates, hh])) env env' henv) ?_
    rintro u _ rfl
    exact .pure rfl
  | letIn s x e body ih1 ih2 =>
    intro env env' henv
    exact Follows.bind (ih1 (fun hh => hm (by simp [Calc.scales, hh])) (fun hh => hd (by simp [Calc.divides, hh])) (fun hh => hn (by simp [Calc.negates, hh])) env env' henv) fun _ _ h1 =>
      ih2 (fun hh => hm (by simp [Calc.scales, hh])) (fun hh => hd (by simp [Calc.divides, hh])) (fun hh => hn (by simp [Calc.negates, hh])) _ _ (Vars.set_rel henv s x h1)
  | loop s x n init body ih1 ih2 =>
    intro env env' henv
    exact Follows.bind (ih1 (fun hh => hm (by simp [Calc.scales, hh])) (fun hh => hd (by simp [Calc.divides, hh])) (fun hh => hn (by simp [Calc.negates, hh])) env env' henv) fun _ _ h1 =>
      Follows.forUp (fun _ _ _ hv => ih2 (fun hh => hm (by simp [Calc.scales, hh])) (fun hh => hd (by simp [Calc.divides, hh])) (fun hh => hn (by simp [Calc.negates, hh])) _ _ (Vars.set_rel henv s x hv)) _ _ _ _ h1
  | vecSize n => intro env env' henv; exact Vec.ofSize_fol h n
  | matNew r c => intro env env' henv; exact .both (Mat.alloc_rel r c)
  | matIdentity n => intro env env' henv; exact Mat.identityMatrix_fol h n
  | vecTriple x y z ihx ihy ihz =>
    intro env env' henv
    exact Follows.bind (ihx (fun hh => hm (by simp [Calc.scales, hh])) (fun hh => hd (by simp [Calc.divides, hh])) (fun hh => hn (by simp [Calc.negates, hh])) env env' henv) fun _ _ h1 =>
      Follows.bind (ihy (fun hh => hm (by simp [Calc.scales, hh])) (fun hh => hd (by simp [Calc.divides, hh])) (fun hh => hn (by simp [Calc.negates, hh])) env env' henv) fun _ _ h2 =>
      Follows.bind (ihz (fun hh => hm (by simp [Calc.scales, hh])) (fun hh => hd (by simp [Calc.divides, hh])) (fun hh => hn (by simp [Calc.negates, hh])) env env' henv) fun _ _ h3 =>
      Follows.bind (Vec.cross_fol h h2 h3) fun _ _ h4 => Vec.dot_fol h h1 h4
  | vecVTriple x y z ihx ihy ihz =>
    intro env env' henv
    exact Follows.bind (ihx (fun hh => hm (by simp [Calc.scales, hh])) (fun hh => hd (by simp [Calc.divides, hh])) (fun hh => hn (by simp [Calc.negates, hh])) env env' henv) fun _ _ h1 =>
      Follows.bind (ihy (fun hh => hm (by simp [Calc.scales, hh])) (fun hh => hd (by simp [Calc.divides, hh])) (fun hh => hn (by simp [Calc.negates, hh])) env env' henv) fun _ _ h2 =>
      Follows.bind (ihz (fun hh => hm (by simp [Calc.scales, hh])) (fun hh => hd (by simp [Calc.divides, hh])) (fun hh => hn (by simp [Calc.negates, hh])) env env' henv) fun _ _ h3 =>
      Follows.bind (Vec.cross_fol h h2 h3) fun _ _ h4 => Vec.cross_fol h h1 h4
  | neg x ih | vecGet x i ih | vecOfArray x n ih | vecAddSelf x ih | vecSubSelf x ih | vecConst n x ih
  | matFill r c x ih | matOfArray x r c ih | matGet x i j ih | matCopy x ih | matNeg x ih | matAddSelf x ih | matSubSelf x ih
  | matMinor x i j ih | matCofactor x i j ih | matRowExpansion x ih | matColExpansion x ih | matSwapRows x a b ih
  | matDiagonal x n ih | matTrace x ih | matTranspose x ih =>
    intro env env' henv
    refine Follows.bind (ih (fun hh => hm (by simp [Calc.scales, hh])) (fun hh => hd (by simp [Calc.divides, hh])) (fun hh => hn (by simp [Calc.negates, hh])) env env' henv) fun _ _ h1 => ?_
    first
      | (have hn : S.SimNeg S' R A B := hn rfl; exact hn h1) | exact Vec.get_fol h1 _ | exact Vec.ofArray_fol h1 _ | exact Vec.addAssignRef_fol h (fun hx => hx) h1
      | exact Vec.subAssignRef_fol h (fun hx => hx) h1 | exact Vec.constantVec_fol h _ h1
      | exact Mat.filled_fol _ _ h1 | exact Mat.ofArray_fol h1 _ _ | exact Mat.get_fol h1 _ _ | exact Mat.copy_fol h1 | exact Mat.neg_fol (hn rfl) h1
      | exact Mat.addAssignRef_fol h (fun hx => hx) h1 | exact Mat.subAssignRef_fol h (fun hx => hx) h1
      | exact Mat.firstMinor_fol h1 _ _ | exact Mat.cofactor_fol (hn rfl) h1 _ _
      | exact Mat.rowCofactor_fol h h1 | exact Mat.colCofactor_fol h h1 | exact Mat.swapRows_fol h1 _ _ | exact Mat.diagonalMatrix_fol h h1 _
      | exact Mat.trace_fol h h1 | exact Mat.transpose_fol h1
  | eqNum x y ihx ihy | neNum x y ihx ihy | vecSet x i y ihx ihy | vecSetAll x y ihx ihy | vecSetEntries x y n ihx ihy | vecAdd x y ihx ihy
  | vecSub x y ihx ihy | vecAddA x y ihx ihy | vecSubA x y ihx ihy | vecEq x y ihx ihy
  | vecNe x y ihx ihy | vecDot x y ihx ihy | vecCross x y ihx ihy | vecCat x y ihx ihy | matSetEntries x y n ihx ihy
  | matSetAll x y ihx ihy | matSet x i j y ihx ihy | matAdd x y ihx ihy | matSub x y ihx ihy | matAddA x y ihx ihy | matSubA x y ihx ihy
  | matSmul x y ihx ihy | matMul x y ihx ihy | matMulAssign x y ihx ihy | matEq x y ihx ihy | matNe x y ihx ihy
  | matAugmented x y ihx ihy =>
    intro env env' henv
    refine Follows.bind (ihx (fun hh => hm (by simp [Calc.scales, hh])) (fun hh => hd (by simp [Calc.divides, hh])) (fun hh => hn (by simp [Calc.negates, hh])) env env' henv) fun _ _ h1 =>
      Follows.bind (ihy (fun hh => hm (by simp [Calc.scales, hh])) (fun hh => hd (by simp [Calc.divides, hh])) (fun hh => hn (by simp [Calc.negates, hh])) env env' henv) fun _ _ h2 => ?_
    first
      | exact h.eq h1 h2 | exact h.ne h1 h2 | exact Vec.set_fol h1 _ h2 | exact Vec.setAll_fol h1 h2 | exact Vec.setEntries_fol h1 h2 _
      | exact Vec.add_fol h h1 h2 | exact Vec.sub_fol h h1 h2 | exact Vec.addAssignRef_fol h (fun _ => h2) h1
      | exact Vec.subAssignRef_fol h (fun _ => h2) h1 | exact Vec.eq_fol h h1 h2 | exact Vec.ne_fol h h1 h2
      | exact Vec.dot_fol h h1 h2 | exact Vec.cross_fol h h1 h2 | exact Vec.concatenate_fol h h1 h2 | exact Mat.setEntries_fol h1 h2 _
      | exact Mat.setAll_fol h1 h2 | exact Mat.set_fol h1 _ _ h2 | exact Mat.add_fol h h1 h2 | exact Mat.sub_fol h h1 h2
      | exact Mat.addAssignRef_fol h (fun _ => h2) h1 | exact Mat.subAssignRef_fol h (fun _ => h2) h1 | exact Mat.smul_fol h h1 h2
      | exact Mat.mul_fol h h1 h2 | exact Mat.mulAssign_fol h h1 h2
      | exact Mat.eq_fol h h1 h2 | exact Mat.ne_fol h h1 h2 | exact Mat.augmentedMatrix_fol h1 h2
  | vecDiv x y ihx ihy | vecDivA x y ihx ihy | matDiv x y ihx ihy | matDivA x y ihx ihy =>
    intro env env' henv
    have hd := hd rfl
    refine Follows.bind (ihx (fun hh => hm (by simp [Calc.scales, hh])) (fun _ => hd) (fun hh => hn (by simp [Calc.negates, hh])) env env' henv) fun _ _ h1 =>
      Follows.bind (ihy (fun hh => hm (by simp [Calc.scales, hh])) (fun _ => hd) (fun hh => hn (by simp [Calc.negates, hh])) env env' henv) fun _ _ h2 => ?_
    first
      | exact Vec.divScalar_fol hd h2 h1 | exact Mat.divScalar_fol hd h2 h1 | exact Mat.mapLoop_fol hd.divA (fun _ => .both h2) h1
  | vecDivEntry x k ih | matDivEntry x k l ih | matRref x ih | matInplaceRref x ih | matInverse x ih =>
    intro env env' henv
    have hd := hd rfl
    refine Follows.bind (ih (fun hh => hm (by simp [Calc.scales, hh])) (fun _ => hd) (fun hh => hn (by simp [Calc.negates, hh])) env env' henv) fun _ _ h1 => ?_
    first
      | exact Vec.divAssignEntry_fol hd _ h1 | exact Mat.mapLoop_fol hd.divA (fun hx => Mat.get_fol hx _ _) h1
      | exact Mat.rref_fol h hd h1 | exact Mat.inplaceRref_fol h hd h1 | exact Mat.inverse_fol h hd h1
  | matDet x ih =>
    intro env env' henv
    have hd := hd rfl
    have hm : S.SimMulA S' R A B := hm rfl
    exact Follows.bind (ih (fun _ => hm) (fun _ => hd) (fun hh => hn (by simp [Calc.negates, hh])) env env' henv) fun _ _ h1 => Mat.determinant_fol h hm hd h1
  | vecSmul x y ihx ihy | vecMulA x y ihx ihy | matMulA x y ihx ihy =>
    intro env env' henv
    have hm : S.SimMulA S' R A B := hm rfl
    refine Follows.bind (ihx (fun _ => hm) (fun hh => hd (by simp [Calc.divides, hh])) (fun hh => hn (by simp [Calc.negates, hh])) env env' henv) fun _ _ h1 =>
      Follows.bind (ihy (fun _ => hm) (fun hh => hd (by simp [Calc.divides, hh])) (fun hh => hn (by simp [Calc.negates, hh])) env env' henv) fun _ _ h2 => ?_
    first
      | exact Vec.smul_fol hm h1 h2 | exact Vec.smul_fol hm h2 h1 | exact Mat.mapLoop_fol hm (fun _ => .both h2) h1
  | vecMulEntry x k ih | matMulEntry x k l ih =>
    intro env env' henv
    have hm : S.SimMulA S' R A B := hm rfl
    refine Follows.bind (ih (fun _ => hm) (fun hh => hd (by simp [Calc.divides, hh])) (fun hh => hn (by simp [Calc.negates, hh])) env env' henv) fun _ _ h1 => ?_
    first
      | exact Vec.mulAssignEntry_fol hm _ h1 | exact Mat.mapLoop_fol hm (fun hx => Mat.get_fol hx _ _) h1

end CppMaths
