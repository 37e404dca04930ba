import Verif.Proofs.MatMemFun
/-!
# Programs over matrix variables when memory runs out: lemmas
-/

namespace CppMaths
open HM MHeap MObj MEnv
variable {T α : Type} {S : Scalar T} {P : T → Prop} {A : Err → Prop} {L : Luck T} {N : Nat} {h : MHeap T} {v : MEnv T} {vars : Nat → Option MObj}

namespace MEnv

theorem Holds.is (hh : Holds h vars v) {x : Nat} {m : Mat T} (hx : v x = some m) : ∃ o, vars x = some o ∧ Is h o m ∧ m.Sized := by
  obtain ⟨o, h1, h2, h3, h4, h5⟩ := hh.live x m hx
  exact ⟨o, h1, ⟨h2, h3, h4⟩, h5⟩

theorem Holds.of_var (hh : Holds h vars v) {x : Nat} {o : MObj} (hx : vars x = some o) : ∃ m, v x = some m ∧ Is h o m ∧ m.Sized := by
  cases hv : v x with
  | none => rw [hh.dead x hv] at hx; cases hx
  | some m =>
    obtain ⟨o', h1, h2⟩ := hh.is hv
    rw [hx] at h1; cases h1
    exact ⟨m, rfl, h2⟩

theorem Holds.look (hh : Holds h vars v) : (MState.mk h vars).look = v.look := by
  funext x
  unfold MState.look MEnv.look
  cases hv : v x with
  | none => simp [hh.dead x hv]
  | some m =>
    obtain ⟨o, h1, h2, -⟩ := hh.is hv
    simp only [h1]
    unfold MHeap.load
    rw [view_eq_some.mp h2.2.2, h2.1, h2.2.1]

theorem Holds.fu (_ : Holds h vars v) (hv : v.AllInit P) {x : Nat} {m : Mat T} (hx : v x = some m) : Mat.Fu P m.rows m.cols m := Mat.all_iff.mp (hv x m hx)

/-- A change of the free store that keeps what the variables point to. -/
theorem Holds.keep {h' : MHeap T} (hh : Holds h vars v) (hk : ∀ p c, h.view p = some c → h'.view p = some c) : Holds h' vars v :=
  ⟨hh.dead, fun x m hx => by
    obtain ⟨o, h1, h2, h3, h4, h5⟩ := hh.live x m hx
    exact ⟨o, h1, h2, h3, hk _ _ h4, h5⟩, hh.unshared⟩

theorem NoLeak.congr {h' : MHeap T} (hn : NoLeak h vars) (e : h'.view = h.view) : NoLeak h' vars := fun p b hp => hn p b (by rw [← e]; exact hp)

theorem Holds.declare {h' : MHeap T} (hh : Holds h vars v) {d : Nat} {o : MObj} {m : Mat T} (hd : v d = none) (hf : MObj.Fresh h h' o m) (hm : m.Sized) :
    Holds h' (setObj vars d (some o)) (v.set d (some m)) := by
  have hne : ∀ {x o'}, vars x = some o' → o'.ptr ≠ o.ptr := fun hx e => by
    obtain ⟨m', -, h2, -⟩ := hh.of_var hx
    have := h2.2.2
    rw [e, hf.2.2.1] at this; cases this
  refine ⟨fun x hx => ?_, fun x m' hx => ?_, fun x y a b ha hb e => ?_⟩
  · unfold MEnv.set at hx
    unfold setObj
    by_cases hxd : x = d
    · rw [if_pos hxd] at hx; cases hx
    · rw [if_neg hxd] at hx ⊢; exact hh.dead x hx
  · unfold MEnv.set at hx
    unfold setObj
    by_cases hxd : x = d
    · rw [if_pos hxd] at hx ⊢; cases hx
      exact ⟨o, rfl, hf.1, hf.2.1, hf.is.2.2, hm⟩
    · rw [if_neg hxd] at hx ⊢
      obtain ⟨o', h1, h2, h3, h4, h5⟩ := hh.live x m' hx
      exact ⟨o', h1, h2, h3, hf.keep h4, h5⟩
  · unfold setObj at ha hb
    by_cases hx : x = d <;> by_cases hy : y = d
    · rw [hx, hy]
    · rw [if_pos hx] at ha; rw [if_neg hy] at hb; cases ha
      exact (hne hb e.symm).elim
    · rw [if_neg hx] at ha; rw [if_pos hy] at hb; cases hb
      exact (hne ha e).elim
    · rw [if_neg hx] at ha; rw [if_neg hy] at hb
      exact hh.unshared x y a b ha hb e

theorem NoLeak.declare {h' : MHeap T} (hh : Holds h vars v) (hn : NoLeak h vars) {d : Nat} {o : MObj} {m : Mat T} (hd : v d = none) (hf : MObj.Fresh h h' o m) :
    NoLeak h' (setObj vars d (some o)) := by
  intro p b hp
  by_cases hpo : p = o.ptr
  · exact ⟨d, o, by simp [setObj], hpo.symm⟩
  · rw [hf.2.2.2, Function.update_of_ne hpo] at hp
    obtain ⟨x, o', h1, h2⟩ := hn p b hp
    refine ⟨x, o', ?_, h2⟩
    unfold setObj
    rw [if_neg]
    · exact h1
    · rintro rfl; rw [hh.dead x hd] at h1; cases h1

theorem Holds.remove {h' : MHeap T} (hh : Holds h vars v) {d : Nat} {o : MObj} (hd : vars d = some o) (e : h'.view = Function.update h.view o.ptr none) :
    Holds h' (setObj vars d none) (v.set d none) := by
  refine ⟨fun x hx => ?_, fun x m' hx => ?_, fun x y a b ha hb e => ?_⟩
  · unfold MEnv.set at hx
    unfold setObj
    by_cases hxd : x = d
    · rw [if_pos hxd]
    · rw [if_neg hxd] at hx ⊢; exact hh.dead x hx
  · unfold MEnv.set at hx
    unfold setObj
    by_cases hxd : x = d
    · rw [if_pos hxd] at hx; cases hx
    · rw [if_neg hxd] at hx ⊢
      obtain ⟨o', h1, h2, h3, h4, h5⟩ := hh.live x m' hx
      refine ⟨o', h1, h2, h3, ?_, h5⟩
      rw [e, Function.update_of_ne]
      · exact h4
      · exact fun e2 => hxd (hh.unshared x d o' o h1 hd e2)
  · unfold setObj at ha hb
    by_cases hx : x = d
    · rw [if_pos hx] at ha; cases ha
    by_cases hy : y = d
    · rw [if_pos hy] at hb; cases hb
    rw [if_neg hx] at ha; rw [if_neg hy] at hb
    exact hh.unshared x y a b ha hb e

theorem NoLeak.remove {h' : MHeap T} (hn : NoLeak h vars) {d : Nat} {o : MObj} (hd : vars d = some o) (e : h'.view = Function.update h.view o.ptr none) :
    NoLeak h' (setObj vars d none) := by
  intro p b hp
  rw [e] at hp
  by_cases hpo : p = o.ptr
  · subst hpo; rw [Function.update_self] at hp; cases hp
  · rw [Function.update_of_ne hpo] at hp
    obtain ⟨x, o', h1, h2⟩ := hn p b hp
    refine ⟨x, o', ?_, h2⟩
    unfold setObj
    rw [if_neg]
    · exact h1
    · rintro rfl; rw [hd] at h1; cases h1; exact hpo h2.symm

/-- A new object takes the place of an old one. -/
theorem Holds.assign {h1 h2 : MHeap T} (hh : Holds h vars v) {d : Nat} {o o' : MObj} {m : Mat T} (hd : vars d = some o) (hf : MObj.Fresh h h1 o' m) (hm : m.Sized)
    (e : h2.view = Function.update h1.view o.ptr none) :
    Holds h2 (setObj vars d (some o')) (v.set d (some m)) ∧ (NoLeak h vars → NoLeak h2 (setObj vars d (some o'))) := by
  obtain ⟨md, h3, h4, -⟩ := hh.of_var hd
  have hp : h.view o.ptr ≠ none := by rw [h4.2.2]; simp
  obtain ⟨hb, -, h5⟩ := delete_view hp
  have hne : o'.ptr ≠ o.ptr := fun e => by rw [← e, hf.2.2.1] at hp; exact hp rfl
  have hf2 : MObj.Fresh hb h2 o' m := ⟨hf.1, hf.2.1, by rw [h5, Function.update_of_ne hne]; exact hf.2.2.1, by
    rw [e, hf.2.2.2, h5, Function.update_comm hne.symm]⟩
  have e1 : setObj (setObj vars d none) d (some o') = setObj vars d (some o') := by
    funext i; unfold setObj; split <;> rfl
  have e2 : (v.set d none).set d (some m) = v.set d (some m) := by
    funext i; unfold MEnv.set; split <;> rfl
  have h6 := (hh.remove hd h5)
  have h7 : v.set d none d = none := by simp [MEnv.set]
  exact ⟨by rw [← e1, ← e2]; exact h6.declare h7 hf2 hm, fun hn => by
    rw [← e1]; exact NoLeak.declare h6 (hn.remove hd h5) h7 hf2⟩

/-- The block of a variable gets new contents. -/
theorem Holds.write {h' : MHeap T} (hh : Holds h vars v) {d : Nat} {o : MObj} {m m' : Mat T} (hd : vars d = some o) (hv : v d = some m)
    (hr : m'.rows = m.rows) (hc : m'.cols = m.cols) (hs : m'.Sized) (e : h'.view = Function.update h.view o.ptr (some m'.data)) :
    Holds h' vars (v.set d (some m')) ∧ (NoLeak h vars → NoLeak h' vars) := by
  obtain ⟨o1, g1, g2, -⟩ := hh.is hv
  rw [hd] at g1; cases g1
  refine ⟨⟨fun x hx => ?_, fun x m1 hx => ?_, hh.unshared⟩, fun hn p b hp => ?_⟩
  · unfold MEnv.set at hx
    by_cases hxd : x = d
    · rw [if_pos hxd] at hx; cases hx
    · rw [if_neg hxd] at hx; exact hh.dead x hx
  · unfold MEnv.set at hx
    by_cases hxd : x = d
    · rw [if_pos hxd] at hx; cases hx
      exact ⟨o, by rw [hxd]; exact hd, by rw [g2.1, hr], by rw [g2.2.1, hc], by rw [e, Function.update_self], hs⟩
    · rw [if_neg hxd] at hx
      obtain ⟨o', h1, h2, h3, h4, h5⟩ := hh.live x m1 hx
      refine ⟨o', h1, h2, h3, ?_, h5⟩
      rw [e, Function.update_of_ne]
      · exact h4
      · exact fun e2 => hxd (hh.unshared x d o' o h1 hd e2)
  · by_cases hpo : p = o.ptr
    · exact ⟨d, o, hd, hpo.symm⟩
    · rw [e, Function.update_of_ne hpo] at hp; exact hn p b hp

theorem Holds.swap (hh : Holds h vars v) {a b : Nat} {x y : MObj} (ha : vars a = some x) (hb : vars b = some y) :
    Holds h (setObj (setObj vars a (some y)) b (some x)) (fun i => if i = a then v b else if i = b then v a else v i) ∧
    (NoLeak h vars → NoLeak h (setObj (setObj vars a (some y)) b (some x))) := by
  -- the variables are permuted
  let σ : Nat → Nat := fun i => if i = a then b else if i = b then a else i
  have hσ : ∀ i, σ (σ i) = i := fun i => by
    dsimp only [σ]
    by_cases h1 : i = a
    · subst h1; simp only [if_true]
      by_cases h2 : b = i
      · simp [h2]
      · simp [h2]
    · by_cases h2 : i = b
      · subst h2; simp [h1]
      · simp [h1, h2]
  have e1 : setObj (setObj vars a (some y)) b (some x) = fun i => vars (σ i) := by
    funext i
    dsimp only [setObj, σ]
    by_cases h1 : i = a
    · subst h1
      by_cases h2 : i = b
      · subst h2; simp [ha]
      · simp [h2, hb]
    · by_cases h2 : i = b
      · subst h2; simp [h1, ha]
      · simp [h1, h2]
  have e2 : (fun i => if i = a then v b else if i = b then v a else v i) = fun i => v (σ i) := by
    funext i
    dsimp only [σ]
    split
    · rfl
    · split <;> rfl
  rw [e1, e2]
  refine ⟨⟨fun i hi => hh.dead _ hi, fun i m hi => hh.live _ m hi, fun i j o o' hi hj e => ?_⟩, fun hn p b hp => ?_⟩
  · have := hh.unshared _ _ o o' hi hj e
    rw [← hσ i, this, hσ]
  · obtain ⟨i, o, h1, h2⟩ := hn p b hp
    exact ⟨σ i, o, by dsimp only; rw [hσ]; exact h1, h2⟩

end MEnv

theorem out_err {r : Res α} {Q : α → Prop} (hr : Out A r Q) {e : Err} (h : r = .error e) : A e := by
  obtain ⟨b, h1, h2⟩ | ⟨er, h1, h2⟩ := hr
  · rw [h] at h1; cases h1
  · rw [h] at h1; cases h1; exact h2

theorem sat_var {o : MObj} {x : Nat} (hx : vars x = some o) {f : MObj → HM T α} {Q : α → MHeap T → Prop} {X : Err → MHeap T → Prop} (hf : Sat (f o) h Q X) :
    Sat (varObj vars x >>= f) h Q X := by
  unfold varObj
  rw [hx]
  exact Sat.bind (Q' := fun y h' => y = o ∧ h' = h) (Sat.pure ⟨rfl, rfl⟩) fun y h' hy => by rw [hy.1, hy.2]; exact hf

/-- What an expression makes. -/
theorem MExpr.make_spec (hS : S.Closed P A) (hh : Holds h vars v) (hv : v.AllInit P) (hz : v.Sizes) {e : MExpr T} (he : e.Legal P v) (hr : e.Room v)
    (hN : h.live + e.need v ≤ N) : Makes L N h (e.eval S v.look) (e.make L S vars) := by
  have look : ∀ {a : Nat}, v a ≠ none → ∃ m o, v a = some m ∧ v.look a = .ok m ∧ vars a = some o ∧ Is h o m ∧ Mat.Fu P m.rows m.cols m ∧
      m.rows * m.cols < 2 ^ 64 ∧ v.size a = m.rows * m.cols := by
    intro a ha
    obtain ⟨m, h1⟩ := Option.ne_none_iff_exists'.mp ha
    obtain ⟨o, h2, h3, -⟩ := hh.is h1
    exact ⟨m, o, h1, by simp [MEnv.look, h1], h2, h3, hh.fu hv h1, hz a m h1, by simp [MEnv.size, h1]⟩
  cases e with
  | raw r c => exact he.elim
  | filled r c t => exact makes_val he hr (by simp only [MExpr.need] at hN; omega)
  | array vals r c => exact makes_array he.1 he.2 hr (by simp only [MExpr.need] at hN; omega)
  | identity n => exact makes_identity hS hr hN
  | diagonal vals n => exact makes_diagonal hS he.2 he.1 hr hN
  | augmented a b =>
    obtain ⟨x, o, h1, h2, h3, h4, h5, h6, h7⟩ := look he.1
    obtain ⟨y, q, g1, g2, g3, g4, g5, g6, g7⟩ := look he.2
    simp only [MExpr.need, h1, g1] at hN
    simp only [MExpr.eval, h2, g2, bind_ok]
    obtain ⟨r1, r2⟩ := hr x y h1 g1
    exact sat_var h3 (sat_var g3 (makes_augmented h4 g4 h5 g5 r1 r2 hN))
  | neg a =>
    obtain ⟨x, o, h1, h2, h3, h4, h5, h6, h7⟩ := look he
    simp only [MExpr.need, h7] at hN
    simp only [MExpr.eval, h2, bind_ok]
    exact sat_var h3 (makes_neg hS h4 h5 h6 hN)
  | add a b =>
    obtain ⟨x, o, h1, h2, h3, h4, h5, h6, h7⟩ := look he.1
    obtain ⟨y, q, g1, g2, g3, g4, g5, g6, g7⟩ := look he.2
    simp only [MExpr.need, h7] at hN
    simp only [MExpr.eval, h2, g2, bind_ok]
    exact sat_var h3 (sat_var g3 (makes_add hS h4 g4 h5 g5 h6 hN).1)
  | sub a b =>
    obtain ⟨x, o, h1, h2, h3, h4, h5, h6, h7⟩ := look he.1
    obtain ⟨y, q, g1, g2, g3, g4, g5, g6, g7⟩ := look he.2
    simp only [MExpr.need, h7] at hN
    simp only [MExpr.eval, h2, g2, bind_ok]
    exact sat_var h3 (sat_var g3 (makes_add hS h4 g4 h5 g5 h6 hN).2)
  | mul a b =>
    obtain ⟨x, o, h1, h2, h3, h4, h5, h6, h7⟩ := look he.1
    obtain ⟨y, q, g1, g2, g3, g4, g5, g6, g7⟩ := look he.2
    simp only [MExpr.need, h1, g1] at hN
    simp only [MExpr.eval, h2, g2, bind_ok]
    exact sat_var h3 (sat_var g3 (makes_mul hS h4 g4 h5 g5 (hr x y h1 g1) hN))
  | smul k a =>
    obtain ⟨x, o, h1, h2, h3, h4, h5, h6, h7⟩ := look he.2
    simp only [MExpr.need, h7] at hN
    simp only [MExpr.eval, h2, bind_ok]
    exact sat_var h3 (makes_smul hS he.1 h4 h5 h6 hN)
  | muls a k =>
    obtain ⟨x, o, h1, h2, h3, h4, h5, h6, h7⟩ := look he.2
    simp only [MExpr.need, h7] at hN
    simp only [MExpr.eval, h2, bind_ok]
    exact sat_var h3 (makes_mulScalar hS he.1 h4 h5 h6 hN)
  | divs a k =>
    obtain ⟨x, o, h1, h2, h3, h4, h5, h6, h7⟩ := look he.2
    simp only [MExpr.need, h7] at hN
    simp only [MExpr.eval, h2, bind_ok]
    exact sat_var h3 (makes_divScalar hS he.1 h4 h5 h6 hN)
  | minor a i j =>
    obtain ⟨m, hm, hm1, hm2⟩ := he
    obtain ⟨x, o, h1, h2, h3, h4, h5, h6, h7⟩ := look (a := a) (by rw [hm]; simp)
    rw [hm] at h1; cases h1
    simp only [MExpr.need, hm] at hN
    simp only [MExpr.eval, h2, bind_ok]
    refine sat_var h3 (makes_firstMinor (R := m.rows - 1) (C := m.cols - 1) h4 (by rwa [Nat.sub_add_cancel hm1, Nat.sub_add_cancel hm2]) ?_ hN i j)
    exact lt_of_le_of_lt (Nat.mul_le_mul (Nat.sub_le _ _) (Nat.sub_le _ _)) h6
  | cofactor a i j =>
    obtain ⟨m, hm, hm1, hm2⟩ := he
    obtain ⟨x, o, h1, h2, h3, h4, h5, h6, h7⟩ := look (a := a) (by rw [hm]; simp)
    rw [hm] at h1; cases h1
    simp only [MExpr.need, hm] at hN
    simp only [MExpr.eval, h2, bind_ok]
    refine sat_var h3 (makes_cofactor (R := m.rows - 1) (C := m.cols - 1) hS h4 (by rwa [Nat.sub_add_cancel hm1, Nat.sub_add_cancel hm2]) ?_ hN i j)
    exact lt_of_le_of_lt (Nat.mul_le_mul (Nat.sub_le _ _) (Nat.sub_le _ _)) h6
  | rref a =>
    obtain ⟨x, o, h1, h2, h3, h4, h5, h6, h7⟩ := look he
    simp only [MExpr.need, h7] at hN
    simp only [MExpr.eval, h2, bind_ok]
    exact sat_var h3 (makes_rref hS h4 h5 h6 hN)
  | inverse a =>
    obtain ⟨x, o, h1, h2, h3, h4, h5, h6, h7⟩ := look he
    simp only [MExpr.need, h7] at hN
    simp only [MExpr.eval, h2, bind_ok]
    obtain ⟨r1, r2⟩ := hr x h1
    exact sat_var h3 (makes_inverse hS h4 h5 r1 r2 hN)
  | transpose a =>
    obtain ⟨x, o, h1, h2, h3, h4, h5, h6, h7⟩ := look he
    simp only [MExpr.need, h7] at hN
    simp only [MExpr.eval, h2, bind_ok]
    exact sat_var h3 (makes_transpose h4 h5 h6 hN)

/-- The size of the matrix an expression makes. -/
theorem MExpr.eval_size (hS : S.Closed P A) (hv : v.AllInit P) (hz : v.Sizes) {e : MExpr T} (he : e.Legal P v) (hr : e.Room v) {m : Mat T}
    (h1 : e.eval S v.look = .ok m) : Good m ∧ 2 * (m.rows * m.cols) ≤ e.need v := by
  have hsome := out_ok (MExpr.eval_some hS hv he) h1
  have fin : ∀ {E : Err → Prop} {x : Res (Mat T)} {R C k : Nat}, Out E x (Mat.Fu P R C) → x = .ok m → R * C < 2 ^ 64 → 2 * (R * C) ≤ k →
      Good m ∧ 2 * (m.rows * m.cols) ≤ k := by
    intro E x R C k h2 h3 h4 h5
    obtain ⟨h6, h7⟩ := good_of_fu (out_ok h2 h3) h4
    exact ⟨h6, by rw [h7]; exact h5⟩
  have look : ∀ {a : Nat}, v a ≠ none → ∃ m, v a = some m ∧ v.look a = .ok m ∧ Mat.Fu P m.rows m.cols m ∧ m.rows * m.cols < 2 ^ 64 ∧
      v.size a = m.rows * m.cols := by
    intro a ha
    obtain ⟨m, h1⟩ := Option.ne_none_iff_exists'.mp ha
    exact ⟨m, h1, by simp [MEnv.look, h1], Mat.all_iff.mp (hv a m h1), hz a m h1, by simp [MEnv.size, h1]⟩
  cases e with
  | raw r c => exact he.elim
  | filled r c t => exact fin (E := Never) (Mat.filled_fu he) h1 hr le_rfl
  | array vals r c => exact fin (E := Never) (Mat.setEntries_fu (Mat.alloc_on r c fun _ _ => ()) he.2 he.1 le_rfl) h1 hr le_rfl
  | identity n => exact fin (Mat.identity_fu hS n) h1 hr le_rfl
  | diagonal vals n => exact fin (Mat.diagonal_fu hS he.2 he.1) h1 hr le_rfl
  | augmented a b =>
    obtain ⟨x, h2, h3, h4, h5, h6⟩ := look he.1
    obtain ⟨y, g2, g3, g4, g5, g6⟩ := look he.2
    simp only [MExpr.eval, h3, g3, bind_ok] at h1
    simp only [MExpr.need, h2, g2]
    by_cases h : x.rows = y.rows
    · exact fin (E := Never) (Mat.augmented_fu h4 (by rw [h]; exact g4)) h1 (hr x y h2 g2).2 le_rfl
    · unfold Mat.augmentedMatrix at h1
      rw [if_pos h] at h1; cases h1
  | neg a =>
    obtain ⟨x, h2, h3, h4, h5, h6⟩ := look he
    simp only [MExpr.eval, h3, bind_ok] at h1
    exact fin (Mat.neg_fu hS h4) h1 h5 (by simp only [MExpr.need, h6]; exact le_rfl)
  | add a b =>
    obtain ⟨x, h2, h3, h4, h5, h6⟩ := look he.1
    obtain ⟨y, g2, g3, g4, g5, g6⟩ := look he.2
    simp only [MExpr.eval, h3, g3, bind_ok] at h1
    simp only [MExpr.need, h6]
    by_cases h : x.rows = y.rows ∧ x.cols = y.cols
    · exact fin (Mat.add_fu hS h4 (by rw [h.1, h.2]; exact g4)) h1 h5 le_rfl
    · unfold Mat.add Mat.dimensionsMatch at h1
      rw [if_pos (by simp; tauto)] at h1; cases h1
  | sub a b =>
    obtain ⟨x, h2, h3, h4, h5, h6⟩ := look he.1
    obtain ⟨y, g2, g3, g4, g5, g6⟩ := look he.2
    simp only [MExpr.eval, h3, g3, bind_ok] at h1
    simp only [MExpr.need, h6]
    by_cases h : x.rows = y.rows ∧ x.cols = y.cols
    · exact fin (Mat.sub_fu hS h4 (by rw [h.1, h.2]; exact g4)) h1 h5 le_rfl
    · unfold Mat.sub Mat.dimensionsMatch at h1
      rw [if_pos (by simp; tauto)] at h1; cases h1
  | mul a b =>
    obtain ⟨x, h2, h3, h4, h5, h6⟩ := look he.1
    obtain ⟨y, g2, g3, g4, g5, g6⟩ := look he.2
    simp only [MExpr.eval, h3, g3, bind_ok] at h1
    simp only [MExpr.need, h2, g2]
    by_cases h : x.cols = y.rows
    · exact fin (Mat.mul_fu hS h4 (by rw [h]; exact g4)).1 h1 (hr x y h2 g2) le_rfl
    · unfold Mat.mul at h1
      rw [if_pos h] at h1; cases h1
  | smul k a =>
    obtain ⟨x, h2, h3, h4, h5, h6⟩ := look he.2
    simp only [MExpr.eval, h3, bind_ok] at h1
    exact fin (Mat.smul_fu hS he.1 h4) h1 h5 (by simp only [MExpr.need, h6]; exact le_rfl)
  | muls a k =>
    obtain ⟨x, h2, h3, h4, h5, h6⟩ := look he.2
    simp only [MExpr.eval, h3, bind_ok] at h1
    exact fin (Mat.smul_fu hS he.1 h4) h1 h5 (by simp only [MExpr.need, h6]; exact le_rfl)
  | divs a k =>
    obtain ⟨x, h2, h3, h4, h5, h6⟩ := look he.2
    simp only [MExpr.eval, h3, bind_ok] at h1
    exact fin (Mat.divScalar_fu hS he.1 h4) h1 h5 (by simp only [MExpr.need, h6]; exact le_rfl)
  | minor a i j =>
    obtain ⟨x, hm, hm1, hm2⟩ := he
    obtain ⟨x', h2, h3, h4, h5, h6⟩ := look (a := a) (by rw [hm]; simp)
    rw [hm] at h2; cases h2
    simp only [MExpr.eval, h3, bind_ok] at h1
    rw [show x.rows = x.rows - 1 + 1 by omega, show x.cols = x.cols - 1 + 1 by omega] at h4
    exact fin (E := Never) (Mat.firstMinor_fu h4 i j) h1 (lt_of_le_of_lt (Nat.mul_le_mul (Nat.sub_le _ _) (Nat.sub_le _ _)) h5) (by simp only [MExpr.need, hm]; exact le_rfl)
  | cofactor a i j =>
    obtain ⟨x, hm, hm1, hm2⟩ := he
    obtain ⟨x', h2, h3, h4, h5, h6⟩ := look (a := a) (by rw [hm]; simp)
    rw [hm] at h2; cases h2
    simp only [MExpr.eval, h3, bind_ok] at h1
    rw [show x.rows = x.rows - 1 + 1 by omega, show x.cols = x.cols - 1 + 1 by omega] at h4
    have h7 : (x.rows - 1) * (x.cols - 1) < 2 ^ 64 := lt_of_le_of_lt (Nat.mul_le_mul (Nat.sub_le _ _) (Nat.sub_le _ _)) h5
    have h8 : 2 * ((x.rows - 1) * (x.cols - 1)) ≤ MExpr.need v (.cofactor a i j : MExpr T) := by simp only [MExpr.need, hm]; omega
    unfold Mat.cofactor at h1
    split at h1
    · exact fin (Out.bind (Mat.firstMinor_fu h4 i j) fun x hx => Mat.neg_fu hS hx) h1 h7 h8
    · exact fin (E := Never) (Mat.firstMinor_fu h4 i j) h1 h7 h8
  | rref a =>
    obtain ⟨x, h2, h3, h4, h5, h6⟩ := look he
    simp only [MExpr.eval, h3, bind_ok] at h1
    exact fin (Out.bind (Mat.copy_fu h4) fun x hx => Mat.inplaceRref_fu hS hx) h1 h5 (by simp only [MExpr.need, h6]; exact le_rfl)
  | inverse a =>
    obtain ⟨x, h2, h3, h4, h5, h6⟩ := look he
    simp only [MExpr.eval, h3, bind_ok] at h1
    simp only [MExpr.need, h6]
    by_cases h : x.rows = x.cols
    · rw [h] at h4 h5 ⊢
      exact fin (Mat.inverse_fu hS h4) h1 h5 (by omega)
    · unfold Mat.inverse at h1
      rw [if_pos h] at h1; cases h1
  | transpose a =>
    obtain ⟨x, h2, h3, h4, h5, h6⟩ := look he
    simp only [MExpr.eval, h3, bind_ok] at h1
    exact fin (E := Never) (Mat.transpose_fu h4) h1 (by rw [Nat.mul_comm]; exact h5) (by simp only [MExpr.need, h6, Nat.mul_comm x.rows]; exact le_rfl)

/-- A statement that ends as `MEnv.step` says. -/
def StepOk (S : Scalar T) (h : MHeap T) (vars : Nat → Option MObj) (v : MEnv T) (c : MStmt T) (vars' : Nat → Option MObj) (h' : MHeap T) : Prop :=
  ∃ v', step S v c = .done v' ∧ Holds h' vars' v' ∧ (NoLeak h vars → NoLeak h' vars')

/-- A statement that fails. -/
def StepBad (L : Luck T) (N : Nat) (S : Scalar T) (h : MHeap T) (vars : Nat → Option MObj) (v : MEnv T) (c : MStmt T) (e : Err) (h' : MHeap T) : Prop :=
  step S v c = .stopped e ∧ ¬Thrown e ∨
  Thrown e ∧ ∃ v', (step S v c = .threw v' ∨ e = .badAlloc ∧ (L.Interrupts ∨ L.Short N) ∧ v' = v.ranOut c) ∧ Holds h' vars v' ∧
    (¬L.Interrupts → NoLeak h vars → NoLeak h' vars)

theorem fail_cases {e : Err} (he : e ≠ .ub) (v : MEnv T) : fail e v = .stopped e ∧ ¬Thrown e ∨ fail e v = .threw v ∧ Thrown e := by
  unfold fail
  rw [if_neg he]
  by_cases h : Thrown e
  · rw [if_pos h]; exact .inr ⟨rfl, h⟩
  · rw [if_neg h]; exact .inl ⟨rfl, h⟩

/-- A failure before anything has been changed. -/
theorem stepBad_of_fails (hh : Holds h vars v) {c : MStmt T} {B : Err → Prop} (hc : v.ranOut c = v) (hB : ∀ e, B e → e ≠ .ub ∧ step S v c = fail e v)
    {e : Err} {h' : MHeap T} (hf : Fails L N h B e h') : StepBad L N S h vars v c e h' := by
  rcases hf.1 with ⟨rfl, h1⟩ | h1
  · have ht : Thrown .badAlloc := by decide
    exact .inr ⟨ht, v, .inr ⟨rfl, h1, hc.symm⟩, hh.keep (hf.2 ht).1, fun hi hn => hn.congr ((hf.2 ht).2 hi)⟩
  · obtain ⟨h2, h3⟩ := hB e h1
    rcases fail_cases h2 v with ⟨h4, h5⟩ | ⟨h4, h5⟩
    · exact .inl ⟨h3.trans h4, h5⟩
    · exact .inr ⟨h5, v, .inl (h3.trans h4), hh.keep (hf.2 h5).1, fun hi hn => hn.congr ((hf.2 h5).2 hi)⟩

/-- The variables after an assignment. -/
theorem sat_assign (hh : Holds h vars v) {c : MStmt T} {h1 : MHeap T} {d : Nat} {o : MObj} {m : Mat T} {X : Err → MHeap T → Prop} (hd : v d ≠ none)
    (hf : MObj.Fresh h h1 o m) (hm : m.Sized) (hc : step S v c = .done (v.set d (some m))) : Sat (assignObj vars d o) h1 (StepOk S h vars v c) X := by
  obtain ⟨md, h2⟩ := Option.ne_none_iff_exists'.mp hd
  obtain ⟨od, h3, h4, -⟩ := hh.is h2
  refine sat_var h3 (Sat.bind (Q' := fun _ h' => h'.view = Function.update h1.view od.ptr none) (sat_destroy (o := od) ?_ fun h' e => e) fun _ h' e => ?_)
  · rw [hf.keep h4.2.2]; simp
  · obtain ⟨h5, h6⟩ := hh.assign h3 hf hm e
    exact Sat.pure ⟨_, hc, h5, h6⟩

theorem step_mem (hS : S.Closed P A) (hA : ¬A .ub) (hh : Holds h vars v) (hv : v.AllInit P) (hz : v.Sizes) {c : MStmt T} (hc : c.Legal P v) (hr : c.Room v)
    (hN : h.live + c.need v ≤ N) : Sat (c.stepMem L S vars) h (StepOk S h vars v c) (StepBad L N S h vars v c) := by
  have hub : ∀ {e}, OrDomain A e → e ≠ .ub := by
    rintro e he rfl
    rcases he with h | h
    · exact hA h
    · cases h
  have obj : ∀ {a : Nat}, v a ≠ none → ∃ m o, v a = some m ∧ vars a = some o ∧ Is h o m ∧ Mat.Fu P m.rows m.cols m ∧ Good m ∧ v.size a = m.rows * m.cols := by
    intro a ha
    obtain ⟨m, h1⟩ := Option.ne_none_iff_exists'.mp ha
    obtain ⟨o, h2, h3, -⟩ := hh.is h1
    exact ⟨m, o, h1, h2, h3, hh.fu hv h1, (good_of_fu (hh.fu hv h1) (hz a m h1)).1, by simp [MEnv.size, h1]⟩
  cases c with
  | declare d e n =>
    simp only [MStmt.stepMem, hh.dead d hc.1]
    refine Sat.bind ((MExpr.make_spec (L := L) (N := N) hS hh hv hz hc.2 hr hN).mono (fun _ _ h => h) fun er h' he => ?_) fun t h1 hq => ?_
    · refine stepBad_of_fails hh rfl (fun er h1 => ⟨hub (out_err (MExpr.eval_some hS hv hc.2) h1), ?_⟩) he
      simp only [step, hc.1, h1]; rfl
    obtain ⟨m, h2, h3⟩ := hq
    obtain ⟨h4, h5⟩ := MExpr.eval_size hS hv hz hc.2 hr h2
    simp only [MStmt.need] at hN
    refine Sat.bind ((sat_handOver (L := L) (N := N) (B := fun _ => False) h3 h4 (by omega)).mono (fun _ _ h => h) fun er h' he =>
      stepBad_of_fails hh rfl (fun _ h => h.elim) he) fun o h6 h7 => Sat.pure ⟨v.set d (some m), ?_, hh.declare hc.1 h7 h4.1, fun hn => hn.declare hh hc.1 h7⟩
    simp only [step, hc.1, h2, h4.2.1, ne_eq, not_true_eq_false, and_false, if_false]
  | declareCopy d x =>
    obtain ⟨m, o, h1, h2, h3, h4, h5, h6⟩ := obj hc.2
    simp only [MStmt.need, h6] at hN
    simp only [MStmt.stepMem, hh.dead d hc.1]
    refine sat_var h2 (Sat.bind ((makes_copy (L := L) (N := N) h3 h5 hN).mono (fun _ _ h => h) fun er h' he =>
      stepBad_of_fails hh rfl (fun er h => by cases h) he) fun o' h7 hq => ?_)
    obtain ⟨m', e, h8⟩ := hq
    cases e
    refine Sat.pure ⟨v.set d (some m), ?_, hh.declare hc.1 h8 h5.1, fun hn => hn.declare hh hc.1 h8⟩
    simp only [step, hc.1, h1, h5.2.1, ne_eq, not_true_eq_false, if_true, if_false]
  | destroy d =>
    obtain ⟨m, o, h1, h2, h3, h4, h5, h6⟩ := obj hc
    refine sat_var h2 (Sat.bind (Q' := fun _ h' => h'.view = Function.update h.view o.ptr none) (sat_destroy (by rw [h3.2.2]; simp) fun h' e => e)
      fun _ h' e => Sat.pure ⟨v.set d none, ?_, hh.remove h2 e, fun hn => hn.remove h2 e⟩)
    simp only [step, h1]; rfl
  | assignExpr d e n =>
    unfold MStmt.stepMem
    refine Sat.bind ((MExpr.make_spec (L := L) (N := N) hS hh hv hz hc.2 hr hN).mono (fun _ _ h => h) fun er h' he => ?_) fun t h1 hq => ?_
    · refine stepBad_of_fails hh rfl (fun er h1 => ⟨hub (out_err (MExpr.eval_some hS hv hc.2) h1), ?_⟩) he
      simp only [step, h1]
    obtain ⟨m, h2, h3⟩ := hq
    obtain ⟨h4, h5⟩ := MExpr.eval_size hS hv hz hc.2 hr h2
    simp only [MStmt.need] at hN
    refine Sat.bind ((sat_handOver (L := L) (N := N) (B := fun _ => False) h3 h4 (by omega)).mono (fun _ _ h => h) fun er h' he =>
      stepBad_of_fails hh rfl (fun _ h => h.elim) he) fun o h6 h7 => sat_assign hh hc.1 h7 h4.1 ?_
    simp only [step, h2]
    rw [if_neg (by simp [hc.1, h4.2.1])]
  | assign d x =>
    obtain ⟨m, o, h1, h2, h3, h4, h5, h6⟩ := obj hc.2
    simp only [MStmt.need, h6] at hN
    refine sat_var h2 (Sat.bind ((makes_copy (L := L) (N := N) h3 h5 hN).mono (fun _ _ h => h) fun er h' he =>
      stepBad_of_fails hh rfl (fun er h => by cases h) he) fun o' h7 hq => ?_)
    obtain ⟨m', e, h8⟩ := hq
    cases e
    refine sat_assign hh hc.1 h8 h5.1 ?_
    simp only [step, h1]
    rw [if_pos ⟨hc.1, h5.2.1⟩]
  | swap a b =>
    obtain ⟨m, o, h1, h2, h3, h4, h5, h6⟩ := obj hc.1
    obtain ⟨m', o', g1, g2, g3, g4, g5, g6⟩ := obj hc.2
    refine sat_var h2 (sat_var g2 (Sat.pure ⟨_, ?_, (hh.swap h2 g2).1, (hh.swap h2 g2).2⟩))
    simp only [step]
    rw [if_neg (by simp [h1, g1])]
  | mulAssign d x =>
    obtain ⟨m, o, h1, h2, h3, h4, h5, h6⟩ := obj hc.1
    obtain ⟨m', o', g1, g2, g3, g4, g5, g6⟩ := obj hc.2
    simp only [MStmt.need, h1, g1] at hN
    have hout := (mulAssign_some hS h4.some g4.some).2
    refine sat_var h2 (sat_var g2 (Sat.bind ((makes_mulAssign (L := L) (N := N) hS h3 g3 h4 g4 (hr m m' h1 g1) hN).mono (fun _ _ h => h) fun er h' he => ?_)
      fun t h7 hq => ?_))
    · refine stepBad_of_fails hh rfl (fun er h7 => ⟨hub (out_err hout h7), ?_⟩) he
      simp only [step, h1, g1, h7]
    · obtain ⟨r, e, h8⟩ := hq
      refine sat_assign hh hc.1 h8 (out_ok hout e).2.2.1 ?_
      simp only [step, h1, g1, e]
  | update d u junk =>
    obtain ⟨⟨m, hm, hu⟩, hj⟩ := hc
    obtain ⟨m', o, h1, h2, h3, h4, h5, h6⟩ := obj (a := d) (by rw [hm]; simp)
    rw [hm] at h1; cases h1
    obtain ⟨hch, hrun⟩ := MUpd.run_some hS hv hm hu
    rw [MEnv.check_eq] at hch
    refine sat_var h2 (sat_load h3 (Sat.bind (Q' := fun l h' => l = v.look ∧ h' = h) (fun t => ⟨hh.look, rfl⟩) fun l h' hl => ?_))
    obtain ⟨rfl, rfl⟩ := hl
    refine Sat.bind (Q' := fun _ h2 => v.fits m u = .ok () ∧ h2 = h') (MEnv.check_eq v m u ▸ Sat.lift (fun _ e => ⟨e, rfl⟩) fun er e => ?_) fun _ h2' hq => ?_
    · rw [MEnv.check_eq] at e
      have hs : step S v (.update d u junk) = fail er v := by simp only [step, hm, e]
      rcases fail_cases (hub (out_err hch e)) v with ⟨h7, h8⟩ | ⟨h7, h8⟩
      · exact .inl ⟨hs.trans h7, h8⟩
      · exact .inr ⟨h8, v, .inl (hs.trans h7), hh, fun _ h => h⟩
    obtain ⟨hck, rfl⟩ := hq
    have hv' : h2'.view o.ptr ≠ none := by rw [h3.2.2]; simp
    have hjunk : ∀ h3, h3.view = Function.update h2'.view o.ptr (some ((List.range (o.rows * o.cols)).map junk)) →
        Holds h3 vars (v.ranOut (.update d u junk)) ∧ (NoLeak h2' vars → NoLeak h3 vars) := by
      intro h4 e
      simp only [ranOut, hm]
      exact hh.write (m' := ⟨m.rows, m.cols, (List.range (m.rows * m.cols)).map junk⟩) h2 hm rfl rfl (by unfold Mat.Sized; simp) (by rw [e, h3.1, h3.2.1])
    refine Sat.bind (Q' := fun _ h' => StepOk S h2' vars v (.update d u junk) vars h') (Sat.cleanup
      (X' := fun e h' => h' = h2' ∧ (u.run S v.look d m = .error e ∨ e = .badAlloc ∧ L.Interrupts)) ?_ (fun e h' he ht => ?_) fun e h' he ht => ?_)
      fun _ h' hq => Sat.pure hq
    · refine Sat.bind (Q' := fun _ h' => h' = h2') (sat_interrupt rfl fun hi => ⟨rfl, .inr ⟨rfl, hi⟩⟩) fun _ h' e => ?_
      subst e
      refine Sat.bind (Q' := fun m' h2 => u.run S v.look d m = .ok m' ∧ h2 = h') (Sat.lift (fun _ e => ⟨e, rfl⟩) fun er e => ⟨rfl, .inl e⟩) fun m' h2' hq => ?_
      obtain ⟨e, rfl⟩ := hq
      obtain ⟨h7, h8, h9⟩ := store_view hv' m'.data
      have hdim := out_ok (Mat.upd_like S v.look d (r := m.rows) (c := m.cols) ⟨rfl, rfl, h5.1⟩ u) e
      obtain ⟨g1, g2⟩ := hh.write h2 hm hdim.1 hdim.2.1 (out_ok hrun e).2.2.1 h9
      refine Sat.onHeap h8 ⟨_, ?_, g1, g2⟩
      simp only [step, hm, hck, e]
    · obtain ⟨rfl, he⟩ := he
      obtain ⟨h7, h8, h9⟩ := store_view hv' ((List.range (o.rows * o.cols)).map junk)
      obtain ⟨g1, g2⟩ := hjunk h7 h9
      refine Sat.onHeap h8 (.inr ⟨ht, _, ?_, g1, fun _ => g2⟩)
      rcases he with he | he
      · left
        have := fail_cases (hub (out_err hrun he)) (v.ranOut (.update d u junk))
        rcases this with h | h
        · exact (h.2 ht).elim
        · rw [← h.1]; simp only [step, hm, hck, he, ranOut]
      · exact .inr ⟨he.1, .inl he.2, rfl⟩
    · obtain ⟨rfl, he⟩ := he
      rcases he with he | he
      · left
        have := fail_cases (hub (out_err hrun he)) (v.ranOut (.update d u junk))
        rcases this with h | h
        · refine ⟨?_, ht⟩
          rw [← h.1]; simp only [step, hm, hck, he, ranOut]
        · exact (ht h.2).elim
      · exact (ht (by rw [he.1]; decide)).elim
  | print x =>
    obtain ⟨m, o, h1, h2, h3, h4, h5, h6⟩ := obj hc
    simp only [MStmt.need, h6] at hN
    refine sat_var h2 (Sat.bind ((makes_copy (L := L) (N := N) h3 h5 hN).mono (fun _ _ h => h) fun er h' he =>
      stepBad_of_fails hh rfl (fun er h => by cases h) he) fun o' h7 hq => ?_)
    obtain ⟨m', e, h8⟩ := hq
    cases e
    refine Sat.bind (Q' := fun _ h' => h'.view = h.view) ((sat_owned (L := L) (N := N) (h := h) (B := fun _ => False) ?_).mono (fun _ _ h => h) fun er h' he =>
      stepBad_of_fails hh rfl (fun _ h => h.elim) he) fun _ h' e => Sat.pure ⟨v, ?_, hh.keep (fun p c hp => by rw [e]; exact hp), fun hn => hn.congr e⟩
    · refine sat_interrupt ⟨by rw [h8.is.2.2]; simp, fun h' e => ?_⟩ fun hi => ⟨.inl ⟨rfl, .inl hi⟩, fun _ => h8.over⟩
      rw [e, h8.2.2.2, Function.update_idem, ← h8.2.2.1, Function.update_eq_self]
    · simp only [step, h1, h5.2.1, if_true]

namespace MEnv

theorem Sizes.set (hz : v.Sizes) {d : Nat} {m : Mat T} (hm : m.rows * m.cols < 2 ^ 64) : (v.set d (some m)).Sizes := by
  intro x m' hx
  unfold MEnv.set at hx
  split at hx
  · cases hx; exact hm
  · exact hz x m' hx

theorem Sizes.of_fail (hz : v.Sizes) {e : Err} {v' : MEnv T} : fail e v = .done v' ∨ fail e v = .threw v' → v'.Sizes := by
  unfold fail
  split
  · rintro (h | h) <;> cases h
  split
  · rintro (h | h) <;> cases h; exact hz
  · rintro (h | h) <;> cases h

/-- The size of all matrices stays below 2^64. -/
theorem step_sizes (hS : S.Closed P A) (hv : v.AllInit P) (hz : v.Sizes) {c : MStmt T} (hc : c.Legal P v) (hr : c.Room v) {v' : MEnv T}
    (h : step S v c = .done v' ∨ step S v c = .threw v') : v'.Sizes := by
  cases c with
  | declare d e n =>
    simp only [step, hc.1, ne_eq, not_true_eq_false, if_false] at h
    cases he : e.eval S v.look with
    | error er => rw [he] at h; exact hz.of_fail h
    | ok m =>
      obtain ⟨h1, h2⟩ := MExpr.eval_size hS hv hz hc.2 hr he
      rw [he] at h
      dsimp only at h
      rw [if_neg (by simp [h1.2.1])] at h
      rcases h with h | h <;> cases h
      exact hz.set h1.2.2
  | declareCopy d x =>
    obtain ⟨m, hm⟩ := Option.ne_none_iff_exists'.mp hc.2
    simp only [step, hc.1, hm, ne_eq, not_true_eq_false, if_false] at h
    split at h
    · rcases h with h | h <;> cases h
      exact hz.set (hz x m hm)
    · rcases h with h | h <;> cases h
  | destroy d =>
    simp only [step] at h
    rw [if_neg hc] at h
    rcases h with h | h <;> cases h
    intro x m' hx
    unfold MEnv.set at hx
    split at hx
    · cases hx
    · exact hz x m' hx
  | assignExpr d e n =>
    simp only [step] at h
    cases he : e.eval S v.look with
    | error er => rw [he] at h; exact hz.of_fail h
    | ok m =>
      obtain ⟨h1, h2⟩ := MExpr.eval_size hS hv hz hc.2 hr he
      rw [he] at h
      dsimp only at h
      rw [if_neg (by simp [hc.1, h1.2.1])] at h
      rcases h with h | h <;> cases h
      exact hz.set h1.2.2
  | assign d x =>
    obtain ⟨m, hm⟩ := Option.ne_none_iff_exists'.mp hc.2
    simp only [step, hm] at h
    split at h
    · rcases h with h | h <;> cases h
      exact hz.set (hz x m hm)
    · rcases h with h | h <;> cases h
  | swap a b =>
    simp only [step] at h
    rw [if_neg (by simp [hc.1, hc.2])] at h
    rcases h with h | h <;> cases h
    intro x m' hx
    dsimp only at hx
    split at hx
    · exact hz b m' hx
    · split at hx
      · exact hz a m' hx
      · exact hz x m' hx
  | mulAssign d x =>
    obtain ⟨a, ha⟩ := Option.ne_none_iff_exists'.mp hc.1
    obtain ⟨b, hb⟩ := Option.ne_none_iff_exists'.mp hc.2
    simp only [step, ha, hb] at h
    cases he : Mat.mulAssign S a b with
    | error er => rw [he] at h; exact hz.of_fail h
    | ok m =>
      rw [he] at h
      rcases h with h | h <;> cases h
      refine hz.set ?_
      by_cases hd : a.cols = b.rows
      · have := out_ok (Mat.mul_fu hS (Mat.all_iff.mp (hv d a ha)) (by rw [hd]; exact Mat.all_iff.mp (hv x b hb))).2 he
        rw [this.1, this.2.1]
        exact hr a b ha hb
      · unfold Mat.mulAssign at he
        rw [if_pos hd] at he; cases he
  | update d u junk =>
    obtain ⟨⟨m, hm, hu⟩, hj⟩ := hc
    simp only [step, hm] at h
    cases hk : v.fits m u with
    | error er => rw [hk] at h; exact hz.of_fail h
    | ok _ =>
      rw [hk] at h
      dsimp only at h
      cases he : u.run S v.look d m with
      | error er => rw [he] at h; dsimp only at h; refine Sizes.of_fail (hz.set ?_) h; exact hz d m hm
      | ok m' =>
        rw [he] at h
        rcases h with h | h <;> cases h
        have hs := (Mat.all_iff.mp (hv d m hm)).some
        have hdim := out_ok (Mat.upd_like S v.look d (r := m.rows) (c := m.cols) ⟨rfl, rfl, hs.2.2.1⟩ u) he
        exact hz.set (by rw [hdim.1, hdim.2.1]; exact hz d m hm)
  | print x =>
    obtain ⟨m, hm⟩ := Option.ne_none_iff_exists'.mp hc
    simp only [step, hm] at h
    split at h
    · rcases h with h | h <;> cases h
      exact hz
    · rcases h with h | h <;> cases h

theorem step_init (hS : S.Closed P A) (hA : ¬A .ub) (hv : v.AllInit P) {c : MStmt T} (hc : c.Legal P v) {v' : MEnv T}
    (h : step S v c = .done v' ∨ step S v c = .threw v') : v'.AllInit P := by
  have := step_fine hS hA hv hc
  rcases h with h | h <;> rw [h] at this <;> exact this

theorem ranOut_init (hv : v.AllInit P) {c : MStmt T} (hc : c.Legal P v) : (v.ranOut c).AllInit P := by
  cases c with
  | update d u junk =>
    obtain ⟨⟨m, hm, hu⟩, hj⟩ := hc
    simp only [ranOut, hm]
    refine hv.set ⟨rfl, rfl, by simp, fun o ho => ?_⟩
    obtain ⟨k, -, rfl⟩ := List.mem_map.mp ho
    exact hj k
  | _ => exact hv

theorem ranOut_sizes (hz : v.Sizes) (c : MStmt T) : (v.ranOut c).Sizes := by
  cases c with
  | update d u junk =>
    simp only [ranOut]
    split
    · next m hm => exact hz.set (hz d m hm)
    · exact hz
  | _ => exact hz

theorem ranOut_frame (c : MStmt T) {x : Nat} (hx : x ∉ c.targets) : v.ranOut c x = v x := by
  cases c with
  | update d u junk =>
    simp only [ranOut]
    cases v d with
    | some m =>
      simp only [MEnv.set]
      rw [if_neg]
      rintro rfl; simp [MStmt.targets] at hx
    | none => rfl
  | _ => rfl

end MEnv

/-- Programs with exceptions caught after every statement. -/
theorem run_mem (hS : S.Closed P A) (hA : ¬A .ub) (cs : List (MStmt T)) : ∀ {h : MHeap T} {vars : Nat → Option MObj} {v : MEnv T}, Holds h vars v → v.AllInit P →
    v.Sizes → LegalAll S P cs v → Sat (MStmt.runMem L S cs vars) h
      (fun vars' h' => ∃ w, Ends S cs v w ∧ Holds h' vars' w ∧ (¬L.Interrupts → NoLeak h vars → NoLeak h' vars')) (fun e _ => A e ∧ ¬Thrown e) := by
  induction cs with
  | nil => intro h vars v hh _ _ _; exact Sat.pure ⟨v, .nil v, hh, fun _ h => h⟩
  | cons c cs ih =>
    intro h vars v hh hv hz hl t
    obtain ⟨h1, h2, h3, h4⟩ := hl
    have hs := step_mem (L := L) hS hA hh hv hz h1 h2 le_rfl t
    unfold MStmt.runMem
    rcases hr : c.stepMem L S vars ⟨h, t⟩ with ⟨e | vars', m⟩
    · rw [hr] at hs
      dsimp only at hs ⊢
      rcases hs with ⟨h5, h6⟩ | ⟨h5, v', h6, h7, h8⟩
      · rw [if_neg fun he => h6 ((thrown_iff e).mp he)]
        have := step_fine hS hA hv h1
        rw [h5] at this
        exact ⟨this, h6⟩
      · rw [if_pos ((thrown_iff e).mpr h5)]
        rcases h6 with h6 | ⟨-, -, rfl⟩
        · rw [h6] at h4
          exact (show Sat (MStmt.runMem L S cs vars) m.heap (fun vars' h' => ∃ w, Ends S (c :: cs) v w ∧ Holds h' vars' w ∧
            (¬L.Interrupts → NoLeak h vars → NoLeak h' vars')) (fun e _ => A e ∧ ¬Thrown e) from (ih h7 (step_init hS hA hv h1 (.inr h6)) (step_sizes hS hv hz h1 h2 (.inr h6)) h4).mono
            (fun _ _ ⟨w, g1, g2, g3⟩ => ⟨w, .threw h6 g1, g2, fun hi hn => g3 hi (h8 hi hn)⟩) (fun _ _ h => h)) m.tick
        · exact (show Sat (MStmt.runMem L S cs vars) m.heap (fun vars' h' => ∃ w, Ends S (c :: cs) v w ∧ Holds h' vars' w ∧
            (¬L.Interrupts → NoLeak h vars → NoLeak h' vars')) (fun e _ => A e ∧ ¬Thrown e) from (ih h7 (ranOut_init hv h1) (ranOut_sizes hz c) h3).mono
            (fun _ _ ⟨w, g1, g2, g3⟩ => ⟨w, .outOfMemory g1, g2, fun hi hn => g3 hi (h8 hi hn)⟩) (fun _ _ h => h)) m.tick
    · rw [hr] at hs
      dsimp only at hs ⊢
      obtain ⟨v', h5, h6, h7⟩ := hs
      rw [h5] at h4
      exact (show Sat (MStmt.runMem L S cs vars') m.heap (fun vars' h' => ∃ w, Ends S (c :: cs) v w ∧ Holds h' vars' w ∧
            (¬L.Interrupts → NoLeak h vars → NoLeak h' vars')) (fun e _ => A e ∧ ¬Thrown e) from (ih h6 (step_init hS hA hv h1 (.inl h5)) (step_sizes hS hv hz h1 h2 (.inl h5)) h4).mono
        (fun _ _ ⟨w, g1, g2, g3⟩ => ⟨w, .done h5 g1, g2, fun hi hn => g3 hi (h7 hn)⟩) (fun _ _ h => h)) m.tick

/-- The statements of a block. -/
theorem block_mem (hS : S.Closed P A) (hA : ¬A .ub) (cs : List (MStmt T)) : ∀ {h : MHeap T} {vars : Nat → Option MObj} {v : MEnv T}, Holds h vars v → v.AllInit P →
    v.Sizes → LegalBlock S P cs v → Sat (MStmt.runBlock L S cs vars) h
      (fun r h' => match r.1 with
        | .ok _ => ∃ w, Leaves S cs v w false ∧ Holds h' r.2 w ∧ (¬L.Interrupts → NoLeak h vars → NoLeak h' r.2)
        | .error e => A e ∧ ¬Thrown e ∨ Thrown e ∧ ∃ w, Leaves S cs v w true ∧ Holds h' r.2 w ∧ (¬L.Interrupts → NoLeak h vars → NoLeak h' r.2))
      (fun _ _ => False) := by
  induction cs with
  | nil => intro h vars v hh _ _ _; exact Sat.pure ⟨v, .nil v, hh, fun _ h => h⟩
  | cons c cs ih =>
    intro h vars v hh hv hz hl t
    obtain ⟨h1, h2, h4⟩ := hl
    have hs := step_mem (L := L) hS hA hh hv hz h1 h2 le_rfl t
    unfold MStmt.runBlock
    rcases hr : c.stepMem L S vars ⟨h, t⟩ with ⟨e | vars', m⟩
    · rw [hr] at hs
      dsimp only at hs ⊢
      rcases hs with ⟨h5, h6⟩ | ⟨h5, v', h6, h7, h8⟩
      · have := step_fine hS hA hv h1
        rw [h5] at this
        exact .inl ⟨this, h6⟩
      · refine .inr ⟨h5, v', ?_, h7, h8⟩
        rcases h6 with h6 | ⟨-, -, rfl⟩
        · exact .threw h6
        · exact .outOfMemory c cs v
    · rw [hr] at hs
      dsimp only at hs ⊢
      obtain ⟨v', h5, h6, h7⟩ := hs
      rw [h5] at h4
      refine (show Sat (MStmt.runBlock L S cs vars') m.heap (fun r h' => match r.1 with
        | .ok _ => ∃ w, Leaves S (c :: cs) v w false ∧ Holds h' r.2 w ∧ (¬L.Interrupts → NoLeak h vars → NoLeak h' r.2)
        | .error e => A e ∧ ¬Thrown e ∨ Thrown e ∧ ∃ w, Leaves S (c :: cs) v w true ∧ Holds h' r.2 w ∧ (¬L.Interrupts → NoLeak h vars → NoLeak h' r.2))
        (fun _ _ => False) from (ih h6 (step_init hS hA hv h1 (.inl h5)) (step_sizes hS hv hz h1 h2 (.inl h5)) h4).mono (fun r h' => ?_) (fun _ _ h => h)) m.tick
      rcases r with ⟨e | u, vars2⟩
      · rintro (g | ⟨g0, w, g1, g2, g3⟩)
        · exact .inl g
        · exact .inr ⟨g0, w, .done h5 g1, g2, fun hi hn => g3 hi (h7 hn)⟩
      · rintro ⟨w, g1, g2, g3⟩
        exact ⟨w, .done h5 g1, g2, fun hi hn => g3 hi (h7 hn)⟩

/-- The variables of a block are destroyed. -/
theorem destroyVars_mem {X : Err → MHeap T → Prop} (n : Nat) : ∀ {h : MHeap T} {vars : Nat → Option MObj} {v : MEnv T}, Holds h vars v →
    Sat (destroyVars vars n) h (fun _ h' => Holds h' (fun x => if x < n then none else vars x) (fun x => if x < n then none else v x) ∧
      (NoLeak h vars → NoLeak h' fun x => if x < n then none else vars x)) X := by
  induction n with
  | zero =>
    intro h vars v hh
    refine Sat.pure ?_
    simp only [Nat.not_lt_zero, if_false]
    exact ⟨hh, fun h => h⟩
  | succ n ih =>
    intro h vars v hh
    have e1 : ∀ {α : Type} (f : Nat → Option α), (fun x => if x < n then none else if x = n then none else f x) = fun x => if x < n + 1 then none else f x := by
      intro α f
      funext x
      by_cases h1 : x < n
      · rw [if_pos h1, if_pos (by omega)]
      · rw [if_neg h1]
        by_cases h2 : x = n
        · rw [if_pos h2, if_pos (by omega)]
        · rw [if_neg h2, if_neg (by omega)]
    have e2 : destroyVars (T := T) vars n = destroyVars (setObj vars n none) n := by
      have : ∀ k, k ≤ n → destroyVars (T := T) vars k = destroyVars (setObj vars n none) k := by
        intro k
        induction k with
        | zero => intro _; rfl
        | succ k ihk =>
          intro hk
          unfold destroyVars
          rw [ihk (by omega)]
          have : setObj vars n none k = vars k := by unfold setObj; rw [if_neg (by omega)]
          rw [this]
      exact this n le_rfl
    unfold destroyVars
    rw [e2]
    refine Sat.bind (Q' := fun _ h' => Holds h' (setObj vars n none) (v.set n none) ∧ (NoLeak h vars → NoLeak h' (setObj vars n none))) ?_ fun _ h' hq => ?_
    · cases hn : vars n with
      | some o =>
        obtain ⟨m, h1, h2, -⟩ := hh.of_var hn
        exact sat_destroy (by rw [h2.2.2]; simp) fun h' e => ⟨hh.remove hn e, fun hl => hl.remove hn e⟩
      | none =>
        have g1 : setObj vars n none = vars := by
          funext x; unfold setObj
          split
          · next h => rw [h, hn]
          · rfl
        have g2 : v.set n none = v := by
          funext x; unfold MEnv.set
          split
          · next h =>
            rw [h]
            cases hv : v n with
            | none => rfl
            | some m =>
              obtain ⟨o, h1, -⟩ := hh.is hv
              rw [hn] at h1; cases h1
          · rfl
        refine Sat.pure ?_
        rw [g1, g2]
        exact ⟨hh, fun h => h⟩
    · refine (ih hq.1).mono (fun _ h'' hr => ?_) fun _ _ h => h
      have e3 := e1 vars
      have e4 := e1 v
      unfold setObj MEnv.set at hr
      unfold setObj at hq
      rw [e3, e4] at hr
      exact ⟨hr.1, fun hn => hr.2 (hq.2 hn)⟩

/-- A block. -/
theorem scope_mem (hS : S.Closed P A) (hA : ¬A .ub) (cs : List (MStmt T)) (n : Nat) (hh : Holds h vars v) (hv : v.AllInit P)
    (hz : v.Sizes) (hl : LegalBlock S P cs v) : Sat (MStmt.scope L S n cs vars) h
      (fun r h' => (∀ e, r.1 = .error e → Thrown e) ∧ ∃ w b, Leaves S cs v w b ∧ (b = true ↔ ∃ e, r.1 = .error e) ∧
        Holds h' r.2 (fun x => if x < n then none else w x) ∧ (¬L.Interrupts → NoLeak h vars → NoLeak h' r.2))
      (fun e _ => A e ∧ ¬Thrown e) := by
  unfold MStmt.scope
  refine Sat.bind ((block_mem (L := L) hS hA cs hh hv hz hl).mono (fun _ _ h => h) fun _ _ h => h.elim) fun r h1 hq => ?_
  rcases r with ⟨e | u, vars'⟩
  · dsimp only at hq ⊢
    rcases hq with ⟨h2, h3⟩ | ⟨h2, w, h4, h5, h6⟩
    · rw [if_neg fun he => h3 ((thrown_iff e).mp he)]
      exact Sat.lift (fun _ e => by cases e) fun _ e => by cases e; exact ⟨h2, h3⟩
    · rw [if_pos ((thrown_iff e).mpr h2)]
      refine Sat.bind (destroyVars_mem n h5) fun _ h7 h8 => Sat.pure ⟨fun e' he => by cases he; exact h2, w, true, h4, by simp, h8.1, fun hi hn => h8.2 (h6 hi hn)⟩
  · dsimp only at hq ⊢
    obtain ⟨w, h4, h5, h6⟩ := hq
    exact Sat.bind (destroyVars_mem n h5) fun _ h7 h8 => Sat.pure ⟨fun e' he => (by cases he), w, false, h4, by simp, h8.1, fun hi hn => h8.2 (h6 hi hn)⟩

/-- A block changes only the variables that its statements name. -/
theorem leaves_frame {cs : List (MStmt T)} {v w : MEnv T} {b : Bool} (hl : Leaves S cs v w b) {x : Nat} (hx : ∀ c ∈ cs, x ∉ c.targets) : w x = v x := by
  induction hl with
  | nil v => rfl
  | @done c cs v v' w b hs _ ih =>
    have := step_frame S v c (hx _ List.mem_cons_self)
    rw [hs] at this
    rw [ih fun c hc => hx c (by simp [hc]), this]
  | @threw c cs v v' hs =>
    have := step_frame S v c (hx _ List.mem_cons_self)
    rw [hs] at this
    exact this
  | outOfMemory c cs v => exact ranOut_frame c (hx _ (by simp))

theorem fail_threw {e : Err} {v' : MEnv T} (h : MEnv.fail e v = .threw v') : v' = v := by
  unfold MEnv.fail at h
  split at h
  · cases h
  split at h
  · cases h; rfl
  · cases h

/-- Apart from the changes in place, a statement that throws leaves the variables as they were. -/
theorem threw_same {c : MStmt T} {v' : MEnv T} (hu : ∀ d u j, c ≠ .update d u j) (h : step S v c = .threw v') : v' = v := by
  cases c with
  | declare d e n =>
    simp only [step] at h
    by_cases h1 : v d ≠ none
    · rw [if_pos h1] at h; cases h
    rw [if_neg h1] at h
    cases he : e.eval S v.look with
    | error er => rw [he] at h; exact fail_threw h
    | ok m =>
      rw [he] at h
      dsimp only at h
      split at h <;> cases h
  | declareCopy d x =>
    simp only [step] at h
    by_cases h1 : v d ≠ none
    · rw [if_pos h1] at h; cases h
    rw [if_neg h1] at h
    cases hx : v x with
    | none => rw [hx] at h; cases h
    | some m =>
      rw [hx] at h
      dsimp only at h
      split at h <;> cases h
  | destroy d =>
    simp only [step] at h
    split at h <;> cases h
  | assignExpr d e n =>
    simp only [step] at h
    cases he : e.eval S v.look with
    | error er => rw [he] at h; exact fail_threw h
    | ok m =>
      rw [he] at h
      dsimp only at h
      split at h <;> cases h
  | assign d x =>
    simp only [step] at h
    cases hx : v x with
    | none => rw [hx] at h; cases h
    | some m =>
      rw [hx] at h
      dsimp only at h
      split at h <;> cases h
  | swap a b =>
    simp only [step] at h
    split at h <;> cases h
  | mulAssign d x =>
    simp only [step] at h
    cases hd : v d with
    | none => rw [hd] at h; cases h
    | some a =>
      cases hx : v x with
      | none => rw [hd, hx] at h; cases h
      | some b =>
        rw [hd, hx] at h
        dsimp only at h
        cases he : Mat.mulAssign S a b with
        | error er => rw [he] at h; exact fail_threw h
        | ok m => rw [he] at h; cases h
  | update d u j => exact (hu d u j rfl).elim
  | print x =>
    simp only [step] at h
    cases hx : v x with
    | none => rw [hx] at h; cases h
    | some m =>
      rw [hx] at h
      dsimp only at h
      split at h <;> cases h

theorem HM.run_ok {β : Type} {x : HM T β} {f : β → HM T α} {s s' : Store T} {b : β} (h : x s = (.ok b, s')) : (x >>= f) s = f b s' := by
  show (match x s with
    | (.ok a, m') => f a m'
    | (.error e, m') => (.error e, m')) = _
  rw [h]

theorem HM.run_err {β : Type} {x : HM T β} {f : β → HM T α} {s s' : Store T} {e : Err} (h : x s = (.error e, s')) : (x >>= f) s = (.error e, s') := by
  show (match x s with
    | (.ok a, m') => f a m'
    | (.error e, m') => (.error e, m')) = _
  rw [h]

/-- A constructor with 2^64 entries or more. -/
theorem fill_wrap {r c : Nat} (hrc : 2 ^ 64 ≤ r * c) (res : Res (Mat T)) (s : Store T) : (((do
      let o ← MObj.ctor L r c
      o.fill L res
      return o) : HM T MObj) s).1 = .error (if L.refuse s.tick s.heap (r * c % 2 ^ 64) then .badAlloc else .ub) := by
  by_cases hr : L.refuse s.tick s.heap (r * c % 2 ^ 64) = true
  · have h0 : MObj.new L (r * c % sizeMod) s = (.error .badAlloc, ⟨s.heap, s.tick + 1⟩) := by
      unfold MObj.new sizeMod
      rw [if_pos hr]
    have h1 : MObj.ctor L r c s = (.error .badAlloc, ⟨s.heap, s.tick + 1⟩) := HM.run_err h0
    rw [if_pos hr, HM.run_err h1]
  · have h0 : MObj.new L (r * c % sizeMod) s = (.ok s.heap.length, ⟨s.heap ++ [some (List.replicate (r * c % 2 ^ 64) none)], s.tick + 1⟩) := by
      unfold MObj.new sizeMod
      rw [if_neg hr]
      rfl
    have h1 : MObj.ctor L r c s = (.ok ⟨r, c, s.heap.length⟩, ⟨s.heap ++ [some (List.replicate (r * c % 2 ^ 64) none)], s.tick + 1⟩) := HM.run_ok h0
    have hlt : r * c % 2 ^ 64 < 2 ^ 64 := Nat.mod_lt _ (by decide)
    rw [if_neg hr, HM.run_ok h1]
    refine congrArg Prod.fst (HM.run_err (HM.run_err (s' := ⟨s.heap ++ [some (List.replicate (r * c % 2 ^ 64) none)], s.tick + 1⟩) ?_))
    unfold HM.onHeap
    dsimp only
    rw [List.getElem?_append_right le_rfl]
    simp only [Nat.sub_self, List.getElem?_cons_zero, List.length_replicate]
    rw [if_neg (by omega)]

end CppMaths
