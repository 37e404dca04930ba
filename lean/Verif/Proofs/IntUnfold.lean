import Verif.Model.Int
/-!
# The recursive equations of `operator+`, `operator-`, `operator+=`, `operator-=`

The C++ text defines these four operators by mutual recursion (src/Int.cpp:130-168, 200-239). The model unfolds the
recursion; here the equations of the C++ text are proved of the model, for all objects whatsoever.
-/

namespace CppMaths.BigInt

/-- Negating a negative number either fails or clears the sign flag. -/
theorem neg_cases {x : BigInt} (h : x.negative = true) :
    (∃ e, x.neg = .error e) ∨ ∃ r, x.neg = .ok r ∧ r.negative = false := by
  unfold neg negate
  cases hz : x.equalsInt32 0 with
  | error e => exact .inl ⟨e, rfl⟩
  | ok z => exact .inr ⟨_, rfl, by cases z <;> simp [h]⟩

theorem negate_cases {x : BigInt} (h : x.negative = true) :
    (∃ e, x.negate = .error e) ∨ ∃ r, x.negate = .ok r ∧ r.negative = false := neg_cases h

theorem opAdd_nonneg {x y : BigInt} (hx : x.negative = false) (hy : y.negative = false) :
    opAdd x y = addNonneg x y := by simp [opAdd, hx, hy]
theorem opSub_nonneg {x y : BigInt} (hx : x.negative = false) (hy : y.negative = false) :
    opSub x y = subNonneg x y := by simp [opSub, hx, hy]
theorem addAssign_nonneg' {x y : BigInt} (hx : x.negative = false) (hy : y.negative = false) :
    addAssign x y = addAssignNonneg x y := by simp [addAssign, hx, hy]
theorem subAssign_nonneg' {x y : BigInt} (hx : x.negative = false) (hy : y.negative = false) :
    subAssign x y = subAssignNonneg x y := by simp [subAssign, hx, hy]

/-- `operator+` as written in src/Int.cpp:130-147. -/
theorem opAdd_eq (x y : BigInt) : opAdd x y =
    if x.negative && y.negative then (do let r ← opAdd (← x.neg) (← y.neg); r.neg)
    else if x.negative && !y.negative then (do let r ← opSub (← x.neg) y; r.neg)
    else if !x.negative && y.negative then (do opSub x (← y.neg))
    else if x.bins.length > y.bins.length then x.add y else y.add x := by
  cases hx : x.negative <;> cases hy : y.negative
  · simp [opAdd, hx, hy, addNonneg]
  · rcases neg_cases hy with ⟨e, he⟩ | ⟨r, hr, hn⟩
    · simp [opAdd, hx, hy, he]
    · simp only [hr, bind_ok, opSub_nonneg hx hn]
      simp [opAdd, hx, hy, hr]
  · rcases neg_cases hx with ⟨e, he⟩ | ⟨r, hr, hn⟩
    · simp [opAdd, hx, hy, he]
    · simp only [hr, bind_ok, opSub_nonneg hn hy]
      simp [opAdd, hx, hy, hr]
  · rcases neg_cases hx with ⟨e, he⟩ | ⟨r, hr, hn⟩
    · simp [opAdd, hx, hy, he]
    · rcases neg_cases hy with ⟨e, he⟩ | ⟨s, hs, hm⟩
      · simp [opAdd, hx, hy, hr, he]
      · simp only [hr, hs, bind_ok, opAdd_nonneg hn hm]
        simp [opAdd, hx, hy, hr, hs]

/-- `operator-` as written in src/Int.cpp:149-168. -/
theorem opSub_eq (x y : BigInt) : opSub x y =
    if x.negative && y.negative then (do let r ← opSub (← x.neg) (← y.neg); r.neg)
    else if x.negative && !y.negative then (do let r ← opAdd (← x.neg) y; r.neg)
    else if !x.negative && y.negative then (do opAdd x (← y.neg))
    else (do
      let g ← x.gt y
      if g then BigInt.subtract { x with bins := cleanBins x.bins } y
      else do
        let r ← BigInt.subtract { y with bins := cleanBins y.bins } x
        r.neg) := by
  cases hx : x.negative <;> cases hy : y.negative
  · simp [opSub, hx, hy, subNonneg]
  · rcases neg_cases hy with ⟨e, he⟩ | ⟨r, hr, hn⟩
    · simp [opSub, hx, hy, he]
    · simp only [hr, bind_ok, opAdd_nonneg hx hn]
      simp [opSub, hx, hy, hr]
  · rcases neg_cases hx with ⟨e, he⟩ | ⟨r, hr, hn⟩
    · simp [opSub, hx, hy, he]
    · simp only [hr, bind_ok, opAdd_nonneg hn hy]
      simp [opSub, hx, hy, hr]
  · rcases neg_cases hx with ⟨e, he⟩ | ⟨r, hr, hn⟩
    · simp [opSub, hx, hy, he]
    · rcases neg_cases hy with ⟨e, he⟩ | ⟨s, hs, hm⟩
      · simp [opSub, hx, hy, hr, he]
      · simp only [hr, hs, bind_ok, opSub_nonneg hn hm]
        simp [opSub, hx, hy, hr, hs]

/-- `operator+=` as written in src/Int.cpp:200-215. -/
theorem addAssign_eq (x y : BigInt) : addAssign x y =
    if x.negative && y.negative then (do
      let tmp ← y.neg
      let x ← x.negate
      let x ← x.addAssign tmp
      x.negate)
    else if x.negative && !y.negative then (do
      let x ← x.negate
      let x ← x.subAssign y
      x.negate)
    else if !x.negative && y.negative then (do x.subAssign (← y.neg))
    else x.add (ofShift y 0) := by
  cases hx : x.negative <;> cases hy : y.negative
  · simp [addAssign, hx, hy, addAssignNonneg]
  · rcases neg_cases hy with ⟨e, he⟩ | ⟨r, hr, hn⟩
    · simp [addAssign, hx, hy, he]
    · simp only [hr, bind_ok, subAssign_nonneg' hx hn]
      simp [addAssign, hx, hy, hr]
  · rcases negate_cases hx with ⟨e, he⟩ | ⟨r, hr, hn⟩
    · simp [addAssign, hx, hy, he]
    · simp only [hr, bind_ok, subAssign_nonneg' hn hy]
      simp [addAssign, hx, hy, hr]
  · rcases neg_cases hy with ⟨e, he⟩ | ⟨s, hs, hm⟩
    · simp [addAssign, hx, hy, he]
    · rcases negate_cases hx with ⟨e, he⟩ | ⟨r, hr, hn⟩
      · simp [addAssign, hx, hy, hs, he]
      · simp only [hr, hs, bind_ok, addAssign_nonneg' hn hm]
        simp [addAssign, hx, hy, hr, hs]

/-- `operator-=` as written in src/Int.cpp:217-239. -/
theorem subAssign_eq (x y : BigInt) : subAssign x y =
    if x.negative && y.negative then (do
      let tmp ← y.neg
      let x ← x.negate
      let x ← x.subAssign tmp
      x.negate)
    else if x.negative && !y.negative then (do
      let x ← x.negate
      let x ← x.addAssign y
      x.negate)
    else if !x.negative && y.negative then (do x.addAssign (← y.neg))
    else (do
      let g ← x.gt y
      if g then x.subtract y
      else do
        let r ← y.subtract x
        r.negate) := by
  cases hx : x.negative <;> cases hy : y.negative
  · simp [subAssign, hx, hy, subAssignNonneg]
  · rcases neg_cases hy with ⟨e, he⟩ | ⟨r, hr, hn⟩
    · simp [subAssign, hx, hy, he]
    · simp only [hr, bind_ok, addAssign_nonneg' hx hn]
      simp [subAssign, hx, hy, hr]
  · rcases negate_cases hx with ⟨e, he⟩ | ⟨r, hr, hn⟩
    · simp [subAssign, hx, hy, he]
    · simp only [hr, bind_ok, addAssign_nonneg' hn hy]
      simp [subAssign, hx, hy, hr]
  · rcases neg_cases hy with ⟨e, he⟩ | ⟨s, hs, hm⟩
    · simp [subAssign, hx, hy, he]
    · rcases negate_cases hx with ⟨e, he⟩ | ⟨r, hr, hn⟩
      · simp [subAssign, hx, hy, hs, he]
      · simp only [hr, hs, bind_ok, subAssign_nonneg' hn hm]
        simp [subAssign, hx, hy, hr, hs]

end CppMaths.BigInt
