import Verif.Proofs.MatMemStep
import Verif.Proofs.Witness
/-!
# C134-C136: matrices when memory runs out
-/

namespace CppMaths
variable {T : Type} {P : T → Prop} {A : Err → Prop} {S : Scalar T} {L : Luck T} {h : MHeap T} {v : MEnv T} {vars : Nat → Option MObj}
open MEnv MHeap

/-! For the examples: variable 0 holds (NaN NaN), variable 1 the empty matrix with one row; a block in between has been deleted. -/
private def exH : MHeap Double := [some [some .nan, some .nan], none, some []]
private def exO : Nat → Option MObj := fun x => if x = 0 then some ⟨1, 2, 0⟩ else if x = 1 then some ⟨1, 0, 2⟩ else none
private def exV : MEnv Double := fun x => if x = 0 then some ⟨1, 2, [some .nan, some .nan]⟩ else if x = 1 then some ⟨1, 0, []⟩ else none
private theorem exHolds : Holds exH exO exV where
  dead x h := by
    unfold exV at h
    split_ifs at h with h1 h2
    simp [exO, h1, h2]
  live x m h := by
    unfold exV at h
    split_ifs at h with h1 h2 <;> cases h
    · exact ⟨⟨1, 2, 0⟩, by simp [exO, h1], rfl, rfl, rfl, rfl⟩
    · exact ⟨⟨1, 0, 2⟩, by simp [exO, h2], rfl, rfl, rfl, rfl⟩
  unshared x y o o' h h' e := by
    unfold exO at h h'
    split_ifs at h h' with h1 h2 h3 h4 <;> cases h <;> cases h' <;> simp_all
private theorem exNoLeak : NoLeak exH exO := fun p b h => by
  match p, h with
  | 0, _ => exact ⟨0, _, rfl, rfl⟩
  | 1, h => cases h
  | 2, _ => exact ⟨1, _, rfl, rfl⟩
  | n + 3, h => cases h
private theorem exInit : exV.AllInit fun _ => True := fun x m h => by
  unfold exV at h
  split_ifs at h with h1 h2 <;> cases h
  · exact ⟨rfl, rfl, rfl, by simp⟩
  · exact ⟨rfl, rfl, rfl, by simp⟩
private theorem exSizes : exV.Sizes := fun x m h => by
  unfold exV at h
  split_ifs at h with h1 h2 <;> cases h <;> decide
private theorem exQuiet {T : Type} (n : Nat) : ¬(.limit n : Luck T).Interrupts := fun ⟨_, h⟩ => by cases h
private theorem exEnough {T : Type} (n : Nat) : ¬(.limit n : Luck T).Short n := fun ⟨_, h, k, h1, h2⟩ => by
  simp only [Luck.limit, decide_eq_true_eq] at h1
  omega

/-- C134: what a matrix statement does when any of its requests for memory may be refused, whoever refuses which, and whichever copies of
returned objects the compiler elides. It ends as it would with unlimited memory; or it throws what it would throw then; or it throws
`bad_alloc`. Nothing undefined happens: no block is used that is not allocated, none is deleted twice. Afterwards every variable holds a matrix
in an allocated block of its own: after `bad_alloc` that of before, except that the target of a change in place may be half written. Nothing is
leaked, except that after an exception it may be if copying or computing entries itself can run out of memory. Missing for the full claim:
the leak in that case (`C134_refuted_leak`), and matrices of 2^64 entries or more (C135). -/
theorem C134_statement_partial (L : Luck T) (hS : S.Closed P A) (hA : ¬A .ub) (hh : Holds h vars v) (hv : v.AllInit P) (hz : v.Sizes)
    {c : MStmt T} (hc : c.Legal P v) (hr : c.Room v) (t : Nat) :
    match c.stepMem L S vars ⟨h, t⟩ with
    | (.ok vars', s) => ∃ v', step S v c = .done v' ∧ Holds s.heap vars' v' ∧ (NoLeak h vars → NoLeak s.heap vars')
    | (.error e, s) =>
      step S v c = .stopped e ∧ ¬Thrown e ∨
      Thrown e ∧ ∃ v', (step S v c = .threw v' ∨ e = .badAlloc ∧ v' = v.ranOut c) ∧ Holds s.heap vars v' ∧
        (¬L.Interrupts → NoLeak h vars → NoLeak s.heap vars) := by
  have := step_mem (L := L) hS hA hh hv hz hc hr le_rfl t
  rcases hx : c.stepMem L S vars ⟨h, t⟩ with ⟨e | vars', s⟩ <;> rw [hx] at this
  · rcases this with h1 | ⟨h1, v', h2, h3, h4⟩
    · exact .inl h1
    · exact .inr ⟨h1, v', h2.imp id fun h => ⟨h.1, h.2.2⟩, h3, h4⟩
  · exact this

example := C134_statement_partial (Luck.limit 3) closed_double id exHolds exInit exSizes (c := .assignExpr 0 (.neg 0) 0) ⟨nofun, nofun⟩ trivial 0

/-- C134: the strong guarantee. Apart from the changes in place, a statement that throws, for whatever reason, leaves every variable as it was. -/
theorem C134_strong_guarantee (L : Luck T) (hS : S.Closed P A) (hA : ¬A .ub) (hh : Holds h vars v) (hv : v.AllInit P) (hz : v.Sizes)
    {c : MStmt T} (hc : c.Legal P v) (hr : c.Room v) (hu : ∀ d u j, c ≠ .update d u j) {t : Nat} {e : Err} {s : Store T}
    (he : c.stepMem L S vars ⟨h, t⟩ = (.error e, s)) (ht : Thrown e) :
    Holds s.heap vars v ∧ (∀ x o m, vars x = some o → v x = some m → s.heap.view o.ptr = some m.data) := by
  have := step_mem (L := L) hS hA hh hv hz hc hr le_rfl t
  rw [he] at this
  rcases this with h1 | ⟨h1, v', h2, h3, h4⟩
  · exact (h1.2 ht).elim
  have hv' : v' = v := by
    rcases h2 with h2 | ⟨-, -, h2⟩
    · exact threw_same hu h2
    · rw [h2]
      cases c with
      | update d u j => exact (hu d u j rfl).elim
      | _ => rfl
  rw [hv'] at h3
  refine ⟨h3, fun x o m h5 h6 => ?_⟩
  obtain ⟨o', h7, -, -, h8, -⟩ := h3.live x m h6
  rw [h5] at h7; cases h7
  exact h8

example := C134_strong_guarantee (Luck.limit 5) closed_double id exHolds exInit exSizes (c := .assignExpr 0 (.neg 0) 0) ⟨nofun, nofun⟩ trivial nofun (t := 0)
  (e := .badAlloc) (s := ⟨exH ++ [none], 4⟩) (by rfl) (by decide)

/-- C134: a program in which every statement stands in `try { .. } catch (const std::exception&) {}`. However often memory runs out, the variables
finally hold what the statements that were executed have made of them, and nothing is leaked if the entries need no memory. -/
theorem C134_programs_partial (L : Luck T) (hS : S.Closed P A) (hA : ¬A .ub) (hh : Holds h vars v) (hv : v.AllInit P) (hz : v.Sizes)
    {cs : List (MStmt T)} (hl : LegalAll S P cs v) (t : Nat) :
    match MStmt.runMem L S cs vars ⟨h, t⟩ with
    | (.ok vars', s) => ∃ w, Ends S cs v w ∧ Holds s.heap vars' w ∧ (¬L.Interrupts → NoLeak h vars → NoLeak s.heap vars')
    | (.error e, _) => A e ∧ ¬Thrown e := by
  have := run_mem (L := L) hS hA cs hh hv hz hl t
  rcases hx : MStmt.runMem L S cs vars ⟨h, t⟩ with ⟨e | r, s⟩ <;> rw [hx] at this <;> exact this

/-- C134: a block in a `try` statement. If memory runs out in the middle, the variables declared in the block are destroyed, those outside it hold
what the executed statements have made of them, and nothing is leaked if the entries need no memory. -/
theorem C134_blocks_partial (L : Luck T) (hS : S.Closed P A) (hA : ¬A .ub) (hh : Holds h vars v) (hv : v.AllInit P) (hz : v.Sizes)
    {cs : List (MStmt T)} (hl : LegalBlock S P cs v) (n t : Nat) :
    match MStmt.scope L S n cs vars ⟨h, t⟩ with
    | (.ok r, s) => (∀ e, r.1 = .error e → Thrown e) ∧ ∃ w b, Leaves S cs v w b ∧ (b = true ↔ ∃ e, r.1 = .error e) ∧
        Holds s.heap r.2 (fun x => if x < n then none else w x) ∧ (¬L.Interrupts → NoLeak h vars → NoLeak s.heap r.2)
    | (.error e, _) => A e ∧ ¬Thrown e := by
  have := scope_mem (L := L) hS hA cs n hh hv hz hl t
  rcases hx : MStmt.scope L S n cs vars ⟨h, t⟩ with ⟨e | r, s⟩ <;> rw [hx] at this <;> exact this

/-- C134: a block that starts with nothing allocated ends with nothing allocated, however it is left. -/
theorem C134_everything_freed (L : Luck T) (hi : ¬L.Interrupts) (hS : S.Closed P A) (hA : ¬A .ub) {cs : List (MStmt T)} {n : Nat}
    (hl : LegalBlock S P cs fun _ => none) (hn : ∀ c ∈ cs, ∀ x ∈ c.targets, x < n) (t : Nat) :
    match MStmt.scope L S n cs (fun _ => none) ⟨[], t⟩ with
    | (.ok r, s) => s.heap.live = 0 ∧ (∀ p, s.heap.view p = none) ∧ ∀ x, r.2 x = none
    | (.error e, _) => A e ∧ ¬Thrown e := by
  have hh : Holds ([] : MHeap T) (fun _ => none) fun _ => none := ⟨fun _ _ => rfl, fun _ _ h => (nomatch h), fun _ _ _ _ h => (nomatch h)⟩
  have := scope_mem (L := L) hS hA cs n hh (fun _ _ h => by cases h) (fun _ _ h => by cases h) hl t
  rcases hx : MStmt.scope L S n cs (fun _ => none) ⟨[], t⟩ with ⟨e | r, s⟩ <;> rw [hx] at this
  · exact this
  · obtain ⟨-, w, b, h1, -, h2, h3⟩ := this
    have hw : (fun x => if x < n then none else w x) = fun _ => none := by
      funext x
      by_cases hxn : x < n
      · rw [if_pos hxn]
      · rw [if_neg hxn, leaves_frame h1 fun c hc hxc => hxn (hn c hc x hxc)]
    rw [hw] at h2
    have h4 : ∀ x, r.2 x = none := fun x => h2.dead x rfl
    have h5 : ∀ p, s.heap.view p = none := fun p => by
      cases hp : s.heap.view p with
      | none => rfl
      | some b =>
        obtain ⟨x, o, h6, -⟩ := h3 hi (fun p b hp => by simp [view] at hp) p b hp
        rw [h4 x] at h6; cases h6
    refine ⟨?_, h5, h4⟩
    rw [live_congr (h := []) (h' := s.heap) (funext fun p => by rw [h5 p]; simp [view])]
    rfl

/-- A 2 × 2 matrix of ones, a copy, a product, a sum in place, a product in place. -/
def C134_example : List (MStmt Double) :=
  [.declare 0 (.filled 2 2 (.fin false (2 ^ 52) (-52))) 0, .declareCopy 1 0, .declare 2 (.mul 0 1) 0, .update 1 (.addA 0) (fun _ => some .nan), .mulAssign 1 2]

private theorem exLegal : LegalBlock .double (fun _ => True) C134_example fun _ => none :=
  ⟨⟨rfl, trivial⟩, show 2 * 2 < 2 ^ 64 by decide, ⟨rfl, nofun⟩, trivial, ⟨rfl, nofun, nofun⟩, fun _ _ h1 h2 => by cases h1; cases h2; decide,
    ⟨⟨_, rfl, nofun⟩, fun _ => ⟨_, rfl, trivial⟩⟩, trivial, ⟨nofun, nofun⟩, fun _ _ h1 h2 => by cases h1; cases h2; decide, trivial⟩

example (n : Nat) := C134_everything_freed (Luck.limit n) (exQuiet n) closed_double id exLegal (n := 3) (by decide) 0
example (n : Nat) := C134_blocks_partial (Luck.limit n) closed_double id exHolds exInit exSizes (cs := [.declareCopy 5 0, .assign 0 5])
  ⟨⟨rfl, nofun⟩, trivial, ⟨nofun, nofun⟩, trivial, trivial⟩ 0 0
example (n : Nat) := C134_programs_partial (Luck.limit n) closed_double id exHolds exInit exSizes (cs := [.assign 0 1, .assignExpr 1 (.identity 7) 0])
  ⟨⟨nofun, nofun⟩, trivial, ⟨⟨nofun, trivial⟩, show 7 * 7 < 2 ^ 64 by decide, trivial, trivial⟩, ⟨⟨nofun, trivial⟩, show 7 * 7 < 2 ^ 64 by decide, trivial, trivial⟩⟩ 0

/-- With memory for 16 entries the block runs to its end; with memory for 15 the second declaration of a product is left by `bad_alloc`. -/
example : ((MStmt.scope (Luck.limit 16) .double 3 C134_example (fun _ => none) ⟨[], 0⟩).1.toOption.map (·.1.toOption)) = some (some ()) := by decide +kernel
example : (match MStmt.scope (Luck.limit 15) .double 3 C134_example (fun _ => none) ⟨[], 0⟩ with
    | (.ok (.error e, _), s) => some (e, s.heap.live)
    | _ => none) = some (.badAlloc, 0) := by decide +kernel

/-- C134 fails for entries that need memory of their own, such as `Int`: if copying an entry runs out of memory in the copy constructor of `Mat`, the
block that it has allocated is leaked. -/
theorem C134_refuted_leak : ∃ (L : Luck BigInt) (h : MHeap BigInt) (vars : Nat → Option MObj) (s : Store BigInt),
    MStmt.stepMem L .int vars (.declareCopy 1 0) ⟨h, 0⟩ = (.error .badAlloc, s) ∧
    (∀ k p n, L.refuse k p n = false) ∧ h.live = 1 ∧ s.heap.live = 2 ∧ NoLeak h vars ∧ ¬NoLeak s.heap vars := by
  refine ⟨⟨fun _ _ _ => false, fun _ => true, fun _ => true⟩, [some [some ⟨[7], false⟩]], fun x => if x = 0 then some ⟨1, 1, 0⟩ else none,
    ⟨[some [some ⟨[7], false⟩], some [none]], 2⟩, rfl, fun _ _ _ => rfl, rfl, rfl, fun p b hp => ?_, fun hn => ?_⟩
  · match p, hp with
    | 0, _ => exact ⟨0, _, rfl, rfl⟩
    | n + 1, h => cases h
  · obtain ⟨x, o, h1, h2⟩ := hn 1 [none] rfl
    by_cases hx : x = 0
    · simp only [hx, if_true, Option.some.injEq] at h1
      rw [← h1] at h2; cases h2
    · simp [hx] at h1

/-- C134: the functions that return a scalar. They return what they would return with unlimited memory, or throw what they would throw then, or throw
`bad_alloc`; in all cases everything that was allocated before is unchanged, and nothing else is, unless computing with entries needs memory. -/
theorem C134_scalars_partial (L : Luck T) {n C : Nat} {o : MObj} {m : Mat T} (ho : o.rows = m.rows ∧ o.cols = m.cols ∧ h.view o.ptr = some m.data)
    (hm : Mat.All P n C m) (hn : n * C < 2 ^ 64) (t : Nat) :
    ∀ p ∈ [(Mat.determinant S m, MObj.determinant L S o ⟨h, t⟩), (Mat.rowCofactor S m, MObj.rowCofactor L S o ⟨h, t⟩),
      (Mat.colCofactor S m, MObj.colCofactor L S o ⟨h, t⟩)],
    match p.2 with
    | (.ok a, s) => p.1 = .ok a ∧ s.heap.view = h.view
    | (.error e, s) => (p.1 = .error e ∨ e = .badAlloc) ∧
        (Thrown e → (∀ q b, h.view q = some b → s.heap.view q = some b) ∧ (¬L.Interrupts → s.heap.view = h.view)) := by
  have hm' := Mat.all_iff.mp hm
  have key : ∀ {N : Nat} {r : Res T} {x : HM T T}, MObj.Gives L N h r x → match x ⟨h, t⟩ with
      | (.ok a, s) => r = .ok a ∧ s.heap.view = h.view
      | (.error e, s) => (r = .error e ∨ e = .badAlloc) ∧
          (Thrown e → (∀ q b, h.view q = some b → s.heap.view q = some b) ∧ (¬L.Interrupts → s.heap.view = h.view)) := by
    intro N r x hx
    have := hx t
    rcases hr : x ⟨h, t⟩ with ⟨e | a, s⟩ <;> rw [hr] at this
    · exact ⟨this.1.symm.imp id fun h => h.1, this.2⟩
    · exact this
  intro p hp
  simp only [List.mem_cons, List.not_mem_nil, or_false] at hp
  rcases hp with rfl | rfl | rfl
  · exact key (MObj.gives_determinant ho hm' hn le_rfl)
  · have := MObj.gives_rowCofactorF (L := L) (S := S) (m.rows + 1) n C h o m ho hm' hn le_rfl
    rw [← ho.1] at this
    have e : Mat.rowCofactor S m = Mat.rowCofactorF S (o.rows + 1) m := by rw [ho.1]; rfl
    dsimp only
    rw [e]
    exact key this
  · have := MObj.gives_colCofactorF (L := L) (S := S) (m.rows + 1) n C h o m ho hm' hn le_rfl
    rw [← ho.1] at this
    have e : Mat.colCofactor S m = Mat.colCofactorF S (o.rows + 1) m := by rw [ho.1]; rfl
    dsimp only
    rw [e]
    exact key this

/-- For the examples: (1 2 3; 4 5 6; 7 8 10) with entries of any field. -/
private def exM : Mat ℚ := ⟨3, 3, [1, 2, 3, 4, 5, 6, 7, 8, 10].map some⟩
private theorem exM_all : Mat.All (fun _ => True) 3 3 exM := ⟨rfl, rfl, rfl, by simp [exM]⟩

example (n : Nat) := C134_scalars_partial (S := .field ℚ) (Luck.limit n) (h := [some exM.data]) (o := ⟨3, 3, 0⟩) ⟨rfl, rfl, rfl⟩ exM_all (by decide) 0
/-- With memory for two copies of the matrix the determinant is computed, with less `bad_alloc` is thrown; nothing is leaked. -/
example : (MObj.determinant (Luck.limit 18) (.field ℚ) ⟨3, 3, 0⟩ ⟨[some exM.data], 0⟩).1 = .ok (-3) ∧
    (MObj.determinant (Luck.limit 17) (.field ℚ) ⟨3, 3, 0⟩ ⟨[some exM.data], 0⟩).1 = .error .badAlloc ∧
    (MObj.determinant (Luck.limit 17) (.field ℚ) ⟨3, 3, 0⟩ ⟨[some exM.data], 0⟩).2.heap.live = 9 := by decide +kernel

/-- C135: a constructor of a matrix with fewer than 2^64 entries makes that matrix in a new block, or throws `bad_alloc` and leaves everything that
was allocated as it was. Missing for the full claim: larger dimensions (`C135_refuted`). -/
theorem C135_constructor_partial (L : Luck T) {r c : Nat} (hrc : r * c < 2 ^ 64) (x : T) (h : MHeap T) (t : Nat) :
    match MObj.ctorVal L r c x ⟨h, t⟩ with
    | (.ok o, s) => o.rows = r ∧ o.cols = c ∧ h.view o.ptr = none ∧ s.heap.view o.ptr = some (List.replicate (r * c) (some x)) ∧
        ∀ p, p ≠ o.ptr → s.heap.view p = h.view p
    | (.error e, s) => e = .badAlloc ∧ (∀ p b, h.view p = some b → s.heap.view p = some b) ∧ (¬L.Interrupts → s.heap.view = h.view) := by
  obtain ⟨m, h1, h2⟩ := (Mat.filled_fu (A := Never) (P := (· = x)) (r := r) (c := c) rfl).never
  have := MObj.makes_val (P := (· = x)) (L := L) (h := h) rfl hrc le_rfl t
  have hd : m.data = List.replicate (r * c) (some x) := by
    refine List.eq_replicate_iff.mpr ⟨by rw [h2.some.2.2.1, h2.1, h2.2.1], fun b hb => ?_⟩
    obtain ⟨y, h3, rfl⟩ := h2.some.2.2.2 b hb
    exact h3
  rcases hx : MObj.ctorVal L r c x ⟨h, t⟩ with ⟨e | o, s⟩ <;> rw [hx] at this
  · obtain ⟨h3 | h3, h4⟩ := this
    · obtain ⟨h5, h6⟩ := h4 (by rw [h3.1]; decide)
      exact ⟨h3.1, h5, h6⟩
    · rw [h1] at h3; cases h3
  · obtain ⟨m', h3, h4⟩ := this
    rw [h1] at h3; cases h3
    exact ⟨h4.1.trans h2.1, h4.2.1.trans h2.2.1, h4.2.2.1, by rw [h4.is.2.2, hd], fun p hp => by rw [h4.2.2.2, Function.update_of_ne hp]⟩

example := C135_constructor_partial (Luck.limit 4) (r := 2) (c := 3) (by decide) Double.nan [] 0

/-- C135: no matrix with 2^64 entries or more is ever constructed with its entries; unless the request for the memory, which is too small, is refused,
the constructor writes outside its block. -/
theorem C135_too_large (L : Luck T) {r c : Nat} (hrc : 2 ^ 64 ≤ r * c) (x : T) (vals : List T) (s : Store T) :
    ∀ y ∈ [MObj.ctorVal L r c x s, MObj.ctorArray L vals r c s],
      y.1 = .error (if L.refuse s.tick s.heap (r * c % 2 ^ 64) then .badAlloc else .ub) := by
  intro y hy
  simp only [List.mem_cons, List.not_mem_nil, or_false] at hy
  rcases hy with rfl | rfl
  · exact fill_wrap hrc _ s
  · exact fill_wrap hrc _ s

example := C135_too_large (Luck.limit 4) (r := 2 ^ 32) (c := 2 ^ 32) (by decide) Double.nan [] ⟨[], 0⟩

/-- C135 fails for large dimensions: with memory for one entry, `Mat<double>(2^32, 2^32, 0.0)` asks for no entry at all, gets it, and writes
outside the block; so does `identityMatrix<double>(2^32)`. With 2^32 and 2^32 - 1 they throw `bad_alloc`. -/
theorem C135_refuted : (MObj.ctorVal (Luck.limit 1) (2 ^ 32) (2 ^ 32) (Double.fin false 0 0) ⟨[], 0⟩).1 = .error .ub ∧
    (MObj.identityMatrix (Luck.limit 1) .double (2 ^ 32) ⟨[], 0⟩).1 = .error .ub ∧
    (MObj.ctorVal (Luck.limit 1) (2 ^ 32) (2 ^ 32 - 1) (Double.fin false 0 0) ⟨[], 0⟩).1 = .error .badAlloc := by decide +kernel

/-- C136: the memory that a statement needs. If no request is refused that brings the memory in use to at most `c.need v` entries more than before, and
the entries need no memory, the statement ends as it would with unlimited memory. -/
theorem C136_statement (L : Luck T) (hi : ¬L.Interrupts) (hS : S.Closed P A) (hA : ¬A .ub) (hh : Holds h vars v) (hv : v.AllInit P) (hz : v.Sizes)
    {c : MStmt T} (hc : c.Legal P v) (hr : c.Room v) (hs : ¬L.Short (h.live + c.need v)) (t : Nat) :
    (∀ v', step S v c = .done v' → ∃ vars' s, c.stepMem L S vars ⟨h, t⟩ = (.ok vars', s) ∧ Holds s.heap vars' v' ∧
      (NoLeak h vars → NoLeak s.heap vars')) ∧
    (∀ v', step S v c = .threw v' → ∃ e s, c.stepMem L S vars ⟨h, t⟩ = (.error e, s) ∧ Thrown e ∧ Holds s.heap vars v' ∧
      (NoLeak h vars → NoLeak s.heap vars)) ∧
    (∀ e, step S v c = .stopped e → (c.stepMem L S vars ⟨h, t⟩).1 = .error e) := by
  have := step_mem (L := L) hS hA hh hv hz hc hr le_rfl t
  rcases hx : c.stepMem L S vars ⟨h, t⟩ with ⟨e | vars', s⟩ <;> rw [hx] at this
  · rcases this with ⟨h1, h2⟩ | ⟨h1, v', h2 | ⟨-, h2, -⟩, h3, h4⟩
    · exact ⟨fun v' h3 => (by rw [h1] at h3; cases h3), fun v' h3 => (by rw [h1] at h3; cases h3), fun e' h3 => by rw [h1] at h3; cases h3; rfl⟩
    · refine ⟨fun v' h3 => (by rw [h2] at h3; cases h3), fun v2 h5 => ?_, fun e' h3 => (by rw [h2] at h3; cases h3)⟩
      rw [h2] at h5; cases h5
      exact ⟨e, s, rfl, h1, h3, h4 hi⟩
    · exact (h2.elim hi hs).elim
  · obtain ⟨v', h1, h2, h3⟩ := this
    refine ⟨fun v2 h4 => ?_, fun v2 h4 => (by rw [h1] at h4; cases h4), fun e h4 => (by rw [h1] at h4; cases h4)⟩
    rw [h1] at h4; cases h4
    exact ⟨vars', s, rfl, h2, h3⟩

example := C136_statement (Luck.limit 6) (exQuiet 6) closed_double id exHolds exInit exSizes (c := .assignExpr 0 (.neg 0) 0) ⟨nofun, nofun⟩ trivial (exEnough 6) 0
/-- The bound for the inverse is sharp when no copy is elided: besides a 1 × 1 matrix there must be memory for five further entries. -/
example : (MObj.inverse (Luck.limit 6) (.field ℚ) ⟨1, 1, 0⟩ ⟨[some [some 2]], 0⟩).2.heap.getLast? = some (some [some (1 / 2)]) ∧
    (MObj.inverse (Luck.limit 5) (.field ℚ) ⟨1, 1, 0⟩ ⟨[some [some 2]], 0⟩).1.toBool = false := by decide +kernel

/-- C136: the determinant needs the memory of one copy of the matrix, the cofactor expansions of an n × n matrix at most that of n^3 entries. -/
theorem C136_scalars (L : Luck T) (hi : ¬L.Interrupts) {n C : Nat} {o : MObj} {m : Mat T}
    (ho : o.rows = m.rows ∧ o.cols = m.cols ∧ h.view o.ptr = some m.data) (hm : Mat.All P n C m) (hn : n * C < 2 ^ 64) (t : Nat) :
    (¬L.Short (h.live + n * C) → (MObj.determinant L S o ⟨h, t⟩).1 = Mat.determinant S m) ∧
    (¬L.Short (h.live + n ^ 3) → (MObj.rowCofactor L S o ⟨h, t⟩).1 = Mat.rowCofactor S m ∧ (MObj.colCofactor L S o ⟨h, t⟩).1 = Mat.colCofactor S m) := by
  have hm' := Mat.all_iff.mp hm
  have key : ∀ {N : Nat} {r : Res T} {x : HM T T}, MObj.Gives L N h r x → ¬L.Short N → (x ⟨h, t⟩).1 = r := by
    intro N r x hx hs
    have := hx t
    rcases hr : x ⟨h, t⟩ with ⟨e | a, s⟩ <;> rw [hr] at this
    · rcases this.1 with h1 | h1
      · exact (h1.2.elim hi hs).elim
      · exact h1.symm
    · exact this.1.symm
  refine ⟨key (MObj.gives_determinant ho hm' hn le_rfl), fun hs => ?_⟩
  have h1 := MObj.gives_rowCofactorF (L := L) (S := S) (m.rows + 1) n C h o m ho hm' hn le_rfl
  have h2 := MObj.gives_colCofactorF (L := L) (S := S) (m.rows + 1) n C h o m ho hm' hn le_rfl
  rw [← ho.1] at h1 h2
  have e1 : Mat.rowCofactor S m = Mat.rowCofactorF S (o.rows + 1) m := by rw [ho.1]; rfl
  have e2 : Mat.colCofactor S m = Mat.colCofactorF S (o.rows + 1) m := by rw [ho.1]; rfl
  rw [e1, e2]
  exact ⟨key h1 hs, key h2 hs⟩

example := C136_scalars (S := .field ℚ) (Luck.limit 36) (exQuiet 36) (h := [some exM.data]) (o := ⟨3, 3, 0⟩) ⟨rfl, rfl, rfl⟩ exM_all (by decide) 0

end CppMaths
