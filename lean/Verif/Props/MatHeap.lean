import Verif.Proofs.MatHeapSafe
/-!
# C100: programs over matrix variables and the free store
-/

namespace CppMaths
variable {T : Type} {P : T → Prop} {A : Err → Prop} {S : Scalar T}
open MEnv

/-- For the examples: variable 0 holds (NaN NaN), variable 1 the empty matrix with one row; a block in between has been deleted. -/
private def exS : MState Double := ⟨[some [some .nan, some .nan], none, some []], fun x => if x = 0 then some ⟨1, 2, 0⟩ else if x = 1 then some ⟨1, 0, 2⟩ else none⟩
private def exV : MEnv Double := fun x => if x = 0 then some ⟨1, 2, [some .nan, some .nan]⟩ else if x = 1 then some ⟨1, 0, []⟩ else none
private theorem exRep : Represents exS exV where
  dead x h := by
    unfold exV at h
    split_ifs at h with h1 h2
    simp [exS, h1, h2]
  live x m h := by
    unfold exV at h
    split_ifs at h with h1 h2 <;> cases h
    · exact ⟨⟨1, 2, 0⟩, by simp [exS, h1], rfl, rfl, rfl, rfl⟩
    · exact ⟨⟨1, 0, 2⟩, by simp [exS, h2], rfl, rfl, rfl, rfl⟩
  unshared x y o o' h h' e := by
    unfold exS at h h'
    dsimp only at h h'
    split_ifs at h h' with h1 h2 h3 h4 <;> cases h <;> cases h' <;> simp_all
  owned p b h := by
    match p, h with
    | 0, _ => exact ⟨0, _, rfl, rfl⟩
    | 1, h => cases h
    | 2, _ => exact ⟨1, _, rfl, rfl⟩
    | n + 3, h => cases h

/-- C100: matrix variables behave like independent values. A program whose meaning over values is defined runs on the free store to
the same end: the variables then hold the matrices of that meaning, each in a block of its own of exactly the right size, and no other
block is allocated. -/
theorem C100_programs (S : Scalar T) (cs : List (MStmt T)) {s : MState T} {v : MEnv T} (h : Represents s v) :
    (∀ v', run S cs v = .done v' → ∃ s', MStmt.run S cs s = .ok s' ∧ Represents s' v') ∧
    (∀ e, run S cs v = .stopped e → MStmt.run S cs s = .error e) ∧
    (∀ v', run S cs v ≠ .threw v') := by
  have := run_agrees S cs h
  refine ⟨fun v' e => ?_, fun er e => ?_, fun v' e => ?_⟩ <;> rw [e] at this
  · exact this
  · exact this
  · exact this

example := C100_programs .double [.declareCopy 2 0, .assign 0 1, .mulAssign 2 1, .destroy 1] exRep

/-- C100: the same for a single statement, exceptions included: also after an exception the variables hold the matrices the meaning says. -/
theorem C100_statement (S : Scalar T) (c : MStmt T) {s : MState T} {v : MEnv T} (h : Represents s v) :
    (∀ v', step S v c = .done v' → ∃ s', c.step S s = .ok s' ∧ Represents s' v') ∧
    (∀ v', step S v c = .threw v' → ∃ e s', c.step S s = .error (e, s') ∧ Thrown e ∧ Represents s' v') := by
  have := step_agrees S h c
  refine ⟨fun v' e => ?_, fun v' e => ?_⟩ <;> rw [e] at this
  · exact this
  · obtain ⟨er, s', h1, h2, h3⟩ := this
    exact ⟨er, s', h1, (thrown_iff er).mp h2, h3⟩

example := C100_statement .double (.swap 0 1) exRep

/-- C100: before the first statement, and what `Represents` says about reading a variable. -/
theorem C100_start : Represents (MState.empty : MState T) (fun _ => none) ∧
    ∀ {s : MState T} {v : MEnv T}, Represents s v → ∀ x m, v x = some m → s.look x = .ok m := by
  refine ⟨represents_empty, fun h x m hx => ?_⟩
  rw [h.look_eq]
  simp [MEnv.look, hx]

example : exS.look 0 = .ok ⟨1, 2, [some .nan, some .nan]⟩ := C100_start.2 exRep 0 _ rfl

/-- C100: a program that keeps to the rules (arrays long enough, indices in range, no uninitialised entries) is never undefined,
for any scalar type whose operations are not: no double deletion, no use after deletion, no access outside a block. -/
theorem C100_legal_programs (hS : S.Closed P A) (hA : ¬A .ub) (cs : List (MStmt T)) (hl : LegalRun S P cs (fun _ => none)) :
    (∃ s' v', MStmt.run S cs MState.empty = .ok s' ∧ Represents s' v' ∧ v'.AllInit P) ∨
    (∃ e, MStmt.run S cs MState.empty = .error e ∧ A e) := by
  have h1 := run_agrees S cs (represents_empty (T := T))
  have h2 := run_fine hS hA cs (v := fun _ => none) (fun _ _ h => by cases h) hl
  cases hr : run S cs (fun _ => none) with
  | done v' =>
    rw [hr] at h1 h2
    obtain ⟨s', h3, h4⟩ := h1
    exact .inl ⟨s', v', h3, h4, h2⟩
  | threw v' => rw [hr] at h1; exact h1.elim
  | stopped e => rw [hr] at h1 h2; exact .inr ⟨e, h1, h2⟩
  | undefined => rw [hr] at h2; exact h2.elim

/-- C100: no leak. When no variable exists any more, every block has been deleted. -/
theorem C100_no_leak {s : MState T} {v : MEnv T} (h : Represents s v) (hv : ∀ x, v x = none) (p : Nat) : s.heap[p]? = none ∨ s.heap[p]? = some none := by
  cases hp : s.heap[p]? with
  | none => exact .inl rfl
  | some b =>
    cases b with
    | none => exact .inr rfl
    | some b =>
      obtain ⟨x, o, h1, h2⟩ := h.owned p b hp
      rw [h.dead x (hv x)] at h1
      cases h1

/-- After the end of both variables. -/
example : ∃ s', MStmt.run .double [.destroy 0, .destroy 1] exS = .ok s' ∧ ∀ p : Nat, s'.heap[p]? = none ∨ s'.heap[p]? = some none := by
  obtain ⟨s', h1, h2⟩ := (C100_programs .double [.destroy 0, .destroy 1] exRep).1 _ rfl
  exact ⟨s', h1, C100_no_leak h2 fun x => by
    match x with
    | 0 => rfl
    | 1 => rfl
    | x + 2 => rfl⟩

/-- C100: a statement changes the matrices of the variables it writes to, and no others, whether it throws or not. -/
theorem C100_frame (S : Scalar T) {c : MStmt T} {s : MState T} {v : MEnv T} (h : Represents s v) (hd : step S v c ≠ .undefined)
    {x : Nat} {m : Mat T} (hx : x ∉ c.targets) (hm : s.look x = .ok m) :
    (∀ s', c.step S s = .ok s' → s'.look x = .ok m) ∧
    (∀ e s', c.step S s = .error (e, s') → Thrown e → s'.look x = .ok m) := by
  have h1 := step_agrees S h c
  have h2 := step_frame S v c hx
  have h3 : v x = some m := by
    rw [h.look_eq] at hm
    unfold MEnv.look at hm
    cases hv : v x with
    | none => rw [hv] at hm; cases hm
    | some m' => rw [hv] at hm; cases hm; rfl
  have look : ∀ {s' : MState T} {v' : MEnv T}, Represents s' v' → v' x = v x → s'.look x = .ok m := by
    intro s' v' h4 h5
    rw [h4.look_eq]
    simp [MEnv.look, h5, h3]
  cases hs : step S v c with
  | done v' =>
    rw [hs] at h1 h2
    obtain ⟨s', h4, h5⟩ := h1
    refine ⟨fun s'' e => ?_, fun er s'' e => ?_⟩ <;> rw [h4] at e <;> cases e
    exact look h5 h2
  | threw v' =>
    rw [hs] at h1 h2
    obtain ⟨er, s', h4, h5, h6⟩ := h1
    refine ⟨fun s'' e => ?_, fun er s'' e he => ?_⟩ <;> rw [h4] at e <;> cases e
    exact look h6 h2
  | stopped er =>
    rw [hs] at h1
    obtain ⟨s', h4, h5⟩ := h1
    refine ⟨fun s'' e => ?_, fun er s'' e he => ?_⟩ <;> rw [h4] at e <;> cases e
    rw [← thrown_iff, h5] at he
    cases he
  | undefined => exact (hd hs).elim

example : ∀ s', (MStmt.destroy 1).step .double exS = .ok s' → s'.look 0 = .ok ⟨1, 2, [some .nan, some .nan]⟩ :=
  (C100_frame .double (c := .destroy 1) exRep (by simp [step, exV]) (x := 0) (by simp [MStmt.targets]) (C100_start.2 exRep 0 _ rfl)).1

/-- C100: declarations, assignments and `*=` leave everything as it was when they throw. Only changes in place do not. -/
theorem C100_strong_guarantee (S : Scalar T) {c : MStmt T} {s s' : MState T} {e : Err} (hc : ∀ d u j, c ≠ .update d u j)
    (h : c.step S s = .error (e, s')) : s' = s := by
  have at_err : ∀ {α : Type} {r : Res α}, Frac.at' s r = .error (e, s') → s' = s := by
    intro α r h
    cases r with
    | ok _ => cases h
    | error _ => cases h; rfl
  cases c <;> simp only [MStmt.step] at h
  case declare d x n =>
    cases hv : s.vars d <;> rw [hv] at h <;> dsimp only at h
    · exact at_err h
    · cases h; rfl
  case declareCopy d x =>
    cases hv : s.vars d <;> rw [hv] at h <;> dsimp only at h
    · cases hx : s.vars x <;> rw [hx] at h <;> dsimp only at h
      · cases h; rfl
      · exact at_err h
    · cases h; rfl
  case destroy d =>
    cases hv : s.vars d <;> rw [hv] at h <;> dsimp only at h
    · cases h; rfl
    · exact at_err h
  case assignExpr d x n => exact at_err h
  case assign d x =>
    cases hv : s.vars x <;> rw [hv] at h <;> dsimp only at h
    · cases h; rfl
    · exact at_err h
  case swap a b =>
    cases ha : s.vars a <;> cases hb : s.vars b <;> rw [ha, hb] at h <;> dsimp only at h <;> cases h <;> rfl
  case mulAssign d x => exact at_err h
  case update d u j => exact (hc d u j rfl).elim
  case print x =>
    cases hv : s.vars x <;> rw [hv] at h <;> dsimp only at h
    · cases h; rfl
    · exact at_err h

/-- (NaN NaN) cannot be multiplied by the matrix with one row. -/
example : ∃ s', (MStmt.mulAssign 0 1).step .double exS = .error (.domainError, s') ∧ s' = exS :=
  ⟨_, rfl, C100_strong_guarantee .double (c := .mulAssign 0 1) (e := .domainError) nofun rfl⟩

/-- C100: a change in place whose dimensions are wrong throws before it has changed anything. -/
theorem C100_checks_first (S : Scalar T) {d : Nat} {u : MUpd T} {junk : Nat → Option T} {s : MState T} {v : MEnv T} {m : Mat T} {e : Err}
    (h : Represents s v) (hm : v d = some m) (hc : v.fits m u = .error e) :
    (MStmt.update d u junk).step S s = .error (e, s) := by
  obtain ⟨o, h1, h2, h3, h4, h5⟩ := h.live d m hm
  have h6 : s.heap.load o = .ok m := by
    unfold MHeap.load
    rw [h4]
    dsimp only
    rw [h2, h3]
  simp only [MStmt.step, h1, h6, h.look_eq]
  show (do
    let _ ← Frac.at' s (u.check v.look m)
    _) = _
  rw [MEnv.check_eq, hc]
  rfl

example : (MStmt.update 0 (.addA 1) (fun _ => some .nan)).step .double exS = .error (.domainError, exS) :=
  C100_checks_first .double exRep (d := 0) rfl rfl

/-- A program: a 2 × 2 matrix of ones with a returned copy that is not elided, a copy of it, self-assignment, an addition in place, an
addition that throws because of the dimensions, and the end of both scopes. -/
def C100_example : List (MStmt Double) :=
  [.declare 0 (.filled 2 2 (.fin false (2 ^ 52) (-52))) 1, .declareCopy 1 0, .assign 1 1, .update 1 (.addA 0) (fun _ => some .nan),
   .declare 2 (.identity 3) 0, .update 1 (.addA 2) (fun _ => some .nan), .swap 0 2, .destroy 0, .destroy 1, .destroy 2]

example : (MStmt.run .double (C100_example.take 6) .empty).toOption.map (fun s => (s.heap.map fun b => b.map (·.length), s.look 1 |>.toOption.map (·.data))) =
    some ([none, some 4, none, some 4, some 9], some (List.replicate 4 (some (.fin false (2 ^ 52) (-51))))) := by decide +kernel

example : (MStmt.run .double C100_example .empty).toOption.map (·.heap) = some [none, none, none, none, none] := by decide +kernel

/-- The addition that throws has left the free store as it was; a multiplication of matrices that do not fit throws, too. -/
example : (match MStmt.run .double (C100_example.take 5) .empty with
    | .ok s => (match MStmt.step .double s (.update 1 (.addA 2) (fun _ => some .nan)), MStmt.step .double s (.mulAssign 1 2) with
      | .error (e, s'), .error (e', s'') => some (e, e', decide (s'.heap = s.heap), decide (s''.heap = s.heap))
      | _, _ => none)
    | _ => none) = some (.domainError, .domainError, true, true) := by decide +kernel

/-- It is legal, whatever number is put in the place of one. -/
private theorem exLegal (t : Double) : LegalRun .double (fun _ => True) (.declare 0 (.filled 2 2 t) 1 :: C100_example.tail) (fun _ => none) :=
  ⟨⟨rfl, trivial⟩, ⟨rfl, nofun⟩, ⟨nofun, nofun⟩, ⟨⟨_, rfl, nofun⟩, fun _ => ⟨_, rfl, trivial⟩⟩, ⟨rfl, trivial⟩,
    ⟨⟨_, rfl, nofun⟩, fun _ => ⟨_, rfl, trivial⟩⟩, ⟨nofun, nofun⟩, nofun, nofun, nofun, trivial⟩
example (t : Double) := C100_legal_programs closed_double id _ (exLegal t)

end CppMaths
