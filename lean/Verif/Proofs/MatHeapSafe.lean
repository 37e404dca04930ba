import Verif.Proofs.MatHeap
import Verif.Proofs.VecSafe
/-!
# Legal programs over matrix variables are defined
-/

namespace CppMaths
variable {T : Type} {P : T → Prop} {A : Err → Prop} {S : Scalar T}
open Mat

/-- The matrix is initialised, whatever its dimensions. -/
def Mat.Some' (P : T → Prop) (m : Mat T) : Prop := Mat.All P m.rows m.cols m

theorem Mat.Fu.some {r c : Nat} {m : Mat T} (h : Fu P r c m) : Mat.Some' P m := by
  unfold Mat.Some'
  rw [h.1, h.2.1]
  exact all_iff.mpr h

theorem Mat.Some'.init {m : Mat T} (h : Mat.Some' P m) : MEnv.Init m := fun o ho e => by
  obtain ⟨t, h1, _⟩ := h.2.2.2 o ho
  rw [e] at h1; cases h1

theorem Out.up {α : Type} {r : Res α} {Q : α → Prop} (h : Out A r Q) : Out (OrDomain A) r Q := h.weakenErr fun _ he => .inl he

theorem out_some {r c : Nat} {x : Res (Mat T)} (h : Out A x (Fu P r c)) : Out (OrDomain A) x (Mat.Some' P) :=
  h.up.mono fun _ hm => hm.some

theorem mulAssign_some (hS : S.Closed P A) {a b : Mat T} (ha : Mat.Some' P a) (hb : Mat.Some' P b) :
    Out (OrDomain A) (Mat.mul S a b) (Mat.Some' P) ∧ Out (OrDomain A) (Mat.mulAssign S a b) (Mat.Some' P) := by
  by_cases h : a.cols = b.rows
  · have ha' := all_iff.mp ha
    have hb' := all_iff.mp hb
    rw [h] at ha'
    exact ⟨out_some (mul_fu hS ha' hb').1, out_some (mul_fu hS ha' hb').2⟩
  · unfold Mat.mul Mat.mulAssign
    rw [if_pos h, if_pos h]
    exact ⟨Out.err (.inr rfl), Out.err (.inr rfl)⟩

theorem MExpr.eval_some (hS : S.Closed P A) {v : MEnv T} (hv : v.AllInit P) {e : MExpr T} (he : e.Legal P v) :
    Out (OrDomain A) (e.eval S v.look) (Mat.Some' P) := by
  have look : ∀ {a : Nat}, v a ≠ none → ∃ m, v.look a = .ok m ∧ Mat.Some' P m := by
    intro a ha
    obtain ⟨m, h1⟩ := Option.ne_none_iff_exists'.mp ha
    exact ⟨m, by simp [MEnv.look, h1], hv a m h1⟩
  cases e with
  | raw r c => exact he.elim
  | filled r c t => exact out_some (filled_fu (r := r) (c := c) he)
  | array vals r c => exact out_some (setEntries_fu (alloc_on r c fun _ _ => ()) he.2 he.1 le_rfl)
  | identity n => exact out_some (identity_fu hS n)
  | diagonal vals n => exact out_some (diagonal_fu hS he.2 he.1)
  | augmented a b =>
    obtain ⟨x, h1, h2⟩ := look he.1
    obtain ⟨y, h3, h4⟩ := look he.2
    simp only [MExpr.eval, h1, h3, bind_ok]
    by_cases h : x.rows = y.rows
    · have hx := all_iff.mp h2
      rw [h] at hx
      exact out_some (augmented_fu hx (all_iff.mp h4))
    · unfold augmentedMatrix
      rw [if_pos h]
      exact Out.err (.inr rfl)
  | neg a =>
    obtain ⟨x, h1, h2⟩ := look he
    simp only [MExpr.eval, h1, bind_ok]
    exact out_some (neg_fu hS (all_iff.mp h2))
  | add a b =>
    obtain ⟨x, h1, h2⟩ := look he.1
    obtain ⟨y, h3, h4⟩ := look he.2
    simp only [MExpr.eval, h1, h3, bind_ok]
    by_cases h : x.rows = y.rows ∧ x.cols = y.cols
    · have hx := all_iff.mp h2
      rw [h.1, h.2] at hx
      exact out_some (add_fu hS hx (all_iff.mp h4))
    · unfold Mat.add dimensionsMatch
      rw [if_pos (by simp; tauto)]
      exact Out.err (.inr rfl)
  | sub a b =>
    obtain ⟨x, h1, h2⟩ := look he.1
    obtain ⟨y, h3, h4⟩ := look he.2
    simp only [MExpr.eval, h1, h3, bind_ok]
    by_cases h : x.rows = y.rows ∧ x.cols = y.cols
    · have hx := all_iff.mp h2
      rw [h.1, h.2] at hx
      exact out_some (sub_fu hS hx (all_iff.mp h4))
    · unfold Mat.sub dimensionsMatch
      rw [if_pos (by simp; tauto)]
      exact Out.err (.inr rfl)
  | mul a b =>
    obtain ⟨x, h1, h2⟩ := look he.1
    obtain ⟨y, h3, h4⟩ := look he.2
    simp only [MExpr.eval, h1, h3, bind_ok]
    exact (mulAssign_some hS h2 h4).1
  | smul k a =>
    obtain ⟨x, h1, h2⟩ := look he.2
    simp only [MExpr.eval, h1, bind_ok]
    exact out_some (smul_fu hS he.1 (all_iff.mp h2))
  | muls a k =>
    obtain ⟨x, h1, h2⟩ := look he.2
    simp only [MExpr.eval, h1, bind_ok]
    exact out_some (smul_fu hS he.1 (all_iff.mp h2))
  | divs a k =>
    obtain ⟨x, h1, h2⟩ := look he.2
    simp only [MExpr.eval, h1, bind_ok]
    exact out_some (divScalar_fu hS he.1 (all_iff.mp h2))
  | minor a i j =>
    obtain ⟨m, h1, h2, h3⟩ := he
    simp only [MExpr.eval, MEnv.look, h1, bind_ok]
    have hm := all_iff.mp (hv a m h1)
    rw [show m.rows = m.rows - 1 + 1 by omega, show m.cols = m.cols - 1 + 1 by omega] at hm
    exact out_some (firstMinor_fu hm i j)
  | cofactor a i j =>
    obtain ⟨m, h1, h2, h3⟩ := he
    simp only [MExpr.eval, MEnv.look, h1, bind_ok]
    have hm := all_iff.mp (hv a m h1)
    rw [show m.rows = m.rows - 1 + 1 by omega, show m.cols = m.cols - 1 + 1 by omega] at hm
    unfold Mat.cofactor
    split
    · exact out_some (Out.bind (firstMinor_fu hm i j) fun x hx => neg_fu hS hx)
    · exact out_some (firstMinor_fu hm i j)
  | rref a =>
    obtain ⟨x, h1, h2⟩ := look he
    simp only [MExpr.eval, h1, bind_ok]
    exact out_some (Out.bind (copy_fu (all_iff.mp h2)) fun x hx => inplaceRref_fu hS hx)
  | inverse a =>
    obtain ⟨x, h1, h2⟩ := look he
    simp only [MExpr.eval, h1, bind_ok]
    by_cases h : x.rows = x.cols
    · have hx := all_iff.mp h2
      rw [h] at hx
      exact (inverse_fu hS hx).mono fun _ hm => hm.some
    · unfold Mat.inverse
      rw [if_pos h]
      exact Out.err (.inr rfl)
  | transpose a =>
    obtain ⟨x, h1, h2⟩ := look he
    simp only [MExpr.eval, h1, bind_ok]
    exact out_some (transpose_fu (all_iff.mp h2))

theorem MUpd.run_some (hS : S.Closed P A) {v : MEnv T} (hv : v.AllInit P) {u : MUpd T} {d : Nat} {m : Mat T} (hd : v d = some m)
    (hu : u.Legal P v m) : Out (OrDomain A) (u.check v.look m) (fun _ => True) ∧ Out (OrDomain A) (u.run S v.look d m) (Mat.Some' P) := by
  have hm := all_iff.mp (hv d m hd)
  have look : ∀ {a : Nat}, v a ≠ none → ∃ m, v.look a = .ok m ∧ Mat.Some' P m := by
    intro a ha
    obtain ⟨m, h1⟩ := Option.ne_none_iff_exists'.mp ha
    exact ⟨m, by simp [MEnv.look, h1], hv a m h1⟩
  cases u with
  | set i j t => exact ⟨Out.ok trivial, out_some (hm.set hu.1 hu.2.1 hu.2.2)⟩
  | setAll t => exact ⟨Out.ok trivial, out_some (setAll_fu hu hm)⟩
  | setEntries vals size =>
    unfold MUpd.check MUpd.run
    by_cases h : size < m.rows * m.cols
    · refine ⟨?_, ?_⟩
      · dsimp only; rw [if_pos h]; exact Out.err (.inr rfl)
      · dsimp only; unfold Mat.setEntries; rw [if_pos h]; exact Out.err (.inr rfl)
    · refine ⟨?_, ?_⟩
      · dsimp only; rw [if_neg h]; exact Out.ok trivial
      · exact out_some (setEntries_fu hm hu.2 (le_trans (not_lt.mp h) hu.1) (not_lt.mp h))
  | addA x =>
    obtain ⟨b, h1, h2⟩ := look hu
    simp only [MUpd.check, MUpd.run, h1, bind_ok]
    refine ⟨by split; exacts [Out.err (.inr rfl), Out.ok trivial], ?_⟩
    split
    · exact out_some (addAssignRef_fu hS hm fun _ h => h)
    · by_cases h : m.rows = b.rows ∧ m.cols = b.cols
      · have hb := all_iff.mp h2
        rw [← h.1, ← h.2] at hb
        exact out_some (addAssignRef_fu hS hm fun _ _ => hb)
      · unfold Mat.addAssign Mat.addAssignRef dimensionsMatch
        rw [if_pos (by simp; tauto)]
        exact Out.err (.inr rfl)
  | subA x =>
    obtain ⟨b, h1, h2⟩ := look hu
    simp only [MUpd.check, MUpd.run, h1, bind_ok]
    refine ⟨by split; exacts [Out.err (.inr rfl), Out.ok trivial], ?_⟩
    split
    · exact out_some (subAssignRef_fu hS hm fun _ h => h)
    · by_cases h : m.rows = b.rows ∧ m.cols = b.cols
      · have hb := all_iff.mp h2
        rw [← h.1, ← h.2] at hb
        exact out_some (subAssignRef_fu hS hm fun _ _ => hb)
      · unfold Mat.subAssign Mat.subAssignRef dimensionsMatch
        rw [if_pos (by simp; tauto)]
        exact Out.err (.inr rfl)
  | mulS k => exact ⟨Out.ok trivial, out_some (mapLoop_fu hS.mulA hm fun _ _ => Out.ok hu)⟩
  | divS k => exact ⟨Out.ok trivial, out_some (mapLoop_fu hS.divA hm fun _ _ => Out.ok hu)⟩
  | mulE i j => exact ⟨Out.ok trivial, out_some (mapLoop_fu hS.mulA hm fun _ h => h.get hu.1 hu.2)⟩
  | divE i j => exact ⟨Out.ok trivial, out_some (mapLoop_fu hS.divA hm fun _ h => h.get hu.1 hu.2)⟩
  | rref => exact ⟨Out.ok trivial, out_some (inplaceRref_fu hS hm)⟩

namespace MEnv

theorem AllInit.set {v : MEnv T} (hv : v.AllInit P) {d : Nat} {m : Mat T} (hm : Mat.Some' P m) : (v.set d (some m)).AllInit P := by
  intro x m' hx
  unfold MEnv.set at hx
  split at hx
  · cases hx; exact hm
  · exact hv x m' hx

theorem AllInit.drop {v : MEnv T} (hv : v.AllInit P) {d : Nat} : (v.set d none).AllInit P := by
  intro x m' hx
  unfold MEnv.set at hx
  split at hx
  · cases hx
  · exact hv x m' hx

/-- A defined end: the matrices have the property; or the process stops because of a scalar operation. -/
def Fine (P : T → Prop) (A : Err → Prop) : MOut T → Prop
  | .done v => v.AllInit P
  | .threw v => v.AllInit P
  | .stopped e => A e
  | .undefined => False

theorem fine_fail (hA : ¬A .ub) {v : MEnv T} (hv : v.AllInit P) {e : Err} (he : OrDomain A e) : Fine P A (fail e v) := by
  unfold fail
  have : e ≠ .ub := by
    rintro rfl
    rcases he with h | h
    · exact hA h
    · cases h
  rw [if_neg this]
  split
  · exact hv
  · next h =>
    rcases he with h1 | rfl
    · exact h1
    · exact (h (by simp [Thrown])).elim

theorem step_fine (hS : S.Closed P A) (hA : ¬A .ub) {v : MEnv T} (hv : v.AllInit P) {c : MStmt T} (hc : c.Legal P v) :
    Fine P A (step S v c) := by
  cases c with
  | declare d e n =>
    unfold step
    dsimp only
    rw [if_neg (by simp [hc.1])]
    obtain ⟨m, h1, h2⟩ | ⟨er, h1, h2⟩ := e.eval_some hS hv hc.2
    · rw [h1]
      dsimp only
      rw [if_neg (by simp [h2.init])]
      exact hv.set h2
    · rw [h1]
      exact fine_fail hA hv h2
  | declareCopy d x =>
    obtain ⟨m, h1⟩ := Option.ne_none_iff_exists'.mp hc.2
    unfold step
    dsimp only
    rw [if_neg (by simp [hc.1]), h1]
    dsimp only
    rw [if_pos (Mat.Some'.init (hv x m h1))]
    exact hv.set (hv x m h1)
  | destroy d =>
    unfold step
    dsimp only
    rw [if_neg hc]
    exact hv.drop
  | assignExpr d e n =>
    unfold step
    dsimp only
    obtain ⟨m, h1, h2⟩ | ⟨er, h1, h2⟩ := e.eval_some hS hv hc.2
    · rw [h1]
      dsimp only
      rw [if_neg (by simp [h2.init, hc.1])]
      exact hv.set h2
    · rw [h1]
      exact fine_fail hA hv h2
  | assign d x =>
    obtain ⟨m, h1⟩ := Option.ne_none_iff_exists'.mp hc.2
    unfold step
    dsimp only
    rw [h1]
    dsimp only
    rw [if_pos ⟨hc.1, Mat.Some'.init (hv x m h1)⟩]
    exact hv.set (hv x m h1)
  | swap a b =>
    unfold step
    dsimp only
    rw [if_neg (by simp [hc.1, hc.2])]
    intro x m hx
    dsimp only at hx
    split at hx
    · exact hv _ m hx
    · split at hx
      · exact hv _ m hx
      · exact hv _ m hx
  | mulAssign d x =>
    obtain ⟨a, h1⟩ := Option.ne_none_iff_exists'.mp hc.1
    obtain ⟨b, h2⟩ := Option.ne_none_iff_exists'.mp hc.2
    unfold step
    dsimp only
    rw [h1, h2]
    dsimp only
    obtain ⟨m, h3, h4⟩ | ⟨er, h3, h4⟩ := (mulAssign_some hS (hv d a h1) (hv x b h2)).2
    · rw [h3]; exact hv.set h4
    · rw [h3]; exact fine_fail hA hv h4
  | update d u junk =>
    obtain ⟨⟨m, h1, h2⟩, hj⟩ := hc
    obtain ⟨h3, h4⟩ := MUpd.run_some hS hv h1 h2
    rw [MEnv.check_eq] at h3
    unfold step
    dsimp only
    rw [h1]
    dsimp only
    obtain ⟨_, h5, -⟩ | ⟨er, h5, h6⟩ := h3
    · rw [h5]
      dsimp only
      obtain ⟨m', h7, h8⟩ | ⟨er, h7, h8⟩ := h4
      · rw [h7]; exact hv.set h8
      · rw [h7]
        refine fine_fail hA (hv.set ⟨rfl, rfl, by simp, fun o ho => ?_⟩) h8
        obtain ⟨k, -, rfl⟩ := List.mem_map.mp ho
        exact hj k
    · rw [h5]
      exact fine_fail hA hv h6
  | print x =>
    obtain ⟨m, h1⟩ := Option.ne_none_iff_exists'.mp hc
    unfold step
    dsimp only
    rw [h1]
    dsimp only
    rw [if_pos (Mat.Some'.init (hv x m h1))]
    exact hv

theorem run_fine (hS : S.Closed P A) (hA : ¬A .ub) (cs : List (MStmt T)) : ∀ {v : MEnv T}, v.AllInit P → LegalRun S P cs v →
    Fine P A (run S cs v) := by
  induction cs with
  | nil => exact fun hv _ => hv
  | cons c cs ih =>
    intro v hv hl
    obtain ⟨h1, h2⟩ := hl
    have h3 := step_fine hS hA hv h1
    unfold run
    cases hs : step S v c with
    | done v' => rw [hs] at h2 h3; exact ih h3 h2
    | threw v' => rw [hs] at h2 h3; exact ih h3 h2
    | stopped e => rw [hs] at h3; exact h3
    | undefined => rw [hs] at h3; exact h3.elim

/-- What a program does, compared with its meaning. -/
def RunAgrees (r : Res (MState T)) : MOut T → Prop
  | .done v' => ∃ s', r = .ok s' ∧ Represents s' v'
  | .threw _ => False
  | .stopped e => r = .error e
  | .undefined => True

theorem run_agrees (S : Scalar T) (cs : List (MStmt T)) : ∀ {s : MState T} {v : MEnv T}, Represents s v →
    RunAgrees (MStmt.run S cs s) (run S cs v) := by
  induction cs with
  | nil => exact fun h => ⟨_, rfl, h⟩
  | cons c cs ih =>
    intro s v h
    have h1 := step_agrees S h c
    unfold run MStmt.run
    cases hs : step S v c with
    | done v' =>
      rw [hs] at h1
      obtain ⟨s', h2, h3⟩ := h1
      rw [h2]
      exact ih h3
    | threw v' =>
      rw [hs] at h1
      obtain ⟨e, s', h2, h3, h4⟩ := h1
      rw [h2]
      dsimp only
      rw [if_pos h3]
      exact ih h4
    | stopped e =>
      rw [hs] at h1
      obtain ⟨s', h2, h3⟩ := h1
      rw [h2]
      dsimp only
      rw [if_neg (by simp [h3])]
      rfl
    | undefined => trivial

/-- A statement does not change the variables that it does not name as targets. -/
theorem step_frame (S : Scalar T) (v : MEnv T) (c : MStmt T) {x : Nat} (hx : x ∉ c.targets) :
    match step S v c with
    | .done v' => v' x = v x
    | .threw v' => v' x = v x
    | _ => True := by
  have hf : ∀ (e : Err) (w : MEnv T), w x = v x → (match fail e w with
    | .done v' => v' x = v x
    | .threw v' => v' x = v x
    | _ => True) := by
    intro e w hw
    unfold fail
    split_ifs
    · trivial
    · exact hw
    · trivial
  have hs : ∀ (d : Nat) (m : Option (Mat T)), x ≠ d → v.set d m x = v x := fun d m h => by simp [MEnv.set, h]
  cases c <;> simp only [MStmt.targets, List.mem_cons, List.not_mem_nil, or_false, not_or] at hx <;> unfold step <;> dsimp only
  case declare d e n =>
    by_cases h1 : v d ≠ none
    · rw [if_pos h1]; trivial
    · rw [if_neg h1]
      cases e.eval S v.look with
      | error er => exact hf er v rfl
      | ok m =>
        dsimp only
        by_cases h2 : n ≠ 0 ∧ ¬Init m
        · rw [if_pos h2]; trivial
        · rw [if_neg h2]; exact hs d _ hx
  case declareCopy d y =>
    by_cases h1 : v d ≠ none
    · rw [if_pos h1]; trivial
    · rw [if_neg h1]
      cases v y with
      | none => trivial
      | some m =>
        dsimp only
        by_cases h2 : Init m
        · rw [if_pos h2]; exact hs d _ hx
        · rw [if_neg h2]; trivial
  case destroy d =>
    by_cases h1 : v d = none
    · rw [if_pos h1]; trivial
    · rw [if_neg h1]; exact hs d _ hx
  case assignExpr d e n =>
    cases e.eval S v.look with
    | error er => exact hf er v rfl
    | ok m =>
      dsimp only
      by_cases h2 : v d = none ∨ n ≠ 0 ∧ ¬Init m
      · rw [if_pos h2]; trivial
      · rw [if_neg h2]; exact hs d _ hx
  case assign d y =>
    cases v y with
    | none => trivial
    | some m =>
      dsimp only
      by_cases h2 : v d ≠ none ∧ Init m
      · rw [if_pos h2]; exact hs d _ hx
      · rw [if_neg h2]; trivial
  case swap a b =>
    by_cases h1 : v a = none ∨ v b = none
    · rw [if_pos h1]; trivial
    · rw [if_neg h1]; simp [hx.1, hx.2]
  case mulAssign d y =>
    cases hd : v d with
    | none => trivial
    | some a =>
      cases hy : v y with
      | none => trivial
      | some b =>
        dsimp only
        cases Mat.mulAssign S a b with
        | ok m => exact hs d _ hx
        | error e => exact hf e v rfl
  case update d u junk =>
    cases hd : v d with
    | none => trivial
    | some m =>
      dsimp only
      cases v.fits m u with
      | error e => exact hf e v rfl
      | ok _ =>
        dsimp only
        cases u.run S v.look d m with
        | ok m' => exact hs d _ hx
        | error e => exact hf e _ (hs d _ hx)
  case print y =>
    cases v y with
    | none => trivial
    | some m =>
      dsimp only
      by_cases h2 : Init m
      · rw [if_pos h2]
      · rw [if_neg h2]; trivial

end MEnv
end CppMaths
