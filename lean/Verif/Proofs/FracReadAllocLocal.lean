import Verif.Proofs.ReadAllocLocal
import Verif.Model.FracReadAlloc
/-!
# Arithmetic and reading of fractions depend on their own requests only
-/

namespace CppMaths
namespace BigInt
open CppMaths.GM

/-- Goes through a `do` block. -/
macro "loc" "[" ls:term,* "]" : tactic => do
  let alts ← ls.getElems.mapM fun l => `(Lean.Parser.Tactic.tacticSeq| with_reducible_and_instances exact $l)
  `(tactic| repeat' (first
    | with_reducible_and_instances refine Loc.bind ?_ fun _ => ?_
    | with_reducible_and_instances refine Loc.ite _ ?_ ?_
    | with_reducible_and_instances refine Loc.other ?_
    | with_reducible_and_instances refine Loc.local' _ ?_
    | with_reducible_and_instances exact Loc.pure _
    | with_reducible_and_instances exact Loc.put _
    | with_reducible_and_instances exact Loc.free _
    | with_reducible_and_instances exact Loc.this
    | with_reducible_and_instances exact Loc.ask
    | with_reducible_and_instances exact Loc.askSoft
    $[| $alts]*
    | dsimp only))

theorem loc_default : Loc fun L => BigInt.defaultA L := by
  unfold BigInt.defaultA
  loc []

theorem loc_ofShift (x : BigInt) (k : Nat) : Loc fun L => ofShiftA L x k := by
  unfold ofShiftA
  loc []

theorem loc_ofInt64 (x : Int) (k : Nat) : Loc fun L => ofInt64A L x k := by
  unfold ofInt64A
  loc []

theorem loc_returned (x : BigInt) : Loc fun L => returned L x := by
  unfold returned
  loc []

theorem loc_assign (v : BigInt) : Loc fun L => BigInt.assignT L v := by
  intro L s
  have he : (BigInt.assignT L v s).2.2 = s.2 + 1 := by
    unfold BigInt.assignT
    split <;> rfl
  refine ⟨(Nat.le_succ _).trans he.ge, fun L' h => ?_⟩
  have h1 : L.refuse s.2 = L'.refuse s.2 := h.2 s.2 (le_refl _) ((Nat.lt_succ_self _).trans_le he.ge)
  show BigInt.assignT L' v s = BigInt.assignT L v s
  unfold BigInt.assignT
  rw [← h1, ← h.1]

theorem loc_swap (r : BigInt) : Loc fun L => swapT L r := by
  unfold swapT
  loc [loc_assign _]

theorem loc_setValue' (v : Int) : Loc fun L => setValueT L v := by
  unfold setValueT
  loc []

theorem loc_negateT : Loc fun _ => negateT := by
  unfold negateT
  loc []

theorem loc_neg (x : BigInt) : Loc fun L => negA L x := by
  unfold negA
  loc [loc_ofShift _ _, loc_negateT, loc_returned _]

theorem loc_abs (x : BigInt) : Loc fun L => absA L x := by
  unfold absA
  loc [loc_ofShift _ _, loc_ofInt64 _ _, loc_neg _]

theorem loc_addT (x : BigInt) : Loc fun L => addT L x := by
  unfold addT
  loc []

theorem loc_subtract (x : BigInt) : Loc fun L => subtractT L x := by
  unfold subtractT
  loc [loc_abs _]

theorem loc_addNonneg (x y : BigInt) : Loc fun L => addNonnegA L x y := by
  unfold addNonnegA
  loc [loc_ofShift _ _, loc_returned _, loc_negateT, loc_neg _, loc_addT _, loc_subtract _]

theorem loc_subNonneg (x y : BigInt) : Loc fun L => subNonnegA L x y := by
  unfold subNonnegA
  loc [loc_ofShift _ _, loc_returned _, loc_negateT, loc_neg _, loc_addT _, loc_subtract _]

theorem loc_opSub (x y : BigInt) : Loc fun L => BigInt.opSubA L x y := by
  unfold BigInt.opSubA
  loc [loc_ofShift _ _, loc_returned _, loc_negateT, loc_neg _, loc_addT _, loc_subtract _, loc_addNonneg _ _, loc_subNonneg _ _]

theorem loc_addAssignNonneg (y : BigInt) : Loc fun L => addAssignNonnegT L y := by
  unfold addAssignNonnegT
  loc [loc_ofShift _ _, loc_returned _, loc_negateT, loc_neg _, loc_addT _, loc_subtract _]

theorem loc_subAssignNonneg (y : BigInt) : Loc fun L => subAssignNonnegT L y := by
  unfold subAssignNonnegT
  loc [loc_ofShift _ _, loc_returned _, loc_negateT, loc_neg _, loc_addT _, loc_subtract _, loc_swap _]

theorem loc_addAssign (y : BigInt) : Loc fun L => BigInt.addAssignT L y := by
  unfold BigInt.addAssignT
  loc [loc_ofShift _ _, loc_returned _, loc_negateT, loc_neg _, loc_addT _, loc_subtract _, loc_addAssignNonneg _, loc_subAssignNonneg _]

theorem loc_mulByIntLoop (bs : List Int) : ∀ (y : Int) (i : Nat) (r : BigInt), Loc fun L => mulByIntLoopA L bs y i r := by
  induction bs with
  | nil => exact fun _ _ r => Loc.pure r
  | cons b bs ih =>
    intro y i r
    unfold mulByIntLoopA
    loc [loc_ofInt64 _ _, loc_addAssign _, ih _ _ _]

theorem loc_multiplyByInt (x : BigInt) (y : Int) : Loc fun L => multiplyByIntA L x y := by
  unfold multiplyByIntA
  loc [loc_setValue' _, loc_mulByIntLoop _ _ _ _]

theorem loc_multiplyLoop (x : BigInt) (bs : List Int) : ∀ (i : Nat) (r : BigInt), Loc fun L => multiplyLoopA L x bs i r := by
  induction bs with
  | nil => exact fun _ r => Loc.pure r
  | cons b bs ih =>
    intro i r
    unfold multiplyLoopA
    loc [loc_multiplyByInt _ _, loc_ofShift _ _, loc_addAssign _, ih _ _]

theorem loc_multiply (x y : BigInt) : Loc fun L => multiplyA L x y := by
  unfold multiplyA
  loc [loc_default, loc_setValue' _, loc_multiplyLoop _ _ _ _]

theorem loc_opMul (x y : BigInt) : Loc fun L => BigInt.opMulA L x y := by
  unfold BigInt.opMulA
  loc [loc_default, loc_multiply _ _, loc_negateT, loc_returned _]

theorem loc_mulAssign (y : BigInt) : Loc fun L => BigInt.mulAssignT L y := by
  unfold BigInt.mulAssignT
  loc [loc_default, loc_multiply _ _, loc_swap _]

theorem loc_iterQuotientLoop (y x : BigInt) (step : Int) (f : Nat) : ∀ b : Int, Loc fun L => iterQuotientLoopA L y x step f b := by
  induction f with
  | zero => exact fun _ => Loc.free _
  | succ f ih =>
    intro b
    unfold iterQuotientLoopA
    loc [loc_multiplyByInt _ _, loc_opSub _ _, ih _]

theorem loc_iterQuotient (y x : BigInt) (q step : Int) : Loc fun L => iterQuotientA L y x q step := by
  unfold iterQuotientA
  loc [loc_default, loc_iterQuotientLoop _ _ _ _ _]

theorem loc_qrLoop (y x : BigInt) (f : Nat) : ∀ (step q : Int) (r : BigInt), Loc fun L => qrLoopA L y x f step q r := by
  induction f with
  | zero => exact fun _ _ _ => Loc.free _
  | succ f ih =>
    intro step q r
    unfold qrLoopA
    loc [loc_iterQuotient _ _ _ _, ih _ _ _]

theorem loc_quotientAndRemainder (y x r : BigInt) : Loc fun L => quotientAndRemainderA L y x r := by
  unfold quotientAndRemainderA
  loc [loc_ofInt64 _ _, loc_opMul _ _, loc_qrLoop _ _ _ _ _ _]

theorem loc_divideLoop (xn : BigInt) (i : Nat) : ∀ c r : BigInt, Loc fun L => divideLoopT L xn i c r := by
  induction i with
  | zero => exact fun _ _ => Loc.pure ()
  | succ i ih =>
    intro c r
    unfold divideLoopT
    loc [loc_quotientAndRemainder _ _ _, ih _ _]

theorem loc_divide (x : BigInt) : Loc fun L => divideT L x := by
  unfold divideT
  loc [loc_setValue' _, loc_neg _, loc_ofShift _ _, loc_default, loc_divideLoop _ _ _ _]

theorem loc_opDiv (x y : BigInt) : Loc fun L => BigInt.opDivA L x y := by
  unfold BigInt.opDivA
  loc [loc_ofShift _ _, loc_divide _, loc_returned _]

theorem loc_divAssign (y : BigInt) : Loc fun L => BigInt.divAssignT L y := by
  unfold BigInt.divAssignT
  loc [loc_ofShift _ _, loc_divide _]

theorem loc_modulo (x y : BigInt) : Loc fun L => moduloA L x y := by
  unfold moduloA
  loc [loc_ofShift _ _, loc_negateT, loc_opDiv _ _, loc_opMul _ _, loc_opSub _ _, loc_addAssign _]

theorem loc_opMod (x y : BigInt) : Loc fun L => opModA L x y := by
  unfold opModA
  loc [loc_default, loc_modulo _ _, loc_returned _]

theorem loc_mulTen (n : Nat) : Loc fun L => mulTenLoopT L n := by
  induction n with
  | zero => exact Loc.pure ()
  | succ n ih =>
    unfold mulTenLoopT
    loc [loc_ofInt64 _ _, loc_mulAssign _, ih]

theorem loc_divTen (n : Nat) : Loc fun L => divTenLoopT L n := by
  induction n with
  | zero => exact Loc.pure ()
  | succ n ih =>
    unfold divTenLoopT
    loc [loc_ofInt64 _ _, loc_divAssign _, ih]

theorem loc_shift (n : Nat) : Loc fun L => shiftT L n := by
  induction n with
  | zero => exact Loc.pure ()
  | succ n ih =>
    unfold shiftT
    loc [loc_ofInt64 _ _, Loc.ask, ih]

theorem loc_timesPowerTen (p : Int) : Loc fun L => timesPowerTenT L p := by
  unfold timesPowerTenT
  loc [loc_mulTen _, loc_divTen _, loc_shift _, loc_setValue' _]

end BigInt

namespace Frac
open BigInt GM

theorem loc_onTop {α : Type} {F : ILuck → TM α} (hF : Loc F) : Loc fun L => onTop (F L) := by
  intro L s
  obtain ⟨h1, h2⟩ := hF L (s.1.tt, s.2)
  refine ⟨h1, fun L' h => ?_⟩
  have h3 := h2 L' h
  show onTop (F L') s = onTop (F L) s
  unfold onTop
  dsimp only
  rw [h3]

theorem loc_onBottom {α : Type} {F : ILuck → TM α} (hF : Loc F) : Loc fun L => onBottom (F L) := by
  intro L s
  obtain ⟨h1, h2⟩ := hF L (s.1.bb, s.2)
  refine ⟨h1, fun L' h => ?_⟩
  have h3 := h2 L' h
  show onBottom (F L') s = onBottom (F L) s
  unfold onBottom
  dsimp only
  rw [h3]

theorem loc_readTop {F : ILuck → GM (IStream × BigInt) Unit} (hF : Loc F) : Loc fun L => readTop (F L) := by
  intro L s
  obtain ⟨h1, h2⟩ := hF L ((s.1.1, s.1.2.tt), s.2)
  refine ⟨h1, fun L' h => ?_⟩
  have h3 := h2 L' h
  show readTop (F L') s = readTop (F L) s
  unfold readTop
  dsimp only
  rw [h3]

theorem loc_readBottom {F : ILuck → GM (IStream × BigInt) Unit} (hF : Loc F) : Loc fun L => readBottom (F L) := by
  intro L s
  obtain ⟨h1, h2⟩ := hF L ((s.1.1, s.1.2.bb), s.2)
  refine ⟨h1, fun L' h => ?_⟩
  have h3 := h2 L' h
  show readBottom (F L') s = readBottom (F L) s
  unfold readBottom
  dsimp only
  rw [h3]

theorem loc_onFrac {F : ILuck → FM Unit} (hF : Loc F) : Loc fun L => onFrac (F L) := by
  intro L s
  obtain ⟨h1, h2⟩ := hF L (s.1.2, s.2)
  refine ⟨h1, fun L' h => ?_⟩
  have h3 := h2 L' h
  show onFrac (F L') s = onFrac (F L) s
  unfold onFrac
  dsimp only
  rw [h3]

theorem loc_returnedA (f : Frac) : Loc fun L => returnedA L f := by
  unfold returnedA
  loc []

theorem loc_defaultA : Loc fun L => Frac.defaultA L := by
  unfold Frac.defaultA
  loc [loc_ofInt64 _ _]

theorem loc_gcdLoop (f : Nat) : ∀ a b : BigInt, Loc fun L => gcdLoopA L f a b := by
  induction f with
  | zero => exact fun _ _ => Loc.free _
  | succ f ih =>
    intro a b
    unfold gcdLoopA
    loc [loc_returned _, loc_opMod _ _, ih _ _]

theorem loc_nochecksGcd (x y : BigInt) : Loc fun L => nochecksGcdA L x y := by
  unfold nochecksGcdA
  loc [loc_ofShift _ _, loc_default, loc_gcdLoop _ _ _]

theorem loc_gcd (x y : BigInt) : Loc fun L => gcdA L x y := by
  unfold gcdA
  loc [loc_abs _, loc_nochecksGcd _ _]

theorem loc_normalize : Loc fun L => normalizeT L := by
  unfold normalizeT
  loc [loc_gcd _ _, loc_onTop loc_negateT, loc_onBottom loc_negateT, loc_onTop (loc_divAssign _), loc_onBottom (loc_divAssign _)]

theorem loc_mk (t b : BigInt) : Loc fun L => mkA L t b := by
  unfold mkA
  loc [loc_ofShift _ _, loc_normalize, loc_returnedA _]

theorem loc_readParts (p : Bool) : Loc fun L => readPartsA L p := by
  unfold readPartsA
  loc [loc_readTop loc_read, loc_readBottom loc_read, loc_onFrac (loc_onBottom (loc_setValue' _))]

theorem loc_readRaw : Loc fun L => readRawA L := by
  unfold readRawA
  loc [loc_readParts _]

theorem loc_fracRead : Loc fun L => Frac.readA L := by
  unfold Frac.readA
  loc [loc_readRaw, loc_onFrac loc_normalize]

theorem loc_fracOfString (x : List Char) : Loc fun L => Frac.ofStringA L x := by
  unfold Frac.ofStringA
  rcases x.dropWhile (· != '/') with _ | ⟨c, den⟩
  all_goals loc [loc_defaultA, BigInt.loc_ofString _, loc_ofInt64 _ _, loc_normalize]

theorem loc_fromDoubleTail (t : List Char) (k : Int) : Loc fun L => (do
    let tt ← BigInt.ofStringA L t
    let one ← ofInt64A L 1
    let bb ← local' one (timesPowerTenT L k)
    let f ← mkA L tt bb
    returnedA L f : AM Frac) := by
  loc [BigInt.loc_ofString _, loc_ofInt64 _ _, loc_timesPowerTen _, loc_mk _ _, loc_returnedA _]

theorem loc_fromDouble (fin : Bool) (sx : List Char) : Loc fun L => Frac.fromDoubleA L fin sx := by
  unfold Frac.fromDoubleA
  refine Loc.bind Loc.ask fun _ => ?_
  refine Loc.bind (loc_inserts _ _) fun ss => ?_
  refine Loc.bind Loc.ask fun _ => ?_
  refine Loc.ite _ ?_ ?_
  · loc []
  · generalize ss.text.dropWhile (· != '.') = d
    cases d with
    | nil => with_reducible exact Loc.free _
    | cons c fr => with_reducible exact loc_fromDoubleTail _ _

end Frac
end CppMaths
