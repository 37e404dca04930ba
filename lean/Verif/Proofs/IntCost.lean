import Verif.Model.IntCost
import Verif.Proofs.MatCost
/-!
# Counting steps in `Int`: the results are those of the uncounted functions
-/

namespace CppMaths
namespace Cost
variable {α β : Type}

theorem tick_res (n : Nat) : (tick n).res = .ok () := rfl
theorem free_res (r : Res α) : (free r).res = r := rfl
theorem ok_bind' (a : α) (f : α → Res β) : ((.ok a : Res α) >>= f) = f a := rfl
theorem pure_bind' (a : α) (f : α → Res β) : ((pure a : Res α) >>= f) = f a := rfl
theorem pure_eq (a : α) : (pure a : Res α) = .ok a := rfl

end Cost

namespace BigInt
open Cost

theorem copyC_res (a : BigInt) : (copyC a).res = .ok a := rfl
theorem ofShiftC_res (a : BigInt) (s : Nat) : (ofShiftC a s).res = .ok (ofShift a s) := rfl
theorem setValueC_res (v : Int) : (setValueC v).res = setValue v := rfl
theorem swapC_res (a r : BigInt) : (swapC a r).res = .ok r := rfl

theorem anyC_res : ∀ l : List Int, (anyC l).res = .ok (l.any (· != 0))
  | [] => rfl
  | b :: bs => by
    simp only [anyC, bind_res, tick_res, ok_bind', ite_res, pure_res, anyC_res bs, List.any_cons]
    cases b != 0 <;> simp

theorem equalsInt32C_res (a : BigInt) (x : Int) : (equalsInt32C a x).res = equalsInt32 a x := by
  simp only [equalsInt32C, equalsInt32, bind_res, free_res]
  congr 1
  funext v
  cases a.bins.getLast? with
  | none => rfl
  | some top => simp only [bind_res, anyC_res, ok_bind', ite_res, pure_res, tick_res, pure_eq]

theorem negateC_res (a : BigInt) : (negateC a).res = negate a := by
  simp only [negateC, negate, bind_res, equalsInt32C_res, pure_res, pure_eq]

theorem negC_res (a : BigInt) : (negC a).res = neg a := by
  simp only [negC, neg, bind_res, copyC_res, ok_bind', negateC_res]

theorem pushBinsC_res : ∀ (f : Nat) (x : Int), (pushBinsC f x).res = pushBins f x
  | 0, _ => rfl
  | f + 1, x => by
    simp only [pushBinsC, pushBins, ite_res, bind_res, tick_res, ok_bind', pushBinsC_res f, pure_res, pure_eq]

theorem ofInt64C_res (x : Int) (s : Nat) : (ofInt64C x s).res = ofInt64 x s := by
  simp only [ofInt64C, ofInt64, ite_res, bind_res, tick_res, ok_bind', pushBinsC_res, pure_res, pure_eq, free_res, setValueC_res]

theorem lexCmpC_res : ∀ l m : List Int, (lexCmpC l m).res = lexCmp l m
  | [], _ => rfl
  | _ :: _, [] => rfl
  | a :: as, b :: bs => by
    simp only [lexCmpC, lexCmp, ite_res, bind_res, tick_res, ok_bind', lexCmpC_res as bs, pure_res]

theorem cmpBinsGeC_res (l m : List Int) : (cmpBinsGeC l m).res = cmpBinsGe l m := by
  simp only [cmpBinsGeC, cmpBinsGe, ite_res, bind_res, anyC_res, ok_bind', lexCmpC_res, pure_res]

theorem cmpBinsC_res (a x : BigInt) : (cmpBinsC a x).res = cmpBins a x := by
  simp only [cmpBinsC, cmpBins, ite_res, bind_res, cmpBinsGeC_res, pure_res, pure_eq]

theorem cleanRevC_res : ∀ l : List Int, (cleanRevC l).res = .ok (cleanRev l)
  | [] => rfl
  | [_] => rfl
  | b :: c :: r => by
    simp only [cleanRevC, cleanRev, ite_res, bind_res, tick_res, ok_bind', cleanRevC_res (c :: r), pure_res]
    split <;> rfl

theorem cleanBinsC_res (l : List Int) : (cleanBinsC l).res = .ok (cleanBins l) := by
  simp only [cleanBinsC, cleanBins, bind_res, cleanRevC_res, ok_bind', pure_res]

theorem cmpC_res (a x : BigInt) : (cmpC a x).res = cmp a x := by
  simp only [cmpC, cmp, ite_res, bind_res, cmpBinsC_res, equalsInt32C_res, pure_res, pure_eq]

theorem ltC_res (a x : BigInt) : (ltC a x).res = lt a x := by simp only [ltC, lt, bind_res, cmpC_res, pure_res, pure_eq]
theorem gtC_res (a x : BigInt) : (gtC a x).res = gt a x := by simp only [gtC, gt, bind_res, cmpC_res, pure_res, pure_eq]
theorem leC_res (a x : BigInt) : (leC a x).res = le a x := by simp only [leC, le, bind_res, cmpC_res, pure_res, pure_eq]
theorem geC_res (a x : BigInt) : (geC a x).res = ge a x := by simp only [geC, ge, bind_res, cmpC_res, pure_res, pure_eq]
theorem neC_res (a x : BigInt) : (neC a x).res = ne a x := by simp only [neC, ne, bind_res, cmpC_res, pure_res, pure_eq]
theorem eqC_res (a x : BigInt) : (eqC a x).res = eq a x := by simp only [eqC, eq, bind_res, cmpC_res, pure_res, pure_eq]

theorem absC_res (a : BigInt) : (absC a).res = abs a := by
  simp only [absC, abs, bind_res, ofInt64C_res, ltC_res, ite_res, negC_res, copyC_res, pure_eq]

theorem addCarryC_res : ∀ (l : List Int) (c : Int), (addCarryC l c).res = addCarry l c
  | [], _ => rfl
  | b :: bs, c => by
    simp only [addCarryC, addCarry, ite_res, bind_res, tick_res, ok_bind', free_res, addCarryC_res bs, pure_res, pure_eq]

theorem addLoopC_res : ∀ (l m : List Int) (c : Int), (addLoopC l m c).res = addLoop l m c
  | bs, [], c => by
    cases bs <;> simp only [addLoopC, addLoop, addCarryC_res]
  | [], _ :: _, _ => rfl
  | b :: bs, x :: xs, c => by
    simp only [addLoopC, addLoop, ite_res, bind_res, tick_res, ok_bind', free_res, addLoopC_res bs xs, pure_res, pure_eq]

theorem addC_res (a x : BigInt) : (addC a x).res = add a x := by
  simp only [addC, add, bind_res, tick_res, ok_bind', addLoopC_res, pure_res, pure_eq]

theorem subBorrowC_res : ∀ (l : List Int) (c : Int), (subBorrowC l c).res = subBorrow l c
  | [], _ => rfl
  | b :: bs, c => by
    simp only [subBorrowC, subBorrow, ite_res, bind_res, tick_res, ok_bind', free_res, subBorrowC_res bs, pure_res, pure_eq]

theorem subLoopC_res : ∀ (l m : List Int) (c : Int), (subLoopC l m c).res = subLoop l m c
  | bs, [], c => by
    cases bs <;> simp only [subLoopC, subLoop, subBorrowC_res]
  | [], _ :: _, _ => rfl
  | b :: bs, x :: xs, c => by
    simp only [subLoopC, subLoop, ite_res, bind_res, tick_res, ok_bind', free_res, subLoopC_res bs xs, pure_res, pure_eq]

theorem subtractC_res (a x : BigInt) : (subtractC a x).res = subtract a x := by
  simp only [subtractC, subtract, bind_res, step_res, free_res, absC_res, geC_res, subLoopC_res, cleanBinsC_res, ok_bind', pure_res, pure_eq]

theorem addNonnegC_res (x y : BigInt) : (addNonnegC x y).res = addNonneg x y := by
  simp only [addNonnegC, addNonneg, ite_res, bind_res, copyC_res, ok_bind', addC_res]

theorem subNonnegC_res (x y : BigInt) : (subNonnegC x y).res = subNonneg x y := by
  simp only [subNonnegC, subNonneg, ite_res, bind_res, gtC_res, copyC_res, ok_bind', cleanBinsC_res, subtractC_res, negC_res]

theorem opAddC_res (x y : BigInt) : (opAddC x y).res = opAdd x y := by
  simp only [opAddC, opAdd, ite_res, bind_res, negC_res, addNonnegC_res, subNonnegC_res]

theorem opSubC_res (x y : BigInt) : (opSubC x y).res = opSub x y := by
  simp only [opSubC, opSub, ite_res, bind_res, negC_res, addNonnegC_res, subNonnegC_res]

theorem addAssignNonnegC_res (x y : BigInt) : (addAssignNonnegC x y).res = addAssignNonneg x y := by
  simp only [addAssignNonnegC, addAssignNonneg, bind_res, ofShiftC_res, ok_bind', addC_res]

theorem bind_ok {α : Type} (r : Res α) : (r >>= fun a => (.ok a : Res α)) = r := by cases r <;> rfl

theorem subAssignNonnegC_res (x y : BigInt) : (subAssignNonnegC x y).res = subAssignNonneg x y := by
  simp only [subAssignNonnegC, subAssignNonneg, ite_res, bind_res, gtC_res, copyC_res, ok_bind', subtractC_res, negateC_res, swapC_res, bind_ok]

theorem addAssignC_res (x y : BigInt) : (addAssignC x y).res = addAssign x y := by
  simp only [addAssignC, addAssign, ite_res, bind_res, negC_res, negateC_res, addAssignNonnegC_res, subAssignNonnegC_res]

theorem subAssignC_res (x y : BigInt) : (subAssignC x y).res = subAssign x y := by
  simp only [subAssignC, subAssign, ite_res, bind_res, negC_res, negateC_res, addAssignNonnegC_res, subAssignNonnegC_res]

theorem mulByIntLoopC_res : ∀ (l : List Int) (y : Int) (i : Nat) (r : BigInt), (mulByIntLoopC l y i r).res = mulByIntLoop l y i r
  | [], _, _, _ => rfl
  | b :: bs, y, i, r => by
    simp only [mulByIntLoopC, mulByIntLoop, bind_res, tick_res, ok_bind', free_res, ofInt64C_res, addAssignC_res, mulByIntLoopC_res bs]

theorem multiplyByIntC_res (x : BigInt) (y : Int) : (multiplyByIntC x y).res = multiplyByInt x y := by
  simp only [multiplyByIntC, multiplyByInt, bind_res, setValueC_res, mulByIntLoopC_res]

theorem multiplyLoopC_res (x : BigInt) : ∀ (l : List Int) (i : Nat) (r : BigInt), (multiplyLoopC x l i r).res = multiplyLoop x l i r
  | [], _, _ => rfl
  | b :: bs, i, r => by
    simp only [multiplyLoopC, multiplyLoop, bind_res, tick_res, ok_bind', multiplyByIntC_res, ofShiftC_res, addAssignC_res, multiplyLoopC_res x bs]

theorem multiplyC_res (x y : BigInt) : (multiplyC x y).res = multiply x y := by
  simp only [multiplyC, multiply, bind_res, setValueC_res, multiplyLoopC_res]

theorem opMulC_res (x y : BigInt) : (opMulC x y).res = opMul x y := by
  simp only [opMulC, opMul, bind_res, ite_res, multiplyC_res, negateC_res, pure_res, pure_eq]

theorem mulAssignC_res (x y : BigInt) : (mulAssignC x y).res = mulAssign x y := by
  simp only [mulAssignC, mulAssign, bind_res, multiplyC_res, swapC_res, pure_eq]

theorem iterQuotientLoopC_res (y x : BigInt) (st : Int) : ∀ (f : Nat) (b : Int), (iterQuotientLoopC y x st f b).res = iterQuotientLoop y x st f b
  | 0, _ => rfl
  | f + 1, b => by
    simp only [iterQuotientLoopC, iterQuotientLoop, bind_res, free_res, multiplyByIntC_res, opSubC_res, copyC_res, ok_bind', ite_res, cmpBinsC_res,
      iterQuotientLoopC_res y x st f, pure_res, pure_eq]

theorem iterQuotientC_res (y x : BigInt) (q st : Int) : (iterQuotientC y x q st).res = iterQuotient y x q st := iterQuotientLoopC_res _ _ _ _ _

theorem qrLoopC_res (y x : BigInt) : ∀ (f : Nat) (st q : Int) (r : BigInt), (qrLoopC y x f st q r).res = qrLoop y x f st q r
  | 0, _, _, _ => rfl
  | f + 1, st, q, r => by
    simp only [qrLoopC, qrLoop, bind_res, ite_res, iterQuotientC_res, qrLoopC_res y x f, pure_res, pure_eq]

theorem quotientAndRemainderC_res (y x r : BigInt) : (quotientAndRemainderC y x r).res = quotientAndRemainder y x r := by
  simp only [quotientAndRemainderC, quotientAndRemainder, bind_res, ite_res, free_res, leC_res, ltC_res, ofInt64C_res, opMulC_res, qrLoopC_res,
    pure_res, pure_eq]

theorem divideLoopC_res (xn : BigInt) : ∀ (i : Nat) (bins : List Int) (c r : BigInt), (divideLoopC xn i bins c r).res = divideLoop xn i bins c r
  | 0, _, _, _ => rfl
  | i + 1, bins, c, r => by
    simp only [divideLoopC, divideLoop, bind_res, ite_res, free_res, step_res, tick_res, ok_bind', cmpBinsC_res, quotientAndRemainderC_res, copyC_res,
      cleanBinsC_res, divideLoopC_res xn i]

theorem divideC_res (a x : BigInt) : (divideC a x).res = divide a x := by
  simp only [divideC, divide, bind_res, ite_res, equalsInt32C_res, fail_res, cmpBinsC_res, setValueC_res, negC_res, copyC_res, divideLoopC_res, pure_res,
    pure_eq]

theorem opDivC_res (x y : BigInt) : (opDivC x y).res = opDiv x y := by
  simp only [opDivC, opDiv, bind_res, ofShiftC_res, ok_bind', divideC_res]

theorem divAssignC_res (x y : BigInt) : (divAssignC x y).res = divAssign x y := by
  simp only [divAssignC, divAssign, bind_res, ofShiftC_res, ok_bind', divideC_res]

theorem moduloC_res (x y : BigInt) : (moduloC x y).res = modulo x y := by
  simp only [moduloC, modulo, bind_res, ite_res, ofShiftC_res, ok_bind', negateC_res, opDivC_res, opMulC_res, opSubC_res, copyC_res, equalsInt32C_res,
    addAssignC_res, pure_res, pure_eq, bind_ok]

theorem modAssignC_res (x y : BigInt) : (modAssignC x y).res = modAssign x y := by
  simp only [modAssignC, modAssign, bind_res, moduloC_res, swapC_res, bind_ok]

end BigInt
end CppMaths
