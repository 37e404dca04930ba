import Verif.Proofs.MatSafe
import Verif.Proofs.Vec
import Verif.Proofs.Machine
import Verif.Props.Int
/-!
# Memory safety of `Vec` for any scalar type; which scalar types are closed
-/

namespace CppMaths
namespace Vec
variable {T : Type} {P : T → Prop} {A : Err → Prop} {S : Scalar T}

theorem All.get {n i : Nat} {x : List T} (h : All P n x) (hi : i < n) : Out A (get x i) P := by
  have hk : i < x.length := by rw [h.1]; exact hi
  unfold Vec.get
  rw [List.getElem?_eq_getElem hk]
  exact Out.ok (h.2 _ (List.getElem_mem hk))

theorem All.set {n i : Nat} {x : List T} (h : All P n x) (hi : i < n) {t : T} (ht : P t) : Out A (set x i t) (All P n) := by
  unfold Vec.set
  rw [if_pos (by rw [h.1]; exact hi)]
  refine Out.ok ⟨by simp [h.1], fun u hu => ?_⟩
  rcases List.mem_or_eq_of_mem_set hu with h1 | rfl
  · exact h.2 u h1
  · exact ht

theorem zipLoop_all {op : T → T → Res T} (hop : ∀ {x y}, P x → P y → Out A (op x y) P) {n : Nat} {x : List T} {src : List T → List T}
    (hx : All P n x) (hs : ∀ y, All P n y → All P n (src y)) : Out A (zipLoop op src n x) (All P n) :=
  forUp_ok (Inv := fun _ => All P n) hx fun i x _ hi hx => by
    rw [zero_add] at hi
    exact Out.bind (hx.get hi) fun a ha => Out.bind ((hs x hx).get hi) fun b hb => Out.bind (hop ha hb) fun t ht => hx.set hi ht

theorem mapLoop_all {op : T → T → Res T} (hop : ∀ {x y}, P x → P y → Out A (op x y) P) {n : Nat} {x : List T} {src : List T → Res T}
    (hx : All P n x) (hs : ∀ y, All P n y → Out A (src y) P) : Out A (mapLoop op src x) (All P n) := by
  unfold mapLoop
  rw [hx.1]
  exact forUp_ok (Inv := fun _ => All P n) hx fun i x _ hi hx => by
    rw [zero_add] at hi
    exact Out.bind (hx.get hi) fun a ha => Out.bind (hs x hx) fun b hb => Out.bind (hop ha hb) fun t ht => hx.set hi ht

theorem eqLoop_all (hS : S.Closed P A) {n : Nat} {x y : List T} (hx : All P n x) (hy : All P n y) (k : Nat) :
    ∀ i, i + k = n → Out A (eqLoop S x y i k) (fun _ => True) := by
  induction k with
  | zero => intro i hi; exact Out.ok trivial
  | succ k ih =>
    intro i hi
    refine Out.bind (hx.get (by omega)) fun a ha => Out.bind (hy.get (by omega)) fun b hb => Out.bind (hS.ne ha hb) fun d _ => ?_
    cases d with
    | true => exact Out.ok trivial
    | false => exact ih (i + 1) (by omega)

theorem dot_all (hS : S.Closed P A) {n : Nat} {x y : List T} (hx : All P n x) (hy : All P n y) : Out A (dot S x y) P := by
  unfold dot
  rw [hx.1, hy.1, if_neg (by simp)]
  exact Out.bind (hS.ofInt 0 (by simp)) fun z hz => forUp_ok (Inv := fun _ => P) hz fun i r _ hi hr => by
    rw [zero_add] at hi
    exact Out.bind (hx.get hi) fun a ha => Out.bind (hy.get hi) fun b hb => Out.bind (hS.mul ha hb) fun p hp => hS.addA hr hp

theorem crossEntry_all (hS : S.Closed P A) {x y : List T} (hx : All P 3 x) (hy : All P 3 y) {i j k l : Nat} (hi : i < 3) (hj : j < 3)
    (hk : k < 3) (hl : l < 3) : Out A (crossEntry S x y i j k l) P :=
  Out.bind (hx.get hi) fun a ha => Out.bind (hy.get hj) fun b hb => Out.bind (hS.mul ha hb) fun p hp =>
    Out.bind (hx.get hk) fun c hc => Out.bind (hy.get hl) fun d hd => Out.bind (hS.mul hc hd) fun q hq => hS.sub hp hq

theorem cross_all (hS : S.Closed P A) {x y : List T} (hx : All P 3 x) (hy : All P 3 y) : Out A (cross S x y) (All P 3) := by
  unfold cross
  rw [hx.1, hy.1, if_neg (by simp)]
  refine Out.bind (crossEntry_all hS hx hy (by omega) (by omega) (by omega) (by omega)) fun a ha =>
    Out.bind (crossEntry_all hS hx hy (by omega) (by omega) (by omega) (by omega)) fun b hb =>
    Out.bind (crossEntry_all hS hx hy (by omega) (by omega) (by omega) (by omega)) fun c hc => ?_
  exact Out.ok ⟨rfl, by simp [ha, hb, hc]⟩

theorem concatenate_all (hS : S.Closed P A) {n k : Nat} {x y : List T} (hx : All P n x) (hy : All P k y) :
    Out A (concatenate S x y) (All P (n + k)) := by
  unfold concatenate ofSize
  refine Out.bind (P := All P (n + k)) (Out.bind (hS.ofInt 0 (by simp)) fun z hz => Out.ok ⟨by simp [hx.1, hy.1], by simp [hz]⟩) fun r hr => ?_
  rw [hx.1, hy.1]
  refine Out.bind (P := All P (n + k)) (forUp_ok (Inv := fun _ => All P (n + k)) hr fun i r _ hi hr => ?_) fun r hr =>
    forUp_ok (Inv := fun _ => All P (n + k)) hr fun i r _ hi hr => ?_
  · exact Out.bind (hx.get (by omega)) fun t ht => hr.set (by omega) ht
  · exact Out.bind (hy.get (by omega)) fun t ht => hr.set (by omega) ht

end Vec

theorem closed_double : Scalar.double.Closed (fun _ => True) Never := by
  constructor <;> intros <;> exact Out.ok trivial

theorem Tame.out {r : Res BigInt} (h : Tame r) : Out IntFails r BigInt.WF := by
  rcases h with ⟨a, rfl, h⟩ | rfl | rfl
  · exact Out.ok h
  · exact Out.err (.inl rfl)
  · exact Out.err (.inr rfl)

theorem closed_int : Scalar.int.Closed BigInt.WF IntFails := by
  have c := fun {x y : BigInt} (hx : BigInt.WF x) (hy : BigInt.WF y) => C19_no_undefined_behaviour hx hy
  refine ⟨fun n hn => ?_, ?_, ?_, ?_, ?_, ?_, ?_, ?_, ?_, ?_, ?_, ?_⟩
  · obtain ⟨r, r1, r2, _⟩ := BigInt.ofInt64_ok (x := n) 0 (by omega) (by omega)
    exact .inl ⟨r, r1, r2.1⟩
  · exact fun hx hy => (c hx hy).1.out
  · exact fun hx hy => (c hx hy).2.1.out
  · exact fun hx hy => (c hx hy).2.2.1.out
  · exact fun hx hy => (c hx hy).2.2.2.1.out
  · exact fun hx => (c hx hx).2.2.2.2.2.2.2.2.2.2.2.2.1.out
  · exact fun hx hy => (c hx hy).2.2.2.2.2.2.1.out
  · exact fun hx hy => (c hx hy).2.2.2.2.2.2.2.1.out
  · exact fun hx hy => (c hx hy).2.2.2.2.2.2.2.2.1.out
  · exact fun hx hy => (c hx hy).2.2.2.2.2.2.2.2.2.1.out
  · exact fun hx hy => .inl ⟨_, BigInt.eq_spec hx hy, trivial⟩
  · exact fun hx hy => .inl ⟨_, BigInt.ne_spec hx hy, trivial⟩

theorem closed_field (K : Type) [Field K] [DecidableEq K] : (Scalar.field K).Closed (fun _ => True) (fun e => e = .divideByZero) := by
  constructor <;> intros <;> dsimp only [Scalar.field] <;> first | exact Out.ok trivial | skip
  all_goals split
  all_goals first | exact Out.err rfl | exact Out.ok trivial

end CppMaths
