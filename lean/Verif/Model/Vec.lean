import Verif.Model.Scalar
/-!
# `Vec<T>` (src/Vec.hpp)

A `Vec` is the list of its entries (`std::vector<T> data`, src/Vec.hpp:75). Reading or writing an index outside the list
is undefined behaviour, as `std::vector::operator[]` has it. `norm` and `unit_vector` (src/Vec.hpp:225-245), which only
compile for machine types, are in `Verif/Model/Machine.lean`.

A reference parameter is modelled by what reading it yields while the function runs. For operators that change their
left operand `x`, this is a function of the current `x`: constant for an independent object, and a look into `x` for
a reference to (an entry of) `x` itself.
-/

namespace CppMaths
namespace Vec
variable {T S : Type}

/-- `operator[]` for reading (src/Vec.hpp:31). -/
def get (x : List T) (i : Nat) : Res T :=
  match x[i]? with
  | some t => .ok t
  | none => .error .ub

/-- `operator[]` for writing (src/Vec.hpp:30). -/
def set (x : List T) (i : Nat) (t : T) : Res (List T) := if i < x.length then .ok (x.set i t) else .error .ub

/-- `Vec(size)` (src/Vec.hpp:22): `size` copies of `0`. -/
def ofSize (S : Scalar T) (size : Nat) : Res (List T) := do
  let z ← S.ofInt 0
  return List.replicate size z

/-- `Vec(vals, length)` (src/Vec.hpp:85-90), also `Vec(const Vec<S>&)` (src/Vec.hpp:78-83) and
`Vec(const std::vector<S>&)` (src/Vec.hpp:92-97), which do the same with `length = x.size()`. `conv` is the conversion
`T(const S&)`. -/
def ofArray (conv : S → Res T) (vals : List S) (length : Nat) : Res (List T) :=
  forUp 0 length (fun i data => do
    let s ← get vals i
    let t ← conv s
    return data ++ [t]) []

/-- `setEntries(val)` (src/Vec.hpp:99-103). -/
def setAll (conv : S → Res T) (x : List T) (val : S) : Res (List T) := do
  let t ← conv val
  return List.replicate x.length t

/-- `setEntries(vals, size)` (src/Vec.hpp:105-112), together with what `x` holds after a failure. -/
def setEntriesM (conv : S → Res T) (x : List T) (vals : List S) (size : Nat) : Except (Err × List T) (List T) :=
  if size < x.length then .error (.invalidArgument, x)
  else forUp 0 x.length (fun i x => Frac.at' x (do
    let s ← get vals i
    let t ← conv s
    set x i t)) x

/-- `setEntries(vals, size)` (src/Vec.hpp:105-112). -/
def setEntries (conv : S → Res T) (x : List T) (vals : List S) (size : Nat) : Res (List T) :=
  Frac.drop (setEntriesM conv x vals size)

/-- `operator<<` (src/Vec.hpp:114-124); `pr` prints an entry. -/
def print (pr : T → List Char) (x : List T) : Res (List Char) := do
  let out ← forUp 0 (x.length - 1) (fun i out => do
    let t ← get x i
    return out ++ pr t ++ [',', ' ']) ['(']
  let out ← (if x.length - 1 < x.length then do
      let t ← get x (x.length - 1)
      return out ++ pr t
    else .ok out)
  return out ++ [')']

/-- The loop `for (i = 0; i < x.size(); ++i) x[i] op= y[i]` of src/Vec.hpp:131-132, 141-142, 171-172 and 179-180. `src`
tells what `y` holds, given what `x` holds. -/
def zipLoop (op : T → T → Res T) (src : List T → List T) (n : Nat) (x : List T) : Res (List T) :=
  forUp 0 n (fun i x => do
    let a ← get x i
    let b ← get (src x) i
    let t ← op a b
    set x i t) x

/-- The loop `for (i = 0; i < x.size(); ++i) x[i] op= a` of src/Vec.hpp:149-150, 162-163, 185-186 and 191-192. `src` tells
what the scalar `a` holds, given what `x` holds. -/
def mapLoop (op : T → T → Res T) (src : List T → Res T) (x : List T) : Res (List T) :=
  forUp 0 x.length (fun i x => do
    let a ← get x i
    let b ← src x
    let t ← op a b
    set x i t) x

/-- `x + y` (src/Vec.hpp:126-134). -/
def add (S : Scalar T) (x y : List T) : Res (List T) :=
  if x.length ≠ y.length then .error .invalidArgument else zipLoop S.addA (fun _ => y) y.length x

/-- `x - y` (src/Vec.hpp:136-144). -/
def sub (S : Scalar T) (x y : List T) : Res (List T) :=
  if x.length ≠ y.length then .error .invalidArgument else zipLoop S.subA (fun _ => y) y.length x

/-- `a * y` (src/Vec.hpp:146-152). The scalar may be an entry of `y`: the loop changes a copy of `y` only. -/
def smul (S : Scalar T) (a : T) (y : List T) : Res (List T) := mapLoop S.mulA (fun _ => .ok a) y

/-- `y * a` (src/Vec.hpp:154-157). -/
def mulScalar (S : Scalar T) (y : List T) (a : T) : Res (List T) := smul S a y

/-- `x / a` (src/Vec.hpp:159-165). -/
def divScalar (S : Scalar T) (x : List T) (a : T) : Res (List T) := mapLoop S.divA (fun _ => .ok a) x

/-- `x += y` (src/Vec.hpp:167-173), `y` being given by `src`. -/
def addAssignRef (S : Scalar T) (x : List T) (src : List T → List T) : Res (List T) :=
  if x.length ≠ (src x).length then .error .invalidArgument else zipLoop S.addA src x.length x

/-- `x -= y` (src/Vec.hpp:175-181), `y` being given by `src`. -/
def subAssignRef (S : Scalar T) (x : List T) (src : List T → List T) : Res (List T) :=
  if x.length ≠ (src x).length then .error .invalidArgument else zipLoop S.subA src x.length x

/-- `x += y` (src/Vec.hpp:167-173) for an independent `y`. -/
def addAssign (S : Scalar T) (x y : List T) : Res (List T) := addAssignRef S x (fun _ => y)
/-- `x -= y` (src/Vec.hpp:175-181) for an independent `y`. -/
def subAssign (S : Scalar T) (x y : List T) : Res (List T) := subAssignRef S x (fun _ => y)
/-- `x += x` (src/Vec.hpp:167-173). -/
def addAssignSelf (S : Scalar T) (x : List T) : Res (List T) := addAssignRef S x id
/-- `x -= x` (src/Vec.hpp:175-181). -/
def subAssignSelf (S : Scalar T) (x : List T) : Res (List T) := subAssignRef S x id

/-- `x *= a` (src/Vec.hpp:183-187) for a scalar outside `x`. -/
def mulAssign (S : Scalar T) (x : List T) (a : T) : Res (List T) := mapLoop S.mulA (fun _ => .ok a) x
/-- `x /= a` (src/Vec.hpp:189-193) for a scalar outside `x`. -/
def divAssign (S : Scalar T) (x : List T) (a : T) : Res (List T) := mapLoop S.divA (fun _ => .ok a) x
/-- `x *= x[k]` (src/Vec.hpp:183-187): the reference follows the entry through the loop. -/
def mulAssignEntry (S : Scalar T) (x : List T) (k : Nat) : Res (List T) := mapLoop S.mulA (fun x => get x k) x
/-- `x /= x[k]` (src/Vec.hpp:189-193): the reference follows the entry through the loop. -/
def divAssignEntry (S : Scalar T) (x : List T) (k : Nat) : Res (List T) := mapLoop S.divA (fun x => get x k) x

/-- The loop of `operator==` (src/Vec.hpp:199-202), from index `i` on with `n` rounds to go. -/
def eqLoop (S : Scalar T) (x y : List T) : Nat → Nat → Res Bool
  | _, 0 => .ok true
  | i, n + 1 => do
    let a ← get x i
    let b ← get y i
    let d ← S.ne a b
    if d then return false else eqLoop S x y (i + 1) n

/-- `x == y` (src/Vec.hpp:195-203). -/
def eq (S : Scalar T) (x y : List T) : Res Bool :=
  if x.length ≠ y.length then .ok false else eqLoop S x y 0 x.length

/-- `x != y` (src/Vec.hpp:205-206). -/
def ne (S : Scalar T) (x y : List T) : Res Bool := do
  let b ← eq S x y
  return !b

/-- `constantVec(size, val)` (src/Vec.hpp:208-213). -/
def constantVec (S : Scalar T) (size : Nat) (val : T) : Res (List T) := do
  let r ← ofSize S size
  setAll .ok r val

/-- `x.dot(y)` (src/Vec.hpp:247-255). -/
def dot (S : Scalar T) (x y : List T) : Res T :=
  if x.length ≠ y.length then .error .invalidArgument
  else do
    let z ← S.ofInt 0
    forUp 0 x.length (fun i r => do
      let a ← get x i
      let b ← get y i
      let p ← S.mul a b
      S.addA r p) z

/-- One entry `data[i] * x[j] - data[k] * x[l]` of src/Vec.hpp:262-264. -/
def crossEntry (S : Scalar T) (data x : List T) (i j k l : Nat) : Res T := do
  let a ← get data i
  let b ← get x j
  let p ← S.mul a b
  let c ← get data k
  let d ← get x l
  let q ← S.mul c d
  S.sub p q

/-- `data.cross(x)` (src/Vec.hpp:257-266). -/
def cross (S : Scalar T) (data x : List T) : Res (List T) :=
  if data.length ≠ 3 ∨ x.length ≠ 3 then .error .invalidArgument
  else do
    let v0 ← crossEntry S data x 1 2 2 1
    let v1 ← crossEntry S data x 2 0 0 2
    let v2 ← crossEntry S data x 0 1 1 0
    ofArray .ok [v0, v1, v2] 3

/-- `scalar_triple_product` (src/Vec.hpp:215-218). -/
def scalarTriple (S : Scalar T) (x y z : List T) : Res T := do
  let c ← cross S y z
  dot S x c

/-- `vector_triple_product` (src/Vec.hpp:220-223). -/
def vectorTriple (S : Scalar T) (x y z : List T) : Res (List T) := do
  let c ← cross S y z
  cross S x c

/-- `data.concatenate(x)` (src/Vec.hpp:268-276). -/
def concatenate (S : Scalar T) (data x : List T) : Res (List T) := do
  let r ← ofSize S (data.length + x.length)
  let r ← forUp 0 data.length (fun i r => do
    let t ← get data i
    set r i t) r
  forUp 0 x.length (fun k r => do
    let t ← get x k
    set r (data.length + k) t) r

end Vec
end CppMaths
