import Verif.Model.OStream
/-!
# Output to a device that fails

The output functions of `Verif.Model.OStream` once more, on a stream whose buffer may refuse characters: a full disk, a closed connection, or a string stream
that gets no memory. An insertion that meets a refusal sets `badbit` ([ostream.formatted.reqmts]) and throws nothing, as long as the user has not asked for
exceptions with `exceptions(...)`. The characters before the refusal are written; whether the field width is reset then is left to the library.

What counts as written is what the buffer has accepted. A buffer that accepts characters and loses them when it is emptied is not modelled, nor is the
flushing by `std::endl` (a refusal there counts as one of the last character).
-/

namespace CppMaths

/-- What the device does with each insertion: `none` if it takes all characters, `some (k, w)` if it takes only the first `k` and refuses then; `w` says whether
the stream resets the field width nevertheless. -/
abbrev Device := Nat → Option (Nat × Bool)

/-- A stream, and the number of insertions its device has seen. -/
structure DStream where
  o : OStream
  count : Nat
deriving DecidableEq, Repr

namespace DStream

/-- A formatted insertion (src/Int.cpp:26-37 and elsewhere): nothing happens to a stream that is not good. -/
def insert (D : Device) (d : DStream) (pre body : List Char) : DStream :=
  if d.o.good then
    match D d.count with
    | none => ⟨{ d.o with text := d.o.text ++ d.o.pad pre body, width := 0 }, d.count + 1⟩
    | some (k, w) => ⟨{ d.o with text := d.o.text ++ (d.o.pad pre body).take k, width := if w then 0 else d.o.width, good := false }, d.count + 1⟩
  else d

/-- `out << s` for a string or a character (src/Int.cpp:26, src/Frac.cpp:12, src/Vec.hpp:116-122, src/Mat.hpp:100, src/Poly.hpp:33-35 and elsewhere). -/
def putStr (D : Device) (d : DStream) (s : List Char) : DStream := d.insert D [] s

/-- `out << z` for an `int32_t` (src/Int.cpp:32, 34, 37). -/
def putI32 (D : Device) (d : DStream) (z : Int) : DStream := d.insert D (d.o.numParts z).1 (d.o.numParts z).2

/-- `out << std::setw(n)` (src/Int.cpp:37). -/
def setw (d : DStream) (n : Nat) : DStream := { d with o := d.o.setw n }

/-- `out << std::setfill(c)` (src/Int.cpp:37). -/
def setfill (d : DStream) (c : Char) : DStream := { d with o := d.o.setfill c }

/-- `out << std::endl` (src/Mat.hpp:102). -/
def endl (D : Device) (d : DStream) : DStream :=
  if d.o.good then
    match D d.count with
    | none => ⟨{ d.o with text := d.o.text ++ ['\n'] }, d.count + 1⟩
    | some (k, _) => ⟨{ d.o with text := d.o.text ++ ['\n'].take k, good := false }, d.count + 1⟩
  else d

end DStream

/-- The loop of `Int::print` (src/Int.cpp:36-37). -/
def BigInt.printBinsD (D : Device) : List Int → DStream → DStream
  | [], d => d
  | b :: bs, d => printBinsD D bs (((d.setw BIN_WIDTH).setfill '0').putI32 D b)

/-- `Int::print` (src/Int.cpp:24-40). -/
def BigInt.printD (D : Device) (a : BigInt) (d : DStream) : DStream :=
  let d := if a.negative then d.putStr D ['-'] else d
  match a.bins.reverse.dropWhile (· == 0) with
  | [] => d.putI32 D 0
  | b :: bs => printBinsD D bs (d.putI32 D b)

/-- `Frac::print` (src/Frac.cpp:11-14). -/
def Frac.printD (D : Device) (x : Frac) (d : DStream) : DStream :=
  (x.bb.printD D ((x.tt.printD D (d.putStr D ['('])).putStr D ['/'])).putStr D [')']

/-- `operator<<(ostream, Vec)` (src/Vec.hpp:114-124); `pr` inserts an entry. -/
def Vec.printD {T : Type} (D : Device) (pr : T → DStream → DStream) (x : List T) (d : DStream) : Res DStream := do
  let d ← forUp 0 (x.length - 1) (fun i d => do
    let t ← Vec.get x i
    return (pr t d).putStr D [',', ' ']) (d.putStr D ['('])
  let d ← (if x.length - 1 < x.length then do
      let t ← Vec.get x (x.length - 1)
      return pr t d
    else .ok d)
  return d.putStr D [')']

/-- `operator<<(ostream, Mat)` (src/Mat.hpp:96-105). -/
def Mat.printD {T : Type} (D : Device) (pr : T → DStream → DStream) (m : Mat T) (d : DStream) : Res DStream := do
  let m ← m.copy
  forUp 0 m.rows (fun i d => do
    let d ← forUp 0 m.cols (fun j d => do
      let t ← m.get i j
      return (pr t d).putStr D [' ']) d
    return (if i < m.rows - 1 then d.endl D else d)) d

/-- `operator<<(ostream, Factor)` (src/Poly.hpp:31-36). -/
def Factor.printD (D : Device) (x : Factor) (d : DStream) : Res DStream := do
  let one ← x.power.equalsInt32 1
  if one then return d.putStr D x.id else return x.power.printD D ((d.putStr D x.id).putStr D ['^'])

/-- The loops of `operator<<(ostream, Term)` (src/Poly.hpp:115-116 and 119-120). -/
def Term.printRestD (D : Device) : FactorMap → DStream → Res DStream
  | [], d => return d
  | (_, f) :: r, d => do
    let d ← f.printD D (d.putStr D " * ".toList)
    printRestD D r d

/-- `operator<<(ostream, Term)` (src/Poly.hpp:103-123). -/
def Term.printD (D : Device) (t : Term) (d : DStream) : Res DStream := do
  let zero ← Frac.ofI32 0
  let one ← Frac.ofI32 1
  let z ← Frac.eq t.coeff zero
  if z then return d.putStr D ['0']
  else
    let u ← Frac.eq t.coeff one
    match t.factors with
    | [] => if u then return d.putStr D ['1'] else return t.coeff.printD D d
    | (k, f) :: r =>
      if u then do
        let d ← f.printD D d
        printRestD D r d
      else printRestD D ((k, f) :: r) (t.coeff.printD D d)

/-- The loop of `operator<<(ostream, Poly)` (src/Poly.hpp:235-236). -/
def Poly.printRestD (D : Device) : List Term → DStream → Res DStream
  | [], d => return d
  | t :: r, d => do
    let d ← t.printD D (d.putStr D " + ".toList)
    printRestD D r d

/-- `operator<<(ostream, Poly)` (src/Poly.hpp:229-239). -/
def Poly.printD (D : Device) (p : Poly) (d : DStream) : Res DStream :=
  match p.terms with
  | [] => return d
  | t :: r => do
    let d ← t.printD D d
    printRestD D r d

end CppMaths
