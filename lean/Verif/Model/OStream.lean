import Verif.Model.Poly
import Verif.Model.Vec
import Verif.Model.Mat

/-!
# Output streams with their formatting state

`Int::print` and the other `operator<<` write to a `std::ostream` that carries a formatting state: a minimum field width, a
fill character, a number base, an adjustment and some flags. The models of `print` in the other files give the text that
is written to a stream in its initial state. Here the same functions are modelled on the stream itself.

The rules for `<<` of a character, a string and an `int` are those of the C++ standard ([ostream.formatted],
[facet.num.put.virtuals]) in the "C" locale (no digit grouping). A stream is either good or not; a write to the underlying
buffer is assumed to succeed (see `Verif.Model.OStreamFail` for one that may not). `int` has 32 bits.
-/

namespace CppMaths

/-- `std::dec`, `std::oct`, `std::hex`. -/
inductive OBase | dec | oct | hex
deriving DecidableEq, Repr

/-- `std::right`, `std::left`, `std::internal`. -/
inductive OAdjust | right | left | internal
deriving DecidableEq, Repr

/-- What the code uses or changes of a `std::ostream` (src/Int.cpp:24-40): the characters written so far, whether it is
`good()`, `width()`, `fill()` and the flags that govern the output of integers. A negative `width()` counts as 0. -/
structure OStream where
  text : List Char
  good : Bool
  width : Nat
  fill : Char
  base : OBase
  adjust : OAdjust
  showpos : Bool
  showbase : Bool
  uppercase : Bool
deriving DecidableEq, Repr

namespace OStream

/-- A newly constructed stream. -/
def fresh : OStream := ⟨[], true, 0, ' ', .dec, .right, false, false, false⟩

/-- Padding to the field width. `pre` is the sign or the `0x` after which `internal` puts the fill characters. -/
def pad (o : OStream) (pre body : List Char) : List Char :=
  let p := List.replicate (o.width - (pre.length + body.length)) o.fill
  match o.adjust with
  | .left => pre ++ body ++ p
  | .right => p ++ pre ++ body
  | .internal => pre ++ p ++ body

/-- A formatted insertion: nothing happens to a stream that is not good; otherwise the padded characters are written and the
width is reset. -/
def insert (o : OStream) (pre body : List Char) : OStream :=
  if o.good then { o with text := o.text ++ o.pad pre body, width := 0 } else o

/-- `out << s` for a string or a character (src/Int.cpp:26, src/Frac.cpp:12, src/Vec.hpp:116-122, src/Mat.hpp:100,
src/Poly.hpp:33-35 and elsewhere). -/
def putStr (o : OStream) (s : List Char) : OStream := o.insert [] s

/-- The characters of an `int32_t` before padding: sign or `0x`, and the rest. `oct` and `hex` show the bits of the number,
and the `0` that `showbase` puts before an octal number is no prefix for the purpose of padding. -/
def numParts (o : OStream) (z : Int) : List Char × List Char :=
  match o.base with
  | .dec => (if z < 0 then ['-'] else if o.showpos then ['+'] else [], Nat.toDigits 10 z.natAbs)
  | .oct => ([], (if o.showbase && z != 0 then ['0'] else []) ++ Nat.toDigits 8 (z % 4294967296).toNat)
  | .hex =>
    let up := fun c : Char => if o.uppercase then c.toUpper else c
    (if o.showbase && z != 0 then ['0', up 'x'] else [], (Nat.toDigits 16 (z % 4294967296).toNat).map up)

/-- `out << z` for an `int32_t` (src/Int.cpp:32, 34, 37). -/
def putI32 (o : OStream) (z : Int) : OStream := o.insert (o.numParts z).1 (o.numParts z).2

/-- `out << std::setw(n)` (src/Int.cpp:37). Done even if the stream is not good. -/
def setw (o : OStream) (n : Nat) : OStream := { o with width := n }

/-- `out << std::setfill(c)` (src/Int.cpp:37). Done even if the stream is not good. -/
def setfill (o : OStream) (c : Char) : OStream := { o with fill := c }

/-- `out << std::endl` (src/Mat.hpp:102): unformatted, so the width is neither used nor reset. Flushing is not modelled. -/
def endl (o : OStream) : OStream := if o.good then { o with text := o.text ++ ['\n'] } else o

end OStream

/-- The loop `for (; i < bins.size(); ++i) out << setw(BIN_WIDTH) << setfill('0') << get_bin_from_back(i)`
(src/Int.cpp:36-37). -/
def BigInt.printBins : List Int → OStream → OStream
  | [], o => o
  | b :: bs, o => printBins bs (((o.setw BIN_WIDTH).setfill '0').putI32 b)

/-- `Int::print` on a stream (src/Int.cpp:24-40). -/
def BigInt.printTo (a : BigInt) (o : OStream) : OStream :=
  let o := if a.negative then o.putStr ['-'] else o
  match a.bins.reverse.dropWhile (· == 0) with
  | [] => o.putI32 0
  | b :: bs => printBins bs (o.putI32 b)

/-- `Frac::print` on a stream (src/Frac.cpp:11-14). -/
def Frac.printTo (x : Frac) (o : OStream) : OStream :=
  (x.bb.printTo ((x.tt.printTo (o.putStr ['('])).putStr ['/'])).putStr [')']

/-- `operator<<(ostream, Vec)` on a stream (src/Vec.hpp:114-124); `pr` inserts an entry. -/
def Vec.printTo {T : Type} (pr : T → OStream → OStream) (x : List T) (o : OStream) : Res OStream := do
  let o ← forUp 0 (x.length - 1) (fun i o => do
    let t ← Vec.get x i
    return (pr t o).putStr [',', ' ']) (o.putStr ['('])
  let o ← (if x.length - 1 < x.length then do
      let t ← Vec.get x (x.length - 1)
      return pr t o
    else .ok o)
  return o.putStr [')']

/-- `operator<<(ostream, Mat)` on a stream (src/Mat.hpp:96-105). -/
def Mat.printTo {T : Type} (pr : T → OStream → OStream) (m : Mat T) (o : OStream) : Res OStream := do
  let m ← m.copy
  forUp 0 m.rows (fun i o => do
    let o ← forUp 0 m.cols (fun j o => do
      let t ← m.get i j
      return (pr t o).putStr [' ']) o
    return (if i < m.rows - 1 then o.endl else o)) o

/-- `operator<<(ostream, Factor)` on a stream (src/Poly.hpp:31-36). -/
def Factor.printTo (x : Factor) (o : OStream) : Res OStream := do
  let one ← x.power.equalsInt32 1
  if one then return o.putStr x.id else return x.power.printTo ((o.putStr x.id).putStr ['^'])

/-- The loops of `operator<<(ostream, Term)` on a stream (src/Poly.hpp:115-116 and 119-120). -/
def Term.printRestTo : FactorMap → OStream → Res OStream
  | [], o => return o
  | (_, f) :: r, o => do
    let o ← f.printTo (o.putStr " * ".toList)
    printRestTo r o

/-- `operator<<(ostream, Term)` on a stream (src/Poly.hpp:103-123). -/
def Term.printTo (t : Term) (o : OStream) : Res OStream := do
  let zero ← Frac.ofI32 0
  let one ← Frac.ofI32 1
  let z ← Frac.eq t.coeff zero
  if z then return o.putStr ['0']
  else
    let u ← Frac.eq t.coeff one
    match t.factors with
    | [] => if u then return o.putStr ['1'] else return t.coeff.printTo o
    | (k, f) :: r =>
      if u then do
        let o ← f.printTo o
        printRestTo r o
      else printRestTo ((k, f) :: r) (t.coeff.printTo o)

/-- The loop of `operator<<(ostream, Poly)` on a stream (src/Poly.hpp:235-236). -/
def Poly.printRestTo : List Term → OStream → Res OStream
  | [], o => return o
  | t :: r, o => do
    let o ← t.printTo (o.putStr " + ".toList)
    printRestTo r o

/-- `operator<<(ostream, Poly)` on a stream (src/Poly.hpp:229-239). -/
def Poly.printTo (p : Poly) (o : OStream) : Res OStream :=
  match p.terms with
  | [] => return o
  | t :: r => do
    let o ← t.printTo o
    printRestTo r o

end CppMaths
