import Verif.Model.IntAlloc
import Verif.Model.Int
/-!
# Reading an `Int` when memory runs out

`Int::read` collects the digits in a `std::stringstream` and takes them out again in groups of nine through another one.

* An insertion into a string stream that cannot get memory does not throw: the formatted output functions catch the exception and set `badbit`
  ([ostream.formatted.reqmts]); the character is lost, and so are all later ones, since the sentry of the next insertion fails.
* A string stream that is not good delivers no characters: `peek` returns EOF, and an extraction fails without changing its argument.
* Constructing a string stream, `str()`, the text of an exception, and insertions into the deque throw when they cannot get memory.
* The stream that is read from is a string (`IStream`), which needs no memory.
-/

namespace CppMaths

/-- A string stream that is filled by insertions: its contents and `badbit`. -/
structure OBuf where
  text : List Char
  bad : Bool
deriving DecidableEq, Repr

namespace BigInt
open GM

variable {σ : Type}

/-- A request whose refusal is not reported by an exception. -/
def askSoft (L : ILuck) : GM σ Bool := fun s => (.ok (!L.refuse s.2), (s.1, s.2 + 1))

/-- `ss << c`. -/
def insertA (L : ILuck) (b : OBuf) (c : Char) : AM OBuf :=
  if b.bad then pure b
  else do
    let ok ← askSoft L
    return (if ok then { b with text := b.text ++ [c] } else { b with bad := true })

/-- Several insertions. -/
def insertsA (L : ILuck) : OBuf → List Char → AM OBuf
  | b, [] => pure b
  | b, c :: cs => do
    let b ← insertA L b c
    insertsA L b cs

/-- `parse_int` (src/Int.cpp:50-62). The first request is for `s_num`, then come the insertions, the extraction (which sets `badbit` if it cannot get memory),
and the text of the exception. -/
def parseIntA (L : ILuck) (ss : OBuf) (maxDigits : Nat) : AM (Int × OBuf) := do
  ask L
  let ds := if ss.bad then [] else (ss.text.take maxDigits).takeWhile (fun c => isDigit (some c))
  let num ← insertsA L ⟨[], false⟩ ds
  let ok ← askSoft L
  if num.bad || !ok || num.text.isEmpty || readDigits num.text > 2147483647 then do
    ask L
    free (.error .invalidArgument)
  else return (readDigits num.text, { ss with text := ss.text.drop ds.length })

/-- `while (isdigit(in.peek())) digit_ss << (char) in.get();` (src/Int.cpp:104-105). -/
def takeDigitsA (L : ILuck) : Nat → IStream → OBuf → AM (OBuf × IStream)
  | 0, s, acc => pure (acc, s)
  | f + 1, s, acc =>
    let (c, s) := s.peek
    if isDigit c then do
      let (d, s) := s.get
      let acc ← insertsA L acc d.toList
      takeDigitsA L f s acc
    else pure (acc, s)

/-- A computation with the object that is read into. -/
def onObj (m : TM Unit) : GM (IStream × BigInt) Unit := fun s => match m (s.1.2, s.2) with | (r, (a, n)) => (r, ((s.1.1, a), n))

/-- `bins.push_front(n)` (src/Int.cpp:118, 123). -/
def pushFrontA (L : ILuck) (v : Int) : TM Unit := do
  ask L
  let a ← this
  put { a with bins := v :: a.bins }

/-- The loop of `Int::read` over full bins (src/Int.cpp:121-125). -/
def readBinsA (L : ILuck) : Nat → OBuf → GM (IStream × BigInt) Unit
  | 0, _ => pure ()
  | n + 1, ss => do
      let (v, ss) ← other (parseIntA L ss BIN_WIDTH)
      onObj (pushFrontA L v)
      readBinsA L n ss

/-- The part of `Int::read` after the sign (src/Int.cpp:96-128). -/
def readBodyA (L : ILuck) (sign : Bool) (s : IStream) : GM (IStream × BigInt) Unit := do
  let s := skipZeros (s.rest.length + 1) s
  put (s, ⟨[], sign⟩)
  ask L
  let (digits, s) ← other (takeDigitsA L (s.rest.length + 1) s ⟨[], false⟩)
  put (s, ⟨[], sign⟩)
  ask L
  let n := digits.text.length
  let k := n % BIN_WIDTH
  if n == 0 then do
    put (s.clearFail, ⟨[], sign⟩)
    onObj (setValueT L 0)
  else if k > 0 then do
    let (v, ss) ← other (parseIntA L digits k)
    onObj (pushFrontA L v)
    readBinsA L (n / BIN_WIDTH) ss
  else readBinsA L (n / BIN_WIDTH) digits

/-- `Int::read` (src/Int.cpp:72-128). -/
def readA (L : ILuck) : GM (IStream × BigInt) Unit := do
  let (s, a) ← this
  let (ok, s) := s.sentry
  if !ok then put (s, a)
  else
    match readSign s with
    | (none, s) => put (s, a)
    | (some sign, s) => readBodyA L sign s

/-- `Int::Int(const std::string&)` (src/Int.cpp:313-320). -/
def ofStringA (L : ILuck) (x : List Char) : AM BigInt := do
  ask L
  ask L
  let (s, a) ← local' (IStream.ofString x, (⟨[], false⟩ : BigInt)) (readA L)
  if s.failed || !s.eof then do
    let _ ← local' a (setValueT L 0)
    ask L
    free (.error .invalidArgument)
  else return a

end BigInt
end CppMaths
