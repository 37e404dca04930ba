import Verif.Model.Basic
/-!
# A string-backed `std::istream`

Only what `Int::read` and `Frac::read` use. The semantics are those of C++11 / libstdc++ for
unformatted input functions.
-/

namespace CppMaths

/-- An input stream over a string: the characters already extracted (last one first), the
characters still to come, and the state bits. -/
structure IStream where
  past : List Char
  rest : List Char
  eof : Bool
  fail : Bool
  bad : Bool
deriving DecidableEq, Repr

namespace IStream

/-- `std::stringstream ss(x)`. -/
def ofString (s : List Char) : IStream := ⟨[], s, false, false, false⟩

/-- `good()`: no state bit set. -/
def good (s : IStream) : Bool := !s.eof && !s.fail && !s.bad

/-- `fail()`: failbit or badbit; `operator bool` is its negation. -/
def failed (s : IStream) : Bool := s.fail || s.bad

/-- `setstate(failbit)`. -/
def setFail (s : IStream) : IStream := { s with fail := true }

/-- `clear(rdstate() & ~failbit)`. -/
def clearFail (s : IStream) : IStream := { s with fail := false }

/-- `sentry s(in, true)`: succeeds iff the stream is good, else sets failbit. -/
def sentry (s : IStream) : Bool × IStream := if s.good then (true, s) else (false, s.setFail)

/-- `peek()`: the next character without extracting it. On a stream that is not good the sentry
sets failbit; at the end of the string eofbit is set. Both return EOF (`none`). -/
def peek (s : IStream) : Option Char × IStream :=
  if s.good then
    match s.rest with
    | [] => (none, { s with eof := true })
    | c :: _ => (some c, s)
  else (none, s.setFail)

/-- `get()`: extracts one character. -/
def get (s : IStream) : Option Char × IStream :=
  if s.good then
    match s.rest with
    | [] => (none, { s with eof := true, fail := true })
    | c :: r => (some c, { s with past := c :: s.past, rest := r })
  else (none, s.setFail)

/-- `unget()`: clears eofbit, then, if the stream is good, steps back one character. -/
def unget (s : IStream) : IStream :=
  let s := { s with eof := false }
  if s.good then
    match s.past with
    | [] => { s with bad := true }
    | c :: p => { s with past := p, rest := c :: s.rest }
  else s.setFail

/-- `isspace` in the "C" locale. -/
def isSpace (c : Char) : Bool := c == ' ' || c == '\t' || c == '\n' || c == '\x0b' || c == '\x0c' || c == '\r'

/-- `in >> std::ws` on a stream in good state: extracts white space, sets eofbit if nothing else is left. On other streams
implementations differ (failbit or not); here nothing happens then. -/
def ws (s : IStream) : IStream :=
  if s.good then
    let t := { s with past := (s.rest.takeWhile isSpace).reverse ++ s.past, rest := s.rest.dropWhile isSpace }
    if t.rest.isEmpty then { t with eof := true } else t
  else s

end IStream
end CppMaths
