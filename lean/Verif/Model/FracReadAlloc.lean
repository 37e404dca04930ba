import Verif.Model.ReadAlloc
import Verif.Model.FracAlloc
/-!
# Reading a `Frac` when memory runs out

`Frac::read`, the constructor from a string and `Frac::from_double`, on top of `Verif/Model/ReadAlloc.lean` and `Verif/Model/FracAlloc.lean` and with the conventions of these.
-/

namespace CppMaths
namespace Frac
open BigInt GM

/-- `in >> tt`. -/
def readTop (m : GM (IStream × BigInt) Unit) : GM (IStream × Frac) Unit :=
  fun s => match m ((s.1.1, s.1.2.tt), s.2) with | (r, ((i, t), n)) => (r, ((i, { s.1.2 with tt := t }), n))

/-- `in >> bb`. -/
def readBottom (m : GM (IStream × BigInt) Unit) : GM (IStream × Frac) Unit :=
  fun s => match m ((s.1.1, s.1.2.bb), s.2) with | (r, ((i, b), n)) => (r, ((i, { s.1.2 with bb := b }), n))

/-- A computation with the object that is read into. -/
def onFrac (m : FM Unit) : GM (IStream × Frac) Unit := fun s => match m (s.1.2, s.2) with | (r, (f, n)) => (r, ((s.1.1, f), n))

/-- The part of `Frac::read` that reads numerator and denominator (src/Frac.cpp:32-47). Returns `success`. -/
def readPartsA (L : ILuck) (parens : Bool) : GM (IStream × Frac) Bool := do
  readTop (BigInt.readA L)
  let (s, f) ← this
  if !s.failed then do
    let (c, s) := s.peek
    put (s, f)
    if c == some '/' then do
      put (s.get.2, f)
      readBottom (BigInt.readA L)
      let (s, _) ← this
      return !s.failed
    else do
      onFrac (onBottom (setValueT L 1))
      return true
  else do
    put (if parens then s.unget else s, f)
    return false

/-- `Frac::read` (src/Frac.cpp:25-56) after the check of the stream and before the call of `normalize`. -/
def readRawA (L : ILuck) : GM (IStream × Frac) Unit := do
  let (s, f) ← this
  let (c, s) := s.peek
  let parens := c == some '('
  put (if parens then s.get.2 else s, f)
  let success ← readPartsA L parens
  let (s, f) ← this
  let s := if success && parens then
      (let (c, s) := s.peek
       if c == some ')' then s.get.2 else s)
    else s
  put (if success then s.clearFail else s, f)

/-- `Frac::read` (src/Frac.cpp:19-60). -/
def readA (L : ILuck) : GM (IStream × Frac) Unit := do
  let (s, f) ← this
  let (ok, s) := s.sentry
  if !ok then put (s, f)
  else do
    readRawA L
    onFrac (normalizeT L)

/-- `Frac::Frac(const string& x)` (src/Frac.cpp:129-144). The requests besides those of `Int`: the substrings, the assignments to `tt` and `bb`, and the text of
the exception. -/
def ofStringA (L : ILuck) (x : List Char) : AM Frac := do
  let f ← defaultA L
  if x.length == 0 then return f
  else do
    let f ← (match x.dropWhile (· != '/') with
      | [] => do
        let t ← BigInt.ofStringA L x
        ask L
        let b ← ofInt64A L 1
        ask L
        return (⟨t, b⟩ : Frac)
      | _ :: den => do
        ask L
        let t ← BigInt.ofStringA L (x.takeWhile (· != '/'))
        ask L
        ask L
        let b ← BigInt.ofStringA L den
        ask L
        return (⟨t, b⟩ : Frac))
    let z ← free (f.bb.equalsInt32 0)
    if z then do
      ask L
      free (.error .invalidArgument)
    else local' f (normalizeT L)

/-- `Frac::from_double` (src/Frac.cpp:72-98), with the conventions of `fromDouble`: `sx` is what `ss << fixed << x` would print. If memory runs out while this is inserted,
`ss` holds only the first characters and no exception is thrown. The requests besides those of the operations called: the stream, `ss.str()`, and the two texts for the exception. -/
def fromDoubleA (L : ILuck) (finite : Bool) (sx : List Char) : AM Frac := do
  ask L
  let ss ← insertsA L ⟨[], false⟩ sx
  ask L
  if !finite then do
    ask L
    ask L
    free (.error .invalidArgument)
  else
    match ss.text.dropWhile (· != '.') with
    | [] => free (.error .ub)
    | _ :: frac => do
      let tt ← BigInt.ofStringA L (ss.text.takeWhile (· != '.') ++ frac)
      let one ← ofInt64A L 1
      let bb ← local' one (timesPowerTenT L (toI32 frac.length))
      let f ← mkA L tt bb
      returnedA L f

end Frac
end CppMaths
