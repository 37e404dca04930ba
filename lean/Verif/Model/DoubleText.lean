import Verif.Model.Double
/-!
# Model of the output of a `double` in the default format

`src/Vec.hpp` and `src/Mat.hpp` print the entries with `<<`. For `double` entries and a stream whose `floatfield` is not set this is
what C's `%.*g` writes with the precision of the stream (6 in a fresh stream).
-/

namespace CppMaths

/-- Where `%g` puts the digits `ds` of the number `d.ddd * 10^x`, given the precision: plain notation for `-4 ≤ x < precision`,
otherwise `d.ddde±xx` with at least two digits in the exponent (C11 7.21.6.1 paragraph 8, without the `#` flag). -/
def Double.layout (p : Nat) (x : Int) (ds : List Char) : List Char :=
  if -4 ≤ x ∧ x < 0 then "0.".toList ++ List.replicate (-x - 1).toNat '0' ++ ds
  else if 0 ≤ x ∧ x < p then
    let k := x.toNat + 1
    ds.take k ++ List.replicate (k - ds.length) '0' ++ (if ds.length ≤ k then [] else '.' :: ds.drop k)
  else
    let a := Nat.toDigits 10 x.natAbs
    ds.take 1 ++ (if ds.length ≤ 1 then [] else '.' :: ds.drop 1) ++ ['e', if x < 0 then '-' else '+'] ++
      (if a.length < 2 then '0' :: a else a)

/-- What `out << d` writes with precision `p`, `1 ≤ p`, for a `double` (src/Vec.hpp:119-121, src/Mat.hpp:100): the number rounded
correctly to `p` significant digits, ties to even (as glibc does), without trailing zeros. The sign that a NaN may be printed with is
left out. -/
def Double.print (p : Nat) : Double → List Char
  | .nan => "nan".toList
  | .inf s => if s then "-inf".toList else "inf".toList
  | .fin s m e =>
    (if s then ['-'] else []) ++
      if m = 0 then ['0'] else
        let q : ℚ := m * 2 ^ e
        let x := Int.log 10 q
        let n := halfEven (q / 10 ^ (x + 1 - p))
        let x' := if n = 10 ^ p then x + 1 else x
        let n' := if n = 10 ^ p then 10 ^ (p - 1) else n
        layout p x' ((Nat.toDigits 10 n').reverse.dropWhile (· == '0')).reverse

end CppMaths
