import Verif.Model.Double
import Verif.Model.Frac
/-!
# Model of `Frac::from_double` including the printing of the `double`
-/

namespace CppMaths

/-- What `ss << fixed << x` writes with `p` fractional digits (src/Frac.cpp:76-77): glibc's `%.*f`, which rounds the exact value
correctly, ties to even. The sign that a NaN may be printed with is left out (the text only goes into an exception). -/
def Double.printFixed (p : Nat) : Double → List Char
  | .nan => "nan".toList
  | .inf s => if s then "-inf".toList else "inf".toList
  | .fin s m e =>
    let n := halfEven (m * 2 ^ e * 10 ^ p)
    let ds := List.replicate (p + 1 - (Nat.toDigits 10 n).length) '0' ++ Nat.toDigits 10 n
    (if s then ['-'] else []) ++ (ds.take (ds.length - p) ++ (if p = 0 then [] else '.' :: ds.drop (ds.length - p)))

/-- `Frac::from_double(x, precision)` (src/Frac.cpp:72-98). A negative precision makes the stream use 6 digits (libstdc++,
`num_put::_M_insert_float`). -/
def Frac.ofDouble (x : Double) (precision : Int) : Res Frac :=
  Frac.fromDouble (isFinite x) (x.printFixed (if precision < 0 then 6 else precision.toNat))

end CppMaths
