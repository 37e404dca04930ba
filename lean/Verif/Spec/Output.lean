import Verif.Model.OStream
import Verif.Spec.Text
import Verif.Spec.Poly
import Verif.Spec.Linear
import Verif.Spec.Frac

/-!
# What one expects of formatted output

`OStream` itself (`Verif/Model/OStream.lean`) describes the standard library; what the classes of the library do with it is
stated in terms of numerals.
-/

namespace CppMaths

/-- A good stream without a pending field width, in decimal, without `showpos`, not left-adjusted. The fill character and the
other flags may be anything. A new stream is of this kind. -/
def OStream.Plain (o : OStream) : Prop :=
  o.good = true ∧ o.width = 0 ∧ o.base = .dec ∧ o.showpos = false ∧ o.adjust ≠ .left

/-- The text `s` in a field of at least `w` characters. -/
def field (adj : OAdjust) (w : Nat) (c : Char) (s : List Char) : List Char :=
  if adj = .left then s ++ List.replicate (w - s.length) c else List.replicate (w - s.length) c ++ s

/-- The text `s` with the sign or prefix `pre` in a field of at least `w` characters; `internal` puts the padding between the two. -/
def prefixField (adj : OAdjust) (w : Nat) (c : Char) (pre s : List Char) : List Char :=
  if adj = .internal then pre ++ List.replicate (w - (pre ++ s).length) c ++ s else field adj w c (pre ++ s)

/-- The numeral of `z` in base `b`, with `-` for negative numbers. -/
def numeralIn (b : Nat) (z : Int) : List Char :=
  if z < 0 then '-' :: Nat.toDigits b z.natAbs else Nat.toDigits b z.natAbs

/-- The decimal numeral of `z` with a sign in any case. -/
def signedNumeral (z : Int) : List Char := if z < 0 then numeral z else '+' :: numeral z

/-- The number of characters that precede the last 9, 18, ... digits: only the sign for a negative number. -/
def leadLength (z : Int) : Nat := if z < 0 then 1 else ((numeral z).length - 1) % 9 + 1

/-- What a built-in integer `n` below 2^31 looks like in a field of `w` characters filled with `c`, in the base and with the flags of `o`. -/
def smallText (o : OStream) (w : Nat) (c : Char) (n : Nat) : List Char :=
  let up := fun c : Char => if o.uppercase then c.toUpper else c
  match o.base with
  | .dec => prefixField o.adjust w c (if o.showpos then ['+'] else []) (numeral n)
  | .oct => prefixField o.adjust w c [] ((if o.showbase && n != 0 then ['0'] else []) ++ numeralIn 8 n)
  | .hex => prefixField o.adjust w c (if o.showbase && n != 0 then ['0', up 'x'] else []) ((numeralIn 16 n).map up)

/-- The things one can insert into a stream. -/
inductive OItem
  | str (s : List Char)
  | i32 (z : Int)
  | endl
  | int (x : BigInt)
  | frac (x : Frac)
  | vecInt (x : List BigInt)
  | vecFrac (x : List Frac)
  | matInt (m : Mat BigInt)
  | matFrac (m : Mat Frac)
  | factor (f : Factor)
  | term (t : Term)
  | poly (p : Poly)

/-- `out << item`. -/
def OItem.put : OItem → OStream → Res OStream
  | .str s, o => return o.putStr s
  | .i32 z, o => return o.putI32 z
  | .endl, o => return o.endl
  | .int x, o => return x.printTo o
  | .frac x, o => return x.printTo o
  | .vecInt x, o => Vec.printTo BigInt.printTo x o
  | .vecFrac x, o => Vec.printTo Frac.printTo x o
  | .matInt m, o => m.printTo BigInt.printTo o
  | .matFrac m, o => m.printTo Frac.printTo o
  | .factor f, o => f.printTo o
  | .term t, o => t.printTo o
  | .poly p, o => p.printTo o

/-- `out << item₁ << item₂ << ...`. -/
def OItem.putAll : List OItem → OStream → Res OStream
  | [], o => .ok o
  | i :: is, o => do let o ← i.put o; putAll is o

/-- The text of a vector. -/
def vecText (ts : List (List Char)) : List Char := "(".toList ++ ", ".toList.intercalate ts ++ ")".toList

/-- The text of a matrix. -/
def matText {r c : Nat} (ts : Fin r → Fin c → List Char) : List Char :=
  "\n".toList.intercalate (List.ofFn fun i => (List.ofFn fun j => ts i j ++ " ".toList).flatten)

/-- The power is none of those that print wrongly (see C79). -/
def PlainPower (e : ℤ) : Prop := ∀ k : Nat, 1 ≤ k → e ≠ 10 ^ (9 * k)

/-- The text that one expects for an item. -/
inductive OItem.Text : OItem → List Char → Prop
  | str (s) : Text (.str s) s
  | i32 (z) : Text (.i32 z) (numeral z)
  | endl : Text .endl ['\n']
  | int {x} : BigInt.Canon x → Text (.int x) (numeral x.val)
  | frac {x : Frac} : x.Valid → Text (.frac x) (ratioText x.value)
  | vecInt {x : List BigInt} : (∀ a ∈ x, BigInt.Canon a) → Text (.vecInt x) (vecText (x.map fun a => numeral a.val))
  | vecFrac {x : List Frac} : (∀ a ∈ x, a.Valid) → Text (.vecFrac x) (vecText (x.map fun a => ratioText a.value))
  | matInt {m r c} {M : Matrix (Fin r) (Fin c) ℤ} : Mat.Is IntRel m M → Text (.matInt m) (matText fun i j => numeral (M i j))
  | matFrac {m r c} {M : Matrix (Fin r) (Fin c) ℚ} : Mat.Is FracRel m M → Text (.matFrac m) (matText fun i j => ratioText (M i j))
  | factor {f : Factor} : BigInt.Canon f.power → PlainPower f.power.val → Text (.factor f) (powerText f.id f.power.val)
  | term {t : Term} : t.WF → (∀ v e, t.Has v e → PlainPower e) →
      Text (.term t) (termText t.coeff.value (t.factors.map fun p => (p.1, p.2.power.val)))
  | poly {p : Poly} : p.WF → (∀ t ∈ p.terms, ∀ v e, t.Has v e → PlainPower e) →
      Text (.poly p) (List.intercalate " + ".toList (p.terms.map fun t =>
        termText t.coeff.value (t.factors.map fun p => (p.1, p.2.power.val))))

end CppMaths
