/-!
# Outcomes and machine integers

The result type shared by all models of C++ functions, and the 32/64-bit machine
arithmetic of `src/common.hpp`.
-/

namespace CppMaths

/-- Ways in which a C++ call can fail to return a value. -/
inductive Err where
  /-- `throw divide_by_zero_error()` (src/common.hpp:35-37) -/
  | divideByZero
  /-- `throw std::invalid_argument(..)` -/
  | invalidArgument
  /-- `throw std::domain_error(..)` (src/Mat.hpp) -/
  | domainError
  /-- `std::deque::at` called out of range (throws `std::out_of_range`) -/
  | outOfRange
  /-- `new` throws `std::bad_alloc`; only in Verif/Model/MatMem.lean and Verif/Model/IntAlloc.lean -/
  | badAlloc
  /-- an `assert` failed: the process aborts (CMakeLists.txt defines no NDEBUG) -/
  | assertion
  /-- undefined behaviour: signed overflow, dereferencing an end iterator, reading outside a buffer -/
  | ub
  /-- the iteration budget of a modelled loop ran out -/
  | diverge
deriving DecidableEq, Repr

/-- A C++ call: a value or a failure. -/
abbrev Res (α : Type) := Except Err α

@[simp] theorem bind_ok {α β : Type} (a : α) (f : α → Res β) : ((Except.ok a : Res α) >>= f) = f a := rfl
@[simp] theorem bind_err {α β : Type} (e : Err) (f : α → Res β) :
    ((Except.error e : Res α) >>= f) = Except.error e := rfl
@[simp] theorem map_ok {α β : Type} (a : α) (f : α → β) : (f <$> (Except.ok a : Res α)) = Except.ok (f a) := rfl
@[simp] theorem pure_ok {α : Type} (a : α) : (pure a : Res α) = Except.ok a := rfl

/-- `assert(b)` of `<cassert>` with assertions enabled. -/
def assertR (b : Bool) : Res Unit := if b then .ok () else .error .assertion

@[simp] theorem assertR_true : assertR true = .ok () := rfl
@[simp] theorem assertR_false : assertR false = .error .assertion := rfl

/-- The result of an `int32_t` computation: overflow is undefined behaviour (src/common.hpp:14-22). -/
def i32 (z : Int) : Res Int := if -2147483648 ≤ z ∧ z ≤ 2147483647 then .ok z else .error .ub

/-- The result of an `int64_t` computation: overflow is undefined behaviour (src/common.hpp:25-31). -/
def i64 (z : Int) : Res Int :=
  if -9223372036854775808 ≤ z ∧ z ≤ 9223372036854775807 then .ok z else .error .ub

/-- Conversion of an `int64_t` to `int32_t`: reduction modulo 2^32 (the implementation-defined
choice of all usual compilers). Used at src/Int.cpp:290, 294 and 526. -/
def toI32 (z : Int) : Int := (z + 2147483648) % 4294967296 - 2147483648

/-- `cmp_ints` (src/common.hpp:54-56). -/
def cmpInts (x y : Int) : Int := if x < y then -1 else if x > y then 1 else 0

/-- `max` (src/common.hpp:58-60). -/
def max32 (a b : Int) : Int := if a > b then a else b

/-- `isdigit` (src/common.hpp:50-52). `none` is the EOF value that `peek()` returns: converted to `char`
it is not between '0' and '9' (nor is it a digit for the C library's `isdigit(int)`, which overload
resolution may prefer). -/
def isDigit : Option Char → Bool
  | none => false
  | some c => '0' ≤ c && c ≤ '9'

end CppMaths
