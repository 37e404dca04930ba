# Formal model of pglass/cpp_maths in Lean 4

The C++ was read as text and never built or run. `lean/` is a Lake project (Lean 4.33.0, Mathlib); `lake build` there checks everything.

* `properties.jsonl`: the claims. `MANIFEST.json`: the theorems for each claim. `AXIOMS.md`: the axioms of each theorem.
* `seeded/LOG.jsonl`: attempts to break the theorems by wrong programs. `tools/`: scripts that write the lists.

## 1. Shape of the model

Every C++ function becomes a total, computable Lean function into `Res α = Except Err α`.
`Err` keeps apart the ways the C++ can fail to return:

| `Err`             | C++ meaning |
|-------------------|-------------|
| `divideByZero`    | `throw divide_by_zero_error()` |
| `invalidArgument` | `throw std::invalid_argument` |
| `domainError`     | `throw std::domain_error` |
| `outOfRange`      | `std::deque::at` out of range (throws `std::out_of_range`) |
| `badAlloc`        | `new` throws `std::bad_alloc` (only in `Model/MatMem.lean` and `Model/IntAlloc.lean`) |
| `assertion`       | a failed `assert` (the CMake build sets no NDEBUG, so `abort()`; `Model/Release.lean` and `Model/FracRelease.lean` are about the build without assertions) |
| `ub`              | undefined behaviour: signed overflow, dereferencing `end()`, reading outside an array, reading an uninitialised entry |
| `diverge`         | a loop or recursion that exhausts its budget; theorems show that it never happens |

A mutating member function becomes a function returning the new value of the object.
References are modelled by value. Where two references may denote the same object (`x += x`, `m *= m(0,0)`, `x = x`) there is a separate version
that reads the object the way the C++ does; `Model/IntMem.lean` and `Model/FracMem.lean` run the compound operators on a store of
variables, so that aliasing is visible.

* `Verif/Model/*.lean`: the model, one definition per C++ function, each citing file and lines.
* `Verif/Spec/*.lean`: the specification, independent of the algorithms: the value of an `Int`, well-formed and canonical objects, the rational value
  of a `Frac`, decimal numerals, programs over mathematical integers and rationals, reduced row echelon form, values of monomials, the number a
  `double` denotes.
* `Verif/Proofs/*.lean`: lemmas.
* `Verif/Props/*.lean`: the property theorems, each followed by an `example` that meets its hypotheses.

A property that the code violates keeps its statement in `properties.jsonl`. Its negation is proved on a concrete witness (`Cxx_refuted…`), and
the part that holds is proved as `Cxx_…_partial`, whose comment says what is missing.

### Templates

`Vec<T>` and `Mat<T>` are modelled for an arbitrary type `T` with a table of operators (`Scalar T`), each of which may fail. The theorems assume what they need
about the table: `S.ExactRing rel A` says that constants, `+`, `-`, `*`, `+=`, `-=` and the comparisons compute, for values related by `rel`, in a
commutative ring, or fail with an error allowed by `A`; `ExactField` adds division. `Out A r P` says "`r` returns something satisfying `P` or fails with an error in `A`".
Instances are proved for all exact rings and fields (with `A` empty), for `Int`, for `Frac` (where `A` allows the aborts of `Frac` arithmetic), for
machine integers of any width (`A` allows overflow), and separately for `double` with error bounds.

### Machine arithmetic

`int32_t` and `int64_t` operations are checked: leaving the range is `Err.ub`; narrowing conversions wrap. `size_t` is a natural number: sizes are
assumed to be below `2^64` (but see C135), and the one subtraction that can go below zero (`rows - 1` of an empty matrix in `first_minor`) is `Err.ub`, because the loops that
follow read outside the buffer.
`double` is IEEE 754 binary64 (`Model/Double.lean`): sign, significand, exponent, infinities, NaN; operations round the exact result to nearest, ties to even.

## 2. What is modelled

* `src/Int.{hpp,cpp}`: everything except the debug output. `Model/IntCost.lean` repeats comparison, sums, products, division and remainder with a count of the bins handled, and counts the calls of `exponentiate`.
* `src/Frac.{hpp,cpp}`: everything, including `from_double` with the printing of the `double` (`Model/FracDouble.lean`). `Model/FracCost.lean` counts the rounds and steps of Euclid's algorithm.
* `src/Vec.hpp`: everything, including `norm` and `unit_vector` for `int` and `double` (`Model/Machine.lean`) and the output of `double` entries (`Model/DoubleText.lean`).
* `src/Mat.hpp`: everything. `Model/Mat.lean` treats a matrix as a value (dimensions and entries, uninitialised entries are `none`). `Model/MatCost.lean` repeats the elimination, the cofactor expansions and the product with a count of steps.
  `Model/MatHeap.lean` models `new[]`, `delete[]`, copy construction, assignment, `swap` and destruction on a heap. `Model/MatMem.lean` shows every allocation of every function and lets it fail.
* `src/Poly.hpp`: everything.
* `src/common.{hpp,cpp}`: everything but `testOutput`.
* `std::istream` on a string: position, `eofbit`, `failbit`, `badbit`, with `peek`, `get`, `unget`, `clear`, `setstate`, `sentry(in, true)` as in C++11/libstdc++.
* `std::ostream` with its formatting state, for characters, strings and `int` (`Model/OStream.lean`).
* `std::deque`, `std::vector`, `std::map`, `std::list` (with `merge`) as far as the code uses them.

Conformance: `Verif/Conformance/*.lean` runs every check of the project's own tests (test/*.hpp, some 5500 operations on `Int`, all
of `Frac`, `Vec`, `Mat` and `Poly`, the last two over the modelled `double`) on the model while the project is compiled (`#guard`; nothing is
added to the environment and no theorem rests on it), and likewise the programs in demo/, whose output is recorded in comments: the text
printed by the model is compared with the recorded one, for `double` entries in the default format of `Model/DoubleText.lean`. All agree, down to the `-0`
in the row reduced matrix of demo/mat_demo.cpp. Two of the project's tests turn out to have undefined behaviour:
`PolyOutput` (test/poly_test.hpp:69-78, C76) and the vector `z` in `vecAddition` (test/vec_test.hpp:108 reads a sixth entry of an array of five).

## 3. What is not modelled, and what is assumed

* Containers of `2^31` or more elements (the code stores sizes in `int32_t` and `int`), allocation failure outside the matrices themselves (C134-C136) and the arithmetic of `Int` and `Frac` (C138-C142) and reading an `Int` or a `Frac` (C143, C144, C146, C147), inputs of `2^31` or more digits.
* Formatting flags of input streams; flags of `double` output other than the precision and `fixed`; locales; stream buffers other than a string, write errors except in `Model/OStreamFail.lean` (C145). Output streams carry their formatting state only in `Model/OStream.lean` (C115-C118); the other models of output give the text for a stream in its initial state, which C118 connects.
* `double`: rounding to nearest, no extended precision (x87) and no fused multiply-add; `sqrt` correctly rounded as IEEE 754 demands;
  `operator<<` with `fixed` prints the correctly rounded decimal (glibc does). The default format of `double` entries (`%g`) is modelled in `Model/DoubleText.lean`, also correctly rounded (C133); the sign of a NaN is left out.
* Debug output (`DEBUG_*` constants are false), `testOutput`, `test/` and `demo/` (but see Conformance above), `unittest-cpp`, `util/*.py`.
* The NDEBUG build, except for what C109, C110 and C128-C132 say; there are no assertions outside src/Int.cpp, and all other theorems about `Frac`, `Vec` and `Mat` are about the `Int` that has them.
* `list::merge` on unsorted lists is undefined in the standard; the model calls it `ub` and, separately, says what a stable merge does.

## 4. Defects of the code found

Each is a theorem (`Cxx_refuted…`) with a concrete witness; the `_partial` theorem beside it says for which inputs the code is right.

* C04, C89: `x *= y` with a zero product leaves a negative zero or leading zero bins; `is_negative()` is then true for zero, and printing and later divisions go wrong.
* C06, C18, C40, C43, C46, C88: `Int` division aborts for some operands (`10^18 / 3`), and so do `times_power_ten`, reading back a printed `Frac`, `from_double`, `reciprocal`.
* C08, C37: `^` is wrong or aborts for exponents that lead to `10^(9k)` or to `2^30` by halving; `GoodExp` describes exactly the exponents for which it is right. C09: `2 ^ -1` is 8. C38: `Frac ^=` ignores the sign of the exponent.
* C17: `set_value` and `equals_int32` are wrong from `10^9` on. C79, C86: therefore powers `10^(9k)` are not printed.
* C30, C34, C42, C103: `Frac /= 0`, `Vec<Frac> / 0` and reading `INT/0` give a zero denominator; failed reads leave the object half changed.
* C90: a shifted copy of zero is not canonical. C91: `>>` does not skip white space.
* C58, C70: `x *= x[i]`, `m /= m(i,j)` use the entry after it has changed. C71: minors of empty matrices read outside the array.
* C84: `determinant()` of integer matrices truncates. C94: `unit_vector()` of a `Vec<int>`. C97, C98: `norm()` overflows and underflows.
* C75, C76, C77, C78: the order on `Term` is not an order; `appendTerm` dereferences `end()`; `merge` gets unsorted lists. C85: zero powers are kept.
* C110: without assertions, a caught `out_of_range` from `/=`, `+=`, `-=` leaves a different number in the variable. C129: a caught `out_of_range` from a compound operator of `Frac` leaves an unreduced fraction (which `==` calls different from the same number), a wrong number, zero, or a zero denominator.
* C120, C121: over `double`, `inverse()` and `determinant()` compare rounded entries with zero, so that singular matrices are inverted, regular ones refused, and `determinant()` is nonzero for singular and zero for regular matrices.
* C115, C116, C117: `Int` output is wrong under `left`, `hex`, `oct`, `showpos` and `setw`, and leaves the fill character `0` behind.
* C134: a constructor of `Mat` leaks its block when copying an entry throws. C135: `Mat(rows, cols, x)` and `identityMatrix` with a product of 2^64 or more write outside their block.
* C139, C140: a compound assignment to an `Int` that throws `bad_alloc` may leave the wrong sign, a lost carry, a mixture of old and new bins, or (`/=`) no bins at all.
* C142: a compound assignment to a `Frac` that throws `bad_alloc` may leave the new numerator over the old denominator, a zero denominator, or a numerator without bins.
* C143: if there is no memory for the first digit, `in >> x` and `Int(string)` take a number for zero without any sign of failure. In other cases of lacking memory a valid number makes `read` throw `invalid_argument`.
* C146: for the same reason `in >> x` may read a fraction as `1/0` or as 0, and `Frac(string)` may be 0.
* C147: `Frac::from_double` does not check the stream it prints into; when memory runs out, decimals are cut off silently, or the behaviour is undefined.
* C144: a read that throws may leave an `Int` without bins, or with the topmost digits of the number only.
* C124, C125: multiplication and division take a factor of the length longer than by the schoolbook methods they follow.
* C81: the tolerance comparison rounds the difference first, and treats NaN as equal to everything.

## 5. Properties: what is modelled and how it is proved

