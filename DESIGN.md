# Formal model of pglass/cpp_maths in Lean 4

The C++ was read as text and never built or run. `lean/` is a Lake project (Lean 4.33.0, Mathlib); `lake build` there checks everything.

* `properties.jsonl`: the claims. `MANIFEST.json`: the theorems for each claim. `AXIOMS.md`: the axioms of each theorem.
* `seeded/LOG.jsonl`: attempts to break the theorems by wrong programs. `tools/`: scripts that write the lists.

## 1. Shape of the model

Every C++ function becomes a total, computable Lean function into `Res α = Except Err α`.
`Err` keeps apart the ways the C++ can fail to return:

| `Err`             | C++ meaning |
|-------------------|-------------|
| `divideByZero`    | `throw divide_by_zero_error()` |
| `invalidArgument` | `throw std::invalid_argument` |
| `domainError`     | `throw std::domain_error` |
| `outOfRange`      | `std::deque::at` out of range (throws `std::out_of_range`) |
| `badAlloc`        | `new` throws `std::bad_alloc` (only in `Model/MatMem.lean` and `Model/IntAlloc.lean`) |
| `assertion`       | a failed `assert` (the CMake build sets no NDEBUG, so `abort()`; `Model/Release.lean` and `Model/FracRelease.lean` are about the build without assertions) |
| `ub`              | undefined behaviour: signed overflow, dereferencing `end()`, reading outside an array, reading an uninitialised entry |
| `diverge`         | a loop or recursion that exhausts its budget; theorems show that it never happens |

A mutating member function becomes a function returning the new value of the object.
References are modelled by value. Where two references may denote the same object (`x += x`, `m *= m(0,0)`, `x = x`) there is a separate version
that reads the object the way the C++ does; `Model/IntMem.lean` and `Model/FracMem.lean` run the compound operators on a store of
variables, so that aliasing is visible.

* `Verif/Model/*.lean`: the model, one definition per C++ function, each citing file and lines.
* `Verif/Spec/*.lean`: the specification, independent of the algorithms: the value of an `Int`, well-formed and canonical objects, the rational value
  of a `Frac`, decimal numerals, programs over mathematical integers and rationals, reduced row echelon form, values of monomials, the number a
  `double` denotes.
* `Verif/Proofs/*.lean`: lemmas.
* `Verif/Props/*.lean`: the property theorems, each followed by an `example` that meets its hypotheses.

A property that the code violates keeps its statement in `properties.jsonl`. Its negation is proved on a concrete witness (`Cxx_refuted…`), and
the part that holds is proved as `Cxx_…_partial`, whose comment says what is missing.

### Templates

`Vec<T>` and `Mat<T>` are modelled for an arbitrary type `T` with a table of operators (`Scalar T`), each of which may fail. The theorems assume what they need
about the table: `S.ExactRing rel A` says that constants, `+`, `-`, `*`, `+=`, `-=` and the comparisons compute, for values related by `rel`, in a
commutative ring, or fail with an error allowed by `A`; `ExactField` adds division. `Out A r P` says "`r` returns something satisfying `P` or fails with an error in `A`".
Instances are proved for all exact rings and fields (with `A` empty), for `Int`, for `Frac` (where `A` allows the aborts of `Frac` arithmetic), for
machine integers of any width (`A` allows overflow), and separately for `double` with error bounds.

### Machine arithmetic

`int32_t` and `int64_t` operations are checked: leaving the range is `Err.ub`; narrowing conversions wrap. `size_t` is a natural number: sizes are
assumed to be below `2^64` (but see C135), and the one subtraction that can go below zero (`rows - 1` of an empty matrix in `first_minor`) is `Err.ub`, because the loops that
follow read outside the buffer.
`double` is IEEE 754 binary64 (`Model/Double.lean`): sign, significand, exponent, infinities, NaN; operations round the exact result to nearest, ties to even.

## 2. What is modelled

* `src/Int.{hpp,cpp}`: everything except the debug output. `Model/IntCost.lean` repeats comparison, sums, products, division and remainder with a count of the bins handled, and counts the calls of `exponentiate`.
* `src/Frac.{hpp,cpp}`: everything, including `from_double` with the printing of the `double` (`Model/FracDouble.lean`). `Model/FracCost.lean` counts the rounds and steps of Euclid's algorithm.
* `src/Vec.hpp`: everything, including `norm` and `unit_vector` for `int` and `double` (`Model/Machine.lean`) and the output of `double` entries (`Model/DoubleText.lean`).
* `src/Mat.hpp`: everything. `Model/Mat.lean` treats a matrix as a value (dimensions and entries, uninitialised entries are `none`). `Model/MatCost.lean` repeats the elimination, the cofactor expansions and the product with a count of steps.
  `Model/MatHeap.lean` models `new[]`, `delete[]`, copy construction, assignment, `swap` and destruction on a heap. `Model/MatMem.lean` shows every allocation of every function and lets it fail.
* `src/Poly.hpp`: everything.
* `src/common.{hpp,cpp}`: everything but `testOutput`.
* `std::istream` on a string: position, `eofbit`, `failbit`, `badbit`, with `peek`, `get`, `unget`, `clear`, `setstate`, `sentry(in, true)` as in C++11/libstdc++.
* `std::ostream` with its formatting state, for characters, strings and `int` (`Model/OStream.lean`).
* `std::deque`, `std::vector`, `std::map`, `std::list` (with `merge`) as far as the code uses them.

Conformance: `Verif/Conformance/*.lean` runs every check of the project's own tests (test/*.hpp, some 5500 operations on `Int`, all
of `Frac`, `Vec`, `Mat` and `Poly`, the last two over the modelled `double`) on the model while the project is compiled (`#guard`; nothing is
added to the environment and no theorem rests on it), and likewise the programs in demo/, whose output is recorded in comments: the text
printed by the model is compared with the recorded one, for `double` entries in the default format of `Model/DoubleText.lean`. All agree, down to the `-0`
in the row reduced matrix of demo/mat_demo.cpp. Two of the project's tests turn out to have undefined behaviour:
`PolyOutput` (test/poly_test.hpp:69-78, C76) and the vector `z` in `vecAddition` (test/vec_test.hpp:108 reads a sixth entry of an array of five).

## 3. What is not modelled, and what is assumed

* Containers of `2^31` or more elements (the code stores sizes in `int32_t` and `int`), allocation failure outside the matrices themselves (C134-C136) and the arithmetic of `Int` and `Frac` (C138-C142) and reading an `Int` or a `Frac` (C143, C144, C146, C147), inputs of `2^31` or more digits.
* Formatting flags of input streams; flags of `double` output other than the precision and `fixed`; locales; stream buffers other than a string, write errors except in `Model/OStreamFail.lean` (C145). Output streams carry their formatting state only in `Model/OStream.lean` (C115-C118); the other models of output give the text for a stream in its initial state, which C118 connects.
* `double`: rounding to nearest, no extended precision (x87) and no fused multiply-add; `sqrt` correctly rounded as IEEE 754 demands;
  `operator<<` with `fixed` prints the correctly rounded decimal (glibc does). The default format of `double` entries (`%g`) is modelled in `Model/DoubleText.lean`, also correctly rounded (C133); the sign of a NaN is left out.
* Debug output (`DEBUG_*` constants are false), `testOutput`, `test/` and `demo/` (but see Conformance above), `unittest-cpp`, `util/*.py`.
* The NDEBUG build, except for what C109, C110 and C128-C132 say; there are no assertions outside src/Int.cpp, and all other theorems about `Frac`, `Vec` and `Mat` are about the `Int` that has them.
* `list::merge` on unsorted lists is undefined in the standard; the model calls it `ub` and, separately, says what a stable merge does.

## 4. Defects of the code found

Each is a theorem (`Cxx_refuted…`) with a concrete witness; the `_partial` theorem beside it says for which inputs the code is right.

* C04, C89: `x *= y` with a zero product leaves a negative zero or leading zero bins; `is_negative()` is then true for zero, and printing and later divisions go wrong.
* C06, C18, C40, C43, C46, C88: `Int` division aborts for some operands (`10^18 / 3`), and so do `times_power_ten`, reading back a printed `Frac`, `from_double`, `reciprocal`.
* C08, C37: `^` is wrong or aborts for exponents that lead to `10^(9k)` or to `2^30` by halving; `GoodExp` describes exactly the exponents for which it is right. C09: `2 ^ -1` is 8. C38: `Frac ^=` ignores the sign of the exponent.
* C17: `set_value` and `equals_int32` are wrong from `10^9` on. C79, C86: therefore powers `10^(9k)` are not printed.
* C30, C34, C42, C103: `Frac /= 0`, `Vec<Frac> / 0` and reading `INT/0` give a zero denominator; failed reads leave the object half changed.
* C90: a shifted copy of zero is not canonical. C91: `>>` does not skip white space.
* C58, C70: `x *= x[i]`, `m /= m(i,j)` use the entry after it has changed. C71: minors of empty matrices read outside the array.
* C84: `determinant()` of integer matrices truncates. C94: `unit_vector()` of a `Vec<int>`. C97, C98: `norm()` overflows and underflows.
* C75, C76, C77, C78: the order on `Term` is not an order; `appendTerm` dereferences `end()`; `merge` gets unsorted lists. C85: zero powers are kept.
* C110: without assertions, a caught `out_of_range` from `/=`, `+=`, `-=` leaves a different number in the variable. C129: a caught `out_of_range` from a compound operator of `Frac` leaves an unreduced fraction (which `==` calls different from the same number), a wrong number, zero, or a zero denominator.
* C120, C121: over `double`, `inverse()` and `determinant()` compare rounded entries with zero, so that singular matrices are inverted, regular ones refused, and `determinant()` is nonzero for singular and zero for regular matrices.
* C115, C116, C117: `Int` output is wrong under `left`, `hex`, `oct`, `showpos` and `setw`, and leaves the fill character `0` behind.
* C134: a constructor of `Mat` leaks its block when copying an entry throws. C135: `Mat(rows, cols, x)` and `identityMatrix` with a product of 2^64 or more write outside their block.
* C139, C140: a compound assignment to an `Int` that throws `bad_alloc` may leave the wrong sign, a lost carry, a mixture of old and new bins, or (`/=`) no bins at all.
* C142: a compound assignment to a `Frac` that throws `bad_alloc` may leave the new numerator over the old denominator, a zero denominator, or a numerator without bins.
* C143: if there is no memory for the first digit, `in >> x` and `Int(string)` take a number for zero without any sign of failure. In other cases of lacking memory a valid number makes `read` throw `invalid_argument`.
* C146: for the same reason `in >> x` may read a fraction as `1/0` or as 0, and `Frac(string)` may be 0.
* C147: `Frac::from_double` does not check the stream it prints into; when memory runs out, decimals are cut off silently, or the behaviour is undefined.
* C144: a read that throws may leave an `Int` without bins, or with the topmost digits of the number only.
* C124, C125: multiplication and division take a factor of the length longer than by the schoolbook methods they follow.
* C81: the tolerance comparison rounds the difference first, and treats NaN as equal to everything.

## 5. Properties: what is modelled and how it is proved

| Properties | What is modelled | How it is proved |
|---|---|---|
| C01, C02 | value and canonical form of the bin-wise loops | invariants by induction on the bins; the operators by cases on the signs |
| C03 | schoolbook multiplication with 64-bit intermediates | invariant of the inner loop (product plus carry), induction over the outer loop |
| C04 | `*=` with its unconditional sign | as C03; witnesses for zero products |
| C05, C06 | long division by digit search, with the asserts and `deque` accesses | invariant of the long division; the aborting inputs are characterised exactly |
| C07, C26 | `%` and its sign cases | from C05 by cases |
| C08, C09 | recursive squaring with the `equals_int32` tests | induction on the exponent with the number of halvings since it last had no leading zero bin; exact set of right exponents; witnesses for the others |
| C10 | `cmp`, `cmp_bins` also for leading zero bins and negative zero | lexicographic comparison from the top, induction |
| C11 | `negate`, unary minus, `abs` | cases |
| C12, C14 | printing with padding | decimal numerals of `Nat.toDigits`, induction on the bins |
| C13, C15, C91 | reading digits from a stream, as a state machine | invariant of the reading loop; every stream state |
| C16, C17, C90 | constructors, `set_value`, `equals_int32` | induction on the number of bins |
| C18 | `times_power_ten` | from multiplication and `divide_by_int` |
| C19 | every operation on every well-formed object | each function returns or fails with an allowed error |
| C20, C21 | compound operators on a store with aliasing | simulation of the value version |
| C22 | programs with branches, loops, exceptions, aliasing | refinement, induction over executions |
| C23 | laws through `==` | from C01, C03, C10 |
| C24 | digit search of the division | invariant of the doubling and halving loop |
| C25 | division by a small number | induction on the bins |
| C30, C31 | constructor, `normalize`, everything that can build a `Frac` | inductive predicate for objects that can be built; invariant preserved by each rule |
| C32, C33, C39 | operators through the constructor | field arithmetic in ℚ, uniqueness of lowest terms; aborts determined exactly |
| C34, C38, C46 | compound division, compound power, reciprocal | as C33; witnesses |
| C35 | comparisons by cross products | order of ℚ |
| C36 | Euclid's algorithm | induction on the second argument; `Nat.gcd` |
| C37 | powers | from C08 |
| C40, C41, C42 | printing, string constructor, extraction | stream state machine; all outcomes listed |
| C43, C88 | `from_double`: printing of a `double`, removal of the point, `times_power_ten` | rounding of the decimal expansion; then C31 |
| C44, C47 | compound operators on a store; programs | simulation; induction over executions |
| C45 | operands of moderate size never abort | bounds from C06 |
| C50, C51, C52, C53, C54, C55, C56, C57, C59 | `Vec` over an abstract scalar type | loop invariants; ring identities |
| C58, C70 | scaling by a reference into the object itself | invariant that distinguishes entries before and after the changed one |
| C61, C62, C63, C64, C69, C72 | `Mat` over an abstract scalar type | loop invariants for double and triple loops; Mathlib's `Matrix` |
| C65 | recursive cofactor expansions with the shortcut for zero entries | induction on the size, `Matrix.det_succ_row_zero` |
| C66 | elimination with pivot search | invariant: the determinant up to the accumulated factor; echelon form |
| C67 | Gauss-Jordan | invariant: row equivalence and reduced form up to the current row; uniqueness of the reduced form |
| C68 | inverse through the augmented matrix | from C67 |
| C71 | every access of every operation is inside the array and to an initialised entry | absence of `ub` in all theorems above |
| C73, C74, C75, C85 | `Factor`, `Term` with its `map` | sorted association lists; values of monomials in a field |
| C76, C77, C78 | `Poly` with its `list` | the UB of dereferencing `end()` is explicit; sums of values |
| C79, C83, C86 | output | strings built from the numerals of C12 |
| C81, C87 | tolerance comparison, `isFinite` on `double`s | exact rounding of the difference |
| C84 | `determinant()` with truncating division | witness; small sizes; elimination of a product L U with integral partial products stays in the integers |
| C89 | `is_odd`, `is_negative` | parity of the lowest bin |
| C92 | machine integers as scalars | instance of the abstract theorems, bounds on partial sums |
| C93, C94, C95 | `norm`, `unit_vector` of `Vec<int>` | correctly rounded square root; floor of the root; relative error bounds over ℝ |
| C96, C97, C98 | `double` vectors | induction with the standard error model, including underflow |
| C99 | matrix product over any scalar table | the triple loop performs the operations of `dot` in the same order |
| C100 | heap of blocks, matrix objects with pointers, programs of constructions, assignments, swaps, destructions | invariant: live objects own distinct blocks and every block is owned; simulation of value semantics |
| C101 | `Mat` and `Vec` over any operator table | every loop keeps the array full of admissible entries; only the scalar operations fail |
| C102, C103 | `Vec` and `Mat` with the operators of `Frac` | instance of the abstract theorems; for the dot product, bounds on the denominators of partial sums |
| C104, C105, C106, C107 | programs over `Vec` and `Mat` (`Calc`) run over two scalar types | simulation: related operands give related results for every operation, by induction on the program; then instances for pairs of types; whole numbers embed in ℚ where C66-C68 apply |
| C108 | the matrix functions with a count of steps (`Model/MatCost.lean`) | erasing the count gives the uncounted functions; bounds compose along `>>=` and loops; the recursion of the cofactor expansion is solved against n! |
| C109, C110 | the functions of `Int` that contain or reach an `assert`, without it, with the object that a throwing function leaves behind (`Model/Release.lean`); programs over a store | comparison call by call with the functions of `Model/Int.lean`; loop invariants for the subtraction that runs out of bins and the division that loses a bin; induction on programs |
| C111, C112 | `rref`, `augmentedMatrix`, `inverse` and `*` together | the nonzero rows of a reduced row echelon form are independent; row equivalence keeps the rank and the solutions; the left part of a reduced row echelon form is one |
| C113, C114 | `Vec` and `Mat` over the model of `double` | rounding gives the nearest number with ties to even (compared with every `double`); loop rules carry it to all entries; error bounds by induction along the loop, and C96 through C99 for the product |
| C115, C116, C117, C118 | output streams with width, fill character, base, adjustment, flags (`Model/OStream.lean`), and all `operator<<` of the library on them | the number is split into its highest group of digits and the rest, the loop over the rest by induction; lengths and counts of characters for the converse; a relation "this text was appended, only the fill character changed" carried through the loops of the containers |
| C119, C120, C121, C122, C137 | `rref`, `inverse`, `determinant` and the cofactor expansions over the model of `double` | the invariant of the row reduction (first columns reduced, exactly) survives rounding, because `x / x = 1`, `x - x = 0`, `0 / x = 0` and `x - 0 = x` are exact for finite `x`, and an entry that is not finite infects its column for good; a matrix with one entry per row and column stays one during the elimination; error bounds carried through the recursion of the expansions, with permanents for the sums of absolute values; for dominant matrices, elimination keeps the margin of the diagonal over the rest of the column and does not increase the sums, also with rounding errors, and a perturbation of a column that is small against the margin changes the determinant by a factor close to one (Cramer's rule and a maximum argument for the row of the adjugate); the Gauss-Jordan elimination of `inverse()` does not increase the column sums if the rows above the pivot are weighted with half of the margins of the original columns, and dually keeps the margins of the rows, so that the residual of the exact inverse, which is zero at first and the error of the result in the end, grows only by the roundings of each round, and the same with other right-hand sides than the identity matrix (C137); C120 and C121 are refuted by witnesses |
| C123, C124, C125 | the operations of `Int` with a count of bins read, written and copied (`Model/IntCost.lean`) | erasing the count gives the uncounted functions; bounds for steps and lengths of results compose along `>>=`; the search for a quotient bin halves its step, three tries per size; lower bounds from the additions that really happen, with explicit families of numbers |
| C126 | the recursion of `exponentiate` with a count of calls | induction along the recursion together with the invariant of C08 |
| C127 | Euclid's algorithm with a count of remainders and of steps (`Model/FracCost.lean`) | Lamé's theorem by induction over the loop |
| C128, C129, C130, C131 | `Frac` on top of the `Int` without assertions, with the object that a throwing function leaves behind (`Model/FracRelease.lean`); programs over a store, catching `out_of_range` or not | comparison call by call with the functions of `Model/Frac.lean`; Euclid's algorithm with divisions that may throw; induction on programs |
| C132 | `Vec` and `Mat` with the scalar tables `intR`, `fracR` | the generic theorems of C65, C84, C101, C107 for these tables; simulation of one table by the other |
| C133 | `Model/DoubleText.lean`: what `<<` writes for a `double` in the default format (`%g`) | the digits as a rounded quotient (`halfEven`), the layout as a decimal text whose value is computed part by part; distance of neighbouring `double`s for 17 digits |
| C134, C135, C136 | `Model/MatMem.lean`: all functions of `Mat` with every `new[]`, `delete[]` and copy of a returned object, on a heap whose requests may be refused by any oracle (`Luck`), with unwinding | for every function one triple (`Makes`, `Gives`): result as in `Model/Mat.lean`, or an exception, what the heap looks like after either, and a bound for the memory in use; composed along the unwinding; programs by induction |
| C138, C139, C140 | the operations of `class Int` with every point at which the deque of an object may need memory, `*this` being changed in place and visible after an exception (`Model/IntAlloc.lean`) | a simulation with the model without refusals, function by function and by induction over the loops; a second relation "any exception leaves a state with P" for the states left; concrete witnesses for the refutations |
| C141, C142 | the operations of `class Frac` on top of the `Int` of C138, the object being changed in place part by part (`Model/FracAlloc.lean`) | the same two relations, lifted to operations on one part of a pair; concrete witnesses for the refutations |
| C143, C144 | `Int::read`, `parse_int` and the constructor from a string, with string streams that lose characters silently when they get no memory (`Model/ReadAlloc.lean`) | each loop against its counterpart with unlimited memory, by induction over the text; what has been read so far is the top part of the number; concrete witnesses for the refutations |
| C145 | the output functions of C118 on a stream whose device may refuse any character (`Model/OStreamFail.lean`) | one relation between a stream with a failing and one with a perfect device, kept by every insertion and so by all loops; the texts are those of C118 |
| C146, C147 | `Frac::read`, the constructor of `Frac` from a string and `Frac::from_double` on top of C141 and C143 (`Model/FracReadAlloc.lean`) | the two parts are right or lost by C143; what `normalize` makes of them by the lemmas on it; for `from_double` the inserted text is a prefix; concrete witnesses for the refutations |
| C148 | statements over numbered variables for the whole public interface of `src/Poly.hpp` (`Model/PolyProg.lean`); the specification runs the same statements on monomials and `AddMonoidAlgebra` (`Spec/PolyProg.lean`) | one statement refines its meaning, from the lemmas for C73, C76-C78 restated for Laurent polynomials; histories by induction |
| C149, C150 | programs of assignments and compound assignments over numbered variables; catching each exception and going on, or trying the statement again (`Model/IntAllocProg.lean`) | one statement from C138 and C140; induction over the program and the number of attempts; every failed attempt uses up a refused request of its own, so refusals are counted; concrete witnesses for the refutations |
| C151, C152, C153 | `src/Poly.hpp` on top of the `Int` and `Frac` of C138-C142: every copy, insertion and temporary may be refused; objects changed in place are the state (`Model/PolyAlloc.lean`); what failed copy assignments of strings, maps and lists leave is a parameter | every function simulates the one of C148; what is left after an exception follows the code step by step, down to `+=` of `Int` (C139) and `Frac` (C142); attempts are counted as in C150; concrete witnesses for the refutations |
| C154, C155 | programs of assignments and compound assignments over numbered `Frac` variables, on top of the functions of C141 (`Model/FracAllocProg.lean`); trying statements again as in C153 | one statement from C141 and the lemmas for C31-C33, induction over the program; a failed statement changes only the variable it assigns, attempts are counted as in C150; a concrete witness for the refutation |
| C156, C157 | `src/Poly.hpp` on top of the `Int` and `Frac` without assertions of C109, C110 and C128-C132, with the state an exception leaves of every object changed in place (`Model/PolyRelease.lean`); histories as in C148, or with every `out_of_range` caught | each function gives the outcome of the one with assertions, `out_of_range` for the assertion, from the two descriptions of fraction arithmetic in terms of the unreduced parts; the rest from C148; concrete witnesses for the refutation |

## 6. Trusted base

* The Lean 4.33.0 kernel, and the definitions of Mathlib that occur in the statements (`ℤ`, `ℚ`, `ℝ`, `Matrix.det`, `Matrix.rank`, `Multiset`, `Finset.sum`, `Real.sqrt`).
* The axioms `propext`, `Classical.choice` and `Quot.sound`, and no others. `AXIOMS.md` lists them theorem by theorem (written by `tools/gen_axioms.py` from `#print axioms`).
  There is no `sorry`, no `admit`, no axiom of our own, no `native_decide` and no `bv_decide`. Concrete witnesses are evaluated with `decide +kernel`, which adds no axiom.
* That the model definitions say what the C++ says. This is a reading of the text, definition by definition, with file and lines in every comment; nothing checks it mechanically,
  since the C++ is neither built nor run.
* The statements of sections 1 and 3 about the C++ language, its library and IEEE 754.
