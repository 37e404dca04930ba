notes = {
"C01": "Both forms, all canonical operands; absence of overflow is part of 'returns' since overflow is a distinct failure in the model.",
"C04": "The claim is false in the code for zero products (negative zero, leading zero bins): C04_refuted*. The _partial theorem proves equality of value always and identity for nonzero products.",
"C05": "Holds for all well-formed operands.",
"C06": "False in the code: some divisions abort (C06_refuted: 10^18/3). The _partial theorem characterises exactly the pairs on which division returns.",
"C08": "False in the code for exponents that lead to a power of 10^9 or to 2^30 by halving (C08_refuted*). Exact for all other exponents, in particular all below 10^9; C08_other_exponents_partial shows that the power is right exactly for these, and that otherwise the program aborts or uses a smaller exponent.",
"C09": "False in the code: 2^-1 is 8 (C09_refuted). The _partial theorem says what is computed for every negative exponent.",
"C17": "False in the code for magnitudes of 10^9 and more (C17_refuted*); proved below.",
"C18": "False in the code: may abort for negative powers (C18_refuted); proved whenever it returns, with the exact condition for returning.",
"C19": "All well-formed objects, including ones with leading zero bins and negative zero.",
"C22": "Programs with branches, loops and aliasing; a second theorem determines aborts exactly.",
"C30": "False in the code for compound division by zero and for reading INT/0 (C30_refuted). The _partial theorem covers every other way to obtain an object, including powers with arbitrary exponents and reading from arbitrary streams.",
"C32": "'Returns' is determined exactly: an abort happens exactly if reducing the unreduced result aborts.",
"C34": "False in the code for every zero divisor (C34_refuted_always); proved for nonzero divisors.",
"C37": "False in the code for the exponents for which Int powers are wrong (C37_refuted); exact for the others, in particular all below 10^9. C37_other_exponents_partial says what ^ and ^= do for the exponents for which it is wrong.",
"C38": "False in the code for negative exponents (C38_refuted): the sign of the exponent is ignored. The _partial theorem says what is computed.",
"C40": "False in the code: reading back may abort (C40_refuted). The _partial theorem determines when; otherwise the identical object comes back.",
"C42": "False in the code (C42_refuted: zero denominators and two ways of failing). The _partial theorems and C42_zero_denominator, C42_fail_* say what happens in every case.",
"C43": "From the printed text on; C88 covers the printing. False in the code because of aborts (C43_refuted) and precision 0; the _partial theorem is exact otherwise.",
"C46": "False in the code because of aborts (C46_refuted); proved otherwise.",
"C47": "Programs with branches, loops, aliasing and exceptions; aborts are determined exactly.",
"C50": "Any scalar type whose operations compute in a commutative ring; instances proved: exact rings and fields, Int, Frac. Includes x += x and x -= x.",
"C51": "Division for a nonzero scalar; over an exact field division by zero throws unless the vector is empty. With Frac entries it does not throw, which is defect C34.",
"C58": "False in the code (C58_refuted); the _partial theorems say what is computed and that it is right if the entry is the last one.",
"C59": "The conversion from the array's element type is a parameter.",
"C61": "Any scalar type whose operations compute in a commutative ring (instances: exact rings and fields, Int, Frac where the code compiles). Includes m += m and m -= m.",
"C64": "The code's cofactor() returns the signed minor matrix, not its determinant; the property is about that.",
"C65": "Any commutative ring; C65_int is the instance for matrices of Ints, where the result is the exact integer determinant in canonical form.",
"C66": "Any exact field, also the empty matrix.",
"C67": "Any exact field. C67_unique: the result is the unique reduced row echelon form.",
"C68": "Any exact field.",
"C70": "False in the code (C70_refuted); the _partial theorems say what is computed and that it is right if the entry is the last one.",
"C71": "False in the code for minors of empty matrices (C71_refuted_empty_minor); proved for every other operation, any dimensions.",
"C84": "False in the code because of truncated quotients (C84_refuted_truncation), which a TODO in the source admits; proved for one and two rows, and for matrices of any size whose elimination needs no fractions and no row exchanges.",
"C73": "All terms, any number of variables. The value is compared at points without zeros, since powers may be negative. Multiplying coefficients may abort exactly when Frac multiplication does.",
"C75": "False in the code (C75_refuted): neither asymmetric nor transitive. C75_order_partial and C75_single_variable_partial say what holds.",
"C76": "False in the code: appending past the end dereferences end() (C76_refuted_at_end, C76_refuted_vector_constructors). The _partial theorems cover every call that does not.",
"C77": "False in the code: the lists handed to list::merge need not be sorted (C77_refuted_unsorted). The _partial theorem covers the defined case.",
"C78": "False in the code whenever the second operand belongs after the first (C78_refuted_ascending); the _partial theorems cover the other operands exactly.",
"C79": "False in the code for powers 10^(9k) (C79_refuted_power); proved for all others.",
"C85": "False in the code because zero powers are kept (C85_refuted_zero_power); proved for terms without them.",
"C86": "False in the code for powers 10^(9k) (C86_refuted_power); proved for all others.",
"C81": "Over a model of IEEE binary64. False as stated because the difference is rounded before the comparison, and for NaN and infinities (C81_refuted). The _partial theorems give the exact thresholds for all finite doubles.",
"C87": "Over a model of IEEE binary64.",
"C88": "Over a model of IEEE binary64 and of printing with correct rounding. False in the code because of aborts (C88_refuted) and for precision 0; exact otherwise.",
"C89": "False in the code for zeros left by *= (C89_refuted); is_odd() is right for every well-formed object.",
"C90": "False in the code for zero (C90_refuted): the copy has leading zero bins and later operations abort.",
"C91": "False in the code (C91_refuted, for all texts): >> does not skip white space. With std::ws before every number it holds for all sequences.",
"C92": "Matrix products and determinants: exactness under the stated bounds; dot products: whatever is returned is exact. For every limit of the type.",
"C93": "sqrt is modelled as correctly rounded (IEEE 754).",
"C94": "False in the code (C94_refuted): (3, 4) becomes (0, 0), and the zero vector divides by zero.",
"C95": "",
"C96": "IEEE 754 binary64 with rounding to nearest, no extended precision and no fused multiply-add.",
"C97": "False in the code for vectors whose squares overflow or underflow (C97_refuted).",
"C98": "False in the code for the zero vector and for vectors whose squares overflow or underflow (C98_refuted).",
"C99": "",
"C100": "Entries are computed by the loops of the value model and then stored; local objects of a function are destroyed on return or throw. What an interrupted in-place loop leaves in the block is arbitrary. Allocation failure is not modelled.",
"C101": "A scalar type is any operator table closed under its operations; failures of scalar operations are passed on.",
"C102": "For the members that compile for Frac (see Scalar.frac).",
"C103": "False in the code except for Mat / scalar (C103_refuted): the others use Frac /=, which does not check for zero.",
"C104": "Sizes, indices and loop counts of a computation are fixed natural numbers, not results of scalar operations; literals are 0, 1 and -1; shapes are limited only by memory.",
"C105": "IEEE 754 binary64 with rounding to nearest.",
"C106": "The condition is that elimination over whole numbers (Scalar.whole), which gives up at a fraction, succeeds.",
"C107": "Members that do not compile for Frac are no programs; division by zero is excluded; an abort remains possible (C06).",
"C108": "The counted functions are proved to give the results of the uncounted ones. An operation on T counts as one step.",
"C109": "Valid objects: bins between 0 and 10^9 - 1, at least one. Programs in which out_of_range is not caught.",
"C110": "Refuted for /=, += and -=: a throwing /= leaves only the low digits, a throwing += or -= leaves |x| - |y| or |x|. Proved: exactly what is left, the operations that leave the object alone, and that every object stays valid.",
"C111": "For scalar types with exact field operations; for Frac, unless Int aborts (C06).",
"C112": "For scalar types with exact field operations; for Frac, unless Int aborts (C06).",
"C113": "Finite operands; the sign of a zero is left open.",
"C114": "Nothing is claimed about entries that are infinite or NaN, except when they are finite.",
"C115": "False under left, hex, oct and showpos. Exact conditions for left, hex and showpos; for oct that numbers below 10^9 are right. What is written in any state is said exactly by C116_every_state_partial.",
"C116": "False for negative numbers and numbers of more than nine digits. C116_every_state_partial gives the exact text for all numbers and all formatting states.",
"C117": "False from 10^9 on: the fill character stays 0 (and on a failed stream the width 9). The exact state after printing is given for every state before.",
"C118": "Powers 10^9, 10^18, ... in factors are excluded, see C79.",
"C119": "Nothing is said about how near the result is to the exact reduced row echelon form: it may be of another rank, as the example beside the theorem shows.",
"C120": "False both ways: the inverse of [[49, 1], [49, 1]] is returned, that of [[3, 1], [1, fl(1/3)]] refused. Proved: entries that are not finite are refused; matrices with one entry in every row and column are inverted with correctly rounded entries; matrices of any size whose diagonal dominates the columns or the rows are inverted, with an error bound. Missing: error bounds for other regular matrices.",
"C121": "False both ways for three rows, by witnesses. Proved: it never fails; one and two rows, triangular matrices, and matrices of any size whose diagonal dominates the columns or the rows (relative error bound, never zero in the determinant). Missing: error bounds for other matrices of three and more rows, which cannot be relative to the determinant.",
"C122": "",
"C123": "",
"C124": "False: the loop over the bins of one factor adds up numbers of full length, so the time is cubic. Proved: at most 69 m n^2 steps, and at least 5/2 m n^2 for factors without zero bins.",
"C125": "False: every bin of the quotient costs up to 90 multiplications, each quadratic in the divisor. Proved: at most 17510 n k^2 steps (18000 n k^2 + 3 n^2 k for %), and at least 5/2 k^2 for every nonzero bin of the quotient.",
"C126": "Negative exponents are not covered.",
"C127": "",
"C128": "Powers for the exponents for which the power of an Int is right (GoodExp).",
"C129": "Refuted: the variable is left unreduced, with a part cut off, zero, or with a zero denominator. Proved: exactly what is left, that it stands for the result if neither unreduced part divides the other, and that no other variable changes.",
"C130": "== can call equal fractions different (C129_refuted).",
"C131": "Programs in which out_of_range is not caught; as in C47 no claim after an in-place division by zero or an in-place power with negative exponent.",
"C132": "",
"C133": "The text of the standard library (%g) is modelled, correctly rounded as glibc does; the sign of a NaN is left out.",
"C134": "False for entries that need memory themselves, such as Int: the constructors leak their block when copying an entry throws. Proved: everything else for all entries, and the absence of leaks for entries that need no memory.",
"C135": "False: rows * cols wraps around 2^64, and the constructor writes outside its block. Proved: products below 2^64, and what happens from there on.",
"C136": "Memory is counted in entries.",
"C138": "The requests are those of the deque of an Int; one question per constructor or loop of insertions into an object that is destroyed when the exception leaves. Input and output are not treated.",
"C139": "False: x += 7 may turn -5 into 5, x += 1 may turn 999999999 into 0, *= may leave a number that is neither the old value nor the result. What may be left is said exactly for every compound assignment; unchanged for sums that need no further bin and differences with positive result.",
"C140": "False for /= with quotient zero and for times_power_ten with a negative power, which may leave an object without bins. Proved for everything else, if a failed assignment between deques leaves at least one element.",
"C141": "Conventions as for C138. When the order in which the operands of one expression are computed is unspecified, one order is taken; it only decides which request is refused first.",
"C142": "False: 1/2 += 1/3 may leave 5/2, 1/500000000 *= 1/2 may leave 1/0, 1/2 -= 1/2 may leave a numerator without bins. Proved: both parts are well-formed numbers if the result is not zero, under the same assumption on deques as C140.",
"C143": "False: if the string stream that collects the digits gets no memory, its badbit is set silently, and the number is taken for zero; Int(\"123\") is then zero. (Whether the first digit needs memory depends on the library.) Proved: this wrong zero is the only way to go wrong silently, and excluded if there is memory for the first digit; otherwise the result is right or, if one of its own requests is refused, bad_alloc or invalid_argument is thrown, although a comment in the source says that read does not throw.",
"C144": "False: the variable may be left without bins or with the topmost digits only. Proved: those are the only possibilities.",
"C146": "False: by C143 either part may silently be taken for zero. in >> x can so read 5/7 as 1/0, a fraction with denominator zero, without any sign of failure, and Frac(\"5/7\") can be zero. Proved: the wrong results are 0, 1/0 and -1/0 only (0 only for the constructor), the stream is left as with unlimited memory, and otherwise the result is right or one of four failures is reported.",
"C147": "False: from_double prints into a string stream, whose failure it does not check. If memory runs out there, the number is cut off: 3.14 becomes 31/10 or 3, and if the decimal point is lost, the behaviour is undefined (erase at an invalid position). Proved: a result is the number cut off after some decimal place, or zero by C143; nothing is lost if no request is refused.",
"C148": "False: f + g has undefined behaviour for f < g (x + x^2), and so has Poly of a vector. Proved: a history that ends without a failure leaves valid objects that stand for what it computes with Laurent polynomials (Mathlib's AddMonoidAlgebra); failures are the assertion of the fractions, or undefined behaviour in a history that puts a term into a polynomial. Missing: the histories with undefined behaviour.",
"C149": "False: x /= y that runs out of memory may leave x without bins, and later statements then throw out_of_range. Proved for all programs without /=. Conventions as for C138; failed assignments of deques are assumed to leave at least one element. A failed assertion is the only other outcome; by C138 it comes with unlimited memory too. Missing: programs with /=.",
"C150": "False: x += y that runs out of memory may have lost the sign of x, and trying again gives a wrong sum. Proved for programs whose statements assign an Int that is not one of their operands, whatever failed assignments leave behind. Missing: compound assignments and statements that assign an operand.",
"C152": "False: t *= f or p.appendTerm(t) that runs out of memory may leave a wrong power or coefficient. Proved: at most the assigned variable changes; appendTerms has no effect when it fails; a failed product with a factor changes at most the power of that variable, to what a failed += of Ints leaves; a failed appendTerm changes at most the coefficient of one term with that monomial. Missing: that power and that coefficient, and what a failed copy assignment leaves, which the standard does not say.",
"C153": "False: trying t *= f again may give a wrong power. Proved for programs whose statements compute new values from other variables than the one they assign, or are appendTerms, whatever failed assignments leave. Missing: the other statements that change an object in place.",
"C155": "False: trying x += y again may give a wrong number (1/2 += 1/3 may give 17/6). Proved for programs none of whose statements assigns one of its operands, whatever failed assignments leave. Missing: compound assignments and statements like x = x + y.",
"C157": "False: t *= u may leave t with the variables of the product, and t *= u, t.negate(), p.appendTerm(t), p += f and p -= f may leave a coefficient that is not in lowest terms. Proved: nothing else changes, new values are assigned completely or not at all, and programs without these five kinds of statements may catch the exception and go on. Missing: the object changed in place.",
"C145": "For streams that do not throw exceptions (the default) and as far as the buffer reports refusals.",
}
