{"id": "C01", "title": "Addition of Ints is exact", "statement": "x + y and x += y return an Int whose value is exactly the integer sum, in canonical form (no leading zero bins, no negative zero), without exception, abort or machine-integer overflow.", "quantifier": "all pairs of canonical Ints of any size and sign", "why_tests_cant": "The operand space is infinite (arbitrarily many 9-digit bins, every carry/borrow pattern); the tests sample a few hundred literals.", "anchors": ["src/Int.cpp:operator+", "src/Int.cpp:Int::operator+=", "src/Int.cpp:Int::add"]}
{"id": "C02", "title": "Subtraction of Ints is exact", "statement": "x - y and x -= y return an Int whose value is exactly the integer difference, in canonical form, and no internal assertion fires.", "quantifier": "all pairs of canonical Ints of any size and sign", "why_tests_cant": "The operand space is infinite (arbitrarily many 9-digit bins, every carry/borrow pattern); the tests sample a few hundred literals.", "anchors": ["src/Int.cpp:operator-", "src/Int.cpp:Int::operator-=", "src/Int.cpp:Int::subtract"]}
{"id": "C03", "title": "Multiplication of Ints is exact", "statement": "x * y returns an Int whose value is exactly the integer product, in canonical form; no 64-bit intermediate overflows.", "quantifier": "all pairs of canonical Ints of any size and sign", "why_tests_cant": "The operand space is infinite (arbitrarily many 9-digit bins, every carry/borrow pattern); the tests sample a few hundred literals.", "anchors": ["src/Int.cpp:operator*", "src/Int.cpp:multiply", "src/Int.cpp:multiply_by_int"]}
{"id": "C04", "title": "Compound multiplication agrees with multiplication", "statement": "After x *= y, x equals x * y in value, is canonical and prints the same as x * y.", "quantifier": "all pairs of canonical Ints", "why_tests_cant": "Only fails when an operand is zero and the other is negative or has several bins; the tests compare with == which hides the difference.", "anchors": ["src/Int.cpp:Int::operator*="]}
{"id": "C05", "title": "Division truncates toward zero", "statement": "Whenever x / y (or x /= y) returns, the result is canonical and equals the quotient truncated toward zero; it throws divide_by_zero_error exactly when y is zero.", "quantifier": "all pairs of canonical Ints", "why_tests_cant": "The operand space is infinite (arbitrarily many 9-digit bins, every carry/borrow pattern); the tests sample a few hundred literals.", "anchors": ["src/Int.cpp:Int::divide", "src/Int.cpp:quotient_and_remainder", "src/Int.cpp:iter_quotient"]}
{"id": "C06", "title": "Division always returns for a nonzero divisor", "statement": "For every nonzero divisor x / y returns a value (no abort, no other exception).", "quantifier": "all pairs of canonical Ints with nonzero divisor", "why_tests_cant": "Whether the call survives depends on a zero bin pattern of the dividend relative to the quotient length, which random operands hit with probability about 1e-9.", "anchors": ["src/Int.cpp:Int::divide", "src/Int.cpp:Int::cleanBins"]}
{"id": "C07", "title": "Modulo is the floored remainder", "statement": "Whenever x % y returns, the result is x - y*floor(x/y): it is zero or has the sign of y and is smaller than y in absolute value; it throws divide_by_zero_error exactly when y is zero.", "quantifier": "all pairs of canonical Ints of all sign combinations", "why_tests_cant": "The operand space is infinite (arbitrarily many 9-digit bins, every carry/borrow pattern); the tests sample a few hundred literals.", "anchors": ["src/Int.cpp:modulo", "src/Int.cpp:operator%"]}
{"id": "C08", "title": "Exponentiation is exact for nonnegative exponents", "statement": "x ^ y and x ^= y equal the y-th power of x for every y >= 0.", "quantifier": "all canonical bases and all nonnegative exponents", "why_tests_cant": "Exponents of 10^9 and above cannot be tested with interesting bases; the property quantifies over all of them.", "anchors": ["src/Int.cpp:exponentiate", "src/Int.cpp:Int::equals_int32", "src/Int.cpp:divide_by_int"]}
{"id": "C09", "title": "Exponentiation by a negative exponent", "statement": "x ^ y for y < 0 gives a well-defined documented result (an exception or the truncated reciprocal power).", "quantifier": "all canonical bases and negative exponents", "why_tests_cant": "No test exercises negative exponents; the outcome must be known for every exponent.", "anchors": ["src/Int.cpp:exponentiate"]}
{"id": "C10", "title": "Comparison operators are the integer order", "statement": "<, >, <=, >=, ==, != and cmp agree with the order of the represented integers, also for Ints with leading zero bins and for negative zero.", "quantifier": "all pairs of well-formed Ints, canonical or not", "why_tests_cant": "The operand space is infinite (arbitrarily many 9-digit bins, every carry/borrow pattern); the tests sample a few hundred literals.", "anchors": ["src/Int.cpp:Int::cmp", "src/Int.cpp:Int::cmp_bins", "src/Int.hpp:Int::operator<"]}
{"id": "C11", "title": "Negation and absolute value", "statement": "-x has the negated value, negating twice gives back x, -x never yields a negative zero, and abs(x) is the absolute value.", "quantifier": "all canonical Ints", "why_tests_cant": "The operand space is infinite (arbitrarily many 9-digit bins, every carry/borrow pattern); the tests sample a few hundred literals.", "anchors": ["src/Int.cpp:operator-(const Int&)", "src/Int.hpp:Int::negate", "src/common.hpp:abs"]}
{"id": "C12", "title": "Printing gives the decimal numeral", "statement": "operator<< writes exactly the usual decimal numeral: a '-' for negative numbers and no leading zeros.", "quantifier": "all canonical Ints; for Ints with leading zero bins too", "why_tests_cant": "The operand space is infinite (arbitrarily many 9-digit bins, every carry/borrow pattern); the tests sample a few hundred literals.", "anchors": ["src/Int.cpp:Int::print"]}
{"id": "C13", "title": "String construction accepts exactly decimal integers", "statement": "Int(s) succeeds exactly on strings of the form -?[0-9]+ and then has the value the numeral denotes (leading zeros allowed, -0 is 0) in canonical form; every other string throws invalid_argument.", "quantifier": "all strings (shorter than 2^31 digits)", "why_tests_cant": "Infinitely many strings; acceptance depends on stream state flags.", "anchors": ["src/Int.cpp:Int::Int(const std::string&)", "src/Int.cpp:Int::read", "src/Int.cpp:parse_int"]}
{"id": "C14", "title": "Print/parse round trip", "statement": "Int(str(x)) is identical to x for every canonical x, where str is what operator<< prints.", "quantifier": "all canonical Ints", "why_tests_cant": "The operand space is infinite (arbitrarily many 9-digit bins, every carry/borrow pattern); the tests sample a few hundred literals.", "anchors": ["src/Int.cpp:Int::print", "src/Int.cpp:Int::read"]}
{"id": "C15", "title": "Stream extraction of an Int", "statement": "in >> x consumes exactly the longest prefix of the form -?[0-9]+ and stores its value; if there is no such prefix it sets failbit, leaves the read position and x unchanged; it never throws.", "quantifier": "all stream contents and all previous values of x", "why_tests_cant": "Depends on the interplay of peek/get/unget with eofbit and failbit on arbitrary content.", "anchors": ["src/Int.cpp:Int::read", "src/Int.cpp:operator>>"]}
{"id": "C16", "title": "Construction from a machine integer", "statement": "Int(k, s) has value k * 10^(9 s) and is canonical for every 64-bit k except INT64_MIN, for which the behaviour is undefined.", "quantifier": "all 64-bit k and all shifts", "why_tests_cant": "2^64 inputs times unbounded shifts.", "anchors": ["src/Int.cpp:Int::Int(int64_t,size_t)"]}
{"id": "C17", "title": "set_value and equals_int32", "statement": "set_value(v) makes the Int equal to v, and equals_int32(v) is true exactly when the Int has value v.", "quantifier": "all canonical Ints and all 32-bit v", "why_tests_cant": "Fails only for multi-bin multiples of 10^9 or |v| >= 10^9, which the tests never use.", "anchors": ["src/Int.cpp:Int::set_value", "src/Int.cpp:Int::equals_int32"]}
{"id": "C18", "title": "times_power_ten scales by a power of ten", "statement": "x.times_power_ten(p) multiplies by 10^p for p >= 0 and divides by 10^-p truncating toward zero for p < 0.", "quantifier": "all canonical Ints and all 32-bit p", "why_tests_cant": "The operand space is infinite (arbitrarily many 9-digit bins, every carry/borrow pattern); the tests sample a few hundred literals.", "anchors": ["src/Int.cpp:Int::times_power_ten"]}
{"id": "C19", "title": "No undefined behaviour in Int arithmetic", "statement": "On well-formed Ints no arithmetic, comparison or printing operation overflows a machine integer, indexes a deque out of range or fails to terminate: the only failures are divide_by_zero_error and the internal assertions.", "quantifier": "all well-formed Ints (bins in range), canonical or not", "why_tests_cant": "Overflow and out-of-range access must be excluded for all bin contents.", "anchors": ["src/Int.cpp:Int::add", "src/Int.cpp:Int::subtract", "src/Int.cpp:multiply_by_int", "src/Int.cpp:iter_quotient", "src/Int.cpp:Int::divide"]}
{"id": "C20", "title": "Compound assignment is safe under aliasing", "statement": "x op= x gives the same result as x op= y where y is a separate copy of x, for +=, -=, *=, /=, %=, ^=.", "quantifier": "all canonical Ints", "why_tests_cant": "Aliasing bugs depend on the carry/borrow pattern and sign; tests try one or two literals.", "anchors": ["src/Int.cpp:Int::operator+=", "src/Int.cpp:Int::operator-=", "src/Int.cpp:Int::operator/="]}
{"id": "C21", "title": "Binary and compound operators agree", "statement": "x op y and the value of x after x op= y compare equal, or fail in the same way, for +, -, *, /, %, ^.", "quantifier": "all pairs of canonical Ints", "why_tests_cant": "The operand space is infinite (arbitrarily many 9-digit bins, every carry/borrow pattern); the tests sample a few hundred literals.", "anchors": ["src/Int.cpp:operator+", "src/Int.cpp:Int::operator+=", "src/Int.cpp:operator/", "src/Int.cpp:Int::operator/="]}
{"id": "C22", "title": "Any history of Int operations refines integer arithmetic", "statement": "Running any program of assignments and compound assignments (with aliasing) over a set of Int variables yields, after every step that returns, variables whose values are those of the same program over mathematical integers; a failed step leaves the variables unchanged.", "quantifier": "all finite programs over any number of Int variables", "why_tests_cant": "The number of histories is infinite; a representation defect left behind by one operation only shows in a later one.", "anchors": ["src/Int.cpp:Int::operator+=", "src/Int.cpp:Int::operator-=", "src/Int.cpp:Int::operator*=", "src/Int.cpp:Int::operator/=", "src/Int.cpp:Int::operator%="]}
{"id": "C23", "title": "Ring laws are observable", "statement": "Through ==, addition and multiplication of Ints are commutative and associative, multiplication distributes, 0 and 1 are neutral, and x - y == x + (-y).", "quantifier": "all triples of canonical Ints", "why_tests_cant": "The operand space is infinite (arbitrarily many 9-digit bins, every carry/borrow pattern); the tests sample a few hundred literals.", "anchors": ["src/Int.cpp:operator+", "src/Int.cpp:operator*", "src/Int.hpp:Int::operator=="]}
{"id": "C24", "title": "Division with remainder by digit search", "statement": "quotient_and_remainder(y, x) returns the exact quotient digit and remainder whenever 0 < x <= y < 10^9 x, with no overflow and a bounded number of iterations.", "quantifier": "all canonical x, y in that range", "why_tests_cant": "The operand space is infinite (arbitrarily many 9-digit bins, every carry/borrow pattern); the tests sample a few hundred literals.", "anchors": ["src/Int.cpp:quotient_and_remainder", "src/Int.cpp:iter_quotient"]}
{"id": "C25", "title": "divide_by_int", "statement": "divide_by_int(x, d) has magnitude floor(|x|/d) for 0 < d < 2^31 and throws divide_by_zero_error for d = 0.", "quantifier": "all well-formed Ints and all positive 32-bit d", "why_tests_cant": "The operand space is infinite (arbitrarily many 9-digit bins, every carry/borrow pattern); the tests sample a few hundred literals.", "anchors": ["src/Int.cpp:divide_by_int"]}
{"id": "C26", "title": "Division, multiplication and modulo are mutually consistent", "statement": "Whenever both return, x == (x/y)*y + (truncated remainder), and x % y is congruent to x modulo y; for operands of equal sign (x/y)*y + x%y == x.", "quantifier": "all pairs of canonical Ints with nonzero y", "why_tests_cant": "The operand space is infinite (arbitrarily many 9-digit bins, every carry/borrow pattern); the tests sample a few hundred literals.", "anchors": ["src/Int.cpp:Int::divide", "src/Int.cpp:modulo"]}
{"id": "C30", "title": "Every Frac is in lowest terms", "statement": "Every Frac produced by a constructor or operator that returns has a positive denominator coprime to the numerator, with both parts canonical Ints.", "quantifier": "all argument values; all operators", "why_tests_cant": "The invariant must hold for every history of operations.", "anchors": ["src/Frac.cpp:Frac::normalize", "src/Frac.hpp:Frac"]}
{"id": "C31", "title": "Construction from numerator and denominator", "statement": "Frac(a, b) represents a/b exactly whenever it returns and throws divide_by_zero_error exactly when b is zero.", "quantifier": "all pairs of canonical Ints", "why_tests_cant": "The operand space is infinite (arbitrarily many 9-digit bins, every carry/borrow pattern); the tests sample a few hundred literals.", "anchors": ["src/Frac.hpp:Frac::Frac(const Int&,const Int&)"]}
{"id": "C32", "title": "Frac addition, subtraction, multiplication are exact", "statement": "Whenever x + y, x - y, x * y (and the compound forms) return, the result is exactly the rational sum, difference, product.", "quantifier": "all pairs of valid Fracs", "why_tests_cant": "The operand space is infinite (arbitrarily many 9-digit bins, every carry/borrow pattern); the tests sample a few hundred literals.", "anchors": ["src/Frac.hpp:operator+", "src/Frac.hpp:operator-", "src/Frac.hpp:operator*", "src/Frac.cpp:operator+="]}
{"id": "C33", "title": "Frac division is exact and rejects zero", "statement": "Whenever x / y returns the result is exactly the rational quotient; it throws divide_by_zero_error exactly when y is zero.", "quantifier": "all pairs of valid Fracs", "why_tests_cant": "The operand space is infinite (arbitrarily many 9-digit bins, every carry/borrow pattern); the tests sample a few hundred literals.", "anchors": ["src/Frac.hpp:operator/"]}
{"id": "C34", "title": "Compound Frac division rejects zero", "statement": "x /= y behaves as x = x / y: it throws divide_by_zero_error when y (Frac or Int) is zero and never leaves x with a zero denominator.", "quantifier": "all pairs of valid Fracs; all Frac/Int pairs", "why_tests_cant": "No test divides in place by zero.", "anchors": ["src/Frac.cpp:operator/="]}
{"id": "C35", "title": "Frac comparisons are the rational order", "statement": "==, !=, <, >, <=, >= agree with equality and order of the represented rationals.", "quantifier": "all pairs of valid Fracs", "why_tests_cant": "The operand space is infinite (arbitrarily many 9-digit bins, every carry/borrow pattern); the tests sample a few hundred literals.", "anchors": ["src/Frac.hpp:operator==", "src/Frac.hpp:operator<"]}
{"id": "C36", "title": "GCD", "statement": "Whenever GCD(a, b) returns it is the nonnegative greatest common divisor (GCD(0,0) = 0), and the Euclid loop terminates.", "quantifier": "all pairs of canonical Ints of any sign", "why_tests_cant": "The operand space is infinite (arbitrarily many 9-digit bins, every carry/borrow pattern); the tests sample a few hundred literals.", "anchors": ["src/Frac.cpp:Frac::GCD", "src/Frac.cpp:Frac::nochecks_gcd"]}
{"id": "C37", "title": "Frac exponentiation", "statement": "Whenever x ^ a returns, the result is the exact a-th power, for positive, zero and negative integer a; 0 ^ a with a < 0 throws divide_by_zero_error.", "quantifier": "all valid Fracs and all integer exponents", "why_tests_cant": "The operand space is infinite (arbitrarily many 9-digit bins, every carry/borrow pattern); the tests sample a few hundred literals.", "anchors": ["src/Frac.cpp:operator^"]}
{"id": "C38", "title": "Compound Frac exponentiation agrees", "statement": "After x ^= a, x equals x ^ a, including negative exponents.", "quantifier": "all valid Fracs and all integer exponents", "why_tests_cant": "Tests only use the exponent 3.", "anchors": ["src/Frac.cpp:operator^="]}
{"id": "C39", "title": "Mixed Frac/Int operators", "statement": "a op x and x op a with an Int a give the same result as converting a to a Frac first, for +, -, *, / and the compound forms.", "quantifier": "all valid Fracs and canonical Ints", "why_tests_cant": "The operand space is infinite (arbitrarily many 9-digit bins, every carry/borrow pattern); the tests sample a few hundred literals.", "anchors": ["src/Frac.hpp:operator+(const Int&,const Frac&)", "src/Frac.cpp:operator+=(Frac&,const Int&)"]}
{"id": "C40", "title": "Frac print/read round trip", "statement": "Printing a Frac gives (num/den) and reading that text back with >> yields an identical Frac.", "quantifier": "all valid Fracs", "why_tests_cant": "The operand space is infinite (arbitrarily many 9-digit bins, every carry/borrow pattern); the tests sample a few hundred literals.", "anchors": ["src/Frac.cpp:Frac::print", "src/Frac.cpp:Frac::read"]}
{"id": "C41", "title": "Frac string constructor", "statement": "Frac(s) accepts exactly the empty string (value 0), INT and INT/INT with nonzero denominator, represents that ratio in lowest terms when it returns, and throws invalid_argument otherwise.", "quantifier": "all strings (shorter than 2^31)", "why_tests_cant": "Infinitely many strings.", "anchors": ["src/Frac.cpp:Frac::Frac(const string&)"]}
{"id": "C42", "title": "Frac stream extraction", "statement": "in >> f reads INT, INT/INT, (INT) or (INT/INT); on success f is a valid Frac with that value; on failure f is unchanged and nothing is consumed.", "quantifier": "all stream contents and previous values", "why_tests_cant": "Depends on stream state flags for arbitrary content.", "anchors": ["src/Frac.cpp:Frac::read"]}
{"id": "C43", "title": "from_double is exact on the printed decimal", "statement": "Frac::from_double(x, p) equals exactly the decimal number printed for x with p fractional digits and is in lowest terms.", "quantifier": "all finite doubles and precisions >= 1", "why_tests_cant": "2^64 doubles; the abort depends on the zero pattern of the printed digits.", "anchors": ["src/Frac.cpp:Frac::from_double"]}
{"id": "C44", "title": "Frac compound assignment is safe under aliasing", "statement": "x op= x gives the same result as x op= y with y a separate copy, for +=, -=, *=, /=.", "quantifier": "all valid Fracs", "why_tests_cant": "The operand space is infinite (arbitrarily many 9-digit bins, every carry/borrow pattern); the tests sample a few hundred literals.", "anchors": ["src/Frac.cpp:operator+=", "src/Frac.cpp:operator/="]}
{"id": "C45", "title": "Frac arithmetic never aborts on moderate operands", "statement": "When numerators and denominators are below 7*10^8 in magnitude, all Frac operators return (except for division by zero) and are exact.", "quantifier": "all valid Fracs in that range", "why_tests_cant": "Range has about 10^36 pairs.", "anchors": ["src/Frac.cpp:Frac::normalize", "src/Frac.cpp:Frac::GCD"]}
{"id": "C46", "title": "Reciprocal", "statement": "x.reciprocal() is 1/x for nonzero x and throws divide_by_zero_error for zero; reciprocal twice gives back x.", "quantifier": "all valid Fracs", "why_tests_cant": "The operand space is infinite (arbitrarily many 9-digit bins, every carry/borrow pattern); the tests sample a few hundred literals.", "anchors": ["src/Frac.hpp:Frac::reciprocal"]}
{"id": "C47", "title": "Any history of Frac operations refines rational arithmetic", "statement": "Running any program of compound assignments over Frac variables keeps every variable in lowest terms and equal to the rational computed by the same program, as long as steps return and no in-place division by zero or negative in-place power occurs.", "quantifier": "all finite programs over any number of Frac variables", "why_tests_cant": "Infinitely many histories.", "anchors": ["src/Frac.cpp:operator+=", "src/Frac.cpp:operator-=", "src/Frac.cpp:operator*=", "src/Frac.cpp:operator/="]}
{"id": "C50", "title": "Vec addition and subtraction", "statement": "x + y, x - y, x += y, x -= y are entrywise, and throw invalid_argument exactly when the lengths differ.", "quantifier": "all vectors of all lengths over any exact scalar type", "why_tests_cant": "Vec is a template: the law must hold for every length and every entry value.", "anchors": ["src/Vec.hpp:operator+", "src/Vec.hpp:operator-=", "src/Vec.hpp:operator+="]}
{"id": "C51", "title": "Vec scaling", "statement": "a * x, x * a, x *= a multiply and x / a, x /= a divide every entry by the scalar (a not an alias of an entry).", "quantifier": "all vectors and scalars", "why_tests_cant": "Vec is a template: the law must hold for every length and every entry value.", "anchors": ["src/Vec.hpp:operator*", "src/Vec.hpp:operator/"]}
{"id": "C52", "title": "Dot product", "statement": "x.dot(y) is the sum of entrywise products, symmetric and bilinear; throws invalid_argument exactly when the lengths differ.", "quantifier": "all vectors", "why_tests_cant": "Vec is a template: the law must hold for every length and every entry value.", "anchors": ["src/Vec.hpp:Vec::dot"]}
{"id": "C53", "title": "Cross product", "statement": "x.cross(y) is orthogonal to both arguments, anticommutative, satisfies |x cross y|^2 = |x|^2|y|^2-(x.y)^2; throws invalid_argument unless both lengths are 3.", "quantifier": "all vectors over a commutative ring", "why_tests_cant": "Vec is a template: the law must hold for every length and every entry value.", "anchors": ["src/Vec.hpp:Vec::cross"]}
{"id": "C54", "title": "Triple products", "statement": "scalar_triple_product(x,y,z) is the determinant of the rows x,y,z and vector_triple_product(x,y,z) = y(x.z) - z(x.y).", "quantifier": "all length-3 vectors", "why_tests_cant": "Vec is a template: the law must hold for every length and every entry value.", "anchors": ["src/Vec.hpp:Vec::scalar_triple_product", "src/Vec.hpp:Vec::vector_triple_product"]}
{"id": "C55", "title": "Concatenation and constant vectors", "statement": "x.concatenate(y) has the entries of x followed by those of y; constantVec(n, v) has n entries v.", "quantifier": "all vectors, sizes, values", "why_tests_cant": "Vec is a template: the law must hold for every length and every entry value.", "anchors": ["src/Vec.hpp:Vec::concatenate", "src/Vec.hpp:Vec::constantVec"]}
{"id": "C56", "title": "Vec equality", "statement": "x == y holds exactly when the lengths and all entries agree.", "quantifier": "all vectors", "why_tests_cant": "Vec is a template: the law must hold for every length and every entry value.", "anchors": ["src/Vec.hpp:operator=="]}
{"id": "C57", "title": "Vec output", "statement": "operator<< prints the entries in parentheses separated by ', ' and () for the empty vector.", "quantifier": "all vectors", "why_tests_cant": "Vec is a template: the law must hold for every length and every entry value.", "anchors": ["src/Vec.hpp:operator<<"]}
{"id": "C58", "title": "Scaling by one's own entry", "statement": "x *= x[k] and x /= x[k] scale every entry by the value x[k] had before the call.", "quantifier": "all vectors and indices k", "why_tests_cant": "Reference aliasing; no test passes an entry of the vector itself.", "anchors": ["src/Vec.hpp:operator*=", "src/Vec.hpp:operator/="]}
{"id": "C59", "title": "Vec setEntries", "statement": "setEntries(vals, n) overwrites all entries with the first size() values and throws invalid_argument, leaving the vector unchanged, exactly when n < size().", "quantifier": "all vectors and arrays", "why_tests_cant": "Vec is a template: the law must hold for every length and every entry value.", "anchors": ["src/Vec.hpp:Vec::setEntries"]}
{"id": "C61", "title": "Mat entrywise operations", "statement": "+, -, unary -, scalar * and /, and their compound forms act entrywise; binary forms throw domain_error exactly when dimensions differ.", "quantifier": "all matrices of all sizes", "why_tests_cant": "Mat is a template over all sizes and scalar types; every dimension and entry pattern must be covered.", "anchors": ["src/Mat.hpp:operator+", "src/Mat.hpp:operator-", "src/Mat.hpp:operator*=", "src/Mat.hpp:operator/="]}
{"id": "C62", "title": "Mat product", "statement": "a * b and a *= b are the matrix product and throw domain_error exactly when a.cols != b.rows.", "quantifier": "all matrices of all sizes", "why_tests_cant": "Mat is a template over all sizes and scalar types; every dimension and entry pattern must be covered.", "anchors": ["src/Mat.hpp:operator*", "src/Mat.hpp:operator*="]}
{"id": "C63", "title": "Transpose and trace", "statement": "transpose swaps indices and is an involution; trace is the sum of the diagonal and throws domain_error exactly for non-square matrices.", "quantifier": "all matrices", "why_tests_cant": "Mat is a template over all sizes and scalar types; every dimension and entry pattern must be covered.", "anchors": ["src/Mat.hpp:Mat::transpose", "src/Mat.hpp:Mat::trace"]}
{"id": "C64", "title": "Minors", "statement": "first_minor(i, j) deletes row i and column j; cofactor(i, j) is the minor negated when i + j is odd.", "quantifier": "all matrices with at least one row and column, all i, j in range", "why_tests_cant": "Mat is a template over all sizes and scalar types; every dimension and entry pattern must be covered.", "anchors": ["src/Mat.hpp:Mat::first_minor", "src/Mat.hpp:Mat::cofactor"]}
{"id": "C65", "title": "Cofactor expansions compute the determinant", "statement": "row_cofactor_expansion() and col_cofactor_expansion() equal the determinant of every square matrix with at least one row, over any commutative ring; they throw domain_error exactly for non-square matrices.", "quantifier": "all square matrices", "why_tests_cant": "Mat is a template over all sizes and scalar types; every dimension and entry pattern must be covered.", "anchors": ["src/Mat.hpp:Mat::row_cofactor_expansion", "src/Mat.hpp:Mat::col_cofactor_expansion"]}
{"id": "C66", "title": "determinant() computes the determinant", "statement": "determinant() equals the determinant of every square matrix over an exact field, with no division by zero; throws domain_error exactly for non-square matrices.", "quantifier": "all square matrices over any field", "why_tests_cant": "Mat is a template over all sizes and scalar types; every dimension and entry pattern must be covered.", "anchors": ["src/Mat.hpp:Mat::determinant"]}
{"id": "C67", "title": "rref computes the reduced row echelon form", "statement": "rref() is in reduced row echelon form and row equivalent to the input (hence has the same null space), and it is the only such matrix; inplace_rref agrees; no out-of-bounds access or division by zero.", "quantifier": "all matrices over any field", "why_tests_cant": "Mat is a template over all sizes and scalar types; every dimension and entry pattern must be covered.", "anchors": ["src/Mat.hpp:Mat::inplace_rref", "src/Mat.hpp:Mat::rref"]}
{"id": "C68", "title": "inverse", "statement": "inverse() returns the two-sided inverse of every invertible square matrix and throws domain_error exactly for singular or non-square matrices.", "quantifier": "all matrices over any field", "why_tests_cant": "Mat is a template over all sizes and scalar types; every dimension and entry pattern must be covered.", "anchors": ["src/Mat.hpp:Mat::inverse"]}
{"id": "C69", "title": "Matrix constructors", "statement": "identityMatrix, diagonalMatrix, augmentedMatrix and the filling constructors produce the stated entries; setEntries throws domain_error exactly when too few values are given.", "quantifier": "all sizes and values", "why_tests_cant": "Mat is a template over all sizes and scalar types; every dimension and entry pattern must be covered.", "anchors": ["src/Mat.hpp:Mat::identityMatrix", "src/Mat.hpp:Mat::augmentedMatrix", "src/Mat.hpp:Mat::setEntries"]}
{"id": "C70", "title": "Scaling a matrix by its own entry", "statement": "m *= m(i,j) and m /= m(i,j) scale every entry by the value m(i,j) had before the call.", "quantifier": "all matrices and positions", "why_tests_cant": "Reference aliasing; no test passes an entry of the matrix itself.", "anchors": ["src/Mat.hpp:operator*=(Mat,T)", "src/Mat.hpp:operator/=(Mat,T)"]}
{"id": "C71", "title": "Memory safety of Mat", "statement": "No Mat operation reads or writes outside its buffer, and no result depends on the uninitialised contents of a freshly allocated matrix.", "quantifier": "all matrices of all sizes, all initial memory contents", "why_tests_cant": "Mat is a template over all sizes and scalar types; every dimension and entry pattern must be covered.", "anchors": ["src/Mat.hpp:Mat::entry", "src/Mat.hpp:Mat::Mat(size_t,size_t)"]}
{"id": "C72", "title": "Mat equality and swap", "statement": "a == b holds exactly when dimensions and all entries agree; assignment copies.", "quantifier": "all matrices", "why_tests_cant": "Mat is a template over all sizes and scalar types; every dimension and entry pattern must be covered.", "anchors": ["src/Mat.hpp:operator=="]}
{"id": "C73", "title": "Term multiplication", "statement": "Multiplying Terms and Factors adds exponents per variable and multiplies coefficients: evaluating the product at any nonzero point gives the product of the evaluations; the order of factors does not matter.", "quantifier": "all terms, factors and evaluation points", "why_tests_cant": "Infinitely many variables and exponents.", "anchors": ["src/Poly.hpp:Term::appendFactor", "src/Poly.hpp:operator*"]}
{"id": "C74", "title": "Term equality", "statement": "Two Terms compare == exactly when they have the same variables with equal powers, whatever the coefficients.", "quantifier": "all terms", "why_tests_cant": "Infinite domain.", "anchors": ["src/Poly.hpp:operator==(Term,Term)"]}
{"id": "C75", "title": "Term order is a strict weak order", "statement": "operator< on Terms is irreflexive, asymmetric and transitive (as list::merge and the sorted insertion require).", "quantifier": "all terms", "why_tests_cant": "The tests compare five pairs; asymmetry fails on mixed exponents.", "anchors": ["src/Poly.hpp:operator<(Term,Term)"]}
{"id": "C76", "title": "Appending a Term adds it", "statement": "appendTerm(t) makes the polynomial's value at every point increase by the value of t, keeping one entry per monomial, with defined behaviour.", "quantifier": "all polynomials and terms", "why_tests_cant": "Behaviour is undefined whenever t belongs at the end of the list, which happens to work on common platforms.", "anchors": ["src/Poly.hpp:Poly::appendTerm"]}
{"id": "C77", "title": "appendTerms adds polynomials", "statement": "appendTerms(list) makes the polynomial's value increase by the sum of the listed terms and keeps all terms.", "quantifier": "all polynomials and term lists", "why_tests_cant": "Infinite domain.", "anchors": ["src/Poly.hpp:Poly::appendTerms"]}
{"id": "C78", "title": "Polynomial sums and differences", "statement": "x + y, x - y, +=, -= of Factors and Terms evaluate to the sum and difference.", "quantifier": "all factors and terms", "why_tests_cant": "Infinite domain.", "anchors": ["src/Poly.hpp:operator+(Factor,Factor)", "src/Poly.hpp:operator-(Term,Term)"]}
{"id": "C79", "title": "Factor and Term output", "statement": "Factors print id or id^power, Terms print the coefficient (omitted when 1, 0 alone when 0) and the factors in ascending id order joined by ' * '.", "quantifier": "all factors and terms", "why_tests_cant": "Infinite domain.", "anchors": ["src/Poly.hpp:operator<<"]}
{"id": "C81", "title": "Tolerance comparison", "statement": "float_cmp(x,y) is 0 exactly when |x-y| <= EPSILON, otherwise the sign of y - x; float_equals is |x-y| < EPSILON.", "quantifier": "all values", "why_tests_cant": "Infinite domain.", "anchors": ["src/common.cpp:float_cmp", "src/common.hpp:float_equals"]}
{"id": "C83", "title": "Mat output", "statement": "operator<< writes the entries in row order, each followed by one space, the rows separated by line ends, with no line end after the last row; the empty matrix prints nothing.", "quantifier": "all matrices of all sizes and all entry printers", "why_tests_cant": "Mat is a template over all sizes and scalar types; every dimension and entry pattern must be covered.", "anchors": ["src/Mat.hpp:operator<<"]}
{"id": "C84", "title": "determinant() of integer matrices", "statement": "determinant() of a matrix of Ints equals its integer determinant.", "quantifier": "all square matrices of Ints", "why_tests_cant": "The result is wrong only for some integer matrices; which ones depends on whether every intermediate quotient happens to be exact.", "anchors": ["src/Mat.hpp:Mat::determinant"]}
{"id": "C85", "title": "Terms that denote the same monomial are equal", "statement": "Two Terms compare == exactly when their products of powers have the same value at all points without zeros.", "quantifier": "all terms and evaluation points", "why_tests_cant": "Infinite domain; the case that breaks it needs powers that cancel, which no test builds.", "anchors": ["src/Poly.hpp:operator==(Term,Term)", "src/Poly.hpp:Term::appendFactor"]}
{"id": "C86", "title": "Poly output", "statement": "operator<< prints the terms of a Poly in list order joined by ' + '.", "quantifier": "all polynomials", "why_tests_cant": "Infinite domain.", "anchors": ["src/Poly.hpp:operator<<(Poly)"]}
{"id": "C87", "title": "isFinite", "statement": "isFinite(d) is true exactly when d is neither an infinity nor NaN.", "quantifier": "all doubles", "why_tests_cant": "2^64 bit patterns.", "anchors": ["src/common.cpp:isFinite"]}
{"id": "C88", "title": "from_double is accurate", "statement": "from_double(x, p) returns, in lowest terms, the multiple of 10^-p nearest to x (so x itself if it has at most p decimal places), and throws invalid_argument exactly for infinities and NaN.", "quantifier": "all doubles and precisions", "why_tests_cant": "2^64 doubles and every precision; the abort depends on the digits of the exact value.", "anchors": ["src/Frac.cpp:Frac::from_double"]}
{"id": "C89", "title": "Parity and sign queries", "statement": "is_odd() is true exactly for odd values and is_negative() exactly for values below zero, however the Int was obtained.", "quantifier": "all Ints reachable by public operations", "why_tests_cant": "Unbounded values; the failing case needs a negative zero left by an earlier operation.", "anchors": ["src/Int.hpp:Int::is_odd", "src/Int.hpp:Int::is_negative"]}
{"id": "C90", "title": "Shifted copies", "statement": "Int(x, s) is x * 10^(9 s), in canonical form.", "quantifier": "all Ints and shifts", "why_tests_cant": "Unbounded values and shifts.", "anchors": ["src/Int.cpp:Int::Int(const Int&,size_t)"]}
{"id": "C91", "title": "Reading several numbers", "statement": "Extracting several Ints separated by white space from one stream with >> reads each of them.", "quantifier": "all texts, any number of integers", "why_tests_cant": "The tests read single numbers only; sequences are unbounded.", "anchors": ["src/Int.cpp:operator>>"]}
{"id": "C92", "title": "Vectors and matrices of machine integers", "statement": "Over int or long, vector sums, differences, multiples, dot products, matrix products and cofactor determinants are exact whenever the numbers involved fit the type (entries, absolute products of a row and a column, n! B^n for determinants of entries bounded by B); they never return a wrong number: the only other outcome is overflow.", "quantifier": "all sizes and entries, every signed type", "why_tests_cant": "Overflow depends on partial sums of unboundedly many products.", "anchors": ["src/Vec.hpp:Vec::dot", "src/Vec.hpp:operator+", "src/Mat.hpp:operator*", "src/Mat.hpp:Mat::row_cofactor_det"]}
{"id": "C93", "title": "Length of an integer vector", "statement": "For a Vec<int> whose squared length fits an int, norm() is the Euclidean length rounded down and norm<double>() is the double nearest to it; otherwise the squared length overflows.", "quantifier": "all vectors of ints of any size", "why_tests_cant": "Quantifies over all lengths; needs correct rounding of the square root for 2^31 squared lengths.", "anchors": ["src/Vec.hpp:Vec::norm"]}
{"id": "C94", "title": "unit_vector() of an integer vector", "statement": "unit_vector() of a nonzero Vec<int> has length 1.", "quantifier": "all nonzero vectors of ints", "why_tests_cant": "Truncation shows only for lengths that do not divide the entries.", "anchors": ["src/Vec.hpp:Vec::unit_vector"]}
{"id": "C95", "title": "unit_vector<double>() of an integer vector", "statement": "For a nonzero Vec<int> whose squared length fits an int, every entry of unit_vector<double>() is the exact quotient by the length up to a relative error of about 2^-52, and the squared length of the result is 1 up to 2^-50, for every number of entries.", "quantifier": "all nonzero vectors of ints with an int squared length", "why_tests_cant": "An error bound over all inputs; tests compare a few cases with a tolerance.", "anchors": ["src/Vec.hpp:Vec::unit_vector"]}
{"id": "C96", "title": "Rounding error of the dot product of double vectors", "statement": "dot of two double vectors differs from the exact dot product by at most ((1+2^-53)^(n+1) - 1) times the sum of the absolute products plus about n 2^-1075 if it is finite, and it is finite if the absolute products add up to at most 2^1021.", "quantifier": "all double vectors of any size", "why_tests_cant": "An a priori error bound over all inputs and sizes cannot be tested.", "anchors": ["src/Vec.hpp:Vec::dot"]}
{"id": "C97", "title": "Length of a double vector", "statement": "norm() of a Vec<double> whose length is representable is the length up to rounding.", "quantifier": "all double vectors", "why_tests_cant": "The failing cases are vectors whose squares overflow or underflow.", "anchors": ["src/Vec.hpp:Vec::norm"]}
{"id": "C98", "title": "unit_vector() of a double vector", "statement": "unit_vector() of a nonzero Vec<double> has length 1 up to rounding.", "quantifier": "all nonzero double vectors", "why_tests_cant": "The failing cases are vectors whose squares overflow or underflow; the error bound quantifies over all sizes.", "anchors": ["src/Vec.hpp:Vec::unit_vector"]}
{"id": "C99", "title": "Matrix products are dot products", "statement": "Each entry of a * b (and of a after a *= b) is exactly what dot returns for the row of a and the column of b, and the product fails exactly as one of those dot products does, for every scalar type, including types with rounding, overflow or exceptions.", "quantifier": "all scalar types, all sizes, all entries", "why_tests_cant": "Quantifies over every scalar type, including inexact ones, where the order of operations matters.", "anchors": ["src/Mat.hpp:operator*", "src/Mat.hpp:Mat::operator*=", "src/Vec.hpp:Vec::dot"]}
{"id": "C100", "title": "Programs with matrix variables", "statement": "Mat variables behave like independent values under any sequence of declarations, copies, assignments, swaps, in-place changes, exceptions and ends of scope: a statement changes only the variables it names as targets, nothing is deleted twice or used after deletion, and when all variables are gone all memory has been released; statements other than in-place changes that throw leave everything as it was.", "quantifier": "all programs of any length, all scalar types, all sizes", "why_tests_cant": "Quantifies over unbounded histories of operations and over where exceptions strike.", "anchors": ["src/Mat.hpp:Mat::~Mat", "src/Mat.hpp:Mat::operator=", "src/Mat.hpp:swap", "src/Mat.hpp:Mat::Mat(const Mat<T>&)"]}
{"id": "C101", "title": "Mat and Vec are memory safe for every scalar type", "statement": "Whatever the scalar operations compute (NaN, truncated quotients, anything), every Mat and Vec operation on initialised operands of fitting dimensions stays inside its arrays, terminates, and returns an initialised result of the right size unless a scalar operation fails; inverse may also throw domain_error. Over double nothing else fails; over Int only division by zero and the length limit.", "quantifier": "all scalar types, all sizes, all entries", "why_tests_cant": "Quantifies over all scalar types and their behaviours.", "anchors": ["src/Mat.hpp:Mat::inplace_rref", "src/Mat.hpp:Mat::determinant", "src/Mat.hpp:Mat::inverse", "src/Vec.hpp:Vec::cross"]}
{"id": "C102", "title": "Vectors and matrices of Frac", "statement": "Over Frac, vector and matrix sums, differences, multiples, quotients by a nonzero number, dot, cross and triple products, matrix products and traces have exact entries in lowest terms whenever they return; the only failure is the abort of Int division, and equality never fails. Dot and matrix products do return if the product of the denominators involved, and that product times the sum of the absolute products, are below 10^18.", "quantifier": "all sizes and all entries in lowest terms", "why_tests_cant": "Unbounded sizes and numbers; whether the abort happens depends on the digits of intermediate results.", "anchors": ["src/Vec.hpp:Vec::dot", "src/Vec.hpp:Vec::cross", "src/Mat.hpp:operator*", "src/Mat.hpp:Mat::trace", "src/Frac.hpp:Frac"]}
{"id": "C103", "title": "Dividing vectors and matrices of Frac by zero", "statement": "Dividing a nonempty vector or matrix of Fracs by zero throws divide_by_zero_error.", "quantifier": "all nonempty vectors and matrices of Fracs", "why_tests_cant": "Infinite domain; the outcome differs between operators and entries.", "anchors": ["src/Vec.hpp:operator/", "src/Vec.hpp:operator/=", "src/Mat.hpp:operator/", "src/Mat.hpp:operator/="]}
{"id": "C104", "title": "Changing the scalar type of a computation", "statement": "Any computation made of vector and matrix operations, scalar operations, branches, local variables and counting loops that does not overflow over a signed integer type gives the same values, or throws the same exception, over every wider signed type, and over Int unless Int aborts. Without divisions and *= Int does not abort.", "quantifier": "all computations, all inputs, all widths", "why_tests_cant": "A statement about all programs that use the library.", "anchors": ["src/Vec.hpp:operator+", "src/Vec.hpp:operator*", "src/Mat.hpp:operator*", "src/Mat.hpp:determinant", "src/Mat.hpp:inverse"]}
{"id": "C105", "title": "Whole numbers in doubles", "statement": "Vectors and matrices of doubles that hold whole numbers compute exactly, as long as every number that occurs has an absolute value of at most 2^53 and every quotient is whole; in particular the dot product, the matrix product and the cofactor expansions if the absolute values of the products involved add up to less than 2^53.", "quantifier": "all computations, all inputs within the bounds", "why_tests_cant": "Rounding at every operation, over all programs and sizes.", "anchors": ["src/Vec.hpp:dot_product", "src/Mat.hpp:operator*", "src/Mat.hpp:row_cofactor_expansion"]}
{"id": "C106", "title": "Elimination with whole quotients", "statement": "If all quotients that occur while eliminating an integer matrix (with the row exchanges the code makes) are whole numbers, determinant(), rref() and inverse() give the true determinant, reduced row echelon form and inverse over Int (unless it aborts), over machine integers and over double when the numbers fit, and they agree that a matrix is singular.", "quantifier": "all integer matrices of all sizes for which the quotients are whole", "why_tests_cant": "Infinite domain; depends on every intermediate quotient.", "anchors": ["src/Mat.hpp:determinant", "src/Mat.hpp:rref", "src/Mat.hpp:inplace_rref", "src/Mat.hpp:inverse"]}
{"id": "C107", "title": "Programs with vectors and matrices of fractions", "statement": "A program that computes with vectors and matrices over Frac, including loops, conditions and divisions, but does not divide by zero, gives exactly the rational numbers it would give over the rationals, in lowest terms, or throws the same exception, or aborts in a division of Ints. The same holds of any scalar type with exact operations.", "quantifier": "all programs built from the operations of Vec and Mat, all values of the variables", "why_tests_cant": "Quantifies over programs.", "anchors": ["src/Vec.hpp:Vec", "src/Mat.hpp:Mat", "src/Frac.cpp:Frac"]}
{"id": "C108", "title": "Running times of the matrix functions", "statement": "Row reduction, determinant() and inverse() take a number of steps (operations on entries, accesses, loop rounds, new cells) that is at most a constant times n^3 for every n by n matrix, and always end. The cofactor expansions take at most a constant times n! steps, really need that many for a matrix without zeros, and are then slower than determinant() from size 6 on.", "quantifier": "all matrices of all sizes, all scalar types whose operations end", "why_tests_cant": "A time bound for all sizes cannot be measured.", "anchors": ["src/Mat.hpp:inplace_rref", "src/Mat.hpp:determinant", "src/Mat.hpp:inverse", "src/Mat.hpp:row_cofactor_expansion", "src/Mat.hpp:col_cofactor_expansion", "README.md:51"]}
{"id": "C109", "title": "Int without assertions", "statement": "Compiled without assertions, Int operations return whatever they return with assertions, and never a wrong number: every operation on valid objects returns the exact value or throws out_of_range (or divide_by_zero_error for a zero divisor), and so does every program made of such operations. For objects as public constructors make them, sums, differences and products never throw, and the other operations throw out_of_range exactly where the build with assertions aborts.", "quantifier": "all Ints, all programs", "why_tests_cant": "Whether leftovers of an unchecked precondition ever show in a result depends on all digits; programs are unbounded.", "anchors": ["src/Int.cpp:Int::subtract", "src/Int.cpp:quotient_and_remainder", "src/Int.cpp:Int::divide", "src/Int.cpp:operator-", "src/Int.cpp:Int::operator-=", "CMakeLists.txt"]}
{"id": "C110", "title": "Exceptions leave Ints unchanged", "statement": "Compiled without assertions, a compound assignment or times_power_ten that throws leaves its left operand as it was.", "quantifier": "all Ints", "why_tests_cant": "Infinite domain; what is left behind depends on where in the digits the exception strikes.", "anchors": ["src/Int.cpp:Int::operator/=", "src/Int.cpp:Int::operator-=", "src/Int.cpp:Int::operator+=", "src/Int.cpp:Int::divide", "src/Int.cpp:Int::subtract"]}
{"id": "C111", "title": "Rank by row reduction", "statement": "Counting the rows of rref() that are not zero gives the rank of the matrix, and these rows are the first ones, as the README hopes. A square matrix has a nonzero determinant exactly if rref() has no zero row, and exactly if rref() is the identity matrix.", "quantifier": "all matrices of all sizes over scalar types with exact operations, such as Frac", "why_tests_cant": "Unbounded sizes, infinite domain.", "anchors": ["src/Mat.hpp:rref", "src/Mat.hpp:inplace_rref", "README.md:74"]}
{"id": "C112", "title": "Systems of linear equations", "statement": "Row reducing augmentedMatrix(a, b) solves the system a x = b: the left part N is the reduced row echelon form of a and the right part W has the same solutions; a solution exists exactly if no zero row of N faces a nonzero row of W, and then the one with free unknowns zero can be read off; it is unique exactly if N has as many nonzero rows as columns. For invertible a, the right part is the solution, and a.inverse() * b is the same one.", "quantifier": "all systems of all sizes, any number of right hand sides, over scalar types with exact operations, such as Frac", "why_tests_cant": "Unbounded sizes, infinite domain; existence and uniqueness quantify over all vectors.", "anchors": ["src/Mat.hpp:augmentedMatrix", "src/Mat.hpp:rref", "src/Mat.hpp:inverse", "src/Mat.hpp:operator*"]}
{"id": "C113", "title": "Rounding of vector and matrix operations over double", "statement": "Sums, differences, scalar multiples and quotients of vectors and matrices of doubles, and the compound assignments, have in every entry the correctly rounded result of IEEE 754: the double nearest to the exact entry, on a tie the even one, and an infinity exactly beyond the largest number by half a unit. The negative of a matrix is exact.", "quantifier": "all finite doubles, all sizes", "why_tests_cant": "Infinitely many sizes, 2^64 values per entry.", "anchors": ["src/Vec.hpp:operator+", "src/Vec.hpp:operator-", "src/Vec.hpp:operator*", "src/Vec.hpp:operator/", "src/Mat.hpp:operator+", "src/Mat.hpp:operator-", "src/Mat.hpp:operator*", "src/Mat.hpp:operator/"]}
{"id": "C114", "title": "Rounding errors of products, traces and cross products over double", "statement": "Over double, a finite entry of a matrix product with inner size n differs from the exact one by at most (1 + 2^-53)^(n+1) - 1 times the sum of the absolute products, and about n 2^-1075; it is finite if that sum is at most 2^1021. A finite trace is off by at most (1 + 2^-53)^n - 1 times the sum of the absolute values, a finite entry of a cross product by at most about 2^-52 times the sum of its two absolute products. None of these fails.", "quantifier": "all finite doubles, all sizes", "why_tests_cant": "Error bounds over all inputs and sizes.", "anchors": ["src/Mat.hpp:operator*", "src/Mat.hpp:operator*=", "src/Mat.hpp:Mat::trace", "src/Vec.hpp:Vec::cross"]}
{"id": "C115", "title": "Printing an Int whatever the format flags", "statement": "Inserting an Int into an output stream writes its numeral as the stream's flags demand: in the base in force (dec, oct, hex), with a sign if showpos is set, on whichever side fields are adjusted (left, right, internal), with any fill character.", "quantifier": "all Ints, all formatting states without a pending field width", "why_tests_cant": "Unboundedly many numbers times all combinations of flags.", "anchors": ["src/Int.cpp:Int::print"]}
{"id": "C116", "title": "Printing an Int into a field", "statement": "out << setw(w) << x writes the numeral of x padded to w characters with the fill character on the side selected, as for a built-in integer.", "quantifier": "all Ints, widths, fill characters and adjustments", "why_tests_cant": "Unboundedly many numbers and widths.", "anchors": ["src/Int.cpp:Int::print"]}
{"id": "C117", "title": "Printing leaves the stream's format alone", "statement": "After an Int has been printed, the formatting state of the stream is what it was (the field width being reset as by any output), on a good stream and on one that is not.", "quantifier": "all Ints, all stream states", "why_tests_cant": "The whole state after every output, for all numbers.", "anchors": ["src/Int.cpp:Int::print"]}
{"id": "C118", "title": "Several insertions into one stream", "statement": "When any sequence of strings, integers, Ints, fractions, vectors, matrices, factors, terms and polynomials is inserted into a stream in decimal, without showpos or left, what is written is the sequence of their texts, and the stream stays of that kind. Into a stream that is not good nothing is written.", "quantifier": "all sequences of any length, all objects", "why_tests_cant": "Sequences of any length; the state carried from one output to the next.", "anchors": ["src/Int.cpp:Int::print", "src/Frac.cpp:Frac::print", "src/Vec.hpp:operator<<", "src/Mat.hpp:operator<<", "src/Poly.hpp:operator<<"]}
{"id": "C119", "title": "Row reduction over double", "statement": "rref() and inplace_rref() of a matrix of doubles never fail, whatever the entries. If all entries of the result are finite, the result is in reduced row echelon form exactly, in spite of the rounding: leading entries are 1, the rest of their columns is 0, and the steps go down to the right. A column of the argument with an infinity or a NaN keeps one.", "quantifier": "all doubles including infinities and NaN, all sizes", "why_tests_cant": "Unbounded sizes, 2^64 values per entry; whether rounding spoils the shape cannot be settled by samples.", "anchors": ["src/Mat.hpp:rref", "src/Mat.hpp:inplace_rref"]}
{"id": "C120", "title": "Inverses over double", "statement": "inverse() of a square matrix of doubles throws domain_error exactly if the matrix is singular or has an entry that is not finite, and otherwise returns the inverse up to rounding.", "quantifier": "all doubles, all sizes", "why_tests_cant": "Rounding can make a singular matrix pass for a regular one in rare cases.", "anchors": ["src/Mat.hpp:inverse"]}
{"id": "C121", "title": "determinant() over double", "statement": "determinant() of a matrix of doubles never fails on finite entries, differs from the exact determinant only by rounding errors relative to the products it is made of, and is zero exactly if the matrix is singular.", "quantifier": "all finite doubles, all sizes", "why_tests_cant": "Rare cancellations.", "anchors": ["src/Mat.hpp:determinant"]}
{"id": "C122", "title": "Cofactor expansions over double", "statement": "row_cofactor_expansion() and col_cofactor_expansion() of an n by n matrix of finite doubles never fail, and a finite result differs from the determinant by at most (1 + 2^-53)^((n-1)(n+4)/2) - 1 times the sum of the absolute values of the n! products the determinant consists of, and a term for products near zero. The result is finite unless that sum is huge.", "quantifier": "all finite doubles, all sizes n > 0", "why_tests_cant": "Error bound over all inputs and sizes.", "anchors": ["src/Mat.hpp:row_cofactor_expansion", "src/Mat.hpp:col_cofactor_expansion"]}
{"id": "C123", "title": "Sums and comparisons take linear time", "statement": "Comparing, negating, adding or subtracting Ints of n and m bins (nine decimal digits each) takes a number of steps (bins read, written or copied) that is at most a constant times n + m.", "quantifier": "all Ints of all lengths", "why_tests_cant": "A time bound for all sizes cannot be measured.", "anchors": ["src/Int.cpp:cmp", "src/Int.cpp:operator+", "src/Int.cpp:operator-", "src/Int.cpp:Int::operator+=", "src/Int.cpp:Int::operator-=", "src/Int.cpp:Int::negate"]}
{"id": "C124", "title": "Multiplication takes time n m", "statement": "Multiplying Ints of n and m bins takes at most a constant times n m steps, as schoolbook multiplication does.", "quantifier": "all Ints of all lengths", "why_tests_cant": "A time bound for all sizes cannot be measured.", "anchors": ["src/Int.cpp:operator*", "src/Int.cpp:Int::operator*=", "src/Int.cpp:multiply", "src/Int.cpp:multiply_by_int"]}
{"id": "C125", "title": "Division takes time n k", "statement": "Dividing an Int of n bins by one of k bins, or taking the remainder, takes at most a constant times n k steps, as schoolbook division does.", "quantifier": "all Ints of all lengths", "why_tests_cant": "A time bound for all sizes cannot be measured.", "anchors": ["src/Int.cpp:operator/", "src/Int.cpp:operator%", "src/Int.cpp:Int::divide", "src/Int.cpp:quotient_and_remainder", "src/Int.cpp:modulo"]}
{"id": "C126", "title": "Exponentiation recurses logarithmically", "statement": "Computing x ^ y for y >= 1 makes at most 2 log2(y) + 1 calls (the source says about log2(y)), so the recursion is no deeper than that; when the power is right the number is exactly the number of binary digits of y after the first plus the number of ones among its binary digits.", "quantifier": "all Ints x, all canonical y >= 1", "why_tests_cant": "Unbounded exponents.", "anchors": ["src/Int.cpp:exponentiate", "src/Int.cpp:operator^", "src/Int.cpp:Int::operator^="]}
{"id": "C127", "title": "Reducing a fraction takes few remainders", "statement": "Euclid's algorithm computes at most five remainders per decimal digit of the smaller of numerator and denominator, and the number of its steps is at most a constant times k n^3 for k bins in the shorter and n bins in the longer one.", "quantifier": "all canonical Ints", "why_tests_cant": "The worst cases are consecutive Fibonacci numbers; a bound for all sizes cannot be measured.", "anchors": ["src/Frac.cpp:Frac::GCD", "src/Frac.cpp:Frac::nochecks_gcd", "src/Frac.cpp:Frac::normalize"]}
{"id": "C128", "title": "Frac without assertions", "statement": "Compiled without assertions, construction of a Frac (from numbers, text, a stream or a double) and every arithmetic operation on Fracs in lowest terms gives the exact rational number in lowest terms or throws out_of_range; it throws exactly where the build with assertions aborts, and otherwise both builds do the same. Powers are as exact as those of Int.", "quantifier": "all Fracs in lowest terms, all canonical Ints, all texts", "why_tests_cant": "Whether an unchecked precondition shows in a result depends on all digits of all remainders of Euclid's algorithm.", "anchors": ["src/Frac.cpp:Frac::normalize", "src/Frac.cpp:Frac::GCD", "src/Frac.cpp:operator+", "src/Frac.cpp:operator+=", "src/Frac.cpp:operator>>", "src/Frac.cpp:Frac::from_double", "src/Int.cpp:Int::divide"]}
{"id": "C129", "title": "Exceptions leave Fracs unchanged", "statement": "Compiled without assertions, a compound assignment to a Frac that throws out_of_range leaves its left operand, and all other variables, as they were.", "quantifier": "all Fracs in lowest terms", "why_tests_cant": "Infinite domain; what is left depends on where in the reduction the exception strikes.", "anchors": ["src/Frac.cpp:operator+=", "src/Frac.cpp:operator-=", "src/Frac.cpp:operator*=", "src/Frac.cpp:operator/=", "src/Frac.cpp:operator^=", "src/Frac.cpp:Frac::normalize"]}
{"id": "C130", "title": "Going on after an exception", "statement": "Compiled without assertions, a program may catch out_of_range and go on with the Fracs the exception has left, even if they are not in lowest terms: as long as no denominator is zero every operator gives the exact result in lowest terms or throws again, orders compare by value, and == is never true for different values. Zero denominators do not spread through operators that return a new Frac. No such program aborts or has undefined behaviour.", "quantifier": "all Fracs with well-formed parts, all programs", "why_tests_cant": "Quantifies over everything an exception can leave and over unbounded programs.", "anchors": ["src/Frac.cpp:operator+", "src/Frac.cpp:operator+=", "src/Frac.cpp:operator<", "src/Frac.cpp:operator==", "src/Frac.cpp:Frac::normalize"]}
{"id": "C131", "title": "Programs with Fracs without assertions", "statement": "Compiled without assertions, a program over Frac variables that never divides in place by zero nor raises in place to a negative power computes the same values as over the rational numbers, or throws out_of_range, exactly where a reduction meets a division of Ints that loses a bin.", "quantifier": "all programs, all start values in lowest terms, any number of steps", "why_tests_cant": "Unbounded programs.", "anchors": ["src/Frac.cpp:Frac", "src/Frac.cpp:Frac::normalize"]}
{"id": "C132", "title": "Vectors and matrices without assertions", "statement": "Compiled without assertions, computations with vectors and matrices over Int and Frac return whatever they return with assertions. Over Frac they are exact or throw out_of_range, as long as they do not divide by zero. Over Int cofactor expansions never fail, elimination without fractions is exact or throws out_of_range, and no elimination has undefined behaviour.", "quantifier": "all computations, all sizes, all entries", "why_tests_cant": "Unbounded sizes and programs.", "anchors": ["src/Vec.hpp:Vec", "src/Mat.hpp:determinant", "src/Mat.hpp:row_cofactor_expansion", "src/Mat.hpp:rref", "src/Mat.hpp:inverse"]}
{"id": "C133", "title": "Output of vectors and matrices of double", "statement": "Writing a vector or a matrix of doubles to a stream with precision p >= 1 in the default format shows every finite entry as the decimal number with at most p significant digits that is nearest to it (ties: even digit), so with a relative error of at most 5/10^p. Plain notation is used for rounded values from 10^-4 up to 10^p and for zero, an exponent otherwise, never with superfluous zeros; whole numbers of at most p digits appear as their numeral. Entries other than zero look the same exactly if they round to the same number, and from 17 digits on different values always look different.", "quantifier": "all finite doubles, all precisions >= 1, all sizes", "why_tests_cant": "There are 2^64 doubles and every precision has its own ties and carries.", "anchors": ["src/Vec.hpp:operator<<", "src/Mat.hpp:operator<<"]}
{"id": "C134", "title": "Matrices when memory runs out", "statement": "However requests for memory are refused, a computation with matrices ends as it would with unlimited memory, or throws what it would throw then, or throws bad_alloc. Every variable then still holds a matrix in memory of its own: that of before, except that a matrix changed in place may be half changed. Nothing is leaked or freed twice, and a block in a try statement that is left by bad_alloc gives back all the memory it has taken.", "quantifier": "all programs with matrices of any sizes over any scalar type, all patterns of refused requests, all choices of copy elision", "why_tests_cant": "Every request in every program can fail; tests do not make allocations fail, and leaks and double frees need not show.", "anchors": ["src/Mat.hpp:Mat::Mat", "src/Mat.hpp:Mat::~Mat", "src/Mat.hpp:Mat::operator=", "src/Mat.hpp:Mat::swap", "src/Mat.hpp:inverse", "src/Mat.hpp:rref", "src/Mat.hpp:augmentedMatrix", "src/Mat.hpp:Mat::operator*="]}
{"id": "C135", "title": "Matrices that are too large", "statement": "Constructing a matrix with given dimensions makes a matrix with that many entries or throws bad_alloc, whatever the dimensions.", "quantifier": "all dimensions of type size_t, all patterns of refused requests", "why_tests_cant": "Dimensions whose product exceeds 2^64 do not occur in tests.", "anchors": ["src/Mat.hpp:Mat::Mat", "src/Mat.hpp:identityMatrix"]}
{"id": "C136", "title": "Memory needs of matrix computations", "statement": "An operation on matrices whose entries need no memory of their own fails for lack of memory only if less is free than a fixed number of copies of its operands and result; determinant() needs one copy of the matrix, a cofactor expansion of an n by n matrix at most n^3 entries although it computes about n! minors, inverse() five copies.", "quantifier": "all matrices of all sizes, all statements, all states of memory", "why_tests_cant": "Peak memory for all sizes cannot be measured.", "anchors": ["src/Mat.hpp:determinant", "src/Mat.hpp:row_cofactor_expansion", "src/Mat.hpp:col_cofactor_expansion", "src/Mat.hpp:inverse", "src/Mat.hpp:operator*"]}
{"id": "C137", "title": "Solving diagonally dominant systems over double", "statement": "If in a square matrix A of doubles the diagonal clearly exceeds the rest of every column, or of every row, then augmentedMatrix(A, B).rref() does not fail and is (1 | X) with the identity matrix exactly and X close to the solution of A Y = B, with an explicit bound on the error, as long as the numbers stay far from the limits of double.", "quantifier": "all sizes, all numbers of right-hand sides, all such matrices of doubles", "why_tests_cant": "Rounding errors pile up over unboundedly many rounds; a bound for all inputs cannot be sampled.", "anchors": ["src/Mat.hpp:augmentedMatrix", "src/Mat.hpp:rref", "src/Mat.hpp:inplace_rref"]}
{"id": "C138", "title": "Int arithmetic when memory runs out", "statement": "However requests for memory are refused, an operation on Ints ends with the result, or the exception, it would have with unlimited memory, or throws bad_alloc; the last only if one of the requests the operation itself makes is refused. So a result is the right number whenever there is one.", "quantifier": "all Ints, all operators and compound assignments, powers, negation, absolute values and times_power_ten, all patterns of refused requests", "why_tests_cant": "Every request in every operation can fail; tests do not make allocations fail.", "anchors": ["src/Int.cpp:operator+", "src/Int.cpp:operator-", "src/Int.cpp:operator*", "src/Int.cpp:operator/", "src/Int.cpp:operator%", "src/Int.cpp:operator^", "src/Int.cpp:Int::operator+=", "src/Int.cpp:Int::operator-=", "src/Int.cpp:Int::operator*=", "src/Int.cpp:Int::operator/=", "src/Int.cpp:Int::operator%=", "src/Int.cpp:Int::operator^=", "src/Int.cpp:Int::times_power_ten"]}
{"id": "C139", "title": "An assignment that throws leaves the Int unchanged", "statement": "A compound assignment to an Int that throws bad_alloc leaves its left operand as it was.", "quantifier": "all Ints, all compound assignments, all patterns of refused requests", "why_tests_cant": "What is left depends on which of many requests is refused, for operands of any length.", "anchors": ["src/Int.cpp:Int::operator+=", "src/Int.cpp:Int::operator-=", "src/Int.cpp:Int::operator*=", "src/Int.cpp:Int::operator/=", "src/Int.cpp:Int::operator%=", "src/Int.cpp:Int::operator^="]}
{"id": "C140", "title": "After bad_alloc an Int is still a number", "statement": "After a compound assignment or times_power_ten has thrown bad_alloc, its left operand still holds some number and can be used like any other Int.", "quantifier": "all Ints, all compound assignments and powers of ten, all patterns of refused requests", "why_tests_cant": "As for C139.", "anchors": ["src/Int.cpp:Int::operator+=", "src/Int.cpp:Int::operator-=", "src/Int.cpp:Int::operator*=", "src/Int.cpp:Int::operator/=", "src/Int.cpp:Int::operator%=", "src/Int.cpp:Int::operator^=", "src/Int.cpp:Int::times_power_ten"]}
{"id": "C141", "title": "Frac arithmetic when memory runs out", "statement": "However requests for memory are refused, an operation on fractions ends with the result, or the exception, it would have with unlimited memory, or throws bad_alloc; the last only if one of the requests the operation itself makes is refused. So a result is the right number in lowest terms whenever there is one.", "quantifier": "all fractions, all operators between Frac and Frac or Int, construction from two Ints, reciprocals, powers, comparison, compound assignments, all patterns of refused requests", "why_tests_cant": "Every request in every operation can fail; tests do not make allocations fail.", "anchors": ["src/Frac.hpp:operator+", "src/Frac.hpp:operator-", "src/Frac.hpp:operator*", "src/Frac.hpp:operator/", "src/Frac.cpp:operator^", "src/Frac.cpp:operator+=", "src/Frac.cpp:operator-=", "src/Frac.cpp:operator*=", "src/Frac.cpp:operator/=", "src/Frac.cpp:operator^=", "src/Frac.cpp:Frac::normalize", "src/Frac.cpp:Frac::GCD"]}
{"id": "C142", "title": "After bad_alloc a Frac is unchanged or at least a fraction", "statement": "A compound assignment to a Frac that throws bad_alloc leaves its left operand as it was; at the least it is still a fraction, made of two numbers of which the lower one is positive.", "quantifier": "all fractions, all compound assignments with a Frac or an Int, all patterns of refused requests", "why_tests_cant": "What is left depends on which of many requests is refused, for operands of any length.", "anchors": ["src/Frac.cpp:operator+=", "src/Frac.cpp:operator-=", "src/Frac.cpp:operator*=", "src/Frac.cpp:operator/=", "src/Frac.cpp:operator^=", "src/Frac.cpp:Frac::normalize"]}
{"id": "C143", "title": "Reading an Int when memory runs out", "statement": "However requests for memory are refused, reading an Int from a stream or constructing it from a string either gives the number that is written there, or reports a failure by an exception or in the state of the stream.", "quantifier": "all streams and strings, all numbers, all patterns of refused requests", "why_tests_cant": "Every request while reading can fail, for every digit; tests do not make allocations fail.", "anchors": ["src/Int.cpp:Int::read", "src/Int.cpp:parse_int", "src/Int.cpp:Int::Int"]}
{"id": "C144", "title": "After a failed read an Int is unchanged or at least a number", "statement": "When reading an Int from a stream throws an exception for lack of memory, the Int keeps its value, or at the least holds some number.", "quantifier": "all streams, all numbers before, all patterns of refused requests", "why_tests_cant": "What is left depends on which of many requests is refused, for texts of any length.", "anchors": ["src/Int.cpp:Int::read", "src/Int.cpp:parse_int"]}
{"id": "C145", "title": "Output to a device that fails", "statement": "If the device behind an output stream refuses characters (a full disk, a string stream without memory), inserting numbers, vectors, matrices and polynomials writes a beginning of the right text and nothing else, and the stream says that it has failed; a stream that is still good afterwards has got the whole text.", "quantifier": "all sequences of objects of any length, all stream states, all patterns of refused output", "why_tests_cant": "Devices can fail at any character of any output; tests write to devices that do not fail.", "anchors": ["src/Int.cpp:Int::print", "src/Frac.cpp:Frac::print", "src/Vec.hpp:operator<<", "src/Mat.hpp:operator<<", "src/Poly.hpp:operator<<"]}
{"id": "C146", "title": "Reading a Frac when memory runs out", "statement": "However requests for memory are refused, reading a Frac from a stream or constructing it from a string either gives the fraction that is written there, or reports a failure by an exception or in the state of the stream.", "quantifier": "all streams and strings, all fractions, all patterns of refused requests", "why_tests_cant": "Every request while reading can fail, for every digit; tests do not make allocations fail.", "anchors": ["src/Frac.cpp:Frac::read", "src/Frac.cpp:Frac::Frac", "src/Frac.cpp:Frac::normalize"]}
{"id": "C147", "title": "Converting a double when memory runs out", "statement": "However requests for memory are refused, Frac::from_double either gives the number that is printed with the given precision, or throws an exception.", "quantifier": "all doubles, all precisions, all patterns of refused requests", "why_tests_cant": "Every request can fail, for every digit; tests do not make allocations fail.", "anchors": ["src/Frac.cpp:Frac::from_double"]}
{"id": "C148", "title": "Any history of calls computes with polynomials", "statement": "Whatever sequence of calls of the public interface of Factor, Term and Poly a program makes, on any objects and in any order, with operands that may be the same object, every object stands for what the same sequence computes with (Laurent) polynomials over the rational numbers, and every object the calls do not name is as before.", "quantifier": "all sequences of calls, of any length, all values, all identities between operands", "why_tests_cant": "Tests run a handful of sequences; what one call leaves behind is what the next one starts from, and there are infinitely many sequences.", "anchors": ["src/Poly.hpp:Factor", "src/Poly.hpp:Term", "src/Poly.hpp:Poly"]}
{"id": "C149", "title": "Going on after bad_alloc", "statement": "A program that catches the exceptions of each of its statements with Ints can go on after bad_alloc: every later statement that ends normally has computed the exact result from what its operands hold, every exception is bad_alloc or the report of a real division by zero, and a statement that throws changes at most the Int it assigns.", "quantifier": "all programs of assignments and compound assignments, of any length, all values, all patterns of refused requests", "why_tests_cant": "What a failed statement leaves behind is what the following ones work with; there are infinitely many programs and patterns of failure.", "anchors": ["src/Int.cpp:operator+", "src/Int.cpp:operator-", "src/Int.cpp:operator*", "src/Int.cpp:operator/", "src/Int.cpp:operator%", "src/Int.cpp:Int::operator+=", "src/Int.cpp:Int::operator-=", "src/Int.cpp:Int::operator*=", "src/Int.cpp:Int::operator/=", "src/Int.cpp:Int::operator%="]}
{"id": "C150", "title": "Trying again after bad_alloc", "statement": "A statement with Ints that has thrown bad_alloc can be tried again: if a program does so with each of its statements and ends normally, its Ints hold the results they would have with unlimited memory; and if at most n requests are refused, n+1 attempts at each statement are enough.", "quantifier": "all programs of assignments and compound assignments, of any length, all values, all patterns of refused requests, all numbers of attempts", "why_tests_cant": "As for C149.", "anchors": ["src/Int.cpp:operator+", "src/Int.cpp:operator-", "src/Int.cpp:operator*", "src/Int.cpp:operator/", "src/Int.cpp:operator%", "src/Int.cpp:Int::operator+=", "src/Int.cpp:Int::operator-=", "src/Int.cpp:Int::operator*=", "src/Int.cpp:Int::operator/=", "src/Int.cpp:Int::operator%="]}
{"id": "C151", "title": "Polynomials when memory runs out", "statement": "When memory runs out in a program that uses Factor, Term and Poly, the program gets bad_alloc and not a wrong polynomial: whatever sequence of calls ends normally has left in every object what it leaves with unlimited memory, and a sequence that does not end normally fails as it does with unlimited memory or throws bad_alloc after one of its own requests has been refused.", "quantifier": "all sequences of calls, of any length, all values, all patterns of refused requests, whatever failed assignments leave", "why_tests_cant": "Tests never run out of memory, and the number of patterns of failure grows with the length of the program.", "anchors": ["src/Poly.hpp:Factor", "src/Poly.hpp:Term", "src/Poly.hpp:Poly"]}
{"id": "C152", "title": "A failed operation on polynomials has no effect", "statement": "A call on a Factor, Term or Poly that throws bad_alloc leaves every object as it was, including the one it should have changed.", "quantifier": "all calls, all values, all patterns of refused requests", "why_tests_cant": "As for C151.", "anchors": ["src/Poly.hpp:Factor", "src/Poly.hpp:Term", "src/Poly.hpp:Poly"]}
{"id": "C153", "title": "Trying again with polynomials", "statement": "A call on a Factor, Term or Poly that has thrown bad_alloc can be tried again: if a program does so with each of its calls and ends normally, its objects stand for what the calls compute with polynomials; and if at most n requests are refused, n+1 attempts at each call are enough.", "quantifier": "all sequences of calls, of any length, all values, all patterns of refused requests, all numbers of attempts", "why_tests_cant": "As for C151.", "anchors": ["src/Poly.hpp:Factor", "src/Poly.hpp:Term", "src/Poly.hpp:Poly"]}
{"id": "C154", "title": "Programs with fractions when memory runs out", "statement": "Whatever requests for memory are refused, a program of assignments and compound assignments with Frac variables that divides by no zero either ends with every variable in lowest terms and exactly the values the program computes with rational numbers, or throws bad_alloc (only if one of its own requests was refused), or fails in an assertion that fails also with unlimited memory. A division by zero outside /= is never passed over.", "quantifier": "all sequences of statements, of any length, all values, all patterns of refused requests, anything failed assignments leave", "why_tests_cant": "Memory is never refused in the tests, and there are infinitely many programs, values and patterns of refusals.", "anchors": ["src/Frac.cpp:operator+=", "src/Frac.cpp:operator-=", "src/Frac.cpp:operator*=", "src/Frac.cpp:operator/=", "src/Frac.hpp:Frac(const Int&, const Int&)", "src/Frac.hpp:reciprocal"]}
{"id": "C155", "title": "Trying again with fractions", "statement": "A statement on Fracs that has thrown bad_alloc can be tried again: if a program does so with each of its statements and ends normally, its variables hold the values that the program computes with rational numbers; and if at most n requests are refused, n+1 attempts at each statement are enough.", "quantifier": "all sequences of statements, of any length, all values, all patterns of refused requests, all numbers of attempts", "why_tests_cant": "As for C154.", "anchors": ["src/Frac.cpp:operator+=", "src/Frac.cpp:operator/=", "src/Frac.hpp:Frac(const Int&, const Int&)", "src/Frac.hpp:reciprocal"]}
{"id": "C156", "title": "Polynomials without assertions", "statement": "Compiled without assertions, any sequence of calls of the public interface of Factor, Term and Poly on valid objects does what it does with assertions, except that it throws out_of_range exactly where an assertion fails in the other build. So a sequence that ends normally leaves objects that stand for what it computes with Laurent polynomials over the rational numbers.", "quantifier": "all sequences of calls, of any length, all objects, with operands that may be the same object", "why_tests_cant": "The tests are built with assertions, and sequences, exponents and coefficients are unbounded.", "anchors": ["src/Poly.hpp:Factor", "src/Poly.hpp:Term", "src/Poly.hpp:Poly"]}
{"id": "C157", "title": "Exceptions leave polynomials unchanged", "statement": "Compiled without assertions, a call on Factor, Term or Poly objects that throws out_of_range leaves all objects as they were, so that a program may catch the exception and go on.", "quantifier": "all calls, all valid objects, programs of any length", "why_tests_cant": "As for C156; the tests never catch out_of_range.", "anchors": ["src/Poly.hpp:operator*=", "src/Poly.hpp:negate", "src/Poly.hpp:appendTerm", "src/Poly.hpp:operator+=", "src/Poly.hpp:operator-="]}
