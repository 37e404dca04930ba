import json
P=[]
def p(id,title,statement,quantifier,why,anchors):
    P.append(dict(id=id,title=title,statement=statement,quantifier=quantifier,why_tests_cant=why,anchors=anchors))
I="src/Int.cpp"; IH="src/Int.hpp"; F="src/Frac.cpp"; FH="src/Frac.hpp"; V="src/Vec.hpp"; M="src/Mat.hpp"; PO="src/Poly.hpp"; CM="src/common.hpp"
INF="The operand space is infinite (arbitrarily many 9-digit bins, every carry/borrow pattern); the tests sample a few hundred literals."
p("C01","Addition of Ints is exact","x + y and x += y return an Int whose value is exactly the integer sum, in canonical form (no leading zero bins, no negative zero), without exception, abort or machine-integer overflow.","all pairs of canonical Ints of any size and sign",INF,[f"{I}:operator+",f"{I}:Int::operator+=",f"{I}:Int::add"])
p("C02","Subtraction of Ints is exact","x - y and x -= y return an Int whose value is exactly the integer difference, in canonical form, and no internal assertion fires.","all pairs of canonical Ints of any size and sign",INF,[f"{I}:operator-",f"{I}:Int::operator-=",f"{I}:Int::subtract"])
p("C03","Multiplication of Ints is exact","x * y returns an Int whose value is exactly the integer product, in canonical form; no 64-bit intermediate overflows.","all pairs of canonical Ints of any size and sign",INF,[f"{I}:operator*",f"{I}:multiply",f"{I}:multiply_by_int"])
p("C04","Compound multiplication agrees with multiplication","After x *= y, x equals x * y in value, is canonical and prints the same as x * y.","all pairs of canonical Ints","Only fails when an operand is zero and the other is negative or has several bins; the tests compare with == which hides the difference.",[f"{I}:Int::operator*="])
p("C05","Division truncates toward zero","Whenever x / y (or x /= y) returns, the result is canonical and equals the quotient truncated toward zero; it throws divide_by_zero_error exactly when y is zero.","all pairs of canonical Ints",INF,[f"{I}:Int::divide",f"{I}:quotient_and_remainder",f"{I}:iter_quotient"])
p("C06","Division always returns for a nonzero divisor","For every nonzero divisor x / y returns a value (no abort, no other exception).","all pairs of canonical Ints with nonzero divisor","Whether the call survives depends on a zero bin pattern of the dividend relative to the quotient length, which random operands hit with probability about 1e-9.",[f"{I}:Int::divide",f"{I}:Int::cleanBins"])
p("C07","Modulo is the floored remainder","Whenever x % y returns, the result is x - y*floor(x/y): it is zero or has the sign of y and is smaller than y in absolute value; it throws divide_by_zero_error exactly when y is zero.","all pairs of canonical Ints of all sign combinations",INF,[f"{I}:modulo",f"{I}:operator%"])
p("C08","Exponentiation is exact for nonnegative exponents","x ^ y and x ^= y equal the y-th power of x for every y >= 0.","all canonical bases and all nonnegative exponents","Exponents of 10^9 and above cannot be tested with interesting bases; the property quantifies over all of them.",[f"{I}:exponentiate",f"{I}:Int::equals_int32",f"{I}:divide_by_int"])
p("C09","Exponentiation by a negative exponent","x ^ y for y < 0 gives a well-defined documented result (an exception or the truncated reciprocal power).","all canonical bases and negative exponents","No test exercises negative exponents; the outcome must be known for every exponent.",[f"{I}:exponentiate"])
p("C10","Comparison operators are the integer order","<, >, <=, >=, ==, != and cmp agree with the order of the represented integers, also for Ints with leading zero bins and for negative zero.","all pairs of well-formed Ints, canonical or not",INF,[f"{I}:Int::cmp",f"{I}:Int::cmp_bins",f"{IH}:Int::operator<"])
p("C11","Negation and absolute value","-x has the negated value, negating twice gives back x, -x never yields a negative zero, and abs(x) is the absolute value.","all canonical Ints",INF,[f"{I}:operator-(const Int&)",f"{IH}:Int::negate",f"{CM}:abs"])
p("C12","Printing gives the decimal numeral","operator<< writes exactly the usual decimal numeral: a '-' for negative numbers and no leading zeros.","all canonical Ints; for Ints with leading zero bins too",INF,[f"{I}:Int::print"])
p("C13","String construction accepts exactly decimal integers","Int(s) succeeds exactly on strings of the form -?[0-9]+ and then has the value the numeral denotes (leading zeros allowed, -0 is 0) in canonical form; every other string throws invalid_argument.","all strings (shorter than 2^31 digits)","Infinitely many strings; acceptance depends on stream state flags.",[f"{I}:Int::Int(const std::string&)",f"{I}:Int::read",f"{I}:parse_int"])
p("C14","Print/parse round trip","Int(str(x)) is identical to x for every canonical x, where str is what operator<< prints.","all canonical Ints",INF,[f"{I}:Int::print",f"{I}:Int::read"])
p("C15","Stream extraction of an Int","in >> x consumes exactly the longest prefix of the form -?[0-9]+ and stores its value; if there is no such prefix it sets failbit, leaves the read position and x unchanged; it never throws.","all stream contents and all previous values of x","Depends on the interplay of peek/get/unget with eofbit and failbit on arbitrary content.",[f"{I}:Int::read",f"{I}:operator>>"])
p("C16","Construction from a machine integer","Int(k, s) has value k * 10^(9 s) and is canonical for every 64-bit k except INT64_MIN, for which the behaviour is undefined.","all 64-bit k and all shifts","2^64 inputs times unbounded shifts.",[f"{I}:Int::Int(int64_t,size_t)"])
p("C17","set_value and equals_int32","set_value(v) makes the Int equal to v, and equals_int32(v) is true exactly when the Int has value v.","all canonical Ints and all 32-bit v","Fails only for multi-bin multiples of 10^9 or |v| >= 10^9, which the tests never use.",[f"{I}:Int::set_value",f"{I}:Int::equals_int32"])
p("C18","times_power_ten scales by a power of ten","x.times_power_ten(p) multiplies by 10^p for p >= 0 and divides by 10^-p truncating toward zero for p < 0.","all canonical Ints and all 32-bit p",INF,[f"{I}:Int::times_power_ten"])
p("C19","No undefined behaviour in Int arithmetic","On well-formed Ints no arithmetic, comparison or printing operation overflows a machine integer, indexes a deque out of range or fails to terminate: the only failures are divide_by_zero_error and the internal assertions.","all well-formed Ints (bins in range), canonical or not","Overflow and out-of-range access must be excluded for all bin contents.",[f"{I}:Int::add",f"{I}:Int::subtract",f"{I}:multiply_by_int",f"{I}:iter_quotient",f"{I}:Int::divide"])
p("C20","Compound assignment is safe under aliasing","x op= x gives the same result as x op= y where y is a separate copy of x, for +=, -=, *=, /=, %=, ^=.","all canonical Ints","Aliasing bugs depend on the carry/borrow pattern and sign; tests try one or two literals.",[f"{I}:Int::operator+=",f"{I}:Int::operator-=",f"{I}:Int::operator/="])
p("C21","Binary and compound operators agree","x op y and the value of x after x op= y compare equal, or fail in the same way, for +, -, *, /, %, ^.","all pairs of canonical Ints",INF,[f"{I}:operator+",f"{I}:Int::operator+=",f"{I}:operator/",f"{I}:Int::operator/="])
p("C22","Any history of Int operations refines integer arithmetic","Running any program of assignments and compound assignments (with aliasing) over a set of Int variables yields, after every step that returns, variables whose values are those of the same program over mathematical integers; a failed step leaves the variables unchanged.","all finite programs over any number of Int variables","The number of histories is infinite; a representation defect left behind by one operation only shows in a later one.",[f"{I}:Int::operator+=",f"{I}:Int::operator-=",f"{I}:Int::operator*=",f"{I}:Int::operator/=",f"{I}:Int::operator%="])
p("C23","Ring laws are observable","Through ==, addition and multiplication of Ints are commutative and associative, multiplication distributes, 0 and 1 are neutral, and x - y == x + (-y).","all triples of canonical Ints",INF,[f"{I}:operator+",f"{I}:operator*",f"{IH}:Int::operator=="])
p("C24","Division with remainder by digit search","quotient_and_remainder(y, x) returns the exact quotient digit and remainder whenever 0 < x <= y < 10^9 x, with no overflow and a bounded number of iterations.","all canonical x, y in that range",INF,[f"{I}:quotient_and_remainder",f"{I}:iter_quotient"])
p("C25","divide_by_int","divide_by_int(x, d) has magnitude floor(|x|/d) for 0 < d < 2^31 and throws divide_by_zero_error for d = 0.","all well-formed Ints and all positive 32-bit d",INF,[f"{I}:divide_by_int"])
p("C26","Division, multiplication and modulo are mutually consistent","Whenever both return, x == (x/y)*y + (truncated remainder), and x % y is congruent to x modulo y; for operands of equal sign (x/y)*y + x%y == x.","all pairs of canonical Ints with nonzero y",INF,[f"{I}:Int::divide",f"{I}:modulo"])
p("C30","Every Frac is in lowest terms","Every Frac produced by a constructor or operator that returns has a positive denominator coprime to the numerator, with both parts canonical Ints.","all argument values; all operators","The invariant must hold for every history of operations.",[f"{F}:Frac::normalize",f"{FH}:Frac"])
p("C31","Construction from numerator and denominator","Frac(a, b) represents a/b exactly whenever it returns and throws divide_by_zero_error exactly when b is zero.","all pairs of canonical Ints",INF,[f"{FH}:Frac::Frac(const Int&,const Int&)"])
p("C32","Frac addition, subtraction, multiplication are exact","Whenever x + y, x - y, x * y (and the compound forms) return, the result is exactly the rational sum, difference, product.","all pairs of valid Fracs",INF,[f"{FH}:operator+",f"{FH}:operator-",f"{FH}:operator*",f"{F}:operator+="])
p("C33","Frac division is exact and rejects zero","Whenever x / y returns the result is exactly the rational quotient; it throws divide_by_zero_error exactly when y is zero.","all pairs of valid Fracs",INF,[f"{FH}:operator/"])
p("C34","Compound Frac division rejects zero","x /= y behaves as x = x / y: it throws divide_by_zero_error when y (Frac or Int) is zero and never leaves x with a zero denominator.","all pairs of valid Fracs; all Frac/Int pairs","No test divides in place by zero.",[f"{F}:operator/="])
p("C35","Frac comparisons are the rational order","==, !=, <, >, <=, >= agree with equality and order of the represented rationals.","all pairs of valid Fracs",INF,[f"{FH}:operator==",f"{FH}:operator<"])
p("C36","GCD","Whenever GCD(a, b) returns it is the nonnegative greatest common divisor (GCD(0,0) = 0), and the Euclid loop terminates.","all pairs of canonical Ints of any sign",INF,[f"{F}:Frac::GCD",f"{F}:Frac::nochecks_gcd"])
p("C37","Frac exponentiation","Whenever x ^ a returns, the result is the exact a-th power, for positive, zero and negative integer a; 0 ^ a with a < 0 throws divide_by_zero_error.","all valid Fracs and all integer exponents",INF,[f"{F}:operator^"])
p("C38","Compound Frac exponentiation agrees","After x ^= a, x equals x ^ a, including negative exponents.","all valid Fracs and all integer exponents","Tests only use the exponent 3.",[f"{F}:operator^="])
p("C39","Mixed Frac/Int operators","a op x and x op a with an Int a give the same result as converting a to a Frac first, for +, -, *, / and the compound forms.","all valid Fracs and canonical Ints",INF,[f"{FH}:operator+(const Int&,const Frac&)",f"{F}:operator+=(Frac&,const Int&)"])
p("C40","Frac print/read round trip","Printing a Frac gives (num/den) and reading that text back with >> yields an identical Frac.","all valid Fracs",INF,[f"{F}:Frac::print",f"{F}:Frac::read"])
p("C41","Frac string constructor","Frac(s) accepts exactly the empty string (value 0), INT and INT/INT with nonzero denominator, represents that ratio in lowest terms when it returns, and throws invalid_argument otherwise.","all strings (shorter than 2^31)","Infinitely many strings.",[f"{F}:Frac::Frac(const string&)"])
p("C42","Frac stream extraction","in >> f reads INT, INT/INT, (INT) or (INT/INT); on success f is a valid Frac with that value; on failure f is unchanged and nothing is consumed.","all stream contents and previous values","Depends on stream state flags for arbitrary content.",[f"{F}:Frac::read"])
p("C43","from_double is exact on the printed decimal","Frac::from_double(x, p) equals exactly the decimal number printed for x with p fractional digits and is in lowest terms.","all finite doubles and precisions >= 1","2^64 doubles; the abort depends on the zero pattern of the printed digits.",[f"{F}:Frac::from_double"])
p("C44","Frac compound assignment is safe under aliasing","x op= x gives the same result as x op= y with y a separate copy, for +=, -=, *=, /=.","all valid Fracs",INF,[f"{F}:operator+=",f"{F}:operator/="])
p("C45","Frac arithmetic never aborts on moderate operands","When numerators and denominators are below 7*10^8 in magnitude, all Frac operators return (except for division by zero) and are exact.","all valid Fracs in that range","Range has about 10^36 pairs.",[f"{F}:Frac::normalize",f"{F}:Frac::GCD"])
p("C46","Reciprocal","x.reciprocal() is 1/x for nonzero x and throws divide_by_zero_error for zero; reciprocal twice gives back x.","all valid Fracs",INF,[f"{FH}:Frac::reciprocal"])
p("C47","Any history of Frac operations refines rational arithmetic","Running any program of compound assignments over Frac variables keeps every variable in lowest terms and equal to the rational computed by the same program, as long as steps return and no in-place division by zero or negative in-place power occurs.","all finite programs over any number of Frac variables","Infinitely many histories.",[f"{F}:operator+=",f"{F}:operator-=",f"{F}:operator*=",f"{F}:operator/="])
VT="Vec is a template: the law must hold for every length and every entry value."
p("C50","Vec addition and subtraction","x + y, x - y, x += y, x -= y are entrywise, and throw invalid_argument exactly when the lengths differ.","all vectors of all lengths over any exact scalar type",VT,[f"{V}:operator+",f"{V}:operator-=",f"{V}:operator+="])
p("C51","Vec scaling","a * x, x * a, x *= a multiply and x / a, x /= a divide every entry by the scalar (a not an alias of an entry).","all vectors and scalars",VT,[f"{V}:operator*",f"{V}:operator/"])
p("C52","Dot product","x.dot(y) is the sum of entrywise products, symmetric and bilinear; throws invalid_argument exactly when the lengths differ.","all vectors",VT,[f"{V}:Vec::dot"])
p("C53","Cross product","x.cross(y) is orthogonal to both arguments, anticommutative, satisfies |x cross y|^2 = |x|^2|y|^2-(x.y)^2; throws invalid_argument unless both lengths are 3.","all vectors over a commutative ring",VT,[f"{V}:Vec::cross"])
p("C54","Triple products","scalar_triple_product(x,y,z) is the determinant of the rows x,y,z and vector_triple_product(x,y,z) = y(x.z) - z(x.y).","all length-3 vectors",VT,[f"{V}:Vec::scalar_triple_product",f"{V}:Vec::vector_triple_product"])
p("C55","Concatenation and constant vectors","x.concatenate(y) has the entries of x followed by those of y; constantVec(n, v) has n entries v.","all vectors, sizes, values",VT,[f"{V}:Vec::concatenate",f"{V}:Vec::constantVec"])
p("C56","Vec equality","x == y holds exactly when the lengths and all entries agree.","all vectors",VT,[f"{V}:operator=="])
p("C57","Vec output","operator<< prints the entries in parentheses separated by ', ' and () for the empty vector.","all vectors",VT,[f"{V}:operator<<"])
p("C58","Scaling by one's own entry","x *= x[k] and x /= x[k] scale every entry by the value x[k] had before the call.","all vectors and indices k","Reference aliasing; no test passes an entry of the vector itself.",[f"{V}:operator*=",f"{V}:operator/="])
p("C59","Vec setEntries","setEntries(vals, n) overwrites all entries with the first size() values and throws invalid_argument, leaving the vector unchanged, exactly when n < size().","all vectors and arrays",VT,[f"{V}:Vec::setEntries"])
MT="Mat is a template over all sizes and scalar types; every dimension and entry pattern must be covered."
p("C61","Mat entrywise operations","+, -, unary -, scalar * and /, and their compound forms act entrywise; binary forms throw domain_error exactly when dimensions differ.","all matrices of all sizes",MT,[f"{M}:operator+",f"{M}:operator-",f"{M}:operator*=",f"{M}:operator/="])
p("C62","Mat product","a * b and a *= b are the matrix product and throw domain_error exactly when a.cols != b.rows.","all matrices of all sizes",MT,[f"{M}:operator*",f"{M}:operator*="])
p("C63","Transpose and trace","transpose swaps indices and is an involution; trace is the sum of the diagonal and throws domain_error exactly for non-square matrices.","all matrices",MT,[f"{M}:Mat::transpose",f"{M}:Mat::trace"])
p("C64","Minors","first_minor(i, j) deletes row i and column j; cofactor(i, j) is the minor negated when i + j is odd.","all matrices with at least one row and column, all i, j in range",MT,[f"{M}:Mat::first_minor",f"{M}:Mat::cofactor"])
p("C65","Cofactor expansions compute the determinant","row_cofactor_expansion() and col_cofactor_expansion() equal the determinant of every square matrix with at least one row, over any commutative ring; they throw domain_error exactly for non-square matrices.","all square matrices",MT,[f"{M}:Mat::row_cofactor_expansion",f"{M}:Mat::col_cofactor_expansion"])
p("C66","determinant() computes the determinant","determinant() equals the determinant of every square matrix over an exact field, with no division by zero; throws domain_error exactly for non-square matrices.","all square matrices over any field",MT,[f"{M}:Mat::determinant"])
p("C67","rref computes the reduced row echelon form","rref() is in reduced row echelon form and row equivalent to the input (hence has the same null space), and it is the only such matrix; inplace_rref agrees; no out-of-bounds access or division by zero.","all matrices over any field",MT,[f"{M}:Mat::inplace_rref",f"{M}:Mat::rref"])
p("C68","inverse","inverse() returns the two-sided inverse of every invertible square matrix and throws domain_error exactly for singular or non-square matrices.","all matrices over any field",MT,[f"{M}:Mat::inverse"])
p("C69","Matrix constructors","identityMatrix, diagonalMatrix, augmentedMatrix and the filling constructors produce the stated entries; setEntries throws domain_error exactly when too few values are given.","all sizes and values",MT,[f"{M}:Mat::identityMatrix",f"{M}:Mat::augmentedMatrix",f"{M}:Mat::setEntries"])
p("C70","Scaling a matrix by its own entry","m *= m(i,j) and m /= m(i,j) scale every entry by the value m(i,j) had before the call.","all matrices and positions","Reference aliasing; no test passes an entry of the matrix itself.",[f"{M}:operator*=(Mat,T)",f"{M}:operator/=(Mat,T)"])
p("C71","Memory safety of Mat","No Mat operation reads or writes outside its buffer, and no result depends on the uninitialised contents of a freshly allocated matrix.","all matrices of all sizes, all initial memory contents",MT,[f"{M}:Mat::entry",f"{M}:Mat::Mat(size_t,size_t)"])
p("C72","Mat equality and swap","a == b holds exactly when dimensions and all entries agree; assignment copies.","all matrices",MT,[f"{M}:operator=="])
p("C73","Term multiplication","Multiplying Terms and Factors adds exponents per variable and multiplies coefficients: evaluating the product at any nonzero point gives the product of the evaluations; the order of factors does not matter.","all terms, factors and evaluation points","Infinitely many variables and exponents.",[f"{PO}:Term::appendFactor",f"{PO}:operator*"])
p("C74","Term equality","Two Terms compare == exactly when they have the same variables with equal powers, whatever the coefficients.","all terms","Infinite domain.",[f"{PO}:operator==(Term,Term)"])
p("C75","Term order is a strict weak order","operator< on Terms is irreflexive, asymmetric and transitive (as list::merge and the sorted insertion require).","all terms","The tests compare five pairs; asymmetry fails on mixed exponents.",[f"{PO}:operator<(Term,Term)"])
p("C76","Appending a Term adds it","appendTerm(t) makes the polynomial's value at every point increase by the value of t, keeping one entry per monomial, with defined behaviour.","all polynomials and terms","Behaviour is undefined whenever t belongs at the end of the list, which happens to work on common platforms.",[f"{PO}:Poly::appendTerm"])
p("C77","appendTerms adds polynomials","appendTerms(list) makes the polynomial's value increase by the sum of the listed terms and keeps all terms.","all polynomials and term lists","Infinite domain.",[f"{PO}:Poly::appendTerms"])
p("C78","Polynomial sums and differences","x + y, x - y, +=, -= of Factors and Terms evaluate to the sum and difference.","all factors and terms","Infinite domain.",[f"{PO}:operator+(Factor,Factor)",f"{PO}:operator-(Term,Term)"])
p("C79","Factor and Term output","Factors print id or id^power, Terms print the coefficient (omitted when 1, 0 alone when 0) and the factors in ascending id order joined by ' * '.","all factors and terms","Infinite domain.",[f"{PO}:operator<<"])
p("C81","Tolerance comparison","float_cmp(x,y) is 0 exactly when |x-y| <= EPSILON, otherwise the sign of y - x; float_equals is |x-y| < EPSILON.","all values","Infinite domain.",["src/common.cpp:float_cmp",f"{CM}:float_equals"])
p("C83","Mat output","operator<< writes the entries in row order, each followed by one space, the rows separated by line ends, with no line end after the last row; the empty matrix prints nothing.","all matrices of all sizes and all entry printers",MT,[f"{M}:operator<<"])
p("C84","determinant() of integer matrices","determinant() of a matrix of Ints equals its integer determinant.","all square matrices of Ints","The result is wrong only for some integer matrices; which ones depends on whether every intermediate quotient happens to be exact.",[f"{M}:Mat::determinant"])
p("C85","Terms that denote the same monomial are equal","Two Terms compare == exactly when their products of powers have the same value at all points without zeros.","all terms and evaluation points","Infinite domain; the case that breaks it needs powers that cancel, which no test builds.",[f"{PO}:operator==(Term,Term)",f"{PO}:Term::appendFactor"])
p("C86","Poly output","operator<< prints the terms of a Poly in list order joined by ' + '.","all polynomials","Infinite domain.",[f"{PO}:operator<<(Poly)"])
p("C87","isFinite","isFinite(d) is true exactly when d is neither an infinity nor NaN.","all doubles","2^64 bit patterns.",["src/common.cpp:isFinite"])
p("C88","from_double is accurate","from_double(x, p) returns, in lowest terms, the multiple of 10^-p nearest to x (so x itself if it has at most p decimal places), and throws invalid_argument exactly for infinities and NaN.","all doubles and precisions","2^64 doubles and every precision; the abort depends on the digits of the exact value.",["src/Frac.cpp:Frac::from_double"])
p("C89","Parity and sign queries","is_odd() is true exactly for odd values and is_negative() exactly for values below zero, however the Int was obtained.","all Ints reachable by public operations","Unbounded values; the failing case needs a negative zero left by an earlier operation.",[f"{IH}:Int::is_odd",f"{IH}:Int::is_negative"])
p("C90","Shifted copies","Int(x, s) is x * 10^(9 s), in canonical form.","all Ints and shifts","Unbounded values and shifts.",[f"{I}:Int::Int(const Int&,size_t)"])
p("C91","Reading several numbers","Extracting several Ints separated by white space from one stream with >> reads each of them.","all texts, any number of integers","The tests read single numbers only; sequences are unbounded.",[f"{I}:operator>>"])
p("C92","Vectors and matrices of machine integers","Over int or long, vector sums, differences, multiples, dot products, matrix products and cofactor determinants are exact whenever the numbers involved fit the type (entries, absolute products of a row and a column, n! B^n for determinants of entries bounded by B); they never return a wrong number: the only other outcome is overflow.","all sizes and entries, every signed type","Overflow depends on partial sums of unboundedly many products.",[f"{V}:Vec::dot",f"{V}:operator+",f"{M}:operator*",f"{M}:Mat::row_cofactor_det"])
p("C93","Length of an integer vector","For a Vec<int> whose squared length fits an int, norm() is the Euclidean length rounded down and norm<double>() is the double nearest to it; otherwise the squared length overflows.","all vectors of ints of any size","Quantifies over all lengths; needs correct rounding of the square root for 2^31 squared lengths.",[f"{V}:Vec::norm"])
p("C94","unit_vector() of an integer vector","unit_vector() of a nonzero Vec<int> has length 1.","all nonzero vectors of ints","Truncation shows only for lengths that do not divide the entries.",[f"{V}:Vec::unit_vector"])
p("C95","unit_vector<double>() of an integer vector","For a nonzero Vec<int> whose squared length fits an int, every entry of unit_vector<double>() is the exact quotient by the length up to a relative error of about 2^-52, and the squared length of the result is 1 up to 2^-50, for every number of entries.","all nonzero vectors of ints with an int squared length","An error bound over all inputs; tests compare a few cases with a tolerance.",[f"{V}:Vec::unit_vector"])
p("C96","Rounding error of the dot product of double vectors","dot of two double vectors differs from the exact dot product by at most ((1+2^-53)^(n+1) - 1) times the sum of the absolute products plus about n 2^-1075 if it is finite, and it is finite if the absolute products add up to at most 2^1021.","all double vectors of any size","An a priori error bound over all inputs and sizes cannot be tested.",[f"{V}:Vec::dot"])
p("C97","Length of a double vector","norm() of a Vec<double> whose length is representable is the length up to rounding.","all double vectors","The failing cases are vectors whose squares overflow or underflow.",[f"{V}:Vec::norm"])
p("C98","unit_vector() of a double vector","unit_vector() of a nonzero Vec<double> has length 1 up to rounding.","all nonzero double vectors","The failing cases are vectors whose squares overflow or underflow; the error bound quantifies over all sizes.",[f"{V}:Vec::unit_vector"])
p("C99","Matrix products are dot products","Each entry of a * b (and of a after a *= b) is exactly what dot returns for the row of a and the column of b, and the product fails exactly as one of those dot products does, for every scalar type, including types with rounding, overflow or exceptions.","all scalar types, all sizes, all entries","Quantifies over every scalar type, including inexact ones, where the order of operations matters.",[f"{M}:operator*",f"{M}:Mat::operator*=",f"{V}:Vec::dot"])
p("C100","Programs with matrix variables","Mat variables behave like independent values under any sequence of declarations, copies, assignments, swaps, in-place changes, exceptions and ends of scope: a statement changes only the variables it names as targets, nothing is deleted twice or used after deletion, and when all variables are gone all memory has been released; statements other than in-place changes that throw leave everything as it was.","all programs of any length, all scalar types, all sizes","Quantifies over unbounded histories of operations and over where exceptions strike.",[f"{M}:Mat::~Mat",f"{M}:Mat::operator=",f"{M}:swap",f"{M}:Mat::Mat(const Mat<T>&)"])
p("C101","Mat and Vec are memory safe for every scalar type","Whatever the scalar operations compute (NaN, truncated quotients, anything), every Mat and Vec operation on initialised operands of fitting dimensions stays inside its arrays, terminates, and returns an initialised result of the right size unless a scalar operation fails; inverse may also throw domain_error. Over double nothing else fails; over Int only division by zero and the length limit.","all scalar types, all sizes, all entries","Quantifies over all scalar types and their behaviours.",[f"{M}:Mat::inplace_rref",f"{M}:Mat::determinant",f"{M}:Mat::inverse",f"{V}:Vec::cross"])
p("C102","Vectors and matrices of Frac","Over Frac, vector and matrix sums, differences, multiples, quotients by a nonzero number, dot, cross and triple products, matrix products and traces have exact entries in lowest terms whenever they return; the only failure is the abort of Int division, and equality never fails. Dot and matrix products do return if the product of the denominators involved, and that product times the sum of the absolute products, are below 10^18.","all sizes and all entries in lowest terms","Unbounded sizes and numbers; whether the abort happens depends on the digits of intermediate results.",[f"{V}:Vec::dot",f"{V}:Vec::cross",f"{M}:operator*",f"{M}:Mat::trace",f"{FH}:Frac"])
p("C103","Dividing vectors and matrices of Frac by zero","Dividing a nonempty vector or matrix of Fracs by zero throws divide_by_zero_error.","all nonempty vectors and matrices of Fracs","Infinite domain; the outcome differs between operators and entries.",[f"{V}:operator/",f"{V}:operator/=",f"{M}:operator/",f"{M}:operator/="])
p("C104","Changing the scalar type of a computation","Any computation made of vector and matrix operations, scalar operations, branches, local variables and counting loops that does not overflow over a signed integer type gives the same values, or throws the same exception, over every wider signed type, and over Int unless Int aborts. Without divisions and *= Int does not abort.","all computations, all inputs, all widths","A statement about all programs that use the library.",[f"{V}:operator+",f"{V}:operator*",f"{M}:operator*",f"{M}:determinant",f"{M}:inverse"])
p("C105","Whole numbers in doubles","Vectors and matrices of doubles that hold whole numbers compute exactly, as long as every number that occurs has an absolute value of at most 2^53 and every quotient is whole; in particular the dot product, the matrix product and the cofactor expansions if the absolute values of the products involved add up to less than 2^53.","all computations, all inputs within the bounds","Rounding at every operation, over all programs and sizes.",[f"{V}:dot_product",f"{M}:operator*",f"{M}:row_cofactor_expansion"])
p("C106","Elimination with whole quotients","If all quotients that occur while eliminating an integer matrix (with the row exchanges the code makes) are whole numbers, determinant(), rref() and inverse() give the true determinant, reduced row echelon form and inverse over Int (unless it aborts), over machine integers and over double when the numbers fit, and they agree that a matrix is singular.","all integer matrices of all sizes for which the quotients are whole","Infinite domain; depends on every intermediate quotient.",[f"{M}:determinant",f"{M}:rref",f"{M}:inplace_rref",f"{M}:inverse"])
p("C107","Programs with vectors and matrices of fractions","A program that computes with vectors and matrices over Frac, including loops, conditions and divisions, but does not divide by zero, gives exactly the rational numbers it would give over the rationals, in lowest terms, or throws the same exception, or aborts in a division of Ints. The same holds of any scalar type with exact operations.","all programs built from the operations of Vec and Mat, all values of the variables","Quantifies over programs.",[f"{V}:Vec",f"{M}:Mat",f"{F}:Frac"])
p("C108","Running times of the matrix functions","Row reduction, determinant() and inverse() take a number of steps (operations on entries, accesses, loop rounds, new cells) that is at most a constant times n^3 for every n by n matrix, and always end. The cofactor expansions take at most a constant times n! steps, really need that many for a matrix without zeros, and are then slower than determinant() from size 6 on.","all matrices of all sizes, all scalar types whose operations end","A time bound for all sizes cannot be measured.",[f"{M}:inplace_rref",f"{M}:determinant",f"{M}:inverse",f"{M}:row_cofactor_expansion",f"{M}:col_cofactor_expansion","README.md:51"])
p("C109","Int without assertions","Compiled without assertions, Int operations return whatever they return with assertions, and never a wrong number: every operation on valid objects returns the exact value or throws out_of_range (or divide_by_zero_error for a zero divisor), and so does every program made of such operations. For objects as public constructors make them, sums, differences and products never throw, and the other operations throw out_of_range exactly where the build with assertions aborts.","all Ints, all programs","Whether leftovers of an unchecked precondition ever show in a result depends on all digits; programs are unbounded.",[f"{I}:Int::subtract",f"{I}:quotient_and_remainder",f"{I}:Int::divide",f"{I}:operator-",f"{I}:Int::operator-=","CMakeLists.txt"])
p("C110","Exceptions leave Ints unchanged","Compiled without assertions, a compound assignment or times_power_ten that throws leaves its left operand as it was.","all Ints","Infinite domain; what is left behind depends on where in the digits the exception strikes.",[f"{I}:Int::operator/=",f"{I}:Int::operator-=",f"{I}:Int::operator+=",f"{I}:Int::divide",f"{I}:Int::subtract"])
p("C111","Rank by row reduction","Counting the rows of rref() that are not zero gives the rank of the matrix, and these rows are the first ones, as the README hopes. A square matrix has a nonzero determinant exactly if rref() has no zero row, and exactly if rref() is the identity matrix.","all matrices of all sizes over scalar types with exact operations, such as Frac","Unbounded sizes, infinite domain.",[f"{M}:rref",f"{M}:inplace_rref","README.md:74"])
p("C112","Systems of linear equations","Row reducing augmentedMatrix(a, b) solves the system a x = b: the left part N is the reduced row echelon form of a and the right part W has the same solutions; a solution exists exactly if no zero row of N faces a nonzero row of W, and then the one with free unknowns zero can be read off; it is unique exactly if N has as many nonzero rows as columns. For invertible a, the right part is the solution, and a.inverse() * b is the same one.","all systems of all sizes, any number of right hand sides, over scalar types with exact operations, such as Frac","Unbounded sizes, infinite domain; existence and uniqueness quantify over all vectors.",[f"{M}:augmentedMatrix",f"{M}:rref",f"{M}:inverse",f"{M}:operator*"])
p("C113","Rounding of vector and matrix operations over double","Sums, differences, scalar multiples and quotients of vectors and matrices of doubles, and the compound assignments, have in every entry the correctly rounded result of IEEE 754: the double nearest to the exact entry, on a tie the even one, and an infinity exactly beyond the largest number by half a unit. The negative of a matrix is exact.","all finite doubles, all sizes","Infinitely many sizes, 2^64 values per entry.",[f"{V}:operator+",f"{V}:operator-",f"{V}:operator*",f"{V}:operator/",f"{M}:operator+",f"{M}:operator-",f"{M}:operator*",f"{M}:operator/"])
p("C114","Rounding errors of products, traces and cross products over double","Over double, a finite entry of a matrix product with inner size n differs from the exact one by at most (1 + 2^-53)^(n+1) - 1 times the sum of the absolute products, and about n 2^-1075; it is finite if that sum is at most 2^1021. A finite trace is off by at most (1 + 2^-53)^n - 1 times the sum of the absolute values, a finite entry of a cross product by at most about 2^-52 times the sum of its two absolute products. None of these fails.","all finite doubles, all sizes","Error bounds over all inputs and sizes.",[f"{M}:operator*",f"{M}:operator*=",f"{M}:Mat::trace",f"{V}:Vec::cross"])
p("C115","Printing an Int whatever the format flags","Inserting an Int into an output stream writes its numeral as the stream's flags demand: in the base in force (dec, oct, hex), with a sign if showpos is set, on whichever side fields are adjusted (left, right, internal), with any fill character.","all Ints, all formatting states without a pending field width","Unboundedly many numbers times all combinations of flags.",[f"{I}:Int::print"])
p("C116","Printing an Int into a field","out << setw(w) << x writes the numeral of x padded to w characters with the fill character on the side selected, as for a built-in integer.","all Ints, widths, fill characters and adjustments","Unboundedly many numbers and widths.",[f"{I}:Int::print"])
p("C117","Printing leaves the stream's format alone","After an Int has been printed, the formatting state of the stream is what it was (the field width being reset as by any output), on a good stream and on one that is not.","all Ints, all stream states","The whole state after every output, for all numbers.",[f"{I}:Int::print"])
p("C118","Several insertions into one stream","When any sequence of strings, integers, Ints, fractions, vectors, matrices, factors, terms and polynomials is inserted into a stream in decimal, without showpos or left, what is written is the sequence of their texts, and the stream stays of that kind. Into a stream that is not good nothing is written.","all sequences of any length, all objects","Sequences of any length; the state carried from one output to the next.",[f"{I}:Int::print",f"{F}:Frac::print",f"{V}:operator<<",f"{M}:operator<<",f"{PO}:operator<<"])
p("C119","Row reduction over double","rref() and inplace_rref() of a matrix of doubles never fail, whatever the entries. If all entries of the result are finite, the result is in reduced row echelon form exactly, in spite of the rounding: leading entries are 1, the rest of their columns is 0, and the steps go down to the right. A column of the argument with an infinity or a NaN keeps one.","all doubles including infinities and NaN, all sizes","Unbounded sizes, 2^64 values per entry; whether rounding spoils the shape cannot be settled by samples.",[f"{M}:rref",f"{M}:inplace_rref"])
p("C120","Inverses over double","inverse() of a square matrix of doubles throws domain_error exactly if the matrix is singular or has an entry that is not finite, and otherwise returns the inverse up to rounding.","all doubles, all sizes","Rounding can make a singular matrix pass for a regular one in rare cases.",[f"{M}:inverse"])
p("C121","determinant() over double","determinant() of a matrix of doubles never fails on finite entries, differs from the exact determinant only by rounding errors relative to the products it is made of, and is zero exactly if the matrix is singular.","all finite doubles, all sizes","Rare cancellations.",[f"{M}:determinant"])
p("C122","Cofactor expansions over double","row_cofactor_expansion() and col_cofactor_expansion() of an n by n matrix of finite doubles never fail, and a finite result differs from the determinant by at most (1 + 2^-53)^((n-1)(n+4)/2) - 1 times the sum of the absolute values of the n! products the determinant consists of, and a term for products near zero. The result is finite unless that sum is huge.","all finite doubles, all sizes n > 0","Error bound over all inputs and sizes.",[f"{M}:row_cofactor_expansion",f"{M}:col_cofactor_expansion"])
p("C123","Sums and comparisons take linear time","Comparing, negating, adding or subtracting Ints of n and m bins (nine decimal digits each) takes a number of steps (bins read, written or copied) that is at most a constant times n + m.","all Ints of all lengths","A time bound for all sizes cannot be measured.",[f"{I}:cmp",f"{I}:operator+",f"{I}:operator-",f"{I}:Int::operator+=",f"{I}:Int::operator-=",f"{I}:Int::negate"])
p("C124","Multiplication takes time n m","Multiplying Ints of n and m bins takes at most a constant times n m steps, as schoolbook multiplication does.","all Ints of all lengths","A time bound for all sizes cannot be measured.",[f"{I}:operator*",f"{I}:Int::operator*=",f"{I}:multiply",f"{I}:multiply_by_int"])
p("C125","Division takes time n k","Dividing an Int of n bins by one of k bins, or taking the remainder, takes at most a constant times n k steps, as schoolbook division does.","all Ints of all lengths","A time bound for all sizes cannot be measured.",[f"{I}:operator/",f"{I}:operator%",f"{I}:Int::divide",f"{I}:quotient_and_remainder",f"{I}:modulo"])
p("C126","Exponentiation recurses logarithmically","Computing x ^ y for y >= 1 makes at most 2 log2(y) + 1 calls (the source says about log2(y)), so the recursion is no deeper than that; when the power is right the number is exactly the number of binary digits of y after the first plus the number of ones among its binary digits.","all Ints x, all canonical y >= 1","Unbounded exponents.",[f"{I}:exponentiate",f"{I}:operator^",f"{I}:Int::operator^="])
p("C127","Reducing a fraction takes few remainders","Euclid's algorithm computes at most five remainders per decimal digit of the smaller of numerator and denominator, and the number of its steps is at most a constant times k n^3 for k bins in the shorter and n bins in the longer one.","all canonical Ints","The worst cases are consecutive Fibonacci numbers; a bound for all sizes cannot be measured.",[f"{F}:Frac::GCD",f"{F}:Frac::nochecks_gcd",f"{F}:Frac::normalize"])
p("C128","Frac without assertions","Compiled without assertions, construction of a Frac (from numbers, text, a stream or a double) and every arithmetic operation on Fracs in lowest terms gives the exact rational number in lowest terms or throws out_of_range; it throws exactly where the build with assertions aborts, and otherwise both builds do the same. Powers are as exact as those of Int.","all Fracs in lowest terms, all canonical Ints, all texts","Whether an unchecked precondition shows in a result depends on all digits of all remainders of Euclid's algorithm.",[f"{F}:Frac::normalize",f"{F}:Frac::GCD",f"{F}:operator+",f"{F}:operator+=",f"{F}:operator>>",f"{F}:Frac::from_double",f"{I}:Int::divide"])
p("C129","Exceptions leave Fracs unchanged","Compiled without assertions, a compound assignment to a Frac that throws out_of_range leaves its left operand, and all other variables, as they were.","all Fracs in lowest terms","Infinite domain; what is left depends on where in the reduction the exception strikes.",[f"{F}:operator+=",f"{F}:operator-=",f"{F}:operator*=",f"{F}:operator/=",f"{F}:operator^=",f"{F}:Frac::normalize"])
p("C130","Going on after an exception","Compiled without assertions, a program may catch out_of_range and go on with the Fracs the exception has left, even if they are not in lowest terms: as long as no denominator is zero every operator gives the exact result in lowest terms or throws again, orders compare by value, and == is never true for different values. Zero denominators do not spread through operators that return a new Frac. No such program aborts or has undefined behaviour.","all Fracs with well-formed parts, all programs","Quantifies over everything an exception can leave and over unbounded programs.",[f"{F}:operator+",f"{F}:operator+=",f"{F}:operator<",f"{F}:operator==",f"{F}:Frac::normalize"])
p("C131","Programs with Fracs without assertions","Compiled without assertions, a program over Frac variables that never divides in place by zero nor raises in place to a negative power computes the same values as over the rational numbers, or throws out_of_range, exactly where a reduction meets a division of Ints that loses a bin.","all programs, all start values in lowest terms, any number of steps","Unbounded programs.",[f"{F}:Frac",f"{F}:Frac::normalize"])
p("C132","Vectors and matrices without assertions","Compiled without assertions, computations with vectors and matrices over Int and Frac return whatever they return with assertions. Over Frac they are exact or throw out_of_range, as long as they do not divide by zero. Over Int cofactor expansions never fail, elimination without fractions is exact or throws out_of_range, and no elimination has undefined behaviour.","all computations, all sizes, all entries","Unbounded sizes and programs.",[f"{V}:Vec",f"{M}:determinant",f"{M}:row_cofactor_expansion",f"{M}:rref",f"{M}:inverse"])
p("C133","Output of vectors and matrices of double","Writing a vector or a matrix of doubles to a stream with precision p >= 1 in the default format shows every finite entry as the decimal number with at most p significant digits that is nearest to it (ties: even digit), so with a relative error of at most 5/10^p. Plain notation is used for rounded values from 10^-4 up to 10^p and for zero, an exponent otherwise, never with superfluous zeros; whole numbers of at most p digits appear as their numeral. Entries other than zero look the same exactly if they round to the same number, and from 17 digits on different values always look different.","all finite doubles, all precisions >= 1, all sizes","There are 2^64 doubles and every precision has its own ties and carries.",[f"{V}:operator<<",f"{M}:operator<<"])
p("C134","Matrices when memory runs out","However requests for memory are refused, a computation with matrices ends as it would with unlimited memory, or throws what it would throw then, or throws bad_alloc. Every variable then still holds a matrix in memory of its own: that of before, except that a matrix changed in place may be half changed. Nothing is leaked or freed twice, and a block in a try statement that is left by bad_alloc gives back all the memory it has taken.","all programs with matrices of any sizes over any scalar type, all patterns of refused requests, all choices of copy elision","Every request in every program can fail; tests do not make allocations fail, and leaks and double frees need not show.",[f"{M}:Mat::Mat",f"{M}:Mat::~Mat",f"{M}:Mat::operator=",f"{M}:Mat::swap",f"{M}:inverse",f"{M}:rref",f"{M}:augmentedMatrix",f"{M}:Mat::operator*="])
p("C135","Matrices that are too large","Constructing a matrix with given dimensions makes a matrix with that many entries or throws bad_alloc, whatever the dimensions.","all dimensions of type size_t, all patterns of refused requests","Dimensions whose product exceeds 2^64 do not occur in tests.",[f"{M}:Mat::Mat",f"{M}:identityMatrix"])
p("C136","Memory needs of matrix computations","An operation on matrices whose entries need no memory of their own fails for lack of memory only if less is free than a fixed number of copies of its operands and result; determinant() needs one copy of the matrix, a cofactor expansion of an n by n matrix at most n^3 entries although it computes about n! minors, inverse() five copies.","all matrices of all sizes, all statements, all states of memory","Peak memory for all sizes cannot be measured.",[f"{M}:determinant",f"{M}:row_cofactor_expansion",f"{M}:col_cofactor_expansion",f"{M}:inverse",f"{M}:operator*"])
p("C137","Solving diagonally dominant systems over double","If in a square matrix A of doubles the diagonal clearly exceeds the rest of every column, or of every row, then augmentedMatrix(A, B).rref() does not fail and is (1 | X) with the identity matrix exactly and X close to the solution of A Y = B, with an explicit bound on the error, as long as the numbers stay far from the limits of double.","all sizes, all numbers of right-hand sides, all such matrices of doubles","Rounding errors pile up over unboundedly many rounds; a bound for all inputs cannot be sampled.",[f"{M}:augmentedMatrix",f"{M}:rref",f"{M}:inplace_rref"])
p("C138","Int arithmetic when memory runs out","However requests for memory are refused, an operation on Ints ends with the result, or the exception, it would have with unlimited memory, or throws bad_alloc; the last only if one of the requests the operation itself makes is refused. So a result is the right number whenever there is one.","all Ints, all operators and compound assignments, powers, negation, absolute values and times_power_ten, all patterns of refused requests","Every request in every operation can fail; tests do not make allocations fail.",[f"{I}:operator+",f"{I}:operator-",f"{I}:operator*",f"{I}:operator/",f"{I}:operator%",f"{I}:operator^",f"{I}:Int::operator+=",f"{I}:Int::operator-=",f"{I}:Int::operator*=",f"{I}:Int::operator/=",f"{I}:Int::operator%=",f"{I}:Int::operator^=",f"{I}:Int::times_power_ten"])
p("C139","An assignment that throws leaves the Int unchanged","A compound assignment to an Int that throws bad_alloc leaves its left operand as it was.","all Ints, all compound assignments, all patterns of refused requests","What is left depends on which of many requests is refused, for operands of any length.",[f"{I}:Int::operator+=",f"{I}:Int::operator-=",f"{I}:Int::operator*=",f"{I}:Int::operator/=",f"{I}:Int::operator%=",f"{I}:Int::operator^="])
p("C140","After bad_alloc an Int is still a number","After a compound assignment or times_power_ten has thrown bad_alloc, its left operand still holds some number and can be used like any other Int.","all Ints, all compound assignments and powers of ten, all patterns of refused requests","As for C139.",[f"{I}:Int::operator+=",f"{I}:Int::operator-=",f"{I}:Int::operator*=",f"{I}:Int::operator/=",f"{I}:Int::operator%=",f"{I}:Int::operator^=",f"{I}:Int::times_power_ten"])
p("C141","Frac arithmetic when memory runs out","However requests for memory are refused, an operation on fractions ends with the result, or the exception, it would have with unlimited memory, or throws bad_alloc; the last only if one of the requests the operation itself makes is refused. So a result is the right number in lowest terms whenever there is one.","all fractions, all operators between Frac and Frac or Int, construction from two Ints, reciprocals, powers, comparison, compound assignments, all patterns of refused requests","Every request in every operation can fail; tests do not make allocations fail.",[f"{FH}:operator+",f"{FH}:operator-",f"{FH}:operator*",f"{FH}:operator/",f"{F}:operator^",f"{F}:operator+=",f"{F}:operator-=",f"{F}:operator*=",f"{F}:operator/=",f"{F}:operator^=",f"{F}:Frac::normalize",f"{F}:Frac::GCD"])
p("C142","After bad_alloc a Frac is unchanged or at least a fraction","A compound assignment to a Frac that throws bad_alloc leaves its left operand as it was; at the least it is still a fraction, made of two numbers of which the lower one is positive.","all fractions, all compound assignments with a Frac or an Int, all patterns of refused requests","What is left depends on which of many requests is refused, for operands of any length.",[f"{F}:operator+=",f"{F}:operator-=",f"{F}:operator*=",f"{F}:operator/=",f"{F}:operator^=",f"{F}:Frac::normalize"])
p("C143","Reading an Int when memory runs out","However requests for memory are refused, reading an Int from a stream or constructing it from a string either gives the number that is written there, or reports a failure by an exception or in the state of the stream.","all streams and strings, all numbers, all patterns of refused requests","Every request while reading can fail, for every digit; tests do not make allocations fail.",[f"{I}:Int::read",f"{I}:parse_int",f"{I}:Int::Int"])
p("C144","After a failed read an Int is unchanged or at least a number","When reading an Int from a stream throws an exception for lack of memory, the Int keeps its value, or at the least holds some number.","all streams, all numbers before, all patterns of refused requests","What is left depends on which of many requests is refused, for texts of any length.",[f"{I}:Int::read",f"{I}:parse_int"])
p("C145","Output to a device that fails","If the device behind an output stream refuses characters (a full disk, a string stream without memory), inserting numbers, vectors, matrices and polynomials writes a beginning of the right text and nothing else, and the stream says that it has failed; a stream that is still good afterwards has got the whole text.","all sequences of objects of any length, all stream states, all patterns of refused output","Devices can fail at any character of any output; tests write to devices that do not fail.",[f"{I}:Int::print",f"{F}:Frac::print",f"{V}:operator<<",f"{M}:operator<<",f"{PO}:operator<<"])
p("C146","Reading a Frac when memory runs out","However requests for memory are refused, reading a Frac from a stream or constructing it from a string either gives the fraction that is written there, or reports a failure by an exception or in the state of the stream.","all streams and strings, all fractions, all patterns of refused requests","Every request while reading can fail, for every digit; tests do not make allocations fail.",[f"{F}:Frac::read",f"{F}:Frac::Frac",f"{F}:Frac::normalize"])
p("C147","Converting a double when memory runs out","However requests for memory are refused, Frac::from_double either gives the number that is printed with the given precision, or throws an exception.","all doubles, all precisions, all patterns of refused requests","Every request can fail, for every digit; tests do not make allocations fail.",[f"{F}:Frac::from_double"])
p("C148","Any history of calls computes with polynomials","Whatever sequence of calls of the public interface of Factor, Term and Poly a program makes, on any objects and in any order, with operands that may be the same object, every object stands for what the same sequence computes with (Laurent) polynomials over the rational numbers, and every object the calls do not name is as before.","all sequences of calls, of any length, all values, all identities between operands","Tests run a handful of sequences; what one call leaves behind is what the next one starts from, and there are infinitely many sequences.",["src/Poly.hpp:Factor","src/Poly.hpp:Term","src/Poly.hpp:Poly"])
p("C149","Going on after bad_alloc","A program that catches the exceptions of each of its statements with Ints can go on after bad_alloc: every later statement that ends normally has computed the exact result from what its operands hold, every exception is bad_alloc or the report of a real division by zero, and a statement that throws changes at most the Int it assigns.","all programs of assignments and compound assignments, of any length, all values, all patterns of refused requests","What a failed statement leaves behind is what the following ones work with; there are infinitely many programs and patterns of failure.",[f"{I}:operator+",f"{I}:operator-",f"{I}:operator*",f"{I}:operator/",f"{I}:operator%",f"{I}:Int::operator+=",f"{I}:Int::operator-=",f"{I}:Int::operator*=",f"{I}:Int::operator/=",f"{I}:Int::operator%="])
p("C150","Trying again after bad_alloc","A statement with Ints that has thrown bad_alloc can be tried again: if a program does so with each of its statements and ends normally, its Ints hold the results they would have with unlimited memory; and if at most n requests are refused, n+1 attempts at each statement are enough.","all programs of assignments and compound assignments, of any length, all values, all patterns of refused requests, all numbers of attempts","As for C149.",[f"{I}:operator+",f"{I}:operator-",f"{I}:operator*",f"{I}:operator/",f"{I}:operator%",f"{I}:Int::operator+=",f"{I}:Int::operator-=",f"{I}:Int::operator*=",f"{I}:Int::operator/=",f"{I}:Int::operator%="])
p("C151","Polynomials when memory runs out","When memory runs out in a program that uses Factor, Term and Poly, the program gets bad_alloc and not a wrong polynomial: whatever sequence of calls ends normally has left in every object what it leaves with unlimited memory, and a sequence that does not end normally fails as it does with unlimited memory or throws bad_alloc after one of its own requests has been refused.","all sequences of calls, of any length, all values, all patterns of refused requests, whatever failed assignments leave","Tests never run out of memory, and the number of patterns of failure grows with the length of the program.",["src/Poly.hpp:Factor","src/Poly.hpp:Term","src/Poly.hpp:Poly"])
p("C152","A failed operation on polynomials has no effect","A call on a Factor, Term or Poly that throws bad_alloc leaves every object as it was, including the one it should have changed.","all calls, all values, all patterns of refused requests","As for C151.",["src/Poly.hpp:Factor","src/Poly.hpp:Term","src/Poly.hpp:Poly"])
p("C153","Trying again with polynomials","A call on a Factor, Term or Poly that has thrown bad_alloc can be tried again: if a program does so with each of its calls and ends normally, its objects stand for what the calls compute with polynomials; and if at most n requests are refused, n+1 attempts at each call are enough.","all sequences of calls, of any length, all values, all patterns of refused requests, all numbers of attempts","As for C151.",["src/Poly.hpp:Factor","src/Poly.hpp:Term","src/Poly.hpp:Poly"])
p("C154","Programs with fractions when memory runs out","Whatever requests for memory are refused, a program of assignments and compound assignments with Frac variables that divides by no zero either ends with every variable in lowest terms and exactly the values the program computes with rational numbers, or throws bad_alloc (only if one of its own requests was refused), or fails in an assertion that fails also with unlimited memory. A division by zero outside /= is never passed over.","all sequences of statements, of any length, all values, all patterns of refused requests, anything failed assignments leave","Memory is never refused in the tests, and there are infinitely many programs, values and patterns of refusals.",[F+":operator+=",F+":operator-=",F+":operator*=",F+":operator/=",FH+":Frac(const Int&, const Int&)",FH+":reciprocal"])
p("C155","Trying again with fractions","A statement on Fracs that has thrown bad_alloc can be tried again: if a program does so with each of its statements and ends normally, its variables hold the values that the program computes with rational numbers; and if at most n requests are refused, n+1 attempts at each statement are enough.","all sequences of statements, of any length, all values, all patterns of refused requests, all numbers of attempts","As for C154.",[F+":operator+=",F+":operator/=",FH+":Frac(const Int&, const Int&)",FH+":reciprocal"])
p("C156","Polynomials without assertions","Compiled without assertions, any sequence of calls of the public interface of Factor, Term and Poly on valid objects does what it does with assertions, except that it throws out_of_range exactly where an assertion fails in the other build. So a sequence that ends normally leaves objects that stand for what it computes with Laurent polynomials over the rational numbers.","all sequences of calls, of any length, all objects, with operands that may be the same object","The tests are built with assertions, and sequences, exponents and coefficients are unbounded.",[PO+":Factor",PO+":Term",PO+":Poly"])
p("C157","Exceptions leave polynomials unchanged","Compiled without assertions, a call on Factor, Term or Poly objects that throws out_of_range leaves all objects as they were, so that a program may catch the exception and go on.","all calls, all valid objects, programs of any length","As for C156; the tests never catch out_of_range.",[PO+":operator*=",PO+":negate",PO+":appendTerm",PO+":operator+=",PO+":operator-="])
with open('/verif/properties.jsonl','w') as f:
    for x in P: f.write(json.dumps(x)+"\n")
print(len(P))
