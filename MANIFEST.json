{
 "claims": [
  {
   "property": "C01",
   "status": "proved",
   "theorems": [
    "CppMaths.C01_addition_exact"
   ],
   "note": "Both forms, all canonical operands; absence of overflow is part of 'returns' since overflow is a distinct failure in the model."
  },
  {
   "property": "C02",
   "status": "proved",
   "theorems": [
    "CppMaths.C02_subtraction_exact"
   ],
   "note": ""
  },
  {
   "property": "C03",
   "status": "proved",
   "theorems": [
    "CppMaths.C03_multiplication_exact"
   ],
   "note": ""
  },
  {
   "property": "C04",
   "status": "partial",
   "theorems": [
    "CppMaths.C04_refuted",
    "CppMaths.C04_refuted_print",
    "CppMaths.C04_refuted_abort",
    "CppMaths.C04_compound_multiplication_partial"
   ],
   "note": "The claim is false in the code for zero products (negative zero, leading zero bins): C04_refuted*. The _partial theorem proves equality of value always and identity for nonzero products."
  },
  {
   "property": "C05",
   "status": "proved",
   "theorems": [
    "CppMaths.C05_division_truncates"
   ],
   "note": "Holds for all well-formed operands."
  },
  {
   "property": "C06",
   "status": "partial",
   "theorems": [
    "CppMaths.C06_refuted",
    "CppMaths.C06_division_returns_partial"
   ],
   "note": "False in the code: some divisions abort (C06_refuted: 10^18/3). The _partial theorem characterises exactly the pairs on which division returns."
  },
  {
   "property": "C07",
   "status": "proved",
   "theorems": [
    "CppMaths.C07_modulo_floored"
   ],
   "note": ""
  },
  {
   "property": "C08",
   "status": "partial",
   "theorems": [
    "CppMaths.C08_refuted",
    "CppMaths.C08_refuted_every_base",
    "CppMaths.C08_refuted_abort",
    "CppMaths.C08_power_exact_partial",
    "CppMaths.C08_other_exponents_partial"
   ],
   "note": "False in the code for exponents that lead to a power of 10^9 or to 2^30 by halving (C08_refuted*). Exact for all other exponents, in particular all below 10^9; C08_other_exponents_partial shows that the power is right exactly for these, and that otherwise the program aborts or uses a smaller exponent."
  },
  {
   "property": "C09",
   "status": "partial",
   "theorems": [
    "CppMaths.C09_refuted",
    "CppMaths.C09_negative_exponent_partial"
   ],
   "note": "False in the code: 2^-1 is 8 (C09_refuted). The _partial theorem says what is computed for every negative exponent."
  },
  {
   "property": "C10",
   "status": "proved",
   "theorems": [
    "CppMaths.C10_comparisons"
   ],
   "note": ""
  },
  {
   "property": "C11",
   "status": "proved",
   "theorems": [
    "CppMaths.C11_negation_abs"
   ],
   "note": ""
  },
  {
   "property": "C12",
   "status": "proved",
   "theorems": [
    "CppMaths.C12_print_numeral"
   ],
   "note": ""
  },
  {
   "property": "C13",
   "status": "proved",
   "theorems": [
    "CppMaths.C13_string_constructor"
   ],
   "note": ""
  },
  {
   "property": "C14",
   "status": "proved",
   "theorems": [
    "CppMaths.C14_round_trip",
    "CppMaths.C14_round_trip_text"
   ],
   "note": ""
  },
  {
   "property": "C15",
   "status": "proved",
   "theorems": [
    "CppMaths.C15_stream_extraction",
    "CppMaths.C15_stream_not_good"
   ],
   "note": ""
  },
  {
   "property": "C16",
   "status": "proved",
   "theorems": [
    "CppMaths.C16_from_machine_integer",
    "CppMaths.C16_int64_min"
   ],
   "note": ""
  },
  {
   "property": "C17",
   "status": "partial",
   "theorems": [
    "CppMaths.C17_refuted_set_value",
    "CppMaths.C17_refuted_set_value_observable",
    "CppMaths.C17_refuted_equals",
    "CppMaths.C17_set_equals_partial"
   ],
   "note": "False in the code for magnitudes of 10^9 and more (C17_refuted*); proved below."
  },
  {
   "property": "C18",
   "status": "partial",
   "theorems": [
    "CppMaths.C18_refuted",
    "CppMaths.C18_times_power_ten_partial",
    "CppMaths.C18_returns_iff_partial"
   ],
   "note": "False in the code: may abort for negative powers (C18_refuted); proved whenever it returns, with the exact condition for returning."
  },
  {
   "property": "C19",
   "status": "proved",
   "theorems": [
    "CppMaths.C19_no_undefined_behaviour"
   ],
   "note": "All well-formed objects, including ones with leading zero bins and negative zero."
  },
  {
   "property": "C20",
   "status": "proved",
   "theorems": [
    "CppMaths.C20_aliasing_safe",
    "CppMaths.C20_aliasing_values"
   ],
   "note": ""
  },
  {
   "property": "C21",
   "status": "proved",
   "theorems": [
    "CppMaths.C21_binary_compound_agree"
   ],
   "note": ""
  },
  {
   "property": "C22",
   "status": "proved",
   "theorems": [
    "CppMaths.C22_histories_refine",
    "CppMaths.C22_histories_exact"
   ],
   "note": "Programs with branches, loops and aliasing; a second theorem determines aborts exactly."
  },
  {
   "property": "C23",
   "status": "proved",
   "theorems": [
    "CppMaths.C23_ring_laws"
   ],
   "note": ""
  },
  {
   "property": "C24",
   "status": "proved",
   "theorems": [
    "CppMaths.C24_quotient_and_remainder"
   ],
   "note": ""
  },
  {
   "property": "C25",
   "status": "proved",
   "theorems": [
    "CppMaths.C25_divide_by_int"
   ],
   "note": ""
  },
  {
   "property": "C26",
   "status": "proved",
   "theorems": [
    "CppMaths.C26_consistency"
   ],
   "note": ""
  },
  {
   "property": "C30",
   "status": "partial",
   "theorems": [
    "CppMaths.C30_refuted",
    "CppMaths.C30_lowest_terms_partial",
    "CppMaths.C30_unique_representation"
   ],
   "note": "False in the code for compound division by zero and for reading INT/0 (C30_refuted). The _partial theorem covers every other way to obtain an object, including powers with arbitrary exponents and reading from arbitrary streams."
  },
  {
   "property": "C31",
   "status": "proved",
   "theorems": [
    "CppMaths.C31_construction",
    "CppMaths.C31_construction_integer"
   ],
   "note": ""
  },
  {
   "property": "C32",
   "status": "proved",
   "theorems": [
    "CppMaths.C32_arithmetic_exact",
    "CppMaths.C32_compound_agrees"
   ],
   "note": "'Returns' is determined exactly: an abort happens exactly if reducing the unreduced result aborts."
  },
  {
   "property": "C33",
   "status": "proved",
   "theorems": [
    "CppMaths.C33_division_exact"
   ],
   "note": ""
  },
  {
   "property": "C34",
   "status": "partial",
   "theorems": [
    "CppMaths.C34_refuted",
    "CppMaths.C34_refuted_always",
    "CppMaths.C34_compound_division_partial"
   ],
   "note": "False in the code for every zero divisor (C34_refuted_always); proved for nonzero divisors."
  },
  {
   "property": "C35",
   "status": "proved",
   "theorems": [
    "CppMaths.C35_comparisons"
   ],
   "note": ""
  },
  {
   "property": "C36",
   "status": "proved",
   "theorems": [
    "CppMaths.C36_gcd",
    "CppMaths.C36_gcd_moderate"
   ],
   "note": ""
  },
  {
   "property": "C37",
   "status": "partial",
   "theorems": [
    "CppMaths.C37_refuted",
    "CppMaths.C37_power_partial",
    "CppMaths.C37_other_exponents_partial"
   ],
   "note": "False in the code for the exponents for which Int powers are wrong (C37_refuted); exact for the others, in particular all below 10^9. C37_other_exponents_partial says what ^ and ^= do for the exponents for which it is wrong."
  },
  {
   "property": "C38",
   "status": "partial",
   "theorems": [
    "CppMaths.C38_refuted",
    "CppMaths.C38_compound_power_partial"
   ],
   "note": "False in the code for negative exponents (C38_refuted): the sign of the exponent is ignored. The _partial theorem says what is computed."
  },
  {
   "property": "C39",
   "status": "proved",
   "theorems": [
    "CppMaths.C39_mixed_operators",
    "CppMaths.C39_mixed_compound"
   ],
   "note": ""
  },
  {
   "property": "C40",
   "status": "partial",
   "theorems": [
    "CppMaths.C40_refuted",
    "CppMaths.C40_round_trip_partial",
    "CppMaths.C40_round_trip_moderate"
   ],
   "note": "False in the code: reading back may abort (C40_refuted). The _partial theorem determines when; otherwise the identical object comes back."
  },
  {
   "property": "C41",
   "status": "proved",
   "theorems": [
    "CppMaths.C41_string_constructor",
    "CppMaths.C41_string_constructor_converse"
   ],
   "note": ""
  },
  {
   "property": "C42",
   "status": "partial",
   "theorems": [
    "CppMaths.C42_refuted",
    "CppMaths.C42_stream_success_partial",
    "CppMaths.C42_stream_failure_partial",
    "CppMaths.C42_zero_denominator",
    "CppMaths.C42_fail_parenthesis",
    "CppMaths.C42_fail_denominator",
    "CppMaths.C42_any_stream"
   ],
   "note": "False in the code (C42_refuted: zero denominators and two ways of failing). The _partial theorems and C42_zero_denominator, C42_fail_* say what happens in every case."
  },
  {
   "property": "C43",
   "status": "partial",
   "theorems": [
    "CppMaths.C43_refuted",
    "CppMaths.C43_refuted_precision_zero",
    "CppMaths.C43_from_double_partial",
    "CppMaths.C43_from_double_moderate"
   ],
   "note": "From the printed text on; C88 covers the printing. False in the code because of aborts (C43_refuted) and precision 0; the _partial theorem is exact otherwise."
  },
  {
   "property": "C44",
   "status": "proved",
   "theorems": [
    "CppMaths.C44_aliasing",
    "CppMaths.C44_self_assignment"
   ],
   "note": ""
  },
  {
   "property": "C45",
   "status": "proved",
   "theorems": [
    "CppMaths.C45_no_abort",
    "CppMaths.C45_no_abort_int"
   ],
   "note": ""
  },
  {
   "property": "C46",
   "status": "partial",
   "theorems": [
    "CppMaths.C46_refuted",
    "CppMaths.C46_reciprocal_partial"
   ],
   "note": "False in the code because of aborts (C46_refuted); proved otherwise."
  },
  {
   "property": "C47",
   "status": "proved",
   "theorems": [
    "CppMaths.C47_program_refinement"
   ],
   "note": "Programs with branches, loops, aliasing and exceptions; aborts are determined exactly."
  },
  {
   "property": "C50",
   "status": "proved",
   "theorems": [
    "CppMaths.C50_entrywise",
    "CppMaths.C50_throws_iff"
   ],
   "note": "Any scalar type whose operations compute in a commutative ring; instances proved: exact rings and fields, Int, Frac. Includes x += x and x -= x."
  },
  {
   "property": "C51",
   "status": "proved",
   "theorems": [
    "CppMaths.C51_multiply",
    "CppMaths.C51_divide",
    "CppMaths.C51_divide_by_zero"
   ],
   "note": "Division for a nonzero scalar; over an exact field division by zero throws unless the vector is empty. With Frac entries it does not throw, which is defect C34."
  },
  {
   "property": "C52",
   "status": "proved",
   "theorems": [
    "CppMaths.C52_dot",
    "CppMaths.C52_throws_iff",
    "CppMaths.C52_symmetric_bilinear"
   ],
   "note": ""
  },
  {
   "property": "C53",
   "status": "proved",
   "theorems": [
    "CppMaths.C53_cross",
    "CppMaths.C53_cross_laws",
    "CppMaths.C53_throws_iff"
   ],
   "note": ""
  },
  {
   "property": "C54",
   "status": "proved",
   "theorems": [
    "CppMaths.C54_triple_products"
   ],
   "note": ""
  },
  {
   "property": "C55",
   "status": "proved",
   "theorems": [
    "CppMaths.C55_concatenate_constant",
    "CppMaths.C55_concatenate_objects"
   ],
   "note": ""
  },
  {
   "property": "C56",
   "status": "proved",
   "theorems": [
    "CppMaths.C56_equality"
   ],
   "note": ""
  },
  {
   "property": "C57",
   "status": "proved",
   "theorems": [
    "CppMaths.C57_output"
   ],
   "note": ""
  },
  {
   "property": "C58",
   "status": "partial",
   "theorems": [
    "CppMaths.C58_refuted",
    "CppMaths.C58_multiply_by_entry_partial",
    "CppMaths.C58_divide_by_entry_partial"
   ],
   "note": "False in the code (C58_refuted); the _partial theorems say what is computed and that it is right if the entry is the last one."
  },
  {
   "property": "C59",
   "status": "proved",
   "theorems": [
    "CppMaths.C59_set_entries",
    "CppMaths.C59_constructors",
    "CppMaths.C59_set_all"
   ],
   "note": "The conversion from the array's element type is a parameter."
  },
  {
   "property": "C61",
   "status": "proved",
   "theorems": [
    "CppMaths.C61_entrywise",
    "CppMaths.C61_throws_iff",
    "CppMaths.C61_negate_scale",
    "CppMaths.C61_divide"
   ],
   "note": "Any scalar type whose operations compute in a commutative ring (instances: exact rings and fields, Int, Frac where the code compiles). Includes m += m and m -= m."
  },
  {
   "property": "C62",
   "status": "proved",
   "theorems": [
    "CppMaths.C62_product",
    "CppMaths.C62_square",
    "CppMaths.C62_throws_iff"
   ],
   "note": ""
  },
  {
   "property": "C63",
   "status": "proved",
   "theorems": [
    "CppMaths.C63_transpose",
    "CppMaths.C63_involution",
    "CppMaths.C63_trace"
   ],
   "note": ""
  },
  {
   "property": "C64",
   "status": "proved",
   "theorems": [
    "CppMaths.C64_minor",
    "CppMaths.C64_cofactor"
   ],
   "note": "The code's cofactor() returns the signed minor matrix, not its determinant; the property is about that."
  },
  {
   "property": "C65",
   "status": "proved",
   "theorems": [
    "CppMaths.C65_determinant",
    "CppMaths.C65_int",
    "CppMaths.C65_throws_iff",
    "CppMaths.C65_empty"
   ],
   "note": "Any commutative ring; C65_int is the instance for matrices of Ints, where the result is the exact integer determinant in canonical form."
  },
  {
   "property": "C66",
   "status": "proved",
   "theorems": [
    "CppMaths.C66_determinant",
    "CppMaths.C66_returns",
    "CppMaths.C66_throws_iff",
    "CppMaths.C66_agrees_with_expansions"
   ],
   "note": "Any exact field, also the empty matrix."
  },
  {
   "property": "C67",
   "status": "proved",
   "theorems": [
    "CppMaths.C67_rref",
    "CppMaths.C67_unique",
    "CppMaths.C67_null_space",
    "CppMaths.C67_solutions",
    "CppMaths.C67_idempotent"
   ],
   "note": "Any exact field. C67_unique: the result is the unique reduced row echelon form."
  },
  {
   "property": "C68",
   "status": "proved",
   "theorems": [
    "CppMaths.C68_inverse",
    "CppMaths.C68_throws_iff",
    "CppMaths.C68_roundtrip"
   ],
   "note": "Any exact field."
  },
  {
   "property": "C69",
   "status": "proved",
   "theorems": [
    "CppMaths.C69_fill",
    "CppMaths.C69_array",
    "CppMaths.C69_throws_iff",
    "CppMaths.C69_diagonal",
    "CppMaths.C69_augmented"
   ],
   "note": ""
  },
  {
   "property": "C70",
   "status": "partial",
   "theorems": [
    "CppMaths.C70_refuted",
    "CppMaths.C70_multiply_by_entry_partial",
    "CppMaths.C70_divide_by_entry_partial"
   ],
   "note": "False in the code (C70_refuted); the _partial theorems say what is computed and that it is right if the entry is the last one."
  },
  {
   "property": "C71",
   "status": "partial",
   "theorems": [
    "CppMaths.C71_refuted_empty_minor",
    "CppMaths.C71_ring_partial",
    "CppMaths.C71_field_partial"
   ],
   "note": "False in the code for minors of empty matrices (C71_refuted_empty_minor); proved for every other operation, any dimensions."
  },
  {
   "property": "C72",
   "status": "proved",
   "theorems": [
    "CppMaths.C72_equality",
    "CppMaths.C72_copy_objects",
    "CppMaths.C72_copy"
   ],
   "note": ""
  },
  {
   "property": "C73",
   "status": "proved",
   "theorems": [
    "CppMaths.C73_constructors",
    "CppMaths.C73_order_irrelevant",
    "CppMaths.C73_factor_times_factor",
    "CppMaths.C73_term_times_factor",
    "CppMaths.C73_term_times_term",
    "CppMaths.C73_commutative",
    "CppMaths.C73_square_in_place"
   ],
   "note": "All terms, any number of variables. The value is compared at points without zeros, since powers may be negative. Multiplying coefficients may abort exactly when Frac multiplication does."
  },
  {
   "property": "C74",
   "status": "proved",
   "theorems": [
    "CppMaths.C74_equality",
    "CppMaths.C74_factor_equality"
   ],
   "note": ""
  },
  {
   "property": "C75",
   "status": "partial",
   "theorems": [
    "CppMaths.C75_refuted",
    "CppMaths.C75_order_partial",
    "CppMaths.C75_single_variable_partial",
    "CppMaths.C75_factor_order"
   ],
   "note": "False in the code (C75_refuted): neither asymmetric nor transitive. C75_order_partial and C75_single_variable_partial say what holds."
  },
  {
   "property": "C76",
   "status": "partial",
   "theorems": [
    "CppMaths.C76_refuted_at_end",
    "CppMaths.C76_refuted_vector_constructors",
    "CppMaths.C76_append_partial",
    "CppMaths.C76_coefficients_partial",
    "CppMaths.C76_history_partial"
   ],
   "note": "False in the code: appending past the end dereferences end() (C76_refuted_at_end, C76_refuted_vector_constructors). The _partial theorems cover every call that does not."
  },
  {
   "property": "C77",
   "status": "partial",
   "theorems": [
    "CppMaths.C77_refuted_unsorted",
    "CppMaths.C77_append_terms_partial",
    "CppMaths.C77_merge_keeps_terms"
   ],
   "note": "False in the code: the lists handed to list::merge need not be sorted (C77_refuted_unsorted). The _partial theorem covers the defined case."
  },
  {
   "property": "C78",
   "status": "partial",
   "theorems": [
    "CppMaths.C78_refuted_ascending",
    "CppMaths.C78_factors_partial",
    "CppMaths.C78_terms_partial",
    "CppMaths.C78_compound_partial"
   ],
   "note": "False in the code whenever the second operand belongs after the first (C78_refuted_ascending); the _partial theorems cover the other operands exactly."
  },
  {
   "property": "C79",
   "status": "partial",
   "theorems": [
    "CppMaths.C79_refuted_power",
    "CppMaths.C79_output_partial"
   ],
   "note": "False in the code for powers 10^(9k) (C79_refuted_power); proved for all others."
  },
  {
   "property": "C81",
   "status": "partial",
   "theorems": [
    "CppMaths.C81_float_cmp_partial",
    "CppMaths.C81_exact_difference_partial",
    "CppMaths.C81_float_equals_partial",
    "CppMaths.C81_refuted",
    "CppMaths.C81_antisymmetric"
   ],
   "note": "Over a model of IEEE binary64. False as stated because the difference is rounded before the comparison, and for NaN and infinities (C81_refuted). The _partial theorems give the exact thresholds for all finite doubles."
  },
  {
   "property": "C83",
   "status": "proved",
   "theorems": [
    "CppMaths.C83_output"
   ],
   "note": ""
  },
  {
   "property": "C84",
   "status": "partial",
   "theorems": [
    "CppMaths.C84_refuted_truncation",
    "CppMaths.C84_small_partial",
    "CppMaths.C84_fraction_free_partial",
    "CppMaths.C84_fraction_free_int_partial"
   ],
   "note": "False in the code because of truncated quotients (C84_refuted_truncation), which a TODO in the source admits; proved for one and two rows, and for matrices of any size whose elimination needs no fractions and no row exchanges."
  },
  {
   "property": "C85",
   "status": "partial",
   "theorems": [
    "CppMaths.C85_refuted_zero_power",
    "CppMaths.C85_equality_partial"
   ],
   "note": "False in the code because zero powers are kept (C85_refuted_zero_power); proved for terms without them."
  },
  {
   "property": "C86",
   "status": "partial",
   "theorems": [
    "CppMaths.C86_refuted_power",
    "CppMaths.C86_output_partial"
   ],
   "note": "False in the code for powers 10^(9k) (C86_refuted_power); proved for all others."
  },
  {
   "property": "C87",
   "status": "proved",
   "theorems": [
    "CppMaths.C87_isFinite"
   ],
   "note": "Over a model of IEEE binary64."
  },
  {
   "property": "C88",
   "status": "partial",
   "theorems": [
    "CppMaths.C88_from_double_partial",
    "CppMaths.C88_accuracy",
    "CppMaths.C88_moderate",
    "CppMaths.C88_refuted",
    "CppMaths.C88_refuted_precision_zero"
   ],
   "note": "Over a model of IEEE binary64 and of printing with correct rounding. False in the code because of aborts (C88_refuted) and for precision 0; exact otherwise."
  },
  {
   "property": "C89",
   "status": "partial",
   "theorems": [
    "CppMaths.C89_refuted",
    "CppMaths.C89_parity_sign_partial"
   ],
   "note": "False in the code for zeros left by *= (C89_refuted); is_odd() is right for every well-formed object."
  },
  {
   "property": "C90",
   "status": "partial",
   "theorems": [
    "CppMaths.C90_refuted",
    "CppMaths.C90_shifted_copy_partial"
   ],
   "note": "False in the code for zero (C90_refuted): the copy has leading zero bins and later operations abort."
  },
  {
   "property": "C91",
   "status": "partial",
   "theorems": [
    "CppMaths.C91_refuted",
    "CppMaths.C91_read_sequence_partial"
   ],
   "note": "False in the code (C91_refuted, for all texts): >> does not skip white space. With std::ws before every number it holds for all sequences."
  },
  {
   "property": "C92",
   "status": "proved",
   "theorems": [
    "CppMaths.C92_vec_entrywise",
    "CppMaths.C92_dot",
    "CppMaths.C92_mat_mul",
    "CppMaths.C92_cofactor_expansions",
    "CppMaths.C92_mat_never_wrong"
   ],
   "note": "Matrix products and determinants: exactness under the stated bounds; dot products: whatever is returned is exact. For every limit of the type."
  },
  {
   "property": "C93",
   "status": "proved",
   "theorems": [
    "CppMaths.C93_norm_int"
   ],
   "note": "sqrt is modelled as correctly rounded (IEEE 754)."
  },
  {
   "property": "C94",
   "status": "partial",
   "theorems": [
    "CppMaths.C94_refuted",
    "CppMaths.C94_unit_int_partial"
   ],
   "note": "False in the code (C94_refuted): (3, 4) becomes (0, 0), and the zero vector divides by zero."
  },
  {
   "property": "C95",
   "status": "proved",
   "theorems": [
    "CppMaths.C95_unit_double"
   ],
   "note": ""
  },
  {
   "property": "C96",
   "status": "proved",
   "theorems": [
    "CppMaths.C96_dot_double"
   ],
   "note": "IEEE 754 binary64 with rounding to nearest, no extended precision and no fused multiply-add."
  },
  {
   "property": "C97",
   "status": "partial",
   "theorems": [
    "CppMaths.C97_refuted",
    "CppMaths.C97_norm_double_partial"
   ],
   "note": "False in the code for vectors whose squares overflow or underflow (C97_refuted)."
  },
  {
   "property": "C98",
   "status": "partial",
   "theorems": [
    "CppMaths.C98_refuted",
    "CppMaths.C98_unit_double_partial"
   ],
   "note": "False in the code for the zero vector and for vectors whose squares overflow or underflow (C98_refuted)."
  },
  {
   "property": "C99",
   "status": "proved",
   "theorems": [
    "CppMaths.C99_product_is_dot"
   ],
   "note": ""
  },
  {
   "property": "C100",
   "status": "proved",
   "theorems": [
    "CppMaths.C100_programs",
    "CppMaths.C100_statement",
    "CppMaths.C100_start",
    "CppMaths.C100_legal_programs",
    "CppMaths.C100_no_leak",
    "CppMaths.C100_frame",
    "CppMaths.C100_strong_guarantee",
    "CppMaths.C100_checks_first"
   ],
   "note": "Entries are computed by the loops of the value model and then stored; local objects of a function are destroyed on return or throw. What an interrupted in-place loop leaves in the block is arbitrary. Allocation failure is not modelled."
  },
  {
   "property": "C101",
   "status": "proved",
   "theorems": [
    "CppMaths.C101_arithmetic",
    "CppMaths.C101_shapes",
    "CppMaths.C101_elimination",
    "CppMaths.C101_vectors",
    "CppMaths.C101_space",
    "CppMaths.C101_double",
    "CppMaths.C101_int",
    "CppMaths.C101_field",
    "CppMaths.C101_double_elimination",
    "CppMaths.C101_int_elimination"
   ],
   "note": "A scalar type is any operator table closed under its operations; failures of scalar operations are passed on."
  },
  {
   "property": "C102",
   "status": "proved",
   "theorems": [
    "CppMaths.C102_vectors",
    "CppMaths.C102_space",
    "CppMaths.C102_matrices",
    "CppMaths.C102_dot_returns",
    "CppMaths.C102_product_returns"
   ],
   "note": "For the members that compile for Frac (see Scalar.frac)."
  },
  {
   "property": "C103",
   "status": "partial",
   "theorems": [
    "CppMaths.C103_refuted",
    "CppMaths.C103_refuted_always",
    "CppMaths.C103_matrix_quotient_partial"
   ],
   "note": "False in the code except for Mat / scalar (C103_refuted): the others use Frac /=, which does not check for zero."
  },
  {
   "property": "C104",
   "status": "proved",
   "theorems": [
    "CppMaths.C104_wider_type",
    "CppMaths.C104_Int",
    "CppMaths.C104_Int_returns"
   ],
   "note": "Sizes, indices and loop counts of a computation are fixed natural numbers, not results of scalar operations; literals are 0, 1 and -1; shapes are limited only by memory."
  },
  {
   "property": "C105",
   "status": "proved",
   "theorems": [
    "CppMaths.C105_whole_numbers",
    "CppMaths.C105_dot",
    "CppMaths.C105_mat_mul",
    "CppMaths.C105_cofactor_expansions"
   ],
   "note": "IEEE 754 binary64 with rounding to nearest."
  },
  {
   "property": "C106",
   "status": "proved",
   "theorems": [
    "CppMaths.C106_determinant",
    "CppMaths.C106_rref",
    "CppMaths.C106_inverse"
   ],
   "note": "The condition is that elimination over whole numbers (Scalar.whole), which gives up at a fraction, succeeds."
  },
  {
   "property": "C107",
   "status": "proved",
   "theorems": [
    "CppMaths.C107_exact_field",
    "CppMaths.C107_Frac"
   ],
   "note": "Members that do not compile for Frac are no programs; division by zero is excluded; an abort remains possible (C06)."
  },
  {
   "property": "C108",
   "status": "proved",
   "theorems": [
    "CppMaths.C108_types",
    "CppMaths.C108_row_reduction",
    "CppMaths.C108_cubic",
    "CppMaths.C108_product",
    "CppMaths.C108_factorial",
    "CppMaths.C108_factorial_needed",
    "CppMaths.C108_determinant_faster"
   ],
   "note": "The counted functions are proved to give the results of the uncounted ones. An operation on T counts as one step."
  },
  {
   "property": "C109",
   "status": "proved",
   "theorems": [
    "CppMaths.C109_same_results",
    "CppMaths.C109_never_wrong",
    "CppMaths.C109_sums_exact",
    "CppMaths.C109_canonical_exact",
    "CppMaths.C109_histories"
   ],
   "note": "Valid objects: bins between 0 and 10^9 - 1, at least one. Programs in which out_of_range is not caught."
  },
  {
   "property": "C110",
   "status": "partial",
   "theorems": [
    "CppMaths.C110_refuted",
    "CppMaths.C110_unchanged_partial",
    "CppMaths.C110_division_leftover_partial",
    "CppMaths.C110_sum_leftover_partial",
    "CppMaths.C110_histories_partial"
   ],
   "note": "Refuted for /=, += and -=: a throwing /= leaves only the low digits, a throwing += or -= leaves |x| - |y| or |x|. Proved: exactly what is left, the operations that leave the object alone, and that every object stays valid."
  },
  {
   "property": "C111",
   "status": "proved",
   "theorems": [
    "CppMaths.C111_rank",
    "CppMaths.C111_nonsingular"
   ],
   "note": "For scalar types with exact field operations; for Frac, unless Int aborts (C06)."
  },
  {
   "property": "C112",
   "status": "proved",
   "theorems": [
    "CppMaths.C112_system",
    "CppMaths.C112_read_off",
    "CppMaths.C112_invertible"
   ],
   "note": "For scalar types with exact field operations; for Frac, unless Int aborts (C06)."
  },
  {
   "property": "C113",
   "status": "proved",
   "theorems": [
    "CppMaths.C113_vec",
    "CppMaths.C113_mat"
   ],
   "note": "Finite operands; the sign of a zero is left open."
  },
  {
   "property": "C114",
   "status": "proved",
   "theorems": [
    "CppMaths.C114_product",
    "CppMaths.C114_trace",
    "CppMaths.C114_cross"
   ],
   "note": "Nothing is claimed about entries that are infinite or NaN, except when they are finite."
  },
  {
   "property": "C115",
   "status": "partial",
   "theorems": [
    "CppMaths.C115_refuted_left",
    "CppMaths.C115_refuted_hex",
    "CppMaths.C115_refuted_showpos",
    "CppMaths.C115_plain_partial",
    "CppMaths.C115_left_partial",
    "CppMaths.C115_base_partial",
    "CppMaths.C115_showpos_partial"
   ],
   "note": "False under left, hex, oct and showpos. Exact conditions for left, hex and showpos; for oct that numbers below 10^9 are right. What is written in any state is said exactly by C116_every_state_partial."
  },
  {
   "property": "C116",
   "status": "partial",
   "theorems": [
    "CppMaths.C116_refuted",
    "CppMaths.C116_width_partial",
    "CppMaths.C116_every_state_partial",
    "CppMaths.C116_prefix_partial"
   ],
   "note": "False for negative numbers and numbers of more than nine digits. C116_every_state_partial gives the exact text for all numbers and all formatting states."
  },
  {
   "property": "C117",
   "status": "partial",
   "theorems": [
    "CppMaths.C117_refuted",
    "CppMaths.C117_refuted_failed_stream",
    "CppMaths.C117_state_partial",
    "CppMaths.C117_small_entries"
   ],
   "note": "False from 10^9 on: the fill character stays 0 (and on a failed stream the width 9). The exact state after printing is given for every state before."
  },
  {
   "property": "C118",
   "status": "proved",
   "theorems": [
    "CppMaths.C118_sequences",
    "CppMaths.C118_failed_stream"
   ],
   "note": "Powers 10^9, 10^18, ... in factors are excluded, see C79."
  },
  {
   "property": "C119",
   "status": "proved",
   "theorems": [
    "CppMaths.C119_rref"
   ],
   "note": "Nothing is said about how near the result is to the exact reduced row echelon form: it may be of another rank, as the example beside the theorem shows."
  },
  {
   "property": "C120",
   "status": "partial",
   "theorems": [
    "CppMaths.C120_dominant_columns_partial",
    "CppMaths.C120_dominant_rows_partial",
    "CppMaths.C120_refuted_singular",
    "CppMaths.C120_refuted_regular",
    "CppMaths.C120_nonfinite_throws",
    "CppMaths.C120_inverse_monomial_partial"
   ],
   "note": "False both ways: the inverse of [[49, 1], [49, 1]] is returned, that of [[3, 1], [1, fl(1/3)]] refused. Proved: entries that are not finite are refused; matrices with one entry in every row and column are inverted with correctly rounded entries; matrices of any size whose diagonal dominates the columns or the rows are inverted, with an error bound. Missing: error bounds for other regular matrices."
  },
  {
   "property": "C121",
   "status": "partial",
   "theorems": [
    "CppMaths.C121_refuted_singular",
    "CppMaths.C121_refuted_regular",
    "CppMaths.C121_never_fails",
    "CppMaths.C121_small_partial",
    "CppMaths.C121_triangular_partial",
    "CppMaths.C121_dominant_columns_partial",
    "CppMaths.C121_dominant_rows_partial"
   ],
   "note": "False both ways for three rows, by witnesses. Proved: it never fails; one and two rows, triangular matrices, and matrices of any size whose diagonal dominates the columns or the rows (relative error bound, never zero in the determinant). Missing: error bounds for other matrices of three and more rows, which cannot be relative to the determinant."
  },
  {
   "property": "C122",
   "status": "proved",
   "theorems": [
    "CppMaths.C122_cofactor_expansions"
   ],
   "note": ""
  },
  {
   "property": "C123",
   "status": "proved",
   "theorems": [
    "CppMaths.BigInt.C123_comparisons",
    "CppMaths.BigInt.C123_sums",
    "CppMaths.BigInt.C123_all_objects"
   ],
   "note": ""
  },
  {
   "property": "C124",
   "status": "partial",
   "theorems": [
    "CppMaths.BigInt.C124_refuted",
    "CppMaths.BigInt.C124_multiplication_partial",
    "CppMaths.BigInt.C124_cubic_needed_partial"
   ],
   "note": "False: the loop over the bins of one factor adds up numbers of full length, so the time is cubic. Proved: at most 69 m n^2 steps, and at least 5/2 m n^2 for factors without zero bins."
  },
  {
   "property": "C125",
   "status": "partial",
   "theorems": [
    "CppMaths.BigInt.C125_refuted",
    "CppMaths.BigInt.C125_division_partial",
    "CppMaths.BigInt.C125_cubic_needed_partial"
   ],
   "note": "False: every bin of the quotient costs up to 90 multiplications, each quadratic in the divisor. Proved: at most 17510 n k^2 steps (18000 n k^2 + 3 n^2 k for %), and at least 5/2 k^2 for every nonzero bin of the quotient."
  },
  {
   "property": "C126",
   "status": "proved",
   "theorems": [
    "CppMaths.BigInt.C126_calls",
    "CppMaths.BigInt.C126_exact_number"
   ],
   "note": "Negative exponents are not covered."
  },
  {
   "property": "C127",
   "status": "proved",
   "theorems": [
    "CppMaths.Frac.C127_rounds",
    "CppMaths.Frac.C127_steps"
   ],
   "note": ""
  },
  {
   "property": "C128",
   "status": "proved",
   "theorems": [
    "CppMaths.C128_same_results",
    "CppMaths.C128_operators",
    "CppMaths.C128_division_by_zero",
    "CppMaths.C128_construction",
    "CppMaths.C128_powers",
    "CppMaths.C128_throws_iff",
    "CppMaths.C128_string_constructor",
    "CppMaths.C128_from_double",
    "CppMaths.C128_stream_success"
   ],
   "note": "Powers for the exponents for which the power of an Int is right (GoodExp)."
  },
  {
   "property": "C129",
   "status": "partial",
   "theorems": [
    "CppMaths.C129_refuted",
    "CppMaths.C129_leftover_partial",
    "CppMaths.C129_only_target"
   ],
   "note": "Refuted: the variable is left unreduced, with a part cut off, zero, or with a zero denominator. Proved: exactly what is left, that it stands for the result if neither unreduced part divides the other, and that no other variable changes."
  },
  {
   "property": "C130",
   "status": "proved",
   "theorems": [
    "CppMaths.C130_operators",
    "CppMaths.C130_powers",
    "CppMaths.C130_zero_denominators",
    "CppMaths.C130_comparisons",
    "CppMaths.C130_programs"
   ],
   "note": "== can call equal fractions different (C129_refuted)."
  },
  {
   "property": "C131",
   "status": "proved",
   "theorems": [
    "CppMaths.C131_program_refinement"
   ],
   "note": "Programs in which out_of_range is not caught; as in C47 no claim after an in-place division by zero or an in-place power with negative exponent."
  },
  {
   "property": "C132",
   "status": "proved",
   "theorems": [
    "CppMaths.C132_same_results",
    "CppMaths.C132_Frac",
    "CppMaths.C132_cofactor",
    "CppMaths.C132_fraction_free",
    "CppMaths.C132_no_ub"
   ],
   "note": ""
  },
  {
   "property": "C133",
   "status": "proved",
   "theorems": [
    "CppMaths.C133_text_unambiguous",
    "CppMaths.C133_entry",
    "CppMaths.C133_nearest",
    "CppMaths.C133_whole",
    "CppMaths.C133_same_text",
    "CppMaths.C133_seventeen",
    "CppMaths.C133_vector",
    "CppMaths.C133_matrix"
   ],
   "note": "The text of the standard library (%g) is modelled, correctly rounded as glibc does; the sign of a NaN is left out."
  },
  {
   "property": "C134",
   "status": "partial",
   "theorems": [
    "CppMaths.C134_statement_partial",
    "CppMaths.C134_strong_guarantee",
    "CppMaths.C134_programs_partial",
    "CppMaths.C134_blocks_partial",
    "CppMaths.C134_everything_freed",
    "CppMaths.C134_refuted_leak",
    "CppMaths.C134_scalars_partial"
   ],
   "note": "False for entries that need memory themselves, such as Int: the constructors leak their block when copying an entry throws. Proved: everything else for all entries, and the absence of leaks for entries that need no memory."
  },
  {
   "property": "C135",
   "status": "partial",
   "theorems": [
    "CppMaths.C135_constructor_partial",
    "CppMaths.C135_too_large",
    "CppMaths.C135_refuted"
   ],
   "note": "False: rows * cols wraps around 2^64, and the constructor writes outside its block. Proved: products below 2^64, and what happens from there on."
  },
  {
   "property": "C136",
   "status": "proved",
   "theorems": [
    "CppMaths.C136_statement",
    "CppMaths.C136_scalars"
   ],
   "note": "Memory is counted in entries."
  },
  {
   "property": "C137",
   "status": "proved",
   "theorems": [
    "CppMaths.C137_columns",
    "CppMaths.C137_rows"
   ],
   "note": ""
  },
  {
   "property": "C138",
   "status": "proved",
   "theorems": [
    "CppMaths.C138_same_or_bad_alloc",
    "CppMaths.C138_values"
   ],
   "note": "The requests are those of the deque of an Int; one question per constructor or loop of insertions into an object that is destroyed when the exception leaves. Input and output are not treated."
  },
  {
   "property": "C139",
   "status": "partial",
   "theorems": [
    "CppMaths.C139_refuted_sign",
    "CppMaths.C139_refuted_carry",
    "CppMaths.C139_refuted_swap",
    "CppMaths.C139_left_operand_partial",
    "CppMaths.C139_unchanged_partial"
   ],
   "note": "False: x += 7 may turn -5 into 5, x += 1 may turn 999999999 into 0, *= may leave a number that is neither the old value nor the result. What may be left is said exactly for every compound assignment; unchanged for sums that need no further bin and differences with positive result."
  },
  {
   "property": "C140",
   "status": "partial",
   "theorems": [
    "CppMaths.C140_refuted_quotient",
    "CppMaths.C140_refuted_times_power_ten",
    "CppMaths.C140_valid_partial"
   ],
   "note": "False for /= with quotient zero and for times_power_ten with a negative power, which may leave an object without bins. Proved for everything else, if a failed assignment between deques leaves at least one element."
  },
  {
   "property": "C141",
   "status": "proved",
   "theorems": [
    "CppMaths.C141_same_or_bad_alloc",
    "CppMaths.C141_values"
   ],
   "note": "Conventions as for C138. When the order in which the operands of one expression are computed is unspecified, one order is taken; it only decides which request is refused first."
  },
  {
   "property": "C142",
   "status": "partial",
   "theorems": [
    "CppMaths.C142_refuted_value",
    "CppMaths.C142_refuted_denominator",
    "CppMaths.C142_refuted_numerator",
    "CppMaths.C142_parts_partial"
   ],
   "note": "False: 1/2 += 1/3 may leave 5/2, 1/500000000 *= 1/2 may leave 1/0, 1/2 -= 1/2 may leave a numerator without bins. Proved: both parts are well-formed numbers if the result is not zero, under the same assumption on deques as C140."
  },
  {
   "property": "C143",
   "status": "partial",
   "theorems": [
    "CppMaths.C143_refuted_stream",
    "CppMaths.C143_refuted_string",
    "CppMaths.C143_stream_partial",
    "CppMaths.C143_string_partial",
    "CppMaths.C143_numeral_partial"
   ],
   "note": "False: if the string stream that collects the digits gets no memory, its badbit is set silently, and the number is taken for zero; Int(\"123\") is then zero. (Whether the first digit needs memory depends on the library.) Proved: this wrong zero is the only way to go wrong silently, and excluded if there is memory for the first digit; otherwise the result is right or, if one of its own requests is refused, bad_alloc or invalid_argument is thrown, although a comment in the source says that read does not throw."
  },
  {
   "property": "C144",
   "status": "partial",
   "theorems": [
    "CppMaths.C144_refuted_no_bins",
    "CppMaths.C144_refuted_value",
    "CppMaths.C144_left_partial"
   ],
   "note": "False: the variable may be left without bins or with the topmost digits only. Proved: those are the only possibilities."
  },
  {
   "property": "C145",
   "status": "proved",
   "theorems": [
    "CppMaths.C145_prefix_or_failed",
    "CppMaths.C145_texts",
    "CppMaths.C145_silent"
   ],
   "note": "For streams that do not throw exceptions (the default) and as far as the buffer reports refusals."
  },
  {
   "property": "C146",
   "status": "partial",
   "theorems": [
    "CppMaths.C146_refuted_zero_denominator",
    "CppMaths.C146_refuted_zero",
    "CppMaths.C146_refuted_string",
    "CppMaths.C146_stream_partial",
    "CppMaths.C146_string_partial"
   ],
   "note": "False: by C143 either part may silently be taken for zero. in >> x can so read 5/7 as 1/0, a fraction with denominator zero, without any sign of failure, and Frac(\"5/7\") can be zero. Proved: the wrong results are 0, 1/0 and -1/0 only (0 only for the constructor), the stream is left as with unlimited memory, and otherwise the result is right or one of four failures is reported."
  },
  {
   "property": "C147",
   "status": "partial",
   "theorems": [
    "CppMaths.C147_refuted_digits",
    "CppMaths.C147_refuted_zero",
    "CppMaths.C147_refuted_undefined",
    "CppMaths.C147_prefix_partial",
    "CppMaths.C147_value_partial"
   ],
   "note": "False: from_double prints into a string stream, whose failure it does not check. If memory runs out there, the number is cut off: 3.14 becomes 31/10 or 3, and if the decimal point is lost, the behaviour is undefined (erase at an invalid position). Proved: a result is the number cut off after some decimal place, or zero by C143; nothing is lost if no request is refused."
  },
  {
   "property": "C148",
   "status": "partial",
   "theorems": [
    "CppMaths.C148_refuted",
    "CppMaths.C148_history_partial",
    "CppMaths.C148_no_insertions",
    "CppMaths.C148_values"
   ],
   "note": "False: f + g has undefined behaviour for f < g (x + x^2), and so has Poly of a vector. Proved: a history that ends without a failure leaves valid objects that stand for what it computes with Laurent polynomials (Mathlib's AddMonoidAlgebra); failures are the assertion of the fractions, or undefined behaviour in a history that puts a term into a polynomial. Missing: the histories with undefined behaviour."
  },
  {
   "property": "C149",
   "status": "partial",
   "theorems": [
    "CppMaths.C149_refuted",
    "CppMaths.C149_going_on_partial"
   ],
   "note": "False: x /= y that runs out of memory may leave x without bins, and later statements then throw out_of_range. Proved for all programs without /=. Conventions as for C138; failed assignments of deques are assumed to leave at least one element. A failed assertion is the only other outcome; by C138 it comes with unlimited memory too. Missing: programs with /=."
  },
  {
   "property": "C150",
   "status": "partial",
   "theorems": [
    "CppMaths.C150_refuted",
    "CppMaths.C150_trying_again_partial",
    "CppMaths.C150_enough_attempts_partial"
   ],
   "note": "False: x += y that runs out of memory may have lost the sign of x, and trying again gives a wrong sum. Proved for programs whose statements assign an Int that is not one of their operands, whatever failed assignments leave behind. Missing: compound assignments and statements that assign an operand."
  },
  {
   "property": "C151",
   "status": "proved",
   "theorems": [
    "CppMaths.C151_same_or_bad_alloc",
    "CppMaths.C151_values"
   ],
   "note": ""
  },
  {
   "property": "C152",
   "status": "partial",
   "theorems": [
    "CppMaths.C152_refuted_term",
    "CppMaths.C152_refuted_poly",
    "CppMaths.C152_others_partial",
    "CppMaths.C152_factor_partial",
    "CppMaths.C152_append_partial",
    "CppMaths.C152_append_terms_partial"
   ],
   "note": "False: t *= f or p.appendTerm(t) that runs out of memory may leave a wrong power or coefficient. Proved: at most the assigned variable changes; appendTerms has no effect when it fails; a failed product with a factor changes at most the power of that variable, to what a failed += of Ints leaves; a failed appendTerm changes at most the coefficient of one term with that monomial. Missing: that power and that coefficient, and what a failed copy assignment leaves, which the standard does not say."
  },
  {
   "property": "C153",
   "status": "partial",
   "theorems": [
    "CppMaths.C153_refuted",
    "CppMaths.C153_trying_again_partial",
    "CppMaths.C153_enough_attempts_partial"
   ],
   "note": "False: trying t *= f again may give a wrong power. Proved for programs whose statements compute new values from other variables than the one they assign, or are appendTerms, whatever failed assignments leave. Missing: the other statements that change an object in place."
  },
  {
   "property": "C154",
   "status": "proved",
   "theorems": [
    "CppMaths.C154_same_or_bad_alloc",
    "CppMaths.C154_values",
    "CppMaths.C154_division_by_zero"
   ],
   "note": ""
  },
  {
   "property": "C155",
   "status": "partial",
   "theorems": [
    "CppMaths.C155_refuted",
    "CppMaths.C155_trying_again_partial",
    "CppMaths.C155_enough_attempts_partial"
   ],
   "note": "False: trying x += y again may give a wrong number (1/2 += 1/3 may give 17/6). Proved for programs none of whose statements assigns one of its operands, whatever failed assignments leave. Missing: compound assignments and statements like x = x + y."
  },
  {
   "property": "C156",
   "status": "proved",
   "theorems": [
    "CppMaths.C156_same",
    "CppMaths.C156_history",
    "CppMaths.C156_throws_iff"
   ],
   "note": ""
  },
  {
   "property": "C157",
   "status": "partial",
   "theorems": [
    "CppMaths.C157_refuted",
    "CppMaths.C157_left_partial",
    "CppMaths.C157_going_on_partial"
   ],
   "note": "False: t *= u may leave t with the variables of the product, and t *= u, t.negate(), p.appendTerm(t), p += f and p -= f may leave a coefficient that is not in lowest terms. Proved: nothing else changes, new values are assigned completely or not at all, and programs without these five kinds of statements may catch the exception and go on. Missing: the object changed in place."
  }
 ]
}