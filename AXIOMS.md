# Axioms of the property theorems

Output of `#print axioms` for every theorem of MANIFEST.json, grouped by the axioms used. P = propext, C = Classical.choice, Q = Quot.sound.

## C, P, Q

C01_addition_exact, C02_subtraction_exact, C03_multiplication_exact, C04_compound_multiplication_partial, C05_division_truncates, C06_division_returns_partial, C07_modulo_floored, C08_power_exact_partial, C08_other_exponents_partial, C09_negative_exponent_partial, C10_comparisons, C11_negation_abs, C12_print_numeral, C13_string_constructor, C14_round_trip, C14_round_trip_text, C15_stream_extraction, C16_from_machine_integer, C17_set_equals_partial, C18_times_power_ten_partial, C18_returns_iff_partial, C19_no_undefined_behaviour, C20_aliasing_values, C21_binary_compound_agree, C22_histories_refine, C22_histories_exact, C23_ring_laws, C24_quotient_and_remainder, C25_divide_by_int, C26_consistency, C30_lowest_terms_partial, C30_unique_representation, C31_construction, C31_construction_integer, C32_arithmetic_exact, C32_compound_agrees, C33_division_exact, C34_refuted, C34_refuted_always, C34_compound_division_partial, C35_comparisons, C36_gcd, C36_gcd_moderate, C37_refuted, C37_power_partial, C37_other_exponents_partial, C38_refuted, C38_compound_power_partial, C39_mixed_operators, C39_mixed_compound, C40_refuted, C40_round_trip_partial, C40_round_trip_moderate, C41_string_constructor, C41_string_constructor_converse, C42_refuted, C42_stream_success_partial, C42_stream_failure_partial, C42_zero_denominator, C42_fail_parenthesis, C42_fail_denominator, C42_any_stream, C43_refuted, C43_from_double_partial, C43_from_double_moderate, C44_self_assignment, C45_no_abort, C45_no_abort_int, C46_refuted, C46_reciprocal_partial, C47_program_refinement, C50_entrywise, C50_throws_iff, C51_multiply, C51_divide, C51_divide_by_zero, C52_dot, C52_throws_iff, C52_symmetric_bilinear, C53_cross, C53_cross_laws, C53_throws_iff, C54_triple_products, C55_concatenate_constant, C55_concatenate_objects, C56_equality, C57_output, C58_refuted, C58_multiply_by_entry_partial, C58_divide_by_entry_partial, C59_set_entries, C59_constructors, C61_entrywise, C61_throws_iff, C61_negate_scale, C61_divide, C62_product, C62_square, C62_throws_iff, C63_transpose, C63_involution, C63_trace, C64_minor, C64_cofactor, C65_determinant, C65_int, C65_throws_iff, C65_empty, C66_determinant, C66_returns, C66_throws_iff, C66_agrees_with_expansions, C67_rref, C67_unique, C67_null_space, C67_solutions, C67_idempotent, C68_inverse, C68_throws_iff, C68_roundtrip, C69_fill, C69_array, C69_throws_iff, C69_diagonal, C69_augmented, C70_refuted, C70_multiply_by_entry_partial, C70_divide_by_entry_partial, C71_refuted_empty_minor, C71_ring_partial, C71_field_partial, C72_equality, C72_copy_objects, C72_copy, C73_constructors, C73_order_irrelevant, C73_factor_times_factor, C73_term_times_factor, C73_term_times_term, C73_commutative, C73_square_in_place, C74_equality, C74_factor_equality, C75_refuted, C75_order_partial, C75_single_variable_partial, C75_factor_order, C76_refuted_at_end, C76_refuted_vector_constructors, C76_append_partial, C76_coefficients_partial, C76_history_partial, C77_refuted_unsorted, C77_append_terms_partial, C77_merge_keeps_terms, C78_refuted_ascending, C78_factors_partial, C78_terms_partial, C78_compound_partial, C79_refuted_power, C79_output_partial, C81_float_cmp_partial, C81_exact_difference_partial, C81_float_equals_partial, C81_refuted, C81_antisymmetric, C83_output, C84_refuted_truncation, C84_small_partial, C84_fraction_free_partial, C84_fraction_free_int_partial, C85_refuted_zero_power, C85_equality_partial, C86_refuted_power, C86_output_partial, C87_isFinite, C88_from_double_partial, C88_accuracy, C88_moderate, C88_refuted, C88_refuted_precision_zero, C89_parity_sign_partial, C90_shifted_copy_partial, C91_refuted, C91_read_sequence_partial, C92_vec_entrywise, C92_dot, C92_mat_mul, C92_cofactor_expansions, C92_mat_never_wrong, C93_norm_int, C94_refuted, C94_unit_int_partial, C95_unit_double, C96_dot_double, C97_refuted, C97_norm_double_partial, C98_refuted, C98_unit_double_partial, C99_product_is_dot, C100_programs, C100_statement, C100_legal_programs, C100_frame, C100_checks_first, C101_arithmetic, C101_shapes, C101_elimination, C101_vectors, C101_space, C101_double, C101_int, C101_double_elimination, C101_int_elimination, C102_vectors, C102_space, C102_matrices, C102_dot_returns, C102_product_returns, C103_refuted_always, C103_matrix_quotient_partial, C104_wider_type, C104_Int, C104_Int_returns, C105_whole_numbers, C105_dot, C105_mat_mul, C105_cofactor_expansions, C106_determinant, C106_rref, C106_inverse, C107_Frac, C108_types, C108_row_reduction, C108_cubic, C108_product, C108_factorial, C108_factorial_needed, C108_determinant_faster, C109_never_wrong, C109_sums_exact, C109_canonical_exact, C109_histories, C110_unchanged_partial, C110_division_leftover_partial, C110_sum_leftover_partial, C110_histories_partial, C111_rank, C111_nonsingular, C112_system, C112_read_off, C112_invertible, C113_vec, C113_mat, C114_product, C114_trace, C114_cross, C115_refuted_left, C115_refuted_hex, C115_refuted_showpos, C115_plain_partial, C115_left_partial, C115_base_partial, C115_showpos_partial, C116_refuted, C116_width_partial, C116_every_state_partial, C116_prefix_partial, C117_refuted, C117_state_partial, C117_small_entries, C118_sequences, C118_failed_stream, C119_rref, C120_dominant_columns_partial, C120_dominant_rows_partial, C120_refuted_singular, C120_refuted_regular, C120_nonfinite_throws, C120_inverse_monomial_partial, C121_refuted_singular, C121_refuted_regular, C121_never_fails, C121_small_partial, C121_triangular_partial, C121_dominant_columns_partial, C121_dominant_rows_partial, C122_cofactor_expansions, BigInt.C123_comparisons, BigInt.C123_sums, BigInt.C123_all_objects, BigInt.C124_refuted, BigInt.C124_multiplication_partial, BigInt.C124_cubic_needed_partial, BigInt.C125_refuted, BigInt.C125_division_partial, BigInt.C125_cubic_needed_partial, BigInt.C126_calls, BigInt.C126_exact_number, Frac.C127_rounds, Frac.C127_steps, C128_operators, C128_division_by_zero, C128_construction, C128_powers, C128_throws_iff, C128_string_constructor, C128_from_double, C128_stream_success, C129_leftover_partial, C130_operators, C130_powers, C130_zero_denominators, C130_comparisons, C130_programs, C131_program_refinement, C132_Frac, C132_cofactor, C132_fraction_free, C132_no_ub, C133_text_unambiguous, C133_entry, C133_nearest, C133_whole, C133_same_text, C133_seventeen, C133_vector, C133_matrix, C134_statement_partial, C134_strong_guarantee, C134_programs_partial, C134_blocks_partial, C134_everything_freed, C134_scalars_partial, C135_constructor_partial, C135_refuted, C136_statement, C136_scalars, C137_columns, C137_rows, C138_values, C139_left_operand_partial, C139_unchanged_partial, C140_valid_partial, C141_values, C142_parts_partial, C143_refuted_stream, C143_refuted_string, C143_stream_partial, C143_string_partial, C143_numeral_partial, C144_refuted_no_bins, C144_refuted_value, C144_left_partial, C145_prefix_or_failed, C145_texts, C145_silent, C146_refuted_zero_denominator, C146_refuted_zero, C146_refuted_string, C146_stream_partial, C146_string_partial, C147_refuted_digits, C147_refuted_zero, C147_refuted_undefined, C147_prefix_partial, C147_value_partial, C148_refuted, C148_history_partial, C148_no_insertions, C148_values, C149_going_on_partial, C150_trying_again_partial, C150_enough_attempts_partial, C151_values, C152_refuted_term, C152_refuted_poly, C152_others_partial, C152_factor_partial, C152_append_partial, C152_append_terms_partial, C153_refuted, C153_trying_again_partial, C153_enough_attempts_partial, C154_values, C154_division_by_zero, C155_trying_again_partial, C155_enough_attempts_partial, C156_same, C156_history, C156_throws_iff, C157_refuted, C157_left_partial, C157_going_on_partial

## P

C06_refuted, C08_refuted_every_base, C08_refuted_abort, C09_refuted, C15_stream_not_good, C18_refuted, C30_refuted, C59_set_all, C100_no_leak, C100_strong_guarantee, C103_refuted, C109_same_results, C110_refuted, C117_refuted_failed_stream, C128_same_results, C129_refuted, C134_refuted_leak, C139_refuted_sign, C139_refuted_carry, C139_refuted_swap, C140_refuted_quotient, C140_refuted_times_power_ten, C142_refuted_value, C142_refuted_denominator, C142_refuted_numerator, C149_refuted, C150_refuted, C155_refuted

## P, Q

C08_refuted, C20_aliasing_safe, C43_refuted_precision_zero, C44_aliasing, C100_start, C101_field, C107_exact_field, C129_only_target, C132_same_results, C135_too_large, C138_same_or_bad_alloc, C141_same_or_bad_alloc, C151_same_or_bad_alloc, C154_same_or_bad_alloc

## none

C04_refuted, C04_refuted_print, C04_refuted_abort, C16_int64_min, C17_refuted_set_value, C17_refuted_set_value_observable, C17_refuted_equals, C89_refuted, C90_refuted
