# Axioms of each theorem

Written by `tools/axioms.py` from `#print axioms`.

## none (14 theorems)

C17_to_first_enlarges, C17_to_first_fixed, C17_to_first_fixed_stretches, C18_not_column_major, C95_axis, C95_option, C111_to_char, C111_to_byte, C111_numbers, C111_trans_number_partial, C111_cblas, C111_flips, C111_false_lower, C111_false_conj

## propext (78 theorems)

C04_index_uncheck, C08_reverse_axes_involutive, C13_equal_axes_witness, C15_diagonal_rank, C15_wide_super_diagonal_lost, C15_tall_super_diagonal_panics, C15_equal_axes_out_of_bounds, C16_shapes_empty, C21_copy_unchecked, C24_empty_split_panics, C25_indexed_back_witness, C26_plain_orders, C28_false_flat_gaps, C28_default_rank0_witness, C32_zero_stride_destination, C33_larger_source_accepted, C35_asarray_reject, C35_to_layout_reject, C39_false_broadcast_reduced, C39_false_broadcast_vector, C39_false_broadcast_remains, C39_false_empty, C41_false_batch_ranks, C41_false_whole_operand, C42_false_inner_offset, C42_false_fresh, C44_false_triu_tall, C44_false_triu_lost, C45_false_diagonal, C45_false_unknown, C47_empty_list, C48_normalize_none, C49_reject, C52_false_axes_error, C52_false_mut_alias, C52_false_axes_empty, C55_wide_super_diagonal_lost, C55_tall_super_diagonal_panics, C56_to_scalar_reject, C56_to_vec_reject, C57_mask_length_unchecked, C59_false_full, C62_weighted_reject, C62_false_no_columns, C67_memory_partial, C67_false_capacity, C67_false_stride, C84_reject, C85_success_partial, C85_sequence_partial, C85_workers, C85_false_error, C85_false_race, C85_device_partial, C89_sequential, C90_false_length, C90_scalar, C91_into_dim, C92_threads, C92_false_threads, C94_false_shared, C95_false_select, C95_false_range, C95_false_narrow, C95_false_pair, C97_default, C97_false_alias, C97_false_race, C97_false_indexed_back, C97_false_split_empty, C98_false_create, C98_false_accept, C98_false_cast, C98_false_empty, C98_false_broadcast, C99_false_repeated, C111_of_char, C112_false_diagonal

## propext, Quot.sound (60 theorems)

C02_bounds_empty, C05_fixed_eq_dynamic, C11_squeeze_out_of_range_accepted, C18_from_iff, C20_no_negative, C28_shape_mismatch, C33_broadcast_destination, C35_to_layout_holes, C37_shared_cell_lost_update, C40_empty, C41_static_vectors, C43_false_empty, C44_reject, C44_false_triu_outside, C45_unpack_reject, C45_false_antihermitian, C51_false_into_owned, C51_false_iter, C52_false_indexed_K, C52_false_indexed_back, C54_meshgrid_rejects, C55_diag_rank, C60_false_beyond, C61_false_beta, C61_false_empty_sum, C65_false_signbit, C68_false_slice, C72_false_empty, C76_driver, C78_reject, C78_driver, C82_reject_partial, C89_scoped_partial, C89_finishes, C89_restored, C89_workers, C89_alone, C89_numbers, C89_false_panic, C89_false_race, C91_compatible_is_reshape, C95_axes, C95_tuple_partial, C95_false_tuple, C95_index_partial, C95_pair_partial, C95_pair_lists, C96_memory_partial, C96_aligned, C96_success_partial, C96_drop_partial, C96_false_drop, C96_false_overflow, C96_false_zero_sized, C103_abs_diff, C103_parts, C107_prefer, C111_flip_partial, C112_tables, C112_false_compiled

## propext, Classical.choice, Quot.sound (615 theorems)

C01_no_alias, C01_injective, C02_bounds_exact, C02_bounds_error_iff, C03_in_bounds, C03_access_ok, C03_reject, C04_index_ok_iff, C04_index_accept_iff, C04_index_error, C05_c_contig_addr, C05_f_contig_addr, C05_c_contig_bijective, C05_f_contig_bijective, C06_ndim_of_f_contig, C06_ndim_of_c_contig, C06_f_contig_iff, C06_c_contig_iff, C06_empty_contig, C07_transpose_accept_iff, C07_transpose_element, C07_transpose_covers, C07_transpose_shape, C07_transpose_accepted, C08_reverse_axes_eq_transpose, C08_reverse_axes_element, C08_swapaxes_axes, C08_swapaxes_shape, C08_swapaxes_eq_transpose, C08_swapaxes_involutive, C08_swapaxes_symmetric, C08_moveaxis_accept_iff, C08_moveaxis_order, C08_moveaxis_inverse, C09_accept_iff, C09_zero_step, C09_slice_partial, C09_subsequence, C09_result_valid, C09_stop_minus_one_differs, C09_low_start_differs, C10_accept_iff, C10_select_element, C10_result_valid, C10_index_error, C11_insert_one, C11_expand_accept_iff, C11_expand_element, C11_squeeze_accept_iff, C11_squeeze_element, C11_squeeze_all, C11_squeeze_expand, C11_squeeze_rejects, C12_accept_iff, C12_rejections, C12_slice_partial, C12_result_valid, C13_view_chain_partial, C13_view_chain_no_diagonal, C13_view_valid_partial, C14_flip_accept_iff, C14_flip_element, C14_flip_all, C14_flip_twice, C14_flip_again, C15_diagonal_element, C15_diagonal_length_partial, C16_shape_iff, C16_accept_iff, C16_reject, C16_comm, C16_assoc, C16_idem, C16_unit, C16_shapes_iff, C17_broadcast_layout, C17_accept_iff, C17_reject, C17_valid, C17_broadcast_to_iff, C17_broadcast_to, C17_broadcast_to_valid, C17_covers, C17_broadcast_arrays, C18_to_iff, C19_reshape_order, C19_same_sequence, C19_no_alias, C19_error_iff, C19_none_needs_copy, C19_contig_never_copies, C19_result_valid, C20_reject, C20_infer, C20_total_size, C20_not_divisible, C20_zero_product_panics, C21_reshape, C21_no_copy, C21_reject_unless_copy, C22_valid_nonNegative, C22_iteration, C22_all_indices_once, C22_len_exact, C23_double_ended, C23_double_ended_any, C24_split, C24_split_tree, C25_indexed_forward_partial, C25_indexed_next, C25_indexed_back_last_partial, C26_k_order, C26_k_permutation, C26_k_sorted, C27_unravel_f, C27_unravel_c, C27_unravel_f_fixed, C27_unravel_c_fixed, C27_unravel_fixed_rank, C27_unravel_of_rank, C28_flat_partial, C28_flat_accept, C28_joint, C28_joint_default, C29_contiguous_block, C30_binary, C30_reject, C30_binary_common, C30_reject_common, C30_binary_consume_left, C30_binary_consume_right, C30_binary_consume, C30_reject_consume, C30_binary_output, C30_output_reject, C30_number_right, C30_number_left, C31_output_layout, C31_all_written, C32_assign_number, C32_assign_op, C32_assign_op_reject, C33_assign_partial, C33_incompatible, C33_fill, C34_arbitrary, C35_asarray, C35_asarray_owned, C35_to_layout_partial, C35_to_contig, C35_into_owned, C35_asarray_default, C35_asarray_keep, C36_map_inplace, C36_map, C36_unary_consume, C37_update_partial, C37_binary, C37_map_inplace, C37_fill, C37_assign, C37_copy, C38_reduce, C38_elements, C38_sum, C38_prod, C38_min, C38_max, C38_mean, C38_var, C38_std, C38_l2_norm, C38_all, C38_any, C38_count_nonzero, C38_sum_bool, C38_allclose, C39_kernel_partial, C39_reject, C39_sum_partial, C39_prod_partial, C39_min_partial, C39_max_partial, C39_mean_partial, C39_var_partial, C39_std_partial, C39_l2_norm_partial, C39_all_partial, C39_any_partial, C39_count_nonzero_partial, C39_sum_bool_partial, C40_unique, C40_unraveled, C40_unraveled_argminmax, C40_argminmax, C40_argmin_axes, C40_argmax_axes, C40_argmin_axes_par_partial, C40_argmax_axes_par_partial, C40_par_reversed_panics, C40_par_axes_swapped, C41_accept_iff, C41_shape_unique, C41_reject, C41_static_matrices, C41_pairing_partial, C41_false_truncated, C42_matmul_from_partial, C42_matmul_partial, C43_vecdot_partial, C43_vecdot_from_partial, C43_accept_iff, C43_false_shared, C44_tril, C44_triu_partial, C44_tril_view, C44_triu_view_partial, C45_pack, C45_unpack, C45_pack_reject, C45_places, C45_round_trip_partial, C45_unpack_pack_partial, C45_pack_order, C45_unpack_order, C45_root, C46_index_select_partial, C46_index_error, C46_axis_error, C46_empty_axis_rejected, C46_accept_iff, C47_concat, C47_concat_accept_iff, C47_stack, C47_stack_accept_iff, C47_unstack, C47_unstack_rejects, C47_unstack_stack, C47_hstack, C47_hstack_scalars, C47_vstack, C47_vstack_rows, C48_normalize_accept_iff, C48_normalize_unsorted, C48_normalize_sorted, C48_normalize_error, C49_row_to_col, C49_col_to_row, C50_meaning, C50_arange_partial, C50_arange_slow_partial, C50_zero_step, C50_false_large, C50_false_descending, C50_false_overflow, C50_arange_exact_partial, C50_false_wrong_way, C50_linspace, C50_linspace_ends, C51_isolation, C51_owner_isolation, C51_effect, C51_others, C51_convert, C51_views, C51_compact, C51_total, C52_axes_iter_partial, C52_axes_iter_K_partial, C52_axes_cover, C52_axes_history_partial, C52_axes_split_partial, C52_axes_mut_disjoint_partial, C52_axes_indexed_partial, C52_axes_accept_iff, C52_split_at, C52_split_axes_accept_iff, C52_split_axes, C53_eq_sound, C53_eq_complete, C54_meshgrid, C54_meshgrid_short, C55_diag_vector, C55_diag_matrix_partial, C55_diag_diag, C56_to_scalar, C56_to_vec, C56_into_vec, C57_bool_select_partial, C57_beyond_axis, C58_pairs, C58_count, C58_default, C58_reject, C58_false_lengths, C58_false_letters, C59_shape, C59_layout, C59_like, C59_full_layout_partial, C60_row_major_partial, C60_col_major_partial, C60_col_major_swapped, C60_false_col_major, C61_blas_matmul_from_partial, C61_other_matmul_from_partial, C61_blas_matmul_partial, C62_cdist_partial, C62_default_partial, C62_bool_partial, C62_rows_partial, C62_jensen_shannon_partial, C62_weighted_partial, C62_weighted_bool_partial, C62_weighted_cosine_partial, C62_reject, C62_weights_repeat_partial, C62_weights_repeat_bool_partial, C62_weights_repeat_cosine_partial, C62_false_few_weights, C62_false_many_weights, C62_false_correlation, C63_common_type, C63_order_partial, C63_value, C63_rounded, C63_less, C63_equal, C63_compare_partial, C63_false_missing, C63_false_index_types, C63_false_equal, C64_close_partial, C64_exact, C64_self, C64_nan, C64_infinite_partial, C64_allclose_self, C64_false_infinite, C64_false_min, C64_false_overflow, C65_abs_partial, C65_sign, C65_parts, C65_in_place, C65_maximum, C65_minimum, C65_floor_divide_int, C65_floor_divide_zero, C65_floor_divide_float_partial, C65_floor_ceil_trunc, C65_round_partial, C65_compare, C65_false_abs, C65_false_round, C65_false_floor_divide, C66_nextafter, C66_nan, C67_accepts, C67_pack_partial, C67_unpack, C67_round_trip_partial, C68_matrix, C68_vector, C68_singular, C68_singular_vector, C68_reject, C69_inv_partial, C69_singular, C69_reject_partial, C69_false_wide, C70_slogdet_partial, C70_det_partial, C70_false_singular, C70_false_tall, C71_cholesky, C71_indefinite, C71_reject, C72_matrix_partial, C72_vector_partial, C72_singular_partial, C72_reject, C73_builder_partial, C73_matrix_partial, C73_vector_partial, C73_reject, C73_false_offset, C73_false_strided, C74_product_partial, C74_reject_partial, C74_false_offset, C74_false_output, C74_false_order, C75_product_partial, C75_reject_partial, C75_false_triangle, C75_false_shape, C76_eigh_partial, C76_eigvalsh_partial, C76_args_partial, C76_fail_partial, C76_reject_partial, C76_false_subset, C77_eigh_partial, C77_eigvalsh_partial, C77_args_partial, C77_indefinite_partial, C77_reject_partial, C78_svd_partial, C78_svdvals_partial, C78_args_partial, C78_fail_partial, C78_agree_partial, C78_false_gesvd, C79_pinv_partial, C79_exact_partial, C79_unique, C79_invertible, C79_fail_partial, C79_reject, C79_false_zero, C80_min_axes_partial, C80_max_axes_partial, C80_min_partial, C80_max_partial, C80_empty, C80_element, C80_false_infinite, C81_faer_matmul_from_partial, C81_other_matmul_from_partial, C81_faer_matmul_partial, C82_cholesky, C82_cholesky_indefinite, C82_det, C82_inv, C82_solve_matrix, C82_solve_vector, C82_triangular_matrix, C82_triangular_vector, C82_reject_solve_partial, C82_false_square, C82_false_rows, C82_false_singular, C83_eigh, C83_eigvalsh, C83_fail, C83_general_partial, C83_indefinite_partial, C83_reject_partial, C83_false_square, C83_false_size, C83_false_shared, C84_svd_partial, C84_svd_real, C84_svdvals, C84_pinv_partial, C84_exact_partial, C84_fail, C84_false_complex, C84_false_empty, C85_false_device, C85_convert_partial, C85_false_negative, C85_change, C86_empty, C86_text_partial, C86_layout_partial, C86_brackets, C86_all, C86_ellipsis_partial, C86_false_ellipsis, C86_false_few, C87_rule, C87_weights, C87_means, C87_from_degree, C87_refused, C88_table_partial, C88_false_131, C90_shape_partial, C90_vec, C90_vec_round_trip, C90_layout, C90_nested, C91_compatible, C91_assume_contig, C91_matrix_transpose, C91_matrix_transpose_reject, C92_einsum, C92_output, C92_reject, C92_tensordot_pairs, C92_tensordot_count, C92_tensordot_default, C92_tensordot_output, C92_tensordot_reject, C93_index_select_same, C93_index_select_partial, C93_bool_select_same, C93_concat_same, C93_concat, C94_map, C94_map_binary_partial, C94_map_binary_same_shape, C94_map_binary_reject, C94_map_inplace, C96_no_memory, C97_iter, C97_orders, C97_indexed, C97_mut_distinct_partial, C97_history, C97_mut_partial, C97_mut_indexed_partial, C97_par_read, C97_par_mut_indexed_partial, C97_par_mut_partial, C98_layout_partial, C98_tensor, C98_create_partial, C98_checked_partial, C98_checked_create_partial, C99_program_partial, C99_program_total_partial, C99_layout_independent_partial, C100_reduce, C100_axes_partial, C100_sum_error, C100_sum_exact, C100_sum_nan, C100_sum_axes_partial, C100_add_nearest, C100_layout_matters, C101_matmul_from_partial, C101_matmul_partial, C101_float_matmul_partial, C101_float_matmul_from_partial, C101_mul_nearest, C101_device_matters, C101_float_update_partial, C101_vecdot_partial, C101_vecdot_from_partial, C101_float_vecdot_partial, C102_mean, C102_var, C102_std, C102_l2_norm, C102_mean_axes_partial, C102_var_axes_partial, C102_std_axes_partial, C102_l2_norm_axes_partial, C102_ops_nearest, C102_false_mean_range, C102_false_var, C102_false_std, C103_mean, C103_var, C103_std, C103_l2_norm, C103_mean_axes_partial, C103_var_axes_partial, C103_std_axes_partial, C103_l2_norm_axes_partial, C103_var_nonneg, C103_abs, C103_sign, C103_arithmetic, C103_operators, C104_exact, C104_nan, C104_false_overflow, C104_false_underflow, C105_fingerprint_partial, C105_layout_independent, C105_false_order, C105_allclose, C106_same_as_serial_partial, C106_program_partial, C107_text_determines, C107_text, C108_linspace_float, C108_ordered, C108_ops, C108_false_end, C108_false_outside, C108_false_devices, C109_arange_float, C109_resolved, C109_zero_step, C109_false_stop, C109_false_missing, C109_empty, C109_false_wrong_way, C110_mul, C110_sum, C110_mean, C110_mean_axes_partial, C110_ops_nearest, C110_false_overflow, C110_false_infinite, C110_false_quotient, C110_false_var, C110_div, C110_matmul_partial, C110_vecdot_partial, C110_neg_exact, C111_of_byte, C111_false_flip, C112_remove, C112_insert, C112_broadcast, C112_products, C112_matmul, C112_diagonal_partial, C112_pack_array
