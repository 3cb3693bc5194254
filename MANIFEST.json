{
 "claims": [
  {
   "property": "C01",
   "status": "proved",
   "theorems": [
    "Rstsr.C01_no_alias",
    "Rstsr.C01_injective"
   ],
   "note": "Layout::new with its sorted cumulative-stride check; all ranks, signed strides."
  },
  {
   "property": "C02",
   "status": "proved",
   "theorems": [
    "Rstsr.C02_bounds_exact",
    "Rstsr.C02_bounds_empty",
    "Rstsr.C02_bounds_error_iff"
   ],
   "note": "bounds_index; soundness, tightness, empty case and exact error condition. The offset is a usize, hence the hypothesis 0 <= offset."
  },
  {
   "property": "C03",
   "status": "proved",
   "theorems": [
    "Rstsr.C03_in_bounds",
    "Rstsr.C03_access_ok",
    "Rstsr.C03_reject"
   ],
   "note": "Tensor::new_f; checked and unchecked element access."
  },
  {
   "property": "C04",
   "status": "proved",
   "theorems": [
    "Rstsr.C04_index_ok_iff",
    "Rstsr.C04_index_accept_iff",
    "Rstsr.C04_index_error",
    "Rstsr.C04_index_uncheck"
   ],
   "note": "index_f accept condition, result and error kinds; index_uncheck with its unrolled ranks 0-4."
  },
  {
   "property": "C05",
   "status": "proved",
   "theorems": [
    "Rstsr.C05_c_contig_addr",
    "Rstsr.C05_f_contig_addr",
    "Rstsr.C05_c_contig_bijective",
    "Rstsr.C05_f_contig_bijective",
    "Rstsr.C05_fixed_eq_dynamic"
   ],
   "note": "new_c_contig / new_f_contig for dynamic rank; fixed-rank versions agree when no length is 0."
  },
  {
   "property": "C06",
   "status": "proved",
   "theorems": [
    "Rstsr.C06_ndim_of_f_contig",
    "Rstsr.C06_ndim_of_c_contig",
    "Rstsr.C06_f_contig_iff",
    "Rstsr.C06_c_contig_iff",
    "Rstsr.C06_empty_contig"
   ],
   "note": "c_contig, f_contig, ndim_of_c_contig, ndim_of_f_contig characterised exactly for layouts without zero lengths; empty layouts are contiguous."
  },
  {
   "property": "C07",
   "status": "proved",
   "theorems": [
    "Rstsr.C07_transpose_accept_iff",
    "Rstsr.C07_transpose_element",
    "Rstsr.C07_transpose_covers",
    "Rstsr.C07_transpose_shape",
    "Rstsr.C07_transpose_accepted"
   ],
   "note": "transpose / permute_dims: exact acceptance, shape, element law both ways, result still acceptable to Layout::new."
  },
  {
   "property": "C08",
   "status": "proved",
   "theorems": [
    "Rstsr.C08_reverse_axes_eq_transpose",
    "Rstsr.C08_reverse_axes_element",
    "Rstsr.C08_reverse_axes_involutive",
    "Rstsr.C08_swapaxes_axes",
    "Rstsr.C08_swapaxes_shape",
    "Rstsr.C08_swapaxes_eq_transpose",
    "Rstsr.C08_swapaxes_involutive",
    "Rstsr.C08_swapaxes_symmetric",
    "Rstsr.C08_moveaxis_accept_iff",
    "Rstsr.C08_moveaxis_order",
    "Rstsr.C08_moveaxis_inverse"
   ],
   "note": "reverse_axes, swapaxes, moveaxis: element laws through transpose, involution / inverse laws, exact acceptance."
  },
  {
   "property": "C09",
   "status": "partial",
   "theorems": [
    "Rstsr.C09_accept_iff",
    "Rstsr.C09_zero_step",
    "Rstsr.C09_slice_partial",
    "Rstsr.C09_subsequence",
    "Rstsr.C09_result_valid",
    "Rstsr.C09_stop_minus_one_differs",
    "Rstsr.C09_low_start_differs"
   ],
   "note": "Python slicing proved for all slices except negative steps with literal stop -1 or start < -len, where the code differs (witnesses proved). Acceptance, validity and the subsequence law are proved for every slice."
  },
  {
   "property": "C10",
   "status": "proved",
   "theorems": [
    "Rstsr.C10_accept_iff",
    "Rstsr.C10_select_element",
    "Rstsr.C10_result_valid",
    "Rstsr.C10_index_error"
   ],
   "note": ""
  },
  {
   "property": "C11",
   "status": "proved",
   "theorems": [
    "Rstsr.C11_insert_one",
    "Rstsr.C11_expand_accept_iff",
    "Rstsr.C11_expand_element",
    "Rstsr.C11_squeeze_accept_iff",
    "Rstsr.C11_squeeze_element",
    "Rstsr.C11_squeeze_all",
    "Rstsr.C11_squeeze_expand",
    "Rstsr.C11_squeeze_rejects",
    "Rstsr.C11_squeeze_out_of_range_accepted"
   ],
   "note": "squeeze is stated for axes in range; the code also accepts some out-of-range axes (witness proved)."
  },
  {
   "property": "C12",
   "status": "partial",
   "theorems": [
    "Rstsr.C12_accept_iff",
    "Rstsr.C12_rejections",
    "Rstsr.C12_slice_partial",
    "Rstsr.C12_result_valid"
   ],
   "note": "Acceptance, rejections, validity and containment are proved for every entry list; the exact element law excludes the negative-step slices of C09."
  },
  {
   "property": "C13",
   "status": "partial",
   "theorems": [
    "Rstsr.C13_view_chain_partial",
    "Rstsr.C13_view_chain_no_diagonal",
    "Rstsr.C13_view_valid_partial",
    "Rstsr.C13_equal_axes_witness"
   ],
   "note": "Invariant over histories of any length of 17 view operations (including no-copy reshape and axis iteration items). Only diagonals of an axis with itself are excluded, where the code leaves the storage (witness proved)."
  },
  {
   "property": "C14",
   "status": "proved",
   "theorems": [
    "Rstsr.C14_flip_accept_iff",
    "Rstsr.C14_flip_element",
    "Rstsr.C14_flip_all",
    "Rstsr.C14_flip_twice",
    "Rstsr.C14_flip_again"
   ],
   "note": ""
  },
  {
   "property": "C15",
   "status": "partial",
   "theorems": [
    "Rstsr.C15_diagonal_element",
    "Rstsr.C15_diagonal_length_partial",
    "Rstsr.C15_diagonal_rank",
    "Rstsr.C15_wide_super_diagonal_lost",
    "Rstsr.C15_tall_super_diagonal_panics",
    "Rstsr.C15_equal_axes_out_of_bounds"
   ],
   "note": "Element law proved for every accepted diagonal of two distinct axes; the length law excludes the super-diagonals on which the code is wrong (witnesses proved)."
  },
  {
   "property": "C16",
   "status": "proved",
   "theorems": [
    "Rstsr.C16_shape_iff",
    "Rstsr.C16_accept_iff",
    "Rstsr.C16_reject",
    "Rstsr.C16_comm",
    "Rstsr.C16_assoc",
    "Rstsr.C16_idem",
    "Rstsr.C16_unit",
    "Rstsr.C16_shapes_iff",
    "Rstsr.C16_shapes_empty"
   ],
   "note": "broadcast_shape in both orders: exact acceptance, shape, algebra."
  },
  {
   "property": "C17",
   "status": "proved",
   "theorems": [
    "Rstsr.C17_broadcast_layout",
    "Rstsr.C17_accept_iff",
    "Rstsr.C17_reject",
    "Rstsr.C17_valid",
    "Rstsr.C17_broadcast_to_iff",
    "Rstsr.C17_broadcast_to",
    "Rstsr.C17_broadcast_to_valid",
    "Rstsr.C17_covers",
    "Rstsr.C17_broadcast_arrays",
    "Rstsr.C17_to_first_enlarges",
    "Rstsr.C17_to_first_fixed",
    "Rstsr.C17_to_first_fixed_stretches"
   ],
   "note": "broadcast_layout, broadcast_layout_to_first, broadcast_to, broadcast_arrays: element law, validity, exact acceptance. broadcast_layout_to_first also accepts enlarging the first layout (witness proved)."
  },
  {
   "property": "C18",
   "status": "proved",
   "theorems": [
    "Rstsr.C18_to_iff",
    "Rstsr.C18_from_iff",
    "Rstsr.C18_not_column_major"
   ],
   "note": "For last-axis (row-major) alignment, the only one these predicates implement; column-major difference shown by witness."
  },
  {
   "property": "C19",
   "status": "proved",
   "theorems": [
    "Rstsr.C19_reshape_order",
    "Rstsr.C19_same_sequence",
    "Rstsr.C19_no_alias",
    "Rstsr.C19_error_iff",
    "Rstsr.C19_none_needs_copy",
    "Rstsr.C19_contig_never_copies",
    "Rstsr.C19_result_valid"
   ],
   "note": "layout_reshapeable: soundness of every returned layout, no aliasing, and completeness: None only when no strided view of the requested shape exists."
  },
  {
   "property": "C20",
   "status": "partial",
   "theorems": [
    "Rstsr.C20_no_negative",
    "Rstsr.C20_reject",
    "Rstsr.C20_infer",
    "Rstsr.C20_total_size",
    "Rstsr.C20_not_divisible",
    "Rstsr.C20_zero_product_panics"
   ],
   "note": "Exact acceptance and inferred size. A zero product beside -1 panics instead of being reported (witness proved)."
  },
  {
   "property": "C21",
   "status": "proved",
   "theorems": [
    "Rstsr.C21_reshape",
    "Rstsr.C21_no_copy",
    "Rstsr.C21_reject_unless_copy",
    "Rstsr.C21_copy_unchecked"
   ],
   "note": "change_shape_with_args_f; view and copy paths. With copy=true the size is not checked (witness C21_copy_unchecked)."
  },
  {
   "property": "C22",
   "status": "proved",
   "theorems": [
    "Rstsr.C22_valid_nonNegative",
    "Rstsr.C22_iteration",
    "Rstsr.C22_all_indices_once",
    "Rstsr.C22_len_exact"
   ],
   "note": "IterLayout row- and column-major, any reachable state; order, completeness and exact length."
  },
  {
   "property": "C23",
   "status": "proved",
   "theorems": [
    "Rstsr.C23_double_ended",
    "Rstsr.C23_double_ended_any"
   ],
   "note": "Every interleaving of next and next_back from every reachable iterator state."
  },
  {
   "property": "C24",
   "status": "proved",
   "theorems": [
    "Rstsr.C24_split",
    "Rstsr.C24_split_tree",
    "Rstsr.C24_empty_split_panics"
   ],
   "note": "split_at and every recursive split tree. Splitting an iterator over an empty layout divides by zero (C24_empty_split_panics)."
  },
  {
   "property": "C25",
   "status": "partial",
   "theorems": [
    "Rstsr.C25_indexed_forward_partial",
    "Rstsr.C25_indexed_next",
    "Rstsr.C25_indexed_back_last_partial",
    "Rstsr.C25_indexed_back_witness"
   ],
   "note": "Front calls proved. next_back pairs the front index with the back element: witness C25_indexed_back_witness; the back call is right only on the last remaining element."
  },
  {
   "property": "C26",
   "status": "proved",
   "theorems": [
    "Rstsr.C26_k_order",
    "Rstsr.C26_plain_orders",
    "Rstsr.C26_k_permutation",
    "Rstsr.C26_k_sorted"
   ],
   "note": "greedy_layout with keep_shape; K order is a permutation and sorted by stride."
  },
  {
   "property": "C27",
   "status": "proved",
   "theorems": [
    "Rstsr.C27_unravel_f",
    "Rstsr.C27_unravel_c",
    "Rstsr.C27_unravel_f_fixed",
    "Rstsr.C27_unravel_c_fixed",
    "Rstsr.C27_unravel_fixed_rank",
    "Rstsr.C27_unravel_of_rank"
   ],
   "note": "All four unravel functions, fixed and dynamic rank."
  },
  {
   "property": "C28",
   "status": "partial",
   "theorems": [
    "Rstsr.C28_flat_partial",
    "Rstsr.C28_flat_accept",
    "Rstsr.C28_false_flat_gaps",
    "Rstsr.C28_joint",
    "Rstsr.C28_joint_default",
    "Rstsr.C28_default_rank0_witness",
    "Rstsr.C28_shape_mismatch"
   ],
   "note": "Orders C, F, K for any layouts; order A for rank at least one (rank 0 panics, witness); order B for layouts with positive strides. Missing: order B on reversed axes and on repeated axes beside a gap, where the code visits wrong cells (witnesses C28_default_rank0_witness, C28_false_flat_gaps)."
  },
  {
   "property": "C29",
   "status": "proved",
   "theorems": [
    "Rstsr.C29_contiguous_block"
   ],
   "note": "translate_to_col_major_with_contig."
  },
  {
   "property": "C30",
   "status": "proved",
   "theorems": [
    "Rstsr.C30_binary",
    "Rstsr.C30_reject",
    "Rstsr.C30_binary_common",
    "Rstsr.C30_reject_common",
    "Rstsr.C30_binary_consume_left",
    "Rstsr.C30_binary_consume_right",
    "Rstsr.C30_binary_consume",
    "Rstsr.C30_reject_consume",
    "Rstsr.C30_binary_output",
    "Rstsr.C30_output_reject",
    "Rstsr.C30_number_right",
    "Rstsr.C30_number_left"
   ],
   "note": "Reference, consuming and output-buffer forms and scalar operands, serial kernels; parallel kernels are C37."
  },
  {
   "property": "C31",
   "status": "proved",
   "theorems": [
    "Rstsr.C31_output_layout",
    "Rstsr.C31_all_written"
   ],
   "note": "get_layout_for_binary_op and the kernel run on an uninitialised buffer."
  },
  {
   "property": "C32",
   "status": "proved",
   "theorems": [
    "Rstsr.C32_assign_number",
    "Rstsr.C32_assign_op",
    "Rstsr.C32_assign_op_reject",
    "Rstsr.C32_zero_stride_destination"
   ],
   "note": "op= with tensor or number. A stride-0 destination is outside the statement (witness C32_zero_stride_destination)."
  },
  {
   "property": "C33",
   "status": "partial",
   "theorems": [
    "Rstsr.C33_assign_partial",
    "Rstsr.C33_broadcast_destination",
    "Rstsr.C33_incompatible",
    "Rstsr.C33_larger_source_accepted",
    "Rstsr.C33_fill"
   ],
   "note": "Proved when b can be stretched to the shape of a. Missing: the code also accepts a source larger than a (witness C33_larger_source_accepted), where the claim is false."
  },
  {
   "property": "C34",
   "status": "proved",
   "theorems": [
    "Rstsr.C34_arbitrary"
   ],
   "note": "assign_arbitary with its contiguous fast path."
  },
  {
   "property": "C35",
   "status": "partial",
   "theorems": [
    "Rstsr.C35_asarray",
    "Rstsr.C35_asarray_reject",
    "Rstsr.C35_asarray_owned",
    "Rstsr.C35_to_layout_partial",
    "Rstsr.C35_to_layout_reject",
    "Rstsr.C35_to_layout_holes",
    "Rstsr.C35_to_contig",
    "Rstsr.C35_into_owned",
    "Rstsr.C35_asarray_default",
    "Rstsr.C35_asarray_keep"
   ],
   "note": "asarray, to_contig, into_owned proved for every tensor; to_layout proved for target layouts without holes. Missing: for layouts with holes the code reads uninitialised cells (witness C35_to_layout_holes)."
  },
  {
   "property": "C36",
   "status": "proved",
   "theorems": [
    "Rstsr.C36_map_inplace",
    "Rstsr.C36_map",
    "Rstsr.C36_unary_consume"
   ],
   "note": "map, owned unary operation and mapi, including layouts with shared cells."
  },
  {
   "property": "C37",
   "status": "partial",
   "theorems": [
    "Rstsr.C37_update_partial",
    "Rstsr.C37_binary",
    "Rstsr.C37_map_inplace",
    "Rstsr.C37_fill",
    "Rstsr.C37_assign",
    "Rstsr.C37_copy",
    "Rstsr.C37_shared_cell_lost_update"
   ],
   "note": "Binary operation, assignment, copy, fill and in-place map for every scheduler and interleaving, with absence of races. op= (C37_update_partial) only for destinations without shared cells; with shared cells updates can be lost (witness C37_shared_cell_lost_update)."
  },
  {
   "property": "C38",
   "status": "proved",
   "theorems": [
    "Rstsr.C38_reduce",
    "Rstsr.C38_elements",
    "Rstsr.C38_sum",
    "Rstsr.C38_prod",
    "Rstsr.C38_min",
    "Rstsr.C38_max",
    "Rstsr.C38_mean",
    "Rstsr.C38_var",
    "Rstsr.C38_std",
    "Rstsr.C38_l2_norm",
    "Rstsr.C38_all",
    "Rstsr.C38_any",
    "Rstsr.C38_count_nonzero",
    "Rstsr.C38_sum_bool",
    "Rstsr.C38_allclose"
   ],
   "note": "Serial and parallel full reduction (every scheduler), one- and two-operand, for every commutative monoid; sum, prod, min, max, mean, var, std, l2_norm, all, any, count_nonzero, allclose as corollaries. Floating-point arithmetic is not a commutative monoid and is outside the claim."
  },
  {
   "property": "C39",
   "status": "partial",
   "theorems": [
    "Rstsr.C39_kernel_partial",
    "Rstsr.C39_reject",
    "Rstsr.C39_sum_partial",
    "Rstsr.C39_prod_partial",
    "Rstsr.C39_min_partial",
    "Rstsr.C39_max_partial",
    "Rstsr.C39_mean_partial",
    "Rstsr.C39_var_partial",
    "Rstsr.C39_std_partial",
    "Rstsr.C39_l2_norm_partial",
    "Rstsr.C39_all_partial",
    "Rstsr.C39_any_partial",
    "Rstsr.C39_count_nonzero_partial",
    "Rstsr.C39_sum_bool_partial",
    "Rstsr.C39_false_broadcast_reduced",
    "Rstsr.C39_false_broadcast_vector",
    "Rstsr.C39_false_broadcast_remains",
    "Rstsr.C39_false_empty"
   ],
   "note": "Serial and parallel, every reduction of the API, every legal axis list, all axes for any tensor. Listed axes need a tensor without zero lengths and without broadcast axes: on others the code is wrong (four witnesses proved)."
  },
  {
   "property": "C40",
   "status": "partial",
   "theorems": [
    "Rstsr.C40_unique",
    "Rstsr.C40_unraveled",
    "Rstsr.C40_unraveled_argminmax",
    "Rstsr.C40_argminmax",
    "Rstsr.C40_empty",
    "Rstsr.C40_argmin_axes",
    "Rstsr.C40_argmax_axes",
    "Rstsr.C40_argmin_axes_par_partial",
    "Rstsr.C40_argmax_axes_par_partial",
    "Rstsr.C40_par_reversed_panics",
    "Rstsr.C40_par_axes_swapped"
   ],
   "note": "Full reductions on both devices (every plan) and axis reductions on the serial device are complete: the reported index is the first best one, as coordinates or as rank. On the parallel device axis reductions are proved for sizes below 1024 or one axis of non-negative stride; C40_par_axes_swapped and C40_par_reversed_panics show the claim is false otherwise."
  },
  {
   "property": "C41",
   "status": "partial",
   "theorems": [
    "Rstsr.C41_accept_iff",
    "Rstsr.C41_shape_unique",
    "Rstsr.C41_reject",
    "Rstsr.C41_static_vectors",
    "Rstsr.C41_static_matrices",
    "Rstsr.C41_pairing_partial",
    "Rstsr.C41_false_batch_ranks",
    "Rstsr.C41_false_whole_operand",
    "Rstsr.C41_false_truncated"
   ],
   "note": "Acceptance, result shape and layout, rejection without panic and uniqueness are proved for all ranks and both orders; the pairing of batches is proved for the plan with a given result when batched operands have equal ranks. Different batch ranks are refused by that plan although the shape planner accepts them (C41_false_batch_ranks); a result with too few batches is accepted (C41_false_truncated); one plan holds the whole left operand as its matrix (C41_false_whole_operand)."
  },
  {
   "property": "C42",
   "status": "partial",
   "theorems": [
    "Rstsr.C42_matmul_from_partial",
    "Rstsr.C42_matmul_partial",
    "Rstsr.C42_false_inner_offset",
    "Rstsr.C42_false_fresh"
   ],
   "note": "matmul_from and matmul over any commutative semiring, all layouts, both orders, serial and every schedule. Missing: batched operands of different ranks (refused), a scalar result away from cell 0 on the serial device (C42_false_inner_offset, wrong cell written), result views with shared cells, faer library kernels for floats; with NaN-like elements the fresh storage leaks (C42_false_fresh)."
  },
  {
   "property": "C43",
   "status": "partial",
   "theorems": [
    "Rstsr.C43_vecdot_partial",
    "Rstsr.C43_vecdot_from_partial",
    "Rstsr.C43_accept_iff",
    "Rstsr.C43_false_shared",
    "Rstsr.C43_false_empty"
   ],
   "note": "vecdot and vecdot_from, serial and parallel, all axis arguments: C43_vecdot_partial, C43_vecdot_from_partial, C43_accept_iff. Missing: operands with an axis of length 0, where the code can panic (C43_false_empty); parallel device with operands whose elements share cells, where the claim is false: C43_false_shared gives an execution with a wrong sum and a race."
  },
  {
   "property": "C44",
   "status": "partial",
   "theorems": [
    "Rstsr.C44_tril",
    "Rstsr.C44_triu_partial",
    "Rstsr.C44_reject",
    "Rstsr.C44_tril_view",
    "Rstsr.C44_triu_view_partial",
    "Rstsr.C44_false_triu_tall",
    "Rstsr.C44_false_triu_outside",
    "Rstsr.C44_false_triu_lost"
   ],
   "note": "tril proved in full; triu proved where no row starts beyond the last column, elsewhere it is false (C44_false_triu_tall, C44_false_triu_outside, C44_false_triu_lost)"
  },
  {
   "property": "C45",
   "status": "partial",
   "theorems": [
    "Rstsr.C45_pack",
    "Rstsr.C45_unpack",
    "Rstsr.C45_pack_reject",
    "Rstsr.C45_unpack_reject",
    "Rstsr.C45_places",
    "Rstsr.C45_round_trip_partial",
    "Rstsr.C45_unpack_pack_partial",
    "Rstsr.C45_false_antihermitian",
    "Rstsr.C45_false_diagonal",
    "Rstsr.C45_false_unknown",
    "Rstsr.C45_pack_order",
    "Rstsr.C45_unpack_order",
    "Rstsr.C45_root"
   ],
   "note": "Proved for every storage order, batch shape, strides and schedule: packing and unpacking element by element, rejection of non-square matrices and of lengths that are not triangular, and both round trips. Not true as stated for anti-Hermitian matrices with imaginary diagonals (C45_false_antihermitian), packed diagonals the symmetry forbids (C45_false_diagonal) and FlagSymm::N (C45_false_unknown). Shapes without elements are left out; the f64 square root is modelled by the integer square root."
  },
  {
   "property": "C46",
   "status": "partial",
   "theorems": [
    "Rstsr.C46_index_select_partial",
    "Rstsr.C46_index_error",
    "Rstsr.C46_axis_error",
    "Rstsr.C46_empty_axis_rejected",
    "Rstsr.C46_accept_iff"
   ],
   "note": "Serial kernel, all axes and index lists, on axes that are not empty; the code rejects the empty list on an empty axis (C46_empty_axis_rejected). Acceptance is characterised exactly."
  },
  {
   "property": "C47",
   "status": "proved",
   "theorems": [
    "Rstsr.C47_concat",
    "Rstsr.C47_concat_accept_iff",
    "Rstsr.C47_empty_list",
    "Rstsr.C47_stack",
    "Rstsr.C47_stack_accept_iff",
    "Rstsr.C47_unstack",
    "Rstsr.C47_unstack_rejects",
    "Rstsr.C47_unstack_stack",
    "Rstsr.C47_hstack",
    "Rstsr.C47_hstack_scalars",
    "Rstsr.C47_vstack",
    "Rstsr.C47_vstack_rows"
   ],
   "note": "concat, stack, unstack, hstack and vstack: exact acceptance and every element; unstack of a stack returns the inputs."
  },
  {
   "property": "C48",
   "status": "proved",
   "theorems": [
    "Rstsr.C48_normalize_accept_iff",
    "Rstsr.C48_normalize_unsorted",
    "Rstsr.C48_normalize_sorted",
    "Rstsr.C48_normalize_none",
    "Rstsr.C48_normalize_error"
   ],
   "note": "normalize_axes_index: exact acceptance, sorted and unsorted result, error kinds."
  },
  {
   "property": "C49",
   "status": "proved",
   "theorems": [
    "Rstsr.C49_row_to_col",
    "Rstsr.C49_col_to_row",
    "Rstsr.C49_reject"
   ],
   "note": "Both conversions, serial and under every thread schedule and every split of the block ranges, for every pair of matrices of equal shape with the required unit strides whose output cells are not shared; other cells are unchanged. Bad shapes and strides are refused without writing."
  },
  {
   "property": "C50",
   "status": "partial",
   "theorems": [
    "Rstsr.C50_meaning",
    "Rstsr.C50_arange_partial",
    "Rstsr.C50_arange_slow_partial",
    "Rstsr.C50_zero_step",
    "Rstsr.C50_false_large",
    "Rstsr.C50_false_descending",
    "Rstsr.C50_false_overflow",
    "Rstsr.C50_arange_exact_partial",
    "Rstsr.C50_false_wrong_way",
    "Rstsr.C50_linspace",
    "Rstsr.C50_linspace_ends"
   ],
   "note": "Fast-path integer types: exact result for every interval shorter than 2^53, with f64 rounding modelled; other integer types: ascending steps that do not overflow; floats in exact arithmetic; linspace serial = parallel. False beyond: intervals of 2^53 and more can lose the last value, descending ranges of i8/u8/i16/u16/i128 are empty, u8 arange(0,255,2) panics or never ends, a float step in the wrong direction never ends."
  },
  {
   "property": "C51",
   "status": "proved",
   "theorems": [
    "Rstsr.C51_isolation",
    "Rstsr.C51_owner_isolation",
    "Rstsr.C51_effect",
    "Rstsr.C51_others",
    "Rstsr.C51_convert",
    "Rstsr.C51_views",
    "Rstsr.C51_compact",
    "Rstsr.C51_total",
    "Rstsr.C51_false_into_owned",
    "Rstsr.C51_false_iter"
   ],
   "note": "All histories of creation, sharing, views, mutable views, layout changes, conversions, clones, drops and in-place operations, over a heap with Arc counts and Rust's borrow rules. Findings: into_owned and into_cow of a tensor that shares its Arc panic (C51_false_into_owned); the shared iterators are borrowed from nothing, so they outlive the tensor (C51_false_iter). Not modelled: unsafe force_mut, threads, weak references."
  },
  {
   "property": "C52",
   "status": "partial",
   "theorems": [
    "Rstsr.C52_axes_iter_partial",
    "Rstsr.C52_axes_iter_K_partial",
    "Rstsr.C52_axes_cover",
    "Rstsr.C52_axes_history_partial",
    "Rstsr.C52_axes_split_partial",
    "Rstsr.C52_axes_mut_disjoint_partial",
    "Rstsr.C52_axes_indexed_partial",
    "Rstsr.C52_axes_accept_iff",
    "Rstsr.C52_false_axes_error",
    "Rstsr.C52_false_indexed_K",
    "Rstsr.C52_false_indexed_back",
    "Rstsr.C52_false_mut_alias",
    "Rstsr.C52_false_axes_empty",
    "Rstsr.C52_split_at",
    "Rstsr.C52_split_axes_accept_iff",
    "Rstsr.C52_split_axes"
   ],
   "note": "Splitting: proved for every layout. Axis iteration: proved for row-, column-major and K order, any history of front, back and split calls. Missing: tensors without elements whose strides lead to negative positions (panic, C52_false_axes_empty); indexed iteration from the back, K order with indices, error reporting and mutable iteration over broadcast axes fail (C52_false_*)."
  },
  {
   "property": "C53",
   "status": "proved",
   "theorems": [
    "Rstsr.C53_eq_sound",
    "Rstsr.C53_eq_complete"
   ],
   "note": "PartialEq of layouts, both directions."
  },
  {
   "property": "C54",
   "status": "proved",
   "theorems": [
    "Rstsr.C54_meshgrid",
    "Rstsr.C54_meshgrid_short",
    "Rstsr.C54_meshgrid_rejects"
   ],
   "note": "Any number of inputs, both conventions, with and without copy."
  },
  {
   "property": "C55",
   "status": "partial",
   "theorems": [
    "Rstsr.C55_diag_vector",
    "Rstsr.C55_diag_matrix_partial",
    "Rstsr.C55_diag_diag",
    "Rstsr.C55_diag_rank",
    "Rstsr.C55_wide_super_diagonal_lost",
    "Rstsr.C55_tall_super_diagonal_panics"
   ],
   "note": "Vector to matrix and diag(diag(v,k),k)=v are proved for every k; matrix to vector excludes super-diagonals with d1 <= k < d2 or d2 < k < d1, where the code is wrong (two witnesses proved)."
  },
  {
   "property": "C56",
   "status": "proved",
   "theorems": [
    "Rstsr.C56_to_scalar",
    "Rstsr.C56_to_scalar_reject",
    "Rstsr.C56_to_vec",
    "Rstsr.C56_to_vec_reject",
    "Rstsr.C56_into_vec"
   ],
   "note": "to_scalar, to_vec, into_vec."
  },
  {
   "property": "C57",
   "status": "partial",
   "theorems": [
    "Rstsr.C57_bool_select_partial",
    "Rstsr.C57_beyond_axis",
    "Rstsr.C57_mask_length_unchecked"
   ],
   "note": "Masks as long as a non-empty axis; the mask length is not checked by the code (C57_mask_length_unchecked)."
  },
  {
   "property": "C58",
   "status": "partial",
   "theorems": [
    "Rstsr.C58_pairs",
    "Rstsr.C58_count",
    "Rstsr.C58_default",
    "Rstsr.C58_reject",
    "Rstsr.C58_false_lengths",
    "Rstsr.C58_false_letters"
   ],
   "note": "For every rank and every pair of equally long lists of legal distinct axes, and for every legal number of axes, the subscripts sum exactly the terms of the tensordot as long as at most 52 labels are needed. Full statement fails: lists of different lengths are accepted and the unpaired axes are summed alone (C58_false_lengths), and legal contractions with more than 52 labels are refused (C58_false_letters)."
  },
  {
   "property": "C59",
   "status": "partial",
   "theorems": [
    "Rstsr.C59_shape",
    "Rstsr.C59_layout",
    "Rstsr.C59_like",
    "Rstsr.C59_full_layout_partial",
    "Rstsr.C59_false_full"
   ],
   "note": "zeros/ones for every shape and every valid layout, full for every shape, all _like forms. full of a layout allocates as many cells as elements, so a layout with holes or an offset yields a tensor reaching outside its storage (witness)."
  },
  {
   "property": "C60",
   "status": "partial",
   "theorems": [
    "Rstsr.C60_row_major_partial",
    "Rstsr.C60_col_major_partial",
    "Rstsr.C60_col_major_swapped",
    "Rstsr.C60_false_col_major",
    "Rstsr.C60_false_beyond"
   ],
   "note": "Row-major for every m, n and every k except m <= k < n (result all zeros, witness) and n < k < m (panic, witness). Column-major returns an n by m matrix, so it is right only for square ones (witness)."
  },
  {
   "property": "C61",
   "status": "partial",
   "theorems": [
    "Rstsr.C61_blas_matmul_from_partial",
    "Rstsr.C61_other_matmul_from_partial",
    "Rstsr.C61_blas_matmul_partial",
    "Rstsr.C61_false_beta",
    "Rstsr.C61_false_empty_sum"
   ],
   "note": "Full for beta = 0 (in particular for matmul and %) and for results that BLAS can write to in place. Missing: batch operands of different ranks, results with shared cells, and beta other than zero with a result without unit stride or with an empty sum, where the code is wrong (witnesses)."
  },
  {
   "property": "C62",
   "status": "partial",
   "theorems": [
    "Rstsr.C62_cdist_partial",
    "Rstsr.C62_default_partial",
    "Rstsr.C62_bool_partial",
    "Rstsr.C62_rows_partial",
    "Rstsr.C62_jensen_shannon_partial",
    "Rstsr.C62_weighted_partial",
    "Rstsr.C62_weighted_bool_partial",
    "Rstsr.C62_weighted_cosine_partial",
    "Rstsr.C62_reject",
    "Rstsr.C62_weighted_reject",
    "Rstsr.C62_weights_repeat_partial",
    "Rstsr.C62_weights_repeat_bool_partial",
    "Rstsr.C62_weights_repeat_cosine_partial",
    "Rstsr.C62_false_no_columns",
    "Rstsr.C62_false_few_weights",
    "Rstsr.C62_false_many_weights",
    "Rstsr.C62_false_correlation"
   ],
   "note": "Excludes matrices without columns (panic) and wrong numbers of weights (not rejected); Jensen-Shannon for rows without negative entries; weighted correlation disagrees with repeated columns. Each exclusion has a counterexample theorem."
  },
  {
   "property": "C63",
   "status": "partial",
   "theorems": [
    "Rstsr.C63_common_type",
    "Rstsr.C63_order_partial",
    "Rstsr.C63_value",
    "Rstsr.C63_rounded",
    "Rstsr.C63_less",
    "Rstsr.C63_equal",
    "Rstsr.C63_compare_partial",
    "Rstsr.C63_false_missing",
    "Rstsr.C63_false_index_types",
    "Rstsr.C63_false_equal"
   ],
   "note": "i8 with i16 (in this order) and usize with isize have no rule; 64-bit integers beyond 53 digits are rounded when they meet a float, so equal may hold for different numbers. Each failure has a counterexample theorem; the order of comparisons is never reversed."
  },
  {
   "property": "C64",
   "status": "partial",
   "theorems": [
    "Rstsr.C64_close_partial",
    "Rstsr.C64_exact",
    "Rstsr.C64_self",
    "Rstsr.C64_nan",
    "Rstsr.C64_infinite_partial",
    "Rstsr.C64_allclose_self",
    "Rstsr.C64_false_infinite",
    "Rstsr.C64_false_min",
    "Rstsr.C64_false_overflow"
   ],
   "note": "The verdict is proved right for finite values outside the margin of the rounding errors; infinities follow the code except an infinite reference, integers of least value and overflowing differences (witnesses)."
  },
  {
   "property": "C65",
   "status": "partial",
   "theorems": [
    "Rstsr.C65_abs_partial",
    "Rstsr.C65_sign",
    "Rstsr.C65_parts",
    "Rstsr.C65_in_place",
    "Rstsr.C65_maximum",
    "Rstsr.C65_minimum",
    "Rstsr.C65_floor_divide_int",
    "Rstsr.C65_floor_divide_zero",
    "Rstsr.C65_floor_divide_float_partial",
    "Rstsr.C65_floor_ceil_trunc",
    "Rstsr.C65_round_partial",
    "Rstsr.C65_compare",
    "Rstsr.C65_false_signbit",
    "Rstsr.C65_false_abs",
    "Rstsr.C65_false_round",
    "Rstsr.C65_false_floor_divide"
   ],
   "note": "Real types; complex abs and sign are C103. signbit is inverted, abs of the least integer, ties in round and rounded quotients in floor_divide differ from the specification (witnesses); the rest is proved."
  },
  {
   "property": "C66",
   "status": "proved",
   "theorems": [
    "Rstsr.C66_nextafter",
    "Rstsr.C66_nan"
   ],
   "note": "f16 and bf16; f32 and f64 call libm, which is outside the repository."
  },
  {
   "property": "C67",
   "status": "partial",
   "theorems": [
    "Rstsr.C67_accepts",
    "Rstsr.C67_pack_partial",
    "Rstsr.C67_unpack",
    "Rstsr.C67_round_trip_partial",
    "Rstsr.C67_memory_partial",
    "Rstsr.C67_false_capacity",
    "Rstsr.C67_false_stride"
   ],
   "note": "Packing needs strides divisible by N and vectors without spare capacity: both are necessary (C67_false_stride, C67_false_capacity). Unpacking holds in full."
  },
  {
   "property": "C68",
   "status": "partial",
   "theorems": [
    "Rstsr.C68_matrix",
    "Rstsr.C68_vector",
    "Rstsr.C68_singular",
    "Rstsr.C68_singular_vector",
    "Rstsr.C68_reject",
    "Rstsr.C68_false_slice"
   ],
   "note": "Matrix and vector right-hand sides, singular matrices and wrong shapes are proved for all sizes. The claim about memory fails for windows of row-major matrices (C68_false_slice)."
  },
  {
   "property": "C69",
   "status": "partial",
   "theorems": [
    "Rstsr.C69_inv_partial",
    "Rstsr.C69_singular",
    "Rstsr.C69_reject_partial",
    "Rstsr.C69_false_wide"
   ],
   "note": "The inverse is proved for sizes other than zero; singular matrices and arrays of wrong shape for all sizes. A matrix with more columns than rows panics (C69_false_wide)."
  },
  {
   "property": "C70",
   "status": "partial",
   "theorems": [
    "Rstsr.C70_slogdet_partial",
    "Rstsr.C70_det_partial",
    "Rstsr.C70_false_singular",
    "Rstsr.C70_false_tall"
   ],
   "note": "Nonsingular matrices of all sizes, without rounding. Singular matrices are an error instead of determinant zero (C70_false_singular); a tall matrix gives a number (C70_false_tall)."
  },
  {
   "property": "C71",
   "status": "proved",
   "theorems": [
    "Rstsr.C71_cholesky",
    "Rstsr.C71_indefinite",
    "Rstsr.C71_reject"
   ],
   "note": "Factor, indefinite matrices and arrays of wrong shape, for all sizes. LAPACK is a parameter that meets its documentation."
  },
  {
   "property": "C72",
   "status": "partial",
   "theorems": [
    "Rstsr.C72_matrix_partial",
    "Rstsr.C72_vector_partial",
    "Rstsr.C72_singular_partial",
    "Rstsr.C72_reject",
    "Rstsr.C72_false_empty"
   ],
   "note": "Proved for systems with equations, with any number of right-hand sides; a system without equations is an error (C72_false_empty)."
  },
  {
   "property": "C73",
   "status": "partial",
   "theorems": [
    "Rstsr.C73_builder_partial",
    "Rstsr.C73_matrix_partial",
    "Rstsr.C73_vector_partial",
    "Rstsr.C73_reject",
    "Rstsr.C73_false_offset",
    "Rstsr.C73_false_strided"
   ],
   "note": "Proved for matrices whose elements start at the first cell of the storage or are copied, and outputs without gaps; fails otherwise (witnesses). BLAS is a parameter. Empty matrices and the flag CN missing."
  },
  {
   "property": "C74",
   "status": "partial",
   "theorems": [
    "Rstsr.C74_product_partial",
    "Rstsr.C74_reject_partial",
    "Rstsr.C74_false_offset",
    "Rstsr.C74_false_output",
    "Rstsr.C74_false_order"
   ],
   "note": "As C73; the order asked for is inverted (witness). Factors and outputs that do not fit are proved to be errors."
  },
  {
   "property": "C75",
   "status": "partial",
   "theorems": [
    "Rstsr.C75_product_partial",
    "Rstsr.C75_reject_partial",
    "Rstsr.C75_false_triangle",
    "Rstsr.C75_false_shape"
   ],
   "note": "Proved where order of work, side and storage go together; wrong triangle and wrong shape otherwise (witnesses)."
  },
  {
   "property": "C76",
   "status": "partial",
   "theorems": [
    "Rstsr.C76_eigh_partial",
    "Rstsr.C76_eigvalsh_partial",
    "Rstsr.C76_args_partial",
    "Rstsr.C76_fail_partial",
    "Rstsr.C76_reject_partial",
    "Rstsr.C76_driver",
    "Rstsr.C76_false_subset"
   ],
   "note": "Proved for matrices with elements, for every LAPACK that meets its documentation and reports success. The fields that ask for a part of the eigenvalues have no effect (C76_false_subset). What is left in a mutable matrix by eigvalsh is not modelled."
  },
  {
   "property": "C77",
   "status": "partial",
   "theorems": [
    "Rstsr.C77_eigh_partial",
    "Rstsr.C77_eigvalsh_partial",
    "Rstsr.C77_args_partial",
    "Rstsr.C77_indefinite_partial",
    "Rstsr.C77_reject_partial"
   ],
   "note": "Proved for matrices with elements, for every LAPACK that meets its documentation and reports success. Errors of LAPACK are reported as an invalid layout, their number is lost."
  },
  {
   "property": "C78",
   "status": "partial",
   "theorems": [
    "Rstsr.C78_svd_partial",
    "Rstsr.C78_svdvals_partial",
    "Rstsr.C78_args_partial",
    "Rstsr.C78_fail_partial",
    "Rstsr.C78_reject",
    "Rstsr.C78_driver",
    "Rstsr.C78_agree_partial",
    "Rstsr.C78_false_gesvd"
   ],
   "note": "Proved for svd and svdvals, full and thin, real and complex, with the routine gesdd for all layouts and gesvd for row-major matrices, down to the arguments of LAPACK, under LAPACK's documented results; the two functions agree on the singular values. Missing: matrices without elements; gesvd fails on column-major matrices (C78_false_gesvd)."
  },
  {
   "property": "C79",
   "status": "partial",
   "theorems": [
    "Rstsr.C79_pinv_partial",
    "Rstsr.C79_exact_partial",
    "Rstsr.C79_unique",
    "Rstsr.C79_invertible",
    "Rstsr.C79_fail_partial",
    "Rstsr.C79_reject",
    "Rstsr.C79_false_zero"
   ],
   "note": "Proved for matrices with a singular value above the tolerance, real and complex, all layouts, down to the arguments of LAPACK and BLAS under their documented results; exact rank and pseudo-inverse when the tolerance separates zero from the rest; uniqueness and the invertible case. Missing: matrices without elements; fails when no singular value is above the tolerance (C79_false_zero)."
  },
  {
   "property": "C80",
   "status": "partial",
   "theorems": [
    "Rstsr.C80_min_axes_partial",
    "Rstsr.C80_max_axes_partial",
    "Rstsr.C80_min_partial",
    "Rstsr.C80_max_partial",
    "Rstsr.C80_empty",
    "Rstsr.C80_element",
    "Rstsr.C80_false_infinite"
   ],
   "note": "Proved on the serial and every parallel schedule for tensors with an element below plus infinity (minimum) or above minus infinity (maximum). Fails otherwise (C80_false_infinite)."
  },
  {
   "property": "C81",
   "status": "partial",
   "theorems": [
    "Rstsr.C81_faer_matmul_from_partial",
    "Rstsr.C81_other_matmul_from_partial",
    "Rstsr.C81_faer_matmul_partial"
   ],
   "note": "Every layout, alpha and beta, empty sums included. Missing: batched operands of different ranks (C41_false_batch_ranks), results with shared cells."
  },
  {
   "property": "C82",
   "status": "partial",
   "theorems": [
    "Rstsr.C82_cholesky",
    "Rstsr.C82_cholesky_indefinite",
    "Rstsr.C82_det",
    "Rstsr.C82_inv",
    "Rstsr.C82_solve_matrix",
    "Rstsr.C82_solve_vector",
    "Rstsr.C82_triangular_matrix",
    "Rstsr.C82_triangular_vector",
    "Rstsr.C82_reject_partial",
    "Rstsr.C82_reject_solve_partial",
    "Rstsr.C82_false_square",
    "Rstsr.C82_false_rows",
    "Rstsr.C82_false_singular"
   ],
   "note": "Every layout and size, positive definite or not, singular or not for det. Panics instead of errors (C82_false_square, C82_false_rows) and no error for singular matrices (C82_false_singular)."
  },
  {
   "property": "C83",
   "status": "partial",
   "theorems": [
    "Rstsr.C83_eigh",
    "Rstsr.C83_eigvalsh",
    "Rstsr.C83_fail",
    "Rstsr.C83_general_partial",
    "Rstsr.C83_indefinite_partial",
    "Rstsr.C83_reject_partial",
    "Rstsr.C83_false_square",
    "Rstsr.C83_false_size",
    "Rstsr.C83_false_shared"
   ],
   "note": "Every layout for one matrix. Missing: two matrices of which the first has elements that share cells (C83_false_shared); panics instead of errors for matrices of the wrong size (C83_false_square, C83_false_size)."
  },
  {
   "property": "C84",
   "status": "partial",
   "theorems": [
    "Rstsr.C84_svd_partial",
    "Rstsr.C84_svd_real",
    "Rstsr.C84_svdvals",
    "Rstsr.C84_pinv_partial",
    "Rstsr.C84_exact_partial",
    "Rstsr.C84_fail",
    "Rstsr.C84_reject",
    "Rstsr.C84_false_complex",
    "Rstsr.C84_false_empty"
   ],
   "note": "svdvals, real svd, errors: proved for all matrices. For complex matrices svd returns V\u1d40, not V\u1d34 (C84_svd_partial says what is returned, C84_false_complex that it is not a decomposition). pinv of a matrix without elements panics (C84_false_empty), of all others it is proved (C84_pinv_partial, C84_exact_partial)."
  },
  {
   "property": "C85",
   "status": "partial",
   "theorems": [
    "Rstsr.C85_success_partial",
    "Rstsr.C85_sequence_partial",
    "Rstsr.C85_workers",
    "Rstsr.C85_false_error",
    "Rstsr.C85_false_race",
    "Rstsr.C85_device_partial",
    "Rstsr.C85_false_device",
    "Rstsr.C85_convert_partial",
    "Rstsr.C85_false_negative",
    "Rstsr.C85_change"
   ],
   "note": "The thread setting is restored by calls that succeed and do not overlap, and untouched by calls from worker threads under every schedule; failing and overlapping calls leave another value (C85_false_error, C85_false_race). eigvalsh and svdvals stay on the device, cholesky, inv, eigh and svd do not (C85_false_device). Conversions keep every element unless a stride is negative (C85_false_negative); change of device keeps all."
  },
  {
   "property": "C86",
   "status": "partial",
   "theorems": [
    "Rstsr.C86_empty",
    "Rstsr.C86_text_partial",
    "Rstsr.C86_layout_partial",
    "Rstsr.C86_brackets",
    "Rstsr.C86_all",
    "Rstsr.C86_ellipsis_partial",
    "Rstsr.C86_false_ellipsis",
    "Rstsr.C86_false_few"
   ],
   "note": "All tensors, for MIN_PRINT at least one (C86_text_partial, C86_layout_partial); for zero it is false (C86_false_few). Every ellipsis stands for something if MAX_PRINT is more than twice MIN_PRINT (C86_ellipsis_partial), else it need not (C86_false_ellipsis). Brackets match, small arrays are printed in full."
  },
  {
   "property": "C87",
   "status": "proved",
   "theorems": [
    "Rstsr.C87_rule",
    "Rstsr.C87_weights",
    "Rstsr.C87_means",
    "Rstsr.C87_from_degree",
    "Rstsr.C87_refused"
   ],
   "note": "Exact real arithmetic with the decimal constants of the source; rounding of f64 is not modelled. Every table is evaluated in the kernel for all even monomials of the greatest degree; all other polynomials follow by induction and linearity."
  },
  {
   "property": "C88",
   "status": "partial",
   "theorems": [
    "Rstsr.C88_table_partial",
    "Rstsr.C88_false_131"
   ],
   "note": "All orders and degrees as documented except the degree of order 131 (documented 5802, actual 5810): C88_false_131."
  },
  {
   "property": "C89",
   "status": "partial",
   "theorems": [
    "Rstsr.C89_scoped_partial",
    "Rstsr.C89_finishes",
    "Rstsr.C89_restored",
    "Rstsr.C89_workers",
    "Rstsr.C89_alone",
    "Rstsr.C89_sequential",
    "Rstsr.C89_numbers",
    "Rstsr.C89_false_panic",
    "Rstsr.C89_false_race"
   ],
   "note": "Proved for every program and schedule for threads whose number is not shared with another running thread (OpenBLAS with OpenMP, MKL, KML workers, everything in a single thread). Fails for panicking bodies (C89_false_panic) and for shared numbers (C89_false_race)."
  },
  {
   "property": "C90",
   "status": "partial",
   "theorems": [
    "Rstsr.C90_shape_partial",
    "Rstsr.C90_false_length",
    "Rstsr.C90_vec",
    "Rstsr.C90_vec_round_trip",
    "Rstsr.C90_layout",
    "Rstsr.C90_scalar",
    "Rstsr.C90_nested"
   ],
   "note": "All shapes, both orders, both kinds of ranks, layouts, scalars, nested arrays, round trip with to_vec. Vectors that are too long are accepted instead of refused (C90_false_length)."
  },
  {
   "property": "C91",
   "status": "proved",
   "theorems": [
    "Rstsr.C91_compatible",
    "Rstsr.C91_compatible_is_reshape",
    "Rstsr.C91_assume_contig",
    "Rstsr.C91_into_dim",
    "Rstsr.C91_matrix_transpose",
    "Rstsr.C91_matrix_transpose_reject"
   ],
   "note": "All tensors, shapes and orders."
  },
  {
   "property": "C92",
   "status": "partial",
   "theorems": [
    "Rstsr.C92_einsum",
    "Rstsr.C92_output",
    "Rstsr.C92_reject",
    "Rstsr.C92_threads",
    "Rstsr.C92_tensordot_pairs",
    "Rstsr.C92_tensordot_count",
    "Rstsr.C92_tensordot_default",
    "Rstsr.C92_tensordot_output",
    "Rstsr.C92_tensordot_reject",
    "Rstsr.C92_false_threads"
   ],
   "note": "Proved for successful calls, with TBLIS described in Spec/Tblis. False after an error of the library: the number of threads is not restored (C92_false_threads)."
  },
  {
   "property": "C93",
   "status": "partial",
   "theorems": [
    "Rstsr.C93_index_select_same",
    "Rstsr.C93_index_select_partial",
    "Rstsr.C93_bool_select_same",
    "Rstsr.C93_concat_same",
    "Rstsr.C93_concat"
   ],
   "note": "Proved: bool_select and concat in full; index_select equals the serial device in every case, and selects the elements except that an empty index list on an axis of length 0 is rejected, as on the serial device. Missing: that case. The threads are run by a parameter of which only RunsThreads is assumed."
  },
  {
   "property": "C94",
   "status": "partial",
   "theorems": [
    "Rstsr.C94_map",
    "Rstsr.C94_map_binary_partial",
    "Rstsr.C94_map_binary_same_shape",
    "Rstsr.C94_map_binary_reject",
    "Rstsr.C94_map_inplace",
    "Rstsr.C94_false_shared"
   ],
   "note": "Proved: map_fnmut and mapi_fnmut in full, mapb_fnmut whenever no two indices of the result read the same two stored elements, and rejection of shapes that do not fit. Refuted otherwise: C94_false_shared."
  },
  {
   "property": "C95",
   "status": "partial",
   "theorems": [
    "Rstsr.C95_axis",
    "Rstsr.C95_axes",
    "Rstsr.C95_tuple_partial",
    "Rstsr.C95_false_tuple",
    "Rstsr.C95_index_partial",
    "Rstsr.C95_pair_partial",
    "Rstsr.C95_pair_lists",
    "Rstsr.C95_option",
    "Rstsr.C95_false_select",
    "Rstsr.C95_false_range",
    "Rstsr.C95_false_narrow",
    "Rstsr.C95_false_pair"
   ],
   "note": "Proved for axes and lists of axes of every type, and for tuples, indices, slices and axis pairs whose numbers fit. Refuted: numbers that do not fit panic in tuples and wrap around as indices, bounds and axis pairs."
  },
  {
   "property": "C96",
   "status": "partial",
   "theorems": [
    "Rstsr.C96_memory_partial",
    "Rstsr.C96_aligned",
    "Rstsr.C96_success_partial",
    "Rstsr.C96_no_memory",
    "Rstsr.C96_drop_partial",
    "Rstsr.C96_false_drop",
    "Rstsr.C96_false_overflow",
    "Rstsr.C96_false_zero_sized"
   ],
   "note": "Proved: room, alignment, separation, success and failure below 2^w bytes, and the drop of fewer than 128 elements. Refuted: the drop of 128 or more elements gives back another alignment, sizes above the address space wrap around, and elements without size are refused."
  },
  {
   "property": "C97",
   "status": "partial",
   "theorems": [
    "Rstsr.C97_iter",
    "Rstsr.C97_default",
    "Rstsr.C97_orders",
    "Rstsr.C97_indexed",
    "Rstsr.C97_mut_distinct_partial",
    "Rstsr.C97_history",
    "Rstsr.C97_mut_partial",
    "Rstsr.C97_mut_indexed_partial",
    "Rstsr.C97_par_read",
    "Rstsr.C97_par_mut_indexed_partial",
    "Rstsr.C97_par_mut_partial",
    "Rstsr.C97_false_alias",
    "Rstsr.C97_false_race",
    "Rstsr.C97_false_indexed_back",
    "Rstsr.C97_false_split_empty"
   ],
   "note": "Proved for every order, history, division and interleaving: reading (C97_iter, C97_orders, C97_indexed, C97_history, C97_par_read) and, without axes of stride zero, writing (C97_mut_partial, C97_mut_indexed_partial, C97_mut_distinct_partial, C97_par_mut_partial, C97_par_mut_indexed_partial). The code violates the rest: C97_false_alias, C97_false_race, C97_false_indexed_back, C97_false_split_empty."
  },
  {
   "property": "C98",
   "status": "partial",
   "theorems": [
    "Rstsr.C98_layout_partial",
    "Rstsr.C98_tensor",
    "Rstsr.C98_create_partial",
    "Rstsr.C98_checked_partial",
    "Rstsr.C98_checked_create_partial",
    "Rstsr.C98_false_create",
    "Rstsr.C98_false_accept",
    "Rstsr.C98_false_cast",
    "Rstsr.C98_false_empty",
    "Rstsr.C98_false_broadcast"
   ],
   "note": "Layouts that fit in the machine (all tensors with elements whose storage and number of elements fit), creation, and everything accepted in builds with overflow checks for lengths of isize. Missing because false in the code: layouts that do not fit (C98_false_create, C98_false_accept, C98_false_cast, C98_false_broadcast, C98_false_empty)."
  },
  {
   "property": "C99",
   "status": "partial",
   "theorems": [
    "Rstsr.C99_program_partial",
    "Rstsr.C99_program_total_partial",
    "Rstsr.C99_layout_independent_partial",
    "Rstsr.C99_false_repeated"
   ],
   "note": "Programs over any number of tensors by simulation; the missing part: views without elements, op= through views with repeated elements (false, witness)"
  },
  {
   "property": "C100",
   "status": "partial",
   "theorems": [
    "Rstsr.C100_reduce",
    "Rstsr.C100_axes_partial",
    "Rstsr.C100_sum_error",
    "Rstsr.C100_sum_exact",
    "Rstsr.C100_sum_nan",
    "Rstsr.C100_sum_axes_partial",
    "Rstsr.C100_add_nearest",
    "Rstsr.C100_layout_matters"
   ],
   "note": "Along axes: zero lengths and broadcast axes are left out, the code fails there (C39). The error bound is for sums; other operations have the bracket statement only."
  },
  {
   "property": "C101",
   "status": "partial",
   "theorems": [
    "Rstsr.C101_matmul_from_partial",
    "Rstsr.C101_matmul_partial",
    "Rstsr.C101_float_matmul_partial",
    "Rstsr.C101_float_matmul_from_partial",
    "Rstsr.C101_mul_nearest",
    "Rstsr.C101_device_matters",
    "Rstsr.C101_float_update_partial",
    "Rstsr.C101_vecdot_partial",
    "Rstsr.C101_vecdot_from_partial",
    "Rstsr.C101_float_vecdot_partial"
   ],
   "note": "Proved for every operation, device, schedule and layout that C42 and C43 cover, with error bounds for floats of every format, every alpha and every beta (finite old contents). Left out: what C42 and C43 leave out (batches of different ranks, shared cells, empty operands for vecdot), and products that the faer library computes."
  },
  {
   "property": "C102",
   "status": "partial",
   "theorems": [
    "Rstsr.C102_mean",
    "Rstsr.C102_var",
    "Rstsr.C102_std",
    "Rstsr.C102_l2_norm",
    "Rstsr.C102_mean_axes_partial",
    "Rstsr.C102_var_axes_partial",
    "Rstsr.C102_std_axes_partial",
    "Rstsr.C102_l2_norm_axes_partial",
    "Rstsr.C102_ops_nearest",
    "Rstsr.C102_false_mean_range",
    "Rstsr.C102_false_var",
    "Rstsr.C102_false_std"
   ],
   "note": "Error bounds of mean, variance, deviation and norm for every device, schedule, layout and format; not-a-number spreads. False of the code: a mean between the least and the greatest element, a variance that is not negative, a deviation that is a number (C102_false_*). Along axes: tensors with zero lengths or broadcast axes are left out (C39). Real types; the square root is any function."
  },
  {
   "property": "C103",
   "status": "partial",
   "theorems": [
    "Rstsr.C103_mean",
    "Rstsr.C103_var",
    "Rstsr.C103_std",
    "Rstsr.C103_l2_norm",
    "Rstsr.C103_mean_axes_partial",
    "Rstsr.C103_var_axes_partial",
    "Rstsr.C103_std_axes_partial",
    "Rstsr.C103_l2_norm_axes_partial",
    "Rstsr.C103_var_nonneg",
    "Rstsr.C103_abs",
    "Rstsr.C103_abs_diff",
    "Rstsr.C103_sign",
    "Rstsr.C103_parts",
    "Rstsr.C103_arithmetic",
    "Rstsr.C103_operators"
   ],
   "note": "All elements: proved for every device, schedule and layout. Along axes: tensors with zero lengths or broadcast axes are left out (C39). The parts are exact numbers of a field; rounding of complex operations is not modelled."
  },
  {
   "property": "C104",
   "status": "partial",
   "theorems": [
    "Rstsr.C104_exact",
    "Rstsr.C104_nan",
    "Rstsr.C104_false_overflow",
    "Rstsr.C104_false_underflow"
   ],
   "note": "Exact arithmetic and not-a-number are proved. That finite arguments give a finite result is false of the code: exponentials overflow and underflow (C104_false_*)."
  },
  {
   "property": "C105",
   "status": "partial",
   "theorems": [
    "Rstsr.C105_fingerprint_partial",
    "Rstsr.C105_layout_independent",
    "Rstsr.C105_false_order",
    "Rstsr.C105_allclose"
   ],
   "note": "Proved for every tensor, device and schedule with the order of the device; on a column-major device this is not the row-major order (C105_false_order). Exact arithmetic."
  },
  {
   "property": "C106",
   "status": "partial",
   "theorems": [
    "Rstsr.C106_same_as_serial_partial",
    "Rstsr.C106_program_partial"
   ],
   "note": "Exact equality with the serial device for every program of C99; programs with views without elements are missing."
  },
  {
   "property": "C107",
   "status": "proved",
   "theorems": [
    "Rstsr.C107_text_determines",
    "Rstsr.C107_prefer",
    "Rstsr.C107_text"
   ],
   "note": "Every layout; the text is a list of characters."
  },
  {
   "property": "C108",
   "status": "partial",
   "theorems": [
    "Rstsr.C108_linspace_float",
    "Rstsr.C108_ordered",
    "Rstsr.C108_ops",
    "Rstsr.C108_false_end",
    "Rstsr.C108_false_outside",
    "Rstsr.C108_false_devices"
   ],
   "note": "Count, first value, order and error bounds are proved for every format, both devices and both choices of the endpoint. False of the code: the last value is the stop (C108_false_end), no value lies outside (C108_false_outside), the devices agree (C108_false_devices). Real types."
  },
  {
   "property": "C109",
   "status": "partial",
   "theorems": [
    "Rstsr.C109_arange_float",
    "Rstsr.C109_resolved",
    "Rstsr.C109_zero_step",
    "Rstsr.C109_false_stop",
    "Rstsr.C109_false_missing",
    "Rstsr.C109_empty",
    "Rstsr.C109_false_wrong_way"
   ],
   "note": "Termination, count, error, order and the bound by the stop are proved for every pair of formats and both directions. False of the code: all values lie before the stop (C109_false_stop), no value is missing (C109_false_missing), a negative step away from the stop gives an empty range (C109_false_wrong_way: it never ends)."
  },
  {
   "property": "C110",
   "status": "partial",
   "theorems": [
    "Rstsr.C110_mul",
    "Rstsr.C110_sum",
    "Rstsr.C110_mean",
    "Rstsr.C110_mean_axes_partial",
    "Rstsr.C110_ops_nearest",
    "Rstsr.C110_false_overflow",
    "Rstsr.C110_false_infinite",
    "Rstsr.C110_false_quotient",
    "Rstsr.C110_false_var",
    "Rstsr.C110_div",
    "Rstsr.C110_matmul_partial",
    "Rstsr.C110_vecdot_partial",
    "Rstsr.C110_neg_exact"
   ],
   "note": "Sums, products, quotients, means, products of matrices and vecdot of complex floats with error bounds; variances are not bounded. Overflow of the mean, not-a-number quotients and negative variances by concrete witnesses."
  },
  {
   "property": "C111",
   "status": "partial",
   "theorems": [
    "Rstsr.C111_of_char",
    "Rstsr.C111_to_char",
    "Rstsr.C111_to_byte",
    "Rstsr.C111_of_byte",
    "Rstsr.C111_numbers",
    "Rstsr.C111_trans_number_partial",
    "Rstsr.C111_cblas",
    "Rstsr.C111_flip_partial",
    "Rstsr.C111_flips",
    "Rstsr.C111_false_lower",
    "Rstsr.C111_false_conj",
    "Rstsr.C111_false_flip"
   ],
   "note": "All conversions for all characters and bytes, and the meaning of flips. The flag CN has no conversion, flip of T with hermi and of C without it are not inverse: concrete witnesses."
  },
  {
   "property": "C112",
   "status": "partial",
   "theorems": [
    "Rstsr.C112_tables",
    "Rstsr.C112_remove",
    "Rstsr.C112_insert",
    "Rstsr.C112_broadcast",
    "Rstsr.C112_products",
    "Rstsr.C112_matmul",
    "Rstsr.C112_diagonal_partial",
    "Rstsr.C112_false_diagonal",
    "Rstsr.C112_false_compiled",
    "Rstsr.C112_pack_array"
   ],
   "note": "Selecting, eliminating, dropping and inserting axes, broadcasting, matrix products, packing and unpacking arrays in full; diagonals of two different axes (an axis with itself is refused for fixed and accepted for dynamic ranks)."
  }
 ]
}