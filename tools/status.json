{
 "C01": [
  "proved",
  "Layout::new with its sorted cumulative-stride check; all ranks, signed strides."
 ],
 "C02": [
  "proved",
  "bounds_index; soundness, tightness, empty case and exact error condition. The offset is a usize, hence the hypothesis 0 <= offset."
 ],
 "C03": [
  "proved",
  "Tensor::new_f; checked and unchecked element access."
 ],
 "C04": [
  "proved",
  "index_f accept condition, result and error kinds; index_uncheck with its unrolled ranks 0-4."
 ],
 "C05": [
  "proved",
  "new_c_contig / new_f_contig for dynamic rank; fixed-rank versions agree when no length is 0."
 ],
 "C06": [
  "proved",
  "c_contig, f_contig, ndim_of_c_contig, ndim_of_f_contig characterised exactly for layouts without zero lengths; empty layouts are contiguous."
 ],
 "C07": [
  "proved",
  "transpose / permute_dims: exact acceptance, shape, element law both ways, result still acceptable to Layout::new."
 ],
 "C08": [
  "proved",
  "reverse_axes, swapaxes, moveaxis: element laws through transpose, involution / inverse laws, exact acceptance."
 ],
 "C09": [
  "partial",
  "Python slicing proved for all slices except negative steps with literal stop -1 or start < -len, where the code differs (witnesses proved). Acceptance, validity and the subsequence law are proved for every slice."
 ],
 "C10": [
  "proved",
  ""
 ],
 "C100": [
  "partial",
  "Along axes: zero lengths and broadcast axes are left out, the code fails there (C39). The error bound is for sums; other operations have the bracket statement only."
 ],
 "C101": [
  "partial",
  "Proved for every operation, device, schedule and layout that C42 and C43 cover, with error bounds for floats of every format, every alpha and every beta (finite old contents). Left out: what C42 and C43 leave out (batches of different ranks, shared cells, empty operands for vecdot), and products that the faer library computes."
 ],
 "C102": [
  "partial",
  "Error bounds of mean, variance, deviation and norm for every device, schedule, layout and format; not-a-number spreads. False of the code: a mean between the least and the greatest element, a variance that is not negative, a deviation that is a number (C102_false_*). Along axes: tensors with zero lengths or broadcast axes are left out (C39). Real types; the square root is any function."
 ],
 "C103": [
  "partial",
  "All elements: proved for every device, schedule and layout. Along axes: tensors with zero lengths or broadcast axes are left out (C39). The parts are exact numbers of a field; rounding of complex operations is not modelled."
 ],
 "C104": [
  "partial",
  "Exact arithmetic and not-a-number are proved. That finite arguments give a finite result is false of the code: exponentials overflow and underflow (C104_false_*)."
 ],
 "C105": [
  "partial",
  "Proved for every tensor, device and schedule with the order of the device; on a column-major device this is not the row-major order (C105_false_order). Exact arithmetic."
 ],
 "C106": [
  "partial",
  "Exact equality with the serial device for every program of C99; programs with views without elements are missing."
 ],
 "C107": [
  "proved",
  "Every layout; the text is a list of characters."
 ],
 "C108": [
  "partial",
  "Count, first value, order and error bounds are proved for every format, both devices and both choices of the endpoint. False of the code: the last value is the stop (C108_false_end), no value lies outside (C108_false_outside), the devices agree (C108_false_devices). Real types."
 ],
 "C109": [
  "partial",
  "Termination, count, error, order and the bound by the stop are proved for every pair of formats and both directions. False of the code: all values lie before the stop (C109_false_stop), no value is missing (C109_false_missing), a negative step away from the stop gives an empty range (C109_false_wrong_way: it never ends)."
 ],
 "C11": [
  "proved",
  "squeeze is stated for axes in range; the code also accepts some out-of-range axes (witness proved)."
 ],
 "C110": [
  "partial",
  "Sums, products, quotients, means, products of matrices and vecdot of complex floats with error bounds; variances are not bounded. Overflow of the mean, not-a-number quotients and negative variances by concrete witnesses."
 ],
 "C111": [
  "partial",
  "All conversions for all characters and bytes, and the meaning of flips. The flag CN has no conversion, flip of T with hermi and of C without it are not inverse: concrete witnesses."
 ],
 "C112": [
  "partial",
  "Selecting, eliminating, dropping and inserting axes, broadcasting, matrix products, packing and unpacking arrays in full; diagonals of two different axes (an axis with itself is refused for fixed and accepted for dynamic ranks)."
 ],
 "C12": [
  "partial",
  "Acceptance, rejections, validity and containment are proved for every entry list; the exact element law excludes the negative-step slices of C09."
 ],
 "C13": [
  "partial",
  "Invariant over histories of any length of 17 view operations (including no-copy reshape and axis iteration items). Only diagonals of an axis with itself are excluded, where the code leaves the storage (witness proved)."
 ],
 "C14": [
  "proved",
  ""
 ],
 "C15": [
  "partial",
  "Element law proved for every accepted diagonal of two distinct axes; the length law excludes the super-diagonals on which the code is wrong (witnesses proved)."
 ],
 "C16": [
  "proved",
  "broadcast_shape in both orders: exact acceptance, shape, algebra."
 ],
 "C17": [
  "proved",
  "broadcast_layout, broadcast_layout_to_first, broadcast_to, broadcast_arrays: element law, validity, exact acceptance. broadcast_layout_to_first also accepts enlarging the first layout (witness proved)."
 ],
 "C18": [
  "proved",
  "For last-axis (row-major) alignment, the only one these predicates implement; column-major difference shown by witness."
 ],
 "C19": [
  "proved",
  "layout_reshapeable: soundness of every returned layout, no aliasing, and completeness: None only when no strided view of the requested shape exists."
 ],
 "C20": [
  "partial",
  "Exact acceptance and inferred size. A zero product beside -1 panics instead of being reported (witness proved)."
 ],
 "C21": [
  "proved",
  "change_shape_with_args_f; view and copy paths. With copy=true the size is not checked (witness C21_copy_unchecked)."
 ],
 "C22": [
  "proved",
  "IterLayout row- and column-major, any reachable state; order, completeness and exact length."
 ],
 "C23": [
  "proved",
  "Every interleaving of next and next_back from every reachable iterator state."
 ],
 "C24": [
  "proved",
  "split_at and every recursive split tree. Splitting an iterator over an empty layout divides by zero (C24_empty_split_panics)."
 ],
 "C25": [
  "partial",
  "Front calls proved. next_back pairs the front index with the back element: witness C25_indexed_back_witness; the back call is right only on the last remaining element."
 ],
 "C26": [
  "proved",
  "greedy_layout with keep_shape; K order is a permutation and sorted by stride."
 ],
 "C27": [
  "proved",
  "All four unravel functions, fixed and dynamic rank."
 ],
 "C28": [
  "partial",
  "Orders C, F, K for any layouts; order A for rank at least one (rank 0 panics, witness); order B for layouts with positive strides. Missing: order B on reversed axes and on repeated axes beside a gap, where the code visits wrong cells (witnesses C28_default_rank0_witness, C28_false_flat_gaps)."
 ],
 "C29": [
  "proved",
  "translate_to_col_major_with_contig."
 ],
 "C30": [
  "proved",
  "Reference, consuming and output-buffer forms and scalar operands, serial kernels; parallel kernels are C37."
 ],
 "C31": [
  "proved",
  "get_layout_for_binary_op and the kernel run on an uninitialised buffer."
 ],
 "C32": [
  "proved",
  "op= with tensor or number. A stride-0 destination is outside the statement (witness C32_zero_stride_destination)."
 ],
 "C33": [
  "partial",
  "Proved when b can be stretched to the shape of a. Missing: the code also accepts a source larger than a (witness C33_larger_source_accepted), where the claim is false."
 ],
 "C34": [
  "proved",
  "assign_arbitary with its contiguous fast path."
 ],
 "C35": [
  "partial",
  "asarray, to_contig, into_owned proved for every tensor; to_layout proved for target layouts without holes. Missing: for layouts with holes the code reads uninitialised cells (witness C35_to_layout_holes)."
 ],
 "C36": [
  "proved",
  "map, owned unary operation and mapi, including layouts with shared cells."
 ],
 "C37": [
  "partial",
  "Binary operation, assignment, copy, fill and in-place map for every scheduler and interleaving, with absence of races. op= (C37_update_partial) only for destinations without shared cells; with shared cells updates can be lost (witness C37_shared_cell_lost_update)."
 ],
 "C38": [
  "proved",
  "Serial and parallel full reduction (every scheduler), one- and two-operand, for every commutative monoid; sum, prod, min, max, mean, var, std, l2_norm, all, any, count_nonzero, allclose as corollaries. Floating-point arithmetic is not a commutative monoid and is outside the claim."
 ],
 "C39": [
  "partial",
  "Serial and parallel, every reduction of the API, every legal axis list, all axes for any tensor. Listed axes need a tensor without zero lengths and without broadcast axes: on others the code is wrong (four witnesses proved)."
 ],
 "C40": [
  "partial",
  "Full reductions on both devices (every plan) and axis reductions on the serial device are complete: the reported index is the first best one, as coordinates or as rank. On the parallel device axis reductions are proved for sizes below 1024 or one axis of non-negative stride; C40_par_axes_swapped and C40_par_reversed_panics show the claim is false otherwise."
 ],
 "C41": [
  "partial",
  "Acceptance, result shape and layout, rejection without panic and uniqueness are proved for all ranks and both orders; the pairing of batches is proved for the plan with a given result when batched operands have equal ranks. Different batch ranks are refused by that plan although the shape planner accepts them (C41_false_batch_ranks); a result with too few batches is accepted (C41_false_truncated); one plan holds the whole left operand as its matrix (C41_false_whole_operand)."
 ],
 "C42": [
  "partial",
  "matmul_from and matmul over any commutative semiring, all layouts, both orders, serial and every schedule. Missing: batched operands of different ranks (refused), a scalar result away from cell 0 on the serial device (C42_false_inner_offset, wrong cell written), result views with shared cells, faer library kernels for floats; with NaN-like elements the fresh storage leaks (C42_false_fresh)."
 ],
 "C43": [
  "partial",
  "vecdot and vecdot_from, serial and parallel, all axis arguments: C43_vecdot_partial, C43_vecdot_from_partial, C43_accept_iff. Missing: operands with an axis of length 0, where the code can panic (C43_false_empty); parallel device with operands whose elements share cells, where the claim is false: C43_false_shared gives an execution with a wrong sum and a race."
 ],
 "C44": [
  "partial",
  "tril proved in full; triu proved where no row starts beyond the last column, elsewhere it is false (C44_false_triu_tall, C44_false_triu_outside, C44_false_triu_lost)"
 ],
 "C45": [
  "partial",
  "Proved for every storage order, batch shape, strides and schedule: packing and unpacking element by element, rejection of non-square matrices and of lengths that are not triangular, and both round trips. Not true as stated for anti-Hermitian matrices with imaginary diagonals (C45_false_antihermitian), packed diagonals the symmetry forbids (C45_false_diagonal) and FlagSymm::N (C45_false_unknown). Shapes without elements are left out; the f64 square root is modelled by the integer square root."
 ],
 "C46": [
  "partial",
  "Serial kernel, all axes and index lists, on axes that are not empty; the code rejects the empty list on an empty axis (C46_empty_axis_rejected). Acceptance is characterised exactly."
 ],
 "C47": [
  "proved",
  "concat, stack, unstack, hstack and vstack: exact acceptance and every element; unstack of a stack returns the inputs."
 ],
 "C48": [
  "proved",
  "normalize_axes_index: exact acceptance, sorted and unsorted result, error kinds."
 ],
 "C49": [
  "proved",
  "Both conversions, serial and under every thread schedule and every split of the block ranges, for every pair of matrices of equal shape with the required unit strides whose output cells are not shared; other cells are unchanged. Bad shapes and strides are refused without writing."
 ],
 "C50": [
  "partial",
  "Fast-path integer types: exact result for every interval shorter than 2^53, with f64 rounding modelled; other integer types: ascending steps that do not overflow; floats in exact arithmetic; linspace serial = parallel. False beyond: intervals of 2^53 and more can lose the last value, descending ranges of i8/u8/i16/u16/i128 are empty, u8 arange(0,255,2) panics or never ends, a float step in the wrong direction never ends."
 ],
 "C51": [
  "proved",
  "All histories of creation, sharing, views, mutable views, layout changes, conversions, clones, drops and in-place operations, over a heap with Arc counts and Rust's borrow rules. Findings: into_owned and into_cow of a tensor that shares its Arc panic (C51_false_into_owned); the shared iterators are borrowed from nothing, so they outlive the tensor (C51_false_iter). Not modelled: unsafe force_mut, threads, weak references."
 ],
 "C52": [
  "partial",
  "Splitting: proved for every layout. Axis iteration: proved for row-, column-major and K order, any history of front, back and split calls. Missing: tensors without elements whose strides lead to negative positions (panic, C52_false_axes_empty); indexed iteration from the back, K order with indices, error reporting and mutable iteration over broadcast axes fail (C52_false_*)."
 ],
 "C53": [
  "proved",
  "PartialEq of layouts, both directions."
 ],
 "C54": [
  "proved",
  "Any number of inputs, both conventions, with and without copy."
 ],
 "C55": [
  "partial",
  "Vector to matrix and diag(diag(v,k),k)=v are proved for every k; matrix to vector excludes super-diagonals with d1 <= k < d2 or d2 < k < d1, where the code is wrong (two witnesses proved)."
 ],
 "C56": [
  "proved",
  "to_scalar, to_vec, into_vec."
 ],
 "C57": [
  "partial",
  "Masks as long as a non-empty axis; the mask length is not checked by the code (C57_mask_length_unchecked)."
 ],
 "C58": [
  "partial",
  "For every rank and every pair of equally long lists of legal distinct axes, and for every legal number of axes, the subscripts sum exactly the terms of the tensordot as long as at most 52 labels are needed. Full statement fails: lists of different lengths are accepted and the unpaired axes are summed alone (C58_false_lengths), and legal contractions with more than 52 labels are refused (C58_false_letters)."
 ],
 "C59": [
  "partial",
  "zeros/ones for every shape and every valid layout, full for every shape, all _like forms. full of a layout allocates as many cells as elements, so a layout with holes or an offset yields a tensor reaching outside its storage (witness)."
 ],
 "C60": [
  "partial",
  "Row-major for every m, n and every k except m <= k < n (result all zeros, witness) and n < k < m (panic, witness). Column-major returns an n by m matrix, so it is right only for square ones (witness)."
 ],
 "C61": [
  "partial",
  "Full for beta = 0 (in particular for matmul and %) and for results that BLAS can write to in place. Missing: batch operands of different ranks, results with shared cells, and beta other than zero with a result without unit stride or with an empty sum, where the code is wrong (witnesses)."
 ],
 "C62": [
  "partial",
  "Excludes matrices without columns (panic) and wrong numbers of weights (not rejected); Jensen-Shannon for rows without negative entries; weighted correlation disagrees with repeated columns. Each exclusion has a counterexample theorem."
 ],
 "C63": [
  "partial",
  "i8 with i16 (in this order) and usize with isize have no rule; 64-bit integers beyond 53 digits are rounded when they meet a float, so equal may hold for different numbers. Each failure has a counterexample theorem; the order of comparisons is never reversed."
 ],
 "C64": [
  "partial",
  "The verdict is proved right for finite values outside the margin of the rounding errors; infinities follow the code except an infinite reference, integers of least value and overflowing differences (witnesses)."
 ],
 "C65": [
  "partial",
  "Real types; complex abs and sign are C103. signbit is inverted, abs of the least integer, ties in round and rounded quotients in floor_divide differ from the specification (witnesses); the rest is proved."
 ],
 "C66": [
  "proved",
  "f16 and bf16; f32 and f64 call libm, which is outside the repository."
 ],
 "C67": [
  "partial",
  "Packing needs strides divisible by N and vectors without spare capacity: both are necessary (C67_false_stride, C67_false_capacity). Unpacking holds in full."
 ],
 "C68": [
  "partial",
  "Matrix and vector right-hand sides, singular matrices and wrong shapes are proved for all sizes. The claim about memory fails for windows of row-major matrices (C68_false_slice)."
 ],
 "C69": [
  "partial",
  "The inverse is proved for sizes other than zero; singular matrices and arrays of wrong shape for all sizes. A matrix with more columns than rows panics (C69_false_wide)."
 ],
 "C70": [
  "partial",
  "Nonsingular matrices of all sizes, without rounding. Singular matrices are an error instead of determinant zero (C70_false_singular); a tall matrix gives a number (C70_false_tall)."
 ],
 "C71": [
  "proved",
  "Factor, indefinite matrices and arrays of wrong shape, for all sizes. LAPACK is a parameter that meets its documentation."
 ],
 "C72": [
  "partial",
  "Proved for systems with equations, with any number of right-hand sides; a system without equations is an error (C72_false_empty)."
 ],
 "C73": [
  "partial",
  "Proved for matrices whose elements start at the first cell of the storage or are copied, and outputs without gaps; fails otherwise (witnesses). BLAS is a parameter. Empty matrices and the flag CN missing."
 ],
 "C74": [
  "partial",
  "As C73; the order asked for is inverted (witness). Factors and outputs that do not fit are proved to be errors."
 ],
 "C75": [
  "partial",
  "Proved where order of work, side and storage go together; wrong triangle and wrong shape otherwise (witnesses)."
 ],
 "C76": [
  "partial",
  "Proved for matrices with elements, for every LAPACK that meets its documentation and reports success. The fields that ask for a part of the eigenvalues have no effect (C76_false_subset). What is left in a mutable matrix by eigvalsh is not modelled."
 ],
 "C77": [
  "partial",
  "Proved for matrices with elements, for every LAPACK that meets its documentation and reports success. Errors of LAPACK are reported as an invalid layout, their number is lost."
 ],
 "C78": [
  "partial",
  "Proved for svd and svdvals, full and thin, real and complex, with the routine gesdd for all layouts and gesvd for row-major matrices, down to the arguments of LAPACK, under LAPACK's documented results; the two functions agree on the singular values. Missing: matrices without elements; gesvd fails on column-major matrices (C78_false_gesvd)."
 ],
 "C79": [
  "partial",
  "Proved for matrices with a singular value above the tolerance, real and complex, all layouts, down to the arguments of LAPACK and BLAS under their documented results; exact rank and pseudo-inverse when the tolerance separates zero from the rest; uniqueness and the invertible case. Missing: matrices without elements; fails when no singular value is above the tolerance (C79_false_zero)."
 ],
 "C80": [
  "partial",
  "Proved on the serial and every parallel schedule for tensors with an element below plus infinity (minimum) or above minus infinity (maximum). Fails otherwise (C80_false_infinite)."
 ],
 "C81": [
  "partial",
  "Every layout, alpha and beta, empty sums included. Missing: batched operands of different ranks (C41_false_batch_ranks), results with shared cells."
 ],
 "C82": [
  "partial",
  "Every layout and size, positive definite or not, singular or not for det. Panics instead of errors (C82_false_square, C82_false_rows) and no error for singular matrices (C82_false_singular)."
 ],
 "C83": [
  "partial",
  "Every layout for one matrix. Missing: two matrices of which the first has elements that share cells (C83_false_shared); panics instead of errors for matrices of the wrong size (C83_false_square, C83_false_size)."
 ],
 "C84": [
  "partial",
  "svdvals, real svd, errors: proved for all matrices. For complex matrices svd returns V\u1d40, not V\u1d34 (C84_svd_partial says what is returned, C84_false_complex that it is not a decomposition). pinv of a matrix without elements panics (C84_false_empty), of all others it is proved (C84_pinv_partial, C84_exact_partial)."
 ],
 "C85": [
  "partial",
  "The thread setting is restored by calls that succeed and do not overlap, and untouched by calls from worker threads under every schedule; failing and overlapping calls leave another value (C85_false_error, C85_false_race). eigvalsh and svdvals stay on the device, cholesky, inv, eigh and svd do not (C85_false_device). Conversions keep every element unless a stride is negative (C85_false_negative); change of device keeps all."
 ],
 "C86": [
  "partial",
  "All tensors, for MIN_PRINT at least one (C86_text_partial, C86_layout_partial); for zero it is false (C86_false_few). Every ellipsis stands for something if MAX_PRINT is more than twice MIN_PRINT (C86_ellipsis_partial), else it need not (C86_false_ellipsis). Brackets match, small arrays are printed in full."
 ],
 "C87": [
  "proved",
  "Exact real arithmetic with the decimal constants of the source; rounding of f64 is not modelled. Every table is evaluated in the kernel for all even monomials of the greatest degree; all other polynomials follow by induction and linearity."
 ],
 "C88": [
  "partial",
  "All orders and degrees as documented except the degree of order 131 (documented 5802, actual 5810): C88_false_131."
 ],
 "C89": [
  "partial",
  "Proved for every program and schedule for threads whose number is not shared with another running thread (OpenBLAS with OpenMP, MKL, KML workers, everything in a single thread). Fails for panicking bodies (C89_false_panic) and for shared numbers (C89_false_race)."
 ],
 "C90": [
  "partial",
  "All shapes, both orders, both kinds of ranks, layouts, scalars, nested arrays, round trip with to_vec. Vectors that are too long are accepted instead of refused (C90_false_length)."
 ],
 "C91": [
  "proved",
  "All tensors, shapes and orders."
 ],
 "C92": [
  "partial",
  "Proved for successful calls, with TBLIS described in Spec/Tblis. False after an error of the library: the number of threads is not restored (C92_false_threads)."
 ],
 "C93": [
  "partial",
  "Proved: bool_select and concat in full; index_select equals the serial device in every case, and selects the elements except that an empty index list on an axis of length 0 is rejected, as on the serial device. Missing: that case. The threads are run by a parameter of which only RunsThreads is assumed."
 ],
 "C94": [
  "partial",
  "Proved: map_fnmut and mapi_fnmut in full, mapb_fnmut whenever no two indices of the result read the same two stored elements, and rejection of shapes that do not fit. Refuted otherwise: C94_false_shared."
 ],
 "C95": [
  "partial",
  "Proved for axes and lists of axes of every type, and for tuples, indices, slices and axis pairs whose numbers fit. Refuted: numbers that do not fit panic in tuples and wrap around as indices, bounds and axis pairs."
 ],
 "C96": [
  "partial",
  "Proved: room, alignment, separation, success and failure below 2^w bytes, and the drop of fewer than 128 elements. Refuted: the drop of 128 or more elements gives back another alignment, sizes above the address space wrap around, and elements without size are refused."
 ],
 "C97": [
  "partial",
  "Proved for every order, history, division and interleaving: reading (C97_iter, C97_orders, C97_indexed, C97_history, C97_par_read) and, without axes of stride zero, writing (C97_mut_partial, C97_mut_indexed_partial, C97_mut_distinct_partial, C97_par_mut_partial, C97_par_mut_indexed_partial). The code violates the rest: C97_false_alias, C97_false_race, C97_false_indexed_back, C97_false_split_empty."
 ],
 "C98": [
  "partial",
  "Layouts that fit in the machine (all tensors with elements whose storage and number of elements fit), creation, and everything accepted in builds with overflow checks for lengths of isize. Missing because false in the code: layouts that do not fit (C98_false_create, C98_false_accept, C98_false_cast, C98_false_broadcast, C98_false_empty)."
 ],
 "C99": [
  "partial",
  "Programs over any number of tensors by simulation; the missing part: views without elements, op= through views with repeated elements (false, witness)"
 ]
}