{"id": "C01", "title": "Accepted layouts never alias", "statement": "If Layout::new accepts a (shape, stride, offset), then two in-range multi-indices that differ on some axis whose stride is not 0 address different storage positions; only axes of stride 0 (broadcast axes) can share storage.", "quantifier": "every number of dimensions, shape, signed stride list and offset accepted by Layout::new, and every pair of in-range indices", "why_tests_cant": "The acceptance test sorts strides and compares cumulative extents; whether that rules out every collision is a number-theoretic fact over all shapes and strides, not something a sample of shapes shows.", "anchors": ["rstsr-common/src/layout/layoutbase.rs: Layout::new, Layout::check_strides, Layout::index_f"]}
{"id": "C02", "title": "Reported storage bounds are exact", "statement": "For a non-empty layout, bounds_index returns (min, max) such that every in-range index addresses a position p with min <= p < max, and both min and max-1 are addressed by some in-range index; for a layout with an axis of length 0 it returns (offset, offset); it returns an error exactly when some in-range index would address a negative position.", "quantifier": "every shape, signed strides and offset; every in-range index", "why_tests_cant": "Tightness and soundness of an interval over every combination of positive, negative and zero strides cannot be enumerated.", "anchors": ["rstsr-common/src/layout/layoutbase.rs: Layout::bounds_index"]}
{"id": "C03", "title": "Tensor construction implies in-bounds access", "statement": "If Tensor::new_f accepts a storage and a layout, every in-range index returns Ok from index_f and the position is inside the storage, so element access never panics or reads outside.", "quantifier": "every storage length, layout and index", "why_tests_cant": "Memory safety of the unchecked accessors rests on this for all inputs; a test only touches a few indices.", "anchors": ["rstsr-core/src/tensorbase.rs: TensorBase::new_f", "rstsr-common/src/layout/layoutbase.rs: Layout::bounds_index, Layout::index_f, Layout::index_uncheck"]}
{"id": "C04", "title": "Index lookup semantics and rejection", "statement": "index_f accepts an index list exactly when it has one entry per axis and each entry i satisfies -d <= i < d for the axis length d; the accepted result equals the address of the index in which each negative entry is replaced by i + d. index_uncheck returns the same address whenever index_f accepts.", "quantifier": "every layout with non-negative addresses, every list of signed indices of any length", "why_tests_cant": "The accept/reject boundary and the wrap-around of negatives range over unbounded integers and ranks, with special-cased code for ranks 0 to 4.", "anchors": ["rstsr-common/src/layout/layoutbase.rs: Layout::index_f, Layout::index_uncheck"]}
{"id": "C05", "title": "Contiguous layouts are dense bijections", "statement": "The row-major (column-major) layout built from a shape maps in-range indices one-to-one onto offset .. offset+size-1, and the address of an index is offset plus its row-major (column-major) rank.", "quantifier": "every shape including zero lengths and rank 0, every offset", "why_tests_cant": "A bijection onto the whole interval for every rank and every shape needs induction on the rank.", "anchors": ["rstsr-common/src/layout/shape.rs: stride_c_contig, stride_f_contig", "rstsr-common/src/layout/layoutbase.rs: new_c_contig, new_f_contig, c, f"]}
{"id": "C06", "title": "Contiguity tests are sound and complete", "statement": "For a layout with no zero-length axis, c_contig (f_contig) returns true if and only if every in-range index lies at offset plus its row-major (column-major) rank; and ndim_of_f_contig/ndim_of_c_contig return a number k such that the first (last) k axes alone are contiguous.", "quantifier": "every shape, stride and offset", "why_tests_cant": "The tests skip length-1 axes and compare running products; equivalence to the meaning of contiguity is a statement over all layouts and indices.", "anchors": ["rstsr-common/src/layout/layoutbase.rs: c_contig, f_contig, ndim_of_f_contig, ndim_of_c_contig"]}
{"id": "C07", "title": "Transpose moves elements by the permutation and rejects non-permutations", "statement": "transpose(axes) succeeds exactly when axes (after adding ndim to negative entries) is a permutation of 0..ndim; in the result axis i has the length of old axis axes[i], the element at index idx is the old element whose axes[i]-th coordinate is idx[i], and acceptance by Layout::new and the addressed set are preserved.", "quantifier": "every layout, every list of signed axes, every index", "why_tests_cant": "Ranks and permutations are unbounded and rejection must be exact for all axis lists.", "anchors": ["rstsr-common/src/layout/layoutbase.rs: Layout::transpose", "rstsr-common/src/axis_index.rs: normalize_axes_index", "rstsr-core/src/tensor/manipulation/transpose.rs"]}
{"id": "C08", "title": "reverse_axes, swapaxes and moveaxis are the stated permutations", "statement": "reverse_axes equals transpose by the reversed axis list and is an involution; swapaxes(i,j) equals transpose by the transposition, is an involution and is symmetric in i and j; moveaxis places every source axis at its destination, keeps the order of the other axes, and is undone by moveaxis with source and destination exchanged.", "quantifier": "every layout, every valid (also negative) axis argument", "why_tests_cant": "Composition and involution laws hold for all ranks or not at all.", "anchors": ["rstsr-common/src/layout/layoutbase.rs: reverse_axes, swapaxes", "rstsr-core/src/tensor/manipulation/moveaxis.rs: into_moveaxis_f"]}
{"id": "C09", "title": "Slicing one axis selects the Python-slice positions", "statement": "Slicing axis a by start:stop:step (each optional, any sign) returns a view whose axis-a length is the number of positions a Python slice selects on that axis and whose k-th position on axis a is the k-th selected position; all other axes are unchanged; step 0 is rejected.", "quantifier": "every layout accepted by Layout::new, axis, optional signed start/stop/step and index", "why_tests_cant": "Default, negative, clamped and out-of-range bounds in both directions form an unbounded case space.", "anchors": ["rstsr-common/src/layout/indexer.rs: IndexerDynamicAPI::dim_narrow"]}
{"id": "C10", "title": "Integer selection on an axis", "statement": "dim_select(axis, i) succeeds exactly when axis and i are in range (negatives count from the end), drops that axis, and the element at an index is the old element with i inserted at that axis.", "quantifier": "every layout, signed axis, signed index", "why_tests_cant": "Universal over ranks, positions and offsets.", "anchors": ["rstsr-common/src/layout/indexer.rs: dim_select, dim_chop"]}
{"id": "C11", "title": "Inserting and removing unit axes", "statement": "expand_dims/newaxis inserts an axis of length 1 at the requested place without changing which storage position an element lives at; squeeze on unit axes removes exactly those axes, rejects axes whose length is not 1, and undoes expand_dims.", "quantifier": "every layout, every axis list in range", "why_tests_cant": "Round trips must hold for every rank, stride pattern (row- or column-preferring) and axis set.", "anchors": ["rstsr-common/src/layout/indexer.rs: dim_insert, dim_eliminate", "rstsr-core/src/tensor/manipulation/expand_dims.rs", "rstsr-core/src/tensor/manipulation/squeeze.rs"]}
{"id": "C12", "title": "Multi-axis slicing with ellipsis and newaxis", "statement": "slicing by a list of slices, integers, newaxis and at most one ellipsis equals applying each entry to its own axis with the ellipsis (or the end of the list) standing for the missing full slices; lists with two ellipses or more slices and integers than axes are rejected.", "quantifier": "every layout and every indexer list", "why_tests_cant": "The entries are processed in reverse with a moving axis counter; the equivalence quantifies over all lists.", "anchors": ["rstsr-common/src/layout/indexer.rs: dim_slice", "rstsr-core/src/tensor/indexing.rs: into_slice_f"]}
{"id": "C13", "title": "Every chain of view operations stays inside storage", "statement": "Starting from a tensor accepted by Tensor::new, after any finite sequence of successful view operations (transpose, axis reversal, swap, slicing, selection, unit-axis insertion and removal, flip, broadcasting, diagonal, axis splitting, no-copy reshape) every in-range index still addresses a position inside the original storage.", "quantifier": "all histories of view operations of any length", "why_tests_cant": "It is an invariant over unbounded histories; the operations build layouts with unchecked constructors.", "anchors": ["rstsr-common/src/layout/layoutbase.rs", "rstsr-common/src/layout/indexer.rs", "rstsr-common/src/layout/broadcast.rs", "rstsr-common/src/layout/reshape.rs", "rstsr-core/src/tensorbase.rs: TensorBase::new_unchecked"]}
{"id": "C14", "title": "flip reverses exactly the requested axes", "statement": "flip(axes) keeps the shape and the element at an index is the old element whose coordinate on each listed axis of length d is d-1-i; flipping twice restores every element.", "quantifier": "every layout, axis list and index", "why_tests_cant": "Zero-length axes and already negative strides make the edge cases unbounded.", "anchors": ["rstsr-core/src/tensor/manipulation/flip.rs: into_flip_f", "rstsr-common/src/layout/indexer.rs: dim_narrow"]}
{"id": "C15", "title": "diagonal selects the k-th diagonal", "statement": "diagonal(offset, axis1, axis2) returns a view with the two axes removed and a last axis holding the elements whose (axis1, axis2) coordinates are (i, i+offset) (or (i-offset, i) for negative offset), of length max(0, min(d1, d2-offset)) (respectively max(0, min(d1+offset, d2))).", "quantifier": "every layout with at least two axes, every signed offset", "why_tests_cant": "The length formula must hold for every rectangular shape and every offset.", "anchors": ["rstsr-common/src/layout/layoutbase.rs: Layout::diagonal", "rstsr-core/src/tensor/indexing.rs: into_diagonal_f"]}
{"id": "C16", "title": "Broadcast shape is the NumPy rule", "statement": "broadcast_shape aligns shapes at the right (row-major) or left (column-major), succeeds exactly when every aligned pair is equal or contains a 1, and yields the other length; the result is commutative, associative, idempotent and has the empty shape as unit.", "quantifier": "every pair or triple of shapes of any ranks", "why_tests_cant": "Algebraic laws and an exact accept condition over all shapes.", "anchors": ["rstsr-common/src/layout/broadcast.rs: broadcast_shape"]}
{"id": "C17", "title": "Broadcast layout repeats elements", "statement": "broadcast_layout gives both layouts the broadcast shape, and the element of a broadcast operand at an index is the operand's element at the aligned index with every stretched coordinate replaced by 0; no new storage positions are addressed.", "quantifier": "every pair of layouts with compatible shapes, every index", "why_tests_cant": "Ranges over all ranks, alignments and strides.", "anchors": ["rstsr-common/src/layout/broadcast.rs: broadcast_layout, broadcast_layout_to_first, update_layout_by_shape"]}
{"id": "C18", "title": "Broadcastability predicates agree with broadcasting", "statement": "broadcastable_to(a, b) holds exactly when broadcasting a with b succeeds and gives b; broadcastable_from is its converse. Alignment is at the last axis (row-major rule), the only one these predicates implement.", "quantifier": "every pair of shapes", "why_tests_cant": "Agreement of separately coded predicates on an infinite domain.", "anchors": ["rstsr-common/src/layout/broadcast.rs: broadcastable_from, broadcastable_to"]}
{"id": "C19", "title": "Reshape without copy keeps the element order", "statement": "When layout_reshapeable returns a layout, the k-th element in row-major (column-major) order of the new view is the k-th element of the old one, for every k, and it returns an error exactly when the number of elements differs.", "quantifier": "every layout, new shape and order", "why_tests_cant": "The stride-merging algorithm walks groups of axes; correctness for every stride pattern is a loop-invariant argument.", "anchors": ["rstsr-common/src/layout/reshape.rs: layout_reshapeable, quick_check, attempt_nocopy_reshape"]}
{"id": "C20", "title": "Inference of the -1 dimension", "statement": "reshape_substitute_negatives: with exactly one -1 the returned shape has the requested total size and equals the argument at every other place; without negative entries the argument is returned unchanged (its size is checked by the reshape itself); two or more negative entries, entries below -1 and sizes not divisible by the product of the other entries are rejected with an error.", "quantifier": "every list of signed dimensions and every size", "why_tests_cant": "Exactness of accept/reject over all integers.", "anchors": ["rstsr-common/src/layout/reshape.rs: reshape_substitute_negatives"]}
{"id": "C21", "title": "Reshape with copy always succeeds for equal sizes", "statement": "reshape (change_shape) to any shape with the same number of elements succeeds and the k-th element in the chosen order is unchanged, whether or not a copy was made; with copy=false it errors instead of copying.", "quantifier": "every tensor, new shape, order and copy flag", "why_tests_cant": "Two very different code paths (view or copy) must agree for all inputs.", "anchors": ["rstsr-core/src/tensor/manipulation/reshape.rs: change_shape_with_args_f"]}
{"id": "C22", "title": "Layout iterators visit each element once in order", "statement": "Iterating a layout in row-major (column-major) order yields exactly the addresses of all in-range indices, each once, in lexicographic (reverse-lexicographic) order, and the reported length equals the number of remaining items at every moment.", "quantifier": "every layout, every prefix of the iteration", "why_tests_cant": "The odometer update has special code for ranks 0 to 4 and a general loop; the claim is over all shapes.", "anchors": ["rstsr-common/src/layout/iterator.rs: IterLayoutColMajor, IterLayoutRowMajor, next_iter_index"]}
{"id": "C23", "title": "Double-ended iteration under every interleaving", "statement": "For every sequence of next and next_back calls, the items returned by next followed by the reverse of those returned by next_back, together with the remaining middle, is the forward sequence: nothing is skipped or repeated.", "quantifier": "every layout and every interleaving of front and back calls", "why_tests_cant": "Number of interleavings is exponential and unbounded.", "anchors": ["rstsr-common/src/layout/iterator.rs: next, next_back, back_iter_index"]}
{"id": "C24", "title": "Splitting an iterator partitions it", "statement": "split_at(k) yields two iterators whose items concatenated are the items of the original; so any recursive splitting, as a work-stealing scheduler does it, visits the same items in the same left-to-right order.", "quantifier": "every layout, split position and split tree", "why_tests_cant": "The set of split trees chosen by a scheduler is unbounded and differs between runs.", "anchors": ["rstsr-common/src/layout/iterator.rs: split_at", "rstsr-common/src/par_iter.rs"]}
{"id": "C25", "title": "Indexed iteration pairs each index with its element", "statement": "Indexed iterators return pairs (index, element) where the element is the tensor's element at that index, for front and for back calls.", "quantifier": "every layout and call sequence", "why_tests_cant": "Pairing must hold at each step of any call sequence.", "anchors": ["rstsr-common/src/layout/iterator.rs: IndexedIterLayout", "rstsr-core/src/tensor/iterator_elem.rs: IndexedIterVecView"]}
{"id": "C26", "title": "Order-relaxed iteration covers the same elements", "statement": "Iterating in K order visits every in-range index exactly once (a permutation of the row-major visit); the axis permutation it reports rearranges the layout back to the original, up to flipped axes.", "quantifier": "every layout accepted by Layout::new", "why_tests_cant": "Axis sorting and flipping depend on strides in data-dependent ways.", "anchors": ["rstsr-common/src/layout/rearrangement.rs: greedy_layout, reversed_permute", "rstsr-common/src/layout/iterator.rs: IterLayout::new"]}
{"id": "C27", "title": "Unravel and ravel are inverse", "statement": "For every linear position below the size, unravelling by row-major (column-major) order gives an in-range index whose rank is that position, for the fixed-rank and the dynamic-rank code alike.", "quantifier": "every shape without zero lengths and every position", "why_tests_cant": "Mixed-radix inversion for all ranks.", "anchors": ["rstsr-common/src/layout/shape.rs: unravel_index_f, unravel_index_c"]}
{"id": "C28", "title": "Joint reordering keeps operands paired", "statement": "When several layouts of the same shape are translated for joint traversal, the k-th visited positions of all operands belong to one common index, and every index is visited exactly once; layouts of different shapes are rejected.", "quantifier": "every list of layouts and every traversal order accepted", "why_tests_cant": "A pairing error shows only for particular stride combinations out of infinitely many.", "anchors": ["rstsr-common/src/layout/rearrangement.rs: translate_to_col_major, translate_to_col_major_with_contig"]}
{"id": "C29", "title": "Contiguous inner-loop shortcut changes nothing", "statement": "Splitting off the common contiguous leading axes and running an inner loop over a flat block visits exactly the same tuples of storage positions as visiting every index.", "quantifier": "every list of layouts with equal shape", "why_tests_cant": "The shortcut is taken depending on strides and block sizes; equality must hold for all of them.", "anchors": ["rstsr-common/src/layout/rearrangement.rs: translate_to_col_major_with_contig", "rstsr-native-impl/src/cpu_serial/assignment.rs", "rstsr-native-impl/src/cpu_serial/op_with_func.rs"]}
{"id": "C30", "title": "Element-wise binary operations compute f at every index", "statement": "For operands with compatible shapes, the result of a binary operation has the broadcast shape and its element at each index is f applied to the operands' (broadcast) elements at that index; incompatible shapes give an error.", "quantifier": "every pair of tensors, layouts, element type and function", "why_tests_cant": "Every combination of strides, offsets, broadcasting and contiguity selects a different traversal.", "anchors": ["rstsr-core/src/tensor/operators/op_binary_arithmetic.rs", "rstsr-native-impl/src/cpu_serial/op_with_func.rs: op_mutc_refa_refb_func_cpu_serial", "rstsr-common/src/layout/rearrangement.rs: get_layout_for_binary_op"]}
{"id": "C31", "title": "Output buffers of binary operations are completely initialised", "statement": "The output layout chosen for a binary operation has the common shape, is accepted by the layout checks, and every cell of the allocated uninitialised buffer is written before it is read as initialised data.", "quantifier": "every pair of layouts of the same shape", "why_tests_cant": "Reading an uninitialised cell is undefined behaviour; absence must hold for all layouts.", "anchors": ["rstsr-common/src/layout/rearrangement.rs: get_layout_for_binary_op", "rstsr-core/src/tensor/operators/op_binary_arithmetic.rs"]}
{"id": "C32", "title": "In-place element-wise operations", "statement": "a op= b (b broadcastable to a, a without stride-0 axes) sets each element of a to f(a,b) at that index and leaves every storage cell not addressed by a unchanged; if b is not broadcastable to a's shape an error is returned and a is unchanged.", "quantifier": "every pair of tensors and function", "why_tests_cant": "Frame conditions concern all untouched cells for all layouts.", "anchors": ["rstsr-core/src/tensor/operators/op_binary_assign.rs", "rstsr-native-impl/src/cpu_serial/op_with_func.rs: op_muta_refb_func_cpu_serial"]}
{"id": "C33", "title": "Assignment copies and frames", "statement": "a.assign(b) makes a's element at each index equal to b's (broadcast) element and changes no other storage cell; a with stride-0 axes is rejected; fill(v) sets exactly a's elements to v.", "quantifier": "every pair of tensors", "why_tests_cant": "Same as above, over all layouts and overlapping fast paths.", "anchors": ["rstsr-core/src/tensor/assignment.rs", "rstsr-native-impl/src/cpu_serial/assignment.rs"]}
{"id": "C34", "title": "Copy between different shapes preserves order", "statement": "assign_arbitary between layouts with the same number of elements makes the k-th element (in the device order) of the destination equal to the k-th element of the source.", "quantifier": "every pair of layouts with equal size, both orders", "why_tests_cant": "Traversal of two unrelated shapes in lock step over all shapes.", "anchors": ["rstsr-native-impl/src/cpu_serial/assignment.rs: assign_arbitary_cpu_serial"]}
{"id": "C35", "title": "Copies preserve content for every order flag", "statement": "asarray, to_contig, to_layout and into_owned return a tensor with the same shape and the same element at each index; the copy layouts chosen are dense. The flags C and F store the elements in that order, A keeps row-major and column-major tensors and takes the default order for the others, K keeps the order of the elements in memory.", "quantifier": "every tensor and order flag accepted", "why_tests_cant": "Order flags C, F, A, K choose data-dependent layouts.", "anchors": ["rstsr-common/src/layout/rearrangement.rs: layout_for_array_copy", "rstsr-core/src/tensor/asarray.rs", "rstsr-core/src/tensor/manipulation/to_layout.rs", "rstsr-core/src/tensor/manipulation/to_contig.rs", "rstsr-core/src/tensor/ownership_conversion.rs"]}
{"id": "C36", "title": "Unary map", "statement": "map(f) returns a tensor of the same shape whose element at each index is f of the source element; the in-place version applies f once to each stored element and touches nothing else.", "quantifier": "every tensor and function", "why_tests_cant": "Exactly-once application over any layout.", "anchors": ["rstsr-core/src/tensor/map_elementwise.rs", "rstsr-native-impl/src/cpu_serial/op_with_func.rs: op_muta_func_cpu_serial"]}
{"id": "C37", "title": "Parallel element-wise execution equals serial execution", "statement": "For every way the scheduler splits the work and every interleaving of the pieces, the parallel element-wise kernels leave the same storage as the serial kernels.", "quantifier": "every layout, split tree and interleaving of writes", "why_tests_cant": "Thread schedules cannot be enumerated and races need not show up in a run.", "anchors": ["rstsr-native-impl/src/cpu_rayon/op_with_func.rs", "rstsr-native-impl/src/cpu_rayon/assignment.rs", "rstsr-common/src/par_iter.rs"]}
{"id": "C38", "title": "Full reduction equals the fold", "statement": "Reducing all elements with an associative commutative operation and its identity gives the fold over the elements in row-major order, whatever the layout, unrolling or parallel splitting.", "quantifier": "every tensor, every commutative monoid, every split tree", "why_tests_cant": "The eight-way unrolled, block-wise and parallel evaluation orders vary with size and layout.", "anchors": ["rstsr-native-impl/src/cpu_serial/reduction.rs: reduce_all_cpu_serial, unrolled_reduce", "rstsr-native-impl/src/cpu_rayon/reduction.rs"]}
{"id": "C39", "title": "Axis reduction reduces exactly the requested axes", "statement": "Reducing over a set of axes returns a tensor over the remaining axes in order, each element being the fold over the corresponding slice of the input.", "quantifier": "every tensor, axis set and commutative monoid", "why_tests_cant": "The kernel classifies axes by contiguity and broadcasting and takes three different routes.", "anchors": ["rstsr-native-impl/src/cpu_serial/reduction.rs: reduce_axes_cpu_serial", "rstsr-common/src/layout/indexer.rs: dim_split_axes", "rstsr-common/src/layout/rearrangement.rs: get_axes_composition"]}
{"id": "C40", "title": "argmin/argmax return the first extremal index", "statement": "The index returned is in range, its element is extremal with respect to the comparison, and no earlier index in row-major order is equally extremal; empty tensors are rejected.", "quantifier": "every non-empty tensor and every total comparison", "why_tests_cant": "Tie breaking and layout independence for all inputs.", "anchors": ["rstsr-native-impl/src/cpu_serial/reduction.rs: reduce_all_unraveled_arg_cpu_serial"]}
{"id": "C41", "title": "Matrix-product shape rules", "statement": "For operands of any ranks, the layout planner for matmul accepts exactly the NumPy-compatible shape pairs covered by its rules and produces the NumPy result shape; each batch index of the output is paired with the corresponding (broadcast) batch index of both operands.", "quantifier": "every pair of layouts of any rank", "why_tests_cant": "Seven rules by rank, each with broadcasting, over all shapes.", "anchors": ["rstsr-common/src/layout/matmul.rs: LayoutMatMulConfig, layout_matmul_dyn_row_major"]}
{"id": "C42", "title": "Matrix product value", "statement": "matmul_from computes C[i,j] := beta*C[i,j] + alpha*sum_k A[i,k]*B[k,j] for every batch and leaves all other cells unchanged, for any strides of A, B and C.", "quantifier": "every triple of tensors with compatible shapes, any commutative-ring-like element type", "why_tests_cant": "Sum over k for every size and every layout.", "anchors": ["rstsr-native-impl/src/cpu_serial/matmul_naive.rs"]}
{"id": "C43", "title": "vecdot value", "statement": "vecdot along an axis returns for each remaining index the sum of conj(a)*b along that axis, for all (broadcast) layouts.", "quantifier": "every pair of tensors, every axis", "why_tests_cant": "Three code paths by contiguity.", "anchors": ["rstsr-native-impl/src/cpu_serial/vecdot.rs", "rstsr-core/src/tensor/linalg/vecdot.rs"]}
{"id": "C44", "title": "tril and triu keep exactly the requested triangle", "statement": "tril(k) (triu(k)) keeps elements with j <= i+k (j >= i+k), zeroes all other elements of the matrix, and touches no storage outside the matrix.", "quantifier": "every matrix shape, stride, signed k", "why_tests_cant": "Boundary behaviour for every k and rectangular shape.", "anchors": ["rstsr-native-impl/src/cpu_serial/op_tri.rs: tril_ix2_cpu_serial, triu_ix2_cpu_serial"]}
{"id": "C45", "title": "Triangular pack/unpack round trip", "statement": "Packing the lower (upper) triangle of an n-by-n matrix and unpacking with a symmetry flag returns the original for matrices with that symmetry; unpack followed by pack is the identity on packed vectors; the packed length is n(n+1)/2 and other lengths are rejected.", "quantifier": "every n, every layout, every symmetry flag", "why_tests_cant": "Linear position formulas for all n.", "anchors": ["rstsr-native-impl/src/cpu_serial/op_tri.rs", "rstsr-core/src/tensor/operators/op_tri.rs"]}
{"id": "C46", "title": "index_select / take gathers rows", "statement": "index_select(axis, indices) returns a tensor whose axis length is the number of indices and whose slice k on the axis is the input slice at indices[k] (negatives from the end); an out-of-range index is rejected.", "quantifier": "every tensor, axis and index list", "why_tests_cant": "Index lists and layouts are unbounded; fast paths depend on strides.", "anchors": ["rstsr-native-impl/src/cpu_serial/adv_indexing.rs", "rstsr-core/src/tensor/adv_indexing.rs"]}
{"id": "C47", "title": "concat, stack and unstack", "statement": "concat along an axis places the inputs one after another on that axis; stack inserts a new axis; unstack of a stack returns the inputs; shape mismatches and an empty list are rejected.", "quantifier": "every list of tensors and axis", "why_tests_cant": "Any number of inputs of any shape.", "anchors": ["rstsr-core/src/tensor/creation_from_tensor.rs"]}
{"id": "C48", "title": "Axis-argument normalisation", "statement": "normalize_axes_index accepts exactly lists with every axis in -ndim..ndim and, when duplicates are forbidden, without repetition after normalisation; it returns each axis modulo ndim, sorted when requested.", "quantifier": "every axis list and ndim", "why_tests_cant": "Exact accept condition over all integers.", "anchors": ["rstsr-common/src/axis_index.rs: normalize_axes_index", "rstsr-common/src/error.rs: rstsr_check_axis"]}
{"id": "C49", "title": "Blocked order-change copy equals element copy", "statement": "The cache-blocked copy between row-major and column-major matrices writes every destination element with the matching source element, for sizes that are and are not multiples of the block.", "quantifier": "every matrix shape and leading strides", "why_tests_cant": "Block boundaries for all sizes.", "anchors": ["rstsr-native-impl/src/cpu_serial/transpose.rs"]}
{"id": "C50", "title": "arange and linspace values", "statement": "Integer arange(start, end, step) returns start, start+step, ... up to but excluding end, with exactly ceil((end-start)/step) elements, and terminates for every non-zero step.", "quantifier": "every start, end, step", "why_tests_cant": "Boundary and sign combinations are unbounded.", "anchors": ["rstsr-native-impl/src/cpu_serial/creation.rs"]}
{"id": "C51", "title": "Mutation isolation of shared and copy-on-write tensors", "statement": "After any sequence of clone, view, into_owned, into_cow, into_shared and in-place mutation, a mutation through one owner is visible only through handles that share that owner's storage by reference: cloned shared (Arc) and cow tensors keep their values. A conversion to an owned or shared tensor, and a clone of an owned one, leave a storage with exactly as many cells as the tensor has elements.", "quantifier": "all histories of ownership operations and writes", "why_tests_cant": "Aliasing bugs depend on the history of conversions.", "anchors": ["rstsr-core/src/storage/data.rs", "rstsr-core/src/tensor/ownership_conversion.rs"]}
{"id": "C52", "title": "Axis splitting partitions a layout", "statement": "Splitting a layout into selected axes and the rest (dim_split_axes, dim_split_at) gives two layouts such that each full index corresponds to one pair of partial indices with the same storage position; iterating over axes yields each sub-view once.", "quantifier": "every layout and axis list", "why_tests_cant": "All ranks and axis subsets.", "anchors": ["rstsr-common/src/layout/indexer.rs: dim_split_axes, dim_split_at", "rstsr-core/src/tensor/iterator_axes.rs"]}
{"id": "C53", "title": "Layout equality means same elements", "statement": "Layouts that compare equal have the same shape and address the same position at each in-range index; for non-empty shapes and equal offsets the converse holds.", "quantifier": "every pair of layouts", "why_tests_cant": "Strides of unit axes are ignored by the comparison; all layouts must be considered.", "anchors": ["rstsr-common/src/layout/layoutbase.rs: PartialEq for Layout"]}
{"id": "C54", "title": "meshgrid", "statement": "meshgrid of 1-D tensors returns tensors of the common grid shape whose element at a grid index is the input element at the coordinate belonging to that input ('ij' or 'xy' convention).", "quantifier": "any number and lengths of inputs", "why_tests_cant": "Unbounded number of inputs.", "anchors": ["rstsr-core/src/tensor/creation_from_tensor.rs: meshgrid_f"]}
{"id": "C55", "title": "diag builds and extracts diagonals", "statement": "diag of a 1-D tensor returns a square matrix with the input on the k-th diagonal and the default value elsewhere; diag of a 2-D tensor returns its k-th diagonal; diag(diag(v,k),k) = v.", "quantifier": "every length and every signed k", "why_tests_cant": "All k and sizes.", "anchors": ["rstsr-core/src/tensor/creation_from_tensor.rs: diag_f", "rstsr-common/src/layout/layoutbase.rs: diagonal"]}
{"id": "C56", "title": "Scalar and vector extraction", "statement": "to_scalar succeeds exactly for tensors with one element and returns it; to_vec of a 1-D tensor returns its elements in index order for every stride and offset.", "quantifier": "every tensor", "why_tests_cant": "All strides including negative ones.", "anchors": ["rstsr-core/src/tensor/ownership_conversion.rs"]}
{"id": "C57", "title": "Boolean mask selection", "statement": "bool_select(axis, mask) returns exactly the slices whose mask entry is true, in order.", "quantifier": "every tensor, axis and mask", "why_tests_cant": "All masks and lengths.", "anchors": ["rstsr-core/src/tensor/adv_indexing.rs: bool_select_f"]}
{"id": "C58", "title": "tensordot axis plan", "statement": "The subscripts generated for tensordot contract exactly the requested axis pairs and order the free axes of a before those of b.", "quantifier": "all ranks and axis lists", "why_tests_cant": "All axis lists.", "anchors": ["rstsr-common/src/tensordot_to_einsum.rs"]}
{"id": "C59", "title": "Constant tensors", "statement": "zeros, ones and full of a shape, of a layout or like another tensor return a tensor of exactly the requested shape in which every element has the requested value and every element lies inside the storage.", "quantifier": "every shape (empty and fixed-rank ones included), order, valid layout and model tensor", "why_tests_cant": "The storage length must suit every layout: offsets, holes, negative and zero strides.", "anchors": ["rstsr-core/src/tensor/creation.rs: zeros_f, ones_f, full_f, full_like_f"]}
{"id": "C60", "title": "eye", "statement": "eye(m, n, k) in either order is an m by n matrix with ones where column minus row equals k and zeros elsewhere, for every k.", "quantifier": "every m, n, k and order", "why_tests_cant": "Wide, tall and out-of-range diagonals for every size.", "anchors": ["rstsr-core/src/tensor/creation.rs: eye_f", "rstsr-common/src/layout/layoutbase.rs: diagonal"]}
{"id": "C61", "title": "Matrix products on the BLAS devices", "statement": "On the devices backed by a BLAS library (OpenBLAS, MKL, AOCL, BLIS, KML), `matmul_from(A, B, alpha, beta)` leaves beta * C + alpha * A B in C, and `matmul` / `%` returns the product, for every rank, batch shape, stride pattern and device order, whether the device calls gemm in place, calls it on transposed or repacked operands, uses syrk for a product with the own transpose, or falls back to the naive kernel; no cell of C's storage outside C changes, under every schedule of the threads.", "quantifier": "all well-formed operands and results of every rank and layout, all alpha and beta of a commutative semiring, all schedules of the batch loop", "why_tests_cant": "The choice of transposition flags, leading dimensions, repacking, syrk and the result buffer depends on the layouts of three operands; tests run a few contiguous shapes with beta = 0.", "anchors": ["crates-device/rstsr-openblas/src/matmul_impl.rs: gemm_blas_no_conj_*, syrk_blas_no_conj_*", "crates-device/rstsr-openblas/src/matmul.rs: gemm_blas_ix2_no_conj_dispatch, matmul_row_major_blas, DeviceMatMulAPI::matmul", "rstsr-core/src/tensor/linalg/matmul.rs: op_mutc_refa_refb_matmul, op_refa_refb_matmul"]}
{"id": "C62", "title": "Distances between rows", "statement": "`cdist((xa, xb, metric))` returns, for every row of xa and every row of xb, the textbook distance of the metric (Euclidean by default; Minkowski, city block, Canberra, Chebyshev, Bray-Curtis, Hamming, Jaccard, Yule, Dice, Rogers-Tanimoto, Russell-Rao, Sokal-Sneath, cosine, correlation, Jensen-Shannon), and with a weight per column the weighted one, so that an integer weight counts its column that often; for all layouts of the operands, in both orders, with any division of the work among threads and without a race. Operands that do not fit are rejected.", "quantifier": "all matrices of any size and layout, all weight vectors, all metrics, all number types and operations, all schedules", "why_tests_cant": "Batching, the fast path for unit strides and the thread schedule interact for every size; tests compare a few contiguous arrays with SciPy.", "anchors": ["rstsr-sci-traits/src/distance/native_impl.rs: cdist_serial, cdist_weighted_serial, cdist_rayon, cdist_weighted_rayon", "rstsr-sci-traits/src/distance/metric.rs", "rstsr-sci-traits/src/distance/impl_cpu_serial.rs: cdist_f", "rstsr-sci-traits/src/distance/auto_impl_rayon.rs: cdist_f"]}
{"id": "C63", "title": "Common type of two element types", "statement": "An operation on elements of two types first converts both to a common type. The common type is the first type, integers before floats before complex numbers and narrow before wide, that holds the values of both; it does not depend on the order of the operands; the conversion keeps the number, except that a 64-bit integer of more than 53 binary digits that meets a float becomes the nearest double; and `equal`, `less` decide by the numbers themselves.", "quantifier": "all pairs of the 17 element types, all values of both types (every integer, every float with its infinities, zeros and NaN)", "why_tests_cant": "There are 289 pairs of types and up to 2^128 pairs of values for each; tests try a few pairs with small numbers.", "anchors": ["rstsr-dtype-traits/src/promotion.rs: DTypePromoteAPI, DTypeCastAPI, impl_promotion_asable, impl_promotion_complex_primitive_*, impl_promotion_primitive_complex_*", "rstsr-core/src/device_cpu_serial/operators/op_ternary_common.rs: equal, less"]}
{"id": "C64", "title": "Closeness of elements", "statement": "`isclose(a, b)` says whether |a - b| <= atol + rtol |b|: for integers whose differences are below 2^53 it is decided exactly up to the rounding of the tolerance, for floats up to the rounding of one subtraction, one product and one sum; every finite element is close to itself; not-a-number is close to nothing, except to not-a-number if `equal_nan` is set; an infinity is close to the same infinity only; `allclose` of an array with itself holds.", "quantifier": "all pairs of types, all values, all tolerances", "why_tests_cant": "The rounding errors depend on the exponents and last digits of four numbers; the boundary of the tolerance and the extreme values of each type are not in the tests.", "anchors": ["rstsr-dtype-traits/src/isclose.rs: isclose, IsCloseArgs", "rstsr-dtype-traits/src/ext_num.rs: ext_abs, ext_abs_diff, is_nan"]}
{"id": "C65", "title": "Functions of single elements", "statement": "`abs`, `sign`, `real`, `imag`, `signbit`, `floor`, `ceil`, `trunc`, `round`, `maximum`, `minimum`, `floor_divide` and the comparisons give, element by element, what the Array API says of the numbers: the absolute value, the sign, the sign bit, the integer below, above, towards zero and nearest (the even one of two), the larger and the smaller number, the integer below the quotient, and the truth of the comparison. In place and out of place agree.", "quantifier": "all types and pairs of types, all values including infinities, signed zeros and NaN", "why_tests_cant": "The tests use a few small numbers; ties, least values of a type, negative divisors, not-a-number and mixed types are not covered.", "anchors": ["rstsr-dtype-traits/src/ext_num.rs", "rstsr-dtype-traits/src/ext_real.rs: ext_min, ext_max, ext_floor_divide", "rstsr-core/src/device_cpu_serial/operators/op_binary_common.rs", "rstsr-core/src/device_cpu_serial/operators/op_ternary_common.rs"]}
{"id": "C66", "title": "Next number of the 16-bit formats", "statement": "`nextafter(x, y)` of `f16` and `bf16` is the least number of the format above x if x < y, the greatest below x if x > y, and y if they are equal; infinities count as numbers, both zeros are one number, and not-a-number gives not-a-number.", "quantifier": "all pairs of 16-bit words", "why_tests_cant": "2^32 pairs per format; the steps through zero, across exponents, at subnormal numbers and at infinity are rare among them.", "anchors": ["rstsr-dtype-traits/src/ext_float.rs: nextafter_f16, nextafter_bf16"]}
{"id": "C67", "title": "Packing an axis into array elements", "statement": "`into_pack_array::<N>(axis)` turns a tensor whose axis has length N and stride one into a tensor of arrays `[T; N]`: every element is the array of the elements along that axis; `into_unpack_array(axis)` does the reverse; one after the other gives back the same array; and dropping the result gives back exactly the memory that was allocated.", "quantifier": "all well-formed tensors (any number of axes, strides, offset), every N, every axis, every vector length and capacity", "why_tests_cant": "Strides and offsets are divided by N without a check of the strides; whether a layout divides, and whether a vector has spare capacity, depends on the history of the tensor.", "anchors": ["rstsr-core/src/tensor/pack_array.rs: into_pack_array_f, into_unpack_array_f", "rstsr-common/src/pack_array.rs: pack_array_f, unpack_array"]}
{"id": "C68", "title": "Solution of general linear systems", "statement": "`linalg::solve_general(a, b)` for a nonsingular n-by-n matrix `a` and an n-by-m matrix or a vector of length n `b` gives x of the shape of `b` with `a x = b`, whatever the order, strides and offset in which the arguments are stored. Shared arguments are not changed; a mutable `b` holds the result in place and no cell that it does not address changes; of a mutable `a` only its own cells change. A singular `a` is an error, so are shapes that do not fit. No memory outside of the storage is touched.", "quantifier": "all fields of numbers, all sizes, all well-formed layouts of both arguments (strided, reversed, windows, either order), shared or mutable arguments, every LAPACK that does what its documentation says", "why_tests_cant": "The result goes through conversion, transposition into buffers, leading dimensions and copies back that depend on the strides; a test fixes a few layouts.", "anchors": ["rstsr-linalg-traits/src/blas_impl/solve_general.rs: solve_general_f", "rstsr-linalg-traits/src/ref_impl_blas.rs: ref_impl_solve_general_f", "rstsr-blas-traits/src/lapack_solve/gesv.rs: GESV::run", "rstsr-blas-traits/driver_impl/lapack/solve/gesv.rs: driver_gesv", "rstsr-blas-traits/src/util/util_tensor.rs: overwritable_convert", "rstsr-core/src/tensor/tensor_mutable.rs: TensorMutable"]}
{"id": "C69", "title": "Inverse of a matrix", "statement": "`linalg::inv(a)` for a nonsingular square matrix gives x with `a x = 1` and `x a = 1`, whatever the order, strides and offset in which `a` is stored. A shared `a` is not changed; a mutable `a` holds the result in place and no cell that it does not address changes. A singular matrix and an array that is no square matrix are errors.", "quantifier": "all fields of numbers, all sizes, all well-formed layouts (strided, reversed, windows, either order), shared or mutable argument, every LAPACK that does what its documentation says", "why_tests_cant": "Factors and pivots pass through two routines, each with its own conversion and transposition depending on the strides; a test fixes a few layouts and matrices.", "anchors": ["rstsr-linalg-traits/src/blas_impl/inv.rs: inv_f", "rstsr-linalg-traits/src/ref_impl_blas.rs: ref_impl_inv_f", "rstsr-blas-traits/src/lapack_solve/getrf.rs: GETRF::run", "rstsr-blas-traits/src/lapack_solve/getri.rs: GETRI::run", "rstsr-blas-traits/driver_impl/lapack/solve/getri.rs: driver_getri"]}
{"id": "C70", "title": "Determinants", "statement": "`linalg::det(a)` is the determinant of a square matrix, and `linalg::slogdet(a)` a number s of modulus one (zero for a singular matrix) and a real l with `det a = s exp(l)`, whatever the order, strides and offset in which `a` is stored. A shared `a` is not changed; of a mutable `a` only its own cells change. An array that is no square matrix is an error.", "quantifier": "real and complex numbers, all sizes, all well-formed layouts, shared or mutable argument, every schedule of the parallel sums and products, every LAPACK that does what its documentation says", "why_tests_cant": "The sign depends on the parity of the pivots, which takes a different value for each matrix; a test fixes a few.", "anchors": ["rstsr-linalg-traits/src/blas_impl/det.rs: det_f", "rstsr-linalg-traits/src/blas_impl/slogdet.rs: slogdet_f", "rstsr-linalg-traits/src/ref_impl_blas.rs: ref_impl_slogdet_f", "rstsr-blas-traits/src/lapack_solve/getrf.rs: GETRF::run"]}
{"id": "C71", "title": "Cholesky factors", "statement": "`linalg::cholesky(a, uplo)` for a positive definite Hermitian matrix, of which only the triangle named by `uplo` need be stored, gives the triangular matrix F with `F F* = a` (lower) or `F* F = a` (upper) and zeros in the other triangle, whatever the order, strides and offset in which `a` is stored. A shared `a` is not changed; a mutable `a` holds the factor and no cell that it does not address changes. A Hermitian matrix that is not positive definite, and an array that is no square matrix, are errors.", "quantifier": "real and complex numbers, all sizes, all well-formed layouts, either triangle or the default of the device, shared or mutable argument, every LAPACK that does what its documentation says", "why_tests_cant": "The triangle has to follow the transposition that is made for row-major storage, for each combination of storage, triangle and default; a test fixes a few.", "anchors": ["rstsr-linalg-traits/src/blas_impl/cholesky.rs: cholesky_f", "rstsr-linalg-traits/src/ref_impl_blas.rs: ref_impl_cholesky_f", "rstsr-blas-traits/src/lapack_solve/potrf.rs: POTRF::run", "rstsr-blas-traits/driver_impl/lapack/solve/potrf.rs: driver_potrf"]}
{"id": "C72", "title": "Systems with a symmetric or Hermitian matrix", "statement": "`linalg::solve_symmetric(a, b, hermi, uplo)` with a nonsingular symmetric or Hermitian matrix S, of which only the triangle named by `uplo` need be stored in `a`, gives x with `S x = b` for a matrix or a vector b, whatever the order, strides and offset in which they are stored. `a` is not changed; a mutable `b` holds the result and no cell that it does not address changes. A singular matrix and shapes that do not fit are errors.", "quantifier": "real and complex numbers, all sizes and numbers of right-hand sides, all well-formed layouts, either triangle or the default of the device, shared or mutable arguments, every LAPACK that does what its documentation says", "why_tests_cant": "Storage, triangle and default of the device combine to many cases, of which a test fixes a few.", "anchors": ["rstsr-linalg-traits/src/blas_impl/solve_symmetric.rs: solve_symmetric_f", "rstsr-linalg-traits/src/ref_impl_blas.rs: ref_impl_solve_symmetric_f", "rstsr-blas-traits/src/lapack_solve/sysv.rs: SYSV::run", "rstsr-blas-traits/driver_impl/lapack/solve/sysv.rs: driver_sysv"]}
{"id": "C73", "title": "Triangular systems", "statement": "`linalg::solve_triangular(a, b, uplo)` with a triangular matrix T with no zero on the diagonal, of which only the triangle named by `uplo` need be stored in `a`, gives x with `T x = b` for a matrix or a vector b, whatever the order, strides and offset in which they are stored; the builder `TRSM` solves `op(T) x = alpha b` or `x op(T) = alpha b` for each side, each transposition flag and either kind of diagonal. `a` is not changed; a mutable `b` holds the result and no cell that it does not address changes. Shapes that do not fit are errors.", "quantifier": "every field with an involution, all sizes, all well-formed layouts, either triangle or the default of the device, both sides, all transposition flags, every BLAS that does what its documentation says", "why_tests_cant": "Side, triangle, transposition flag, order of storage and order asked for combine to many cases, and layouts that start inside the storage or have gaps are unlimited.", "anchors": ["rstsr-linalg-traits/src/blas_impl/solve_triangular.rs: solve_triangular_f", "rstsr-linalg-traits/src/ref_impl_blas.rs: ref_impl_solve_triangular_f", "rstsr-blas-traits/src/blas3/trsm.rs: TRSM::run, internal_run", "rstsr-blas-traits/src/util/util_tensor.rs: flip_trans"]}
{"id": "C74", "title": "The builder of general products", "statement": "The builder `GEMM` gives `alpha op(A) op(B) + beta C` for all transposition flags, whatever the order, strides and offsets in which the three matrices are stored; without an output it makes one. A given output holds the result and no cell that it does not address changes. Factors that do not fit and an output of another shape are errors. An order that is asked for is the order of the result.", "quantifier": "every field with an involution, all sizes, all well-formed layouts, all transposition flags, with and without an output, every BLAS that does what its documentation says", "why_tests_cant": "The transposition flags, orders and layouts of three matrices combine to many cases; layouts that start inside the storage or have gaps are unlimited.", "anchors": ["rstsr-blas-traits/src/blas3/gemm.rs: GEMM::run, internal_run", "rstsr-blas-traits/src/util/util_tensor.rs: flip_trans", "rstsr-blas-traits/src/util/util_layout.rs: get_output_order"]}
{"id": "C75", "title": "The builders of products with a symmetric or Hermitian matrix", "statement": "The builders `SYMM` and `HEMM` give `alpha S B + beta C` or `alpha B S + beta C` for a symmetric or Hermitian matrix S of which only the named triangle need be stored, whatever the order, strides and offsets in which the matrices are stored. A given output holds the result and no cell that it does not address changes. Shapes that do not fit are errors.", "quantifier": "every field with an involution, all sizes, all well-formed layouts, both triangles, both sides, with and without an output, every BLAS that does what its documentation says", "why_tests_cant": "Triangle, side, order of storage and order of work combine to many cases, of which a test fixes a few.", "anchors": ["rstsr-blas-traits/src/blas3/syhemm.rs: SYHEMM::run, internal_run"]}
{"id": "C76", "title": "Eigenvalues of symmetric and Hermitian matrices", "statement": "`linalg::eigh(a)` of a symmetric or Hermitian matrix S, of which only one triangle (the one named, otherwise the lower one on a row-major and the upper one on a column-major device) need be stored in `a`, gives its eigenvalues in ascending order, each as often as its multiplicity, and orthonormal eigenvectors, column by column; `eigvalsh(a)` gives the eigenvalues only. This holds whatever the order, strides and offset in which `a` is stored; a mutable `a` holds the eigenvectors and no cell that it does not address changes. An array that is not a square matrix is an error; a number reported by LAPACK is passed on. With the arguments as a structure the routine can be chosen by name (another name is an error), and a part of the eigenvalues can be asked for by index or by value.", "quantifier": "real and complex numbers, all sizes, all well-formed layouts, both triangles, both routines, every LAPACK that does what its documentation says", "why_tests_cant": "Layouts, offsets, orders and triangles combine without limit; the unused triangle may contain anything.", "anchors": ["rstsr-linalg-traits/src/blas_impl/eigh.rs: eigh_f", "rstsr-linalg-traits/src/blas_impl/eigvalsh.rs: eigvalsh_f", "rstsr-linalg-traits/src/ref_impl_blas.rs: ref_impl_eigh_simple_f", "rstsr-blas-traits/src/lapack_eigh/syev.rs: SYEV::run", "rstsr-blas-traits/src/lapack_eigh/syevd.rs: SYEVD::run"]}
{"id": "C77", "title": "Generalized eigenvalues", "statement": "`linalg::eigh((a, b))` and `eigvalsh((a, b))` with a symmetric or Hermitian matrix A and a positive definite matrix B, of which only one triangle need be stored, solve `A x = λ B x`, `A B x = λ x` or `B A x = λ x` according to the type 1, 2 or 3: the eigenvalues are in ascending order, each as often as its multiplicity, the eigenvectors normalized so that `Vᴴ B V = 1` (types 1 and 2) or `Vᴴ B⁻¹ V = 1` (type 3). A matrix B that is not positive definite, another type, and arrays that are not square matrices of the same size are errors.", "quantifier": "real and complex numbers, all sizes, all well-formed layouts of both matrices, both triangles, the three types, both routines, every LAPACK that does what its documentation says", "why_tests_cant": "Two layouts, two orders, triangle and type combine without limit.", "anchors": ["rstsr-linalg-traits/src/blas_impl/eigh.rs: eigh_f", "rstsr-linalg-traits/src/blas_impl/eigvalsh.rs: eigvalsh_f", "rstsr-linalg-traits/src/ref_impl_blas.rs: ref_impl_eigh_simple_f", "rstsr-blas-traits/src/lapack_eigh/sygv.rs: SYGV::run", "rstsr-blas-traits/src/lapack_eigh/sygvd.rs: SYGVD::run"]}
{"id": "C78", "title": "Singular value decomposition", "statement": "`linalg::svd(a)` of an m by n matrix A gives unitary matrices U and Vᴴ and the singular values S, not negative and in descending order, with A = U · diag(S) · Vᴴ; without full matrices U has min(m, n) columns and Vᴴ has min(m, n) rows, orthonormal. `svdvals(a)` gives the same singular values. This holds whatever the order, strides and offset in which `a` is stored and whichever routine is chosen by name; `a` is left as it was. An array that is not a matrix and an unknown name of a routine are errors; a number reported by LAPACK is passed on.", "quantifier": "real and complex numbers, all sizes, all well-formed layouts, full and thin, both routines, every LAPACK that does what its documentation says", "why_tests_cant": "Layouts, offsets, orders and shapes combine without limit, and tall, wide and square matrices take different leading dimensions.", "anchors": ["rstsr-linalg-traits/src/blas_impl/svd.rs: svd_f", "rstsr-linalg-traits/src/blas_impl/svdvals.rs: svdvals_f", "rstsr-linalg-traits/src/ref_impl_blas.rs: ref_impl_svd_simple_f", "rstsr-blas-traits/src/lapack_svd/gesvd.rs: GESVD::run", "rstsr-blas-traits/src/lapack_svd/gesdd.rs: GESDD::run"]}
{"id": "C79", "title": "Pseudo-inverse", "statement": "`linalg::pinv(a)` of an m by n matrix gives the n by m matrix P that satisfies the four equations of Moore and Penrose for the matrix without the singular values up to the tolerance, and the number of singular values above it. The tolerance is the absolute one plus the relative one times the largest singular value; by default zero and max(m, n) times the machine epsilon. If all singular values up to the tolerance are zero, P is the pseudo-inverse of the matrix itself and the number is its rank; the pseudo-inverse is unique, and that of an invertible matrix is its inverse. This holds whatever the order, strides and offset in which `a` is stored and whatever the default order of the device. An array that is not a matrix is an error; a number reported by LAPACK is passed on.", "quantifier": "real and complex numbers, all sizes, all well-formed layouts, all tolerances, every LAPACK and BLAS that do what their documentation says", "why_tests_cant": "Layouts, orders, shapes, ranks and tolerances combine without limit, and a matrix of rank zero is easily forgotten.", "anchors": ["rstsr-linalg-traits/src/blas_impl/pinv.rs: pinv_f", "rstsr-linalg-traits/src/ref_impl_blas.rs: ref_impl_pinv_f"]}
{"id": "C80", "title": "Minimum and maximum of floating-point tensors", "statement": "`min` and `max` over all elements of a floating-point tensor return the number of an element, and no element is below the minimum or above the maximum; elements that are not a number do not count. A tensor without elements is an error.", "quantifier": "every format of floating-point numbers, every tensor with any mix of numbers, zeros, infinities and not-a-number, the serial device and every schedule of the parallel one", "why_tests_cant": "The start value of the reduction is a number of the format, so the result depends on which elements there are; the order of evaluation changes with layout and schedule.", "anchors": ["rstsr-dtype-traits/src/ext_real.rs: ext_min, ext_max, ext_min_value, ext_max_value", "rstsr-core/src/device_cpu_serial/reduction.rs: OpMinAPI, OpMaxAPI"]}
{"id": "C81", "title": "Matrix products on the faer device", "statement": "On the device backed by faer, which is the default device, `matmul_from(A, B, alpha, beta)` leaves beta * C + alpha * A B in C, and `matmul` / `%` returns the product, for every rank, batch shape, stride pattern, device order, alpha and beta, empty sums and empty results included, whether the device multiplies C by beta first, computes one triangle of a product with the own transpose and copies it, or falls back to the naive kernel; no cell of C's storage outside C changes, under every schedule of the threads.", "quantifier": "all well-formed operands and results of every rank and layout, all alpha and beta of a commutative semiring, all schedules of the batch loop, every faer whose two product functions do what their documentation says", "why_tests_cant": "The way through the code depends on beta, on whether both factors share their storage and on the number of batches and threads; tests run a few contiguous shapes with beta = 0.", "anchors": ["rstsr-core/src/device_faer/matmul.rs: gemm_faer_ix2_dispatch, matmul_row_major_faer, DeviceMatMulAPI::matmul", "rstsr-core/src/device_faer/matmul_impl.rs: gemm_faer, syrk_faer, gemm_with_syrk_faer"]}
{"id": "C82", "title": "Cholesky factor, determinant, inverse and linear systems on the faer device", "statement": "On the faer device `cholesky` reads one triangle of a matrix, chosen by the argument or by the order of the device, and returns the factor of the Hermitian matrix with this triangle if it is positive definite and an error if not; `det` returns the determinant of every square matrix; `inv` returns the inverse of a nonsingular matrix; `solve_general`, `solve_symmetric` and `solve_triangular` return the solution of A X = B, in the storage of B if it is given by a mutable reference, and change nothing else there; arguments of the wrong shape and singular matrices are errors.", "quantifier": "all well-formed matrices of every size and layout, real and complex, all numbers of right sides, every faer that does what its documentation says, every leading dimension faer chooses for its results", "why_tests_cant": "Tests compare a few sums of entries for one contiguous matrix; the layouts of both operands, the leading dimension of the results of faer and the order of the device vary independently.", "anchors": ["rstsr-linalg-traits/src/faer_impl/{cholesky,det,inv,solve_general,solve_symmetric,solve_triangular}.rs: faer_impl_*", "rstsr-core/src/device_faer/conversion.rs: into_faer, into_rstsr"]}
{"id": "C83", "title": "Eigenvalues of Hermitian matrices on the faer device", "statement": "On the faer device `eigh` and `eigvalsh` of one matrix read one triangle and return the eigenvalues of the Hermitian matrix with this triangle in ascending order, and an orthonormal basis of eigenvectors; `eigh` of two matrices does so for the problems A x = l B x, A B x = l x and B A x = l x with A Hermitian and B positive definite, with eigenvectors normalised by B or its inverse; an iteration that does not converge, a B that is not positive definite and arguments of the wrong shape are errors.", "quantifier": "all well-formed matrices of every size and layout, real and complex, three problem types, both triangles and device orders, every faer that does what its documentation says", "why_tests_cant": "The reduction to the problem of one matrix is a chain of triangular systems with a transposed factor whose correctness depends on the type of the problem; tests check one matrix of one layout per type.", "anchors": ["rstsr-linalg-traits/src/faer_impl/eigh.rs: faer_impl_eigh_simple_f, faer_impl_eigh_general_f", "rstsr-linalg-traits/src/faer_impl/eigvalsh.rs: faer_impl_eigvalsh_f"]}
{"id": "C84", "title": "Singular values and pseudo-inverse on the faer device", "statement": "On the faer device `svd` returns matrices U and Vᴴ with orthonormal columns and rows and the singular values in descending order with A = U Σ Vᴴ, full or thin as asked; `svdvals` returns the singular values; `pinv` returns the pseudo-inverse of the matrix left when singular values not above atol + rtol·max are set to zero, with their number as the rank, which is the pseudo-inverse of A itself if no nonzero singular value is cut; a decomposition that does not converge and arguments that are not matrices are errors.", "quantifier": "all well-formed matrices of every shape and layout, zero matrices included, real and complex, full and thin, all tolerances, every faer that does what its documentation says", "why_tests_cant": "Tests use a real square matrix, for which transpose and conjugate transpose are the same, and check sums of entries; shape, layout, rank and tolerance vary independently.", "anchors": ["rstsr-linalg-traits/src/faer_impl/{svd,svdvals,pinv}.rs: faer_impl_svd_f, faer_impl_svdvals_f, faer_impl_pinv_f"]}
{"id": "C85", "title": "Linear algebra on the faer device leaves the thread setting alone and stays on its device", "statement": "A call of a linear algebra function on the faer device leaves faer's global number of threads as it found it, whether it succeeds or fails and whatever other threads call at the same time; its results are on the device of the argument, so that they can be combined with the argument; converting a matrix to faer and back, and moving a tensor to another device, keeps shape and every element.", "quantifier": "all numbers of calls, all schedules of calls in several threads, successful and failing, inside and outside of worker threads; all devices; all well-formed tensors, for the conversion all strides", "why_tests_cant": "Which interleaving occurs is up to the scheduler, and tests run with the default device only, for which a result on the default device looks right.", "anchors": ["rstsr-linalg-traits/src/faer_impl/cholesky.rs: faer_impl_cholesky_f (set_global_parallelism)", "rstsr-core/src/device_faer/conversion.rs: into_faer, into_rstsr, change_device, into_device, to_device", "rstsr-core/src/feature_rayon/device.rs: get_current_pool"]}
{"id": "C86", "title": "Printing shows the elements in logical order", "statement": "The text of a tensor (`{}`, `{:e}`, `{:?}`) is determined by its shape, its elements and the two limits alone: nested brackets, rows and blocks in row-major order of the logical index, each below the bracket it belongs to; axes longer than the limit show the first and last few parts with an ellipsis for those left out; tensors with the same array print the same whatever the layout; opening and closing brackets match; nothing is left out of small tensors; printing ends.", "quantifier": "all well-formed tensors of every rank, shape and layout, negative strides and gaps included, all limits, all element types and texts of elements", "why_tests_cant": "The function walks by calling itself with an index stack and running offset; the tests only print, they assert nothing; ranks, layouts and limits vary independently.", "anchors": ["rstsr-core/src/format/format_tensor.rs: print_vec_with_layout_dfs_inner, print_vec_with_layout_generic, Display, Debug"]}
{"id": "C87", "title": "Lebedev rules integrate polynomials over the sphere", "statement": "For every order `lebedev_rule` accepts it returns as many points as the degree, as a row-major (m, 3) matrix and a vector of m weights with every cell written; every point lies on the unit sphere; exchanging coordinates or changing the sign of one maps the weighted points to themselves; and for every polynomial of total degree at most the order the weighted sum is the mean over the sphere, with a relative error of at most 4e-15 in exact arithmetic with the decimal constants of the source (so odd monomials give exactly zero and the weights sum to one). `lebedev_rule_from_degree` gives the same rule; anything else is an error and never a panic.", "quantifier": "all orders and degrees, all polynomials in three variables of degree up to the order", "why_tests_cant": "The repository has one test that prints a rule; a wrong digit in one of about 1250 rows of constants, or a wrong sign in one of 122 points, changes only some polynomials, and there are infinitely many polynomials.", "anchors": ["rstsr-sci-traits/src/integrate/lebedev.rs: lebedev_generate_sph_oh, lebedev_make_angular_grid, lebedev_rule, lebedev_rule_from_degree_f", "rstsr-sci-traits/src/integrate/impl_cpu_serial.rs: lebedev_rule_f", "rstsr-sci-traits/src/integrate/auto_impl_rayon.rs: lebedev_rule_f"]}
{"id": "C88", "title": "Documented Lebedev orders and degrees", "statement": "The orders and degrees `lebedev_rule` documents are exactly the ones it accepts, and the two translations between order and degree are inverse to each other.", "quantifier": "all orders and degrees", "why_tests_cant": "It is a statement about every number, accepted or not; nothing in the repository compares the two tables or the documentation.", "anchors": ["rstsr-sci-traits/src/integrate/lebedev.rs: lebedev_rule, lebedev_order_to_degree, lebedev_degree_to_order"]}
{"id": "C89", "title": "with_blas_num_threads restores the number of threads", "statement": "On the BLAS devices the body given to `with_blas_num_threads(n, body)` runs while the library uses n threads, and once the body has returned the number is the one before the call, for nested calls, for settings inside the body, and when other threads do the same at the same time.", "quantifier": "all programs of reads, settings, nested scopes and panics, in any number of threads, all schedules, all libraries", "why_tests_cant": "The number is shared by threads; whether two calls disturb each other depends on the interleaving of their reads and writes, which a test does not control.", "anchors": ["crates-device/rstsr-openblas/src/threading.rs: with_num_threads, set_num_threads, get_num_threads", "crates-device/rstsr-mkl/src/threading.rs", "crates-device/rstsr-blis/src/threading.rs", "crates-device/rstsr-aocl/src/threading.rs", "crates-device/rstsr-kml/src/threading.rs", "crates-device/rstsr-openblas/src/matmul.rs: gemm_row_major"]}
{"id": "C90", "title": "Tensors made of given values", "statement": "`asarray` of a vector, a slice or a mutable slice with a shape gives the tensor of this shape whose element at an index is the value at the rank of the index in the default order of the device, and an error if the number of values is not the number of elements; with a layout, the value at the position of the layout, and an error if a position is outside; without either, the one-dimensional tensor that `to_vec` turns back into the vector; of a number, the tensor without axes. `tensor_from_nested!` gives at [i, j, ...] the value arr[i][j]... on every device.", "quantifier": "all vectors, shapes, layouts, orders, nested arrays of any depth", "why_tests_cant": "The examples of the documentation use six values and two axes; the claim is about every shape, zero lengths and both orders.", "anchors": ["rstsr-core/src/tensor/asarray.rs: asarray_f", "rstsr-core/src/tensor/creation.rs: from_nested_array, tensor_from_nested"]}
{"id": "C91", "title": "Views of another shape or rank", "statement": "`to_compatible_shape` shows the same memory in another shape with the elements in the same sequence of the given order and succeeds whenever some strides can do that; otherwise it is an error and nothing is copied. `into_shape_assume_contig` succeeds exactly for contiguous tensors of the same size. `into_dim` and `into_dyn` change nothing and a wrong fixed rank is an error. `matrix_transpose` exchanges the last two indices.", "quantifier": "all tensors, layouts, shapes, orders, ranks", "why_tests_cant": "Whether a shape is compatible depends on all lengths and strides together; tests check a few slices.", "anchors": ["rstsr-core/src/tensor/manipulation/into_compatible_shape.rs: into_compatible_shape_f, into_shape_assume_contig_f", "rstsr-core/src/tensor/manipulation/into_dim.rs: into_dim_f", "rstsr-core/src/tensor/linalg/matrix_transpose.rs: into_matrix_transpose_f"]}
{"id": "C92", "title": "Einsum and tensordot by TBLIS", "statement": "`einsum` of tensors with any layouts gives a new tensor on their device, in the device's order, whose elements are the sums over the labels not in the result of the products of the operands' elements; `einsum_with_output` and `einsum_from` put the same sums into the output and change no other cell. `tensordot` gives the other axes of the first operand and then those of the second, and sums the products over the paired axes. No operands, different devices and wrong axes are errors. The library runs with the threads of the device, with one in a worker thread, and has its former number of threads afterwards, also after an error.", "quantifier": "all numbers of operands, ranks, shapes, layouts, subscripts that fit, axes, orders, thread numbers", "why_tests_cant": "The tests compare two contractions of contiguous tensors; layouts, orders, axes and outputs combine without limit, and the threads of the library after a call are not looked at.", "anchors": ["crates-plugin/rstsr-tblis/src/einsum_impl.rs: einsum_f, einsum_with_output_f, einsum_from_f", "crates-plugin/rstsr-tblis/src/tensordot_impl.rs: tensordot_f, tensordot_with_output_f", "rstsr-common/src/tensordot_to_einsum.rs: tensordot_to_einsum_str"]}
{"id": "C93", "title": "Selecting and joining on the parallel device", "statement": "`index_select`, `bool_select` and `concat` on the parallel device return exactly what they return on the serial device, the errors included, for every schedule and every interleaving of the threads; no two of the threads that they start access the same cell.", "quantifier": "all tensors, axes, index lists, masks, lists of tensors, orders, divisions of the loops over threads, interleavings", "why_tests_cant": "A test sees one schedule of one machine; a race between the threads that fill a block shows only in some of them.", "anchors": ["rstsr-core/src/feature_rayon/auto_impl/ (OpAssignAPI, index_select)", "rstsr-native-impl/src/cpu_rayon/index_select.rs: index_select_cpu_rayon", "rstsr-native-impl/src/cpu_rayon/assignment.rs: assign_arbitary_uninit_cpu_rayon", "rstsr-core/src/tensor/manipulation/concat: concat_f"]}
{"id": "C94", "title": "Maps with a function that has a state", "statement": "`map_fnmut`, `mapb_fnmut` and `mapi_fnmut` (and the forms by value) call the function exactly once for every index of the result, respectively for every stored element of the tensor, one call after the other. The result holds at every index what the call for that index returned; in place, every stored element is replaced by what its call returned and nothing else changes.", "quantifier": "all tensors, layouts, shapes that fit together, functions, states", "why_tests_cant": "The order of the calls and the sharing of cells depend on the layouts of all operands; a test with a pure function cannot see how often and in which state it is called.", "anchors": ["rstsr-core/src/tensor/map_elementwise.rs: map_fnmut_f, mapv_fnmut_f, mapi_fnmut_f, mapvi_fnmut_f, mapb_fnmut_f, mapvb_fnmut_f", "rstsr-native-impl/src/cpu_serial/op_with_func.rs"]}
{"id": "C95", "title": "Arguments of every integer type", "statement": "Axes, indices, bounds of slices and axis pairs may be given as numbers of any of the types usize, isize, u32, u64, i32, i64. A number that the function can represent arrives unchanged whatever its type, so the call means the same for all types; a number that it cannot represent is reported as an error and is never replaced by another number.", "quantifier": "all numbers of all the types, all word sizes, all lists and tuples of them, all layouts indexed", "why_tests_cant": "The tests give small literals, for which every conversion is the identity; wrapping shows only at the ends of the ranges and on other word sizes.", "anchors": ["rstsr-common/src/axis_index.rs: AxesIndex conversions, impl_from_tuple_to_axes_index", "rstsr-common/src/axes_pair_index.rs: AxesPairIndex conversions", "rstsr-common/src/layout/indexer.rs: Indexer conversions", "rstsr-common/src/layout/slice.rs: Slice conversions"]}
{"id": "C96", "title": "Memory of new tensors", "statement": "The memory that a new tensor gets holds all its elements, is aligned for them (and to 64 bytes from 128 elements on), and overlaps nothing that is in use; no other memory changes. It is there whenever the allocator has memory of the needed size, and missing memory is an error. Dropping the tensor gives the memory back exactly as it was asked for.", "quantifier": "all numbers of elements, element sizes and alignments, allocators that keep their contract, states of the heap, word sizes", "why_tests_cant": "Common allocators do not check how memory is given back, and sizes near the end of the address space cannot be tried out.", "anchors": ["rstsr-common/src/alloc_vec.rs: uninitialized_vec, unaligned_uninitialized_vec, aligned_alloc, aligned_uninitialized_vec"]}
{"id": "C97", "title": "Iteration over the elements", "statement": "iter, iter_mut, indexed_iter and indexed_iter_mut give every element of the tensor once, in the order asked for (or the order of the device), with an exact length, from both ends, after any calls and any splitting; indices come with their own element. A function called through iter_mut is called once per element in that order and changes nothing else. Mutable iteration never hands out one cell twice, so that on several threads the result is the one of the sequential loop, for every division and every interleaving.", "quantifier": "all tensors and layouts, orders, functions with a state, histories of calls and splits, divisions by the scheduler and interleavings of threads", "why_tests_cant": "Data races and references to one cell depend on the layout and the schedule; a test sees one division and one interleaving.", "anchors": ["rstsr-core/src/tensor/iterator_elem.rs: iter_with_order, iter_mut_with_order, indexed_iter_with_order, indexed_iter_mut_with_order, split_at", "rstsr-core/src/feature_rayon/par_iter.rs: into_par_iter", "rstsr-common/src/par_iter.rs: ParIterRSTSR"]}
{"id": "C98", "title": "Sizes and positions in machine words", "statement": "With usize and isize of any number of bits, in builds with and without overflow checks, sizes, bounds, strides, contiguity and positions are the mathematical ones, or the call is refused: a tensor whose elements would lie outside of its storage is never accepted, and a new tensor gets as many cells as it has elements.", "quantifier": "all word sizes, build profiles, shapes, strides, offsets, storages and indices", "why_tests_cant": "The overflows need lengths and strides near the limits of the word, alone and in products; the tensors are too big to be built in a test.", "anchors": ["rstsr-common/src/layout/layoutbase.rs: size, bounds_index, check_strides, index_f, index_uncheck, f_contig, c_contig, new_contig", "rstsr-common/src/layout/shape.rs: stride_f_contig, stride_c_contig", "rstsr-core/src/tensorbase.rs: new_f", "rstsr-core/src/tensor/creation.rs: zeros, uninit"]}
{"id": "C99", "title": "Programs of views, reads and writes compute what the same programs on arrays compute", "statement": "Take any program that makes views of tensors by any chains of transposes, slices, flips, new and removed axes, broadcasts and diagonals, writes through them (fill, assign, op= with numbers and tensors, maps in place), reshapes tensors and makes new tensors from them (elementwise functions, reshapes, selections of indices, concatenations, sums, sums along axes, matrix products). After every statement each tensor holds the array that the same statement gives on arrays without storage: the elements a view stands for have changed, no other element has, and no other tensor has. The result does not depend on the strides, offsets and storage of the tensors.", "quantifier": "all programs of any length, numbers of tensors, chains of view calls, shapes, strides, offsets, storages, element types and functions", "why_tests_cant": "A wrong stride or offset shows only for some combinations of calls and layouts; the chains and programs are unbounded.", "anchors": ["rstsr-core/src/tensor/manipulation: transpose, flip, expand_dims, squeeze, broadcast, diagonal", "rstsr-core/src/tensor/indexing.rs: slice, slice_mut", "rstsr-core/src/tensor/assignment.rs: assign_f, fill_f", "rstsr-core/src/tensor/operators/op_binary_assign.rs", "rstsr-core/src/tensor/operators/op_binary_arithmetic.rs", "rstsr-core/src/tensor/map_elementwise.rs: map_f, mapi_f", "rstsr-core/src/tensor/reduction.rs: sum_axes", "rstsr-core/src/tensor/linalg/matmul.rs: rem"]}
{"id": "C100", "title": "Reductions with floating-point operations", "statement": "A reduction takes in every element exactly once, in some order and with some placing of brackets, whatever the operation, the layout, the device and the schedule of its threads. So the sum of floats differs from the exact sum by at most ((1+2^-p)^(n-1) - 1) times the sum of the absolute values (p digits, n elements), unless it is close to overflow; whole numbers with few digits are added without error; a sum with not-a-number is not-a-number. The same holds for each cell of a reduction along axes.", "quantifier": "all tensors, layouts, axes, devices, schedules, floating-point formats, additions that round to a nearest float, and operations without algebraic laws", "why_tests_cant": "Addition of floats is not associative, so the result depends on layout, number of threads and schedule; tests compare with a tolerance for a few inputs.", "anchors": ["rstsr-native-impl/src/cpu_serial/reduction.rs: unrolled_reduce, reduce_all_cpu_serial, reduce_axes_cpu_serial", "rstsr-native-impl/src/cpu_rayon/reduction.rs: reduce_all_cpu_rayon, reduce_axes_cpu_rayon", "rstsr-core/src/device_cpu_serial/reduction.rs: sum_all, sum_axes"]}
{"id": "C101", "title": "Products of floating-point tensors", "statement": "Every cell of a matrix product, and of a product along axes, multiplies every pair of its factors exactly once and adds the products in some order and with some placing of brackets (or, in the serial kernel, adds alpha times each product to beta times the old element one by one), whatever the operations, the layouts, the device and the schedule of its threads. So a product of floats with n terms differs from the exact one by at most ((1+2^-p)^n - 1) times the sum of the absolute values of the products, plus n (1+2^-p)^(n-1) times half of the smallest positive float, unless it is close to overflow; with alpha and beta, beta times the old element plus alpha times the product differs by at most ((1+2^-p)^(n+2) - 1) times the same expression with absolute values, plus (1+2^-p)^(n+1) (n |alpha| + n + 2) times half of the smallest positive float; whole numbers with few digits are multiplied and added without error, so that all devices agree on them; not-a-number in a row or column makes every cell that uses it not-a-number.", "quantifier": "all operands, layouts, batches, axes, devices, schedules, floating-point formats, additions and multiplications that round to a nearest float, and operations without algebraic laws", "why_tests_cant": "The order in which products are added depends on layouts, chunk sizes, the number of threads and the schedule; tests compare with a tolerance for a few inputs and one schedule.", "anchors": ["rstsr-native-impl/src/cpu_serial/matmul_naive.rs: gemm_naive_cpu_serial, inner_dot_naive_cpu_serial", "rstsr-native-impl/src/cpu_rayon/matmul_naive.rs: gemm_naive_cpu_rayon, inner_dot_naive_cpu_rayon", "rstsr-native-impl/src/cpu_serial/vecdot.rs: vecdot_naive_cpu_serial", "rstsr-native-impl/src/cpu_rayon/vecdot.rs: vecdot_naive_cpu_rayon", "rstsr-core/src/tensor/linalg/matmul.rs: matmul, matmul_from", "rstsr-core/src/tensor/linalg/vecdot.rs: vecdot, vecdot_from"]}
{"id": "C102", "title": "Mean, variance, standard deviation and norm of floating-point tensors", "statement": "On every device, under every schedule and for every layout, the mean of n floats is the quotient of a sum that takes in every element exactly once, and differs from the exact mean by at most ((1+2^-p)^n - 1) times the mean of the absolute values, plus half of the smallest positive float, unless it is close to overflow. The variance differs from the exact mean of the squared deviations by at most 2((1+2^-p)^(2n+2) - 1) times the mean of the squares, plus a few smallest floats; the standard deviation is the square root of such a number, the norm the square root of a sum of squares with the error bound of C101. Not-a-number among the elements makes mean and variance not-a-number. The same holds for each slice of the versions along axes. A mean lies between the least and the greatest element, a variance is not negative and a standard deviation is a number.", "quantifier": "all tensors, layouts, axes, devices, schedules, floating-point formats, and operations that round to a nearest float", "why_tests_cant": "Tests compare a few well-conditioned inputs with a tolerance, on one schedule; the order of summation depends on layout and threads, and cancellation on the values.", "anchors": ["rstsr-core/src/device_cpu_serial/reduction.rs: mean_all, mean_axes, var_all, var_axes, std_all, std_axes, l2_norm_all, l2_norm_axes", "rstsr-core/src/feature_rayon/auto_impl/reduction.rs", "rstsr-native-impl/src/cpu_serial/reduction.rs: reduce_all_cpu_serial, reduce_axes_cpu_serial", "rstsr-native-impl/src/cpu_rayon/reduction.rs: reduce_all_cpu_rayon, reduce_axes_cpu_rayon"]}
{"id": "C103", "title": "Statistics and functions of complex elements", "statement": "On every device, under every schedule and for every layout, the mean of complex elements has the mean of the real parts and the mean of the imaginary parts, the variance is the real number that is the mean squared distance from the mean, so never negative and zero only if all elements are equal, the standard deviation is its square root and the norm the square root of the sum of the squared absolute values; the same holds for each slice of the versions along axes. `abs` of a complex number is the length of the vector of its parts, zero only of zero; `sign` of a number other than zero has absolute value one and gives the number back when multiplied with `abs`; `sign` of zero is zero; `real`, `imag` and `conj` are the parts and the conjugate. `a + b`, `a * b` and `a / b` of complex tensors are the sum, the product and, where the divisor is not zero, the quotient of complex numbers at each place.", "quantifier": "all tensors of complex elements over any field, layouts, axes, devices and schedules; all complex numbers", "why_tests_cant": "The tests reduce one or two small complex tensors; the combination of partial results over threads and layouts and the identity between the two forms of the variance hold or fail for all inputs.", "anchors": ["rstsr-core/src/device_cpu_serial/reduction.rs: mean_all, var_all, std_all, l2_norm_all and the versions along axes", "rstsr-core/src/feature_rayon/auto_impl/reduction.rs", "rstsr-dtype-traits/src/ext_num.rs: ext_abs, ext_abs_diff, ext_sign, ext_real, ext_imag, ext_conj"]}
{"id": "C104", "title": "The logarithm of a sum of exponentials", "statement": "`log_add_exp` of a and b is the number whose exponential is the sum of the exponentials of a and b: it lies above the greater of the two by at most the logarithm of two, does not depend on the order of the two, and moves along when a number is added to both. Not-a-number spreads. For finite floats the result is finite, since the exact one is close to the greater argument.", "quantifier": "all real numbers; all floats; all exponentials and logarithms that overflow and underflow as IEEE 754 says", "why_tests_cant": "The tests use a few numbers close to zero; overflow and underflow inside the formula occur for arguments of ordinary size.", "anchors": ["rstsr-core/src/device_cpu_serial/operators/op_ternary_common.rs: OpLogAddExpAPI", "rstsr-core/src/feature_rayon/auto_impl/op_ternary_common.rs"]}
{"id": "C105", "title": "Fingerprints and sequence comparison depend on the elements alone", "statement": "The fingerprint of a tensor is the sum of x_k cos(k) over its elements x_0, x_1, ... in row-major order, and the comparison of two tensors of doubles is true exactly if they have equally many elements and the k-th elements in row-major order are close for every k. Neither depends on strides, offsets, unused cells, the device or the schedule.", "quantifier": "all shapes (empty ones too), strides, offsets, elements, device orders, schedules, contents of fresh memory, functions in place of the cosine and tolerances", "why_tests_cant": "Both chain a copy, a reshape, a range and a product or two iterators; every layout takes another path through them.", "anchors": ["rstsr-core/src/dev_utilities/mod.rs: fingerprint, allclose_f64"]}
{"id": "C106", "title": "Programs on the parallel device end exactly like programs on the serial device", "statement": "Run with a thread pool or without one, under every way to divide the loops and every interleaving of the threads, a program of tensor statements (fill, assignment, elementwise operations in place and into new tensors, reshapes, selections, concatenations, sums, sums along axes, matrix products, each through chains of views) ends with the same layouts and the same value in every cell of every storage as on the serial device, or with the same error; hence with tensors that hold what the same program on plain arrays gives. No statement ever starts threads that race.", "quantifier": "all programs of any length, view chains, shapes, strides, offsets, orders, element types (commutative for sums and products), and for every statement all schedules, pools and interleavings", "why_tests_cant": "A test runs one program under the few schedules that happen to occur, on sizes that rarely reach the parallel branch.", "anchors": ["rstsr-core/src/feature_rayon/auto_impl", "rstsr-native-impl/src/cpu_rayon", "rstsr-core/src/feature_rayon/device.rs: get_current_pool"]}
{"id": "C107", "title": "The text of a layout says everything and its letters are true", "statement": "The debug text of a layout names the number of axes, whether the rank is fixed by the type, a word on the order of the elements, and shape, strides and offset in decimal. Layouts with the same text are the same layout. The word is `Empty` exactly for layouts without elements; otherwise it holds `C` (`F`) exactly if every element lies at the offset plus its row-major (column-major) rank, `c` (`f`) exactly if the strides of the axes longer than one are positive and ascend from the last (first) axis on, which has stride one unless its length is one, and it is `Custom` exactly if none of the four applies.", "quantifier": "all shapes, strides and offsets of every rank", "why_tests_cant": "The tests print layouts and compare nothing; that the text can be read back in only one way and that the letters mean what they say are statements over all layouts.", "anchors": ["rstsr-common/src/format_layout.rs: Debug for Layout", "rstsr-common/src/layout/layoutbase.rs: c_contig, f_contig, c_prefer, f_prefer"]}
{"id": "C108", "title": "Linear spacing of floating-point numbers", "statement": "`linspace` of floats gives exactly n values, the first of which is the start. They are in order on every device: never falling if start <= stop, never rising if stop <= start. Each differs from its exact place start + i (stop - start)/(n-1) (or /n) by a bounded rounding error: on the serial device, which adds the step up, by at most ((1+2^-p)^i - 1)|start| + ((1+2^-p)^(i+2) - 1) times the distance from the start, on the parallel device, which multiplies, by a few units in the last place whatever i; underflow adds at most i or i+1 times half of the smallest positive float. With the endpoint the last value is stop, all values lie between start and stop, and all devices give the same values.", "quantifier": "all starts, stops, counts up to 2^p that are not close to overflow, both endpoint choices, both devices, all floating-point formats, all operations that round to a nearest float", "why_tests_cant": "Tests compare a few short ranges with a tolerance; the error of a running sum grows with the count, and order and end values depend on every single rounding.", "anchors": ["rstsr-core/src/device_cpu_serial/creation.rs: linspace_impl", "rstsr-native-impl/src/cpu_rayon/creation.rs: linspace_cpu_rayon", "rstsr-core/src/tensor/creation.rs: linspace_f"]}
{"id": "C109", "title": "Ranges of floating-point numbers", "statement": "`arange(start, end, step)` of floats whose step leads from start to end ends and returns the values start + i*step, each with an error of a few units in the last place that does not grow with i, in order (never falling for a positive step, never rising for a negative one), none beyond end, and at most ceil((end-start)/step) of them, at most two fewer. If the step is several times the distance of neighbouring floats, all values lie strictly before end and at most one is missing. A rising range that starts at or after its end is empty, and a step of zero is refused. Without rounding the values are exactly those before end; a falling range whose end lies above its start is empty.", "quantifier": "all finite starts, ends and steps not close to overflow with fewer than 2^p/16 steps, f64 and f32 (computed in f64) and every other pair of formats, both devices", "why_tests_cant": "The count comes from a rounded difference and a rounded quotient; whether the last value is kept depends on single roundings, so short examples say nothing about other numbers.", "anchors": ["rstsr-native-impl/src/cpu_serial/creation.rs: arange_by_primitive_f64_cpu_serial, arange_cpu_serial", "rstsr-native-impl/src/cpu_rayon/creation.rs: arange_by_primitive_f64_cpu_rayon, arange_cpu_rayon", "rstsr-core/src/device_cpu_serial/creation.rs: arange_impl"]}
{"id": "C110", "title": "What complex sums, products, quotients and means give in spite of rounding", "statement": "For complex numbers whose parts are floats of any IEEE format: the parts of a sum are within the error bound of a sum of floats, on every device and under every schedule. A product a*b of tensors has, at each place and if nothing overflows, a real part that differs from ac-bd by at most ((1+2^-p)^2-1)(|ac|+|bd|) and little more than the smallest positive float, and so for the imaginary part; a factor with not-a-number in one part makes both parts not-a-number. A quotient a/b has parts that differ from (ac+bd)/(cc+dd) and (bc-ad)/(cc+dd) by at most eight units of rounding of the same expressions with absolute values, and a multiple of the smallest positive float, if the intermediate products neither overflow nor underflow. Each cell of a product of matrices of complex numbers, and each result of vecdot, which conjugates the first factor, has parts that differ from the exact sums of n products by at most (1+2^-p)^(n+1)-1 times the sum of the absolute values of the products of the parts and a multiple of the smallest positive float; a factor with not-a-number makes both parts not-a-number. A mean of n complex numbers has parts that differ from the means of the parts by at most (1+2^-p)^(n+3)-1 times the mean of the absolute values, if the sum times n does not overflow; not-a-number in one part of one element makes both parts not-a-number. The mean of numbers in range is finite, a number divided by itself is one, and the variance is not negative.", "quantifier": "all formats, operations that round to nearest, tensors of complex floats, layouts, broadcast shapes, axes, devices and schedules", "why_tests_cant": "Tests compare a few well scaled values with a tolerance; the bound must hold for all values, orders of summation and numbers of threads, and the overflow of the intermediate product shows only for large values.", "anchors": ["rstsr-core/src/device_cpu_serial/reduction.rs: sum_all, mean_all, mean_axes, var_all", "rstsr-core/src/feature_rayon/auto_impl/reduction.rs", "rstsr-core/src/tensor/operators/op_binary_arithmetic.rs: mul, div of complex tensors", "rstsr-core/src/tensor/linalg/vecdot.rs: vecdot", "rstsr-core/src/tensor/linalg/matmul.rs: matmul"]}
{"id": "C111", "title": "BLAS flags keep their meaning through every conversion", "statement": "A flag for transposition, triangle, diagonal or side is read from a `char` exactly if it is its BLAS letter in upper or lower case, from a `c_char` exactly if it is the letter in upper case, and any other value panics; written to `char`, `c_char`, the CBLAS enumeration or the CBLAS number it is the standard one, and reading it back gives the flag. Flipping a flag for transposition is what compensates for transposing (or, for Hermitian use, conjugating and transposing) the matrix; flipping a triangle gives the transposed triangle; two flips are none. Every flag has a letter and a number.", "quantifier": "all flags, characters, byte values and matrices over any type with a conjugation", "why_tests_cant": "The library has no test of the conversions; a wrong letter or number silently makes BLAS compute with the wrong triangle or the untransposed matrix, and the meaning of flip is about all matrices.", "anchors": ["rstsr-common/src/flags.rs: From impls of FlagTrans, FlagDiag, FlagSide, FlagUpLo, flip", "rstsr-blas-traits/src/cblas_flags.rs: From impls"]}
{"id": "C112", "title": "The rank promised by the type of a result is the rank of the result", "statement": "For tensors whose type fixes the number of axes, the type of the result fixes it as well: one axis less after selecting, eliminating or dropping an axis, for a diagonal and when an axis is packed into arrays, one more after inserting an axis and unpacking arrays, the larger number after broadcasting, and for matrix products the number of axes the product has (vectors lose theirs). The promise is always kept: for layouts that have the ranks of their types the conversion of the result to the promised rank never fails or panics, so the operation succeeds, fails and computes exactly as it does for dynamic ranks. Ranks up to 9 are all covered, and a dynamic rank on one side makes the result dynamic.", "quantifier": "all layouts (any lengths, strides and offsets), all axes and indices, both orders, all combinations of fixed ranks 0 to 9 and dynamic ranks", "why_tests_cant": "The promised ranks are tables of types written by hand (over a hundred entries), independent of the code that computes the layouts; a wrong entry shows only as an error for tensors of just these ranks.", "anchors": ["rstsr-common/src/layout/dim.rs: DimSmallerOneAPI, DimLargerOneAPI, DimMaxAPI", "rstsr-common/src/layout/layoutbase.rs: into_dim, diagonal", "rstsr-common/src/layout/indexer.rs: dim_select, dim_eliminate, dim_chop, dim_insert", "rstsr-common/src/layout/broadcast.rs: broadcast_layout", "rstsr-common/src/layout/matmul.rs: LayoutMatMulAPI", "rstsr-core/src/tensor/pack_array.rs: into_pack_array_f, into_unpack_array_f"]}
