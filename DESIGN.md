# Design of the formal model of rstsr

## Approach

The model is a set of total, computable Lean functions under `lean/Verif/Model/`, one per Rust
function, each with a comment that cites the file and lines it models. Errors stay data: a function
that returns `Result` (or can panic) returns `Except Err _`, with a separate error value for panics.
`lean/Verif/Spec/` holds small specifications written without any model helper. Property theorems
are in `lean/Verif/Thm/`, lemmas in `lean/Verif/Proof/`.

Conventions
* `usize`/`isize` are unbounded (`Nat`/`Int`), except in `Model/Machine`: the theorems of C98 say for which layouts the
  words of the machine give the same results. A layout offset is
  an `Int`: a negative offset stands for the wrapped `usize` that the Rust cast would create.
* The fixed-rank (`Ix<N>`) and dynamic-rank (`IxD`) types are both modelled by lists. Where the two
  implementations differ, both are modelled.
* Storage is a `List`; reading or writing outside it is the panic error.
* A parallel (rayon) loop is modelled by an arbitrary split tree over the iterator it consumes and,
  for writes, by an arbitrary interleaving of the leaves' steps.
* Element arithmetic is an arbitrary function or an arbitrary algebraic structure. Floating-point
  rounding is modelled only for conversions between element types and for `isclose` (C63-C65).

## Plan for each property

| id | model | proof |
|----|-------|-------|
| C01 | `checkStrides`, `Layout.new` | induction along the sorted stride list: positions of a prefix span less than the next stride |
| C02 | `boundsIndex` | induction on axes, min and max attained at corner indices |
| C03 | `Tensor.new` | from C02 |
| C04 | `indexF`, `indexUncheck` | induction on axes; error cases one by one |
| C05 | contiguous strides | induction on the rank, mixed radix |
| C06 | `ndimOfFContig`, ... | running-product invariant; the converse uses unit vectors |
| C07 | `transpose`, `normalizeAxes` | permutation lemmas |
| C08 | `reverseAxes`, `swapaxes`, `moveaxis` | reduction to transpose |
| C09 | `dimNarrow` | arithmetic case split against a Python-slice specification; known disagreements are proved as negations |
| C10 | `dimSelect` | list insertion lemmas |
| C11 | `dimInsert`, `dimEliminate`, expand/squeeze | list insertion lemmas, round trips |
| C12 | `dimSlice` | induction over the indexer list |
| C13 | inductive type of view operations | invariant by induction over the history |
| C14 | `flip` | from C09 |
| C15 | `diagonal` | arithmetic; the code disagrees with the property for wide matrices: negation plus partial theorem |
| C16 | `broadcastShape` | induction on reversed shapes against a specification by aligned pairs |
| C17 | `broadcastLayout` | induction on aligned axes |
| C18 | `broadcastableTo/From` | same induction |
| C19 | `attemptNocopyReshape`, `quickCheck` | loop invariant over axis groups |
| C20 | `substituteNegatives` | arithmetic |
| C21 | `changeShape` | C19 plus C34 |
| C22 | col/row-major iterator | odometer step = successor in mixed radix |
| C23 | next/next_back histories | invariant by induction over the call list |
| C24 | `splitAt`, split trees | induction over trees |
| C25 | indexed iterator | front part proved; back part contradicted by a witness |
| C26 | `greedyLayout` | permutation and reflection of the index set |
| C27 | `unravel` | mixed radix |
| C28, C29 | `translateToColMajor`, `withContig` | common permutation; block decomposition |
| C30-C36 | serial kernels as folds over storage | fold of independent writes; injectivity from C01 |
| C37 | split trees and interleavings | commutation of disjoint writes |
| C38-C40 | reductions | commutative-monoid folds, permutation invariance |
| C41-C43 | matmul planner and kernels | batch pairing, fold over k |
| C44, C45 | triangular kernels | arithmetic on packed positions |
| C46, C57 | index_select, bool_select | from select and assign |
| C47, C54, C55 | concat/stack/meshgrid/diag | from narrow, insert, broadcast, assign |
| C48 | axis normalisation | list induction |
| C49 | blocked copy | partition of the index rectangle |
| C50 | arange | integer arithmetic; float versions with exact arithmetic, with rounding in C109 |
| C51 | ownership state machine | invariant over histories |
| C52 | splitting axes | list partition |
| C56 | scalar/vec extraction | direct |
| C53 | layout equality | direct, unit-vector converse |
| C58 | tensordot plan | list reasoning |
| C59 | constant and `_like` constructors | storage size from C02, contents from the fill kernel |
| C60 | `eye` | C15 and the fill kernel; known disagreements are proved as negations |
| C61 | BLAS drivers as lists of cell updates, `?gemm`/`?syrk` by their reference meaning | each kernel updates every cell of the matrix once; the batch driver over any such kernel |
| C62 | `cdist`: batches of rows, per-row preparation, one loop per pair of rows | batches partition the rectangle of pairs; folds equal the textbook sums |
| C63 | promotion tables, `as` between primitive types with IEEE rounding over the rationals | case analysis over the tables; rounding is exact on representable numbers, monotone and nearest |
| C64 | `isclose` with IEEE subtraction, product, sum and comparison over the rationals | relative error of rounding, monotone rounding; the verdict is right outside a margin of a few unit roundoffs |
| C65 | `ext_num.rs`, `ext_real.rs` and the closures that the element-wise operations apply | case analysis over kinds of types; floor and ceiling of rationals, rounding exact on integers |
| C66 | `nextafter_f16`, `nextafter_bf16` on the bits, generic in the number of fraction bits | the words in the order of their magnitudes are the numbers in order; the result is the neighbour |
| C67 | `into_pack_array`, `into_unpack_array` on storage and layout; the size given back when the vector is dropped | the address of an element times N; packed essential axes stay free of overlap |
| C68 | `solve_general` down to the call of `?gesv`; LAPACK is a parameter, a function on matrices | the matrix that LAPACK sees is the matrix of the argument, and what it leaves is stored at the same indices; the property then is the documentation of `gesv` |
| C69 | `inv` down to the calls of `?getrf` and `?getri`, which are parameters | as C68; the pivots of the first routine reach the second one unchanged |
| C70 | `slogdet`, `det` down to the call of `?getrf`, over real and complex numbers | the number of pivots out of place is the parity of the product of interchanges; determinant of the factors |
| C71 | `cholesky` down to the call of `?potrf`, over real and complex numbers | the triangle left by LAPACK, the other one set to zero by `tril`/`triu`; positive definite matrices of Mathlib |
| C72 | `solve_symmetric` down to the call of `?sysv`, `?hesv` | the course of C68 with a different routine; both share the wrapper `solveWith` and the driver `withTwo` |
| C73 | `solve_triangular` and the builder `TRSM` down to the call of `?trsm` | the flags follow each transposition that is made; the triangle left of a transposed matrix; the wrapper `solveWith` of C68 |
| C74 | the builder `GEMM` down to the call of `?gemm` | the product of transposes for row-major work; the storage is read where BLAS reads it, without the offsets of the layouts |
| C75 | the builders `SYMM` and `HEMM` down to the calls of `?symm`, `?hemm` | as C74; `S` is any symmetric or Hermitian matrix with the triangle that is passed on |
| C76 | `eigh`, `eigvalsh` of a matrix down to the calls of `?syev`, `?syevd` (`?heev`, `?heevd`) | as C71; the eigenvalues are the roots of the characteristic polynomial, in ascending order |
| C77 | `eigh`, `eigvalsh` of two matrices down to the calls of `?sygv`, `?sygvd` (`?hegv`, `?hegvd`) | as C72 for two matrices; the three problems are stated by their defining equations |
| C78 | `svd`, `svdvals` down to the calls of `?gesvd`, `?gesdd` | as C76; the decomposition is stated by its defining equations, and that two of them give the same values by the characteristic polynomial of `A Aᴴ` |
| C79 | `pinv` down to the calls of `?gesdd` and `?gemm` | composition of C78, C38, C32, C74 and C36; the four equations from the orthonormal factors; the rank by ranks of products |
| C80 | `min_all`, `max_all` on floating-point values | the reduction is carried along a homomorphism to the line from minus to plus infinity, where it is a fold of `min` |
| C81 | `matmul` of the device of `faer`, with the two product functions of `faer` specified cell by cell | the proof of C61 with another kernel, which needs no condition on the layout of `C` and on `beta` |
| C82 | `cholesky`, `det`, `inv`, `solve_*` of the device of `faer`: conversion of layouts both ways, the copy of the right side, the order of checks; the routines of `faer` are functions of matrices that enter by their documentation | each conversion reads or writes the matrix the layout stands for; the routine's documentation gives the rest |
| C83 | `eigh`, `eigvalsh` of the device of `faer`; the reduction from two matrices to one is modelled step by step | filling the other triangle is an invariant over the list of writes; the reduction is matrix algebra with the Cholesky factor |
| C84 | `svd`, `svdvals`, `pinv` of the device of `faer`: conversions, the cut by the tolerance, the scaling and the product, which is the one of C81 | the factors are read through the layouts; the rest is the algebra of C79 |
| C85 | each call as four steps on the global setting, several calls under a schedule; devices of the results; conversions and change of device | the setting: cases on the steps, induction over the schedule; the rest is a walk through the definitions |
| C86 | the function that prints, call by call, with its index stack and running offset; the text of one element is an argument | a recursive description of the text (`Spec/Format`); induction over the axes, and along an axis over the parts still to be written |
| C87 | the tables literal by literal, the six kinds of orbits point by point, the loop that fills two uninitialized vectors, the tensors made of them; numbers are real | the mean over the sphere is the integral with Mathlib's surface measure (`Spec/Sphere`); the mean of a monomial from Gaussian integrals in polar coordinates; symmetry orbit by orbit; even monomials of the greatest degree by evaluation in whole numbers in the kernel for each of the 32 tables (all of them, not a sample), those of smaller degree by induction because the squares sum to one, polynomials by linearity |
| C88 | the two translations | case analysis over the rows of the tables |
| C89 | programs of reads, settings, scopes and panics, compiled to single library calls; threads take turns; the cell a library keeps its number in is shared or belongs to the thread | simulation of one thread by itself (others do not change its cell), then induction over programs; an invariant for the numbers that can occur; races and panics as counterexamples |
| C90 | the vector or the memory of the slice is the storage; layouts of fixed and of dynamic rank; nested arrays are functions, their memory is the list of their cells | acceptance from the bounds of contiguous layouts; nested arrays by induction over the depth |
| C91 | the three functions on a tensor with its layout | from the completeness of the reshape planner (C19), the contiguity tests (C06) and the invariant of views (C13) |
| C92 | the calls around `tblis_einsum_f`: checks, arguments, threads, the returned tensor; the library is a parameter described in `Spec/Tblis`, which a reference library meets | arguments are read as arrays; the strides of the result are accepted; the sums of a tensordot are those of its subscripts by C58 |
| C93 | the kernels of C54 and C55 with the loops of the parallel device; a parameter `exec` runs the threads; nothing is assumed of it beyond `RunsThreads`: threads without races that always end with the same storage leave that storage | each step computes what the serial step does (`Proof/GatherPar`), then induction over the loop; loops without iterations are not divided (`Scheduler.Lazy`), as rayon does |
| C94 | the kernels with the state of the function beside the storage | the kernel is one loop over the indices or cells in some order; induction along that order against `callAll` (`Spec/Calls`) |
| C95 | each conversion of a number with its Rust type into an axis, an index, a slice or a pair of axes, with the word size as a parameter; `as` is reduction modulo the word | numbers in the range of `isize` are fixed points of the reduction; checked conversions by cases; concrete witnesses at the ends of the ranges |
| C96 | requests to the global allocator, with the allocator and the live blocks as parameters (`Spec/Heap`); the byte count is computed modulo the word | the three ways to get a vector, then the contract of the allocator |
| C97 | the element iterators on top of the layout iterator of C22–C26; a mutable item is the number of a cell; the parallel iterators run under every division by a scheduler | the items are the cells of the remaining indices, an invariant kept by every call; different indices have different cells unless a stride is zero |
| C98 | the functions of layouts, `new_f` and creation with `usize`/`isize` of any number of bits, wrapping or checked | layouts that fit in the machine: every intermediate result is a number of `isize`, by induction over the axes; tensors in a storage fit; with the checks, every accepted result is exact; witnesses for the rest |
| C99 | programs: a list of tensors, statements that write through chains of views or make new tensors (elementwise, reshapes, `index_select`, `concat`, `sum`, `sum_axes`, `%`) | arrays as functions, each view call as a relation of indices; one lemma per call relates it to the layout, chains by induction, a write lemma for tensors whose elements have cells of their own, programs by induction |
| C100 | the reductions of C38 and C39 with any operation; IEEE addition in any format | a relation between two runs of a reduction (also between two processes with threads): the closures keep it, so the runs do; compared with the reduction that collects a multiset, every element is taken in once; error bound by induction on the bracket |
| C101 | the products of C42 and C43 with any operations; IEEE multiplication in any format | the proofs of C42 go through for any operations when a cell is described by the way it was computed (`Spec.MatWay`) instead of by its value; C43 by a relation with the run that collects the multiset of pairs, as for C100; error bounds by induction on the way. Left out: f32 and f64 on the faer device, whose products are computed by the `faer` library |
| C102 | the reductions of C38 and C39 for mean, variance, deviation and norm with any IEEE operations | the elements are taken in once each by C100; pairs of sums are projected to single sums; the errors of division, square and difference are bounded one after the other by rational arithmetic (`Proof/FloatMean`). The square root is any function |
| C103 | the reductions of C38 and C39 over pairs of parts with the operations of `num-complex`; `ext_num.rs` for complex types | the same closures over a pair of sums; the identity of the two forms of the variance; the parts are exact numbers of a field, the square root any function, the hypotenuse as documented |
| C104 | the closure of `log_add_exp` | over the reals by the laws of `exp` and `log`; over floats the result is infinite for any exponential that overflows where IEEE 754 says so |
| C105 | `fingerprint` as copy, flattening, `linspace`, map and product; `allclose_f64` as two iterators | composition of C35, C21, C50, C36, C42, C56 and C22; the sum is stated on the list of elements in order |
| C106 | the statements of C99 on the rayon device: per statement any schedules, a pool or none, and a way to run threads of which only `RunsThreads` is known | each statement equals the serial one (kernels by C37 and C93, reductions and products by the uniqueness of a full storage), programs by induction along C99 |
| C107 | the text as a list of characters; the letters by the tests of C06 and by `c_prefer`, `f_prefer` | separators do not occur in the parts before them, so equal texts have equal parts; decimal digits can be read back (core library); the loop of `f_prefer` by induction |
| C108 | `linspace` of both devices with the operations as arguments (`Model/LinspaceBy`), of which only what IEEE 754 says is assumed | a running sum is a chain of additions (C101), errors by the lemmas of C100 to C102; order because the nearest float to a number above a float is not below it |
| C109 | `arange` of floats with its roundings (`Model/ArangeFlt`): the count from a rounded quotient, the values in the working format, the conversion to the format of the elements, the value dropped at the end, the loop without a count | every operation is a rounded exact one, rounding is monotone and keeps the floats; the quotient is off by less than a quarter of a step; falling ranges by negation |
| C110 | the operations of `num-complex` on pairs of floats (`Model/Complex`), in `*`, `/`, `sum`, `mean`, `matmul` and `vecdot` | the parts of a sum are sums of C100, those of a sum of products are sums of terms near the exact ones, in the orders that C101 allows; products by the errors of two products and one difference; the mean by the quotient of a rounded product and a rounded square |
| C111 | the conversions and flips of `flags.rs` and `cblas_flags.rs` (`Model/Flags`) | cases over the flags; all characters and bytes by the equations of the readers; matrices as functions of two indices over a type with an involution |
| C112 | the tables of ranks of `dim.rs` and `matmul.rs` entry by entry, `into_dim`, and the operations with the conversion of their result (`Model/DeclaredRank`) | membership in a table decided once for all entries; the number of axes of the result from C17, C41 and the definitions; the code disagrees for the diagonal of an axis with itself |

## Trusted base

* Lean 4.33.0's kernel. Nothing is accepted by compiled code: no `native_decide`, no `bv_decide`. Concrete
  witnesses use `decide`, `decide +kernel`, `rfl` or `simp`, all of which end in a kernel check.
* The axioms `propext`, `Classical.choice` and `Quot.sound` and no others. `AXIOMS.md` lists them theorem by theorem
  (written by `tools/axioms.py` from `#print axioms`). No axiom is declared in the project, and there is no `sorry`.
* Mathlib's definitions that occur in statements: `List.Perm`, `List.Nodup`, ordered and algebraic structures
  (`CommMonoid`, `CommSemiring`, `LinearOrder`, `Field`), `Finset`-free list sums. They are few on purpose.
* The reading of the code: that each definition in `lean/Verif/Model` says what the cited lines of /repo do. This is
  the part that no proof covers. The comments name every simplification.
* The specifications in `lean/Verif/Spec` (indices, shapes, positions, broadcasting, Python slices, sums, matrix
  products, schedules). They do not mention the model, except for the types of API arguments.
* That the copies of a file in several device crates say the same. Compared as text: the directories `auto_impl` and `rayon_auto_impl` of the
  six parallel devices agree up to the name of the device; `matmul.rs` and `matmul_impl.rs` of the five BLAS devices agree up to one test and one
  comment. One model stands for all copies.

## What is modelled, and how faithfully

| part of the code | model | simplification |
|---|---|---|
| `rstsr-common/layout/{layoutbase,shape,stride,dim}.rs` | `Model/Layout`, `Model/Basic` | `usize`/`isize` unbounded; a wrapped offset is a negative number |
| `layout/{indexer,slice}.rs` | `Model/Indexer` | none known |
| `layout/{broadcast,rearrangement,reshape,iterator,matmul}.rs`, `par_iter.rs`, `axis_index.rs` | `Model/{Broadcast,Rearrange,Reshape,Iter,Matmul}` | none known; recursion replaces loops |
| `rstsr-native-impl/cpu_serial/*` | `Model/{Kernel,Copy,Elementwise,Reduce,ReduceAxes,Arg,Gather,Transpose,Tri,Matmul,Vecdot,Creation}` | storage is a list, uninitialised cells are `none`; a contiguous fast path and a general path are both modelled |
| `rstsr-native-impl/cpu_rayon/*` | `Model/Parallel` and the `...Par` functions beside the serial ones | a parallel loop is a tree of processes chosen by an arbitrary splitter; leaves do single reads and writes, in any interleaving; memory is sequentially consistent |
| `rstsr-core/tensor/*` for the operations above | `Model/{Tensor,Manip,Chain,AxesIter,Tensordot,Own,...}` | trait dispatch is resolved by hand; a device is its default order plus serial/parallel |
| `rstsr-core/storage/data.rs`, `tensor/ownership_conversion.rs` | `Model/Own` | a heap of buffers with `Arc` counts, a list of handles with what each borrows; Rust's borrow rules are an explicit end-of-borrow step. No threads, weak references or `unsafe` force |
| `arange`, `linspace` | `Model/Creation`, `Model/LinspaceBy`, `Model/ArangeFlt` | integers exact with wrapping or checked arithmetic per type; conversions to `f64` are rounded to even in the model; floating steps of `arange` are taken in an ordered field, and with rounding, those of `linspace` too |
| `crates-device/rstsr-{openblas,mkl,aocl,blis,kml}/src/{matmul,matmul_impl}.rs` | `Model/Blas` | `cblas_?gemm` and `cblas_?syrk` are specified, not modelled: column-major, checked leading dimensions, `C` not read when `beta` is zero; private copies are taken serially; conjugation is not used by this code |
| `rstsr-core/src/device_faer/{matmul,matmul_impl}.rs` | `Model/Faer` | the two product functions of `faer` are specified cell by cell, with any strides; the pass that multiplies `C` by `beta` and the product after it are one update per cell |
| `rstsr-linalg-traits/src/faer_impl/*.rs`, `rstsr-core/src/device_faer/{conversion,device}.rs` | `Model/FaerLinalg`, `Model/FaerDevice` | `faer` is specified (`Spec/Faer`): functions of matrices, with failure where it can fail, and a panic where it asserts shapes; the leading dimension and the unused cells of its results are arbitrary; drop order is left out |
| `rstsr-sci-traits/src/distance/*` | `Model/Distance` | number types are any operations; the Jensen-Shannon test for empty sums is made at the end; weights without `initialize` are not checked, as in the code |
| `rstsr-linalg-traits/src/{ref_impl_blas,blas_impl/*}.rs`, `rstsr-blas-traits/src/{util,lapack_solve,lapack_eigh,blas3/{trsm,gemm,syhemm}.rs}`, `rstsr-blas-traits/driver_impl/{lapack/{solve,eigh},cblas/blas3}`, `rstsr-core/src/tensor/tensor_mutable.rs` | `Model/Linalg`, `Model/LinalgLU`, `Model/LinalgSym`, `Model/Blas3`, `Model/Eig`, `Model/Svd`, `Model/Pinv` | LAPACK is specified, not modelled: a function from matrices to matrices or an error number, column-major with checked leading dimensions; numbers form a field, no rounding; threads and the `lapacke` drivers are not modelled; what LAPACK leaves in a mutable argument after an error is not modelled |
| `rstsr-dtype-traits/src/promotion.rs` | `Model/Scalar` | values are integers, rationals, infinities, signed zeros and NaN with a sign, without payload; `usize` and `isize` have 64 bits; `as` is IEEE rounding to nearest even, or saturation; operators of the `half` crate are not modelled |
| `rstsr-dtype-traits/src/{isclose,ext_num,ext_real}.rs`, closures in `device_cpu_serial/operators/op_{binary,ternary}_common.rs` | `Model/Close`, `Model/ElemFns` | real types, and `ext_num` of complex types with exact parts (`Model/Complex`); IEEE operations round exact rationals; integer overflow panics or wraps by a flag; tolerances are doubles |
| `rstsr-core/src/format/format_tensor.rs` | `Model/Format` | writing does not fail; the lines that `Debug` adds for device, layout and type are left out; depth of the stack is left out |
| `rstsr-common/src/format_layout.rs` | `Model/LayoutText` | writing does not fail; decimal digits are those of Lean's core library |
| `rstsr-sci-traits/src/integrate/{lebedev,impl_cpu_serial,auto_impl_rayon}.rs` | `Model/LebedevTable`, `Model/Lebedev` | real numbers instead of `f64`: no rounding of the literals, of `1 - 2a²` and its relatives or of square roots; the literals for `sqrt(1/2)` and `sqrt(1/3)` are these numbers; allocation does not fail |
| `crates-device/rstsr-{openblas,mkl,blis,aocl,kml}/src/threading.rs` | `Model/BlasThreads` | the libraries are cells with a number (which cell is theirs, by their documentation); numbers the libraries would refuse, and changes made behind the back of the crate, are left out; a panic for OpenMP builds without the feature `openmp` is left out |
| `rstsr-core/src/tensor/asarray.rs` (values), `creation.rs` (`tensor_from_nested!`), `manipulation/{into_compatible_shape,into_dim}.rs`, `linalg/matrix_transpose.rs` | `Model/AsArray` | Rust arrays are stored without gaps; ownership and lifetimes of slices are not modelled; the deprecated function is included |
| `rstsr-native-impl/src/cpu_rayon/index_select.rs`, `concat` and `bool_select` on the parallel device | `Model/GatherPar` | starting and waiting for the threads is the parameter `exec` |
| `rstsr-core/src/tensor/map_elementwise.rs` (functions with a state), `rstsr-native-impl/src/cpu_serial/op_with_func.rs` with the state | `Model/Fnmut` | the function is pure in its state and argument |
| `rstsr-common/src/{axis_index,axes_pair_index}.rs`, conversions in `rstsr-common/src/layout/{indexer,slice}.rs` | `Model/Args` | `Some(_)` as an index (a panic) is left out |
| `rstsr-common/src/alloc_vec.rs` | `Model/Memory` | Linux or macOS with the default feature `aligned_alloc`, release profile; `Vec` is pointer, length, capacity |
| `rstsr-core/src/tensor/iterator_elem.rs`, `rstsr-core/src/feature_rayon/par_iter.rs:8-20` | `Model/ElemIter` | lifetimes are left out; the bridge of Rayon is a `Plan`, which may divide anywhere |
| `rstsr-common/src/layout/{layoutbase,shape}.rs`: `size`, `stride_*_contig`, `new_contig`, `*_contig`, `index_f`, `index_uncheck`, `bounds_index`, `check_strides`; `new_f`; the head of `zeros_f`, `uninit_f` | `Model/Machine` | words of `w` bits; a build either checks every operation or wraps around |
| view calls followed by `fill_f`, `assign_f`, `mapi_f`, `op=`, `map_f`, `op`, in sequence on a list of tensors | `Model/Program` | source and target of a write are different tensors; the element type is one for all tensors |
| `crates-plugin/rstsr-tblis/src/{einsum_impl,tensordot_impl}.rs` | `Model/Einsum` | TBLIS and the search for an order of contraction are specified (`Spec/Tblis`); the subscript string is given by its parts; exact arithmetic |
| `rstsr-dtype-traits/src/ext_float.rs` (16-bit formats) | `Model/NextAfter` | payload of NaN and floating-point flags left out; `f32` and `f64` call `libm` |
| `rstsr-common/src/pack_array.rs`, `rstsr-core/src/tensor/pack_array.rs` | `Model/PackArray` | owned, borrowed and copy-on-write storage share one definition; the allocator is the number of bytes asked for and given back |
| `rstsr-core/src/dev_utilities/mod.rs` | `Model/Utility` | exact arithmetic, any function for the cosine, any test of closeness |
| `rstsr-common/src/flags.rs` (conversions, flips), `rstsr-blas-traits/src/cblas_flags.rs` | `Model/Flags` | the enumerations of `rstsr-cblas-base` by the names of their variants; serialisation left out |
| `unpack_tri` | `Model/Tri` | the `f64` square root is the integer square root; `C45_root` shows that both agree for all lengths below 2^63 |

Element types are arbitrary types. Where arithmetic matters, theorems ask for the laws they need (commutative monoid,
commutative semiring, linear order, ordered field). Floating-point numbers do not satisfy them; what the operations give
for floats in spite of rounding is the subject of C63-C65, C80, C100-C102 and C108-C110. Elsewhere (linear algebra, weighted distances,
`einsum` by TBLIS) floats are covered only as far as the order of operations does not matter.

Not modelled: integer overflow of sizes and strides outside `Model/Machine` (C98); the C libraries behind the BLAS devices and `faer`; the parts of
`rstsr-linalg-traits` not named above; the scientific functions (`rstsr-sci-traits`) apart from `cdist` and the Lebedev grids; the text of
devices and the debug text of tensors; `rstsr-dtype-traits` beyond the operations used above; HDF5 and other plugins; allocation failure; drop order.

## Disagreements between code and property

Where the code breaks a property, the theorem with the suffix `_partial` proves the part that holds, and one of the
following theorems proves a concrete failure of the rest.

* C09, C12: negative step with a literal stop of `-1`, or with a start below `-len`, differs from Python.
* C11: `squeeze` accepts an out-of-range axis beside a legal one (`C11_squeeze_out_of_range_accepted`).
* C13: the diagonal of an axis with itself leaves the storage (`C13_equal_axes_witness`).
* C15, C55, C60: super-diagonals beyond the shorter side are lost or panic (`C15_wide_super_diagonal_lost`,
  `C15_tall_super_diagonal_panics`, `C55_...`, `C60_false_beyond`); column-major `eye` is transposed (`C60_false_col_major`).
* C20: `-1` beside a zero length panics (`C20_zero_product_panics`).
* C21: `copy = true` does not check the size (`C21_copy_unchecked`).
* C24: splitting an empty iterator divides by zero (`C24_empty_split_panics`).
* C25, C52: indexed iterators called from the back pair index and element wrongly (`C25_indexed_back_witness`,
  `C52_false_indexed_back`); K order with indices (`C52_false_indexed_K`); panics instead of errors
  (`C52_false_axes_error`, `C52_false_axes_empty`); aliasing mutable views (`C52_false_mut_alias`).
* C28: order A panics on rank 0, and order B keeps the offset of a reversed axis, so it visits wrong cells
  (`C28_default_rank0_witness`). Order B also accepts a repeated axis beside a gap when the span happens to equal
  the number of elements (`C28_false_flat_gaps`). `C28_flat_partial` and `C28_flat_accept` cover the layouts with
  positive strides.
* C32, C33, C37: stride-0 destinations and larger sources are accepted (`C32_zero_stride_destination`,
  `C33_larger_source_accepted`); in parallel updates are lost (`C37_shared_cell_lost_update`).
* C35: `to_layout` into a layout with holes uses uninitialised cells (`C35_to_layout_holes`).
* C39: reductions over broadcast or empty axes (`C39_false_broadcast_reduced`, `..._vector`, `..._remains`, `C39_false_empty`).
* C40: parallel arg-reductions permute coordinates or panic (`C40_par_axes_swapped`, `C40_par_reversed_panics`).
* C41, C42: batch ranks, truncated results, inner products with an offset, fresh storage with NaN
  (`C41_false_batch_ranks`, `C41_false_whole_operand`, `C41_false_truncated`, `C42_false_inner_offset`, `C42_false_fresh`).
* C43: parallel `vecdot` of operands with shared cells races and doubles the sum (`C43_false_shared`); vectors without elements can panic
  (`C43_false_empty`).
* C44: `triu` writes past the row on tall matrices (`C44_false_triu_tall`, `..._outside`, `..._lost`).
* C45: anti-Hermitian diagonals, non-zero packed diagonals, unknown symmetry (`C45_false_...`).
* C46, C57: empty index list on an empty axis, mask length not checked (`C46_empty_axis_rejected`, `C57_mask_length_unchecked`).
* C50: large, descending and overflowing ranges (`C50_false_...`).
* C51: `into_owned` of a shared buffer panics; iterators outlive the tensor (`C51_false_into_owned`, `C51_false_iter`).
* C58: unequal axis lists accepted, more than 52 labels refused (`C58_false_lengths`, `C58_false_letters`).
* C59: `full` of a layout with holes (`C59_false_full`).
* C61: `beta` is ignored when the result has no unit stride (`C61_false_beta`) and when the sum is empty (`C61_false_empty_sum`).
* C62: matrices without columns panic (`C62_false_no_columns`); the number of weights is not checked for most metrics, so that
  columns are lost, a layout decides between a result and a panic, or the result is scaled (`C62_false_few_weights`,
  `C62_false_many_weights`); the weighted correlation uses the mean without weights (`C62_false_correlation`).
* C63: `i8` with `i16` has no rule in this order, the line is commented out (`C63_false_missing`); `usize` with `isize` has none
  (`C63_false_index_types`); the `u64` 2^53 + 1 equals the `i64` 2^53 (`C63_false_equal`).
* C64: everything is close to an infinite reference value except that same infinity (`C64_false_infinite`); `i8::MIN` is not
  close to itself, or panics (`C64_false_min`); 100 and -100 of type `i8` are close, or panic (`C64_false_overflow`).
* C65: `signbit` is inverted (`C65_false_signbit`); `abs` of the least integer is negative or panics (`C65_false_abs`); `round`
  takes ties away from zero (`C65_false_round`); `floor_divide` of floats rounds the quotient first, so that `1.0 // 0.1` is 10
  (`C65_false_floor_divide`).
* C67: the strides of the other axes are divided by N without a check, so that packed elements read the wrong cells
  (`C67_false_stride`); a vector with spare capacity is given back with the wrong size (`C67_false_capacity`).
* C68: for a row-major window the drivers form a slice of `n * lda` elements, which reaches beyond the end of the storage
  (`C68_false_slice`).
* C69: `inv` of a matrix with more columns than rows panics instead of giving an error (`C69_false_wide`).
* C70: `det` and `slogdet` of a singular matrix are errors, though the determinant is zero (`C70_false_singular`); of a matrix with
  more rows than columns `det` gives a number (`C70_false_tall`).
* C72: a system without equations is an error: the query for the size of the work array passes a leading dimension of zero
  (`C72_false_empty`). The query of the complex drivers writes a complex number into a local variable of real type; this is not modelled.
* C73: `TRSM` passes the pointers of the storage without the offsets of the layouts, so a matrix that is a later part of a tensor is taken for the
  first one (`C73_false_offset`), and takes the number of rows for the leading dimension of an output that is changed in place, so the cells
  between the columns of a window are overwritten (`C73_false_strided`).
* C74: the same holds for the factors and the output of `GEMM` (`C74_false_offset`, `C74_false_output`). The order that is asked for is inverted
  (`C74_false_order`).
* C75: `SYMM` reads the other triangle if the matrix is not stored in the order of work (`C75_false_triangle`); the width of the product is taken
  from the symmetric matrix, so with a rectangular factor the product has a wrong shape (`C75_false_shape`).
* C76: the fields `subset_by_index` and `subset_by_value` of `EighArgs` have no effect: all eigenvalues are given whatever part is asked for
  (`C76_false_subset`).
* C78: `svd` with the driver `"gesvd"` of a matrix that is stored column by column: a wide matrix panics while U or Vᴴ is read back, a
  tall one gives LAPACK a leading dimension that is too small, which is an error (`C78_false_gesvd`). The theorem for this driver is for
  the other order only. A matrix with no rows or no columns is left out.
* C79: `pinv` of a matrix without a singular value above the tolerance, such as a zero matrix, multiplies empty matrices and gives BLAS
  an illegal leading dimension, where the pseudo-inverse is the zero matrix and the rank 0 (`C79_false_zero`). The theorems are for at
  least one singular value above it. A matrix with no rows or no columns is left out.
* C80: the reductions start from the greatest or smallest finite number, not from an infinity. The minimum of a tensor of plus
  infinities or of values that are not numbers is `MAX`, the maximum of minus infinities is `MIN` (`C80_false_infinite`). The theorems
  are for tensors with an element below plus infinity or above minus infinity.
* C82: a matrix that is not square and a right side of another number of rows are panics in the library, not errors (`C82_false_square`,
  `C82_false_rows`); the inverse of a singular matrix is some matrix, not an error (`C82_false_singular`).
* C83: a matrix that is not square, or a second matrix of another size, is a panic (`C83_false_square`, `C83_false_size`). `eigh` of two
  matrices copies the first one and fills in its other triangle; the copy keeps elements that share cells if the storage has as many cells as
  there are elements, and the triangle that was given is changed (`C83_false_shared`).
* C84: for complex matrices `svd` returns Vᵀ where Vᴴ is asked for: the product U Σ Vᵀ is not the matrix (`C84_false_complex`, the matrix [1 i]).
  `pinv` of a matrix without elements panics (`C84_false_empty`).
* C85: a call that fails leaves faer's global number of threads at that of its pool (`C85_false_error`, for example Cholesky of an indefinite
  matrix); so do two successful calls that overlap (`C85_false_race`). The results of `cholesky`, `inv`, `eigh` and `svd` are on the default
  device, not on that of the argument (`C85_false_device`). A matrix with a negative stride cannot come back from `faer` (`C85_false_negative`).
* C86: `MIN_PRINT` and `MAX_PRINT` can be set to anything. With `MIN_PRINT` zero, long axes show the first part, no others, and no closing
  brackets (`C86_false_few`). With `MAX_PRINT` at most twice `MIN_PRINT` an ellipsis can stand for nothing (`C86_false_ellipsis`).
* C88: the documentation of `lebedev_rule` gives degree 5802 for order 131. The rule has 5810 points and 5802 is refused
  (`C88_false_131`).
* C89: a body that panics leaves its number behind (`C89_false_panic`). With a library that keeps one number for all threads (OpenBLAS built
  with pthreads) the tasks of a batched product disturb each other: one runs under the full number of threads instead of one, and the number
  can stay at one for the rest of the program (`C89_false_race`).
* C90: a vector with more values than the shape has elements is accepted, the rest is ignored (`C90_false_length`).
* C94: when both operands of `mapb_fnmut` are stretched along an axis, the result shares cells, and its elements are what the last call
  for the cell returned, not what the call for the index returned (`C94_false_shared`).
* C92: when TBLIS refuses the subscripts, its number of threads stays that of the device instead of the former number (`C92_false_threads`).
* C95: in a tuple, a number that cannot be represented is a panic also in the functions that return errors (`C95_false_tuple`). Indices, bounds
  of slices and single axes of `vecdot` and `tensordot` are cast: `usize::MAX` selects the last element (`C95_false_select`), `0..usize::MAX`
  leaves out the last element (`C95_false_range`), the axis `usize::MAX` is the last one (`C95_false_pair`), and with 32 bits a 64-bit index
  loses its upper half (`C95_false_narrow`).
* C96: from 128 elements on, memory is asked for with alignment 64 and given back with the alignment of the element type, which the contract of
  the allocator forbids (`C96_false_drop`). The number of bytes is computed modulo the word: `2^61 + 1` numbers of 8 bytes get 8 bytes
  (`C96_false_overflow`). 128 or more elements without size are refused (`C96_false_zero_sized`).
* C97: `iter_mut` of a view with an axis of stride zero hands out one cell several times (`C97_false_alias`), and on two threads updates are
  lost (`C97_false_race`). `next_back` with an index gives the front index with the last element (`C97_false_indexed_back`). Splitting the
  iterator of a tensor without elements panics (`C97_false_split_empty`).
* C98: without overflow checks a new tensor of shape `[2^32, 2^32]` asks for no cells (`C98_false_create`), a layout of stride `2^62` is
  accepted for a storage of one cell (`C98_false_accept`), a broadcast tensor of `2^64` elements has size 0 (`C98_false_broadcast`).
  Also with the checks, a length of `2^64 - 1` passes as -1 and the elements lie outside of the storage (`C98_false_cast`). With the checks, some layouts
  without elements panic (`C98_false_empty`).
* C99: `op=` through a view in which several indices are one element is accepted and applies the function once per index
  (`C99_false_repeated`); `fill` and `assign` refuse such a view. Views without elements are not covered.
* C102: the mean of three times `0.1` as `f64` is greater than `0.1` (`C102_false_mean_range`), the variance is computed as the mean of squares
  minus the square of the mean and is negative there (`C102_false_var`), so the standard deviation is not-a-number (`C102_false_std`).
* C104: `log_add_exp` computes `ln(exp a + exp b)` as written: of 1000 and 1000 it is infinite (`C104_false_overflow`), of -1000 and -1000 minus
  infinite (`C104_false_underflow`), in double precision.
* C105: on a device with column-major order `fingerprint` copies to row-major storage and then flattens column by column, so the
  same array has another fingerprint there (`C105_false_order`); `allclose_f64` does not compare shapes, as documented.
* C106: a program outside of the array semantics of C99 (views without elements, `op=` through a view with repeated elements) is not
  covered. One device describes a whole statement: two calls inside one statement on loops of the same sizes are divided alike.
* C108: with the endpoint the last double of a linear spacing need not be the stop, on either device (`C108_false_end`); on the serial
  device values can lie beyond the stop (`C108_false_outside`); the devices differ (`C108_false_devices`).
* C109: a range of floats can contain its stop if the step is smaller than the distance of the floats (`C109_false_stop`); a value before the
  stop can be missing (`C109_false_missing`); a negative step away from the stop never ends (`C109_false_wrong_way`).
* C110: the mean of complex numbers divides by the number of elements as by a complex number, so it multiplies with it first: the mean of
  `2^126` and `2^126` in single precision is infinite (`C110_false_overflow`), and an infinite real part makes the imaginary part not-a-number
  (`C110_false_infinite`). A quotient `z / z` can be not-a-number for `z` as moderate as `2^64` (`C110_false_quotient`), and the variance negative
  (`C110_false_var`). The formulas of `num-complex` are taken from its documentation. No bound for variances is proved; quotients are bounded for formats with at least four digits.
* C111: lower case letters are flags as `char` and panic as `c_char` (`C111_false_lower`); every conversion of the flag `CN` panics, also the one to
  an enumeration that has it (`C111_false_conj`); `flip` of `T` for Hermitian use, or of `C` for other use, gives `N`, so two flips do not give
  the flag back (`C111_false_flip`). The callers in `rstsr-blas-traits` pass the matrix without conjugation in that case.
* C112: the diagonal of an axis with itself has a rank of its own: refused for a fixed rank, accepted (and wrong, see C13) for a dynamic one
  (`C112_false_diagonal`). Stacks of different depth, both above matrices, are multiplied for dynamic ranks and not compiled for fixed ones
  (`C112_false_compiled`); this is a missing entry, not a wrong one.

## Testing the theorems

`tools/mutate.py` edits the model the way a bug would edit the program, in a copy, and lists the theorems that no longer
hold. `seeded/LOG.jsonl` has one line per edit. Edits that no theorem noticed led to stronger theorems, or are marked as
equivalent (a change of performance thresholds, for instance).
