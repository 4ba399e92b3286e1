# A Lean 4 model of lanl/bml: design

The code under study is the C library in `/repo/src` (Basic Matrix Library).
It is read as text; nothing is built or run.  The model lives in
`lean/Verif/`, the list of properties in `properties.jsonl`, the status of each
property in `MANIFEST.json`, the mutation experiments in `seeded/LOG.jsonl`.

## 1. Shape of the model

* **Outcome.**  Every modelled C function returns `Res α`:
  `ok a` (normal return), `error` (`LOG_ERROR`, which ends the process, or a
  failing `assert`), or `ub` (out-of-bounds access, use after free, null
  dereference).  Nothing is totalised away: an array access outside the
  allocation is `ub`.
* **Memory.**  A C array is `Arr α = {size, get}`, read and written only through
  the checked functions `Arr.read`/`Arr.write`.  `calloc` gives zeros; `malloc`
  gives an arbitrary `junk` function that is a parameter of the model, so
  theorems hold for every content of uninitialised memory.
* **Loops** are `loop n s f` (structural recursion), or `forList` over an
  explicit list.  `while` loops take fuel, and running out of fuel is the
  separate outcome `ub`, so a termination claim is a claim that enough fuel exists.
* **OpenMP.**  A row-parallel loop takes a *schedule* (a list of
  `(thread,row)` events whose rows are a permutation of `0..N-1`).  Thread-private
  scratch arrays are indexed by the thread.  The theorems quantify over all
  schedules.  Granularity: one loop iteration (or one locked region) is atomic; for the main
  ELLPACK loops this is proved from single loads and stores (C77).
* **Numbers.**  Matrix values are elements of an arbitrary commutative ring
  `R` (or an ordered field where order is needed).  C82 and C83 take any type with operations
  (no laws), respectively operations with bounded relative error; elsewhere rounding is not
  modelled, and overflow and NaN nowhere.  The test `is_above_threshold(x,t)`
  (`src/typed.h`) is an arbitrary Boolean predicate `big : R → Bool`; where a
  theorem needs something about it (for instance `big 0 = false`) this is an explicit hypothesis.
  C `int` indices are `Nat` (or `Int` where the code tests for negative
  values).  32-bit overflow is modelled in the domains, the sparsity, `sqrtint`, the
  tile offsets of distributed import/export, and (C68) construction and element access; elsewhere
  the address `i*M+k` is unbounded, which C68 justifies for matrices of at most `2^31-1` slots.

## 2. Specification

`Verif/Spec.lean` is a page of ordinary mathematics: a matrix is a function
`Nat → Nat → R` looked at below `N`; sums are `Finset` sums.  A model matrix
`A` *represents* `a` when it is well formed and the model of
`bml_get_element` returns `a i j` for all `i,j < N`.  Property theorems have the form
"represents a, represents b, capacity ⟹ the call returns `ok` and the result
represents the mathematical operation applied to a, b".

## 3. Plan per property

| id | modelled | proof method |
|----|----------|--------------|
| C01 | ellpack set/get element | false as stated (search skipped when nnz ≤ 2): negation by witness; partial theorem for the other case |
| C02 | csr row storage, growth, set/get | invariant over histories |
| C03 | dense set/get | address injectivity |
| C04 | set_row/get_row in ellpack, csr, dense | loop invariants |
| C05 | set_diagonal/get_diagonal | loop invariants |
| C06 | import/export | loop invariants, composition |
| C07 | copy | copies are values; address-level model for aliasing in ellblock/csr |
| C08 | add | scratch-accumulator invariant; csr: stale pointer modelled by a generation counter |
| C09 | add_identity, scale_add_identity | same; single precision scale by bit-level argument passing |
| C10 | scale | pointwise |
| C11 | threshold, threshold_new | compaction invariant; csr threshold_new is wrong: negation |
| C12–C14 | multiply_AB, x2, multiply | scratch-accumulator invariant, sums over stored entries |
| C15 | overflow behaviour | exact ok/error dichotomy for AB; negative witnesses for silent operations |
| C16 | multiply_adjust_AB | fuel; non-termination proved for an overflow case |
| C17 | transpose_new | all schedules |
| C18 | in-place transpose csr/ellpack/dense | loop invariant, measure |
| C19 | adjungate_triangle | loop invariant |
| C20 | trace, trace_mult | sums; negation of cross-format agreement |
| C21 | norms | sums; negation of cross-format agreement for the submatrix norm |
| C22, C23 | gershgorin, normalize | linear algebra over an ordered field |
| C24, C25 | domains | arithmetic induction |
| C26 | csr hash table | refinement to a finite map |
| C27 | Matrix Market text as a list of characters; `%s`, `%d` scanned and printed character by character, `%lf`/`%20.15g` a parameter | reading the written text equals the list of writes, then the element-write histories |
| C28 | submatrix extract/assign | loop invariants; assign into a populated block is false for ellpack |
| C29 | convert | loop invariants |
| C30 | reorder | permutation argument; dense and block-ELLPACK are wrong: negations |
| C31 | internal gemm | column sweeps |
| C32 | constructors | loop invariants |
| C33 | introspection | counting |
| C34 | bounds checks | case analysis over Int |
| C35 | element multiply | scratch-accumulator invariant |
| C36 | row-parallel loops | quantification over schedules in C08, C10–C13 |
| C37 | fnorm2 | negation (stale value; data race), partial theorem |
| C38, C39, C52–C56 | ellblock: heap of blocks, block rows, global block sizes | block index bijection; ghost list of blocks per block row; history of global block sizes; clear, copy, import: negations where the code fails |
| C40 | core-halo submatrix | loop invariants |
| C41 | in-place MPI_Allgatherv with the domain's counts and displacements; distributed general product | blocks of C24/C25; owners' rows by the theorems for row ranges |
| C42 | Cannon's algorithm as a program in phases, asynchronous ranks, first-in first-out channels, sends that may or may not wait for the receive | every interleaving equals the phase by phase run (channel invariant, progress, step bound); then induction over the p-1 shifts, cyclic reindexing |
| C43 | distributed wrappers over an abstract local format (`Local.Exact`), shown exact for dense, ELLPACK and CSR; collectives as functions of all ranks' data, transposition as messages | block sums, tile algebra; negative results for add_identity, get_row, column-major import, CSR trace_mult |
| C44 | sqrtint | induction |
| C59–C61 | ellblock traces, sums, circles, threshold | sums over the ghost lists of blocks; loop with shrinking rows as filtered list |
| C62 | ellblock add, add_identity, scale_add_identity, normalize | work space invariant per row, cells with old allocations as partial function; schedules; refutations |
| C63 | ellblock multiply, multiply_x2, multiply_AB | refinement to list-of-blocks products per row, touched columns as duplicate-free list; filling of rows as invariant over a partly valid matrix; schedules; refutations |
| C64 | ellblock transpose_new, transpose | transposed blocks as a relation between lists of blocks; in place: invariant over a partly valid matrix with transposed and untouched parts of each row, measure = untouched blocks; refutations |
| C65 | ellblock sum_squares2, sum_AB, fnorm2, add_norm | invariants over the buffers of a block row (which columns are marked, listed, filled); sums over lists of block columns; the loss by a block-wise threshold is bounded; fnorm2 and add_norm refuted outside the stated cases |
| C66 | ellblock convert, extract_submatrix, assign_submatrix | explicit lists of stored blocks of the result as loop invariant; conversion with the row count ahead of the blocks; window = whole blocks of equal sizes; other windows, populated targets and other sizes in effect refuted |
| C67 | distributed file reading and writing: rank 0 collects or hands out tiles, the other ranks send or receive one message | asynchronous semantics with one message per rank (measure for termination, invariant for every interleaving); loop invariant over the tiles placed so far; single-process readers and writers from C27; negations for CSR and block-ELLPACK |
| C68 | constructors with their domains; get and set with `int` addresses | exact below the limit (equality with the unbounded model); negations above it |
| C69 | the four functions of `bml_elemental.c` with their dense and ELLPACK variants | equality with the represented matrix where the column search is right; negation for every identity matrix |
| C70 | the Fortran constructors, copy, release and `bml_clear`, on top of the handle model of C47 | invariant of C47 over sequences of Fortran calls; negations for assignment, self-copy and `bml_clear` |
| C71 | the tables between names and numbers, the query functions | equality with the constructor's arguments; negations for the wrong tables |
| C72 | the Fortran setters, getters, element functions and `bml_reorder` over the local formats | reduction to C01–C05, C30, C33, C38, C54, C69 with shifted indices; negations where an index or permutation is not shifted or checked |
| C73 | a Fortran array as storage, offset, strides and extents; import and export | reduction to C06 and C55 for contiguous arrays; negations for other layouts and processes |
| C74 | `bml_inverse` in all local formats around LAPACK's GETRF/GETRI, which are parameters | the LAPACK contract (column-major) with the transposition between the two orders; negations when the inverse does not fit and for singular matrices |
| C75 | `bml_diagonalize` in all local formats around SYEV/HEEVR, which are parameters; the Fortran wrapper | the contract of LAPACK, the spectral theorem as witness for it; negation for complex matrices, overfull rows, LAPACK failures and the Fortran array |
| C76 | output as a list of elements and line ends; the print functions of C and Fortran | loops with `int` bounds equal the lines of a window of the matrix, after C06/C43/C55 for the export; negations for the Fortran bounds, columns beyond the matrix and array sections |
| C77 | threads as programs of loads, stores and lock operations (`Race/Basic`), every interleaving | footprints of programs and non-interference (`Team.reduction`: every interleaving equals the run with atomic iterations); dense loops by targets of owned cells (`Race/Dense`, `Team.direct`); critical sections linearized at the acquire (`locked_safe`); simulation of the existing models (`Tr`), so the results are those of C08, C11, C12, C17; negations by explicit interleavings |
| C78 | any list of characters through the conversions of `fscanf` (`Common/MmAny`: `contents`) | the reading loop equals a loop over the entries the text contains, then the theorems on writes; general theorems for the first entry out of range |
| C79 | programs of calls (as in C46) and questions (`Common/Program`), three formats | each answer is the specification's (C04-C06, C20, C21), induction over the program; CSR row space never shrinks (`Csr/Wide`), so wide rows stay wide |
| C80 | Fortran procedures as calls of C with filled-in arguments on variables that may be null (`Fortran/Program`) | simulation: after each statement the existing variables represent the specification's matrices; the step is that of C79 |
| C81 | block-ELLPACK programs with output and the block sizes shared by the process (`Common/BlockProgram`); a stage per variable (empty, clean, roomy, plain) says which calls may follow | simulation: the stage of a matrix implies what its unused pointers point to (`EllB.Clean`, `EllB.Neat`), every call is correct at the stages it is allowed at and leaves the stage the specification says |
| C82 | the ELLPACK, CSR and dense models over any type with operations; `Round/Spec` says which operations give an element, `Spec.stored`, `Spec.csrStored` and `Spec.denseStored` which entries a call stores in which order | invariants of the loops on lists of stored entries (`Round/Rows`, `Ops`, `Ops2`): the scratch arrays hold the running sums in the order of the terms; simulation for programs; limits by concrete schedules in three-bit arithmetic (`Round/Toy`) |
| C83 | the same models; `Spec.Rounds val u` is the standard model of floating-point arithmetic; reductions as sums of the threads' sums in any bracketing (`Spec.SumOf`) | induction over the bracketing (`SumOf.error`), then over stored entries (`Round/Error`); programs by simulation with an exact program and its error bounds side by side |
| C84 | both levels of dispatch, one definition per C function (`Common/Dispatch`, about 350): as which structure and element type each operand is read | case analysis over all functions, formats and element types, which are finite sets |
| C85 | the allocations, uses and frees of every dense, ELLPACK, CSR and block-ELLPACK function that allocates, in their order (`Memory/Model`, `Memory/Block`), and of `distributed2d/` on one rank over an abstract format of the tiles (`Memory/Dist`), the file functions also for CSR and block-ELLPACK tiles (`Memory/DistFiles`); numbers are replaced by universally quantified choices; programs over a list of held objects (`Memory/Program`) | an ownership logic over multisets of blocks (`Memory/Basic`): each call replaces the blocks it is given and leaves all others alone; induction over programs |
| C45 | fnorm over complex numbers | real: proved; complex: negation |
| C46 | programs over matrix variables: 17 kinds of calls, three formats, schedules and memory contents chosen by the environment per call | induction over the list of calls with the theorems of the single calls; negations for ELLPACK element writes and CSR sums |
| C47 | constructors, copies, release, introspection over a heap of objects and an arbitrary allocator, any sequence of calls | ownership footprints, invariant over call sequences; negations where the rules are broken |
| C49 | group matrix, thread-private marks | invariant over the schedule prefix; exact result, negation for one thread |
| C50 | core and halo index lists | list-append invariant |
| C57 | send, receive, broadcast: message contents and receive buffers | loop invariants over the packed message; negations for CSR |
| C58 | the two domains of a matrix, copy of their arrays | loop invariant, induction over the updates; negations for extents and CSR |
| C51 | adjacency lists, qsort as insertion sort | disjoint segments under every schedule; negations |

## 4. Trusted base

Lean 4.33.0 kernel; Mathlib definitions used in statements (`Finset.sum`,
`CommRing`, `List.Perm`, `Real.sqrt`, `Complex`, ...); the axioms `propext`,
`Classical.choice`, `Quot.sound` (at most).  No own axioms, no `sorry`, no
`native_decide`, no `bv_decide`.  The correspondence of the model to the C text
is by reading; each definition cites file and lines.

### Modelled

| module | code |
|--------|------|
| `Common/Domain` | `bml_default_domain`, `bml_update_domain` (all formats use the same text) |
| `Dense/Gemm` | `bml_gemm.c` internal gemm; `sqrtint` |
| `Ellpack/Model` .. `Model5` | allocate, set/get, import/export, copy, reorder, scale, add, add_norm, add_identity, threshold, multiply (AB, x2, general, adjust_AB), transpose (new and in place), adjungate, trace, trace_mult, norms, fnorm2, normalize and Gershgorin, submatrix functions, group matrix, adjacency, element multiply, convert, introspection |
| `Dense/Model` | the same list for the dense format, built without BLAS/MAGMA |
| `Csr/Hash`, `Csr/Model`, `Csr/Model2` | row hash table, growing rows, and the same list for CSR |
| `Ellblock/Model` | block-ELLPACK without memory pool: storage with a heap of blocks, element/row/diagonal access, block sizes, constructors, clear, import/export, copy, scale |
| `Ellblock/Reduce`, `Ellblock/Model2` | block-ELLPACK trace, trace_mult, sums, sparsity, Gershgorin, accumulate_offdiag, threshold, free of a block |
| `Ellblock/Model3` | block-ELLPACK add, add_identity, scale_add_identity, normalize, products |
| `Ellblock/Model4` | block-ELLPACK transposition into a new matrix and in place |
| `Ellblock/Random` | `bml_random_matrix_ellblock`; `rand()` is an arbitrary sequence |
| `Ellblock/Model5` | block-ELLPACK sum_squares2, add_norm (sum_AB and fnorm2 are in `Ellblock/Reduce`) |
| `Ellblock/Model6` | `bml_convert_ellblock_typed.c` (all), `bml_submatrix_ellblock_typed.c` (all) |
| `Ellblock/Model7`, `Dist/EllbFormats` | `bml_parallel_ellblock_typed.c`: send, recv, irecv, bcast, recv_matrix; block-ELLPACK tiles in Cannon's algorithm |
| `Common/MatrixMarket`, `Ellpack/MatrixMarket`, `Ellblock/MatrixMarket` | readers and writers of the four formats, header parsing, number scanning |
| `Dist/Async`, `Dist/Grid` | semantics of ranks and messages; Cartesian grid, `MPI_Cart_shift`, tiles |
| `Dist/Message` | `bml_mpi_send`, `recv`, `irecv`, `bcast` of dense, ELLPACK, CSR |
| `Dist/Cannon`, `Dist/Formats` | `bml_multiply_distributed2d` over the three formats |
| `Dist/Wrappers`, `Dist/WrapProof`, `Dist/WrapFormats` | the other functions of `distributed2d/` (constructors, copy, add, add_identity, scale, threshold, rows, diagonal, trace, sums, import/export, transpose, normalize, Gershgorin) |
| `Dist/Gather` | `bml_allGatherVParallel`, distributed ELLPACK product |
| `Large` | constructors of ELLPACK and dense matrices with their two domains; `ROWMAJOR`, get_element and set_element with `int` addresses |
| `Elemental` | `bml_elemental.c`, `bml_elemental_dense.c`, `bml_elemental_ellpack.c` |
| `Lapack` | `bml_inverse_{dense,ellpack,csr,ellblock}_typed.c`, `bml_diagonalize_dense.c`, `bml_diagonalize_{ellpack,csr,ellblock}_typed.c`, `bml_diagonalize_m.F90`; the contracts assumed of LAPACK are in `LapackSpec` (`Inverts`, `Diagonalizes`) |
| `Fortran/Handle` | `bml_interface_m.F90`, `bml_introspection_m.F90`, `bml_allocate_m.F90`, `bml_copy_m.F90` (`bml_copy_new`), `bml_c_interface_m.F90` (`bml_clear_C`) |
| `Fortran/Access` | `bml_setters_m.F90`, `bml_getters_m.F90`, `bml_elemental_m.F90`, `bml_copy_m.F90` (`bml_reorder`), the dispatch in `bml_setters.c`, `bml_getters.c` |
| `Fortran/Block` | the same procedures for block-ELLPACK matrices, without `bml_reorder` |
| `Ellblock/Reorder`, `Ellblock/ReorderOne` | `bml_reorder_ellblock` (without the memory pool) |
| `Fortran/DenseArrays` | `bml_import_m.F90`, `bml_export_m.F90`, the dispatch in `bml_import.c` |
| `Fortran/Program` | `bml_add_m.F90` (without `bml_add_norm`), `bml_multiply_m.F90` (without `bml_element_multiply_AB`), `bml_scale_m.F90`, `bml_threshold_m.F90`, `bml_transpose_m.F90`, `bml_copy_m.F90` (copies), `bml_trace_m.F90` and `bml_norm_m.F90` (`bml_trace`, `bml_sum_squares`), and the null checks of the C dispatchers |
| `Common/BlockProgram` | sequences of calls of the block-ELLPACK functions of `Ellblock/Model`-`Model5` |
| `Print` | `bml_print_bml_matrix`, `bml_print_dense_matrix`, `bml_print_dense_vector` (`bml_utilities.c`), `bml_print_bml_matrix_dense`, `bml_utilities_m.F90`, `bml_utilities_typed_m.F90` |
| `Race/Dense` | access by access: the parallel loops of threshold, threshold_new, element multiply, add_identity, transpose (new and in place), the two triangle copies and fnorm2 of dense matrices |
| `Common/Dispatch` | the functions that choose code by format (`src/C-interface/bml_*.c`) and by element type (`src/C-interface/*/bml_*_{dense,ellpack,ellblock,csr,distributed2d}.c`): one definition each |
| `Memory/Model`, `Memory/Block`, `Memory/BlockMove`, `Memory/Dist`, `Memory/DistCsr`, `Memory/DistFiles`, `Memory/DistDiagonalize`, `Memory/Program` | which blocks `bml_allocate.c`, `dense/`, `ellpack/`, `csr/`, `ellblock/` (default build, without its memory pool) and `distributed2d/` (one rank; not ELPA) allocate, use and free; not modelled here: that memory can run out, the aliasing of a result with an operand, interleavings of threads |
| `Race/Ellpack`, `Race/EllTranspose` | access by access: the parallel loops of threshold, add, the product, transpose_new and adjungate_triangle of ELLPACK matrices |
| `Dist/Wrappers2` | `bml_norm_distributed2d.c` (fnorm, fnorm2), `bml_introspection_distributed2d.c` (sparsity), `bml_convert_distributed2d.c`, copy, clear |
| `Dist/Diagonalize` | `bml_diagonalize_distributed2d_typed.c` with ScaLAPACK, which is a parameter (`PDiagonalizes`), for dense, ELLPACK, CSR and block-ELLPACK tiles |
| `Dist/AddNorm` | `bml_add_norm_distributed2d` (`bml_add_distributed2d.c`) |
| `Sparsity` | the last lines of `bml_get_sparsity` in every format, with the `int` product `N * N` |
| `Dist/Collect`, `Dist/Files`, `Dist/EllbFiles` | `bml_utilities_distributed2d.c` for dense, ELLPACK, CSR and block-ELLPACK tiles |
| `Common/Handle`, `HandleProof`, `HandleInv` | allocation, release and introspection of handles in all formats: which blocks each function allocates and frees (contents of the arrays are in the other modules) |
| `Common/DomainSave` | `bml_copy_domain`, `bml_save_domain`, `bml_restore_domain` |
| `Common/History` | sequences of calls (no new code, dispatch to the models of the formats) |
| `Norm` | `bml_fnorm` of the three formats over real and complex numbers |
| `FloatArg` | how the `double` argument of `bml_scale_add_identity` reaches the element type, bit by bit |

### Not modelled

Floating-point rounding (except in C82, C83), NaN, overflow, fused multiply-add; 32-bit overflow of array offsets (except
in C24, C25, C33, C43, C44, C59, C68); GPU/MAGMA/cuSPARSE/rocSPARSE branches and
OpenMP offload; BLAS; what happens inside LAPACK (its procedures are parameters
with the contracts `Inverts` and `Diagonalizes` of `LapackSpec`, in exact arithmetic);
ScaLAPACK (a parameter with the contract `PDiagonalizes` of `Dist/Diagonalize`), ELPA; the MPI
library itself (its semantics is `Dist/Async`: reliable, ordered channels); the parts of the Fortran interface not listed above; logging output; timers.  Conditional
compilation follows the plain CPU build with OpenMP.  Within a parallel loop an
iteration (or locked region) is atomic, except where a property is about a race
(`adjungate`, dense `fnorm2`), which are modelled step by step, and except in C77,
where threads make single loads, stores and lock operations in any order (memory is
sequentially consistent there; weaker hardware memory models are not modelled).

## 5. Where the code disagrees with the property

Each item is a theorem named in `MANIFEST.json`; the claims concerned are
`partial` and carry the part that does hold.

Dispatch
* `bml_matrix2submatrix_index_graph` of a double precision ELLPACK matrix calls the single precision routine, and of a single precision complex one the double precision complex routine (ellpack/bml_submatrix_ellpack.c lines 107 and 115); harmless, as the routine reads only indices (C84).
* No function but `bml_copy` compares the formats of its matrices, and none their element types (C84).
* `bml_block_matrix` asked for ELLPACK makes an ELLBLOCK matrix (C84).

Memory
* `bml_transpose_new` of an ELLPACK matrix never frees its array of locks (builds with OpenMP, ellpack/bml_transpose_ellpack_typed.c) (C85).
* `bml_extract_submatrix` of a CSR matrix never frees the two arrays it allocates for each row (csr/bml_submatrix_csr_typed.c 29-62) (C85).
* `bml_add` of CSR matrices keeps a pointer to the values of a row while it appends to that row; when the row grows, `realloc` may move them, and the sums that follow go to freed memory (csr/bml_add_csr_typed.c 37-90) (C85).
* `bml_add`, `bml_copy`, `bml_add_identity` and `bml_diagonalize` of block-ELLPACK matrices lower the number of submatrices of a row without freeing those beyond it; nothing frees them later (ellblock/bml_add_ellblock_typed.c 163-193) (C85).
* `bml_multiply` of a block-ELLPACK matrix with itself drops the trace array `bml_multiply_x2` returns (ellblock/bml_multiply_ellblock_typed.c 202, 213) (C85).
* `bml_multiply_AB` of block-ELLPACK matrices allocates new submatrices over the pointers of its result; the old ones are lost (ellblock/bml_multiply_ellblock_typed.c 597-612) (C85).
* `bml_multiply_adjust_AB` of block-ELLPACK matrices never frees its NB work arrays (ellblock/bml_multiply_ellblock_typed.c 671) (C85).
* `bml_add_norm` of block-ELLPACK matrices never frees `x[0]` and `y[0]`, and writes through a NULL pointer when a row gets a submatrix more (ellblock/bml_add_ellblock_typed.c 238-345) (C85).
* `bml_clear` of a block-ELLPACK matrix frees the submatrices and keeps their pointers; `bml_copy` into the cleared matrix takes them for submatrices it may write (C85).
* `bml_convert` of a distributed matrix overwrites the tile its result was made with, which is lost (distributed2d/bml_convert_distributed2d.c 19-26) (C85).
* `bml_export_to_dense` of a distributed matrix never frees the exported tile, on any rank (distributed2d/bml_export_distributed2d_typed.c 40) (C85).
* `bml_get_row` of a distributed matrix never frees the part of the row a rank has (distributed2d/bml_getters_distributed2d_typed.c 26) (C85).
* `bml_read_bml_matrix` and `bml_write_bml_matrix` of a distributed block-ELLPACK matrix never free the array of block sizes they allocate, on every rank and on rank 0 (distributed2d/bml_utilities_distributed2d.c 36, 93) (C85).
* Receiving into a block-ELLPACK matrix overwrites the pointers to the submatrices it has, which are lost; products of distributed block-ELLPACK matrices do so in every turn (ellblock/bml_parallel_ellblock_typed.c 90-95, 134) (C85).
* After `bml_transpose` of a block-ELLPACK matrix, `bml_add_identity` can leave two pointers to one submatrix, which `bml_deallocate` frees twice (ellblock/bml_transpose_ellblock_typed.c 190, 222) (C85).

Reproducibility
* `bml_trace` and `bml_sum_squares` of the same matrix give different last bits under different schedules (C82_trace_varies, C82_csr_trace_varies, C82_dense_trace_varies); `bml_transpose_new` stores rows in the order in which threads get a lock, so products of the result vary in their last bits (C82_transpose_new_varies, C82_csr_transpose_new_varies).

LAPACK
* `bml_diagonalize` of a complex matrix hands the row-major array to LAPACK, which sees the transposed, that is the conjugate matrix: the columns of V are the conjugates of the eigenvectors (C75_complex_wrong).
* `bml_diagonalize` of a complex distributed matrix (builds with ScaLAPACK) transposes all tiles but those on the diagonal, which it takes to be symmetric: ScaLAPACK gets the conjugates of the diagonal tiles and the right other tiles, another matrix with other eigenvalues (distributed2d/bml_diagonalize_distributed2d_typed.c 209-212) (C75_distributed_complex_wrong, and for tiles of the other formats C75_distributed_csr_complex_wrong, C75_distributed_ellpack_complex_wrong, C75_distributed_ellblock_complex_wrong).
* `bml_diagonalize` of a distributed matrix with ELLPACK tiles converts the eigenvectors with `bml_convert`, which stores zeros too: without room for all columns of a tile in a row it fails for every matrix, diagonal ones included (C75_distributed_ellpack_narrow).
* `bml_diagonalize` of a distributed matrix makes a BLACS process grid and never gives it back (C85_distributed_diagonalize_leaks). If `eigenvectors` is the matrix itself and its tiles are not dense, the tile is read after it was freed (C85_distributed_diagonalize_in_place).
* `bml_inverse` and `bml_diagonalize` do not look at `info`: singular matrices and failures to converge go unnoticed (C74_singular_unnoticed, C75_failure_unnoticed).
* The inverse or the eigenvectors of an ELLPACK matrix may need more room in a row than the matrix has; they are then written past the end of the arrays (C74_ellpack_overfull, C75_ellpack_overfull).

ELLPACK
* `bml_set_element` does not search rows with one or two entries, so overwriting is lost (C01).
* `bml_copy` into a matrix of another width misplaces rows (C07).
* `bml_add` beyond the capacity drops entries silently; `bml_multiply_x2` and `bml_submatrix2matrix` write out of bounds before checking (C08, C13, C15, C40).
* `bml_add_identity` and `bml_normalize` write out of bounds on a full row without stored diagonal (C09, C23).
* `bml_scale_add_identity` passes `&alpha` (a `double *`) to a routine that reads the element type: for ELLPACK, CSR and ELLBLOCK in single precision every factor with at most 21 significant bits becomes 0 and the matrix is lost (C09_ell_single, C09_csr_single, C62_ellblock_single); in double-complex precision the read is out of bounds (C09_double_complex).
* `bml_multiply_adjust_AB` never returns if a symbolic row exceeds M (C16).
* `bml_transpose` in place may overflow temporarily although the result fits (C18).
* `bml_adjungate_triangle` indexes the lock array (M entries) by column number and appends to populated rows (C19).
* `bml_trace_mult` computes tr(A Bᵀ) and reads uninitialised memory on empty rows (C20).
* `bml_adjungate_triangle_ellpack` reads `A_nnz[i]` without the lock under which other threads change it: a data race (C77_adjungate_race_witness), besides the locks indexed beyond `A_M` (C19).
* `bml_fnorm2_dense` declares `temp` shared: whatever the matrices, two threads with work race on it (C77_dense_fnorm2_races).
* `bml_fnorm2` reuses stale values (C37).
* `bml_assign_submatrix` appends, so old elements win (C28).
* `bml_convert` with M < N never returns normally (C29).
* `bml_group_matrix` does not reset its thread-private marks between rows (C49).
* `bml_adjacency` infers from row 0 whether diagonals are stored; `bml_adjacency_group` with base 1 writes one past the end (C51).

Dense
* No index checks (C34); thresholds ignored (C04, C05, C08, C12, C35); `add(A, A)` wrong (C08); adjust_AB stores the transpose (C16); reorder permutes only columns (C30); sum_squares_submatrix takes all columns (C21); fnorm2 has a race (C37); complex fnorm is not a norm (C45).
* gemm ignores leading dimensions and does not conjugate for 'C' (C31); sqrtint overflows above 46340² (C44).

CSR
* `bml_set_element_new` on a stored position keeps the old value (C02); get with a column index past N gives 0 (C34); copy/scale into rows that are too small are reported as errors (C07, C10); add uses freed memory when a row grows (C08, C14); threshold_new keeps one entry per row (C11); get_M reports the largest row space (C33); assign_submatrix keeps old values (C28); rows of more than 174762 entries break the hash table (C26).
* The three formats disagree on add_norm, trace_mult and sum_squares_submatrix.

Files
* Readers check neither the dimension nor the room (ELLPACK) nor the length of header words; dense ignores `symmetric`; block-ELLPACK compares positions inside blocks and writes through null pointers for symmetric files; 15 printed digits are not exact; the header has three percent signs (C27).

Distributed matrices
* `bml_allGatherVParallel` in sequential mode gathers into overlapping ranges (C41).
* `bml_add_identity` and `bml_scale_add_identity` add to the diagonal of every tile; `bml_get_row` gathers into overlapping ranges from 3 × 3 ranks on; column-major import puts tiles in transposed places; `bml_trace_mult` of CSR tiles is not the trace of the product; `bml_multiply_x2` returns NULL (C43).
* `bml_convert` of a distributed matrix ignores the requested width: the tiles are converted with the width of the old tiles, so a conversion to ELLPACK from narrow tiles never succeeds (C43_convert_width_ignored, C43_convert_csr_witness).
* `bml_get_sparsity` computes `N * N` in `int`, in all formats; undefined from N = 46341 on, for distributed matrices also where the tiles are small (C33_sparsity_overflow, C59_sparsity_overflow, C43_sparsity_overflow).
* `bml_default_domain` computes element counts and displacements in `int`, for ELLPACK and dense matrices of every mode: dense matrices of dimension 46341 cannot be constructed (C68_dense_overflow, C68_ellpack_overflow, C68_distributed_overflow); addresses of elements are `int` as well (C68_late_failure); so are the tile offsets of `bml_export_to_dense` on distributed matrices (C43_export_overflow).
* `bml_get_element_double_real`, `_single_complex` and `_double_complex` on ELLPACK matrices search `A->index[j_index]` (the columns of row 0) instead of `A->index[ROWMAJOR(i, j_index, …)]` (`bml_elemental_ellpack.c` lines 69, 103, 137; line 36, for single precision, is right).  Of an identity matrix they report a zero diagonal below the first row and a column 0 of ones (C69_identity_wrong).
* The Fortran binding of `bml_clear` lacks the `value` attribute (`bml_c_interface_m.F90` 215-218), so C receives the address of the Fortran variable; it reads a matrix type from the pointer value stored there and ends the program or crashes (C70_clear_never_returns, C70_clear_stops).
* Fortran `bml_copy_new(a, a)` releases `a` before it copies it (C70_copy_onto_itself); intrinsic assignment `b = a` makes an alias whose release is a double free (C70_assignment_double_free).
* Fortran `bml_get_type` and `bml_get_deep_type` take 5 for CSR where the enumeration has 4: CSR stops the program, distributed matrices are called CSR (C71_csr_type_stops, C71_distributed_is_csr).  `bml_get_distribution_mode` takes 3 for graph-distributed where the enumeration has 2 (C71_graph_mode_stops).  `bml_get_element_precision` knows the two real precisions only (C71_complex_precision_stops).  An unknown kind leaves the element type undefined (C71_unknown_kind).
* Fortran `bml_print_matrix` of a matrix passes its bounds on unchanged, while for an array it converts from inclusive bounds that count from one: with the same bounds the first row and column are missing (C76_fortran_bounds).  `bml_print_bml_vector` always stops with an error.  No print function checks its bounds (C76_beyond).
* Fortran `bml_diagonalize` takes an array of `real(C_DOUBLE)` for the eigenvalues, but C writes elements of the matrix type: for `double_complex` twice as many bytes (C75_fortran_overrun).
* `bml_reorder` of a block-ELLPACK matrix takes the permutation for one of blocks, and copies the whole block row from its first block as if the blocks lay in one piece: undefined behaviour in every build without the memory pool (ellblock/bml_copy_ellblock_typed.c 137-157) (C30_ellblock_undefined, C30_ellblock_rows_ignored).
* Fortran `bml_reorder` passes the permutation on without subtracting one, unlike all index arguments: a permutation of 1..N makes it write beyond the matrix (C72_reorder_from_one).
* `bml_read_bml_matrix` does not check positions: rows beyond the matrix are written outside of it (C78_dense_outside, C78_ellpack_outside), columns beyond it are stored in another row (C78_dense_wraps) or make later operations undefined (C78_ellpack_column).  Repeated positions: the last counts in dense, the first in ELLPACK and CSR (C78_duplicate_witness).  It does not check whether the file could be opened.
* Fortran `bml_import_from_dense` takes an assumed-shape array but passes only the address of its first element: sections such as `p(1:n,1:n)` are read with the wrong stride (C73_section_wrong), arrays with fewer columns than rows beyond their end (C73_tall_undefined).  `bml_export_to_dense` does nothing on processes other than the first and leaks the exported array there (C73_other_processes).
* Fortran `bml_get_element` and `bml_get_row_bandwidth` stop the program for block-ELLPACK matrices (C72_block_refused).  An array imported into the block format gets the size of the first block matrix of the program (C73_block_wrong_size).
* Fortran `bml_transpose(a, a)` deallocates `a` before it is transposed (C80_transpose_itself).  `bml_scale` hands over the address of a factor of any kind; a kind other than the matrix's is not noticed (C80_scale_kind).  The C dispatchers check only their first argument for null (C80_second_missing).
* `bml_mpi_recv` for CSR writes beyond rows that are too small, `bml_mpi_irecv` ends the program for more than 2 M N entries, the broadcast of an empty CSR matrix fails an assertion (C57).
* `bml_write_bml_matrix` on distributed CSR matrices receives tiles into rows of M/p entries and overflows them (C67_csr_write_overflow); `bml_read_bml_matrix` of a zero CSR matrix fails an assertion (C67_csr_read_empty) and ends with an error where a row has less space than entries (C67_csr_read_full).  For block-ELLPACK tiles both overflow the message buffer where the stored blocks have more elements than n M/p (writing, C67_ellblock_write_overflow) or N M (reading, C67_ellblock_read_overflow).

Handles and domains
* `bml_get_distribution_mode`, `bml_get_bandwidth`, `bml_get_row_bandwidth`, `bml_get_sparsity` and the pointer functions end the program on NULL; the communicators made for a distributed matrix are never freed; a constructor does not release the matrix its handle held (C47).
* `bml_restore_domain` restores the five arrays but not the extreme extents; for CSR `bml_save_domain` and `bml_restore_domain` follow a pointer no function sets (C58).

Block-ELLPACK
* Block sizes of the first matrix are used for every later one (C39).
* `bml_clear` leaves dangling pointers, later writes abort (C53); `bml_noinit_matrix` aborts at program start, `bml_banded_matrix` can run out of room (C52).
* `bml_set_row`, `bml_set_diagonal`, `bml_import_from_dense` do not notice a full block row (C54, C55); `bml_set_row` keeps old values below the threshold (C54).
* `bml_copy`, `bml_scale` overrun existing smaller blocks; `bml_copy_new` rejects blocks of 10 and more (C56).
* `bml_add` reuses allocations of other sizes (heap overflow with blocks of different sizes), does not notice a full block row, and leaves pointers behind on which a later `bml_set_element` fails (C62).
* `bml_multiply_x2` and `bml_multiply_AB` call block kernels through tables with six entries; `bml_set_block_sizes` accepts larger blocks (C63_large_block). `bml_multiply_x2` computes the trace of the square with the stride of another block, so it is wrong for blocks of different sizes (C63_x2_trace_wrong).
* `bml_transpose_new` and `bml_transpose` on block-ELLPACK do not check that a row has room; in place, rows are needed that hold a block row and the block column of the same number together (C64_transpose_new_full, C64_transpose_full). `bml_transpose` leaves the pointer to a moved block in the row it came from, so a later `bml_set_element` fails and a later `bml_add` overwrites the moved block (C64_set_after_transpose, C64_add_after_transpose).
* `bml_sum_AB` on block-ELLPACK sums the absolute values of the products, all other formats sum the products (C65_sum_AB_sign); it clears an array of `MB` numbers over the length `NB` (C65_sum_AB_narrow).
* `bml_fnorm2` on block-ELLPACK uses a pointer that is only set while searching a non-empty row of the other matrix: unset at first, later a block of another row (C65_fnorm2_unset, C65_fnorm2_stale); for a block that only the second matrix has it takes the block column from the first matrix at the same position (C65_fnorm2_sizes), which may be an unused cell (C65_fnorm2_more).
* `bml_add_norm` on block-ELLPACK squares the sum of squares of each block (C65_add_norm_value), does not allocate blocks that only the second matrix has, and has work space for 25 elements per block (C65_add_norm_unsafe).
* `bml_convert` to block-ELLPACK uses the block sizes in effect even if they do not add up to the size of the source: a smaller sum silently drops rows and columns (C66_convert_truncates).
* `bml_extract_submatrix` on block-ELLPACK returns a matrix of the size that belongs to the block sizes in effect, not of the size asked for (C66_extract_dim); it takes the number of blocks from the first block sizes of `A` and copies blocks of other sizes into `B` (C66_extract_sizes); it does not check for room (C66_extract_room).
* `bml_assign_submatrix` on block-ELLPACK appends the blocks of `B` without looking for stored ones: the old values stay visible (C66_assign_present), zero blocks of `B` do not overwrite (C66_assign_zero); it uses the block sizes at the wrong place (C66_assign_sizes) and does not check for room (C66_assign_room).
* `bml_set_element` does not check its indices (C38).
* `bml_mpi_send` on block-ELLPACK overflows its buffer of N M elements where the stored blocks have more (C57_ellblock_send_overflow); the receiver loses its old blocks (C57_ellblock_recv_leaks) and keeps old pointers, on which a later `bml_set_element` fails (C57_ellblock_recv_then_set); `bml_mpi_recv_matrix` takes the block sizes of the receiving rank (C57_ellblock_recv_matrix_sizes).

## 6. Mutation experiments

`seeded/LOG.jsonl`: each line is one edit of the model in a scratch copy and the
theorems that stopped proving.
