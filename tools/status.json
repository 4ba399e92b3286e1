{
 "C01": [
  "partial",
  "ELLPACK. bml_set_element does not search rows with at most two entries, so the full claim is false (C01_lost_write for every such matrix, concrete witnesses); proved for all other cases and for histories of new writes."
 ],
 "C04": [
  "partial",
  "ELLPACK: proved (row must fit). Dense: the threshold argument is ignored (C04_dense_threshold_witness); the rest proved. CSR: proved."
 ],
 "C05": [
  "partial",
  "ELLPACK: proved. Dense: threshold ignored; the rest proved. CSR: proved."
 ],
 "C06": [
  "partial",
  "ELLPACK: round trip for both orders and all schedules when the rows fit; overfull import is silently wrong or out of bounds (witnesses). Dense: round trip proved, no threshold applied. CSR: round trip proved."
 ],
 "C07": [
  "partial",
  "ELLPACK copy_new proved; bml_copy into a wider target is wrong (C07_copy_wider_witness). Dense: proved, mismatching sizes reported. CSR: copy_new proved; bml_copy into rows that are too small is reported (C07_csr_copy_partial, witness)."
 ],
 "C08": [
  "partial",
  "ELLPACK: proved when result rows fit. Dense: threshold ignored and add(A,A) wrong (C08_dense_threshold_witness, C08_dense_add_self_witness); exact value theorems for all inputs. add_norm returns different quantities in the two formats (C08_add_norm_formats_differ). CSR: add writes freed memory when a row grows while common columns remain (C08_csr_add_ub_witness); add(A,A) wrong (C08_csr_add_self_witness); otherwise proved."
 ],
 "C09": [
  "partial",
  "ELLPACK: full row without diagonal is out of bounds (witness). Dense: proved up to the ignored threshold. CSR: proved without conditions. scale_add_identity from the bits of the double argument: proved in double precision, refuted for every factor of at most 21 significant bits in single precision (the result is beta*I), undefined in double-complex."
 ],
 "C10": [
  "partial",
  "ELLPACK and dense. CSR: scale_inplace, scale_new proved; scale needs rows that fit, otherwise the copy is reported."
 ],
 "C11": [
  "partial",
  "ELLPACK and dense, every schedule. CSR: threshold proved; threshold_new keeps only one entry per row (C11_csr_threshold_new_witness, C11_csr_threshold_new_partial)."
 ],
 "C12": [
  "partial",
  "ELLPACK: exact dichotomy, correct product or reported error. Dense: the exact product, threshold ignored. CSR: proved without conditions."
 ],
 "C13": [
  "partial",
  "ELLPACK for rows that fit; dense: exact square and traces, threshold ignored. CSR: proved without conditions."
 ],
 "C14": [
  "partial",
  "ELLPACK proved; dense: value without threshold, N = 0 rejected. CSR: inherits the growth bug of add; proved under the space condition."
 ],
 "C15": [
  "partial",
  "ELLPACK. Overflow is always reported by multiply_AB, but not by add (C15_add_silent_witness) and multiply_x2 writes out of bounds first (C15_x2_ub_witness)."
 ],
 "C20": [
  "partial",
  "Trace proved (ELLPACK, dense). trace_mult computes tr(A B^T) in both formats and ELLPACK reads uninitialised memory on empty rows of B: value theorems, partial theorems for the symmetric case and witnesses. CSR trace_mult is the trace of the product, so the formats disagree (C20_trace_mult_formats_differ)."
 ],
 "C21": [
  "partial",
  "ELLPACK and dense, every schedule; sum_squares_submatrix differs between the formats (C21_submatrix_formats_differ). CSR proved, agrees with the others on sum_squares."
 ],
 "C29": [
  "partial",
  "To ELLPACK: proved for M >= N; for M < N it never returns normally (C29_narrow_fails). To dense: proved for every source format. To CSR: proved."
 ],
 "C30": [
  "partial",
  "ELLPACK proved. Dense: only the columns are permuted (C30_dense_value for every permutation, C30_dense_witness). CSR: not implemented, reported. Block-ELLPACK: undefined whenever a block row has room for two blocks (C30_ellblock_undefined), hence for every matrix of more than four rows unless the program sets block sizes (C30_ellblock_process); with a single block the permutation is ignored or read as one of blocks (C30_ellblock_rows_ignored). Right for permutations of blocks of one size where every block row has one block and room for no more (C30_ellblock_partial); blocks of two sizes cannot change places (C30_ellblock_sizes_differ)."
 ],
 "C32": [
  "proved",
  "ELLPACK, dense and CSR, without the domains that the constructors also make; their int overflow for larger sizes is C68."
 ],
 "C33": [
  "partial",
  "ELLPACK and dense. CSR: bandwidth and sparsity proved; bml_get_M returns the largest row space instead of M (C33_csr_get_M_witness). Sparsity is proved for N <= 46340 in all formats; above, N * N overflows int (C33_sparsity_overflow and the dense and CSR versions)."
 ],
 "C34": [
  "partial",
  "ELLPACK proved. Dense has no index check: a column index past N returns an element of the next row, a row index past N reads out of bounds, for every matrix (C34_dense_wrong_column, C34_dense_out_of_bounds). CSR: row index and negative column checked; column index past N silently gives zero (C34_csr_silent_column). Block-ELLPACK: proved."
 ],
 "C35": [
  "partial",
  "ELLPACK: exact dichotomy. Dense: exact products, threshold ignored. CSR: proved without conditions."
 ],
 "C36": [
  "proved",
  "ELLPACK: add, threshold, product, square; dense: threshold, add_identity, trace, sum of squares give the same elements for any two schedules; all other operation theorems quantify over every schedule. CSR: proved."
 ],
 "C37": [
  "partial",
  "ELLPACK: wrong on some inputs (witnesses). Dense: proved for every order of atomic iterations; the shared variable temp is a data race (C37_dense_race_witness). CSR: not implemented, reported."
 ],
 "C48": [
  "proved",
  "ELLPACK and dense. CSR: proved."
 ],
 "C17": [
  "proved",
  "ELLPACK: every order of the locked appends, capacity condition necessary (C17_overflow_witness). Dense: every schedule. CSR: proved without conditions."
 ],
 "C18": [
  "partial",
  "ELLPACK: proved when row j and column j together occupy at most M distinct columns (always for M >= N); false in general (C18_transient_overflow_witness). Dense: proved. CSR: proved, and twice is the identity."
 ],
 "C19": [
  "partial",
  "ELLPACK: proved for every interleaving when the other triangle is empty, rows have room and row numbers stay below M; witnesses otherwise. Dense: proved without conditions."
 ],
 "C22": [
  "proved",
  "ELLPACK and dense: for every absolute value and real-part map, the returned interval encloses the real parts of all eigenvalues, whatever DBL_MAX/DBL_MIN are; dense for every schedule. CSR: proved."
 ],
 "C23": [
  "partial",
  "ELLPACK: full rows without a stored diagonal element are out of bounds (C23_full_row_witness). Dense: proved. CSR: proved without conditions."
 ],
 "C28": [
  "partial",
  "ELLPACK: extract proved; assign appends without searching: proved for an unpopulated block; for a populated block the old elements always win (C28_assign_lost, witness). Dense: proved, also for populated blocks. CSR: extract proved, assign proved into empty blocks, wrong on stored entries (C28_csr_assign_witness)."
 ],
 "C40": [
  "partial",
  "ELLPACK. matrix2submatrix reads uninitialised memory for empty rows (witness for every junk value); submatrix2matrix writes out of bounds before its overflow check (witness). Proved for all other inputs and every schedule."
 ],
 "C24": [
  "partial",
  "All N, M, rank counts with N M <= 2^31-1; beyond, the counts overflow int (C68_ellpack_overflow, C68_distributed_overflow). The single-precision value maxLocalExtent is not part of the claim."
 ],
 "C25": [
  "partial",
  "ELLPACK and dense variants, if the number of nodes times M fits in an int."
 ],
 "C26": [
  "proved",
  "All histories within the room of the table; C26_too_large and C26_full show that the size conditions are sharp."
 ],
 "C31": [
  "partial",
  "Leading dimensions are ignored by the addressing (C31_lda_ignored_witness) and 'C' does not conjugate (C31_conj_witness). Proved for leading dimensions equal to the row counts."
 ],
 "C44": [
  "partial",
  "Proved up to 46340^2; for every larger int the loop overflows (C44_sqrtint_overflow)."
 ],
 "C03": [
  "proved",
  "All matrices, all in-range indices, all histories of writes."
 ],
 "C16": [
  "partial",
  "ELLPACK: if every row of the symbolic product has at most M columns the call returns after one pass with the right result (C16_adjust_AB_partial); otherwise it never returns, whatever the thresholds (C16_never_returns, C16_runs_for_ever, C16_witness). Dense: stores the transpose of the product (C16_dense_adjust_value). CSR: adjust_AB is multiply_AB, proved."
 ],
 "C45": [
  "partial",
  "Real types proved (ELLPACK, dense), norm zero iff matrix zero; complex types compute sqrt(Re sum z^2), so [i] has norm 0 (witnesses). CSR: the same."
 ],
 "C02": [
  "proved",
  "Single writes and histories of any length. bml_set_element_new on a stored position (outside its contract) keeps the old value (C02_set_element_new_stored)."
 ],
 "C49": [
  "partial",
  "ELLPACK. Exact result for every schedule (C49_group_matrix_exact); the claim holds when every group has its own thread (C49_group_matrix_partial); with one thread the result is always upper triangular (C49_one_thread_upper, C49_witness)."
 ],
 "C50": [
  "proved",
  "ELLPACK (the only format that implements it)."
 ],
 "C51": [
  "partial",
  "ELLPACK. bml_adjacency proved when all or no diagonal elements are stored, wrong otherwise (two witnesses). bml_adjacency_group 0-based proved; 1-based overruns an array of exactly the right size for every input (C51_adjacency_group_overrun) and is right for larger ones."
 ],
 "C38": [
  "partial",
  "Block addresses, one write, full row, histories of any length proved. bml_set_element with an index past N is not checked and reads past the block sizes (C38_set_element_out_of_range)."
 ],
 "C39": [
  "partial",
  "Violated: block sizes of the first matrix are used for all later ones (C39_leak, for all sizes). Proved when the sizes in force add up to N, and for histories of one size."
 ],
 "C52": [
  "partial",
  "Identity and random proved. Banded: proved when all block columns fit; default block sizes can make it fail (C52_banded_witness). noinit fails at program start (C52_noinit_error)."
 ],
 "C53": [
  "partial",
  "Elements read zero; but every later write into a block row that held a block is an error (C53_clear_then_set, for all matrices)."
 ],
 "C54": [
  "partial",
  "get_row, get_diagonal proved. set_row keeps old values below the threshold and does not notice a full row (witnesses); set_diagonal applies the threshold per block."
 ],
 "C55": [
  "partial",
  "Import proved when blocks fit, overfull import is out of bounds (C55_import_overflow). Export proved for both orders."
 ],
 "C56": [
  "partial",
  "scale_inplace proved. copy_new, scale_new need block sizes below 10. copy, scale need room in the target blocks, otherwise they write out of bounds (C56_copy_overflow); uniform block sizes always have room."
 ],
 "C27": [
  "partial",
  "Round trip proved for ELLPACK, CSR, dense and block-ELLPACK for every matrix whose elements survive printing and parsing; symmetric files proved for ELLPACK and CSR. Violated: dense ignores the word symmetric (C27_dense_symmetric_ignored), block-ELLPACK mirrors wrongly or crashes (C27_ellblock_symmetric_null, _lost), 15 printed digits are not exact (C27_lossy_format)."
 ],
 "C42": [
  "partial",
  "Every interleaving of the ranks, every rule for the completion of sends: no deadlock, at most 6 p^3 steps, the right tile on every rank. Dense local matrices: proved for all n > 0 (n = 0 is rejected, C14). ELLPACK: threshold 0 and room for full rows. CSR: threshold 0, room in the rows of C, n <= 174762. ELLBLOCK: threshold 0, equal blocks of size at most 6, made with M = n, room for all blocks. Not covered: rows that overflow, block sizes that differ."
 ],
 "C57": [
  "partial",
  "Dense, ELLPACK: proved. CSR: bml_mpi_irecv proved up to its buffer size, beyond it the program ends with an MPI error; bml_mpi_recv does not enlarge rows and overflows them (C57_csr_recv_overflow); the broadcast of a matrix without stored entries fails an assertion (C57_csr_bcast_empty). ELLBLOCK: proved if the stored blocks have at most N M elements, the sender overflows its buffer otherwise (C57_ellblock_send_overflow); old blocks of the receiver leak and old pointers make a later bml_set_element fail (C57_ellblock_recv_leaks, C57_ellblock_recv_then_set); bml_mpi_recv_matrix uses the block sizes of the receiving rank (C57_ellblock_recv_matrix_sizes)."
 ],
 "C43": [
  "partial",
  "Proved for grids of any size over dense, ELLPACK and CSR tiles: constructors, copy, clear, add, add_norm (dense; ELLPACK tiles with room for full rows), scale, threshold, set_row, set_diagonal, trace, sums of squares and products, norms, sparsity (at most 46340 rows), conversion, row-major import/export (N*N < 2^31), transposes (every interleaving), Gershgorin, normalize. Negative: add_identity and scale_add_identity (every tile), get_row (p >= 3), column-major import, CSR trace_mult, CSR fnorm2, CSR add_norm, sparsity from 46341 rows on, export where a tile offset exceeds int (C43_export_overflow), conversion to ELLPACK from narrow tiles whatever M is asked for (C43_convert_width_ignored). Missing: adjungate, submatrix functions. File reading and writing: C67."
 ],
 "C41": [
  "partial",
  "Proved for ELLPACK and dense matrices in distributed mode, every number of rows, width and ranks, for the default domain and after bml_update_domain (both formats), with the scale, square and general product computed by the owners. With MPI the public constructors in distributed mode give distributed2d matrices, so the use of this function that the public interface reaches is the one after bml_update_domain. In sequential mode on two or more ranks the receive ranges overlap (refuted); CSR and block-ELLPACK are reported as unavailable."
 ],
 "C47": [
  "partial",
  "All formats and distributed matrices over an addressed heap with an arbitrary allocator; every sequence of calls that does not overwrite a live handle and does not use a copied handle after release. Six introspection functions (distribution mode, bandwidths, sparsity, local matrix, data pointer) end the program on NULL with a message instead of returning a value (C47_null_introspection_errors); the communicators of distributed matrices are never freed (C47_communicators_leak)."
 ],
 "C58": [
  "partial",
  "Dense and ELLPACK, any number of ranks and of updates between save and restore, if nodes times M fit in an int. The extreme extents are not restored (C58_extents_not_restored); CSR follows an unset pointer (C58_csr); block-ELLPACK and distributed matrices refuse (C58_others)."
 ],
 "C46": [
  "partial",
  "Seventeen kinds of calls (constructors, element, row and diagonal writes, copies, scalings, sums, identity updates, threshold, product, square, transpositions), any number of matrices, any schedules. Dense: proved without conditions (this format ignores arithmetic thresholds). CSR: proved for all calls without conditions when rows are as wide as the matrix (C46_csr_wide), otherwise when rows fit (CsrFit) or for the calls that enlarge rows themselves; bml_add can use freed memory in narrow rows (C46_csr_add_witness). ELLPACK: proved when the rows fit (EllFit), in particular without conditions for M >= N except bml_set_element, which loses assignments in short rows (C46_ellpack_set_witness). The two factors of a product may be the same matrix, and bml_scale may work in place; other calls with the same matrix as source and target are excluded; block-ELLPACK is covered by C38, C52-C56."
 ],
 "C59": [
  "partial",
  "Traces and sums proved without bounds; the count of elements above the threshold too (C59_sparsity_count); the sparsity for N <= 46340, above it N * N overflows int (C59_sparsity_overflow)."
 ],
 "C60": [
  "proved",
  "Over a linearly ordered field with an absolute value; the start values of the two folds do not matter."
 ],
 "C61": [
  "proved",
  "In place and new; stored blocks all have an element above the threshold afterwards; new: block sizes below 10^6 (an error in the constructor otherwise)."
 ],
 "C62": [
  "partial",
  "Proved if the allocations are large enough (all blocks of one size, also for sequences of sums that drop blocks) or no block is dropped, and the blocks fit. Otherwise the code overruns allocations or rows (witnesses), and set_element fails after a sum that dropped blocks (witness)."
 ],
 "C63": [
  "partial",
  "Proved for blocks of up to six rows, including the error for products that do not fit; the trace of the square for blocks of one size. For larger blocks the call goes through a table with six entries (witness); with blocks of different sizes the trace of the square is wrong (witness). bml_multiply under the conditions of C62 for its final sum."
 ],
 "C64": [
  "partial",
  "Proved under the condition that the rows have room; refuted: both functions write outside the arrays without it (C64_transpose_new_full, C64_transpose_full: the transposed matrix fits, the in-place algorithm needs more), and after bml_transpose a later bml_set_element fails (C64_set_after_transpose) and a later bml_add is wrong (C64_add_after_transpose)."
 ],
 "C65": [
  "partial",
  "bml_sum_squares2 is proved in full. bml_sum_AB sums absolute values (C65_sum_AB_sign) and needs room for all blocks in a row (C65_sum_AB_narrow). bml_fnorm2 is proved for matrices with the same empty rows where A has all blocks of B, or with one block size and no more blocks per row in B than in A; the other cases are refuted (C65_fnorm2_unset, _stale, _sizes, _more). bml_add_norm returns a wrong norm and writes through NULL (C65_add_norm_value, C65_add_norm_unsafe)."
 ],
 "C66": [
  "partial",
  "Conversion is proved for block sizes that are unset or add up to the size of the source; otherwise the result is truncated (C66_convert_truncates). Extraction is proved for windows of whole blocks with equal sizes; the result has the wrong size (C66_extract_dim), damaged blocks for other sizes (C66_extract_sizes), and no check for room (C66_extract_room). Assignment is proved where A stores no block that B stores; otherwise refuted (C66_assign_present, _zero, _room, _sizes)."
 ],
 "C67": [
  "partial",
  "Dense and ELLPACK: writing, reading, round trip on the same grid and (ELLPACK: where the rows of the new tiles hold n' entries) on another grid, every interleaving. CSR: writing is proved for rows of at most max(10, M/p) entries per tile and is undefined beyond (C67_csr_write_overflow); reading is proved for files with at least one entry and rows with enough space, otherwise a failed assertion (C67_csr_read_empty) or an error (C67_csr_read_full). Block-ELLPACK: writing is proved for tiles with at most n M/p elements in their stored blocks and is undefined for all others (C67_ellblock_write_overflow); reading and round trip are proved for blocks of one size with room for all blocks, reading is undefined where the stored blocks of the file have more than N M elements (C67_ellblock_read_overflow)."
 ],
 "C68": [
  "partial",
  "Up to 2^31-1 slots: construction succeeds and get/set with int addresses equal the unbounded ones. Above: construction in sequential mode is undefined (C68_ellpack_overflow, C68_dense_overflow: from N = 46341 on), in distributed mode it fails where the rows before the last rank exceed the limit (C68_distributed_overflow), and a matrix can be constructed whose last elements cannot be addressed (C68_late_failure, C68_ellpack_get_overflow). The int addresses of functions other than construction, get_element, set_element and the tile offsets of distributed import/export are not modelled."
 ],
 "C69": [
  "partial",
  "Dense matrices, and ELLPACK with the single-precision real function: proved. The other three ELLPACK functions look the column up among the columns of row 0: right for rows that store their columns in the order of row 0 (C69_ellpack_partial, C69_import_partial), wrong otherwise (C69_ellpack_wrong_column, C69_identity_wrong). The matrix's precision is not checked (C69_precision_unchecked); the other formats are refused (C69_other_formats)."
 ],
 "C70": [
  "partial",
  "Proved for sequences of construction, copy into a new variable, release, growth and queries (C70_any_order_partial, C70_runs_partial, C70_variables_partial, C70_no_leak_partial). Refuted for assignment of variables (C70_assignment_double_free), for bml_copy_new of a variable onto itself (C70_copy_onto_itself) and for bml_clear, which never returns (C70_clear_never_returns, C70_clear_stops)."
 ],
 "C71": [
  "partial",
  "Proved where the answer is right: type and deep type except of CSR, element type, precision of real elements, mode of local matrices, size, width. Refuted: CSR types stop the program, distributed matrices are reported as CSR, the precision of complex elements and the modes of graph-distributed and distributed matrices stop the program, an unknown kind is accepted."
 ],
 "C72": [
  "partial",
  "Proved: rows, diagonals, row bandwidths, new elements, and elements where the ELLPACK row can take them. bml_get_element is right for dense and single-precision ELLPACK only (C72_get_element_partial) and wrong or refused elsewhere (C72_identity_wrong, C72_csr_get_element). bml_set_element does not check its indices (C72_dense_column_zero, C72_dense_row_zero). bml_reorder wants a permutation that counts from zero (C72_reorder_partial, C72_reorder_from_one). For the block format: rows, diagonals and elements are right (C72_block_get_row, C72_block_get_diagonal, C72_block_set_element), bml_set_row keeps old values below threshold (C72_block_set_row_partial, C72_block_set_row_keeps_old), bml_set_diagonal applies the threshold to blocks (C72_block_set_diagonal_partial), bml_get_element and bml_get_row_bandwidth are refused (C72_block_refused). For bml_reorder of block matrices see C30. Left out: distributed matrices."
 ],
 "C73": [
  "partial",
  "Proved for arrays with contiguous columns and at least as many columns as rows, on the first process: import, export and both round trips. Refuted for sections of larger arrays (C73_section_wrong), for arrays with more rows than columns (C73_tall_undefined) and on the other processes (C73_other_processes). For the block format: import, export and export followed by import (C73_block_import_partial, C73_block_export_partial, C73_block_export_import_partial); the block sizes of an earlier matrix decide the size of the imported one (C73_block_wrong_size). Left out: distributed matrices."
 ],
 "C74": [
  "partial",
  "Proved for dense and CSR without conditions, for ELLPACK and ELLBLOCK when the inverse fits the capacity of A. Refuted: ELLPACK inverses that do not fit are written past the end of the arrays (C74_ellpack_overfull); singular matrices are not reported (C74_singular_unnoticed). GETRF/GETRI are parameters with the documented contract, in exact arithmetic."
 ],
 "C75": [
  "partial",
  "Proved for real elements: dense without conditions, the sparse formats when the eigenvectors fit. Refuted for complex elements: V holds the conjugates of the eigenvectors (C75_complex_wrong; the eigenvalues are right, C75_complex_partial). Further: ELLPACK eigenvectors that do not fit end in undefined behaviour (C75_ellpack_overfull), LAPACK failures are not noticed (C75_failure_unnoticed), Fortran with double_complex overruns the eigenvalue array (C75_fortran_overrun). SYEV/HEEVR are parameters with the documented contract; exists_diagonalizes shows that the contract can be met. Distributed matrices with dense tiles in builds with ScaLAPACK, which is a parameter with its documented contract (exists_pdiagonalizes): right for real elements (C75_distributed_real), where failures are reported; for complex elements the tiles on the diagonal, and only these, are replaced by their conjugates (C75_distributed_complex_partial), so that not even the eigenvalues are right (C75_distributed_complex_wrong). CSR tiles: right for real elements (C75_distributed_csr). ELLPACK tiles: right if their rows have room for all columns (C75_distributed_ellpack_partial), otherwise the call never returns normally (C75_distributed_ellpack_narrow). Complex elements, distributed: right if the tiles on the diagonal are real (C75_distributed_real_tiles_partial); on one rank the eigenvalues are right and the eigenvectors conjugated (C75_distributed_one_rank_partial). Block-ELLPACK tiles: right for real elements with block sizes unset or for the tile (C75_distributed_ellblock_partial). Complex elements in tiles of the other formats: wrong in the same way as dense tiles (C75_distributed_csr_complex_partial, C75_distributed_ellpack_complex_partial, C75_distributed_ellblock_complex_partial), with wrong eigenvalues (C75_distributed_csr_complex_wrong, C75_distributed_ellpack_complex_wrong, C75_distributed_ellblock_complex_wrong), and right if the tiles on the diagonal are real (C75_distributed_csr_real_tiles_partial, C75_distributed_ellpack_real_tiles_partial, C75_distributed_ellblock_real_tiles_partial). Left out: ELPA."
 ],
 "C76": [
  "partial",
  "Proved in C for all formats and bounds inside the matrix, and for Fortran arrays with contiguous columns. Refuted: Fortran bml_print_matrix of a matrix takes bounds that count from zero and are exclusive, unlike for arrays (C76_fortran_bounds); a column beyond the matrix shows an element of the next row (C76_beyond); sections of arrays are read with the wrong stride (C76_section_wrong). How printf writes a number is not modelled."
 ],
 "C77": [
  "partial",
  "Proved for every interleaving of loads, stores and lock operations (sequentially consistent, which is what race freedom licenses): threshold, add (also of a matrix to itself), product into a third matrix, transpose_new under its row locks. Refuted: adjungate_triangle reads nnz[i] without the lock under which another thread changes it (C77_adjungate_race_witness). Races also when the product is written over its second factor (C77_product_alias_race_witness) and when a row of a sum overflows (C77_add_overflow_race_witness). For dense matrices: threshold, threshold_new, element multiply (also over a factor), add_identity, transpose_new, transpose in place and both triangle copies proved from single loads and stores; fnorm2 refuted, it races for all matrices as soon as two threads have work (C77_dense_fnorm2_races), and loses partial sums (C77_dense_fnorm2_wrong_witness). The other parallel loops are treated with atomic iterations (C36 and the theorems of each operation)."
 ],
 "C78": [
  "partial",
  "Proved for every text whose header words fit the buffers and whose entries are in range (for the sparse formats at new, distinct positions; ELLPACK with room): the entries are stored, a missing or malformed entry or header is an error. Refuted outside: positions beyond the array are written there, columns beyond an ELLPACK matrix are accepted and the next export is undefined, in dense they land in another row, duplicates differ between formats (also C27: dense ignores the declaration as symmetric, long header words, dimension not compared). Whether the file can be opened (unchecked in C) and numbers beyond int are not modelled."
 ],
 "C79": [
  "proved",
  "C79_formats_agree (all three formats), C79_dense, C79_csr, C79_ellpack (each format against matrix algebra) and C79_dense_csr_agree, which also allows bml_set_element; ELLPACK's bml_set_element is refuted elsewhere (C01, C46_ellpack_set_witness) and therefore not among the calls of the statement. CSR: at most 174762 rows (limit of the hash table of bml_add). The factors of a product may be the same matrix; a matrix that is written (other than by bml_scale) is not among those that are read. Arithmetic is exact."
 ],
 "C80": [
  "proved",
  "C80_dense, C80_csr, C80_ellpack against the separate specification Spec.fortran, C80_first_missing for the error. The other theorems show that the conditions are needed: bml_transpose(a, a) and bml_copy_new(a, a) deallocate their argument first and stop with an error (C80_transpose_itself, C80_copy_itself), a factor of another precision is undefined (C80_scale_kind), a missing second argument is dereferenced (C80_second_missing). Arithmetic is exact; CSR: at most 174762 rows; the trace argument of bml_multiply_x2 is not modelled here (C13 covers the traces)."
 ],
 "C81": [
  "proved",
  "C81_programs for every program that Spec.staged allows; C81_default_blocks, C81_process (default blocks of four rows, from the start of a process) and C81_chosen_blocks (after bml_set_block_sizes) show when the block sizes qualify; C81_formats_agree for the other formats. The conditions exclude calls for which other theorems give counter-examples: C62_set_after_add, C64_set_after_transpose, C64_add_after_transpose, C54_set_row_keeps_old (bml_set_row is not in the programs), C63_large_block. Arithmetic is exact."
 ],
 "C82": [
  "partial",
  "ELLPACK: C82_reproducible for programs with rows as wide as the matrix and without bml_set_element; C82_program gives the exact stored entries for narrower rows too (with the room they need) and for bml_set_element; C82_product, C82_add single calls, C82_product_stops: stopping for want of room does not depend on the schedule. CSR: C82_csr_program and C82_csr_reproducible for rows with room for N entries, bml_set_element included; C82_csr_add, C82_csr_product single calls. Dense: C82_dense_program and C82_dense_reproducible for all calls, C82_dense_multiply (the library's own product, bml_gemm.c; an external BLAS may add in another order). Limits are theorems: C82_trace_varies, C82_csr_trace_varies, C82_dense_trace_varies, C82_transpose_new_varies, C82_csr_transpose_new_varies. Not covered: bml_transpose in place of the sparse formats, import, the traces that bml_multiply_x2 returns, block-ELLPACK. Not modelled: contraction to fused multiply-add, NaN."
 ],
 "C83": [
  "partial",
  "ELLPACK: C83_product, C83_square, C83_add, C83_multiply (factors different matrices), C83_trace, C83_sum_squares: single calls. C83_program, C83_wide: the errors of whole programs, accumulated by Spec.estimate (zero when there is no rounding and no threshold, estimate_zero). CSR: C83_csr_program with the same bounds (rows with room for N entries), C83_csr_add, C83_csr_product, C83_csr_trace, C83_csr_sum_squares. Dense: C83_dense_program for all calls, with Spec.denseEstimate (denseEstimate_zero), C83_dense_trace, C83_dense_sum_squares, C83_dense_trace_mult. The standard model excludes overflow, underflow and NaN (Spec.Rounds). Not covered: bml_fnorm2, transpositions of the sparse formats within programs, block-ELLPACK."
 ],
 "C84": [
  "partial",
  "C84_own_code_partial for all functions except bml_matrix2submatrix_index_graph, which hands double precision matrices to the single precision routine (C84_index_graph_other_type); that routine does not look at elements (C84_index_graph_types_agree). C84_unknown_formats is the exact list of unsupported formats. Operands of different formats or element types are not noticed, except different formats by bml_copy (C84_mixed_formats_unchecked, C84_mixed_types_unchecked, C84_copy_checks_formats). bml_block_matrix makes an ELLBLOCK matrix when ELLPACK is asked for (C84_block_matrix_format). The other constructors are in C47."
 ],
 "C85": [
  "partial",
  "Holds call by call for dense, ELLPACK and CSR matrices, and for all programs of these calls (C85_programs, C85_programs_leave_nothing), with three exceptions that the code has: the ELLPACK bml_transpose_new loses its locks in builds with OpenMP (C85_ellpack_transpose_leaks), the CSR bml_extract_submatrix loses two arrays a row (C85_csr_extract_leaks), and the CSR bml_add writes through an old pointer once a row has grown (C85_csr_add_reads_freed_memory), so sums and products are proved for rows that grow last (_partial). For block-ELLPACK it holds of constructors, release, bml_clear, bml_threshold, bml_inverse, bml_multiply_x2 and, where no row loses a submatrix, of sums, copies and products; the exact losses are proved for shrinking rows, squares, bml_multiply_AB, bml_multiply_adjust_AB and bml_add_norm (C85_ellblock_*_leaks), and C85_ellblock_copy_to_cleared and C85_ellblock_add_norm_grows give the uses of freed and NULL pointers. Distributed matrices, with any tiles whose own calls leave nothing behind (dense and ELLPACK tiles are such, and CSR tiles where sums let rows grow last, C85_distributed_csr_format_partial): constructors, copies, products, transposes, imports and Gershgorin bounds hold; the communicators, the tile of an export, the part of a row and the first tile of a conversion are lost (C85_distributed_*_leaks). Reading and writing distributed matrices leaves nothing behind for dense and ELLPACK tiles (C85_distributed_files); reading loses two blocks for each row of a CSR tile, and for block-ELLPACK tiles reading loses one block on every rank beside the submatrices by which rows shrink, writing one block on rank 0 (C85_csr_read_file_leaks, C85_ellblock_read_file_leaks, C85_ellblock_write_file_leaks). Programs are proved for dense, ELLPACK and CSR only; for block-ELLPACK tiles the other distributed calls lose what their tiles had when messages arrive (C85_ellblock_recv_leaks, C85_distributed_ellblock_leaks). The block-ELLPACK transpose in place keeps the blocks (C85_ellblock_transpose), but a later bml_add_identity makes two pointers to one block, which bml_deallocate frees twice (C85_ellblock_add_after_transpose). bml_diagonalize of distributed matrices with ScaLAPACK loses the BLACS grid of every call and nothing else (C85_distributed_diagonalize_leaks, _tiles_leaks, _ellpack_leaks, _csr_leaks, _ellblock_leaks, _grows, _csr_grows, _ellblock_grows); with ELLPACK tiles the matrix itself cannot take the eigenvectors (C85_distributed_diagonalize_in_place)."
 ]
}
