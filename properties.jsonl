{"id": "C01", "title": "Element write is read back (ELLPACK)", "statement": "After bml_set_element(A,i,j,v) on an ELLPACK matrix, bml_get_element(A,i,j) returns v and every other (row,column) pair returns what it returned before.", "quantifier": "every well-formed ELLPACK matrix with room in row i, every i,j < N, every value, every history of such writes", "why_tests_cant": "the outcome depends on how many entries the row already holds and whether (i,j) is one of them; a test fixes one history", "anchors": ["src/C-interface/ellpack/bml_setters_ellpack_typed.c: bml_set_element_ellpack", "src/C-interface/ellpack/bml_getters_ellpack_typed.c: bml_get_element_ellpack"]}
{"id": "C02", "title": "Element write is read back (CSR)", "statement": "After bml_set_element, or bml_set_element_new on a position that is not stored yet, on a CSR matrix the new value is read back, all other entries are unchanged, and the row storage grows as needed without ever being written out of bounds.", "quantifier": "every CSR matrix reachable from an allocation, every i,j, every value, histories of any length", "why_tests_cant": "growth happens at allocation-dependent points (capacity 10, 13, 16, 20, ...), so out-of-bounds writes can only be excluded for every length by an invariant", "anchors": ["src/C-interface/csr/bml_setters_csr_typed.c: csr_set_row_element, csr_set_row_element_new", "src/C-interface/csr/bml_getters_csr_typed.c: bml_get_csr"]}
{"id": "C03", "title": "Element write is read back (dense)", "statement": "After bml_set_element(A,i,j,v) on a dense matrix, bml_get_element(A,i,j) is v and every other element is unchanged.", "quantifier": "every N, every i,j < N, every matrix content", "why_tests_cant": "distinct (i,j) pairs must map to distinct addresses for every N; testing fixes N", "anchors": ["src/C-interface/dense/bml_setters_dense_typed.c: bml_set_element_dense", "src/C-interface/dense/bml_getters_dense_typed.c: bml_get_element_dense"]}
{"id": "C04", "title": "Row write is read back", "statement": "bml_set_row(A,i,row,t) followed by bml_get_row(A,i) returns the row with entries of magnitude <= t replaced by zero; all other rows are unchanged.", "quantifier": "every matrix (ELLPACK, CSR, dense), every row vector, every threshold, every row index, provided the kept entries fit", "why_tests_cant": "holds for every pattern of kept/dropped entries and old contents", "anchors": ["src/C-interface/ellpack/bml_setters_ellpack_typed.c: bml_set_row_ellpack", "src/C-interface/csr/bml_setters_csr_typed.c: csr_set_row", "src/C-interface/dense/bml_setters_dense_typed.c: bml_set_row_dense"]}
{"id": "C05", "title": "Diagonal write is read back", "statement": "bml_set_diagonal(A,d,t) followed by bml_get_diagonal(A) returns d with entries of magnitude <= t replaced by zero, and off-diagonal elements are unchanged.", "quantifier": "every matrix, every diagonal vector, every threshold, whether or not the diagonal entries were stored before", "why_tests_cant": "each row may or may not already store its diagonal, in any position; 2^N patterns", "anchors": ["src/C-interface/ellpack/bml_setters_ellpack_typed.c: bml_set_diagonal_ellpack", "src/C-interface/csr/bml_setters_csr_typed.c: bml_set_diagonal_csr", "src/C-interface/dense/bml_setters_dense_typed.c: bml_set_diagonal_dense"]}
{"id": "C06", "title": "Import/export round trip", "statement": "bml_export_to_dense(bml_import_from_dense(order,D,t),order') returns D with entries of magnitude <= t replaced by zero, laid out in order'. Import of N x N data whose rows have more than M kept entries is not silently accepted.", "quantifier": "every N, every dense array, both orders, every threshold, ELLPACK/CSR/dense", "why_tests_cant": "equality must hold for every array content and sparsity pattern", "anchors": ["src/C-interface/ellpack/bml_import_ellpack_typed.c", "src/C-interface/ellpack/bml_export_ellpack_typed.c", "src/C-interface/csr/bml_import_csr_typed.c", "src/C-interface/csr/bml_export_csr_typed.c", "src/C-interface/dense/bml_import_dense_typed.c", "src/C-interface/dense/bml_export_dense_typed.c"]}
{"id": "C07", "title": "Copies are equal and independent", "statement": "bml_copy_new(A) and bml_copy(A,B) give a matrix with the same elements as A; later writes to the copy do not change A and vice versa.", "quantifier": "every matrix, every later write", "why_tests_cant": "aliasing bugs need a particular later write to become visible", "anchors": ["src/C-interface/ellpack/bml_copy_ellpack_typed.c", "src/C-interface/csr/bml_copy_csr_typed.c", "src/C-interface/dense/bml_copy_dense_typed.c", "src/C-interface/bml_copy.c: bml_copy"]}
{"id": "C08", "title": "Addition computes alpha*A + beta*B thresholded", "statement": "bml_add(A,B,alpha,beta,t) leaves in A the matrix whose (i,j) element is alpha*A(i,j)+beta*B(i,j) if its magnitude exceeds t and 0 otherwise; B is unchanged.", "quantifier": "all matrices A,B of equal size, all alpha, beta (including 0), all thresholds, any storage order of the rows, when the kept entries of each row fit into M", "why_tests_cant": "union of two arbitrary sparsity patterns with cancellation; scratch arrays are reused across rows", "anchors": ["src/C-interface/ellpack/bml_add_ellpack_typed.c: bml_add_ellpack", "src/C-interface/csr/bml_add_csr_typed.c: bml_add_csr", "src/C-interface/dense/bml_add_dense_typed.c: bml_add_dense"]}
{"id": "C09", "title": "Adding a multiple of the identity", "statement": "bml_add_identity(A,beta,t) yields A + beta*I thresholded; bml_scale_add_identity(A,alpha,beta,t) yields alpha*A + beta*I thresholded.", "quantifier": "all matrices, all alpha, beta, thresholds, all four precisions, whether or not the diagonal is stored", "why_tests_cant": "depends on the stored pattern of each row and (for scale_add_identity) on the bit pattern of alpha", "anchors": ["src/C-interface/ellpack/bml_add_ellpack_typed.c: bml_add_identity_ellpack, bml_scale_add_identity_ellpack", "src/C-interface/csr/bml_add_csr_typed.c", "src/C-interface/dense/bml_add_dense_typed.c"]}
{"id": "C10", "title": "Scaling", "statement": "bml_scale_new, bml_scale and bml_scale_inplace multiply every element by the factor and change nothing else; bml_scale leaves its source unchanged.", "quantifier": "all matrices and factors, ELLPACK/CSR/dense", "why_tests_cant": "must hold for every stored pattern", "anchors": ["src/C-interface/ellpack/bml_scale_ellpack_typed.c", "src/C-interface/csr/bml_scale_csr_typed.c", "src/C-interface/dense/bml_scale_dense_typed.c"]}
{"id": "C11", "title": "Thresholding", "statement": "bml_threshold(A,t) keeps exactly the elements of magnitude > t and zeroes all others; bml_threshold_new(A,t) returns the same matrix without changing A; thresholding twice equals thresholding once.", "quantifier": "all matrices, all thresholds, all formats", "why_tests_cant": "in-place compaction while reading; every pattern of kept/dropped entries", "anchors": ["src/C-interface/ellpack/bml_threshold_ellpack_typed.c", "src/C-interface/csr/bml_threshold_csr_typed.c", "src/C-interface/dense/bml_threshold_dense_typed.c"]}
{"id": "C12", "title": "Sparse product", "statement": "bml_multiply(A,B,C,1,0,t) style products compute (AB)(i,j) = sum_k A(i,k)B(k,j); off-diagonal results of magnitude <= t are dropped, the diagonal is kept.", "quantifier": "all matrices A,B, all thresholds, any storage order", "why_tests_cant": "any pair of sparsity patterns, scratch arrays reused across rows", "anchors": ["src/C-interface/ellpack/bml_multiply_ellpack_typed.c: bml_multiply_AB_ellpack", "src/C-interface/csr/bml_multiply_csr_typed.c: bml_multiply_AB_csr", "src/C-interface/dense/bml_multiply_dense_typed.c"]}
{"id": "C13", "title": "Squaring with traces", "statement": "bml_multiply_x2(X,X2,t) stores X*X (thresholded off the diagonal) in X2 and returns exactly (tr X, tr X^2).", "quantifier": "all X, all thresholds", "why_tests_cant": "trace is accumulated during the sparse product; must agree for every pattern", "anchors": ["src/C-interface/ellpack/bml_multiply_ellpack_typed.c: bml_multiply_x2_ellpack", "src/C-interface/csr/bml_multiply_csr_typed.c: bml_multiply_x2_csr"]}
{"id": "C14", "title": "General multiply-accumulate", "statement": "bml_multiply(A,B,C,alpha,beta,t) leaves beta*C + alpha*(AB) in C, thresholded as in add, for A and B distinct or the same matrix.", "quantifier": "all A,B,C, alpha, beta, thresholds", "why_tests_cant": "composition of product and add with a temporary", "anchors": ["src/C-interface/ellpack/bml_multiply_ellpack_typed.c: bml_multiply_ellpack", "src/C-interface/csr/bml_multiply_csr_typed.c: bml_multiply_csr", "src/C-interface/dense/bml_multiply_dense_typed.c: bml_multiply_dense"]}
{"id": "C15", "title": "Row capacity overflow is reported, never silent", "statement": "No ELLPACK operation writes more than M entries into a row: when a result row needs more than M entries the library stops with an error instead of corrupting a neighbouring row or memory.", "quantifier": "all operations and all inputs", "why_tests_cant": "needs an adversarial pattern per operation", "anchors": ["src/C-interface/ellpack/bml_multiply_ellpack_typed.c", "src/C-interface/ellpack/bml_setters_ellpack_typed.c", "src/C-interface/ellpack/bml_add_ellpack_typed.c", "src/C-interface/ellpack/bml_import_ellpack_typed.c"]}
{"id": "C16", "title": "Threshold-adjusting product terminates", "statement": "The threshold-adjusting product (bml_multiply_adjust_AB, used for row overflow) terminates for every input and returns a product whose rows fit into M.", "quantifier": "all A,B and thresholds", "why_tests_cant": "termination is a liveness property", "anchors": ["src/C-interface/ellpack/bml_multiply_ellpack_typed.c: bml_multiply_adjust_AB_ellpack"]}
{"id": "C17", "title": "Transpose into a new matrix for every thread schedule", "statement": "If no column of A holds more than M stored entries, bml_transpose_new(A) has element (i,j) equal to A(j,i), for every order in which OpenMP threads append entries; without that condition entries can be lost silently.", "quantifier": "all matrices, all thread interleavings at lock granularity", "why_tests_cant": "schedules cannot be enumerated by tests", "anchors": ["src/C-interface/ellpack/bml_transpose_ellpack_typed.c: bml_transpose_new_ellpack", "src/C-interface/csr/bml_transpose_csr_typed.c: bml_transpose_new_csr", "src/C-interface/dense/bml_transpose_dense_typed.c"]}
{"id": "C18", "title": "In-place transpose", "statement": "bml_transpose(A) terminates, replaces A by its transpose, needs no more row storage than documented, and applied twice restores A.", "quantifier": "all matrices, any storage order inside rows", "why_tests_cant": "the in-place algorithm moves entries between rows that are still being processed; correctness needs a loop invariant", "anchors": ["src/C-interface/csr/bml_transpose_csr_typed.c: bml_transpose_csr", "src/C-interface/ellpack/bml_transpose_ellpack_typed.c: bml_transpose_left_looking_ellpack", "src/C-interface/dense/bml_transpose_dense_typed.c: bml_transpose_dense"]}
{"id": "C19", "title": "Adjungate triangle", "statement": "bml_adjungate_triangle(A,'u'/'l') leaves the given triangle and the diagonal unchanged and makes the other triangle its conjugate transpose; any other selector is an error.", "quantifier": "all matrices whose other triangle is empty or not, both selectors", "why_tests_cant": "depends on what the other triangle already stores", "anchors": ["src/C-interface/ellpack/bml_adjungate_triangle_ellpack_typed.c", "src/C-interface/dense/bml_adjungate_triangle_dense_typed.c"]}
{"id": "C20", "title": "Trace and trace of a product", "statement": "bml_trace(A) = sum_i A(i,i); bml_trace_mult(A,B) = tr(A*B) in every format; mismatching sizes are an error.", "quantifier": "all matrices", "why_tests_cant": "agreement between formats for every (non-symmetric) pair", "anchors": ["src/C-interface/ellpack/bml_trace_ellpack_typed.c", "src/C-interface/csr/bml_trace_csr_typed.c", "src/C-interface/dense/bml_trace_dense_typed.c", "src/C-interface/ellblock/bml_trace_ellblock_typed.c"]}
{"id": "C21", "title": "Norm and inner-product reductions", "statement": "bml_sum_squares(A)=sum A(i,j)^2, bml_sum_squares_submatrix restricts to the leading core, bml_sum_squares2 and bml_sum_AB are the sums over alpha*A+beta*B and alpha*A.*B of entries above threshold; every format returns the same number.", "quantifier": "all matrices, alpha, beta, thresholds, core sizes", "why_tests_cant": "cross-format agreement over all patterns", "anchors": ["src/C-interface/ellpack/bml_norm_ellpack_typed.c", "src/C-interface/csr/bml_norm_csr_typed.c", "src/C-interface/dense/bml_norm_dense_typed.c"]}
{"id": "C22", "title": "Gershgorin bounds enclose the spectrum", "statement": "Every real eigenvalue of a real matrix A lies between the two numbers returned by bml_gershgorin(A).", "quantifier": "all real matrices, all eigenpairs", "why_tests_cant": "universal over matrices and eigenvectors", "anchors": ["src/C-interface/ellpack/bml_normalize_ellpack_typed.c: bml_gershgorin_ellpack", "src/C-interface/csr/bml_normalize_csr_typed.c", "src/C-interface/dense/bml_normalize_dense_typed.c"]}
{"id": "C23", "title": "Normalization maps the spectrum into [0,1]", "statement": "After bml_normalize(A,min,max) the element (i,j) is (max*delta_ij - A(i,j))/(max-min); if every eigenvalue was in [min,max] every eigenvalue of the result is in [0,1].", "quantifier": "all matrices, all min < max", "why_tests_cant": "universal over matrices", "anchors": ["src/C-interface/ellpack/bml_normalize_ellpack_typed.c: bml_normalize_ellpack", "src/C-interface/csr/bml_normalize_csr_typed.c", "src/C-interface/dense/bml_normalize_dense_typed.c"]}
{"id": "C24", "title": "Domain decomposition partitions the rows", "statement": "bml_default_domain for the distributed mode gives every rank a contiguous block of rows; the blocks are disjoint, in rank order, cover [0,N), differ in size by at most one, and element counts/displacements describe consecutive non-overlapping pieces of the N*M array.", "quantifier": "every N, M and every number of ranks >= 1", "why_tests_cant": "all (N, ranks) pairs", "anchors": ["src/C-interface/bml_allocate.c: bml_default_domain"]}
{"id": "C25", "title": "Updated domain partitions the rows", "statement": "bml_update_domain with part ranges that tile the parts gives rank blocks that are contiguous, in order and cover exactly the total number of nodes.", "quantifier": "every number of ranks, every partition", "why_tests_cant": "all partitions", "anchors": ["src/C-interface/ellpack/bml_allocate_ellpack.c: bml_update_domain_ellpack", "src/C-interface/dense/bml_allocate_dense.c: bml_update_domain_dense"]}
{"id": "C26", "title": "CSR column hash table behaves like a map", "statement": "The column lookup table used by CSR kernels returns, for every key, the slot number of its most recent insertion, and nothing for keys not inserted since the last reset; all reads stay in bounds when the requested size is supported.", "quantifier": "every sequence of inserts/resets/lookups, every table size", "why_tests_cant": "collisions and histories of any length", "anchors": ["src/C-interface/csr/bml_allocate_csr.c: csr_noinit_table, csr_table_insert, csr_table_lookup, csr_reset_table"]}
{"id": "C27", "title": "Matrix Market write/read round trip", "statement": "Writing a matrix with bml_write_bml_matrix and reading it into a zero matrix of the same type gives back the same elements; reading a 'symmetric' file also sets the mirrored entries.", "quantifier": "all matrices, all values exactly representable in the text", "why_tests_cant": "all patterns and storage orders", "anchors": ["src/C-interface/ellpack/bml_utilities_ellpack_typed.c", "src/C-interface/csr/bml_utilities_csr_typed.c", "src/C-interface/dense/bml_utilities_dense_typed.c"]}
{"id": "C28", "title": "Submatrix extract/assign", "statement": "bml_extract_submatrix(A,irow,icol,n) has element (i,j)=A(irow+i,icol+j); bml_assign_submatrix(A,B,irow,icol) sets that block to B and leaves everything outside unchanged, also when the block was already populated.", "quantifier": "all matrices, offsets, sizes", "why_tests_cant": "depends on what the target block already stores", "anchors": ["src/C-interface/ellpack/bml_submatrix_ellpack_typed.c: bml_extract_submatrix_ellpack, bml_assign_submatrix_ellpack", "src/C-interface/csr/bml_submatrix_csr_typed.c", "src/C-interface/dense/bml_submatrix_dense_typed.c"]}
{"id": "C29", "title": "Format conversion preserves elements", "statement": "bml_convert(A,type,M) returns a matrix of the requested type with the same elements as A whenever each row's nonzeros fit into M.", "quantifier": "all matrices, all target formats", "why_tests_cant": "all patterns", "anchors": ["src/C-interface/ellpack/bml_convert_ellpack_typed.c", "src/C-interface/csr/bml_convert_csr_typed.c", "src/C-interface/dense/bml_convert_dense_typed.c"]}
{"id": "C30", "title": "Symmetric reordering", "statement": "bml_reorder(A,perm) yields A' with A'(perm(i),perm(j)) = A(i,j), identically in all formats.", "quantifier": "all permutations, all matrices", "why_tests_cant": "N! permutations", "anchors": ["src/C-interface/ellpack/bml_copy_ellpack_typed.c: bml_reorder_ellpack", "src/C-interface/dense/bml_copy_dense_typed.c: bml_reorder_dense"]}
{"id": "C31", "title": "Internal GEMM", "statement": "The internal gemm computes C := alpha*op(A)*op(B) + beta*C for every combination of transposition flags, with beta = 0 never reading C; invalid arguments are reported.", "quantifier": "all m,n,k, all flags, all alpha,beta, all contents", "why_tests_cant": "unbounded dimensions and flag combinations", "anchors": ["src/internal-blas/bml_gemm.c: bml_gemm_internal", "src/C-interface/dense/bml_multiply_dense_typed.c: bml_multiply_dense"]}
{"id": "C32", "title": "Constructors", "statement": "bml_zero_matrix is all zero; bml_identity_matrix is the identity; bml_banded_matrix has nonzeros only inside the band, at most M per row; bml_random_matrix never stores a column twice and never exceeds M per row.", "quantifier": "every N, M >= 1, every random sequence; ELLPACK, CSR and dense (block-ELLPACK: C52) (with at most 2^31-1 slots; larger matrices: C68)", "why_tests_cant": "universal over N, M and random draws", "anchors": ["src/C-interface/ellpack/bml_allocate_ellpack_typed.c", "src/C-interface/csr/bml_allocate_csr_typed.c", "src/C-interface/dense/bml_allocate_dense_typed.c"]}
{"id": "C33", "title": "Introspection", "statement": "bml_get_row_bandwidth(A,i) is the number of stored entries of row i, bml_get_bandwidth their maximum, and bml_get_sparsity(A,t) = 1 - #{|A(i,j)|>t}/N^2.", "quantifier": "all matrices, thresholds", "why_tests_cant": "all patterns", "anchors": ["src/C-interface/ellpack/bml_introspection_ellpack.c", "src/C-interface/ellpack/bml_introspection_ellpack_typed.c", "src/C-interface/csr/bml_introspection_csr.c", "src/C-interface/dense/bml_introspection_dense_typed.c"]}
{"id": "C34", "title": "Out-of-range element reads are rejected", "statement": "bml_get_element with a row or column index outside [0,N) terminates with an error, never returns a value and never reads outside the matrix.", "quantifier": "all indices (including negative), all matrices", "why_tests_cant": "all indices", "anchors": ["src/C-interface/ellpack/bml_getters_ellpack_typed.c: bml_get_element_ellpack", "src/C-interface/csr/bml_getters_csr_typed.c: bml_get_csr"]}
{"id": "C35", "title": "Element-wise product", "statement": "bml_element_multiply_AB(A,B,C,t) gives C(i,j)=A(i,j)*B(i,j), dropping off-diagonal results of magnitude <= t.", "quantifier": "all matrices, thresholds", "why_tests_cant": "all pairs of patterns", "anchors": ["src/C-interface/ellpack/bml_element_multiply_ellpack_typed.c", "src/C-interface/csr/bml_element_multiply_csr_typed.c", "src/C-interface/dense/bml_element_multiply_dense_typed.c"]}
{"id": "C36", "title": "Row-parallel kernels are schedule independent", "statement": "The OpenMP row loops of add, threshold, scale and multiply give the same matrix for every assignment of rows to threads and every execution order.", "quantifier": "all schedules, all inputs", "why_tests_cant": "schedules cannot be enumerated", "anchors": ["src/C-interface/ellpack/bml_add_ellpack_typed.c", "src/C-interface/ellpack/bml_multiply_ellpack_typed.c", "src/C-interface/ellpack/bml_threshold_ellpack_typed.c"]}
{"id": "C37", "title": "Frobenius norm of a difference", "statement": "bml_fnorm2(A,B)^2 = sum (A(i,j)-B(i,j))^2 in every format and for every thread schedule.", "quantifier": "all matrices, all schedules", "why_tests_cant": "needs rows where one matrix is empty, explicit zeros, or an unlucky interleaving", "anchors": ["src/C-interface/ellpack/bml_norm_ellpack_typed.c: bml_fnorm2_ellpack", "src/C-interface/dense/bml_norm_dense_typed.c: bml_fnorm2_dense"]}
{"id": "C38", "title": "Block-ELLPACK element access", "statement": "On a block-ELLPACK matrix with any block sizes, the block address computation is a bijection between global indices and (block, offset), set_element is read back by get_element and other elements are unchanged; a full block row is an error.", "quantifier": "all block-size vectors, all indices, all histories", "why_tests_cant": "all block partitions", "anchors": ["src/C-interface/ellblock/bml_setters_ellblock_typed.c: bml_set_element_new_ellblock", "src/C-interface/ellblock/bml_getters_ellblock_typed.c: bml_get_element_ellblock"]}
{"id": "C39", "title": "Block sizes do not leak between matrices", "statement": "A block-ELLPACK matrix created with bml_zero_matrix(N,M) has N rows, whatever matrices were created before.", "quantifier": "all creation histories", "why_tests_cant": "history dependent global state", "anchors": ["src/C-interface/ellblock/bml_allocate_ellblock.c: bml_get_block_sizes"]}
{"id": "C40", "title": "Core-halo submatrix extraction and assembly", "statement": "bml_matrix2submatrix builds the dense matrix of A restricted to the index list; bml_submatrix2matrix writes the thresholded core rows of the dense block back at the listed indices.", "quantifier": "all matrices, all duplicate-free index lists", "why_tests_cant": "all index lists and patterns", "anchors": ["src/C-interface/ellpack/bml_submatrix_ellpack_typed.c: bml_matrix2submatrix_ellpack, bml_submatrix2matrix_ellpack"]}
{"id": "C41", "title": "Gathering distributed rows", "statement": "After bml_allGatherVParallel every rank holds the rows computed by their owners, and the gathered matrix equals the one a single rank would have computed.", "quantifier": "every N, M, number of ranks, every content", "why_tests_cant": "all rank counts", "anchors": ["src/C-interface/ellpack/bml_parallel_ellpack_typed.c: bml_allGatherVParallel_ellpack", "src/C-interface/bml_allocate.c: bml_default_domain"]}
{"id": "C42", "title": "Distributed 2-D product (Cannon)", "statement": "bml_multiply on 2-D distributed matrices computes alpha*A*B+beta*C on every p x p process grid (threshold 0 / exact local products).", "quantifier": "every p >= 1, every block content, alpha, beta", "why_tests_cant": "all grid sizes", "anchors": ["src/C-interface/distributed2d/bml_multiply_distributed2d_typed.c"]}
{"id": "C43", "title": "Distributed 2-D wrappers agree with the global matrix", "statement": "Constructors, copy, clear, conversion, trace, sums, norms, sparsity, transpose, add, add_identity, scale, threshold, set_row, get_row, set_diagonal, import and export on 2-D distributed matrices equal the same operation on the assembled global matrix.", "quantifier": "every process grid, every content", "why_tests_cant": "all grid sizes; get_row/add_identity behave differently from p = 3 / p = 2 on", "anchors": ["src/C-interface/distributed2d/bml_add_distributed2d.c", "src/C-interface/distributed2d/bml_getters_distributed2d_typed.c", "src/C-interface/distributed2d/bml_import_distributed2d_typed.c", "src/C-interface/distributed2d/bml_transpose_distributed2d.c", "src/C-interface/distributed2d/bml_trace_distributed2d.c", "src/C-interface/distributed2d/bml_norm_distributed2d.c", "src/C-interface/distributed2d/bml_introspection_distributed2d.c", "src/C-interface/distributed2d/bml_convert_distributed2d.c", "src/C-interface/distributed2d/bml_copy_distributed2d.c"]}
{"id": "C44", "title": "Integer square root for process grids", "statement": "bml_sqrtint(x) terminates and returns p with p*p = x exactly when x is a perfect square; the grid setup rejects exactly the non-squares.", "quantifier": "all x >= 1", "why_tests_cant": "all x", "anchors": ["src/C-interface/bml_utilities.c: bml_sqrtint", "src/C-interface/distributed2d/bml_allocate_distributed2d.c: bml_setcomm_distributed2d"]}
{"id": "C45", "title": "Frobenius norm is a norm", "statement": "bml_fnorm(A)^2 is the sum of squared magnitudes |A(i,j)|^2, for real and complex matrices.", "quantifier": "all matrices, all four precisions", "why_tests_cant": "all contents; complex entries with nonzero imaginary part", "anchors": ["src/C-interface/ellpack/bml_norm_ellpack_typed.c: bml_fnorm_ellpack", "src/C-interface/dense/bml_norm_dense_typed.c: bml_fnorm_dense"]}
{"id": "C46", "title": "Histories refine the abstract matrix machine", "statement": "Any sequence of library calls (set, add, scale, threshold, multiply, transpose, add_identity, copy) applied to a matrix gives the elements obtained by applying the mathematical operations in the same order, as long as no call reports an error and each row fits.", "quantifier": "all call sequences of any length", "why_tests_cant": "unbounded histories", "anchors": ["src/C-interface/csr/*", "src/C-interface/ellpack/*"]}
{"id": "C47", "title": "Handle life cycle", "statement": "bml_deallocate sets the handle to NULL and is a no-op on NULL; introspection of a NULL handle reports 'uninitialized' values instead of dereferencing it.", "quantifier": "all handles, all call orders", "why_tests_cant": "all orders of calls", "anchors": ["src/C-interface/bml_allocate.c: bml_deallocate", "src/C-interface/bml_introspection.c: bml_get_type, bml_get_N"]}
{"id": "C48", "title": "Clear", "statement": "bml_clear(A) makes every element read as zero while keeping N and M, and A can be filled and used again afterwards exactly like a freshly allocated zero matrix.", "quantifier": "all matrices (ELLPACK, CSR, dense; block-ELLPACK: C53), all later operations", "why_tests_cant": "all later histories", "anchors": ["src/C-interface/ellpack/bml_allocate_ellpack_typed.c: bml_clear_ellpack", "src/C-interface/csr/bml_allocate_csr_typed.c: bml_clear_csr"]}
{"id": "C49", "title": "Matrix of groups", "statement": "bml_group_matrix(A, hindex, ngroups, threshold) returns a matrix of ones: element (i,c) is stored exactly if i = c or some stored element of A between a row of group i and a row of group c is above the threshold, independently of the number of threads.", "quantifier": "all ELLPACK matrices, all groupings of the rows into consecutive groups, all thresholds, all thread schedules", "why_tests_cant": "all matrices, groupings and schedules; the result depends on how rows are distributed over threads", "anchors": ["src/C-interface/ellpack/bml_submatrix_ellpack_typed.c: bml_group_matrix_ellpack"]}
{"id": "C50", "title": "Index lists of core and halo", "statement": "bml_matrix2submatrix_index(_graph) writes distinct indices into core_halo_index: first the core nodes (in the given order if they are distinct), then every index reachable from a core node through one stored element (with the double jump flag: two), and nothing else; vsize holds the two lengths, and an output array of N cells is never overrun.", "quantifier": "all ELLPACK matrices and graphs, all node lists, both values of the double jump flag", "why_tests_cant": "all graphs and node lists", "anchors": ["src/C-interface/ellpack/bml_submatrix_ellpack_typed.c: bml_matrix2submatrix_index_ellpack, bml_matrix2submatrix_index_graph_ellpack"]}
{"id": "C51", "title": "Adjacency lists", "statement": "bml_adjacency (bml_adjacency_group) fills xadj and adjncy with the graph of the stored off-diagonal elements (of the first rows of the groups): consecutive segments, each sorted and without repetition, 0- or 1-based, writing no cell outside the arrays the caller sized for that graph.", "quantifier": "all ELLPACK matrices, all group lists, both bases, all thread schedules", "why_tests_cant": "all sparsity patterns", "anchors": ["src/C-interface/ellpack/bml_submatrix_ellpack.c: bml_adjacency_ellpack, bml_adjacency_group_ellpack"]}
{"id": "C52", "title": "Block-ELLPACK constructors", "statement": "On block-ELLPACK, bml_identity_matrix is the identity, bml_banded_matrix has the drawn values inside the band and zero outside, bml_random_matrix gives a well-formed matrix of drawn values and zeros whose diagonal is drawn, bml_noinit_matrix gives a usable N x N matrix.", "quantifier": "every N >= M >= 1, every block-size vector adding up to N, every random sequence", "why_tests_cant": "universal over sizes and block partitions", "anchors": ["src/C-interface/ellblock/bml_allocate_ellblock_typed.c: bml_identity_matrix_ellblock, bml_banded_matrix_ellblock, bml_random_matrix_ellblock, bml_noinit_matrix_ellblock", "src/C-interface/ellblock/bml_allocate_ellblock.c: bml_get_block_sizes"]}
{"id": "C53", "title": "Block-ELLPACK clear", "statement": "On block-ELLPACK, bml_clear(A) makes every element read as zero while keeping N and M, and A can be filled and used again afterwards exactly like a freshly allocated zero matrix.", "quantifier": "all matrices, all block sizes, all later operations", "why_tests_cant": "all later histories", "anchors": ["src/C-interface/ellblock/bml_allocate_ellblock_typed.c: bml_clear_ellblock"]}
{"id": "C54", "title": "Block-ELLPACK rows and diagonals", "statement": "On block-ELLPACK, bml_get_row and bml_get_diagonal return the elements; bml_set_row(A,i,row,t) and bml_set_diagonal(A,d,t) write the entries above t, replace the others by zero and change nothing else; a row that does not fit is reported.", "quantifier": "all matrices, all block sizes, all vectors and thresholds, all rows", "why_tests_cant": "universal over block partitions and old contents", "anchors": ["src/C-interface/ellblock/bml_setters_ellblock_typed.c: bml_set_row_ellblock, bml_set_diagonal_ellblock", "src/C-interface/ellblock/bml_getters_ellblock_typed.c: bml_get_row_ellblock, bml_get_diagonal_ellblock"]}
{"id": "C55", "title": "Block-ELLPACK dense import and export", "statement": "On block-ELLPACK, bml_import_from_dense keeps the blocks that have an entry above the threshold and zeroes the others, bml_export_to_dense returns all elements in the requested order; data that does not fit is not silently accepted.", "quantifier": "all dense data, thresholds, orders, block sizes", "why_tests_cant": "universal over patterns and block partitions", "anchors": ["src/C-interface/ellblock/bml_import_ellblock_typed.c: bml_import_from_dense_ellblock", "src/C-interface/ellblock/bml_export_ellblock_typed.c: bml_export_to_dense_ellblock"]}
{"id": "C56", "title": "Block-ELLPACK copy and scale", "statement": "On block-ELLPACK, bml_copy_new, bml_copy give a matrix with the same elements, bml_scale_new, bml_scale, bml_scale_inplace multiply every element by the factor.", "quantifier": "all matrices, all block sizes, all schedules of the parallel loops, all old contents of the target", "why_tests_cant": "universal over block partitions, target contents and schedules", "anchors": ["src/C-interface/ellblock/bml_copy_ellblock_typed.c", "src/C-interface/ellblock/bml_scale_ellblock_typed.c"]}
{"id": "C57", "title": "Sending a matrix to another rank", "statement": "A matrix sent by bml_mpi_send and received by bml_mpi_recv or bml_mpi_irecv/bml_mpi_irecv_complete into a matrix of the same size gives the receiver the same elements, whatever it held before; bml_mpi_bcast_matrix gives every rank the root's elements.", "quantifier": "all matrices, all formats, all old contents of the receiving matrix", "why_tests_cant": "universal over fill patterns, row capacities and old contents", "anchors": ["src/C-interface/dense/bml_parallel_dense_typed.c: bml_mpi_send_dense, bml_mpi_recv_dense, bml_mpi_irecv_dense", "src/C-interface/ellpack/bml_parallel_ellpack_typed.c: bml_mpi_send_ellpack, bml_mpi_recv_ellpack, bml_mpi_irecv_ellpack", "src/C-interface/csr/bml_parallel_csr_typed.c: bml_mpi_send_csr, bml_mpi_recv_csr, bml_mpi_irecv_csr, bml_mpi_irecv_complete_csr, bml_mpi_bcast_matrix_csr", "src/C-interface/ellblock/bml_parallel_ellblock_typed.c: bml_mpi_send_ellblock, bml_mpi_recv_ellblock, bml_mpi_irecv_ellblock, bml_mpi_irecv_complete_ellblock, bml_mpi_bcast_matrix_ellblock, bml_mpi_recv_matrix_ellblock"]}
{"id": "C58", "title": "Saving and restoring the domain", "statement": "bml_restore_domain undoes every bml_update_domain made since bml_save_domain: each rank has the rows, elements and displacements it had, and the extreme row counts are those of the restored domain.", "quantifier": "all matrices, numbers of ranks, sequences of updates between save and restore", "why_tests_cant": "universal over rank counts and histories of updates", "anchors": ["src/C-interface/bml_copy.c: bml_copy_domain, bml_save_domain, bml_restore_domain", "src/C-interface/bml_allocate.c: bml_update_domain"]}
{"id": "C59", "title": "Block-ELLPACK traces and sums", "statement": "On block-ELLPACK, bml_trace is the sum of the diagonal, bml_trace_mult the trace of the product of two matrices with the same blocks, bml_sum_squares the sum of the squares of all elements, bml_get_sparsity one minus the share of elements above the threshold.", "quantifier": "all matrices, all block sizes, all orders of the stored blocks", "why_tests_cant": "universal over block partitions and fill patterns", "anchors": ["src/C-interface/ellblock/bml_trace_ellblock_typed.c", "src/C-interface/ellblock/bml_norm_ellblock_typed.c: bml_sum_squares_ellblock", "src/C-interface/ellblock/bml_introspection_ellblock_typed.c: bml_get_sparsity_ellblock"]}
{"id": "C60", "title": "Block-ELLPACK eigenvalue circles", "statement": "On block-ELLPACK, bml_accumulate_offdiag returns for each row the sum of the absolute values (with or without the diagonal), and every eigenvalue lies between the two numbers bml_gershgorin returns.", "quantifier": "all matrices, all block sizes, all eigenvalues", "why_tests_cant": "a statement about every eigenvalue of every matrix", "anchors": ["src/C-interface/ellblock/bml_normalize_ellblock_typed.c: bml_accumulate_offdiag_ellblock, bml_gershgorin_ellblock"]}
{"id": "C61", "title": "Block-ELLPACK threshold", "statement": "On block-ELLPACK, bml_threshold and bml_threshold_new set exactly the elements not above the threshold to zero and keep the others; blocks that become empty are no longer stored and the matrix can be written to as before.", "quantifier": "all matrices, block sizes, thresholds, later writes", "why_tests_cant": "universal over fill patterns; blocks move while the loop runs over them", "anchors": ["src/C-interface/ellblock/bml_threshold_ellblock_typed.c", "src/C-interface/ellblock/bml_allocate_ellblock_typed.c: bml_free_block_ellblock"]}
{"id": "C62", "title": "Block-ELLPACK sums", "statement": "On block-ELLPACK, bml_add(A,B,alpha,beta,t) makes A equal to alpha*A+beta*B with the blocks that have no element above t set to zero, for any order of the parallel loop, and any sequence of sums does so; bml_add_identity, bml_scale_add_identity and bml_normalize give A+beta*I, alpha*A+beta*I and the matrix whose spectrum is mapped into [0,1].", "quantifier": "all matrices, block sizes, factors, thresholds, schedules, sequences of sums", "why_tests_cant": "blocks are dropped and allocations are reused in other positions, depending on values and on earlier calls", "anchors": ["src/C-interface/ellblock/bml_add_ellblock_typed.c: bml_add_ellblock, bml_add_identity_ellblock, bml_scale_add_identity_ellblock", "src/C-interface/ellblock/bml_normalize_ellblock_typed.c: bml_normalize_ellblock"]}
{"id": "C63", "title": "Block-ELLPACK products", "statement": "On block-ELLPACK, bml_multiply_AB makes C equal to A*B and bml_multiply_x2 makes X2 equal to X*X, with the blocks off the diagonal that have no element above the threshold set to zero, whatever the result held before and for any order of the parallel loop; bml_multiply_x2 returns the traces of X and of X*X; a product whose blocks do not fit is reported as an error; bml_multiply makes C equal to alpha*A*B+beta*C.", "quantifier": "all matrices, block sizes, factors, thresholds, previous contents, schedules", "why_tests_cant": "the position of a block in a row, and the kernel called for it, depend on the fill pattern of both factors", "anchors": ["src/C-interface/ellblock/bml_multiply_ellblock_typed.c: bml_multiply_ellblock, bml_multiply_x2_ellblock, bml_multiply_AB_ellblock"]}
{"id": "C64", "title": "Block-ELLPACK transposition", "statement": "On block-ELLPACK, bml_transpose_new(A) gives a matrix whose element (i,j) is A(j,i) and leaves A as it is; bml_transpose(A) terminates and replaces A by its transpose; both applied twice restore A; afterwards the matrix can be written to and added to as before.", "quantifier": "all matrices, block sizes, storage orders within block rows", "why_tests_cant": "the in-place algorithm moves blocks between rows that are still being processed; correctness and room in the rows depend on the whole block pattern", "anchors": ["src/C-interface/ellblock/bml_transpose_ellblock_typed.c: bml_transpose_new_ellblock, bml_transpose_ellblock, swap_block"]}
{"id": "C65", "title": "Block-ELLPACK norms of two matrices", "statement": "On block-ELLPACK, bml_sum_squares2(A,B,alpha,beta,t) is the sum of squares of alpha*A+beta*B up to the blocks whose sum of squares is not above t*t, exactly the sum for t=0; bml_sum_AB(A,B,alpha,t) is the sum of alpha*A(i,j)*B(i,j) in the same sense; bml_fnorm2(A,B) is the Frobenius norm of A-B; bml_add_norm adds like bml_add and returns the squared norm of the difference of its arguments.", "quantifier": "all pairs of matrices with the same block sizes, factors, thresholds", "why_tests_cant": "the blocks that the two matrices have, their order in a row and their positions relative to each other decide which memory is read", "anchors": ["src/C-interface/ellblock/bml_norm_ellblock_typed.c: bml_sum_AB_ellblock, bml_sum_squares2_ellblock, bml_fnorm2_ellblock", "src/C-interface/ellblock/bml_add_ellblock_typed.c: bml_add_norm_ellblock"]}
{"id": "C66", "title": "Converting to block-ELLPACK; submatrices of block-ELLPACK matrices", "statement": "bml_convert(A, ellblock, ...) returns a matrix with the elements of A. bml_extract_submatrix(A,irow,icol,n,m) on a block-ELLPACK matrix returns an n x n matrix with element (i,j)=A(irow+i,icol+j); bml_assign_submatrix(A,B,irow,icol) sets that part of A to B and leaves everything else unchanged, also when it was already populated.", "quantifier": "all matrices, source formats, block sizes in effect, window positions and sizes, and earlier contents", "why_tests_cant": "depends on block sizes set by earlier calls, on what the target stores, and on where the window lies relative to the blocks", "anchors": ["src/C-interface/ellblock/bml_convert_ellblock_typed.c: bml_convert_ellblock", "src/C-interface/ellblock/bml_submatrix_ellblock_typed.c: bml_extract_submatrix_ellblock, bml_assign_submatrix_ellblock"]}
{"id": "C67", "title": "Reading and writing distributed matrices", "statement": "bml_write_bml_matrix on a 2-D distributed matrix writes, on rank 0, the MatrixMarket file of the assembled global matrix, and bml_read_bml_matrix distributes the matrix of a file over the ranks; writing and then reading gives back the same matrix, also on another process grid, for every order in which messages are delivered, without deadlock.", "quantifier": "every process grid, tile size, content, old content of the reading matrix, file with legal entries, and interleaving of the ranks", "why_tests_cant": "universal over grids, fill patterns, row capacities and message schedules; the CSR defects need empty matrices or rows wider than M/p", "anchors": ["src/C-interface/distributed2d/bml_utilities_distributed2d.c: bml_read_bml_matrix_distributed2d, bml_write_bml_matrix_distributed2d", "src/C-interface/bml_submatrix.c: bml_extract_submatrix, bml_assign_submatrix", "src/C-interface/bml_parallel.c: bml_mpi_send, bml_mpi_recv"]}
{"id": "C68", "title": "Matrices with more than 2^31-1 slots", "statement": "A matrix for which there is memory can be constructed and its elements can be set and read, also if its number of slots (N*M for ELLPACK, N*N for dense) exceeds the range of int; below that limit the int arithmetic of the constructors and of the element addresses is exact.", "quantifier": "every N, M, number of ranks, distribution mode, element and matrix content", "why_tests_cant": "needs matrices of more than 8 GB, and universal over all sizes below the limit", "anchors": ["src/C-interface/bml_allocate.c: bml_default_domain", "src/C-interface/ellpack/bml_allocate_ellpack_typed.c: bml_zero_matrix_ellpack, bml_noinit_matrix_ellpack", "src/C-interface/dense/bml_allocate_dense_typed.c: bml_zero_matrix_dense", "src/macros.h: ROWMAJOR", "src/C-interface/ellpack/bml_getters_ellpack_typed.c: bml_get_element_ellpack", "src/C-interface/ellpack/bml_setters_ellpack_typed.c: bml_set_element_ellpack", "src/C-interface/dense/bml_getters_dense_typed.c: bml_get_element_dense"]}
{"id": "C69", "title": "Typed element functions", "statement": "bml_get_element_single_real, _double_real, _single_complex and _double_complex (and the Fortran bml_get_element, which calls them) return the element (i,j) of a matrix of their precision, the one that bml_get_element points to; an index out of range is reported.", "quantifier": "every well-formed matrix of every format, every order in which a row stores its columns, every index, each of the four functions", "why_tests_cant": "the library's tests read matrices all of whose rows store all columns in the same order; the claim ranges over every sparsity pattern and column order", "anchors": ["src/C-interface/bml_elemental.c: bml_get_element_single_real, bml_get_element_double_real, bml_get_element_single_complex, bml_get_element_double_complex", "src/C-interface/ellpack/bml_elemental_ellpack.c", "src/C-interface/dense/bml_elemental_dense.c", "src/Fortran-interface/bml_elemental_m.F90"]}
{"id": "C70", "title": "Fortran matrix variables", "statement": "A Fortran program that creates, copies, changes, queries and releases matrices through bml_matrix_t variables never reads or frees released memory, in whatever order it calls the procedures and however often it reuses a variable; once it has released its variables no memory of the library is left.", "quantifier": "every finite sequence of calls, every allocator behaviour, every distribution mode, every reuse of variables", "why_tests_cant": "tests run a few fixed sequences of calls; the claim is about every sequence", "anchors": ["src/Fortran-interface/bml_types_m.F90: bml_matrix_t", "src/Fortran-interface/bml_allocate_m.F90: bml_zero_matrix, bml_deallocate, bml_clear", "src/Fortran-interface/bml_copy_m.F90: bml_copy_new", "src/Fortran-interface/bml_c_interface_m.F90: bml_clear_C"]}
{"id": "C71", "title": "Fortran names and introspection", "statement": "Asked for its type, element type, element precision, distribution mode, size and width, a matrix made by the Fortran interface answers with the names and numbers that its constructor was given, up to trailing blanks.", "quantifier": "every matrix type, element type, kind, distribution mode, size and width accepted by the constructor, with any number of trailing blanks", "why_tests_cant": "the combinations of names, kinds, modes and sizes are unbounded, and tests ask only a few of the questions", "anchors": ["src/Fortran-interface/bml_interface_m.F90", "src/Fortran-interface/bml_introspection_m.F90", "src/Fortran-interface/bml_allocate_m.F90"]}
{"id": "C72", "title": "Fortran element, row and diagonal access", "statement": "In the Fortran interface rows and columns count from one: after bml_set_element(a,i,j,x), bml_set_row(a,i,row) or bml_set_diagonal(a,d), the calls bml_get_row, bml_get_diagonal and bml_get_element return for (i,j) what was set there and for other elements what they returned before; bml_reorder takes a permutation in the same counting.", "quantifier": "every well-formed dense, ELLPACK or CSR matrix, every element type, all indices from 1 to N, all values, rows, thresholds and permutations", "why_tests_cant": "tests set and get a few elements of matrices of one size; off-by-one errors at the borders and at particular sparsity patterns need a claim about all of them", "anchors": ["src/Fortran-interface/bml_setters_m.F90", "src/Fortran-interface/bml_getters_m.F90", "src/Fortran-interface/bml_elemental_m.F90", "src/Fortran-interface/bml_introspection_m.F90: bml_get_row_bandwidth", "src/Fortran-interface/bml_copy_m.F90: bml_reorder", "src/C-interface/bml_setters.c", "src/C-interface/bml_getters.c"]}
{"id": "C73", "title": "Fortran dense arrays", "statement": "bml_import_from_dense(a_dense) gives a matrix with the elements of the array above threshold, and bml_export_to_dense gives back an array with the elements of the matrix, on every process.", "quantifier": "every array argument Fortran accepts (arrays, sections with any strides, any shape), every format, threshold and process", "why_tests_cant": "tests import whole square arrays on one process; the claim is about every array section and every process", "anchors": ["src/Fortran-interface/bml_import_m.F90", "src/Fortran-interface/bml_export_m.F90", "src/C-interface/bml_import.c", "src/C-interface/bml_export.c"]}
{"id": "C74", "title": "Matrix inverse", "statement": "bml_inverse(A) returns a new matrix of the type, size and capacity of A whose product with A, from either side, is the identity; A keeps its elements; a matrix without an inverse is reported.", "quantifier": "every invertible matrix of every size, in every format, with any sparsity pattern, any order of the parallel loops, and any LAPACK that does what its documentation says", "why_tests_cant": "tests invert a few well-conditioned random matrices with full rows; the claim is about every pattern and capacity, and about singular matrices", "anchors": ["src/C-interface/bml_inverse.c", "src/C-interface/dense/bml_inverse_dense_typed.c", "src/C-interface/ellpack/bml_inverse_ellpack_typed.c", "src/C-interface/csr/bml_inverse_csr_typed.c", "src/C-interface/ellblock/bml_inverse_ellblock_typed.c"]}
{"id": "C75", "title": "Eigenvalues and eigenvectors", "statement": "bml_diagonalize(A, w, V) for a symmetric (Hermitian) matrix A stores in w the eigenvalues in ascending order and in the columns of V orthonormal eigenvectors, column j for eigenvalue j; if that is not possible it says so.", "quantifier": "every symmetric or Hermitian matrix of every size, in every format and element type, any order of the parallel loops, from C and from Fortran, and any LAPACK that does what its documentation says", "why_tests_cant": "tests diagonalize a few real matrices and compare with stored eigenvalues; row-major storage, complex elements and capacities need a claim about all matrices", "anchors": ["src/C-interface/bml_diagonalize.c", "src/C-interface/dense/bml_diagonalize_dense.c", "src/C-interface/ellpack/bml_diagonalize_ellpack_typed.c", "src/C-interface/csr/bml_diagonalize_csr_typed.c", "src/C-interface/ellblock/bml_diagonalize_ellblock_typed.c", "src/Fortran-interface/bml_diagonalize_m.F90", "src/C-interface/distributed2d/bml_diagonalize_distributed2d_typed.c:bml_diagonalize_distributed2d"]}
{"id": "C76", "title": "Printing", "statement": "bml_print_bml_matrix(A, il, iu, jl, ju) prints one line for each row i with il <= i < iu, with the elements (i,j), jl <= j < ju, in order; the output does not depend on the format of A and, for a distributed matrix, appears once. The Fortran bml_print_matrix does the same with inclusive bounds that count from one. Bounds outside the matrix are refused.", "quantifier": "every matrix in every format, all bounds, every order of the parallel loops, every process; in Fortran every array", "why_tests_cant": "no test looks at printed output, and a test could only compare some windows of some matrices", "anchors": ["src/C-interface/bml_utilities.c: bml_print_bml_matrix, bml_print_dense_matrix, bml_print_dense_vector", "src/C-interface/dense/bml_utilities_dense_typed.c", "src/Fortran-interface/bml_utilities_m.F90", "src/Fortran-interface/bml_utilities_typed_m.F90"]}
{"id": "C77", "title": "Parallel loops, access by access", "statement": "In the parallel loops of threshold, add, the product and transpose_new of ELLPACK matrices, and of threshold, threshold_new, transpose_new, transpose, adjungate_triangle, transpose_triangle, add_identity, element multiply and fnorm2 of dense matrices, no two threads ever access the same memory location at the same time with one of them writing, no thread touches memory or locks that do not exist, the threads never wait for each other for ever, the loop ends after a bounded number of steps, and the result is the one of the sequential loop; other matrices do not change. The same holds for adjungate_triangle of ELLPACK matrices.", "quantifier": "all matrices, all assignments of rows to any number of threads, and every interleaving of the single loads, stores and lock operations of the threads", "why_tests_cant": "a test sees one interleaving; data races are undefined behaviour that usually gives the right answer", "anchors": ["src/C-interface/ellpack/bml_threshold_ellpack_typed.c: bml_threshold_ellpack", "src/C-interface/ellpack/bml_add_ellpack_typed.c: bml_add_ellpack", "src/C-interface/ellpack/bml_multiply_ellpack_typed.c: bml_multiply_AB_ellpack", "src/C-interface/ellpack/bml_transpose_ellpack_typed.c: bml_transpose_new_ellpack", "src/C-interface/ellpack/bml_adjungate_triangle_ellpack_typed.c", "src/C-interface/dense/bml_threshold_dense_typed.c", "src/C-interface/dense/bml_transpose_dense_typed.c", "src/C-interface/dense/bml_adjungate_triangle_dense_typed.c", "src/C-interface/dense/bml_transpose_triangle_dense_typed.c", "src/C-interface/dense/bml_element_multiply_dense_typed.c", "src/C-interface/dense/bml_add_dense_typed.c: bml_add_identity_dense", "src/C-interface/dense/bml_norm_dense_typed.c: bml_fnorm2_dense"]}
{"id": "C78", "title": "Reading any file", "statement": "Reading a matrix from any text either stores exactly the entries the text contains (and, if it is declared symmetric, their mirror images) or ends with an error: never a crash, a write outside of the matrix or a matrix on which later operations are undefined; all formats give the same matrix for the same text.", "quantifier": "all character sequences, all matrices of all formats", "why_tests_cant": "files come from other programs and there are infinitely many of them; a bad entry does harm only in a later operation", "anchors": ["src/C-interface/ellpack/bml_utilities_ellpack_typed.c: bml_read_bml_matrix_ellpack", "src/C-interface/dense/bml_utilities_dense_typed.c: bml_read_bml_matrix_dense", "src/C-interface/csr/bml_utilities_csr_typed.c: bml_read_bml_matrix_csr"]}
{"id": "C79", "title": "Programs get the same answers in every format", "statement": "A program that creates matrices, computes with them (constructors, row and diagonal writes, copies, scalings, sums, identity updates, thresholds, products, squares, transpositions) and asks for elements, rows, diagonals, traces, sums of squares and dense exports gets the same answers, in the same order, from the dense, the CSR and the ELLPACK format, when rows are as wide as the matrix and the thresholds of arithmetic calls drop only zeros; every answer is the one of matrix algebra, on every thread schedule and for all contents of fresh memory.", "quantifier": "all programs of any length, all sizes and elements, all schedules, all contents of fresh memory, three formats", "why_tests_cant": "a test runs a few programs on a few schedules; a difference between formats can need a particular history of calls", "anchors": ["src/C-interface/bml_getters.c", "src/C-interface/dense/*", "src/C-interface/csr/*", "src/C-interface/ellpack/*"]}
{"id": "C80", "title": "Fortran programs compute what their statements say", "statement": "A Fortran program that creates matrices, computes with them through the procedures of the Fortran interface and reads rows, diagonals, traces, sums of squares and dense arrays gets the answers of matrix algebra, where an absent threshold means 0, absent factors of bml_multiply mean 1 and 0, and indices count from one. Conditions: every matrix is created before it is used, data have the element type of the matrices, the matrix a call writes is not one it reads (except for bml_scale), sparse rows are as wide as the matrix, and ELLPACK programs do not call bml_set_element. Existing destinations of bml_copy_new and bml_transpose are replaced. A first matrix argument that has not been created is reported as an error.", "quantifier": "all Fortran programs of any length that meet the conditions, all sizes and elements, all combinations of present and absent arguments, all schedules, all contents of fresh memory, three formats", "why_tests_cant": "a test tries a few combinations of optional arguments and a few orders of calls", "anchors": ["src/Fortran-interface/bml_add_m.F90", "src/Fortran-interface/bml_multiply_m.F90", "src/Fortran-interface/bml_scale_m.F90", "src/Fortran-interface/bml_transpose_m.F90", "src/Fortran-interface/bml_copy_m.F90", "src/Fortran-interface/bml_threshold_m.F90", "src/Fortran-interface/bml_setters_m.F90", "src/Fortran-interface/bml_getters_m.F90", "src/Fortran-interface/bml_export_m.F90"]}
{"id": "C81", "title": "Programs of block-ELLPACK matrices get the answers of matrix algebra", "statement": "A program that works on block-ELLPACK matrices - creates them, sets elements and diagonals, copies, scales, adds, thresholds, multiplies, squares and transposes them - and reads elements, rows, diagonals, traces, sums of squares and dense arrays gets the answers of matrix algebra, the same that dense, CSR and ELLPACK matrices give. Conditions: all blocks have the same number of rows, at most six, and the block rows have room for all blocks; the arithmetic thresholds drop only zeros; bml_set_element is called only on matrices that have not been the target of a sum, a product over old contents, an in-place transposition or a copy; sums, copies and general products do not go to a matrix that was transposed in place or overwritten by a square.", "quantifier": "all programs of any length that meet the conditions, all sizes and elements, all schedules of the parallel loops, all contents of fresh memory", "why_tests_cant": "the block format leaves pointers to unused and to freed blocks behind; whether a later call trips over them depends on the whole history of the matrix", "anchors": ["src/C-interface/ellblock/bml_add_ellblock_typed.c", "src/C-interface/ellblock/bml_multiply_ellblock_typed.c", "src/C-interface/ellblock/bml_transpose_ellblock_typed.c", "src/C-interface/ellblock/bml_copy_ellblock_typed.c", "src/C-interface/ellblock/bml_scale_ellblock_typed.c", "src/C-interface/ellblock/bml_threshold_ellblock_typed.c", "src/C-interface/ellblock/bml_setters_ellblock_typed.c", "src/C-interface/ellblock/bml_getters_ellblock_typed.c", "src/C-interface/ellblock/bml_allocate_ellblock.c"]}
{"id": "C82", "title": "ELLPACK, CSR and dense programs are reproducible bit for bit", "statement": "Two runs of the same program on ELLPACK matrices with the same stored entries store the same entries, bit for bit and in the same order, and give the same answers, whatever the schedule of the parallel loops and whatever was in fresh memory, although floating-point addition is not associative. Each stored element is a definite expression: a product element is the sum, from left to right in the stored order of the row of the left factor, of the products of stored entries. The program may create, set rows and diagonals, copy, scale, add, threshold, multiply and square, with rows as wide as the matrix, and read elements, rows, diagonals and dense arrays. Not reproducible: traces and sums of squares, and products after bml_transpose_new. On dense matrices the same holds for all calls, bml_set_element and the transpositions included, with the products of the library's own gemm. On CSR matrices the same holds with bml_set_element included; a sum updates the entries of A in their places as a*alpha + beta*b and appends the others.", "quantifier": "all element types with any operations (no law of arithmetic assumed), all programs of any length, all sizes and contents, all pairs of schedules and contents of fresh memory", "why_tests_cant": "a difference in the last bit shows up only under a particular timing of the threads", "anchors": ["src/C-interface/ellpack/bml_multiply_ellpack_typed.c", "src/C-interface/ellpack/bml_add_ellpack_typed.c", "src/C-interface/ellpack/bml_transpose_ellpack_typed.c", "src/C-interface/ellpack/bml_trace_ellpack_typed.c", "src/C-interface/ellpack/bml_setters_ellpack_typed.c", "src/C-interface/ellpack/bml_getters_ellpack_typed.c", "src/C-interface/ellpack/bml_scale_ellpack_typed.c", "src/C-interface/ellpack/bml_threshold_ellpack_typed.c", "src/C-interface/ellpack/bml_copy_ellpack_typed.c", "src/C-interface/ellpack/bml_export_ellpack_typed.c", "src/C-interface/dense/bml_multiply_dense_typed.c", "src/C-interface/dense/bml_add_dense_typed.c", "src/C-interface/dense/bml_trace_dense_typed.c", "src/C-interface/csr/bml_multiply_csr_typed.c", "src/C-interface/csr/bml_add_csr_typed.c", "src/C-interface/csr/bml_setters_csr_typed.c"]}
{"id": "C83", "title": "Rounding errors of ELLPACK, CSR and dense operations", "statement": "If every addition and multiplication of the element type has a relative error of at most u, then an element of the computed product differs from the exact one by at most ((1+u)^n - 1) sum_k |a_ik||b_kj|, n the number of stored entries in the row of the left factor, plus the threshold off the diagonal; the bounds for bml_add, bml_multiply, bml_multiply_x2, bml_trace and bml_sum_squares are of the same kind. They hold for every schedule of the rows and, for the reductions, every order and bracketing of the sums of the threads. Over a program the errors add up to at most a bound computed from the exact values. Dense matrices have bounds of the same kind: alpha A B + beta C is off by at most ((1+u)^(N+2) - 1)(|beta||c_ij| + |alpha| sum_k |a_ik||b_kj|). CSR operations obey the same bounds as ELLPACK.", "quantifier": "all element types, real or complex values, every u, all sizes and contents, all thresholds, schedules and numbers of threads", "why_tests_cant": "an error bound is about all matrices and the worst case of all roundings; tests compare with loose tolerances on random matrices", "anchors": ["src/C-interface/ellpack/bml_multiply_ellpack_typed.c", "src/C-interface/ellpack/bml_add_ellpack_typed.c", "src/C-interface/ellpack/bml_trace_ellpack_typed.c", "src/C-interface/ellpack/bml_norm_ellpack_typed.c", "src/C-interface/dense/bml_multiply_dense_typed.c", "src/C-interface/dense/bml_add_dense_typed.c", "src/C-interface/dense/bml_trace_dense_typed.c", "src/C-interface/dense/bml_norm_dense_typed.c", "src/C-interface/csr/bml_multiply_csr_typed.c", "src/C-interface/csr/bml_add_csr_typed.c", "src/C-interface/csr/bml_trace_csr_typed.c", "src/C-interface/csr/bml_norm_csr_typed.c"]}
{"id": "C84", "title": "A call reaches the code of its matrices' own format and element type", "statement": "Every function of the interface that takes matrices reaches, for matrices of any one format and element type, code that reads each of them as what it is: as a structure of its own format and with elements of its own type. A format that the function does not support ends the program with a message; the list of these is explicit.", "quantifier": "all 78 functions of the C interface that choose their code by the format of a matrix, all formats and all element types", "why_tests_cant": "the test matrix of function, format and element type is never complete, and reading memory as the wrong element type can go unnoticed on small or symmetric inputs", "anchors": ["src/C-interface/bml_add.c", "src/C-interface/bml_multiply.c", "src/C-interface/bml_copy.c", "src/C-interface/bml_submatrix.c", "src/C-interface/bml_norm.c", "src/C-interface/bml_introspection.c", "src/C-interface/ellpack/bml_submatrix_ellpack.c", "src/C-interface/bml_allocate.c"]}
{"id": "C85", "title": "Computing calls leave no memory behind", "statement": "A call frees every temporary it allocates and gives the caller exactly one object, whose blocks bml_deallocate or bml_free_memory returns; what is allocated after a program that releases all it was given is what was allocated before. No call frees a block twice or uses a freed one.", "quantifier": "all matrices, all numbers in them (whatever rows have to grow), all allocators, all sequences of calls", "why_tests_cant": "a leak or a use of freed memory does not change the results of a test; whether it happens depends on the allocator and on which rows of which matrices happen to be full", "anchors": ["src/C-interface/bml_allocate.c", "src/C-interface/dense/bml_inverse_dense_typed.c", "src/C-interface/dense/bml_diagonalize_dense.c", "src/C-interface/ellpack/bml_multiply_ellpack_typed.c", "src/C-interface/ellpack/bml_transpose_ellpack_typed.c", "src/C-interface/csr/bml_add_csr_typed.c", "src/C-interface/csr/bml_multiply_csr_typed.c", "src/C-interface/csr/bml_submatrix_csr_typed.c", "src/C-interface/csr/bml_setters_csr_typed.c", "src/C-interface/ellblock/bml_allocate_ellblock_typed.c", "src/C-interface/ellblock/bml_add_ellblock_typed.c", "src/C-interface/ellblock/bml_copy_ellblock_typed.c", "src/C-interface/ellblock/bml_multiply_ellblock_typed.c", "src/C-interface/ellblock/bml_threshold_ellblock_typed.c", "src/C-interface/distributed2d/bml_allocate_distributed2d.c", "src/C-interface/distributed2d/bml_convert_distributed2d.c", "src/C-interface/distributed2d/bml_export_distributed2d_typed.c", "src/C-interface/distributed2d/bml_getters_distributed2d_typed.c", "src/C-interface/distributed2d/bml_multiply_distributed2d_typed.c", "src/C-interface/distributed2d/bml_transpose_distributed2d.c", "src/C-interface/distributed2d/bml_utilities_distributed2d.c", "src/C-interface/distributed2d/bml_diagonalize_distributed2d_typed.c"]}
