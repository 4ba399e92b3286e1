import Verif.Memory.Basic

/-!
# What the calls do with memory: dense, ELLPACK and CSR

Every function of the library that calls `malloc`, `free` or a function that does is modelled by those
calls, in their order.  What depends on the numbers in the matrices (whether a row has to grow) is an
argument, so the theorems hold for all of it.  Simplifications: the loops that run in parallel are
taken in one order; the arrays on the stack are left out; MPI runs with one rank.
-/

namespace Bml
namespace Memory

variable [Allocator]

/-! ## Objects -/

/-- `bml_domain_t` (`bml_types.h`): the structure and its five arrays. -/
structure Dom where
  (self rmin rmax ext displ elem : Blk)

/-- The blocks of a domain. -/
def Dom.blocks (d : Dom) : Multiset Blk := {d.self} + {d.rmin} + {d.rmax} + {d.ext} + {d.displ} + {d.elem}

/-- `bml_default_domain` (`bml_allocate.c` 599-707). -/
def defaultDomain : M Dom := do
  let self ← malloc
  let rmin ← malloc
  let rmax ← malloc
  let ext ← malloc
  let displ ← malloc
  let elem ← malloc
  pure ⟨self, rmin, rmax, ext, displ, elem⟩

/-- `bml_deallocate_domain` (`bml_allocate.c` 208-218). -/
def Dom.deallocate (d : Dom) : M Unit := do
  use {d.self}
  freeAll [d.rmin, d.rmax, d.ext, d.displ, d.elem, d.self]

/-- `bml_matrix_dense_t` (`dense/bml_types_dense.h`), with the number of rows. -/
structure DenseO where
  (N : Nat) (self matrix : Blk) (dom dom2 : Dom)

/-- The blocks of a dense matrix. -/
def DenseO.blocks (A : DenseO) : Multiset Blk := {A.self} + {A.matrix} + A.dom.blocks + A.dom2.blocks

/-- `bml_matrix_ellpack_t` (`ellpack/bml_types_ellpack.h`). -/
structure EllO where
  (N : Nat) (self index nnz value : Blk) (dom dom2 : Dom)

/-- The blocks of an ELLPACK matrix. -/
def EllO.blocks (A : EllO) : Multiset Blk :=
  {A.self} + {A.index} + {A.nnz} + {A.value} + A.dom.blocks + A.dom2.blocks

/-- `csr_sparse_row_t` (`csr/bml_types_csr.h`). -/
structure Row where
  (self cols vals : Blk)

/-- The blocks of a row. -/
def Row.blocks (r : Row) : Multiset Blk := {r.self} + {r.cols} + {r.vals}

/-- `bml_matrix_csr_t` (`csr/bml_types_csr.h`). -/
structure CsrO where
  (self data : Blk) (rows : List Row)

/-- The blocks of a CSR matrix. -/
def CsrO.blocks (A : CsrO) : Multiset Blk := {A.self} + {A.data} + total Row.blocks A.rows

/-! ## Dense -/

/-- `bml_noinit_matrix_dense` (`dense/bml_allocate_dense_typed.c` 91-132); `bml_zero_matrix_dense`
(146-191) and through it `bml_banded_matrix_dense`, `bml_random_matrix_dense` and
`bml_identity_matrix_dense` (206-360) allocate the same. -/
def newDense (N : Nat) : M DenseO := do
  let self ← malloc
  let matrix ← malloc
  let dom ← defaultDomain
  let dom2 ← defaultDomain
  pure ⟨N, self, matrix, dom, dom2⟩

/-- `bml_deallocate_dense` (`dense/bml_allocate_dense_typed.c` 34-52). -/
def DenseO.deallocate (A : DenseO) : M Unit := do
  use {A.self}
  A.dom.deallocate
  A.dom2.deallocate
  free A.matrix
  free A.self

/-- `bml_copy_dense_new` (`dense/bml_copy_dense_typed.c` 28-60), and the same allocations in
`bml_scale_dense_new` (`dense/bml_scale_dense_typed.c` 35-50), `bml_transpose_new_dense`
(`dense/bml_transpose_dense_typed.c` 32-79) and `bml_threshold_new_dense`
(`dense/bml_threshold_dense_typed.c` 30-90). -/
def DenseO.copyNew (A : DenseO) : M DenseO := do
  use A.blocks
  let B ← newDense A.N
  use (A.blocks + B.blocks)
  pure B

/-- A function that gives the caller a new array: `bml_export_to_dense_dense`
(`dense/bml_export_dense_typed.c` 29-70), `bml_get_row_dense`, `bml_get_diagonal_dense`
(`dense/bml_getters_dense_typed.c` 55-110), `bml_multiply_x2_dense`
(`dense/bml_multiply_dense_typed.c` 116-128), `bml_gershgorin_dense`, `bml_gershgorin_partial_dense`,
`bml_accumulate_offdiag_dense` (`dense/bml_normalize_dense_typed.c` 50-280). -/
def DenseO.array (A : DenseO) : M Blk := do
  use A.blocks
  let p ← malloc
  use (A.blocks + {p})
  pure p

/-- `bml_inverse_inplace_dense` (`dense/bml_inverse_dense_typed.c` 58-134): pivots and work space. -/
def DenseO.inverseInplace (A : DenseO) : M Unit := do
  let ipiv ← malloc
  let work ← malloc
  use (A.blocks + {ipiv} + {work})
  free work
  free ipiv

/-- `bml_inverse_dense` (`dense/bml_inverse_dense_typed.c` 39-48). -/
def DenseO.inverse (A : DenseO) : M DenseO := do
  let B ← A.copyNew
  B.inverseInplace
  pure B

/-- `bml_diagonalize_dense` (`dense/bml_diagonalize_dense.c` 236-282, 606-650 for real elements, with
`BML_SYEVD` when `dc`; 718-775, 828-885 for complex elements). -/
def DenseO.diagonalize (cplx dc : Bool) (A V : DenseO) : M Unit :=
  if cplx then do
    let isuppz ← malloc
    let iwork ← malloc
    let evals ← malloc
    let rwork ← malloc
    let acopy ← malloc
    let evecs ← malloc
    let work ← malloc
    use (A.blocks + V.blocks + {acopy} + {evecs} + {evals} + {work} + {rwork} + {iwork} + {isuppz})
    freeAll [acopy, evecs, isuppz, work, rwork, iwork, evals]
  else if dc then do
    let evecs ← malloc
    let evals ← malloc
    let work ← malloc
    let iwork ← malloc
    use (A.blocks + {evecs} + {evals} + {work} + {iwork})
    free iwork
    use (V.blocks + {evecs} + {evals})
    freeAll [evecs, evals, work]
  else do
    let evecs ← malloc
    let evals ← malloc
    let work ← malloc
    use (A.blocks + V.blocks + {evecs} + {evals} + {work})
    freeAll [evecs, evals, work]

/-- `bml_reorder_dense` (`dense/bml_copy_dense_typed.c` 113-155). -/
def DenseO.reorder (A : DenseO) : M Unit := do
  let B ← A.copyNew
  use (A.blocks + B.blocks)
  B.deallocate

/-! ## ELLPACK -/

/-- `bml_noinit_matrix_ellpack` (`ellpack/bml_allocate_ellpack_typed.c` 146-188);
`bml_zero_matrix_ellpack` (205-266), and through it `bml_banded_matrix_ellpack` and
`bml_identity_matrix_ellpack`, allocate the same. -/
def newEll (N : Nat) : M EllO := do
  let self ← malloc
  let index ← malloc
  let nnz ← malloc
  let value ← malloc
  let dom ← defaultDomain
  let dom2 ← defaultDomain
  pure ⟨N, self, index, nnz, value, dom, dom2⟩

/-- `bml_random_matrix_ellpack` (`ellpack/bml_allocate_ellpack_typed.c` 340-405): with markers. -/
def randomEll (N : Nat) : M EllO := do
  let A ← newEll N
  let marker ← malloc
  let pos ← malloc
  use (A.blocks + {marker} + {pos})
  free marker
  free pos
  pure A

/-- `bml_deallocate_ellpack` (`ellpack/bml_allocate_ellpack_typed.c` 32-67). -/
def EllO.deallocate (A : EllO) : M Unit := do
  use {A.self}
  A.dom.deallocate
  A.dom2.deallocate
  free A.value
  free A.index
  free A.nnz
  free A.self

/-- `bml_copy_ellpack_new` (`ellpack/bml_copy_ellpack_typed.c` 21-70), and the same allocations in
`bml_scale_ellpack_new` (`ellpack/bml_scale_ellpack_typed.c` 26-50), `bml_threshold_new_ellpack`
(`ellpack/bml_threshold_ellpack_typed.c` 28-95), `bml_extract_submatrix_ellpack` and
`bml_group_matrix_ellpack` (`ellpack/bml_submatrix_ellpack_typed.c` 423-620), `N` the rows of the
result. -/
def EllO.newFrom (A : EllO) (N : Nat) : M EllO := do
  use A.blocks
  let B ← newEll N
  use (A.blocks + B.blocks)
  pure B

/-- `bml_transpose_new_ellpack` (`ellpack/bml_transpose_ellpack_typed.c` 35-130): with OpenMP an array of
locks is allocated, and never freed. -/
def EllO.transposeNew (omp : Bool) (A : EllO) : M EllO := do
  use A.blocks
  let B ← newEll A.N
  if omp then do
    let lock ← malloc
    use (A.blocks + B.blocks + {lock})
    pure B
  else do
    use (A.blocks + B.blocks)
    pure B

/-- As `DenseO.array`: `bml_export_to_dense_ellpack` (`ellpack/bml_export_ellpack_typed.c` 28-75),
`bml_get_row_ellpack`, `bml_get_diagonal_ellpack` (`ellpack/bml_getters_ellpack_typed.c` 66-140),
`bml_multiply_x2_ellpack` (`ellpack/bml_multiply_ellpack_typed.c` 130-395), `bml_gershgorin_ellpack`,
`bml_gershgorin_partial_ellpack`, `bml_accumulate_offdiag_ellpack`
(`ellpack/bml_normalize_ellpack_typed.c` 50-270), `bml_getVector_ellpack`
(`ellpack/bml_submatrix_ellpack_typed.c` 380-420). -/
def EllO.array (A : EllO) : M Blk := do
  use A.blocks
  let p ← malloc
  use (A.blocks + {p})
  pure p

/-- `bml_multiply_x2_ellpack` with its second matrix. -/
def EllO.x2 (X X2 : EllO) : M Blk := do
  let trace ← malloc
  use (X.blocks + X2.blocks + {trace})
  pure trace

/-- `bml_multiply_ellpack` (`ellpack/bml_multiply_ellpack_typed.c` 54-118).  `square`: `A` and `B` are the
same matrix; `plain`: `alpha` is one and `beta` zero. -/
def EllO.multiply (square plain : Bool) (A B C : EllO) : M Unit := do
  let trace ← (if square && plain then some <$> A.x2 C
    else do
      use (A.blocks + {C.self})
      let A2 ← newEll C.N
      let trace ← (if square then some <$> A.x2 A2
        else do
          use (A.blocks ∪ B.blocks)
          use A2.blocks
          pure none)
      use (C.blocks + A2.blocks)
      A2.deallocate
      pure trace)
  freeOpt trace

/-- `bml_inverse_ellpack` (`ellpack/bml_inverse_ellpack_typed.c` 35-68). -/
def EllO.inverse (A : EllO) : M EllO := do
  let a ← A.array
  let D ← newDense A.N
  use (D.blocks + {a})
  free a
  D.inverseInplace
  let a ← D.array
  D.deallocate
  let B ← newEll A.N
  use (B.blocks + {a})
  free a
  pure B

/-- `bml_diagonalize_ellpack` (`ellpack/bml_diagonalize_ellpack_typed.c` 36-91). -/
def EllO.diagonalize (cplx dc : Bool) (A V : EllO) : M Unit := do
  let a ← A.array
  let D ← newDense A.N
  use (D.blocks + {a})
  free a
  let W ← newDense A.N
  D.diagonalize cplx dc W
  D.deallocate
  let w ← W.array
  W.deallocate
  let T ← newEll A.N
  use (T.blocks + {w})
  free w
  use (T.blocks + V.blocks)
  T.deallocate

/-- `bml_reorder_ellpack` (`ellpack/bml_copy_ellpack_typed.c` 157-205). -/
def EllO.reorder (A : EllO) : M Unit := do
  let B ← A.newFrom A.N
  use (A.blocks + B.blocks)
  B.deallocate
  use A.blocks

/-! ## CSR -/

/-- `csr_noinit_row`, `csr_zero_row` (`csr/bml_allocate_csr_typed.c` 66-81, 148-163). -/
def newRow : M Row := do
  let self ← malloc
  let cols ← malloc
  let vals ← malloc
  pure ⟨self, cols, vals⟩

/-- `csr_deallocate_row` (`csr/bml_allocate_csr.c` 169-176). -/
def Row.deallocate (r : Row) : M Unit := do
  use {r.self}
  freeAll [r.vals, r.cols, r.self]

/-- `bml_noinit_matrix_csr`, `bml_zero_matrix_csr` (`csr/bml_allocate_csr_typed.c` 98-216), and through the
latter `bml_banded_matrix_csr` and `bml_identity_matrix_csr`. -/
def newCsr (N : Nat) : M CsrO := do
  let self ← malloc
  let data ← malloc
  let rows ← times newRow N
  pure ⟨self, data, rows⟩

/-- `bml_random_matrix_csr` (`csr/bml_allocate_csr_typed.c` 292-359). -/
def randomCsr (N : Nat) : M CsrO := do
  let A ← newCsr N
  let marker ← malloc
  let pos ← malloc
  use (A.blocks + {marker} + {pos})
  free marker
  free pos
  pure A

/-- `bml_deallocate_csr` (`csr/bml_allocate_csr.c` 184-200). -/
def CsrO.deallocate (A : CsrO) : M Unit := do
  use ({A.self} + {A.data})
  each Row.deallocate A.rows
  free A.data
  free A.self

/-- `csr_set_row_element_new` (`csr/bml_setters_csr_typed.c` 26-49); `full`: the row has no room left. -/
def Row.setNew (full : Bool) (r : Row) : M Row := do
  use r.blocks
  if full then do
    let cols ← realloc r.cols
    let vals ← realloc r.vals
    use ({cols} + {vals})
    pure ⟨r.self, cols, vals⟩
  else do
    use r.blocks
    pure r

/-- A sequence of calls of `csr_set_row_element_new`, each with the row it is for. -/
def appends : List (Nat × Bool) → List Row → M (List Row)
  | [], rows => pure rows
  | (i, full) :: L, rows =>
    match rows[i]? with
    | none => crash
    | some r => do
      let r' ← r.setNew full
      appends L (rows.set i r')

/-- `bml_set_row_csr` (`csr/bml_setters_csr_typed.c` 195-224) with `csr_set_row` (101-130); `full`: the row
is too small. -/
def CsrO.setRow (full : Bool) (i : Nat) (A : CsrO) : M CsrO :=
  match A.rows[i]? with
  | none => crash
  | some r => do
    use A.blocks
    let cols ← malloc
    let r' ← r.setNew full
    use {cols}
    free cols
    pure { A with rows := A.rows.set i r' }

/-- `bml_copy_csr_new` (`csr/bml_copy_csr_typed.c` 23-77), `bml_scale_csr_new`
(`csr/bml_scale_csr_typed.c` 48-60), `bml_threshold_new_csr` (`csr/bml_threshold_csr_typed.c` 28-63). -/
def CsrO.copyNew (A : CsrO) : M CsrO := do
  use A.blocks
  let B ← newCsr A.rows.length
  use (A.blocks + B.blocks)
  pure B

/-- `bml_transpose_new_csr` (`csr/bml_transpose_csr_typed.c` 29-79): the locks are freed. -/
def CsrO.transposeNew (omp : Bool) (app : List (Nat × Bool)) (A : CsrO) : M CsrO := do
  use A.blocks
  let B ← newCsr A.rows.length
  if omp then do
    let lock ← malloc
    use (A.blocks + {lock})
    let rows ← appends app B.rows
    free lock
    pure { B with rows := rows }
  else do
    let rows ← appends app B.rows
    pure { B with rows := rows }

/-- `bml_import_from_dense_csr` (`csr/bml_import_csr_typed.c` 29-68). -/
def importCsr (N : Nat) (a : Blk) (app : List (Nat × Bool)) : M CsrO := do
  let A ← newCsr N
  use {a}
  let rows ← appends app A.rows
  pure { A with rows := rows }

/-- As `DenseO.array`: `bml_export_to_dense_csr` (`csr/bml_export_csr_typed.c` 26-65), `bml_get_row_csr`,
`bml_get_diagonal_csr` (`csr/bml_getters_csr_typed.c` 152-200), `bml_gershgorin_csr`,
`bml_gershgorin_partial_csr`, `bml_accumulate_offdiag_csr` (`csr/bml_normalize_csr_typed.c` 47-240). -/
def CsrO.array (A : CsrO) : M Blk := do
  use A.blocks
  let p ← malloc
  use (A.blocks + {p})
  pure p

/-- `csr_row_index_hash_t` (`csr/bml_types_csr.h`). -/
structure Table where
  (self slots storage : Blk)

/-- The blocks of a hash table. -/
def Table.blocks (t : Table) : Multiset Blk := {t.self} + {t.slots} + {t.storage}

/-- `csr_noinit_table` (`csr/bml_allocate_csr.c` 17-61). -/
def newTable : M Table := do
  let self ← malloc
  let slots ← malloc
  let storage ← malloc
  pure ⟨self, slots, storage⟩

/-- `csr_deallocate_table` (`csr/bml_allocate_csr.c` 134-142). -/
def Table.deallocate (t : Table) : M Unit := do
  use {t.self}
  freeAll [t.storage, t.slots, t.self]

/-- What `bml_add_csr` does with an entry of `B`: the column is one `A` has, or it is appended. -/
inductive Entry
  | found
  | append (full : Bool)

/-- The inner loop of `bml_add_csr` (`csr/bml_add_csr_typed.c` 68-82): `vals` is the array of values the
row had when the loop began. -/
def addEntries (vals : Blk) : List Entry → Row → M Row
  | [], r => pure r
  | .found :: L, r => do
    use {vals}
    addEntries vals L r
  | .append full :: L, r => do
    let r' ← r.setNew full
    addEntries vals L r'

/-- The rows of `bml_add_csr`. -/
def addRows (es : Nat → List Entry) : Nat → List Row → M (List Row)
  | _, [] => pure []
  | i, r :: L => do
    use r.blocks
    let r' ← addEntries r.vals (es i) r
    let L' ← addRows es (i + 1) L
    pure (r' :: L')

/-- `bml_add_csr` (`csr/bml_add_csr_typed.c` 37-90), `threads` threads with a table each. -/
def CsrO.add (threads : Nat) (es : Nat → List Entry) (A B : CsrO) : M CsrO := do
  use (A.blocks + B.blocks)
  let tables ← times newTable threads
  let rows ← addRows es 0 A.rows
  each Table.deallocate tables
  pure { A with rows := rows }

/-- `bml_multiply_x2_csr` (`csr/bml_multiply_csr_typed.c` 101-202). -/
def CsrO.x2 (app : List (Nat × Bool)) (X X2 : CsrO) : M (Blk × CsrO) := do
  let trace ← malloc
  use (X.blocks + {trace})
  let rows ← appends app X2.rows
  use (X.blocks + {trace})
  pure (trace, { X2 with rows := rows })

/-- `bml_multiply_csr` (`csr/bml_multiply_csr_typed.c` 38-89), as `EllO.multiply`; `bml_multiply_AB_csr`
(215-295) appends to the rows of its result. -/
def CsrO.multiply (square plain : Bool) (threads : Nat) (app : List (Nat × Bool)) (es : Nat → List Entry)
    (A B C : CsrO) : M CsrO := do
  let (trace, C) ← (if square && plain then do
      let (t, C') ← A.x2 app C
      pure (some t, C')
    else do
      use {C.self}
      let A2 ← newCsr C.rows.length
      let (trace, A2) ← (if square then do
          let (t, A2') ← A.x2 app A2
          pure (some t, A2')
        else do
          use (A.blocks ∪ B.blocks)
          let rows ← appends app A2.rows
          pure (none, { A2 with rows := rows }))
      let C' ← C.add threads es A2
      A2.deallocate
      pure (trace, C'))
  freeOpt trace
  pure C

/-- `bml_extract_submatrix_csr` (`csr/bml_submatrix_csr_typed.c` 29-62): for each row of the result two
arrays are allocated that are never freed. -/
def CsrO.extract (n : Nat) (full : Nat → Bool) (A : CsrO) : M CsrO := do
  use A.blocks
  let B ← newCsr n
  let rec go : Nat → List Row → M (List Row)
    | _, [] => pure []
    | i, r :: L => do
      let newcols ← malloc
      let newvals ← malloc
      use (A.blocks + {newcols} + {newvals})
      let r' ← r.setNew (full i)
      let L' ← go (i + 1) L
      pure (r' :: L')
  let rows ← go 0 B.rows
  pure { B with rows := rows }

/-- `bml_inverse_csr` (`csr/bml_inverse_csr_typed.c` 37-70). -/
def CsrO.inverse (app : List (Nat × Bool)) (A : CsrO) : M CsrO := do
  let a ← A.array
  let D ← newDense A.rows.length
  use (D.blocks + {a})
  free a
  D.inverseInplace
  let a ← D.array
  D.deallocate
  let B ← importCsr A.rows.length a app
  free a
  pure B

/-- `bml_diagonalize_csr` (`csr/bml_diagonalize_csr_typed.c` 37-92); `fits`: the eigenvectors fit in the
rows of the caller's matrix, else `bml_copy_csr` (`csr/bml_copy_csr_typed.c` 87-138) ends the program. -/
def CsrO.diagonalize (cplx dc fits : Bool) (app : List (Nat × Bool)) (A V : CsrO) : M Unit := do
  let a ← A.array
  let D ← newDense A.rows.length
  use (D.blocks + {a})
  free a
  let W ← newDense A.rows.length
  D.diagonalize cplx dc W
  D.deallocate
  let w ← W.array
  W.deallocate
  let T ← importCsr A.rows.length w app
  free w
  if fits then do
    use (T.blocks + V.blocks)
    T.deallocate
  else stop

/-- `bml_convert_csr` (`csr/bml_convert_csr_typed.c` 20-45) of a matrix whose `bml_get_row` is `getRow`. -/
def convertCsr (N : Nat) (getRow : M Blk) (full : Nat → Bool) : M CsrO := do
  let B ← newCsr N
  let rec go : Nat → Nat → CsrO → M CsrO
    | _, 0, B => pure B
    | i, n + 1, B => do
      let row ← getRow
      let B' ← B.setRow (full i) i
      free row
      go (i + 1) n B'
  go 0 N B

end Memory
end Bml
