/-!
# The two levels of dispatch

Every function of the C interface that takes a matrix looks at the format of one of its operands
and calls the function of that format (src/C-interface/*.c).  That function looks at the element
type of one of its operands and calls the routine compiled for that element type
(src/C-interface/*/*.c).  The operands are passed as `void *`: the routine that is reached
decides as which structure, and as which element type, the memory of an operand is read.

One definition per C function.  The definitions only record which routine is reached; what the
routines do is modelled elsewhere.  The library is taken to be built with complex numbers and
MPI.  An operand that is NULL or not initialised has no `Kind`; that case is in
`Verif/Common/Handle.lean`.  A distributed matrix has the element type of its local blocks.
-/

set_option linter.unusedVariables false

namespace Bml.Dispatch

/-- `bml_matrix_type_t`, bml_types.h lines 7-21, without the value for no matrix. -/
inductive Fmt | dense | ellpack | ellblock | csr | distributed2d
  deriving DecidableEq, Repr

/-- `bml_matrix_precision_t`, bml_types.h lines 24-36, without the value for no matrix. -/
inductive Prec | single_real | double_real | single_complex | double_complex
  deriving DecidableEq, Repr

/-- What the first fields of a matrix say about it. -/
structure Kind where
  fmt : Fmt
  prec : Prec
  deriving DecidableEq, Repr

/-- Outcome of a call: the routine that is reached, or `LOG_ERROR`, which ends the program
(bml_logger.c lines 91-116).  `run casts p`: operand `i` is read as a structure of format
`casts[i]` (`none`: it is not read), its elements as `p` (`none`: the routine does not look at
elements, or calls the interface again for the local block of a distributed matrix). -/
inductive Out
  | stop
  | run (casts : List (Option Fmt)) (prec : Option Prec)
  deriving DecidableEq, Repr

/-- `bml_add_dense`, dense/bml_add_dense.c lines 22-48. -/
def bml_add_dense (A B : Kind) : Out :=
  match A.prec with
  | .single_real => .run [some .dense, some .dense] (some .single_real)
  | .double_real => .run [some .dense, some .dense] (some .double_real)
  | .single_complex => .run [some .dense, some .dense] (some .single_complex)
  | .double_complex => .run [some .dense, some .dense] (some .double_complex)

/-- `bml_add_ellpack`, ellpack/bml_add_ellpack.c lines 23-50. -/
def bml_add_ellpack (A B : Kind) : Out :=
  match B.prec with
  | .single_real => .run [some .ellpack, some .ellpack] (some .single_real)
  | .double_real => .run [some .ellpack, some .ellpack] (some .double_real)
  | .single_complex => .run [some .ellpack, some .ellpack] (some .single_complex)
  | .double_complex => .run [some .ellpack, some .ellpack] (some .double_complex)

/-- `bml_add_ellblock`, ellblock/bml_add_ellblock.c lines 23-50. -/
def bml_add_ellblock (A B : Kind) : Out :=
  match B.prec with
  | .single_real => .run [some .ellblock, some .ellblock] (some .single_real)
  | .double_real => .run [some .ellblock, some .ellblock] (some .double_real)
  | .single_complex => .run [some .ellblock, some .ellblock] (some .single_complex)
  | .double_complex => .run [some .ellblock, some .ellblock] (some .double_complex)

/-- `bml_add_csr`, csr/bml_add_csr.c lines 23-50. -/
def bml_add_csr (A B : Kind) : Out :=
  match B.prec with
  | .single_real => .run [some .csr, some .csr] (some .single_real)
  | .double_real => .run [some .csr, some .csr] (some .double_real)
  | .single_complex => .run [some .csr, some .csr] (some .single_complex)
  | .double_complex => .run [some .csr, some .csr] (some .double_complex)

/-- `bml_add_distributed2d`, distributed2d/bml_add_distributed2d.c lines 25-33. -/
def bml_add_distributed2d (A B : Kind) : Out :=
  .run [some .distributed2d, some .distributed2d] none

/-- `bml_add`, bml_add.c lines 27-57. -/
def bml_add (A B : Kind) : Out :=
  match A.fmt with
  | .dense => bml_add_dense A B
  | .ellpack => bml_add_ellpack A B
  | .ellblock => bml_add_ellblock A B
  | .csr => bml_add_csr A B
  | .distributed2d => bml_add_distributed2d A B

/-- `bml_add_norm_dense`, dense/bml_add_dense.c lines 62-91. -/
def bml_add_norm_dense (A B : Kind) : Out :=
  match A.prec with
  | .single_real => .run [some .dense, some .dense] (some .single_real)
  | .double_real => .run [some .dense, some .dense] (some .double_real)
  | .single_complex => .run [some .dense, some .dense] (some .single_complex)
  | .double_complex => .run [some .dense, some .dense] (some .double_complex)

/-- `bml_add_norm_ellpack`, ellpack/bml_add_ellpack.c lines 65-103. -/
def bml_add_norm_ellpack (A B : Kind) : Out :=
  match B.prec with
  | .single_real => .run [some .ellpack, some .ellpack] (some .single_real)
  | .double_real => .run [some .ellpack, some .ellpack] (some .double_real)
  | .single_complex => .run [some .ellpack, some .ellpack] (some .single_complex)
  | .double_complex => .run [some .ellpack, some .ellpack] (some .double_complex)

/-- `bml_add_norm_ellblock`, ellblock/bml_add_ellblock.c lines 65-103. -/
def bml_add_norm_ellblock (A B : Kind) : Out :=
  match B.prec with
  | .single_real => .run [some .ellblock, some .ellblock] (some .single_real)
  | .double_real => .run [some .ellblock, some .ellblock] (some .double_real)
  | .single_complex => .run [some .ellblock, some .ellblock] (some .single_complex)
  | .double_complex => .run [some .ellblock, some .ellblock] (some .double_complex)

/-- `bml_add_norm_csr`, csr/bml_add_csr.c lines 65-99. -/
def bml_add_norm_csr (A B : Kind) : Out :=
  match B.prec with
  | .single_real => .run [some .csr, some .csr] (some .single_real)
  | .double_real => .run [some .csr, some .csr] (some .double_real)
  | .single_complex => .run [some .csr, some .csr] (some .single_complex)
  | .double_complex => .run [some .csr, some .csr] (some .double_complex)

/-- `bml_add_norm_distributed2d`, distributed2d/bml_add_distributed2d.c lines 48-60. -/
def bml_add_norm_distributed2d (A B : Kind) : Out :=
  .run [some .distributed2d, some .distributed2d] none

/-- `bml_add_norm`, bml_add.c lines 73-105. -/
def bml_add_norm (A B : Kind) : Out :=
  match A.fmt with
  | .dense => bml_add_norm_dense A B
  | .ellpack => bml_add_norm_ellpack A B
  | .ellblock => bml_add_norm_ellblock A B
  | .csr => bml_add_norm_csr A B
  | .distributed2d => bml_add_norm_distributed2d A B

/-- `bml_add_identity_dense`, dense/bml_add_dense.c lines 103-127. -/
def bml_add_identity_dense (A : Kind) : Out :=
  match A.prec with
  | .single_real => .run [some .dense] (some .single_real)
  | .double_real => .run [some .dense] (some .double_real)
  | .single_complex => .run [some .dense] (some .single_complex)
  | .double_complex => .run [some .dense] (some .double_complex)

/-- `bml_add_identity_ellpack`, ellpack/bml_add_ellpack.c lines 116-141. -/
def bml_add_identity_ellpack (A : Kind) : Out :=
  match A.prec with
  | .single_real => .run [some .ellpack] (some .single_real)
  | .double_real => .run [some .ellpack] (some .double_real)
  | .single_complex => .run [some .ellpack] (some .single_complex)
  | .double_complex => .run [some .ellpack] (some .double_complex)

/-- `bml_add_identity_ellblock`, ellblock/bml_add_ellblock.c lines 116-141. -/
def bml_add_identity_ellblock (A : Kind) : Out :=
  match A.prec with
  | .single_real => .run [some .ellblock] (some .single_real)
  | .double_real => .run [some .ellblock] (some .double_real)
  | .single_complex => .run [some .ellblock] (some .single_complex)
  | .double_complex => .run [some .ellblock] (some .double_complex)

/-- `bml_add_identity_csr`, csr/bml_add_csr.c lines 112-137. -/
def bml_add_identity_csr (A : Kind) : Out :=
  match A.prec with
  | .single_real => .run [some .csr] (some .single_real)
  | .double_real => .run [some .csr] (some .double_real)
  | .single_complex => .run [some .csr] (some .single_complex)
  | .double_complex => .run [some .csr] (some .double_complex)

/-- `bml_add_identity_distributed2d`, distributed2d/bml_add_distributed2d.c lines 73-79. -/
def bml_add_identity_distributed2d (A : Kind) : Out :=
  .run [some .distributed2d] none

/-- `bml_add_identity`, bml_add.c lines 118-146. -/
def bml_add_identity (A : Kind) : Out :=
  match A.fmt with
  | .dense => bml_add_identity_dense A
  | .ellpack => bml_add_identity_ellpack A
  | .ellblock => bml_add_identity_ellblock A
  | .csr => bml_add_identity_csr A
  | .distributed2d => bml_add_identity_distributed2d A

/-- `bml_scale_add_identity_dense`, dense/bml_add_dense.c lines 140-165. -/
def bml_scale_add_identity_dense (A : Kind) : Out :=
  match A.prec with
  | .single_real => .run [some .dense] (some .single_real)
  | .double_real => .run [some .dense] (some .double_real)
  | .single_complex => .run [some .dense] (some .single_complex)
  | .double_complex => .run [some .dense] (some .double_complex)

/-- `bml_scale_add_identity_ellpack`, ellpack/bml_add_ellpack.c lines 154-184. -/
def bml_scale_add_identity_ellpack (A : Kind) : Out :=
  match A.prec with
  | .single_real => .run [some .ellpack] (some .single_real)
  | .double_real => .run [some .ellpack] (some .double_real)
  | .single_complex => .run [some .ellpack] (some .single_complex)
  | .double_complex => .run [some .ellpack] (some .double_complex)

/-- `bml_scale_add_identity_ellblock`, ellblock/bml_add_ellblock.c lines 154-184. -/
def bml_scale_add_identity_ellblock (A : Kind) : Out :=
  match A.prec with
  | .single_real => .run [some .ellblock] (some .single_real)
  | .double_real => .run [some .ellblock] (some .double_real)
  | .single_complex => .run [some .ellblock] (some .single_complex)
  | .double_complex => .run [some .ellblock] (some .double_complex)

/-- `bml_scale_add_identity_csr`, csr/bml_add_csr.c lines 150-178. -/
def bml_scale_add_identity_csr (A : Kind) : Out :=
  match A.prec with
  | .single_real => .run [some .csr] (some .single_real)
  | .double_real => .run [some .csr] (some .double_real)
  | .single_complex => .run [some .csr] (some .single_complex)
  | .double_complex => .run [some .csr] (some .double_complex)

/-- `bml_scale_add_identity_distributed2d`, distributed2d/bml_add_distributed2d.c lines 92-99. -/
def bml_scale_add_identity_distributed2d (A : Kind) : Out :=
  .run [some .distributed2d] none

/-- `bml_scale_add_identity`, bml_add.c lines 160-189. -/
def bml_scale_add_identity (A : Kind) : Out :=
  match A.fmt with
  | .dense => bml_scale_add_identity_dense A
  | .ellpack => bml_scale_add_identity_ellpack A
  | .ellblock => bml_scale_add_identity_ellblock A
  | .csr => bml_scale_add_identity_csr A
  | .distributed2d => bml_scale_add_identity_distributed2d A

/-- `bml_adjungate_triangle_dense`, dense/bml_adjungate_triangle_dense.c lines 24-48. -/
def bml_adjungate_triangle_dense (A : Kind) : Out :=
  match A.prec with
  | .single_real => .run [some .dense] (some .single_real)
  | .double_real => .run [some .dense] (some .double_real)
  | .single_complex => .run [some .dense] (some .single_complex)
  | .double_complex => .run [some .dense] (some .double_complex)

/-- `bml_adjungate_triangle_ellpack`, ellpack/bml_adjungate_triangle_ellpack.c lines 16-42. -/
def bml_adjungate_triangle_ellpack (A : Kind) : Out :=
  match A.prec with
  | .single_real => .run [some .ellpack] (some .single_real)
  | .double_real => .run [some .ellpack] (some .double_real)
  | .single_complex => .run [some .ellpack] (some .single_complex)
  | .double_complex => .run [some .ellpack] (some .double_complex)

/-- `bml_adjungate_triangle`, bml_adjungate_triangle.c lines 18-38. -/
def bml_adjungate_triangle (A : Kind) : Out :=
  match A.fmt with
  | .dense => bml_adjungate_triangle_dense A
  | .ellpack => bml_adjungate_triangle_ellpack A
  | _ => .stop

/-- `bml_clear_dense`, dense/bml_allocate_dense.c lines 77-100. -/
def bml_clear_dense (A : Kind) : Out :=
  match A.prec with
  | .single_real => .run [some .dense] (some .single_real)
  | .double_real => .run [some .dense] (some .double_real)
  | .single_complex => .run [some .dense] (some .single_complex)
  | .double_complex => .run [some .dense] (some .double_complex)

/-- `bml_clear_ellpack`, ellpack/bml_allocate_ellpack.c lines 49-72. -/
def bml_clear_ellpack (A : Kind) : Out :=
  match A.prec with
  | .single_real => .run [some .ellpack] (some .single_real)
  | .double_real => .run [some .ellpack] (some .double_real)
  | .single_complex => .run [some .ellpack] (some .single_complex)
  | .double_complex => .run [some .ellpack] (some .double_complex)

/-- `bml_clear_ellblock`, ellblock/bml_allocate_ellblock.c lines 149-172. -/
def bml_clear_ellblock (A : Kind) : Out :=
  match A.prec with
  | .single_real => .run [some .ellblock] (some .single_real)
  | .double_real => .run [some .ellblock] (some .double_real)
  | .single_complex => .run [some .ellblock] (some .single_complex)
  | .double_complex => .run [some .ellblock] (some .double_complex)

/-- `bml_clear_csr`, csr/bml_allocate_csr.c lines 209-232. -/
def bml_clear_csr (A : Kind) : Out :=
  match A.prec with
  | .single_real => .run [some .csr] (some .single_real)
  | .double_real => .run [some .csr] (some .double_real)
  | .single_complex => .run [some .csr] (some .single_complex)
  | .double_complex => .run [some .csr] (some .double_complex)

/-- `bml_clear_distributed2d`, distributed2d/bml_allocate_distributed2d.c lines 100-104. -/
def bml_clear_distributed2d (A : Kind) : Out :=
  .run [some .distributed2d] none

/-- `bml_clear`, bml_allocate.c lines 227-253. -/
def bml_clear (A : Kind) : Out :=
  match A.fmt with
  | .dense => bml_clear_dense A
  | .ellpack => bml_clear_ellpack A
  | .ellblock => bml_clear_ellblock A
  | .csr => bml_clear_csr A
  | .distributed2d => bml_clear_distributed2d A

/-- `bml_update_domain_dense`, dense/bml_allocate_dense.c lines 333-378. -/
def bml_update_domain_dense (A : Kind) : Out :=
  .run [some .dense] none

/-- `bml_update_domain_ellpack`, ellpack/bml_allocate_ellpack.c lines 323-387. -/
def bml_update_domain_ellpack (A : Kind) : Out :=
  .run [some .ellpack] none

/-- `bml_update_domain`, bml_allocate.c lines 719-739. -/
def bml_update_domain (A : Kind) : Out :=
  match A.fmt with
  | .dense => bml_update_domain_dense A
  | .ellpack => bml_update_domain_ellpack A
  | _ => .stop

/-- `bml_copy_dense_new`, dense/bml_copy_dense.c lines 21-47. -/
def bml_copy_dense_new (A : Kind) : Out :=
  match A.prec with
  | .single_real => .run [some .dense] (some .single_real)
  | .double_real => .run [some .dense] (some .double_real)
  | .single_complex => .run [some .dense] (some .single_complex)
  | .double_complex => .run [some .dense] (some .double_complex)

/-- `bml_copy_ellpack_new`, ellpack/bml_copy_ellpack.c lines 20-46. -/
def bml_copy_ellpack_new (A : Kind) : Out :=
  match A.prec with
  | .single_real => .run [some .ellpack] (some .single_real)
  | .double_real => .run [some .ellpack] (some .double_real)
  | .single_complex => .run [some .ellpack] (some .single_complex)
  | .double_complex => .run [some .ellpack] (some .double_complex)

/-- `bml_copy_ellblock_new`, ellblock/bml_copy_ellblock.c lines 20-46. -/
def bml_copy_ellblock_new (A : Kind) : Out :=
  match A.prec with
  | .single_real => .run [some .ellblock] (some .single_real)
  | .double_real => .run [some .ellblock] (some .double_real)
  | .single_complex => .run [some .ellblock] (some .single_complex)
  | .double_complex => .run [some .ellblock] (some .double_complex)

/-- `bml_copy_csr_new`, csr/bml_copy_csr.c lines 20-46. -/
def bml_copy_csr_new (A : Kind) : Out :=
  match A.prec with
  | .single_real => .run [some .csr] (some .single_real)
  | .double_real => .run [some .csr] (some .double_real)
  | .single_complex => .run [some .csr] (some .single_complex)
  | .double_complex => .run [some .csr] (some .double_complex)

/-- `bml_copy_distributed2d_new`, distributed2d/bml_copy_distributed2d.c lines 20-35. -/
def bml_copy_distributed2d_new (A : Kind) : Out :=
  .run [some .distributed2d] none

/-- `bml_copy_new`, bml_copy.c lines 26-56. -/
def bml_copy_new (A : Kind) : Out :=
  match A.fmt with
  | .dense => bml_copy_dense_new A
  | .ellpack => bml_copy_ellpack_new A
  | .ellblock => bml_copy_ellblock_new A
  | .csr => bml_copy_csr_new A
  | .distributed2d => bml_copy_distributed2d_new A

/-- `bml_copy_dense`, dense/bml_copy_dense.c lines 57-83. -/
def bml_copy_dense (A B : Kind) : Out :=
  match A.prec with
  | .single_real => .run [some .dense, some .dense] (some .single_real)
  | .double_real => .run [some .dense, some .dense] (some .double_real)
  | .single_complex => .run [some .dense, some .dense] (some .single_complex)
  | .double_complex => .run [some .dense, some .dense] (some .double_complex)

/-- `bml_copy_ellpack`, ellpack/bml_copy_ellpack.c lines 56-81. -/
def bml_copy_ellpack (A B : Kind) : Out :=
  match A.prec with
  | .single_real => .run [some .ellpack, some .ellpack] (some .single_real)
  | .double_real => .run [some .ellpack, some .ellpack] (some .double_real)
  | .single_complex => .run [some .ellpack, some .ellpack] (some .single_complex)
  | .double_complex => .run [some .ellpack, some .ellpack] (some .double_complex)

/-- `bml_copy_ellblock`, ellblock/bml_copy_ellblock.c lines 56-81. -/
def bml_copy_ellblock (A B : Kind) : Out :=
  match A.prec with
  | .single_real => .run [some .ellblock, some .ellblock] (some .single_real)
  | .double_real => .run [some .ellblock, some .ellblock] (some .double_real)
  | .single_complex => .run [some .ellblock, some .ellblock] (some .single_complex)
  | .double_complex => .run [some .ellblock, some .ellblock] (some .double_complex)

/-- `bml_copy_csr`, csr/bml_copy_csr.c lines 56-81. -/
def bml_copy_csr (A B : Kind) : Out :=
  match A.prec with
  | .single_real => .run [some .csr, some .csr] (some .single_real)
  | .double_real => .run [some .csr, some .csr] (some .double_real)
  | .single_complex => .run [some .csr, some .csr] (some .single_complex)
  | .double_complex => .run [some .csr, some .csr] (some .double_complex)

/-- `bml_copy_distributed2d`, distributed2d/bml_copy_distributed2d.c lines 45-50. -/
def bml_copy_distributed2d (A B : Kind) : Out :=
  .run [some .distributed2d, some .distributed2d] none

/-- `bml_copy`, bml_copy.c lines 64-111.  The checks of lines 76-87 compare the sizes, which are
not part of this model: the operands are taken to have the same size. -/
def bml_copy (A B : Kind) : Out :=
  if A.fmt ≠ B.fmt then .stop else
  match A.fmt with
  | .dense => bml_copy_dense A B
  | .ellpack => bml_copy_ellpack A B
  | .ellblock => bml_copy_ellblock A B
  | .csr => bml_copy_csr A B
  | .distributed2d => bml_copy_distributed2d A B

/-- `bml_reorder_dense`, dense/bml_copy_dense.c lines 93-117. -/
def bml_reorder_dense (A : Kind) : Out :=
  match A.prec with
  | .single_real => .run [some .dense] (some .single_real)
  | .double_real => .run [some .dense] (some .double_real)
  | .single_complex => .run [some .dense] (some .single_complex)
  | .double_complex => .run [some .dense] (some .double_complex)

/-- `bml_reorder_ellpack`, ellpack/bml_copy_ellpack.c lines 91-116. -/
def bml_reorder_ellpack (A : Kind) : Out :=
  match A.prec with
  | .single_real => .run [some .ellpack] (some .single_real)
  | .double_real => .run [some .ellpack] (some .double_real)
  | .single_complex => .run [some .ellpack] (some .single_complex)
  | .double_complex => .run [some .ellpack] (some .double_complex)

/-- `bml_reorder_ellblock`, ellblock/bml_copy_ellblock.c lines 91-116. -/
def bml_reorder_ellblock (A : Kind) : Out :=
  match A.prec with
  | .single_real => .run [some .ellblock] (some .single_real)
  | .double_real => .run [some .ellblock] (some .double_real)
  | .single_complex => .run [some .ellblock] (some .single_complex)
  | .double_complex => .run [some .ellblock] (some .double_complex)

/-- `bml_reorder_csr`, csr/bml_copy_csr.c lines 91-116. -/
def bml_reorder_csr (A : Kind) : Out :=
  match A.prec with
  | .single_real => .run [some .csr] (some .single_real)
  | .double_real => .run [some .csr] (some .double_real)
  | .single_complex => .run [some .csr] (some .single_complex)
  | .double_complex => .run [some .csr] (some .double_complex)

/-- `bml_reorder`, bml_copy.c lines 121-143. -/
def bml_reorder (A : Kind) : Out :=
  match A.fmt with
  | .dense => bml_reorder_dense A
  | .ellpack => bml_reorder_ellpack A
  | .ellblock => bml_reorder_ellblock A
  | .csr => bml_reorder_csr A
  | _ => .stop

/-- `bml_save_domain_dense`, dense/bml_copy_dense.c lines 126-130. -/
def bml_save_domain_dense (A : Kind) : Out :=
  .run [some .dense] none

/-- `bml_save_domain_ellpack`, ellpack/bml_copy_ellpack.c lines 125-129. -/
def bml_save_domain_ellpack (A : Kind) : Out :=
  .run [some .ellpack] none

/-- `bml_save_domain_csr`, csr/bml_copy_csr.c lines 125-129. -/
def bml_save_domain_csr (A : Kind) : Out :=
  .run [some .csr] none

/-- `bml_save_domain`, bml_copy.c lines 170-188. -/
def bml_save_domain (A : Kind) : Out :=
  match A.fmt with
  | .dense => bml_save_domain_dense A
  | .ellpack => bml_save_domain_ellpack A
  | .csr => bml_save_domain_csr A
  | _ => .stop

/-- `bml_restore_domain_dense`, dense/bml_copy_dense.c lines 139-143. -/
def bml_restore_domain_dense (A : Kind) : Out :=
  .run [some .dense] none

/-- `bml_restore_domain_ellpack`, ellpack/bml_copy_ellpack.c lines 138-157. -/
def bml_restore_domain_ellpack (A : Kind) : Out :=
  .run [some .ellpack] none

/-- `bml_restore_domain_csr`, csr/bml_copy_csr.c lines 138-142. -/
def bml_restore_domain_csr (A : Kind) : Out :=
  .run [some .csr] none

/-- `bml_restore_domain`, bml_copy.c lines 195-213. -/
def bml_restore_domain (A : Kind) : Out :=
  match A.fmt with
  | .dense => bml_restore_domain_dense A
  | .ellpack => bml_restore_domain_ellpack A
  | .csr => bml_restore_domain_csr A
  | _ => .stop

/-- `bml_diagonalize_dense`, dense/bml_diagonalize_dense.c lines 887-914. -/
def bml_diagonalize_dense (A eigenvectors : Kind) : Out :=
  match A.prec with
  | .single_real => .run [some .dense, some .dense] (some .single_real)
  | .double_real => .run [some .dense, some .dense] (some .double_real)
  | .single_complex => .run [some .dense, some .dense] (some .single_complex)
  | .double_complex => .run [some .dense, some .dense] (some .double_complex)

/-- `bml_diagonalize_ellpack`, ellpack/bml_diagonalize_ellpack.c lines 15-42. -/
def bml_diagonalize_ellpack (A eigenvectors : Kind) : Out :=
  match A.prec with
  | .single_real => .run [some .ellpack, some .ellpack] (some .single_real)
  | .double_real => .run [some .ellpack, some .ellpack] (some .double_real)
  | .single_complex => .run [some .ellpack, some .ellpack] (some .single_complex)
  | .double_complex => .run [some .ellpack, some .ellpack] (some .double_complex)

/-- `bml_diagonalize_ellblock`, ellblock/bml_diagonalize_ellblock.c lines 15-44. -/
def bml_diagonalize_ellblock (A eigenvectors : Kind) : Out :=
  match A.prec with
  | .single_real => .run [some .ellblock, some .ellblock] (some .single_real)
  | .double_real => .run [some .ellblock, some .ellblock] (some .double_real)
  | .single_complex => .run [some .ellblock, some .ellblock] (some .single_complex)
  | .double_complex => .run [some .ellblock, some .ellblock] (some .double_complex)

/-- `bml_diagonalize_csr`, csr/bml_diagonalize_csr.c lines 15-40. -/
def bml_diagonalize_csr (A eigenvectors : Kind) : Out :=
  match A.prec with
  | .single_real => .run [some .csr, some .csr] (some .single_real)
  | .double_real => .run [some .csr, some .csr] (some .double_real)
  | .single_complex => .run [some .csr, some .csr] (some .single_complex)
  | .double_complex => .run [some .csr, some .csr] (some .double_complex)

/-- `bml_diagonalize_distributed2d`, distributed2d/bml_diagonalize_distributed2d.c lines 15-44. -/
def bml_diagonalize_distributed2d (A eigenvectors : Kind) : Out :=
  match A.prec with
  | .single_real => .run [some .distributed2d, some .distributed2d] (some .single_real)
  | .double_real => .run [some .distributed2d, some .distributed2d] (some .double_real)
  | .single_complex => .run [some .distributed2d, some .distributed2d] (some .single_complex)
  | .double_complex => .run [some .distributed2d, some .distributed2d] (some .double_complex)

/-- `bml_diagonalize`, bml_diagonalize.c lines 15-44. -/
def bml_diagonalize (A eigenvectors : Kind) : Out :=
  match A.fmt with
  | .dense => bml_diagonalize_dense A eigenvectors
  | .ellpack => bml_diagonalize_ellpack A eigenvectors
  | .ellblock => bml_diagonalize_ellblock A eigenvectors
  | .csr => bml_diagonalize_csr A eigenvectors
  | .distributed2d => bml_diagonalize_distributed2d A eigenvectors

/-- `bml_element_multiply_AB_dense`, dense/bml_element_multiply_dense.c lines 21-46. -/
def bml_element_multiply_AB_dense (A B C : Kind) : Out :=
  match A.prec with
  | .single_real => .run [some .dense, some .dense, some .dense] (some .single_real)
  | .double_real => .run [some .dense, some .dense, some .dense] (some .double_real)
  | .single_complex => .run [some .dense, some .dense, some .dense] (some .single_complex)
  | .double_complex => .run [some .dense, some .dense, some .dense] (some .double_complex)

/-- `bml_element_multiply_AB_ellpack`, ellpack/bml_element_multiply_ellpack.c lines 25-53. -/
def bml_element_multiply_AB_ellpack (A B C : Kind) : Out :=
  match A.prec with
  | .single_real => .run [some .ellpack, some .ellpack, some .ellpack] (some .single_real)
  | .double_real => .run [some .ellpack, some .ellpack, some .ellpack] (some .double_real)
  | .single_complex => .run [some .ellpack, some .ellpack, some .ellpack] (some .single_complex)
  | .double_complex => .run [some .ellpack, some .ellpack, some .ellpack] (some .double_complex)

/-- `bml_element_multiply_AB_csr`, csr/bml_element_multiply_csr.c lines 25-51. -/
def bml_element_multiply_AB_csr (A B C : Kind) : Out :=
  match A.prec with
  | .single_real => .run [some .csr, some .csr, some .csr] (some .single_real)
  | .double_real => .run [some .csr, some .csr, some .csr] (some .double_real)
  | .single_complex => .run [some .csr, some .csr, some .csr] (some .single_complex)
  | .double_complex => .run [some .csr, some .csr, some .csr] (some .double_complex)

/-- `bml_element_multiply_AB`, bml_element_multiply.c lines 25-46. -/
def bml_element_multiply_AB (A B C : Kind) : Out :=
  match A.fmt with
  | .dense => bml_element_multiply_AB_dense A B C
  | .ellpack => bml_element_multiply_AB_ellpack A B C
  | .csr => bml_element_multiply_AB_csr A B C
  | _ => .stop

/-- `bml_get_element_dense_single_real`, dense/bml_elemental_dense.c lines 18-34. -/
def bml_get_element_dense_single_real (A : Kind) : Out :=
  .run [some .dense] (some .single_real)

/-- `bml_get_element_ellpack_single_real`, ellpack/bml_elemental_ellpack.c lines 18-42. -/
def bml_get_element_ellpack_single_real (A : Kind) : Out :=
  .run [some .ellpack] (some .single_real)

/-- `bml_get_element_single_real`, bml_elemental.c lines 19-37. -/
def bml_get_element_single_real (A : Kind) : Out :=
  match A.fmt with
  | .dense => bml_get_element_dense_single_real A
  | .ellpack => bml_get_element_ellpack_single_real A
  | _ => .stop

/-- `bml_get_element_dense_double_real`, dense/bml_elemental_dense.c lines 44-60. -/
def bml_get_element_dense_double_real (A : Kind) : Out :=
  .run [some .dense] (some .double_real)

/-- `bml_get_element_ellpack_double_real`, ellpack/bml_elemental_ellpack.c lines 52-75. -/
def bml_get_element_ellpack_double_real (A : Kind) : Out :=
  .run [some .ellpack] (some .double_real)

/-- `bml_get_element_double_real`, bml_elemental.c lines 47-65. -/
def bml_get_element_double_real (A : Kind) : Out :=
  match A.fmt with
  | .dense => bml_get_element_dense_double_real A
  | .ellpack => bml_get_element_ellpack_double_real A
  | _ => .stop

/-- `bml_get_element_dense_single_complex`, dense/bml_elemental_dense.c lines 71-87. -/
def bml_get_element_dense_single_complex (A : Kind) : Out :=
  .run [some .dense] (some .single_complex)

/-- `bml_get_element_ellpack_single_complex`, ellpack/bml_elemental_ellpack.c lines 86-110. -/
def bml_get_element_ellpack_single_complex (A : Kind) : Out :=
  .run [some .ellpack] (some .single_complex)

/-- `bml_get_element_single_complex`, bml_elemental.c lines 76-94. -/
def bml_get_element_single_complex (A : Kind) : Out :=
  match A.fmt with
  | .dense => bml_get_element_dense_single_complex A
  | .ellpack => bml_get_element_ellpack_single_complex A
  | _ => .stop

/-- `bml_get_element_dense_double_complex`, dense/bml_elemental_dense.c lines 97-113. -/
def bml_get_element_dense_double_complex (A : Kind) : Out :=
  .run [some .dense] (some .double_complex)

/-- `bml_get_element_ellpack_double_complex`, ellpack/bml_elemental_ellpack.c lines 120-144. -/
def bml_get_element_ellpack_double_complex (A : Kind) : Out :=
  .run [some .ellpack] (some .double_complex)

/-- `bml_get_element_double_complex`, bml_elemental.c lines 104-123. -/
def bml_get_element_double_complex (A : Kind) : Out :=
  match A.fmt with
  | .dense => bml_get_element_dense_double_complex A
  | .ellpack => bml_get_element_ellpack_double_complex A
  | _ => .stop

/-- `bml_export_to_dense_dense`, dense/bml_export_dense.c lines 23-48. -/
def bml_export_to_dense_dense (A : Kind) : Out :=
  match A.prec with
  | .single_real => .run [some .dense] (some .single_real)
  | .double_real => .run [some .dense] (some .double_real)
  | .single_complex => .run [some .dense] (some .single_complex)
  | .double_complex => .run [some .dense] (some .double_complex)

/-- `bml_export_to_dense_ellpack`, ellpack/bml_export_ellpack.c lines 19-44. -/
def bml_export_to_dense_ellpack (A : Kind) : Out :=
  match A.prec with
  | .single_real => .run [some .ellpack] (some .single_real)
  | .double_real => .run [some .ellpack] (some .double_real)
  | .single_complex => .run [some .ellpack] (some .single_complex)
  | .double_complex => .run [some .ellpack] (some .double_complex)

/-- `bml_export_to_dense_ellblock`, ellblock/bml_export_ellblock.c lines 19-44. -/
def bml_export_to_dense_ellblock (A : Kind) : Out :=
  match A.prec with
  | .single_real => .run [some .ellblock] (some .single_real)
  | .double_real => .run [some .ellblock] (some .double_real)
  | .single_complex => .run [some .ellblock] (some .single_complex)
  | .double_complex => .run [some .ellblock] (some .double_complex)

/-- `bml_export_to_dense_csr`, csr/bml_export_csr.c lines 19-44. -/
def bml_export_to_dense_csr (A : Kind) : Out :=
  match A.prec with
  | .single_real => .run [some .csr] (some .single_real)
  | .double_real => .run [some .csr] (some .double_real)
  | .single_complex => .run [some .csr] (some .single_complex)
  | .double_complex => .run [some .csr] (some .double_complex)

/-- `bml_export_to_dense_distributed2d`, distributed2d/bml_export_distributed2d.c lines 20-45. -/
def bml_export_to_dense_distributed2d (A : Kind) : Out :=
  match A.prec with
  | .single_real => .run [some .distributed2d] (some .single_real)
  | .double_real => .run [some .distributed2d] (some .double_real)
  | .single_complex => .run [some .distributed2d] (some .single_complex)
  | .double_complex => .run [some .distributed2d] (some .double_complex)

/-- `bml_export_to_dense`, bml_export.c lines 37-62. -/
def bml_export_to_dense (A : Kind) : Out :=
  match A.fmt with
  | .dense => bml_export_to_dense_dense A
  | .ellpack => bml_export_to_dense_ellpack A
  | .ellblock => bml_export_to_dense_ellblock A
  | .csr => bml_export_to_dense_csr A
  | .distributed2d => bml_export_to_dense_distributed2d A

/-- `bml_get_element_dense`, dense/bml_getters_dense.c lines 7-33. -/
def bml_get_element_dense (A : Kind) : Out :=
  match A.prec with
  | .single_real => .run [some .dense] (some .single_real)
  | .double_real => .run [some .dense] (some .double_real)
  | .single_complex => .run [some .dense] (some .single_complex)
  | .double_complex => .run [some .dense] (some .double_complex)

/-- `bml_get_element_ellpack`, ellpack/bml_getters_ellpack.c lines 7-33. -/
def bml_get_element_ellpack (A : Kind) : Out :=
  match A.prec with
  | .single_real => .run [some .ellpack] (some .single_real)
  | .double_real => .run [some .ellpack] (some .double_real)
  | .single_complex => .run [some .ellpack] (some .single_complex)
  | .double_complex => .run [some .ellpack] (some .double_complex)

/-- `bml_get_element_ellblock`, ellblock/bml_getters_ellblock.c lines 7-33. -/
def bml_get_element_ellblock (A : Kind) : Out :=
  match A.prec with
  | .single_real => .run [some .ellblock] (some .single_real)
  | .double_real => .run [some .ellblock] (some .double_real)
  | .single_complex => .run [some .ellblock] (some .single_complex)
  | .double_complex => .run [some .ellblock] (some .double_complex)

/-- `bml_get_csr`, csr/bml_getters_csr.c lines 7-33. -/
def bml_get_csr (A : Kind) : Out :=
  match A.prec with
  | .single_real => .run [some .csr] (some .single_real)
  | .double_real => .run [some .csr] (some .double_real)
  | .single_complex => .run [some .csr] (some .single_complex)
  | .double_complex => .run [some .csr] (some .double_complex)

/-- `bml_get_element`, bml_getters.c lines 22-46. -/
def bml_get_element (A : Kind) : Out :=
  match A.fmt with
  | .dense => bml_get_element_dense A
  | .ellpack => bml_get_element_ellpack A
  | .ellblock => bml_get_element_ellblock A
  | .csr => bml_get_csr A
  | _ => .stop

/-- `bml_get_row_dense`, dense/bml_getters_dense.c lines 36-61. -/
def bml_get_row_dense (A : Kind) : Out :=
  match A.prec with
  | .single_real => .run [some .dense] (some .single_real)
  | .double_real => .run [some .dense] (some .double_real)
  | .single_complex => .run [some .dense] (some .single_complex)
  | .double_complex => .run [some .dense] (some .double_complex)

/-- `bml_get_row_ellpack`, ellpack/bml_getters_ellpack.c lines 36-61. -/
def bml_get_row_ellpack (A : Kind) : Out :=
  match A.prec with
  | .single_real => .run [some .ellpack] (some .single_real)
  | .double_real => .run [some .ellpack] (some .double_real)
  | .single_complex => .run [some .ellpack] (some .single_complex)
  | .double_complex => .run [some .ellpack] (some .double_complex)

/-- `bml_get_row_ellblock`, ellblock/bml_getters_ellblock.c lines 36-61. -/
def bml_get_row_ellblock (A : Kind) : Out :=
  match A.prec with
  | .single_real => .run [some .ellblock] (some .single_real)
  | .double_real => .run [some .ellblock] (some .double_real)
  | .single_complex => .run [some .ellblock] (some .single_complex)
  | .double_complex => .run [some .ellblock] (some .double_complex)

/-- `bml_get_row_csr`, csr/bml_getters_csr.c lines 36-61. -/
def bml_get_row_csr (A : Kind) : Out :=
  match A.prec with
  | .single_real => .run [some .csr] (some .single_real)
  | .double_real => .run [some .csr] (some .double_real)
  | .single_complex => .run [some .csr] (some .single_complex)
  | .double_complex => .run [some .csr] (some .double_complex)

/-- `bml_get_row_distributed2d`, distributed2d/bml_getters_distributed2d.c lines 5-30. -/
def bml_get_row_distributed2d (A : Kind) : Out :=
  match A.prec with
  | .single_real => .run [some .distributed2d] (some .single_real)
  | .double_real => .run [some .distributed2d] (some .double_real)
  | .single_complex => .run [some .distributed2d] (some .single_complex)
  | .double_complex => .run [some .distributed2d] (some .double_complex)

/-- `bml_get_row`, bml_getters.c lines 55-83. -/
def bml_get_row (A : Kind) : Out :=
  match A.fmt with
  | .dense => bml_get_row_dense A
  | .ellpack => bml_get_row_ellpack A
  | .ellblock => bml_get_row_ellblock A
  | .csr => bml_get_row_csr A
  | .distributed2d => bml_get_row_distributed2d A

/-- `bml_get_diagonal_dense`, dense/bml_getters_dense.c lines 64-88. -/
def bml_get_diagonal_dense (A : Kind) : Out :=
  match A.prec with
  | .single_real => .run [some .dense] (some .single_real)
  | .double_real => .run [some .dense] (some .double_real)
  | .single_complex => .run [some .dense] (some .single_complex)
  | .double_complex => .run [some .dense] (some .double_complex)

/-- `bml_get_diagonal_ellpack`, ellpack/bml_getters_ellpack.c lines 64-88. -/
def bml_get_diagonal_ellpack (A : Kind) : Out :=
  match A.prec with
  | .single_real => .run [some .ellpack] (some .single_real)
  | .double_real => .run [some .ellpack] (some .double_real)
  | .single_complex => .run [some .ellpack] (some .single_complex)
  | .double_complex => .run [some .ellpack] (some .double_complex)

/-- `bml_get_diagonal_ellblock`, ellblock/bml_getters_ellblock.c lines 64-88. -/
def bml_get_diagonal_ellblock (A : Kind) : Out :=
  match A.prec with
  | .single_real => .run [some .ellblock] (some .single_real)
  | .double_real => .run [some .ellblock] (some .double_real)
  | .single_complex => .run [some .ellblock] (some .single_complex)
  | .double_complex => .run [some .ellblock] (some .double_complex)

/-- `bml_get_diagonal_csr`, csr/bml_getters_csr.c lines 64-88. -/
def bml_get_diagonal_csr (A : Kind) : Out :=
  match A.prec with
  | .single_real => .run [some .csr] (some .single_real)
  | .double_real => .run [some .csr] (some .double_real)
  | .single_complex => .run [some .csr] (some .single_complex)
  | .double_complex => .run [some .csr] (some .double_complex)

/-- `bml_get_diagonal`, bml_getters.c lines 91-113. -/
def bml_get_diagonal (A : Kind) : Out :=
  match A.fmt with
  | .dense => bml_get_diagonal_dense A
  | .ellpack => bml_get_diagonal_ellpack A
  | .ellblock => bml_get_diagonal_ellblock A
  | .csr => bml_get_diagonal_csr A
  | _ => .stop

/-- `bml_get_precision_dense`, dense/bml_introspection_dense.c lines 12-23. -/
def bml_get_precision_dense (A : Kind) : Out :=
  .run [some .dense] none

/-- `bml_get_precision_ellpack`, ellpack/bml_introspection_ellpack.c lines 20-31. -/
def bml_get_precision_ellpack (A : Kind) : Out :=
  .run [some .ellpack] none

/-- `bml_get_precision_ellblock`, ellblock/bml_introspection_ellblock.c lines 20-31. -/
def bml_get_precision_ellblock (A : Kind) : Out :=
  .run [some .ellblock] none

/-- `bml_get_precision_csr`, csr/bml_introspection_csr.c lines 20-31. -/
def bml_get_precision_csr (A : Kind) : Out :=
  .run [some .csr] none

/-- `bml_get_precision`, bml_introspection.c lines 68-98. -/
def bml_get_precision (A : Kind) : Out :=
  match A.fmt with
  | .dense => bml_get_precision_dense A
  | .ellpack => bml_get_precision_ellpack A
  | .ellblock => bml_get_precision_ellblock A
  | .csr => bml_get_precision_csr A
  | .distributed2d => .run [some .distributed2d] none

/-- `bml_get_N_dense`, dense/bml_introspection_dense.c lines 50-61. -/
def bml_get_N_dense (A : Kind) : Out :=
  .run [some .dense] none

/-- `bml_get_N_ellpack`, ellpack/bml_introspection_ellpack.c lines 58-69. -/
def bml_get_N_ellpack (A : Kind) : Out :=
  .run [some .ellpack] none

/-- `bml_get_N_ellblock`, ellblock/bml_introspection_ellblock.c lines 58-69. -/
def bml_get_N_ellblock (A : Kind) : Out :=
  .run [some .ellblock] none

/-- `bml_get_N_csr`, csr/bml_introspection_csr.c lines 58-69. -/
def bml_get_N_csr (A : Kind) : Out :=
  .run [some .csr] none

/-- `bml_get_N_distributed2d`, distributed2d/bml_introspection_distributed2d.c lines 55-66. -/
def bml_get_N_distributed2d (A : Kind) : Out :=
  .run [some .distributed2d] none

/-- `bml_get_N`, bml_introspection.c lines 106-136. -/
def bml_get_N (A : Kind) : Out :=
  match A.fmt with
  | .dense => bml_get_N_dense A
  | .ellpack => bml_get_N_ellpack A
  | .ellblock => bml_get_N_ellblock A
  | .csr => bml_get_N_csr A
  | .distributed2d => bml_get_N_distributed2d A

/-- `bml_get_M_dense`, dense/bml_introspection_dense.c lines 69-80. -/
def bml_get_M_dense (A : Kind) : Out :=
  .run [some .dense] none

/-- `bml_get_M_ellpack`, ellpack/bml_introspection_ellpack.c lines 77-88. -/
def bml_get_M_ellpack (A : Kind) : Out :=
  .run [some .ellpack] none

/-- `bml_get_M_ellblock`, ellblock/bml_introspection_ellblock.c lines 77-88. -/
def bml_get_M_ellblock (A : Kind) : Out :=
  .run [some .ellblock] none

/-- `bml_get_M_csr`, csr/bml_introspection_csr.c lines 77-97. -/
def bml_get_M_csr (A : Kind) : Out :=
  .run [some .csr] none

/-- `bml_get_M_distributed2d`, distributed2d/bml_introspection_distributed2d.c lines 74-85. -/
def bml_get_M_distributed2d (A : Kind) : Out :=
  .run [some .distributed2d] none

/-- `bml_get_M`, bml_introspection.c lines 144-174. -/
def bml_get_M (A : Kind) : Out :=
  match A.fmt with
  | .dense => bml_get_M_dense A
  | .ellpack => bml_get_M_ellpack A
  | .ellblock => bml_get_M_ellblock A
  | .csr => bml_get_M_csr A
  | .distributed2d => bml_get_M_distributed2d A

/-- `bml_get_NB_ellblock`, ellblock/bml_introspection_ellblock.c lines 91-102. -/
def bml_get_NB_ellblock (A : Kind) : Out :=
  .run [some .ellblock] none

/-- `bml_get_NB`, bml_introspection.c lines 178-203. -/
def bml_get_NB (A : Kind) : Out :=
  match A.fmt with
  | .dense => .run [none] none
  | .ellpack => .run [none] none
  | .ellblock => bml_get_NB_ellblock A
  | .csr => .run [none] none
  | _ => .stop

/-- `bml_get_row_bandwidth_dense`, dense/bml_introspection_dense.c lines 89-117. -/
def bml_get_row_bandwidth_dense (A : Kind) : Out :=
  match A.prec with
  | .single_real => .run [some .dense] (some .single_real)
  | .double_real => .run [some .dense] (some .double_real)
  | .single_complex => .run [some .dense] (some .single_complex)
  | .double_complex => .run [some .dense] (some .double_complex)

/-- `bml_get_row_bandwidth_ellpack`, ellpack/bml_introspection_ellpack.c lines 97-102. -/
def bml_get_row_bandwidth_ellpack (A : Kind) : Out :=
  .run [some .ellpack] none

/-- `bml_get_row_bandwidth_csr`, csr/bml_introspection_csr.c lines 106-111. -/
def bml_get_row_bandwidth_csr (A : Kind) : Out :=
  .run [some .csr] none

/-- `bml_get_row_bandwidth`, bml_introspection.c lines 212-236. -/
def bml_get_row_bandwidth (A : Kind) : Out :=
  match A.fmt with
  | .dense => bml_get_row_bandwidth_dense A
  | .ellpack => bml_get_row_bandwidth_ellpack A
  | .csr => bml_get_row_bandwidth_csr A
  | _ => .stop

/-- `bml_get_bandwidth_dense`, dense/bml_introspection_dense.c lines 125-152. -/
def bml_get_bandwidth_dense (A : Kind) : Out :=
  match A.prec with
  | .single_real => .run [some .dense] (some .single_real)
  | .double_real => .run [some .dense] (some .double_real)
  | .single_complex => .run [some .dense] (some .single_complex)
  | .double_complex => .run [some .dense] (some .double_complex)

/-- `bml_get_bandwidth_ellpack`, ellpack/bml_introspection_ellpack.c lines 110-120. -/
def bml_get_bandwidth_ellpack (A : Kind) : Out :=
  .run [some .ellpack] none

/-- `bml_get_bandwidth_csr`, csr/bml_introspection_csr.c lines 119-132. -/
def bml_get_bandwidth_csr (A : Kind) : Out :=
  .run [some .csr] none

/-- `bml_get_bandwidth`, bml_introspection.c lines 244-263. -/
def bml_get_bandwidth (A : Kind) : Out :=
  match A.fmt with
  | .dense => bml_get_bandwidth_dense A
  | .ellpack => bml_get_bandwidth_ellpack A
  | .csr => bml_get_bandwidth_csr A
  | _ => .stop

/-- `bml_get_distribution_mode_dense`, dense/bml_introspection_dense.c lines 31-42. -/
def bml_get_distribution_mode_dense (A : Kind) : Out :=
  .run [some .dense] none

/-- `bml_get_distribution_mode_ellpack`, ellpack/bml_introspection_ellpack.c lines 39-50. -/
def bml_get_distribution_mode_ellpack (A : Kind) : Out :=
  .run [some .ellpack] none

/-- `bml_get_distribution_mode_csr`, csr/bml_introspection_csr.c lines 39-50. -/
def bml_get_distribution_mode_csr (A : Kind) : Out :=
  .run [some .csr] none

/-- `bml_get_distribution_mode`, bml_introspection.c lines 271-290. -/
def bml_get_distribution_mode (A : Kind) : Out :=
  match A.fmt with
  | .dense => bml_get_distribution_mode_dense A
  | .ellpack => bml_get_distribution_mode_ellpack A
  | .csr => bml_get_distribution_mode_csr A
  | _ => .stop

/-- `bml_get_sparsity_dense`, dense/bml_introspection_dense.c lines 167-195. -/
def bml_get_sparsity_dense (A : Kind) : Out :=
  match A.prec with
  | .single_real => .run [some .dense] (some .single_real)
  | .double_real => .run [some .dense] (some .double_real)
  | .single_complex => .run [some .dense] (some .single_complex)
  | .double_complex => .run [some .dense] (some .double_complex)

/-- `bml_get_sparsity_ellpack`, ellpack/bml_introspection_ellpack.c lines 136-164. -/
def bml_get_sparsity_ellpack (A : Kind) : Out :=
  match A.prec with
  | .single_real => .run [some .ellpack] (some .single_real)
  | .double_real => .run [some .ellpack] (some .double_real)
  | .single_complex => .run [some .ellpack] (some .single_complex)
  | .double_complex => .run [some .ellpack] (some .double_complex)

/-- `bml_get_sparsity_ellblock`, ellblock/bml_introspection_ellblock.c lines 166-194. -/
def bml_get_sparsity_ellblock (A : Kind) : Out :=
  match A.prec with
  | .single_real => .run [some .ellblock] (some .single_real)
  | .double_real => .run [some .ellblock] (some .double_real)
  | .single_complex => .run [some .ellblock] (some .single_complex)
  | .double_complex => .run [some .ellblock] (some .double_complex)

/-- `bml_get_sparsity_csr`, csr/bml_introspection_csr.c lines 148-176. -/
def bml_get_sparsity_csr (A : Kind) : Out :=
  match A.prec with
  | .single_real => .run [some .csr] (some .single_real)
  | .double_real => .run [some .csr] (some .double_real)
  | .single_complex => .run [some .csr] (some .single_complex)
  | .double_complex => .run [some .csr] (some .double_complex)

/-- `bml_get_sparsity_distributed2d`, distributed2d/bml_introspection_distributed2d.c lines 114-126. -/
def bml_get_sparsity_distributed2d (A : Kind) : Out :=
  .run [some .distributed2d] none

/-- `bml_get_sparsity`, bml_introspection.c lines 299-327. -/
def bml_get_sparsity (A : Kind) : Out :=
  match A.fmt with
  | .dense => bml_get_sparsity_dense A
  | .ellpack => bml_get_sparsity_ellpack A
  | .ellblock => bml_get_sparsity_ellblock A
  | .csr => bml_get_sparsity_csr A
  | .distributed2d => bml_get_sparsity_distributed2d A

/-- `bml_get_local_matrix_distributed2d`, distributed2d/bml_introspection_distributed2d.c lines 88-99. -/
def bml_get_local_matrix_distributed2d (A : Kind) : Out :=
  .run [some .distributed2d] none

/-- `bml_get_local_matrix`, bml_introspection.c lines 330-345. -/
def bml_get_local_matrix (A : Kind) : Out :=
  match A.fmt with
  | .distributed2d => bml_get_local_matrix_distributed2d A
  | _ => .stop

/-- `bml_get_data_ptr_dense`, dense/bml_introspection_dense.c lines 198-202. -/
def bml_get_data_ptr_dense (A : Kind) : Out :=
  .run [some .dense] none

/-- `bml_get_data_ptr`, bml_introspection.c lines 348-361. -/
def bml_get_data_ptr (A : Kind) : Out :=
  match A.fmt with
  | .dense => bml_get_data_ptr_dense A
  | _ => .stop

/-- `bml_inverse_dense`, dense/bml_inverse_dense.c lines 18-47. -/
def bml_inverse_dense (A : Kind) : Out :=
  match A.prec with
  | .single_real => .run [some .dense] (some .single_real)
  | .double_real => .run [some .dense] (some .double_real)
  | .single_complex => .run [some .dense] (some .single_complex)
  | .double_complex => .run [some .dense] (some .double_complex)

/-- `bml_inverse_ellpack`, ellpack/bml_inverse_ellpack.c lines 14-43. -/
def bml_inverse_ellpack (A : Kind) : Out :=
  match A.prec with
  | .single_real => .run [some .ellpack] (some .single_real)
  | .double_real => .run [some .ellpack] (some .double_real)
  | .single_complex => .run [some .ellpack] (some .single_complex)
  | .double_complex => .run [some .ellpack] (some .double_complex)

/-- `bml_inverse_ellblock`, ellblock/bml_inverse_ellblock.c lines 14-43. -/
def bml_inverse_ellblock (A : Kind) : Out :=
  match A.prec with
  | .single_real => .run [some .ellblock] (some .single_real)
  | .double_real => .run [some .ellblock] (some .double_real)
  | .single_complex => .run [some .ellblock] (some .single_complex)
  | .double_complex => .run [some .ellblock] (some .double_complex)

/-- `bml_inverse_csr`, csr/bml_inverse_csr.c lines 14-43. -/
def bml_inverse_csr (A : Kind) : Out :=
  match A.prec with
  | .single_real => .run [some .csr] (some .single_real)
  | .double_real => .run [some .csr] (some .double_real)
  | .single_complex => .run [some .csr] (some .single_complex)
  | .double_complex => .run [some .csr] (some .double_complex)

/-- `bml_inverse`, bml_inverse.c lines 12-38. -/
def bml_inverse (A : Kind) : Out :=
  match A.fmt with
  | .dense => bml_inverse_dense A
  | .ellpack => bml_inverse_ellpack A
  | .ellblock => bml_inverse_ellblock A
  | .csr => bml_inverse_csr A
  | _ => .stop

/-- `bml_multiply_dense`, dense/bml_multiply_dense.c lines 23-50. -/
def bml_multiply_dense (A B C : Kind) : Out :=
  match A.prec with
  | .single_real => .run [some .dense, some .dense, some .dense] (some .single_real)
  | .double_real => .run [some .dense, some .dense, some .dense] (some .double_real)
  | .single_complex => .run [some .dense, some .dense, some .dense] (some .single_complex)
  | .double_complex => .run [some .dense, some .dense, some .dense] (some .double_complex)

/-- `bml_multiply_ellpack`, ellpack/bml_multiply_ellpack.c lines 27-57. -/
def bml_multiply_ellpack (A B C : Kind) : Out :=
  match A.prec with
  | .single_real => .run [some .ellpack, some .ellpack, some .ellpack] (some .single_real)
  | .double_real => .run [some .ellpack, some .ellpack, some .ellpack] (some .double_real)
  | .single_complex => .run [some .ellpack, some .ellpack, some .ellpack] (some .single_complex)
  | .double_complex => .run [some .ellpack, some .ellpack, some .ellpack] (some .double_complex)

/-- `bml_multiply_ellblock`, ellblock/bml_multiply_ellblock.c lines 27-59. -/
def bml_multiply_ellblock (A B C : Kind) : Out :=
  match A.prec with
  | .single_real => .run [some .ellblock, some .ellblock, some .ellblock] (some .single_real)
  | .double_real => .run [some .ellblock, some .ellblock, some .ellblock] (some .double_real)
  | .single_complex => .run [some .ellblock, some .ellblock, some .ellblock] (some .single_complex)
  | .double_complex => .run [some .ellblock, some .ellblock, some .ellblock] (some .double_complex)

/-- `bml_multiply_csr`, csr/bml_multiply_csr.c lines 27-55. -/
def bml_multiply_csr (A B C : Kind) : Out :=
  match A.prec with
  | .single_real => .run [some .csr, some .csr, some .csr] (some .single_real)
  | .double_real => .run [some .csr, some .csr, some .csr] (some .double_real)
  | .single_complex => .run [some .csr, some .csr, some .csr] (some .single_complex)
  | .double_complex => .run [some .csr, some .csr, some .csr] (some .double_complex)

/-- `bml_multiply_distributed2d`, distributed2d/bml_multiply_distributed2d.c lines 24-56. -/
def bml_multiply_distributed2d (A B C : Kind) : Out :=
  match A.prec with
  | .single_real => .run [some .distributed2d, some .distributed2d, some .distributed2d] (some .single_real)
  | .double_real => .run [some .distributed2d, some .distributed2d, some .distributed2d] (some .double_real)
  | .single_complex => .run [some .distributed2d, some .distributed2d, some .distributed2d] (some .single_complex)
  | .double_complex => .run [some .distributed2d, some .distributed2d, some .distributed2d] (some .double_complex)

/-- `bml_multiply`, bml_multiply.c lines 28-59. -/
def bml_multiply (A B C : Kind) : Out :=
  match A.fmt with
  | .dense => bml_multiply_dense A B C
  | .ellpack => bml_multiply_ellpack A B C
  | .ellblock => bml_multiply_ellblock A B C
  | .csr => bml_multiply_csr A B C
  | .distributed2d => bml_multiply_distributed2d A B C

/-- `bml_multiply_x2_dense`, dense/bml_multiply_dense.c lines 62-87. -/
def bml_multiply_x2_dense (X X2 : Kind) : Out :=
  match X.prec with
  | .single_real => .run [some .dense, some .dense] (some .single_real)
  | .double_real => .run [some .dense, some .dense] (some .double_real)
  | .single_complex => .run [some .dense, some .dense] (some .single_complex)
  | .double_complex => .run [some .dense, some .dense] (some .double_complex)

/-- `bml_multiply_x2_ellpack`, ellpack/bml_multiply_ellpack.c lines 70-96. -/
def bml_multiply_x2_ellpack (X X2 : Kind) : Out :=
  match X.prec with
  | .single_real => .run [some .ellpack, some .ellpack] (some .single_real)
  | .double_real => .run [some .ellpack, some .ellpack] (some .double_real)
  | .single_complex => .run [some .ellpack, some .ellpack] (some .single_complex)
  | .double_complex => .run [some .ellpack, some .ellpack] (some .double_complex)

/-- `bml_multiply_x2_ellblock`, ellblock/bml_multiply_ellblock.c lines 72-98. -/
def bml_multiply_x2_ellblock (X X2 : Kind) : Out :=
  match X.prec with
  | .single_real => .run [some .ellblock, some .ellblock] (some .single_real)
  | .double_real => .run [some .ellblock, some .ellblock] (some .double_real)
  | .single_complex => .run [some .ellblock, some .ellblock] (some .single_complex)
  | .double_complex => .run [some .ellblock, some .ellblock] (some .double_complex)

/-- `bml_multiply_x2_csr`, csr/bml_multiply_csr.c lines 68-94. -/
def bml_multiply_x2_csr (X X2 : Kind) : Out :=
  match X.prec with
  | .single_real => .run [some .csr, some .csr] (some .single_real)
  | .double_real => .run [some .csr, some .csr] (some .double_real)
  | .single_complex => .run [some .csr, some .csr] (some .single_complex)
  | .double_complex => .run [some .csr, some .csr] (some .double_complex)

/-- `bml_multiply_x2_distributed2d`, distributed2d/bml_multiply_distributed2d.c lines 69-99. -/
def bml_multiply_x2_distributed2d (X X2 : Kind) : Out :=
  match X.prec with
  | .single_real => .run [some .distributed2d, some .distributed2d] (some .single_real)
  | .double_real => .run [some .distributed2d, some .distributed2d] (some .double_real)
  | .single_complex => .run [some .distributed2d, some .distributed2d] (some .single_complex)
  | .double_complex => .run [some .distributed2d, some .distributed2d] (some .double_complex)

/-- `bml_multiply_x2`, bml_multiply.c lines 72-101. -/
def bml_multiply_x2 (X X2 : Kind) : Out :=
  match X.fmt with
  | .dense => bml_multiply_x2_dense X X2
  | .ellpack => bml_multiply_x2_ellpack X X2
  | .ellblock => bml_multiply_x2_ellblock X X2
  | .csr => bml_multiply_x2_csr X X2
  | .distributed2d => bml_multiply_x2_distributed2d X X2

/-- `bml_multiply_AB_dense`, dense/bml_multiply_dense.c lines 100-125. -/
def bml_multiply_AB_dense (A B C : Kind) : Out :=
  match A.prec with
  | .single_real => .run [some .dense, some .dense, some .dense] (some .single_real)
  | .double_real => .run [some .dense, some .dense, some .dense] (some .double_real)
  | .single_complex => .run [some .dense, some .dense, some .dense] (some .single_complex)
  | .double_complex => .run [some .dense, some .dense, some .dense] (some .double_complex)

/-- `bml_multiply_AB_ellpack`, ellpack/bml_multiply_ellpack.c lines 110-136. -/
def bml_multiply_AB_ellpack (A B C : Kind) : Out :=
  match A.prec with
  | .single_real => .run [some .ellpack, some .ellpack, some .ellpack] (some .single_real)
  | .double_real => .run [some .ellpack, some .ellpack, some .ellpack] (some .double_real)
  | .single_complex => .run [some .ellpack, some .ellpack, some .ellpack] (some .single_complex)
  | .double_complex => .run [some .ellpack, some .ellpack, some .ellpack] (some .double_complex)

/-- `bml_multiply_AB_ellblock`, ellblock/bml_multiply_ellblock.c lines 112-138. -/
def bml_multiply_AB_ellblock (A B C : Kind) : Out :=
  match A.prec with
  | .single_real => .run [some .ellblock, some .ellblock, some .ellblock] (some .single_real)
  | .double_real => .run [some .ellblock, some .ellblock, some .ellblock] (some .double_real)
  | .single_complex => .run [some .ellblock, some .ellblock, some .ellblock] (some .single_complex)
  | .double_complex => .run [some .ellblock, some .ellblock, some .ellblock] (some .double_complex)

/-- `bml_multiply_AB_csr`, csr/bml_multiply_csr.c lines 108-134. -/
def bml_multiply_AB_csr (A B C : Kind) : Out :=
  match A.prec with
  | .single_real => .run [some .csr, some .csr, some .csr] (some .single_real)
  | .double_real => .run [some .csr, some .csr, some .csr] (some .double_real)
  | .single_complex => .run [some .csr, some .csr, some .csr] (some .single_complex)
  | .double_complex => .run [some .csr, some .csr, some .csr] (some .double_complex)

/-- `bml_multiply_AB_distributed2d`, distributed2d/bml_multiply_distributed2d.c lines 113-143. -/
def bml_multiply_AB_distributed2d (A B C : Kind) : Out :=
  match A.prec with
  | .single_real => .run [some .distributed2d, some .distributed2d, some .distributed2d] (some .single_real)
  | .double_real => .run [some .distributed2d, some .distributed2d, some .distributed2d] (some .double_real)
  | .single_complex => .run [some .distributed2d, some .distributed2d, some .distributed2d] (some .single_complex)
  | .double_complex => .run [some .distributed2d, some .distributed2d, some .distributed2d] (some .double_complex)

/-- `bml_multiply_AB`, bml_multiply.c lines 115-144. -/
def bml_multiply_AB (A B C : Kind) : Out :=
  match A.fmt with
  | .dense => bml_multiply_AB_dense A B C
  | .ellpack => bml_multiply_AB_ellpack A B C
  | .ellblock => bml_multiply_AB_ellblock A B C
  | .csr => bml_multiply_AB_csr A B C
  | .distributed2d => bml_multiply_AB_distributed2d A B C

/-- `bml_multiply_adjust_AB_dense`, dense/bml_multiply_dense.c lines 140-165. -/
def bml_multiply_adjust_AB_dense (A B C : Kind) : Out :=
  match A.prec with
  | .single_real => .run [some .dense, some .dense, some .dense] (some .single_real)
  | .double_real => .run [some .dense, some .dense, some .dense] (some .double_real)
  | .single_complex => .run [some .dense, some .dense, some .dense] (some .single_complex)
  | .double_complex => .run [some .dense, some .dense, some .dense] (some .double_complex)

/-- `bml_multiply_adjust_AB_ellpack`, ellpack/bml_multiply_ellpack.c lines 150-176. -/
def bml_multiply_adjust_AB_ellpack (A B C : Kind) : Out :=
  match A.prec with
  | .single_real => .run [some .ellpack, some .ellpack, some .ellpack] (some .single_real)
  | .double_real => .run [some .ellpack, some .ellpack, some .ellpack] (some .double_real)
  | .single_complex => .run [some .ellpack, some .ellpack, some .ellpack] (some .single_complex)
  | .double_complex => .run [some .ellpack, some .ellpack, some .ellpack] (some .double_complex)

/-- `bml_multiply_adjust_AB_ellblock`, ellblock/bml_multiply_ellblock.c lines 152-180. -/
def bml_multiply_adjust_AB_ellblock (A B C : Kind) : Out :=
  match A.prec with
  | .single_real => .run [some .ellblock, some .ellblock, some .ellblock] (some .single_real)
  | .double_real => .run [some .ellblock, some .ellblock, some .ellblock] (some .double_real)
  | .single_complex => .run [some .ellblock, some .ellblock, some .ellblock] (some .single_complex)
  | .double_complex => .run [some .ellblock, some .ellblock, some .ellblock] (some .double_complex)

/-- `bml_multiply_adjust_AB_csr`, csr/bml_multiply_csr.c lines 148-174. -/
def bml_multiply_adjust_AB_csr (A B C : Kind) : Out :=
  match A.prec with
  | .single_real => .run [some .csr, some .csr, some .csr] (some .single_real)
  | .double_real => .run [some .csr, some .csr, some .csr] (some .double_real)
  | .single_complex => .run [some .csr, some .csr, some .csr] (some .single_complex)
  | .double_complex => .run [some .csr, some .csr, some .csr] (some .double_complex)

/-- `bml_multiply_adjust_AB`, bml_multiply.c lines 158-182. -/
def bml_multiply_adjust_AB (A B C : Kind) : Out :=
  match A.fmt with
  | .dense => bml_multiply_adjust_AB_dense A B C
  | .ellpack => bml_multiply_adjust_AB_ellpack A B C
  | .ellblock => bml_multiply_adjust_AB_ellblock A B C
  | .csr => bml_multiply_adjust_AB_csr A B C
  | _ => .stop

/-- `bml_sum_squares_dense`, dense/bml_norm_dense.c lines 21-45. -/
def bml_sum_squares_dense (A : Kind) : Out :=
  match A.prec with
  | .single_real => .run [some .dense] (some .single_real)
  | .double_real => .run [some .dense] (some .double_real)
  | .single_complex => .run [some .dense] (some .single_complex)
  | .double_complex => .run [some .dense] (some .double_complex)

/-- `bml_sum_squares_ellpack`, ellpack/bml_norm_ellpack.c lines 18-43. -/
def bml_sum_squares_ellpack (A : Kind) : Out :=
  match A.prec with
  | .single_real => .run [some .ellpack] (some .single_real)
  | .double_real => .run [some .ellpack] (some .double_real)
  | .single_complex => .run [some .ellpack] (some .single_complex)
  | .double_complex => .run [some .ellpack] (some .double_complex)

/-- `bml_sum_squares_ellblock`, ellblock/bml_norm_ellblock.c lines 18-43. -/
def bml_sum_squares_ellblock (A : Kind) : Out :=
  match A.prec with
  | .single_real => .run [some .ellblock] (some .single_real)
  | .double_real => .run [some .ellblock] (some .double_real)
  | .single_complex => .run [some .ellblock] (some .single_complex)
  | .double_complex => .run [some .ellblock] (some .double_complex)

/-- `bml_sum_squares_csr`, csr/bml_norm_csr.c lines 18-43. -/
def bml_sum_squares_csr (A : Kind) : Out :=
  match A.prec with
  | .single_real => .run [some .csr] (some .single_real)
  | .double_real => .run [some .csr] (some .double_real)
  | .single_complex => .run [some .csr] (some .single_complex)
  | .double_complex => .run [some .csr] (some .double_complex)

/-- `bml_sum_squares_distributed2d`, distributed2d/bml_norm_distributed2d.c lines 22-30. -/
def bml_sum_squares_distributed2d (A : Kind) : Out :=
  .run [some .distributed2d] none

/-- `bml_sum_squares`, bml_norm.c lines 22-49. -/
def bml_sum_squares (A : Kind) : Out :=
  match A.fmt with
  | .dense => bml_sum_squares_dense A
  | .ellpack => bml_sum_squares_ellpack A
  | .ellblock => bml_sum_squares_ellblock A
  | .csr => bml_sum_squares_csr A
  | .distributed2d => bml_sum_squares_distributed2d A

/-- `bml_sum_squares_submatrix_dense`, dense/bml_norm_dense.c lines 57-84. -/
def bml_sum_squares_submatrix_dense (A : Kind) : Out :=
  match A.prec with
  | .single_real => .run [some .dense] (some .single_real)
  | .double_real => .run [some .dense] (some .double_real)
  | .single_complex => .run [some .dense] (some .single_complex)
  | .double_complex => .run [some .dense] (some .double_complex)

/-- `bml_sum_squares_submatrix_ellpack`, ellpack/bml_norm_ellpack.c lines 55-84. -/
def bml_sum_squares_submatrix_ellpack (A : Kind) : Out :=
  match A.prec with
  | .single_real => .run [some .ellpack] (some .single_real)
  | .double_real => .run [some .ellpack] (some .double_real)
  | .single_complex => .run [some .ellpack] (some .single_complex)
  | .double_complex => .run [some .ellpack] (some .double_complex)

/-- `bml_sum_squares_submatrix_csr`, csr/bml_norm_csr.c lines 55-80. -/
def bml_sum_squares_submatrix_csr (A : Kind) : Out :=
  match A.prec with
  | .single_real => .run [some .csr] (some .single_real)
  | .double_real => .run [some .csr] (some .double_real)
  | .single_complex => .run [some .csr] (some .single_complex)
  | .double_complex => .run [some .csr] (some .double_complex)

/-- `bml_sum_squares_submatrix`, bml_norm.c lines 61-81. -/
def bml_sum_squares_submatrix (A : Kind) : Out :=
  match A.fmt with
  | .dense => bml_sum_squares_submatrix_dense A
  | .ellpack => bml_sum_squares_submatrix_ellpack A
  | .csr => bml_sum_squares_submatrix_csr A
  | _ => .stop

/-- `bml_sum_squares2_dense`, dense/bml_norm_dense.c lines 140-172. -/
def bml_sum_squares2_dense (A B : Kind) : Out :=
  match A.prec with
  | .single_real => .run [some .dense, some .dense] (some .single_real)
  | .double_real => .run [some .dense, some .dense] (some .double_real)
  | .single_complex => .run [some .dense, some .dense] (some .single_complex)
  | .double_complex => .run [some .dense, some .dense] (some .double_complex)

/-- `bml_sum_squares2_ellpack`, ellpack/bml_norm_ellpack.c lines 140-173. -/
def bml_sum_squares2_ellpack (A B : Kind) : Out :=
  match A.prec with
  | .single_real => .run [some .ellpack, some .ellpack] (some .single_real)
  | .double_real => .run [some .ellpack, some .ellpack] (some .double_real)
  | .single_complex => .run [some .ellpack, some .ellpack] (some .single_complex)
  | .double_complex => .run [some .ellpack, some .ellpack] (some .double_complex)

/-- `bml_sum_squares2_ellblock`, ellblock/bml_norm_ellblock.c lines 98-131. -/
def bml_sum_squares2_ellblock (A B : Kind) : Out :=
  match A.prec with
  | .single_real => .run [some .ellblock, some .ellblock] (some .single_real)
  | .double_real => .run [some .ellblock, some .ellblock] (some .double_real)
  | .single_complex => .run [some .ellblock, some .ellblock] (some .single_complex)
  | .double_complex => .run [some .ellblock, some .ellblock] (some .double_complex)

/-- `bml_sum_squares2_csr`, csr/bml_norm_csr.c lines 136-169. -/
def bml_sum_squares2_csr (A B : Kind) : Out :=
  match A.prec with
  | .single_real => .run [some .csr, some .csr] (some .single_real)
  | .double_real => .run [some .csr, some .csr] (some .double_real)
  | .single_complex => .run [some .csr, some .csr] (some .single_complex)
  | .double_complex => .run [some .csr, some .csr] (some .double_complex)

/-- `bml_sum_squares2_distributed2d`, distributed2d/bml_norm_distributed2d.c lines 70-83. -/
def bml_sum_squares2_distributed2d (A B : Kind) : Out :=
  .run [some .distributed2d, some .distributed2d] none

/-- `bml_sum_squares2`, bml_norm.c lines 95-127. -/
def bml_sum_squares2 (A B : Kind) : Out :=
  match A.fmt with
  | .dense => bml_sum_squares2_dense A B
  | .ellpack => bml_sum_squares2_ellpack A B
  | .ellblock => bml_sum_squares2_ellblock A B
  | .csr => bml_sum_squares2_csr A B
  | .distributed2d => bml_sum_squares2_distributed2d A B

/-- `bml_sum_AB_dense`, dense/bml_norm_dense.c lines 98-125. -/
def bml_sum_AB_dense (A B : Kind) : Out :=
  match A.prec with
  | .single_real => .run [some .dense, some .dense] (some .single_real)
  | .double_real => .run [some .dense, some .dense] (some .double_real)
  | .single_complex => .run [some .dense, some .dense] (some .single_complex)
  | .double_complex => .run [some .dense, some .dense] (some .double_complex)

/-- `bml_sum_AB_ellpack`, ellpack/bml_norm_ellpack.c lines 97-125. -/
def bml_sum_AB_ellpack (A B : Kind) : Out :=
  match A.prec with
  | .single_real => .run [some .ellpack, some .ellpack] (some .single_real)
  | .double_real => .run [some .ellpack, some .ellpack] (some .double_real)
  | .single_complex => .run [some .ellpack, some .ellpack] (some .single_complex)
  | .double_complex => .run [some .ellpack, some .ellpack] (some .double_complex)

/-- `bml_sum_AB_ellblock`, ellblock/bml_norm_ellblock.c lines 56-84. -/
def bml_sum_AB_ellblock (A B : Kind) : Out :=
  match A.prec with
  | .single_real => .run [some .ellblock, some .ellblock] (some .single_real)
  | .double_real => .run [some .ellblock, some .ellblock] (some .double_real)
  | .single_complex => .run [some .ellblock, some .ellblock] (some .single_complex)
  | .double_complex => .run [some .ellblock, some .ellblock] (some .double_complex)

/-- `bml_sum_AB_csr`, csr/bml_norm_csr.c lines 93-121. -/
def bml_sum_AB_csr (A B : Kind) : Out :=
  match A.prec with
  | .single_real => .run [some .csr, some .csr] (some .single_real)
  | .double_real => .run [some .csr, some .csr] (some .double_real)
  | .single_complex => .run [some .csr, some .csr] (some .single_complex)
  | .double_complex => .run [some .csr, some .csr] (some .double_complex)

/-- `bml_sum_AB_distributed2d`, distributed2d/bml_norm_distributed2d.c lines 44-55. -/
def bml_sum_AB_distributed2d (A B : Kind) : Out :=
  .run [some .distributed2d, some .distributed2d] none

/-- `bml_sum_AB`, bml_norm.c lines 140-170. -/
def bml_sum_AB (A B : Kind) : Out :=
  match A.fmt with
  | .dense => bml_sum_AB_dense A B
  | .ellpack => bml_sum_AB_ellpack A B
  | .ellblock => bml_sum_AB_ellblock A B
  | .csr => bml_sum_AB_csr A B
  | .distributed2d => bml_sum_AB_distributed2d A B

/-- `bml_fnorm_dense`, dense/bml_norm_dense.c lines 182-206. -/
def bml_fnorm_dense (A : Kind) : Out :=
  match A.prec with
  | .single_real => .run [some .dense] (some .single_real)
  | .double_real => .run [some .dense] (some .double_real)
  | .single_complex => .run [some .dense] (some .single_complex)
  | .double_complex => .run [some .dense] (some .double_complex)

/-- `bml_fnorm_ellpack`, ellpack/bml_norm_ellpack.c lines 183-208. -/
def bml_fnorm_ellpack (A : Kind) : Out :=
  match A.prec with
  | .single_real => .run [some .ellpack] (some .single_real)
  | .double_real => .run [some .ellpack] (some .double_real)
  | .single_complex => .run [some .ellpack] (some .single_complex)
  | .double_complex => .run [some .ellpack] (some .double_complex)

/-- `bml_fnorm_ellblock`, ellblock/bml_norm_ellblock.c lines 141-166. -/
def bml_fnorm_ellblock (A : Kind) : Out :=
  match A.prec with
  | .single_real => .run [some .ellblock] (some .single_real)
  | .double_real => .run [some .ellblock] (some .double_real)
  | .single_complex => .run [some .ellblock] (some .single_complex)
  | .double_complex => .run [some .ellblock] (some .double_complex)

/-- `bml_fnorm_csr`, csr/bml_norm_csr.c lines 179-204. -/
def bml_fnorm_csr (A : Kind) : Out :=
  match A.prec with
  | .single_real => .run [some .csr] (some .single_real)
  | .double_real => .run [some .csr] (some .double_real)
  | .single_complex => .run [some .csr] (some .single_complex)
  | .double_complex => .run [some .csr] (some .double_complex)

/-- `bml_fnorm_distributed2d`, distributed2d/bml_norm_distributed2d.c lines 93-102. -/
def bml_fnorm_distributed2d (A : Kind) : Out :=
  .run [some .distributed2d] none

/-- `bml_fnorm`, bml_norm.c lines 180-207. -/
def bml_fnorm (A : Kind) : Out :=
  match A.fmt with
  | .dense => bml_fnorm_dense A
  | .ellpack => bml_fnorm_ellpack A
  | .ellblock => bml_fnorm_ellblock A
  | .csr => bml_fnorm_csr A
  | .distributed2d => bml_fnorm_distributed2d A

/-- `bml_fnorm2_dense`, dense/bml_norm_dense.c lines 217-242. -/
def bml_fnorm2_dense (A B : Kind) : Out :=
  match A.prec with
  | .single_real => .run [some .dense, some .dense] (some .single_real)
  | .double_real => .run [some .dense, some .dense] (some .double_real)
  | .single_complex => .run [some .dense, some .dense] (some .single_complex)
  | .double_complex => .run [some .dense, some .dense] (some .double_complex)

/-- `bml_fnorm2_ellpack`, ellpack/bml_norm_ellpack.c lines 219-245. -/
def bml_fnorm2_ellpack (A B : Kind) : Out :=
  match A.prec with
  | .single_real => .run [some .ellpack, some .ellpack] (some .single_real)
  | .double_real => .run [some .ellpack, some .ellpack] (some .double_real)
  | .single_complex => .run [some .ellpack, some .ellpack] (some .single_complex)
  | .double_complex => .run [some .ellpack, some .ellpack] (some .double_complex)

/-- `bml_fnorm2_csr`, csr/bml_norm_csr.c lines 215-241. -/
def bml_fnorm2_csr (A B : Kind) : Out :=
  match A.prec with
  | .single_real => .run [some .csr, some .csr] (some .single_real)
  | .double_real => .run [some .csr, some .csr] (some .double_real)
  | .single_complex => .run [some .csr, some .csr] (some .single_complex)
  | .double_complex => .run [some .csr, some .csr] (some .double_complex)

/-- `bml_fnorm2`, bml_norm.c lines 218-238. -/
def bml_fnorm2 (A B : Kind) : Out :=
  match A.fmt with
  | .dense => bml_fnorm2_dense A B
  | .ellpack => bml_fnorm2_ellpack A B
  | .csr => bml_fnorm2_csr A B
  | _ => .stop

/-- `bml_normalize_dense`, dense/bml_normalize_dense.c lines 50-77. -/
def bml_normalize_dense (A : Kind) : Out :=
  match A.prec with
  | .single_real => .run [some .dense] (some .single_real)
  | .double_real => .run [some .dense] (some .double_real)
  | .single_complex => .run [some .dense] (some .single_complex)
  | .double_complex => .run [some .dense] (some .double_complex)

/-- `bml_normalize_ellpack`, ellpack/bml_normalize_ellpack.c lines 47-72. -/
def bml_normalize_ellpack (A : Kind) : Out :=
  match A.prec with
  | .single_real => .run [some .ellpack] (some .single_real)
  | .double_real => .run [some .ellpack] (some .double_real)
  | .single_complex => .run [some .ellpack] (some .single_complex)
  | .double_complex => .run [some .ellpack] (some .double_complex)

/-- `bml_normalize_ellblock`, ellblock/bml_normalize_ellblock.c lines 47-72. -/
def bml_normalize_ellblock (A : Kind) : Out :=
  match A.prec with
  | .single_real => .run [some .ellblock] (some .single_real)
  | .double_real => .run [some .ellblock] (some .double_real)
  | .single_complex => .run [some .ellblock] (some .single_complex)
  | .double_complex => .run [some .ellblock] (some .double_complex)

/-- `bml_normalize_csr`, csr/bml_normalize_csr.c lines 47-72. -/
def bml_normalize_csr (A : Kind) : Out :=
  match A.prec with
  | .single_real => .run [some .csr] (some .single_real)
  | .double_real => .run [some .csr] (some .double_real)
  | .single_complex => .run [some .csr] (some .single_complex)
  | .double_complex => .run [some .csr] (some .double_complex)

/-- `bml_normalize_distributed2d`, distributed2d/bml_normalize_distributed2d.c lines 20-45. -/
def bml_normalize_distributed2d (A : Kind) : Out :=
  match A.prec with
  | .single_real => .run [some .distributed2d] (some .single_real)
  | .double_real => .run [some .distributed2d] (some .double_real)
  | .single_complex => .run [some .distributed2d] (some .single_complex)
  | .double_complex => .run [some .distributed2d] (some .double_complex)

/-- `bml_normalize`, bml_normalize.c lines 23-51. -/
def bml_normalize (A : Kind) : Out :=
  match A.fmt with
  | .dense => bml_normalize_dense A
  | .ellpack => bml_normalize_ellpack A
  | .ellblock => bml_normalize_ellblock A
  | .csr => bml_normalize_csr A
  | .distributed2d => bml_normalize_distributed2d A

/-- `bml_accumulate_offdiag_dense`, dense/bml_normalize_dense.c lines 14-39. -/
def bml_accumulate_offdiag_dense (A : Kind) : Out :=
  match A.prec with
  | .single_real => .run [some .dense] (some .single_real)
  | .double_real => .run [some .dense] (some .double_real)
  | .single_complex => .run [some .dense] (some .single_complex)
  | .double_complex => .run [some .dense] (some .double_complex)

/-- `bml_accumulate_offdiag_ellpack`, ellpack/bml_normalize_ellpack.c lines 11-36. -/
def bml_accumulate_offdiag_ellpack (A : Kind) : Out :=
  match A.prec with
  | .single_real => .run [some .ellpack] (some .single_real)
  | .double_real => .run [some .ellpack] (some .double_real)
  | .single_complex => .run [some .ellpack] (some .single_complex)
  | .double_complex => .run [some .ellpack] (some .double_complex)

/-- `bml_accumulate_offdiag_ellblock`, ellblock/bml_normalize_ellblock.c lines 11-36. -/
def bml_accumulate_offdiag_ellblock (A : Kind) : Out :=
  match A.prec with
  | .single_real => .run [some .ellblock] (some .single_real)
  | .double_real => .run [some .ellblock] (some .double_real)
  | .single_complex => .run [some .ellblock] (some .single_complex)
  | .double_complex => .run [some .ellblock] (some .double_complex)

/-- `bml_accumulate_offdiag_csr`, csr/bml_normalize_csr.c lines 11-36. -/
def bml_accumulate_offdiag_csr (A : Kind) : Out :=
  match A.prec with
  | .single_real => .run [some .csr] (some .single_real)
  | .double_real => .run [some .csr] (some .double_real)
  | .single_complex => .run [some .csr] (some .single_complex)
  | .double_complex => .run [some .csr] (some .double_complex)

/-- `bml_accumulate_offdiag`, bml_normalize.c lines 54-77. -/
def bml_accumulate_offdiag (A : Kind) : Out :=
  match A.fmt with
  | .dense => bml_accumulate_offdiag_dense A
  | .ellpack => bml_accumulate_offdiag_ellpack A
  | .ellblock => bml_accumulate_offdiag_ellblock A
  | .csr => bml_accumulate_offdiag_csr A
  | _ => .stop

/-- `bml_gershgorin_dense`, dense/bml_normalize_dense.c lines 88-114. -/
def bml_gershgorin_dense (A : Kind) : Out :=
  match A.prec with
  | .single_real => .run [some .dense] (some .single_real)
  | .double_real => .run [some .dense] (some .double_real)
  | .single_complex => .run [some .dense] (some .single_complex)
  | .double_complex => .run [some .dense] (some .double_complex)

/-- `bml_gershgorin_ellpack`, ellpack/bml_normalize_ellpack.c lines 83-107. -/
def bml_gershgorin_ellpack (A : Kind) : Out :=
  match A.prec with
  | .single_real => .run [some .ellpack] (some .single_real)
  | .double_real => .run [some .ellpack] (some .double_real)
  | .single_complex => .run [some .ellpack] (some .single_complex)
  | .double_complex => .run [some .ellpack] (some .double_complex)

/-- `bml_gershgorin_ellblock`, ellblock/bml_normalize_ellblock.c lines 83-107. -/
def bml_gershgorin_ellblock (A : Kind) : Out :=
  match A.prec with
  | .single_real => .run [some .ellblock] (some .single_real)
  | .double_real => .run [some .ellblock] (some .double_real)
  | .single_complex => .run [some .ellblock] (some .single_complex)
  | .double_complex => .run [some .ellblock] (some .double_complex)

/-- `bml_gershgorin_csr`, csr/bml_normalize_csr.c lines 83-107. -/
def bml_gershgorin_csr (A : Kind) : Out :=
  match A.prec with
  | .single_real => .run [some .csr] (some .single_real)
  | .double_real => .run [some .csr] (some .double_real)
  | .single_complex => .run [some .csr] (some .single_complex)
  | .double_complex => .run [some .csr] (some .double_complex)

/-- `bml_gershgorin_distributed2d`, distributed2d/bml_normalize_distributed2d.c lines 56-80. -/
def bml_gershgorin_distributed2d (A : Kind) : Out :=
  match A.prec with
  | .single_real => .run [some .distributed2d] (some .single_real)
  | .double_real => .run [some .distributed2d] (some .double_real)
  | .single_complex => .run [some .distributed2d] (some .single_complex)
  | .double_complex => .run [some .distributed2d] (some .double_complex)

/-- `bml_gershgorin`, bml_normalize.c lines 88-115. -/
def bml_gershgorin (A : Kind) : Out :=
  match A.fmt with
  | .dense => bml_gershgorin_dense A
  | .ellpack => bml_gershgorin_ellpack A
  | .ellblock => bml_gershgorin_ellblock A
  | .csr => bml_gershgorin_csr A
  | .distributed2d => bml_gershgorin_distributed2d A

/-- `bml_gershgorin_partial_dense`, dense/bml_normalize_dense.c lines 126-153. -/
def bml_gershgorin_partial_dense (A : Kind) : Out :=
  match A.prec with
  | .single_real => .run [some .dense] (some .single_real)
  | .double_real => .run [some .dense] (some .double_real)
  | .single_complex => .run [some .dense] (some .single_complex)
  | .double_complex => .run [some .dense] (some .double_complex)

/-- `bml_gershgorin_partial_ellpack`, ellpack/bml_normalize_ellpack.c lines 119-144. -/
def bml_gershgorin_partial_ellpack (A : Kind) : Out :=
  match A.prec with
  | .single_real => .run [some .ellpack] (some .single_real)
  | .double_real => .run [some .ellpack] (some .double_real)
  | .single_complex => .run [some .ellpack] (some .single_complex)
  | .double_complex => .run [some .ellpack] (some .double_complex)

/-- `bml_gershgorin_partial_csr`, csr/bml_normalize_csr.c lines 119-144. -/
def bml_gershgorin_partial_csr (A : Kind) : Out :=
  match A.prec with
  | .single_real => .run [some .csr] (some .single_real)
  | .double_real => .run [some .csr] (some .double_real)
  | .single_complex => .run [some .csr] (some .single_complex)
  | .double_complex => .run [some .csr] (some .double_complex)

/-- `bml_gershgorin_partial`, bml_normalize.c lines 127-150. -/
def bml_gershgorin_partial (A : Kind) : Out :=
  match A.fmt with
  | .dense => bml_gershgorin_partial_dense A
  | .ellpack => bml_gershgorin_partial_ellpack A
  | .csr => bml_gershgorin_partial_csr A
  | _ => .stop

/-- `bml_allGatherVParallel_dense`, dense/bml_parallel_dense.c lines 21-44. -/
def bml_allGatherVParallel_dense (A : Kind) : Out :=
  match A.prec with
  | .single_real => .run [some .dense] (some .single_real)
  | .double_real => .run [some .dense] (some .double_real)
  | .single_complex => .run [some .dense] (some .single_complex)
  | .double_complex => .run [some .dense] (some .double_complex)

/-- `bml_allGatherVParallel_ellpack`, ellpack/bml_parallel_ellpack.c lines 17-41. -/
def bml_allGatherVParallel_ellpack (A : Kind) : Out :=
  match A.prec with
  | .single_real => .run [some .ellpack] (some .single_real)
  | .double_real => .run [some .ellpack] (some .double_real)
  | .single_complex => .run [some .ellpack] (some .single_complex)
  | .double_complex => .run [some .ellpack] (some .double_complex)

/-- `bml_allGatherVParallel`, bml_parallel.c lines 174-192. -/
def bml_allGatherVParallel (A : Kind) : Out :=
  match A.fmt with
  | .dense => bml_allGatherVParallel_dense A
  | .ellpack => bml_allGatherVParallel_ellpack A
  | _ => .stop

/-- `bml_mpi_send_dense`, dense/bml_parallel_dense.c lines 76-101. -/
def bml_mpi_send_dense (A : Kind) : Out :=
  match A.prec with
  | .single_real => .run [some .dense] (some .single_real)
  | .double_real => .run [some .dense] (some .double_real)
  | .single_complex => .run [some .dense] (some .single_complex)
  | .double_complex => .run [some .dense] (some .double_complex)

/-- `bml_mpi_send_ellpack`, ellpack/bml_parallel_ellpack.c lines 73-98. -/
def bml_mpi_send_ellpack (A : Kind) : Out :=
  match A.prec with
  | .single_real => .run [some .ellpack] (some .single_real)
  | .double_real => .run [some .ellpack] (some .double_real)
  | .single_complex => .run [some .ellpack] (some .single_complex)
  | .double_complex => .run [some .ellpack] (some .double_complex)

/-- `bml_mpi_send_ellblock`, ellblock/bml_parallel_ellblock.c lines 12-37. -/
def bml_mpi_send_ellblock (A : Kind) : Out :=
  match A.prec with
  | .single_real => .run [some .ellblock] (some .single_real)
  | .double_real => .run [some .ellblock] (some .double_real)
  | .single_complex => .run [some .ellblock] (some .single_complex)
  | .double_complex => .run [some .ellblock] (some .double_complex)

/-- `bml_mpi_send_csr`, csr/bml_parallel_csr.c lines 12-37. -/
def bml_mpi_send_csr (A : Kind) : Out :=
  match A.prec with
  | .single_real => .run [some .csr] (some .single_real)
  | .double_real => .run [some .csr] (some .double_real)
  | .single_complex => .run [some .csr] (some .single_complex)
  | .double_complex => .run [some .csr] (some .double_complex)

/-- `bml_mpi_send`, bml_parallel.c lines 196-219. -/
def bml_mpi_send (A : Kind) : Out :=
  match A.fmt with
  | .dense => bml_mpi_send_dense A
  | .ellpack => bml_mpi_send_ellpack A
  | .ellblock => bml_mpi_send_ellblock A
  | .csr => bml_mpi_send_csr A
  | _ => .stop

/-- `bml_mpi_recv_dense`, dense/bml_parallel_dense.c lines 104-129. -/
def bml_mpi_recv_dense (A : Kind) : Out :=
  match A.prec with
  | .single_real => .run [some .dense] (some .single_real)
  | .double_real => .run [some .dense] (some .double_real)
  | .single_complex => .run [some .dense] (some .single_complex)
  | .double_complex => .run [some .dense] (some .double_complex)

/-- `bml_mpi_recv_ellpack`, ellpack/bml_parallel_ellpack.c lines 101-126. -/
def bml_mpi_recv_ellpack (A : Kind) : Out :=
  match A.prec with
  | .single_real => .run [some .ellpack] (some .single_real)
  | .double_real => .run [some .ellpack] (some .double_real)
  | .single_complex => .run [some .ellpack] (some .single_complex)
  | .double_complex => .run [some .ellpack] (some .double_complex)

/-- `bml_mpi_recv_ellblock`, ellblock/bml_parallel_ellblock.c lines 40-65. -/
def bml_mpi_recv_ellblock (A : Kind) : Out :=
  match A.prec with
  | .single_real => .run [some .ellblock] (some .single_real)
  | .double_real => .run [some .ellblock] (some .double_real)
  | .single_complex => .run [some .ellblock] (some .single_complex)
  | .double_complex => .run [some .ellblock] (some .double_complex)

/-- `bml_mpi_recv_csr`, csr/bml_parallel_csr.c lines 40-65. -/
def bml_mpi_recv_csr (A : Kind) : Out :=
  match A.prec with
  | .single_real => .run [some .csr] (some .single_real)
  | .double_real => .run [some .csr] (some .double_real)
  | .single_complex => .run [some .csr] (some .single_complex)
  | .double_complex => .run [some .csr] (some .double_complex)

/-- `bml_mpi_recv`, bml_parallel.c lines 222-245. -/
def bml_mpi_recv (A : Kind) : Out :=
  match A.fmt with
  | .dense => bml_mpi_recv_dense A
  | .ellpack => bml_mpi_recv_ellpack A
  | .ellblock => bml_mpi_recv_ellblock A
  | .csr => bml_mpi_recv_csr A
  | _ => .stop

/-- `bml_mpi_irecv_dense`, dense/bml_parallel_dense.c lines 132-157. -/
def bml_mpi_irecv_dense (A : Kind) : Out :=
  match A.prec with
  | .single_real => .run [some .dense] (some .single_real)
  | .double_real => .run [some .dense] (some .double_real)
  | .single_complex => .run [some .dense] (some .single_complex)
  | .double_complex => .run [some .dense] (some .double_complex)

/-- `bml_mpi_irecv_ellpack`, ellpack/bml_parallel_ellpack.c lines 129-154. -/
def bml_mpi_irecv_ellpack (A : Kind) : Out :=
  match A.prec with
  | .single_real => .run [some .ellpack] (some .single_real)
  | .double_real => .run [some .ellpack] (some .double_real)
  | .single_complex => .run [some .ellpack] (some .single_complex)
  | .double_complex => .run [some .ellpack] (some .double_complex)

/-- `bml_mpi_irecv_ellblock`, ellblock/bml_parallel_ellblock.c lines 68-93. -/
def bml_mpi_irecv_ellblock (A : Kind) : Out :=
  match A.prec with
  | .single_real => .run [some .ellblock] (some .single_real)
  | .double_real => .run [some .ellblock] (some .double_real)
  | .single_complex => .run [some .ellblock] (some .single_complex)
  | .double_complex => .run [some .ellblock] (some .double_complex)

/-- `bml_mpi_irecv_csr`, csr/bml_parallel_csr.c lines 68-93. -/
def bml_mpi_irecv_csr (A : Kind) : Out :=
  match A.prec with
  | .single_real => .run [some .csr] (some .single_real)
  | .double_real => .run [some .csr] (some .double_real)
  | .single_complex => .run [some .csr] (some .single_complex)
  | .double_complex => .run [some .csr] (some .double_complex)

/-- `bml_mpi_irecv`, bml_parallel.c lines 248-271. -/
def bml_mpi_irecv (A : Kind) : Out :=
  match A.fmt with
  | .dense => bml_mpi_irecv_dense A
  | .ellpack => bml_mpi_irecv_ellpack A
  | .ellblock => bml_mpi_irecv_ellblock A
  | .csr => bml_mpi_irecv_csr A
  | _ => .stop

/-- `bml_mpi_irecv_complete_dense`, dense/bml_parallel_dense.c lines 160-183. -/
def bml_mpi_irecv_complete_dense (A : Kind) : Out :=
  match A.prec with
  | .single_real => .run [some .dense] (some .single_real)
  | .double_real => .run [some .dense] (some .double_real)
  | .single_complex => .run [some .dense] (some .single_complex)
  | .double_complex => .run [some .dense] (some .double_complex)

/-- `bml_mpi_irecv_complete_ellpack`, ellpack/bml_parallel_ellpack.c lines 157-180. -/
def bml_mpi_irecv_complete_ellpack (A : Kind) : Out :=
  match A.prec with
  | .single_real => .run [some .ellpack] (some .single_real)
  | .double_real => .run [some .ellpack] (some .double_real)
  | .single_complex => .run [some .ellpack] (some .single_complex)
  | .double_complex => .run [some .ellpack] (some .double_complex)

/-- `bml_mpi_irecv_complete_ellblock`, ellblock/bml_parallel_ellblock.c lines 96-119. -/
def bml_mpi_irecv_complete_ellblock (A : Kind) : Out :=
  match A.prec with
  | .single_real => .run [some .ellblock] (some .single_real)
  | .double_real => .run [some .ellblock] (some .double_real)
  | .single_complex => .run [some .ellblock] (some .single_complex)
  | .double_complex => .run [some .ellblock] (some .double_complex)

/-- `bml_mpi_irecv_complete_csr`, csr/bml_parallel_csr.c lines 96-119. -/
def bml_mpi_irecv_complete_csr (A : Kind) : Out :=
  match A.prec with
  | .single_real => .run [some .csr] (some .single_real)
  | .double_real => .run [some .csr] (some .double_real)
  | .single_complex => .run [some .csr] (some .single_complex)
  | .double_complex => .run [some .csr] (some .double_complex)

/-- `bml_mpi_irecv_complete`, bml_parallel.c lines 274-295. -/
def bml_mpi_irecv_complete (A : Kind) : Out :=
  match A.fmt with
  | .dense => bml_mpi_irecv_complete_dense A
  | .ellpack => bml_mpi_irecv_complete_ellpack A
  | .ellblock => bml_mpi_irecv_complete_ellblock A
  | .csr => bml_mpi_irecv_complete_csr A
  | _ => .stop

/-- `bml_mpi_bcast_matrix_dense`, dense/bml_parallel_dense.c lines 217-242. -/
def bml_mpi_bcast_matrix_dense (A : Kind) : Out :=
  match A.prec with
  | .single_real => .run [some .dense] (some .single_real)
  | .double_real => .run [some .dense] (some .double_real)
  | .single_complex => .run [some .dense] (some .single_complex)
  | .double_complex => .run [some .dense] (some .double_complex)

/-- `bml_mpi_bcast_matrix_ellpack`, ellpack/bml_parallel_ellpack.c lines 216-228. -/
def bml_mpi_bcast_matrix_ellpack (A : Kind) : Out :=
  .run [some .ellpack] none

/-- `bml_mpi_bcast_matrix_ellblock`, ellblock/bml_parallel_ellblock.c lines 155-182. -/
def bml_mpi_bcast_matrix_ellblock (A : Kind) : Out :=
  match A.prec with
  | .single_real => .run [some .ellblock] (some .single_real)
  | .double_real => .run [some .ellblock] (some .double_real)
  | .single_complex => .run [some .ellblock] (some .single_complex)
  | .double_complex => .run [some .ellblock] (some .double_complex)

/-- `bml_mpi_bcast_matrix_csr`, csr/bml_parallel_csr.c lines 153-178. -/
def bml_mpi_bcast_matrix_csr (A : Kind) : Out :=
  match A.prec with
  | .single_real => .run [some .csr] (some .single_real)
  | .double_real => .run [some .csr] (some .double_real)
  | .single_complex => .run [some .csr] (some .single_complex)
  | .double_complex => .run [some .csr] (some .double_complex)

/-- `bml_mpi_bcast_matrix`, bml_parallel.c lines 331-354. -/
def bml_mpi_bcast_matrix (A : Kind) : Out :=
  match A.fmt with
  | .dense => bml_mpi_bcast_matrix_dense A
  | .ellpack => bml_mpi_bcast_matrix_ellpack A
  | .ellblock => bml_mpi_bcast_matrix_ellblock A
  | .csr => bml_mpi_bcast_matrix_csr A
  | _ => .stop

/-- `bml_scale_dense_new`, dense/bml_scale_dense.c lines 22-51. -/
def bml_scale_dense_new (A : Kind) : Out :=
  match A.prec with
  | .single_real => .run [some .dense] (some .single_real)
  | .double_real => .run [some .dense] (some .double_real)
  | .single_complex => .run [some .dense] (some .single_complex)
  | .double_complex => .run [some .dense] (some .double_complex)

/-- `bml_scale_ellpack_new`, ellpack/bml_scale_ellpack.c lines 18-45. -/
def bml_scale_ellpack_new (A : Kind) : Out :=
  match A.prec with
  | .single_real => .run [some .ellpack] (some .single_real)
  | .double_real => .run [some .ellpack] (some .double_real)
  | .single_complex => .run [some .ellpack] (some .single_complex)
  | .double_complex => .run [some .ellpack] (some .double_complex)

/-- `bml_scale_ellblock_new`, ellblock/bml_scale_ellblock.c lines 18-45. -/
def bml_scale_ellblock_new (A : Kind) : Out :=
  match A.prec with
  | .single_real => .run [some .ellblock] (some .single_real)
  | .double_real => .run [some .ellblock] (some .double_real)
  | .single_complex => .run [some .ellblock] (some .single_complex)
  | .double_complex => .run [some .ellblock] (some .double_complex)

/-- `bml_scale_csr_new`, csr/bml_scale_csr.c lines 18-45. -/
def bml_scale_csr_new (A : Kind) : Out :=
  match A.prec with
  | .single_real => .run [some .csr] (some .single_real)
  | .double_real => .run [some .csr] (some .double_real)
  | .single_complex => .run [some .csr] (some .single_complex)
  | .double_complex => .run [some .csr] (some .double_complex)

/-- `bml_scale_distributed2d_new`, distributed2d/bml_scale_distributed2d.c lines 19-33. -/
def bml_scale_distributed2d_new (A : Kind) : Out :=
  .run [some .distributed2d] none

/-- `bml_scale_new`, bml_scale.c lines 23-53. -/
def bml_scale_new (A : Kind) : Out :=
  match A.fmt with
  | .dense => bml_scale_dense_new A
  | .ellpack => bml_scale_ellpack_new A
  | .ellblock => bml_scale_ellblock_new A
  | .csr => bml_scale_csr_new A
  | .distributed2d => bml_scale_distributed2d_new A

/-- `bml_scale_dense`, dense/bml_scale_dense.c lines 61-88. -/
def bml_scale_dense (A B : Kind) : Out :=
  match A.prec with
  | .single_real => .run [some .dense, some .dense] (some .single_real)
  | .double_real => .run [some .dense, some .dense] (some .double_real)
  | .single_complex => .run [some .dense, some .dense] (some .single_complex)
  | .double_complex => .run [some .dense, some .dense] (some .double_complex)

/-- `bml_scale_ellpack`, ellpack/bml_scale_ellpack.c lines 55-80. -/
def bml_scale_ellpack (A B : Kind) : Out :=
  match A.prec with
  | .single_real => .run [some .ellpack, some .ellpack] (some .single_real)
  | .double_real => .run [some .ellpack, some .ellpack] (some .double_real)
  | .single_complex => .run [some .ellpack, some .ellpack] (some .single_complex)
  | .double_complex => .run [some .ellpack, some .ellpack] (some .double_complex)

/-- `bml_scale_ellblock`, ellblock/bml_scale_ellblock.c lines 55-80. -/
def bml_scale_ellblock (A B : Kind) : Out :=
  match A.prec with
  | .single_real => .run [some .ellblock, some .ellblock] (some .single_real)
  | .double_real => .run [some .ellblock, some .ellblock] (some .double_real)
  | .single_complex => .run [some .ellblock, some .ellblock] (some .single_complex)
  | .double_complex => .run [some .ellblock, some .ellblock] (some .double_complex)

/-- `bml_scale_csr`, csr/bml_scale_csr.c lines 55-80. -/
def bml_scale_csr (A B : Kind) : Out :=
  match A.prec with
  | .single_real => .run [some .csr, some .csr] (some .single_real)
  | .double_real => .run [some .csr, some .csr] (some .double_real)
  | .single_complex => .run [some .csr, some .csr] (some .single_complex)
  | .double_complex => .run [some .csr, some .csr] (some .double_complex)

/-- `bml_scale_distributed2d`, distributed2d/bml_scale_distributed2d.c lines 43-49. -/
def bml_scale_distributed2d (A B : Kind) : Out :=
  .run [some .distributed2d, some .distributed2d] none

/-- `bml_scale`, bml_scale.c lines 64-92. -/
def bml_scale (A B : Kind) : Out :=
  match A.fmt with
  | .dense => bml_scale_dense A B
  | .ellpack => bml_scale_ellpack A B
  | .ellblock => bml_scale_ellblock A B
  | .csr => bml_scale_csr A B
  | .distributed2d => bml_scale_distributed2d A B

/-- `bml_scale_inplace_dense`, dense/bml_scale_dense.c lines 91-115. -/
def bml_scale_inplace_dense (A : Kind) : Out :=
  match A.prec with
  | .single_real => .run [some .dense] (some .single_real)
  | .double_real => .run [some .dense] (some .double_real)
  | .single_complex => .run [some .dense] (some .single_complex)
  | .double_complex => .run [some .dense] (some .double_complex)

/-- `bml_scale_inplace_ellpack`, ellpack/bml_scale_ellpack.c lines 83-107. -/
def bml_scale_inplace_ellpack (A : Kind) : Out :=
  match A.prec with
  | .single_real => .run [some .ellpack] (some .single_real)
  | .double_real => .run [some .ellpack] (some .double_real)
  | .single_complex => .run [some .ellpack] (some .single_complex)
  | .double_complex => .run [some .ellpack] (some .double_complex)

/-- `bml_scale_inplace_ellblock`, ellblock/bml_scale_ellblock.c lines 83-107. -/
def bml_scale_inplace_ellblock (A : Kind) : Out :=
  match A.prec with
  | .single_real => .run [some .ellblock] (some .single_real)
  | .double_real => .run [some .ellblock] (some .double_real)
  | .single_complex => .run [some .ellblock] (some .single_complex)
  | .double_complex => .run [some .ellblock] (some .double_complex)

/-- `bml_scale_inplace_csr`, csr/bml_scale_csr.c lines 83-107. -/
def bml_scale_inplace_csr (A : Kind) : Out :=
  match A.prec with
  | .single_real => .run [some .csr] (some .single_real)
  | .double_real => .run [some .csr] (some .double_real)
  | .single_complex => .run [some .csr] (some .single_complex)
  | .double_complex => .run [some .csr] (some .double_complex)

/-- `bml_scale_inplace_distributed2d`, distributed2d/bml_scale_distributed2d.c lines 52-57. -/
def bml_scale_inplace_distributed2d (A : Kind) : Out :=
  .run [some .distributed2d] none

/-- `bml_scale_inplace`, bml_scale.c lines 102-129. -/
def bml_scale_inplace (A : Kind) : Out :=
  match A.fmt with
  | .dense => bml_scale_inplace_dense A
  | .ellpack => bml_scale_inplace_ellpack A
  | .ellblock => bml_scale_inplace_ellblock A
  | .csr => bml_scale_inplace_csr A
  | .distributed2d => bml_scale_inplace_distributed2d A

/-- `bml_set_element_dense`, dense/bml_setters_dense.c lines 7-33. -/
def bml_set_element_dense (A : Kind) : Out :=
  match A.prec with
  | .single_real => .run [some .dense] (some .single_real)
  | .double_real => .run [some .dense] (some .double_real)
  | .single_complex => .run [some .dense] (some .single_complex)
  | .double_complex => .run [some .dense] (some .double_complex)

/-- `bml_set_element_new_ellpack`, ellpack/bml_setters_ellpack.c lines 8-34. -/
def bml_set_element_new_ellpack (A : Kind) : Out :=
  match A.prec with
  | .single_real => .run [some .ellpack] (some .single_real)
  | .double_real => .run [some .ellpack] (some .double_real)
  | .single_complex => .run [some .ellpack] (some .single_complex)
  | .double_complex => .run [some .ellpack] (some .double_complex)

/-- `bml_set_element_new_ellblock`, ellblock/bml_setters_ellblock.c lines 8-34. -/
def bml_set_element_new_ellblock (A : Kind) : Out :=
  match A.prec with
  | .single_real => .run [some .ellblock] (some .single_real)
  | .double_real => .run [some .ellblock] (some .double_real)
  | .single_complex => .run [some .ellblock] (some .single_complex)
  | .double_complex => .run [some .ellblock] (some .double_complex)

/-- `bml_set_element_new_csr`, csr/bml_setters_csr.c lines 8-34. -/
def bml_set_element_new_csr (A : Kind) : Out :=
  match A.prec with
  | .single_real => .run [some .csr] (some .single_real)
  | .double_real => .run [some .csr] (some .double_real)
  | .single_complex => .run [some .csr] (some .single_complex)
  | .double_complex => .run [some .csr] (some .double_complex)

/-- `bml_set_element_new`, bml_setters.c lines 13-37. -/
def bml_set_element_new (A : Kind) : Out :=
  match A.fmt with
  | .dense => bml_set_element_dense A
  | .ellpack => bml_set_element_new_ellpack A
  | .ellblock => bml_set_element_new_ellblock A
  | .csr => bml_set_element_new_csr A
  | _ => .stop

/-- `bml_set_element_ellpack`, ellpack/bml_setters_ellpack.c lines 38-64. -/
def bml_set_element_ellpack (A : Kind) : Out :=
  match A.prec with
  | .single_real => .run [some .ellpack] (some .single_real)
  | .double_real => .run [some .ellpack] (some .double_real)
  | .single_complex => .run [some .ellpack] (some .single_complex)
  | .double_complex => .run [some .ellpack] (some .double_complex)

/-- `bml_set_element_ellblock`, ellblock/bml_setters_ellblock.c lines 38-64. -/
def bml_set_element_ellblock (A : Kind) : Out :=
  match A.prec with
  | .single_real => .run [some .ellblock] (some .single_real)
  | .double_real => .run [some .ellblock] (some .double_real)
  | .single_complex => .run [some .ellblock] (some .single_complex)
  | .double_complex => .run [some .ellblock] (some .double_complex)

/-- `bml_set_element_csr`, csr/bml_setters_csr.c lines 38-64. -/
def bml_set_element_csr (A : Kind) : Out :=
  match A.prec with
  | .single_real => .run [some .csr] (some .single_real)
  | .double_real => .run [some .csr] (some .double_real)
  | .single_complex => .run [some .csr] (some .single_complex)
  | .double_complex => .run [some .csr] (some .double_complex)

/-- `bml_set_element`, bml_setters.c lines 41-65. -/
def bml_set_element (A : Kind) : Out :=
  match A.fmt with
  | .dense => bml_set_element_dense A
  | .ellpack => bml_set_element_ellpack A
  | .ellblock => bml_set_element_ellblock A
  | .csr => bml_set_element_csr A
  | _ => .stop

/-- `bml_set_row_dense`, dense/bml_setters_dense.c lines 36-61. -/
def bml_set_row_dense (A : Kind) : Out :=
  match A.prec with
  | .single_real => .run [some .dense] (some .single_real)
  | .double_real => .run [some .dense] (some .double_real)
  | .single_complex => .run [some .dense] (some .single_complex)
  | .double_complex => .run [some .dense] (some .double_complex)

/-- `bml_set_row_ellpack`, ellpack/bml_setters_ellpack.c lines 67-93. -/
def bml_set_row_ellpack (A : Kind) : Out :=
  match A.prec with
  | .single_real => .run [some .ellpack] (some .single_real)
  | .double_real => .run [some .ellpack] (some .double_real)
  | .single_complex => .run [some .ellpack] (some .single_complex)
  | .double_complex => .run [some .ellpack] (some .double_complex)

/-- `bml_set_row_ellblock`, ellblock/bml_setters_ellblock.c lines 67-93. -/
def bml_set_row_ellblock (A : Kind) : Out :=
  match A.prec with
  | .single_real => .run [some .ellblock] (some .single_real)
  | .double_real => .run [some .ellblock] (some .double_real)
  | .single_complex => .run [some .ellblock] (some .single_complex)
  | .double_complex => .run [some .ellblock] (some .double_complex)

/-- `bml_set_row_csr`, csr/bml_setters_csr.c lines 67-93. -/
def bml_set_row_csr (A : Kind) : Out :=
  match A.prec with
  | .single_real => .run [some .csr] (some .single_real)
  | .double_real => .run [some .csr] (some .double_real)
  | .single_complex => .run [some .csr] (some .single_complex)
  | .double_complex => .run [some .csr] (some .double_complex)

/-- `bml_set_row_distributed2d`, distributed2d/bml_setters_distributed2d.c lines 45-71. -/
def bml_set_row_distributed2d (A : Kind) : Out :=
  match A.prec with
  | .single_real => .run [some .distributed2d] (some .single_real)
  | .double_real => .run [some .distributed2d] (some .double_real)
  | .single_complex => .run [some .distributed2d] (some .single_complex)
  | .double_complex => .run [some .distributed2d] (some .double_complex)

/-- `bml_set_row`, bml_setters.c lines 68-97. -/
def bml_set_row (A : Kind) : Out :=
  match A.fmt with
  | .dense => bml_set_row_dense A
  | .ellpack => bml_set_row_ellpack A
  | .ellblock => bml_set_row_ellblock A
  | .csr => bml_set_row_csr A
  | .distributed2d => bml_set_row_distributed2d A

/-- `bml_set_diagonal_dense`, dense/bml_setters_dense.c lines 69-93. -/
def bml_set_diagonal_dense (A : Kind) : Out :=
  match A.prec with
  | .single_real => .run [some .dense] (some .single_real)
  | .double_real => .run [some .dense] (some .double_real)
  | .single_complex => .run [some .dense] (some .single_complex)
  | .double_complex => .run [some .dense] (some .double_complex)

/-- `bml_set_diagonal_ellpack`, ellpack/bml_setters_ellpack.c lines 96-121. -/
def bml_set_diagonal_ellpack (A : Kind) : Out :=
  match A.prec with
  | .single_real => .run [some .ellpack] (some .single_real)
  | .double_real => .run [some .ellpack] (some .double_real)
  | .single_complex => .run [some .ellpack] (some .single_complex)
  | .double_complex => .run [some .ellpack] (some .double_complex)

/-- `bml_set_diagonal_ellblock`, ellblock/bml_setters_ellblock.c lines 96-121. -/
def bml_set_diagonal_ellblock (A : Kind) : Out :=
  match A.prec with
  | .single_real => .run [some .ellblock] (some .single_real)
  | .double_real => .run [some .ellblock] (some .double_real)
  | .single_complex => .run [some .ellblock] (some .single_complex)
  | .double_complex => .run [some .ellblock] (some .double_complex)

/-- `bml_set_diagonal_csr`, csr/bml_setters_csr.c lines 96-121. -/
def bml_set_diagonal_csr (A : Kind) : Out :=
  match A.prec with
  | .single_real => .run [some .csr] (some .single_real)
  | .double_real => .run [some .csr] (some .double_real)
  | .single_complex => .run [some .csr] (some .single_complex)
  | .double_complex => .run [some .csr] (some .double_complex)

/-- `bml_set_diagonal_distributed2d`, distributed2d/bml_setters_distributed2d.c lines 13-42. -/
def bml_set_diagonal_distributed2d (A : Kind) : Out :=
  match A.prec with
  | .single_real => .run [some .distributed2d] (some .single_real)
  | .double_real => .run [some .distributed2d] (some .double_real)
  | .single_complex => .run [some .distributed2d] (some .single_complex)
  | .double_complex => .run [some .distributed2d] (some .double_complex)

/-- `bml_set_diagonal`, bml_setters.c lines 100-128. -/
def bml_set_diagonal (A : Kind) : Out :=
  match A.fmt with
  | .dense => bml_set_diagonal_dense A
  | .ellpack => bml_set_diagonal_ellpack A
  | .ellblock => bml_set_diagonal_ellblock A
  | .csr => bml_set_diagonal_csr A
  | .distributed2d => bml_set_diagonal_distributed2d A

/-- `bml_matrix2submatrix_index_ellpack`, ellpack/bml_submatrix_ellpack.c lines 31-76. -/
def bml_matrix2submatrix_index_ellpack (A B : Kind) : Out :=
  match A.prec with
  | .single_real => .run [some .ellpack, some .ellpack] (some .single_real)
  | .double_real => .run [some .ellpack, some .ellpack] (some .double_real)
  | .single_complex => .run [some .ellpack, some .ellpack] (some .single_complex)
  | .double_complex => .run [some .ellpack, some .ellpack] (some .double_complex)

/-- `bml_matrix2submatrix_index`, bml_submatrix.c lines 24-55. -/
def bml_matrix2submatrix_index (A B : Kind) : Out :=
  match A.fmt with
  | .ellpack => bml_matrix2submatrix_index_ellpack A B
  | _ => .stop

/-- `bml_matrix2submatrix_index_graph_ellpack`, ellpack/bml_submatrix_ellpack.c lines 90-136. -/
def bml_matrix2submatrix_index_graph_ellpack (B : Kind) : Out :=
  match B.prec with
  | .single_real => .run [some .ellpack] (some .single_real)
  | .double_real => .run [some .ellpack] (some .single_real)
  | .single_complex => .run [some .ellpack] (some .double_complex)
  | .double_complex => .run [some .ellpack] (some .double_complex)

/-- `bml_matrix2submatrix_index_graph`, bml_submatrix.c lines 69-99. -/
def bml_matrix2submatrix_index_graph (B : Kind) : Out :=
  match B.fmt with
  | .ellpack => bml_matrix2submatrix_index_graph_ellpack B
  | _ => .stop

/-- `bml_group_matrix_ellpack`, ellpack/bml_submatrix_ellpack.c lines 280-311. -/
def bml_group_matrix_ellpack (A : Kind) : Out :=
  match A.prec with
  | .single_real => .run [some .ellpack] (some .single_real)
  | .double_real => .run [some .ellpack] (some .double_real)
  | .single_complex => .run [some .ellpack] (some .single_complex)
  | .double_complex => .run [some .ellpack] (some .double_complex)

/-- `bml_group_matrix`, bml_submatrix.c lines 111-137. -/
def bml_group_matrix (A : Kind) : Out :=
  match A.fmt with
  | .ellpack => bml_group_matrix_ellpack A
  | _ => .stop

/-- `bml_matrix2submatrix_ellpack`, ellpack/bml_submatrix_ellpack.c lines 148-178. -/
def bml_matrix2submatrix_ellpack (A B : Kind) : Out :=
  match A.prec with
  | .single_real => .run [some .ellpack, some .dense] (some .single_real)
  | .double_real => .run [some .ellpack, some .dense] (some .double_real)
  | .single_complex => .run [some .ellpack, some .dense] (some .single_complex)
  | .double_complex => .run [some .ellpack, some .dense] (some .double_complex)

/-- `bml_matrix2submatrix`, bml_submatrix.c lines 149-174. -/
def bml_matrix2submatrix (A B : Kind) : Out :=
  match A.fmt with
  | .ellpack => bml_matrix2submatrix_ellpack A B
  | _ => .stop

/-- `bml_submatrix2matrix_ellpack`, ellpack/bml_submatrix_ellpack.c lines 192-228. -/
def bml_submatrix2matrix_ellpack (A B : Kind) : Out :=
  match A.prec with
  | .single_real => .run [some .dense, some .ellpack] (some .single_real)
  | .double_real => .run [some .dense, some .ellpack] (some .double_real)
  | .single_complex => .run [some .dense, some .ellpack] (some .single_complex)
  | .double_complex => .run [some .dense, some .ellpack] (some .double_complex)

/-- `bml_submatrix2matrix`, bml_submatrix.c lines 187-216. -/
def bml_submatrix2matrix (A B : Kind) : Out :=
  match B.fmt with
  | .ellpack => bml_submatrix2matrix_ellpack A B
  | _ => .stop

/-- `bml_adjacency_ellpack`, ellpack/bml_adjacency_ellpack.c lines 9-27. -/
def bml_adjacency_ellpack (A : Kind) : Out :=
  .run [none] none

/-- `bml_adjacency`, bml_submatrix.c lines 228-254. -/
def bml_adjacency (A : Kind) : Out :=
  match A.fmt with
  | .ellpack => bml_adjacency_ellpack A
  | _ => .stop

/-- `bml_adjacency_group_ellpack`, ellpack/bml_submatrix_ellpack.c lines 432-512. -/
def bml_adjacency_group_ellpack (A : Kind) : Out :=
  .run [some .ellpack] none

/-- `bml_adjacency_group`, bml_submatrix.c lines 268-299. -/
def bml_adjacency_group (A : Kind) : Out :=
  match A.fmt with
  | .ellpack => bml_adjacency_group_ellpack A
  | _ => .stop

/-- `bml_extract_submatrix_dense`, dense/bml_submatrix_dense.c lines 21-53. -/
def bml_extract_submatrix_dense (A : Kind) : Out :=
  match A.prec with
  | .single_real => .run [some .dense] (some .single_real)
  | .double_real => .run [some .dense] (some .double_real)
  | .single_complex => .run [some .dense] (some .single_complex)
  | .double_complex => .run [some .dense] (some .double_complex)

/-- `bml_extract_submatrix_ellpack`, ellpack/bml_submatrix_ellpack.c lines 525-557. -/
def bml_extract_submatrix_ellpack (A : Kind) : Out :=
  match A.prec with
  | .single_real => .run [some .ellpack] (some .single_real)
  | .double_real => .run [some .ellpack] (some .double_real)
  | .single_complex => .run [some .ellpack] (some .single_complex)
  | .double_complex => .run [some .ellpack] (some .double_complex)

/-- `bml_extract_submatrix_ellblock`, ellblock/bml_submatrix_ellblock.c lines 23-57. -/
def bml_extract_submatrix_ellblock (A : Kind) : Out :=
  match A.prec with
  | .single_real => .run [some .ellblock] (some .single_real)
  | .double_real => .run [some .ellblock] (some .double_real)
  | .single_complex => .run [some .ellblock] (some .single_complex)
  | .double_complex => .run [some .ellblock] (some .double_complex)

/-- `bml_extract_submatrix_csr`, csr/bml_submatrix_csr.c lines 21-53. -/
def bml_extract_submatrix_csr (A : Kind) : Out :=
  match A.prec with
  | .single_real => .run [some .csr] (some .single_real)
  | .double_real => .run [some .csr] (some .double_real)
  | .single_complex => .run [some .csr] (some .single_complex)
  | .double_complex => .run [some .csr] (some .double_complex)

/-- `bml_extract_submatrix`, bml_submatrix.c lines 302-331. -/
def bml_extract_submatrix (A : Kind) : Out :=
  match A.fmt with
  | .dense => bml_extract_submatrix_dense A
  | .ellpack => bml_extract_submatrix_ellpack A
  | .ellblock => bml_extract_submatrix_ellblock A
  | .csr => bml_extract_submatrix_csr A
  | _ => .stop

/-- `bml_assign_submatrix_dense`, dense/bml_submatrix_dense.c lines 56-82. -/
def bml_assign_submatrix_dense (A B : Kind) : Out :=
  match A.prec with
  | .single_real => .run [some .dense, some .dense] (some .single_real)
  | .double_real => .run [some .dense, some .dense] (some .double_real)
  | .single_complex => .run [some .dense, some .dense] (some .single_complex)
  | .double_complex => .run [some .dense, some .dense] (some .double_complex)

/-- `bml_assign_submatrix_ellpack`, ellpack/bml_submatrix_ellpack.c lines 560-586. -/
def bml_assign_submatrix_ellpack (A B : Kind) : Out :=
  match A.prec with
  | .single_real => .run [some .ellpack, some .ellpack] (some .single_real)
  | .double_real => .run [some .ellpack, some .ellpack] (some .double_real)
  | .single_complex => .run [some .ellpack, some .ellpack] (some .single_complex)
  | .double_complex => .run [some .ellpack, some .ellpack] (some .double_complex)

/-- `bml_assign_submatrix_ellblock`, ellblock/bml_submatrix_ellblock.c lines 60-86. -/
def bml_assign_submatrix_ellblock (A B : Kind) : Out :=
  match A.prec with
  | .single_real => .run [some .ellblock, some .ellblock] (some .single_real)
  | .double_real => .run [some .ellblock, some .ellblock] (some .double_real)
  | .single_complex => .run [some .ellblock, some .ellblock] (some .single_complex)
  | .double_complex => .run [some .ellblock, some .ellblock] (some .double_complex)

/-- `bml_assign_submatrix_csr`, csr/bml_submatrix_csr.c lines 56-82. -/
def bml_assign_submatrix_csr (A B : Kind) : Out :=
  match A.prec with
  | .single_real => .run [some .csr, some .csr] (some .single_real)
  | .double_real => .run [some .csr, some .csr] (some .double_real)
  | .single_complex => .run [some .csr, some .csr] (some .single_complex)
  | .double_complex => .run [some .csr, some .csr] (some .double_complex)

/-- `bml_assign_submatrix`, bml_submatrix.c lines 334-359. -/
def bml_assign_submatrix (A B : Kind) : Out :=
  match A.fmt with
  | .dense => bml_assign_submatrix_dense A B
  | .ellpack => bml_assign_submatrix_ellpack A B
  | .ellblock => bml_assign_submatrix_ellblock A B
  | .csr => bml_assign_submatrix_csr A B
  | _ => .stop

/-- `bml_threshold_new_dense`, dense/bml_threshold_dense.c lines 23-48. -/
def bml_threshold_new_dense (A : Kind) : Out :=
  match A.prec with
  | .single_real => .run [some .dense] (some .single_real)
  | .double_real => .run [some .dense] (some .double_real)
  | .single_complex => .run [some .dense] (some .single_complex)
  | .double_complex => .run [some .dense] (some .double_complex)

/-- `bml_threshold_new_ellpack`, ellpack/bml_threshold_ellpack.c lines 19-44. -/
def bml_threshold_new_ellpack (A : Kind) : Out :=
  match A.prec with
  | .single_real => .run [some .ellpack] (some .single_real)
  | .double_real => .run [some .ellpack] (some .double_real)
  | .single_complex => .run [some .ellpack] (some .single_complex)
  | .double_complex => .run [some .ellpack] (some .double_complex)

/-- `bml_threshold_new_ellblock`, ellblock/bml_threshold_ellblock.c lines 19-44. -/
def bml_threshold_new_ellblock (A : Kind) : Out :=
  match A.prec with
  | .single_real => .run [some .ellblock] (some .single_real)
  | .double_real => .run [some .ellblock] (some .double_real)
  | .single_complex => .run [some .ellblock] (some .single_complex)
  | .double_complex => .run [some .ellblock] (some .double_complex)

/-- `bml_threshold_new_csr`, csr/bml_threshold_csr.c lines 19-44. -/
def bml_threshold_new_csr (A : Kind) : Out :=
  match A.prec with
  | .single_real => .run [some .csr] (some .single_real)
  | .double_real => .run [some .csr] (some .double_real)
  | .single_complex => .run [some .csr] (some .single_complex)
  | .double_complex => .run [some .csr] (some .double_complex)

/-- `bml_threshold_new_distributed2d`, distributed2d/bml_threshold_distributed2d.c lines 20-35. -/
def bml_threshold_new_distributed2d (A : Kind) : Out :=
  .run [some .distributed2d] none

/-- `bml_threshold_new`, bml_threshold.c lines 23-51. -/
def bml_threshold_new (A : Kind) : Out :=
  match A.fmt with
  | .dense => bml_threshold_new_dense A
  | .ellpack => bml_threshold_new_ellpack A
  | .ellblock => bml_threshold_new_ellblock A
  | .csr => bml_threshold_new_csr A
  | .distributed2d => bml_threshold_new_distributed2d A

/-- `bml_threshold_dense`, dense/bml_threshold_dense.c lines 59-83. -/
def bml_threshold_dense (A : Kind) : Out :=
  match A.prec with
  | .single_real => .run [some .dense] (some .single_real)
  | .double_real => .run [some .dense] (some .double_real)
  | .single_complex => .run [some .dense] (some .single_complex)
  | .double_complex => .run [some .dense] (some .double_complex)

/-- `bml_threshold_ellpack`, ellpack/bml_threshold_ellpack.c lines 55-80. -/
def bml_threshold_ellpack (A : Kind) : Out :=
  match A.prec with
  | .single_real => .run [some .ellpack] (some .single_real)
  | .double_real => .run [some .ellpack] (some .double_real)
  | .single_complex => .run [some .ellpack] (some .single_complex)
  | .double_complex => .run [some .ellpack] (some .double_complex)

/-- `bml_threshold_ellblock`, ellblock/bml_threshold_ellblock.c lines 55-80. -/
def bml_threshold_ellblock (A : Kind) : Out :=
  match A.prec with
  | .single_real => .run [some .ellblock] (some .single_real)
  | .double_real => .run [some .ellblock] (some .double_real)
  | .single_complex => .run [some .ellblock] (some .single_complex)
  | .double_complex => .run [some .ellblock] (some .double_complex)

/-- `bml_threshold_csr`, csr/bml_threshold_csr.c lines 55-80. -/
def bml_threshold_csr (A : Kind) : Out :=
  match A.prec with
  | .single_real => .run [some .csr] (some .single_real)
  | .double_real => .run [some .csr] (some .double_real)
  | .single_complex => .run [some .csr] (some .single_complex)
  | .double_complex => .run [some .csr] (some .double_complex)

/-- `bml_threshold`, bml_threshold.c lines 62-89. -/
def bml_threshold (A : Kind) : Out :=
  match A.fmt with
  | .dense => bml_threshold_dense A
  | .ellpack => bml_threshold_ellpack A
  | .ellblock => bml_threshold_ellblock A
  | .csr => bml_threshold_csr A
  | .distributed2d => .run [some .distributed2d] none

/-- `bml_trace_dense`, dense/bml_trace_dense.c lines 22-46. -/
def bml_trace_dense (A : Kind) : Out :=
  match A.prec with
  | .single_real => .run [some .dense] (some .single_real)
  | .double_real => .run [some .dense] (some .double_real)
  | .single_complex => .run [some .dense] (some .single_complex)
  | .double_complex => .run [some .dense] (some .double_complex)

/-- `bml_trace_ellpack`, ellpack/bml_trace_ellpack.c lines 18-44. -/
def bml_trace_ellpack (A : Kind) : Out :=
  match A.prec with
  | .single_real => .run [some .ellpack] (some .single_real)
  | .double_real => .run [some .ellpack] (some .double_real)
  | .single_complex => .run [some .ellpack] (some .single_complex)
  | .double_complex => .run [some .ellpack] (some .double_complex)

/-- `bml_trace_ellblock`, ellblock/bml_trace_ellblock.c lines 18-44. -/
def bml_trace_ellblock (A : Kind) : Out :=
  match A.prec with
  | .single_real => .run [some .ellblock] (some .single_real)
  | .double_real => .run [some .ellblock] (some .double_real)
  | .single_complex => .run [some .ellblock] (some .single_complex)
  | .double_complex => .run [some .ellblock] (some .double_complex)

/-- `bml_trace_csr`, csr/bml_trace_csr.c lines 18-44. -/
def bml_trace_csr (A : Kind) : Out :=
  match A.prec with
  | .single_real => .run [some .csr] (some .single_real)
  | .double_real => .run [some .csr] (some .double_real)
  | .single_complex => .run [some .csr] (some .single_complex)
  | .double_complex => .run [some .csr] (some .double_complex)

/-- `bml_trace_distributed2d`, distributed2d/bml_trace_distributed2d.c lines 19-30. -/
def bml_trace_distributed2d (A : Kind) : Out :=
  .run [some .distributed2d] none

/-- `bml_trace`, bml_trace.c lines 21-49. -/
def bml_trace (A : Kind) : Out :=
  match A.fmt with
  | .dense => bml_trace_dense A
  | .ellpack => bml_trace_ellpack A
  | .ellblock => bml_trace_ellblock A
  | .csr => bml_trace_csr A
  | .distributed2d => bml_trace_distributed2d A

/-- `bml_trace_mult_dense`, dense/bml_trace_dense.c lines 58-83. -/
def bml_trace_mult_dense (A B : Kind) : Out :=
  match A.prec with
  | .single_real => .run [some .dense, some .dense] (some .single_real)
  | .double_real => .run [some .dense, some .dense] (some .double_real)
  | .single_complex => .run [some .dense, some .dense] (some .single_complex)
  | .double_complex => .run [some .dense, some .dense] (some .double_complex)

/-- `bml_trace_mult_ellpack`, ellpack/bml_trace_ellpack.c lines 56-83. -/
def bml_trace_mult_ellpack (A B : Kind) : Out :=
  match A.prec with
  | .single_real => .run [some .ellpack, some .ellpack] (some .single_real)
  | .double_real => .run [some .ellpack, some .ellpack] (some .double_real)
  | .single_complex => .run [some .ellpack, some .ellpack] (some .single_complex)
  | .double_complex => .run [some .ellpack, some .ellpack] (some .double_complex)

/-- `bml_trace_mult_ellblock`, ellblock/bml_trace_ellblock.c lines 56-83. -/
def bml_trace_mult_ellblock (A B : Kind) : Out :=
  match A.prec with
  | .single_real => .run [some .ellblock, some .ellblock] (some .single_real)
  | .double_real => .run [some .ellblock, some .ellblock] (some .double_real)
  | .single_complex => .run [some .ellblock, some .ellblock] (some .single_complex)
  | .double_complex => .run [some .ellblock, some .ellblock] (some .double_complex)

/-- `bml_trace_mult_csr`, csr/bml_trace_csr.c lines 56-83. -/
def bml_trace_mult_csr (A B : Kind) : Out :=
  match A.prec with
  | .single_real => .run [some .csr, some .csr] (some .single_real)
  | .double_real => .run [some .csr, some .csr] (some .double_real)
  | .single_complex => .run [some .csr, some .csr] (some .single_complex)
  | .double_complex => .run [some .csr, some .csr] (some .double_complex)

/-- `bml_trace_mult_distributed2d`, distributed2d/bml_trace_distributed2d.c lines 42-51. -/
def bml_trace_mult_distributed2d (A B : Kind) : Out :=
  .run [some .distributed2d, some .distributed2d] none

/-- `bml_trace_mult`, bml_trace.c lines 60-88. -/
def bml_trace_mult (A B : Kind) : Out :=
  match A.fmt with
  | .dense => bml_trace_mult_dense A B
  | .ellpack => bml_trace_mult_ellpack A B
  | .ellblock => bml_trace_mult_ellblock A B
  | .csr => bml_trace_mult_csr A B
  | .distributed2d => bml_trace_mult_distributed2d A B

/-- `bml_transpose_new_dense`, dense/bml_transpose_dense.c lines 22-46. -/
def bml_transpose_new_dense (A : Kind) : Out :=
  match A.prec with
  | .single_real => .run [some .dense] (some .single_real)
  | .double_real => .run [some .dense] (some .double_real)
  | .single_complex => .run [some .dense] (some .single_complex)
  | .double_complex => .run [some .dense] (some .double_complex)

/-- `bml_transpose_new_ellpack`, ellpack/bml_transpose_ellpack.c lines 18-44. -/
def bml_transpose_new_ellpack (A : Kind) : Out :=
  match A.prec with
  | .single_real => .run [some .ellpack] (some .single_real)
  | .double_real => .run [some .ellpack] (some .double_real)
  | .single_complex => .run [some .ellpack] (some .single_complex)
  | .double_complex => .run [some .ellpack] (some .double_complex)

/-- `bml_transpose_new_ellblock`, ellblock/bml_transpose_ellblock.c lines 18-44. -/
def bml_transpose_new_ellblock (A : Kind) : Out :=
  match A.prec with
  | .single_real => .run [some .ellblock] (some .single_real)
  | .double_real => .run [some .ellblock] (some .double_real)
  | .single_complex => .run [some .ellblock] (some .single_complex)
  | .double_complex => .run [some .ellblock] (some .double_complex)

/-- `bml_transpose_new_csr`, csr/bml_transpose_csr.c lines 18-44. -/
def bml_transpose_new_csr (A : Kind) : Out :=
  match A.prec with
  | .single_real => .run [some .csr] (some .single_real)
  | .double_real => .run [some .csr] (some .double_real)
  | .single_complex => .run [some .csr] (some .single_complex)
  | .double_complex => .run [some .csr] (some .double_complex)

/-- `bml_transpose_new_distributed2d`, distributed2d/bml_transpose_distributed2d.c lines 22-42. -/
def bml_transpose_new_distributed2d (A : Kind) : Out :=
  .run [some .distributed2d] none

/-- `bml_transpose_new`, bml_transpose.c lines 22-49. -/
def bml_transpose_new (A : Kind) : Out :=
  match A.fmt with
  | .dense => bml_transpose_new_dense A
  | .ellpack => bml_transpose_new_ellpack A
  | .ellblock => bml_transpose_new_ellblock A
  | .csr => bml_transpose_new_csr A
  | .distributed2d => bml_transpose_new_distributed2d A

/-- `bml_transpose_dense`, dense/bml_transpose_dense.c lines 56-79. -/
def bml_transpose_dense (A : Kind) : Out :=
  match A.prec with
  | .single_real => .run [some .dense] (some .single_real)
  | .double_real => .run [some .dense] (some .double_real)
  | .single_complex => .run [some .dense] (some .single_complex)
  | .double_complex => .run [some .dense] (some .double_complex)

/-- `bml_transpose_ellpack`, ellpack/bml_transpose_ellpack.c lines 54-78. -/
def bml_transpose_ellpack (A : Kind) : Out :=
  match A.prec with
  | .single_real => .run [some .ellpack] (some .single_real)
  | .double_real => .run [some .ellpack] (some .double_real)
  | .single_complex => .run [some .ellpack] (some .single_complex)
  | .double_complex => .run [some .ellpack] (some .double_complex)

/-- `bml_transpose_ellblock`, ellblock/bml_transpose_ellblock.c lines 54-78. -/
def bml_transpose_ellblock (A : Kind) : Out :=
  match A.prec with
  | .single_real => .run [some .ellblock] (some .single_real)
  | .double_real => .run [some .ellblock] (some .double_real)
  | .single_complex => .run [some .ellblock] (some .single_complex)
  | .double_complex => .run [some .ellblock] (some .double_complex)

/-- `bml_transpose_csr`, csr/bml_transpose_csr.c lines 54-78. -/
def bml_transpose_csr (A : Kind) : Out :=
  match A.prec with
  | .single_real => .run [some .csr] (some .single_real)
  | .double_real => .run [some .csr] (some .double_real)
  | .single_complex => .run [some .csr] (some .single_complex)
  | .double_complex => .run [some .csr] (some .double_complex)

/-- `bml_transpose_distributed2d`, distributed2d/bml_transpose_distributed2d.c lines 52-71. -/
def bml_transpose_distributed2d (A : Kind) : Out :=
  .run [some .distributed2d] none

/-- `bml_transpose`, bml_transpose.c lines 59-85. -/
def bml_transpose (A : Kind) : Out :=
  match A.fmt with
  | .dense => bml_transpose_dense A
  | .ellpack => bml_transpose_ellpack A
  | .ellblock => bml_transpose_ellblock A
  | .csr => bml_transpose_csr A
  | .distributed2d => bml_transpose_distributed2d A

/-- `bml_transpose_triangle_dense`, dense/bml_transpose_triangle_dense.c lines 23-47. -/
def bml_transpose_triangle_dense (A : Kind) : Out :=
  match A.prec with
  | .single_real => .run [some .dense] (some .single_real)
  | .double_real => .run [some .dense] (some .double_real)
  | .single_complex => .run [some .dense] (some .single_complex)
  | .double_complex => .run [some .dense] (some .double_complex)

/-- `bml_transpose_triangle`, bml_transpose_triangle.c lines 16-34. -/
def bml_transpose_triangle (A : Kind) : Out :=
  match A.fmt with
  | .dense => bml_transpose_triangle_dense A
  | _ => .stop

/-- `bml_read_bml_matrix_dense`, dense/bml_utilities_dense.c lines 7-31. -/
def bml_read_bml_matrix_dense (A : Kind) : Out :=
  match A.prec with
  | .single_real => .run [some .dense] (some .single_real)
  | .double_real => .run [some .dense] (some .double_real)
  | .single_complex => .run [some .dense] (some .single_complex)
  | .double_complex => .run [some .dense] (some .double_complex)

/-- `bml_read_bml_matrix_ellpack`, ellpack/bml_utilities_ellpack.c lines 7-31. -/
def bml_read_bml_matrix_ellpack (A : Kind) : Out :=
  match A.prec with
  | .single_real => .run [some .ellpack] (some .single_real)
  | .double_real => .run [some .ellpack] (some .double_real)
  | .single_complex => .run [some .ellpack] (some .single_complex)
  | .double_complex => .run [some .ellpack] (some .double_complex)

/-- `bml_read_bml_matrix_ellblock`, ellblock/bml_utilities_ellblock.c lines 7-31. -/
def bml_read_bml_matrix_ellblock (A : Kind) : Out :=
  match A.prec with
  | .single_real => .run [some .ellblock] (some .single_real)
  | .double_real => .run [some .ellblock] (some .double_real)
  | .single_complex => .run [some .ellblock] (some .single_complex)
  | .double_complex => .run [some .ellblock] (some .double_complex)

/-- `bml_read_bml_matrix_csr`, csr/bml_utilities_csr.c lines 7-31. -/
def bml_read_bml_matrix_csr (A : Kind) : Out :=
  match A.prec with
  | .single_real => .run [some .csr] (some .single_real)
  | .double_real => .run [some .csr] (some .double_real)
  | .single_complex => .run [some .csr] (some .single_complex)
  | .double_complex => .run [some .csr] (some .double_complex)

/-- `bml_read_bml_matrix_distributed2d`, distributed2d/bml_utilities_distributed2d.c lines 17-66. -/
def bml_read_bml_matrix_distributed2d (A : Kind) : Out :=
  .run [some .distributed2d] none

/-- `bml_read_bml_matrix`, bml_utilities.c lines 496-523. -/
def bml_read_bml_matrix (A : Kind) : Out :=
  match A.fmt with
  | .dense => bml_read_bml_matrix_dense A
  | .ellpack => bml_read_bml_matrix_ellpack A
  | .ellblock => bml_read_bml_matrix_ellblock A
  | .csr => bml_read_bml_matrix_csr A
  | .distributed2d => bml_read_bml_matrix_distributed2d A

/-- `bml_write_bml_matrix_dense`, dense/bml_utilities_dense.c lines 34-58. -/
def bml_write_bml_matrix_dense (A : Kind) : Out :=
  match A.prec with
  | .single_real => .run [some .dense] (some .single_real)
  | .double_real => .run [some .dense] (some .double_real)
  | .single_complex => .run [some .dense] (some .single_complex)
  | .double_complex => .run [some .dense] (some .double_complex)

/-- `bml_write_bml_matrix_ellpack`, ellpack/bml_utilities_ellpack.c lines 34-58. -/
def bml_write_bml_matrix_ellpack (A : Kind) : Out :=
  match A.prec with
  | .single_real => .run [some .ellpack] (some .single_real)
  | .double_real => .run [some .ellpack] (some .double_real)
  | .single_complex => .run [some .ellpack] (some .single_complex)
  | .double_complex => .run [some .ellpack] (some .double_complex)

/-- `bml_write_bml_matrix_ellblock`, ellblock/bml_utilities_ellblock.c lines 34-58. -/
def bml_write_bml_matrix_ellblock (A : Kind) : Out :=
  match A.prec with
  | .single_real => .run [some .ellblock] (some .single_real)
  | .double_real => .run [some .ellblock] (some .double_real)
  | .single_complex => .run [some .ellblock] (some .single_complex)
  | .double_complex => .run [some .ellblock] (some .double_complex)

/-- `bml_write_bml_matrix_csr`, csr/bml_utilities_csr.c lines 34-58. -/
def bml_write_bml_matrix_csr (A : Kind) : Out :=
  match A.prec with
  | .single_real => .run [some .csr] (some .single_real)
  | .double_real => .run [some .csr] (some .double_real)
  | .single_complex => .run [some .csr] (some .single_complex)
  | .double_complex => .run [some .csr] (some .double_complex)

/-- `bml_write_bml_matrix_distributed2d`, distributed2d/bml_utilities_distributed2d.c lines 69-136. -/
def bml_write_bml_matrix_distributed2d (A : Kind) : Out :=
  .run [some .distributed2d] none

/-- `bml_write_bml_matrix`, bml_utilities.c lines 531-558. -/
def bml_write_bml_matrix (A : Kind) : Out :=
  match A.fmt with
  | .dense => bml_write_bml_matrix_dense A
  | .ellpack => bml_write_bml_matrix_ellpack A
  | .ellblock => bml_write_bml_matrix_ellblock A
  | .csr => bml_write_bml_matrix_csr A
  | .distributed2d => bml_write_bml_matrix_distributed2d A

/-- The functions above. -/
inductive Fn
  | add | add_norm | add_identity | scale_add_identity | adjungate_triangle | clear
  | update_domain | copy_new | copy | reorder | save_domain | restore_domain | diagonalize
  | element_multiply_AB | get_element_single_real | get_element_double_real
  | get_element_single_complex | get_element_double_complex | export_to_dense | get_element
  | get_row | get_diagonal | get_precision | get_N | get_M | get_NB | get_row_bandwidth
  | get_bandwidth | get_distribution_mode | get_sparsity | get_local_matrix | get_data_ptr
  | inverse | multiply | multiply_x2 | multiply_AB | multiply_adjust_AB | sum_squares
  | sum_squares_submatrix | sum_squares2 | sum_AB | fnorm | fnorm2 | normalize
  | accumulate_offdiag | gershgorin | gershgorin_partial | allGatherVParallel | mpi_send
  | mpi_recv | mpi_irecv | mpi_irecv_complete | mpi_bcast_matrix | scale_new | scale
  | scale_inplace | set_element_new | set_element | set_row | set_diagonal
  | matrix2submatrix_index | matrix2submatrix_index_graph | group_matrix | matrix2submatrix
  | submatrix2matrix | adjacency | adjacency_group | extract_submatrix | assign_submatrix
  | threshold_new | threshold | trace | trace_mult | transpose_new | transpose
  | transpose_triangle | read_bml_matrix | write_bml_matrix
  deriving DecidableEq, Repr

/-- The call of a function with the matrix operands `x 0`, `x 1`, … -/
def call : Fn → (Nat → Kind) → Out
  | .add, x => bml_add (x 0) (x 1)
  | .add_norm, x => bml_add_norm (x 0) (x 1)
  | .add_identity, x => bml_add_identity (x 0)
  | .scale_add_identity, x => bml_scale_add_identity (x 0)
  | .adjungate_triangle, x => bml_adjungate_triangle (x 0)
  | .clear, x => bml_clear (x 0)
  | .update_domain, x => bml_update_domain (x 0)
  | .copy_new, x => bml_copy_new (x 0)
  | .copy, x => bml_copy (x 0) (x 1)
  | .reorder, x => bml_reorder (x 0)
  | .save_domain, x => bml_save_domain (x 0)
  | .restore_domain, x => bml_restore_domain (x 0)
  | .diagonalize, x => bml_diagonalize (x 0) (x 1)
  | .element_multiply_AB, x => bml_element_multiply_AB (x 0) (x 1) (x 2)
  | .get_element_single_real, x => bml_get_element_single_real (x 0)
  | .get_element_double_real, x => bml_get_element_double_real (x 0)
  | .get_element_single_complex, x => bml_get_element_single_complex (x 0)
  | .get_element_double_complex, x => bml_get_element_double_complex (x 0)
  | .export_to_dense, x => bml_export_to_dense (x 0)
  | .get_element, x => bml_get_element (x 0)
  | .get_row, x => bml_get_row (x 0)
  | .get_diagonal, x => bml_get_diagonal (x 0)
  | .get_precision, x => bml_get_precision (x 0)
  | .get_N, x => bml_get_N (x 0)
  | .get_M, x => bml_get_M (x 0)
  | .get_NB, x => bml_get_NB (x 0)
  | .get_row_bandwidth, x => bml_get_row_bandwidth (x 0)
  | .get_bandwidth, x => bml_get_bandwidth (x 0)
  | .get_distribution_mode, x => bml_get_distribution_mode (x 0)
  | .get_sparsity, x => bml_get_sparsity (x 0)
  | .get_local_matrix, x => bml_get_local_matrix (x 0)
  | .get_data_ptr, x => bml_get_data_ptr (x 0)
  | .inverse, x => bml_inverse (x 0)
  | .multiply, x => bml_multiply (x 0) (x 1) (x 2)
  | .multiply_x2, x => bml_multiply_x2 (x 0) (x 1)
  | .multiply_AB, x => bml_multiply_AB (x 0) (x 1) (x 2)
  | .multiply_adjust_AB, x => bml_multiply_adjust_AB (x 0) (x 1) (x 2)
  | .sum_squares, x => bml_sum_squares (x 0)
  | .sum_squares_submatrix, x => bml_sum_squares_submatrix (x 0)
  | .sum_squares2, x => bml_sum_squares2 (x 0) (x 1)
  | .sum_AB, x => bml_sum_AB (x 0) (x 1)
  | .fnorm, x => bml_fnorm (x 0)
  | .fnorm2, x => bml_fnorm2 (x 0) (x 1)
  | .normalize, x => bml_normalize (x 0)
  | .accumulate_offdiag, x => bml_accumulate_offdiag (x 0)
  | .gershgorin, x => bml_gershgorin (x 0)
  | .gershgorin_partial, x => bml_gershgorin_partial (x 0)
  | .allGatherVParallel, x => bml_allGatherVParallel (x 0)
  | .mpi_send, x => bml_mpi_send (x 0)
  | .mpi_recv, x => bml_mpi_recv (x 0)
  | .mpi_irecv, x => bml_mpi_irecv (x 0)
  | .mpi_irecv_complete, x => bml_mpi_irecv_complete (x 0)
  | .mpi_bcast_matrix, x => bml_mpi_bcast_matrix (x 0)
  | .scale_new, x => bml_scale_new (x 0)
  | .scale, x => bml_scale (x 0) (x 1)
  | .scale_inplace, x => bml_scale_inplace (x 0)
  | .set_element_new, x => bml_set_element_new (x 0)
  | .set_element, x => bml_set_element (x 0)
  | .set_row, x => bml_set_row (x 0)
  | .set_diagonal, x => bml_set_diagonal (x 0)
  | .matrix2submatrix_index, x => bml_matrix2submatrix_index (x 0) (x 1)
  | .matrix2submatrix_index_graph, x => bml_matrix2submatrix_index_graph (x 0)
  | .group_matrix, x => bml_group_matrix (x 0)
  | .matrix2submatrix, x => bml_matrix2submatrix (x 0) (x 1)
  | .submatrix2matrix, x => bml_submatrix2matrix (x 0) (x 1)
  | .adjacency, x => bml_adjacency (x 0)
  | .adjacency_group, x => bml_adjacency_group (x 0)
  | .extract_submatrix, x => bml_extract_submatrix (x 0)
  | .assign_submatrix, x => bml_assign_submatrix (x 0) (x 1)
  | .threshold_new, x => bml_threshold_new (x 0)
  | .threshold, x => bml_threshold (x 0)
  | .trace, x => bml_trace (x 0)
  | .trace_mult, x => bml_trace_mult (x 0) (x 1)
  | .transpose_new, x => bml_transpose_new (x 0)
  | .transpose, x => bml_transpose (x 0)
  | .transpose_triangle, x => bml_transpose_triangle (x 0)
  | .read_bml_matrix, x => bml_read_bml_matrix (x 0)
  | .write_bml_matrix, x => bml_write_bml_matrix (x 0)

/-- Number of matrix operands (their prototypes, bml_*.h). -/
def arity : Fn → Nat
  | .add | .add_norm | .copy | .diagonalize | .multiply_x2 | .sum_squares2 | .sum_AB | .fnorm2
  | .scale | .matrix2submatrix_index | .matrix2submatrix | .submatrix2matrix
  | .assign_submatrix | .trace_mult => 2
  | .element_multiply_AB | .multiply | .multiply_AB | .multiply_adjust_AB => 3
  | _ => 1

/-- `bml_block_matrix`, bml_allocate.c lines 323-348, and `bml_block_matrix_ellblock`,
ellblock/bml_allocate_ellblock.c lines 258-295: the kind of the matrix that is made when `f` and
`p` are asked for (`none`: `LOG_ERROR`). -/
def bml_block_matrix (f : Fmt) (p : Prec) : Option Kind :=
  match f with
  | .ellpack => some ⟨.ellblock, p⟩
  | .ellblock => some ⟨.ellblock, p⟩
  | _ => none

end Bml.Dispatch
