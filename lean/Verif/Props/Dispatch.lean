import Verif.Common.Dispatch
import Verif.Ellpack.Model4

/-!
# C84: every function reaches the code of its operands' own format and element type
-/

namespace Bml.Spec

open Dispatch

/-- The operand that the documentation asks to be a dense matrix, whatever the format of the
others: the small matrix of `bml_matrix2submatrix` and `bml_submatrix2matrix`. -/
def smallOperand : Fn → Option Nat
  | .matrix2submatrix => some 1
  | .submatrix2matrix => some 0
  | _ => none

/-- The operands of a call as the documentation asks for them: all of one kind, except for the
small dense matrix. -/
def operands (fn : Fn) (k : Kind) : Nat → Kind := fun i =>
  if smallOperand fn = some i then ⟨.dense, k.prec⟩ else k

/-- The functions made for one element type only. -/
def onlyFor : Fn → Option Prec
  | .get_element_single_real => some .single_real
  | .get_element_double_real => some .double_real
  | .get_element_single_complex => some .single_complex
  | .get_element_double_complex => some .double_complex
  | _ => none

/-- The code that was reached reads the operands as what they are: each of the `n` operands as a
structure of its own format, and its elements as elements of its own type. -/
def ReadsAsIs (n : Nat) (x : Nat → Kind) : Out → Prop
  | .stop => True
  | .run casts prec =>
      casts.length = n ∧
        (∀ i < n, ∀ f, casts[i]? = some (some f) → f = (x i).fmt) ∧
        (∀ i < n, ∀ p, prec = some p → p = (x i).prec)

/-- The formats a function does not know: it ends the program with a message. -/
def unknownTo : Fn → List Fmt
  | .reorder | .get_element | .get_diagonal | .get_NB | .inverse | .multiply_adjust_AB
  | .accumulate_offdiag | .mpi_send | .mpi_recv | .mpi_irecv | .mpi_irecv_complete
  | .mpi_bcast_matrix | .set_element_new | .set_element | .extract_submatrix
  | .assign_submatrix => [.distributed2d]
  | .save_domain | .restore_domain | .element_multiply_AB | .get_row_bandwidth | .get_bandwidth
  | .get_distribution_mode | .sum_squares_submatrix | .fnorm2
  | .gershgorin_partial => [.ellblock, .distributed2d]
  | .adjungate_triangle | .update_domain | .get_element_single_real | .get_element_double_real
  | .get_element_single_complex | .get_element_double_complex
  | .allGatherVParallel => [.ellblock, .csr, .distributed2d]
  | .get_data_ptr | .transpose_triangle => [.ellpack, .ellblock, .csr, .distributed2d]
  | .matrix2submatrix_index | .matrix2submatrix_index_graph | .group_matrix | .matrix2submatrix
  | .submatrix2matrix | .adjacency
  | .adjacency_group => [.dense, .ellblock, .csr, .distributed2d]
  | .get_local_matrix => [.dense, .ellpack, .ellblock, .csr]
  | _ => []

end Bml.Spec

namespace Bml.Props

open Dispatch Spec

instance (n : Nat) (x : Nat → Kind) : DecidablePred (ReadsAsIs n x) := fun o =>
  match o with
  | .stop => isTrue trivial
  | .run casts prec =>
      have hc : Decidable (∀ i < n, ∀ f, casts[i]? = some (some f) → f = (x i).fmt) :=
        @Nat.decidableBallLT n _ fun i _ =>
          match h : casts[i]? with
          | none => isTrue (by simp)
          | some none => isTrue (by simp)
          | some (some f) => decidable_of_iff (f = (x i).fmt) (by simp)
      have hp : Decidable (∀ i < n, ∀ p, prec = some p → p = (x i).prec) :=
        @Nat.decidableBallLT n _ fun i _ =>
          match prec with
          | none => isTrue (by simp)
          | some p => decidable_of_iff (p = (x i).prec) (by simp)
      inferInstanceAs (Decidable (_ ∧ _ ∧ _))

/-- C84.  Whatever function is called on matrices of any one format and element type, the code
that is reached reads each of them as a matrix of its own format and element type.  (The four
functions named after an element type: for that element type.)  Left out:
`bml_matrix2submatrix_index_graph`, see `C84_index_graph_other_type`. -/
theorem C84_own_code_partial (fn : Fn) (k : Kind) (hfn : fn ≠ .matrix2submatrix_index_graph)
    (hk : ∀ p, onlyFor fn = some p → k.prec = p) :
    ReadsAsIs (arity fn) (operands fn k) (call fn (operands fn k)) := by
  obtain ⟨f, p⟩ := k
  cases fn
  case get_element_single_real => obtain rfl : p = _ := hk _ rfl; cases f <;> decide
  case get_element_double_real => obtain rfl : p = _ := hk _ rfl; cases f <;> decide
  case get_element_single_complex => obtain rfl : p = _ := hk _ rfl; cases f <;> decide
  case get_element_double_complex => obtain rfl : p = _ := hk _ rfl; cases f <;> decide
  case matrix2submatrix_index_graph => exact absurd rfl hfn
  all_goals clear hk hfn; cases f <;> cases p <;> decide

/-- C84.  The full list of what is not there: a function ends the program exactly for the formats
of the list `unknownTo`, and for all others it reaches code. -/
theorem C84_unknown_formats (fn : Fn) (k : Kind) :
    call fn (operands fn k) = .stop ↔ k.fmt ∈ unknownTo fn := by
  obtain ⟨f, p⟩ := k
  cases fn <;> cases f <;> cases p <;> decide

/-- C84 fails for `bml_matrix2submatrix_index_graph`: a double precision matrix is handed to the
single precision routine, a single precision complex one to the double precision complex one. -/
theorem C84_index_graph_other_type :
    call .matrix2submatrix_index_graph (fun _ => ⟨.ellpack, .double_real⟩)
        = .run [some .ellpack] (some .single_real) ∧
    call .matrix2submatrix_index_graph (fun _ => ⟨.ellpack, .single_complex⟩)
        = .run [some .ellpack] (some .double_complex) := ⟨rfl, rfl⟩

/-- C84.  Nothing comes of it: that routine gives the same result for two matrices, of whatever
element types, with the same index arrays. -/
theorem C84_index_graph_types_agree {R S : Type} (A : Ell R) (B : Ell S) (hN : A.N = B.N)
    (hM : A.M = B.M) (hidx : A.idx = B.idx) (hnnz : A.nnz = B.nnz) (nodelist : Arr Nat)
    (nsize : Nat) (out : Arr Nat) (jump : Bool) :
    Ell.indexGraph A nodelist nsize out jump = Ell.indexGraph B nodelist nsize out jump := by
  obtain ⟨N, M, v, i, z⟩ := A
  obtain ⟨N', M', v', i', z'⟩ := B
  cases hN; cases hM; cases hidx; cases hnnz
  rfl

/-- C84.  `bml_copy` stops if the two formats differ. -/
theorem C84_copy_checks_formats (x : Nat → Kind) (h : (x 0).fmt ≠ (x 1).fmt) :
    call .copy x = .stop := by
  show bml_copy (x 0) (x 1) = _
  unfold bml_copy
  rw [if_pos h]

/-- C84, operands that do not match.  No other function with several matrices looks at the format
of more than one of them: if the format of one operand is known to it and that of
another is a different one, the second is read as a matrix of the format of the first. -/
theorem C84_mixed_formats_unchecked (fn : Fn) (h2 : 2 ≤ arity fn) (hfn : fn ≠ .copy) (k : Kind)
    (hk : k.fmt ∉ unknownTo fn) (g : Fmt) :
    let other := if fn = .submatrix2matrix then 0 else 1
    g ≠ (operands fn k other).fmt →
    let x : Nat → Kind := fun i => if i = other then ⟨g, k.prec⟩ else operands fn k i
    (∃ casts prec, call fn x = .run casts prec ∧
      casts[other]? = some (some (operands fn k other).fmt)) ∧ ¬ ReadsAsIs (arity fn) x (call fn x)
      := by
  obtain ⟨f, p⟩ := k
  cases fn
  case copy => exact absurd rfl hfn
  all_goals first
    | (exfalso; revert h2; decide)
    | (clear h2 hfn
       revert hk
       cases f <;> cases p <;> cases g <;>
         first
           | (intro hk; exfalso; revert hk; decide)
           | (intro _ other hg; exfalso; revert hg; decide)
           | (intro _ other _ x; exact ⟨⟨_, _, rfl, rfl⟩, by decide⟩))

/-- C84, operands that do not match.  The element types are compared nowhere, not by `bml_copy`
either: the copy of a double precision matrix to a single precision one of the same size writes
double precision elements into the other's memory. -/
theorem C84_mixed_types_unchecked :
    ∃ x : Nat → Kind, (x 0).prec = .double_real ∧ (x 1).prec = .single_real ∧
      call .copy x = .run [some .dense, some .dense] (some .double_real) ∧
      ¬ ReadsAsIs (arity .copy) x (call .copy x) :=
  ⟨fun i => if i = 0 then ⟨.dense, .double_real⟩ else ⟨.dense, .single_real⟩, rfl, rfl, rfl,
    by decide⟩

/-- C84 for `bml_block_matrix`: the element type is the one asked for, but a block matrix of
format ELLPACK is made as one of format block-ELLPACK. -/
theorem C84_block_matrix_format (f : Fmt) (p : Prec) :
    (∀ k, bml_block_matrix f p = some k → k = ⟨.ellblock, p⟩) ∧
    (∃ k, bml_block_matrix .ellpack p = some k ∧ k.fmt ≠ .ellpack) := by
  constructor
  · cases f <;> intro k h <;> cases h <;> rfl
  · exact ⟨_, rfl, fun h => Fmt.noConfusion h⟩

/-- The hypotheses of the theorems are met. -/
example : Fn.multiply ≠ .matrix2submatrix_index_graph ∧
    (∀ p, onlyFor .multiply = some p → (Kind.mk .csr .double_complex).prec = p) ∧
    2 ≤ arity .multiply ∧ Fn.multiply ≠ .copy ∧ Fmt.csr ∉ unknownTo .multiply ∧
    call .multiply (operands .multiply ⟨.csr, .double_complex⟩)
      = .run [some .csr, some .csr, some .csr] (some .double_complex) := by
  refine ⟨by decide, ?_, by decide, by decide, by decide, rfl⟩
  intro p hp; cases hp

end Bml.Props
