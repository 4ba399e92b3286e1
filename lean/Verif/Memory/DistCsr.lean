import Verif.Memory.Dist

/-!
# Distributed matrices with CSR tiles

All tiles of a matrix have `N` rows, and no call changes that.
-/

namespace Bml
namespace Memory

variable [Allocator] {E : Prop}

/-- A CSR tile with `N` rows. -/
structure CsrTile (N : Nat) where
  mat : CsrO
  rows : mat.rows.length = N

/-- A call whose result has `N` rows. -/
def asTile (N : Nat) (c : M CsrO) : M (CsrTile N) := do
  let A ← c
  if h : A.rows.length = N then pure ⟨A, h⟩ else crash

/-- The three arrays of a message (`csr/bml_parallel_csr_typed.c` 32-71), one after the other. -/
def sendCsr (A : CsrO) : M Unit := do
  use A.blocks
  let nnz ← malloc
  free nnz
  use A.blocks
  let cols ← malloc
  free cols
  use A.blocks
  let values ← malloc
  free values

/-- `bml_mpi_irecv_csr` and `bml_mpi_irecv_complete_csr` (`csr/bml_parallel_csr_typed.c` 127-177); `app`: the
rows, each with whether it has to grow. -/
def CsrO.recv (app : List (Nat × Bool)) (A : CsrO) : M CsrO := do
  let nnz ← malloc
  let cols ← malloc
  let buffer ← malloc
  use ({nnz} + {cols} + {buffer})
  let rows ← appends app A.rows
  freeAll [nnz, buffer, cols]
  pure { A with rows := rows }

/-- `bml_transpose_csr` (`csr/bml_transpose_csr_typed.c` 116-206): `app` are the rows that get elements. -/
def CsrO.transposeIn (app : List (Nat × Bool)) (A : CsrO) : M CsrO := do
  use A.blocks
  let rows ← appends app A.rows
  pure { A with rows := rows }

/-- CSR tiles with `N` rows: what has to grow in an import (`imp`), a message (`msg`), a transpose (`tr`) and the
`k`-th product (`app k`, `es k`).  Left out: `bml_copy_csr` (`csr/bml_copy_csr_typed.c` 87-138) stops with an
error where a row is longer than the row it is copied to. -/
def csrFmt (N : Nat) (imp msg tr : List (Nat × Bool)) (plain : Nat → Bool) (threads : Nat)
    (app : Nat → List (Nat × Bool)) (es : Nat → Nat → List Entry) : Fmt (CsrTile N) where
  blocks A := A.mat.blocks
  zero := asTile N (newCsr N)
  copyNew A := asTile N A.mat.copyNew
  copyTo A B := do
    use (A.mat.blocks + B.mat.blocks)
    pure B
  deallocate A := A.mat.deallocate
  array A := A.mat.array
  fromArray a := asTile N (importCsr N a imp)
  multiply k A B C := asTile N (A.mat.multiply false (plain k) threads (app k) (es k) B.mat C.mat)
  send A := sendCsr A.mat
  recv A := asTile N (A.mat.recv msg)
  transpose A := asTile N (A.mat.transposeIn tr)

/-! ## Proofs -/

omit [Allocator] in
theorem asTile_owns {N : Nat} {c : M CsrO} {P : Multiset Blk} {Q : CsrO → Multiset Blk → Prop}
    (h : Owns E P c fun A P' => Q A P' ∧ A.rows.length = N) :
    Owns E P (asTile N c) fun A P' => Q A.mat P' := by
  refine Owns.bind h ?_
  rintro A P' ⟨hq, e⟩
  rw [dif_pos e]
  exact Owns.pure hq

omit [Allocator] in
theorem CsrO.card (A : CsrO) : A.blocks.card = 3 * A.rows.length + 2 := by
  have : ∀ L : List Row, (total Row.blocks L).card = 3 * L.length := by
    intro L
    induction L with
    | nil => rfl
    | cons r L ih =>
      simp only [total, Row.blocks, Multiset.card_add, Multiset.card_singleton, ih, List.length_cons]
      omega
  simp only [CsrO.blocks, Multiset.card_add, Multiset.card_singleton, this]
  omega

theorem appendsCsr_owns (app : List (Nat × Bool)) (A : CsrO) (h : ∀ x ∈ app, x.1 < A.rows.length) :
    Owns E A.blocks (appends app A.rows) fun L' P =>
      P = ({ A with rows := L' } : CsrO).blocks ∧ L'.length = A.rows.length := by
  refine Owns.frame (appends_owns app A.rows h) (R := {A.self} + {A.data})
    (by simp only [CsrO.blocks]; abel1) ?_
  rintro L' _ ⟨rfl, hl⟩
  exact ⟨by simp only [CsrO.blocks]; abel1, hl⟩

theorem sendCsr_owns (A : CsrO) : Owns E A.blocks (sendCsr A) fun _ P => P = A.blocks := by
  unfold sendCsr
  refine Owns.use le_rfl (Owns.malloc fun x => Owns.free (P' := A.blocks) rfl ?_)
  refine Owns.use le_rfl (Owns.malloc fun y => Owns.free (P' := A.blocks) rfl ?_)
  exact Owns.use le_rfl (Owns.malloc fun z => Owns.free_last (P' := A.blocks) rfl rfl)

theorem CsrO.recv_owns (app : List (Nat × Bool)) (A : CsrO) (h : ∀ x ∈ app, x.1 < A.rows.length) :
    Owns E A.blocks (A.recv app) fun B P => P = B.blocks ∧ B.rows.length = A.rows.length := by
  unfold CsrO.recv
  refine Owns.malloc fun x => Owns.malloc fun y => Owns.malloc fun z => ?_
  refine Owns.useR (R := A.blocks) (by abel1) ?_
  refine Owns.call (appendsCsr_owns app A h) (R := {x} + {y} + {z}) (by abel1) ?_
  rintro L' _ ⟨rfl, hl⟩
  refine Owns.freeAll (P' := ({ A with rows := L' } : CsrO).blocks) (by simp only [total]; abel1) ?_
  exact Owns.pure ⟨rfl, hl⟩

theorem CsrO.transposeIn_owns (app : List (Nat × Bool)) (A : CsrO) (h : ∀ x ∈ app, x.1 < A.rows.length) :
    Owns E A.blocks (A.transposeIn app) fun B P => P = B.blocks ∧ B.rows.length = A.rows.length := by
  unfold CsrO.transposeIn
  refine Owns.use le_rfl (Owns.bind (appendsCsr_owns app A h) ?_)
  rintro L' _ ⟨rfl, hl⟩
  exact Owns.pure ⟨rfl, hl⟩

theorem csrFmt_safe (N : Nat) (imp msg tr : List (Nat × Bool)) (plain : Nat → Bool) (threads : Nat)
    (app : Nat → List (Nat × Bool)) (es : Nat → Nat → List Entry) (hi : ∀ x ∈ imp, x.1 < N)
    (hm : ∀ x ∈ msg, x.1 < N) (ht : ∀ x ∈ tr, x.1 < N) (ha : ∀ k, ∀ x ∈ app k, x.1 < N)
    (he : ∀ k i, EntriesSafe (es k i)) :
    (csrFmt N imp msg tr plain threads app es).Safe E (3 * N + 2) where
  zero := (asTile_owns (newCsr_owns N)).mono fun A _ h => ⟨h, by
    show A.mat.blocks.card = _
    rw [CsrO.card, A.rows]⟩
  copyNew A := asTile_owns (A.mat.copyNew_owns.mono fun _ _ h => ⟨h.1, h.2.trans A.rows⟩)
  copyTo A B := Owns.use le_rfl (Owns.pure rfl)
  deallocate A := A.mat.deallocate_owns
  array A := A.mat.array_owns
  fromArray p := asTile_owns (importCsr_owns N p imp hi)
  multiply k A B C := by
    refine asTile_owns (Q := fun C' P => P = A.mat.blocks + B.mat.blocks + C'.blocks)
      ((A.mat.multiply_rows_owns false (plain k) threads (app k) (es k) B.mat C.mat
      (fun h => absurd h (by decide)) (by rw [C.rows]; exact ha k) (he k)).mono fun _ _ h => ?_)
    exact ⟨h.1, h.2.trans C.rows⟩
  send A := sendCsr_owns A.mat
  recv A := asTile_owns ((A.mat.recv_owns msg (by rw [A.rows]; exact hm)).mono fun _ _ h =>
    ⟨h.1, h.2.trans A.rows⟩)
  transpose A := asTile_owns ((A.mat.transposeIn_owns tr (by rw [A.rows]; exact ht)).mono fun _ _ h =>
    ⟨h.1, h.2.trans A.rows⟩)

end Memory
end Bml
