import Verif.Memory.Proof

/-!
# What the calls do with memory: distributed matrices

What one rank allocates, uses and frees.  The format of the tiles is an argument (`Fmt`): its calls are any
pieces of program.  The two communicators of a distributed matrix count as blocks.
-/

namespace Bml
namespace Memory

variable [Allocator] {L K : Type}

/-- The calls of the format of the tiles: constructor, `bml_copy_new`, `bml_copy`, `bml_deallocate`, the calls
that give an array (export, row, diagonal, sums), import from an array, the products in their order,
`bml_mpi_send`, `bml_mpi_irecv` with its completion, and `bml_transpose`. -/
structure Fmt (L : Type) where
  blocks : L → Multiset Blk
  zero : M L
  copyNew : L → M L
  copyTo : L → L → M L
  deallocate : L → M Unit
  array : L → M Blk
  fromArray : Blk → M L
  multiply : Nat → L → L → L → M L
  send : L → M Unit
  recv : L → M L
  transpose : L → M L

/-- `bml_matrix_distributed2d_t` (`distributed2d/bml_types_distributed2d.h`). -/
structure DistO (L : Type) where
  (self row col : Blk) (tile : L)

/-- The blocks of a distributed matrix on one rank. -/
def DistO.blocks (F : Fmt L) (A : DistO L) : Multiset Blk := {A.self} + {A.row} + {A.col} + F.blocks A.tile

/-- `bml_zero_matrix_distributed2d`, `bml_noinit_matrix_distributed2d`, `bml_random_matrix_distributed2d`,
`bml_identity_matrix_distributed2d` (`distributed2d/bml_allocate_distributed2d.c` 115-239) with
`bml_setup_distributed2d` (42-75). -/
def newDist (F : Fmt L) : M (DistO L) := do
  let self ← malloc
  let row ← malloc
  let col ← malloc
  let tile ← F.zero
  pure ⟨self, row, col, tile⟩

/-- `bml_deallocate_distributed2d` (`distributed2d/bml_allocate_distributed2d.c` 83-91): the communicators
stay. -/
def DistO.deallocate (F : Fmt L) (A : DistO L) : M Unit := do
  use {A.self}
  F.deallocate A.tile
  free A.self

/-- `bml_copy_distributed2d_new` (`distributed2d/bml_copy_distributed2d.c` 19-35). -/
def DistO.copyNew (F : Fmt L) (A : DistO L) : M (DistO L) := do
  use {A.self}
  let B ← newDist F
  let t ← F.copyTo A.tile B.tile
  pure { B with tile := t }

/-- `bml_transpose_new_distributed2d` (`distributed2d/bml_transpose_distributed2d.c` 21-42); `off`: the rank is
not on the diagonal. -/
def DistO.transposeNew (F : Fmt L) (off : Bool) (A : DistO L) : M (DistO L) := do
  let B ← A.copyNew F
  let t ← (if off then do
      let t ← F.recv B.tile
      F.send A.tile
      pure t
    else pure B.tile)
  let t' ← F.transpose t
  pure { B with tile := t' }

/-- `bml_transpose_distributed2d` (`distributed2d/bml_transpose_distributed2d.c` 51-71). -/
def DistO.transpose (F : Fmt L) (off : Bool) (A : DistO L) : M (DistO L) := do
  let B ← A.copyNew F
  let t ← (if off then do
      let t ← F.recv A.tile
      F.send B.tile
      pure t
    else pure A.tile)
  let t' ← F.transpose t
  B.deallocate F
  pure { A with tile := t' }

/-- One exchange of `bml_multiply_distributed2d`: receive into the first tile, send the second. -/
def exchange (F : Fmt L) (t2 t1 : L) : M L := do
  let t2' ← F.recv t2
  F.send t1
  pure t2'

/-- The loop of `bml_multiply_distributed2d` (`distributed2d/bml_multiply_distributed2d_typed.c` 69-99), `n`
turns, the next product being number `k`. -/
def cannonTurns (F : Fmt L) : Nat → Nat → L → L → L → L → L → M (L × L × L × L × L)
  | 0, _, a1, a2, b1, b2, c => pure (a1, a2, b1, b2, c)
  | n + 1, k, a1, a2, b1, b2, c => do
    let a1' ← exchange F a1 a2
    let b1' ← exchange F b1 b2
    let c' ← F.multiply k a1' b1' c
    cannonTurns F n (k + 1) a2 a1' b2 b1' c'

/-- `bml_multiply_distributed2d` (`distributed2d/bml_multiply_distributed2d_typed.c` 30-105) on a rank in row
`prow` and column `pcol` of `p` rows and columns. -/
def DistO.multiply (F : Fmt L) (p prow pcol : Nat) (A B C : DistO L) : M (DistO L) := do
  use ({A.self} ∪ {B.self})
  use {C.self}
  let a1 ← F.copyNew A.tile
  let a2 ← F.copyNew A.tile
  let b1 ← F.copyNew B.tile
  let b2 ← F.copyNew B.tile
  let a2 ← (if prow > 0 then exchange F a2 a1 else pure a2)
  let b2 ← (if pcol > 0 then exchange F b2 b1 else pure b2)
  let c ← F.multiply 0 a2 b2 C.tile
  let r ← cannonTurns F (p - 1) 1 a1 a2 b1 b2 c
  F.deallocate r.1
  F.deallocate r.2.1
  F.deallocate r.2.2.1
  F.deallocate r.2.2.2.1
  pure { C with tile := r.2.2.2.2 }

/-- `bml_export_to_dense_distributed2d` (`distributed2d/bml_export_distributed2d_typed.c` 24-82): the exported
tile is not freed.  `first`: the rank is 0. -/
def DistO.toDense (F : Fmt L) (first : Bool) (ntasks : Nat) (A : DistO L) : M (Option Blk) := do
  use {A.self}
  if first then do
    let a ← malloc
    let sendbuf ← F.array A.tile
    use ({a} + {sendbuf})
    let recvbuf ← malloc
    let request ← malloc
    let bufs ← times malloc (ntasks - 1)
    use ({a} + {recvbuf} + {request} + total (fun p => {p}) bufs)
    freeAll bufs
    freeAll [request, recvbuf]
    pure (some a)
  else do
    let sendbuf ← F.array A.tile
    use {sendbuf}
    pure none

/-- `bml_import_from_dense_distributed2d` (`distributed2d/bml_import_distributed2d_typed.c` 28-104) with the
caller's array `a`. -/
def importDist (F : Fmt L) (first : Bool) (ntasks : Nat) (a : Blk) : M (DistO L) := do
  let self ← malloc
  let row ← malloc
  let col ← malloc
  let recvbuf ← malloc
  if first then do
    let sendbuf ← malloc
    let request ← malloc
    let bufs ← times malloc (ntasks - 1)
    use ({a} + {recvbuf} + {sendbuf} + {request} + total (fun p => {p}) bufs)
    freeAll bufs
    freeAll [request, sendbuf]
    let tile ← F.fromArray recvbuf
    free recvbuf
    pure ⟨self, row, col, tile⟩
  else do
    use {recvbuf}
    let tile ← F.fromArray recvbuf
    free recvbuf
    pure ⟨self, row, col, tile⟩

/-- `bml_get_row_distributed2d` (`distributed2d/bml_getters_distributed2d_typed.c` 9-55): the part of the row a
rank has is not freed.  `mine`: the rank has a part. -/
def DistO.getRow (F : Fmt L) (mine : Bool) (A : DistO L) : M Blk := do
  use {A.self}
  let row ← malloc
  let counts ← malloc
  if mine then do
    let sub ← F.array A.tile
    let recvcounts ← malloc
    let displs ← malloc
    use ({row} + {counts} + {recvcounts} + {displs} + {sub})
    freeAll [recvcounts, counts, displs]
    pure row
  else do
    let recvcounts ← malloc
    let displs ← malloc
    use ({row} + {counts} + {recvcounts} + {displs})
    freeAll [recvcounts, counts, displs]
    pure row

/-- `bml_gershgorin_distributed2d` (`distributed2d/bml_normalize_distributed2d_typed.c` 32-67); `diag`: the rank
is on the diagonal. -/
def DistO.gershgorin (F : Fmt L) (diag : Bool) (A : DistO L) : M Blk := do
  use {A.self}
  let rad ← malloc
  let sum ← F.array A.tile
  use ({rad} + {sum})
  free sum
  if diag then do
    let dval ← F.array A.tile
    use ({rad} + {dval})
    free dval
    free rad
    malloc
  else do
    free rad
    malloc

/-- `bml_convert_distributed2d` (`distributed2d/bml_convert_distributed2d.c` 10-29): the new matrix gets the
converted tile in the place of its own, which is not released. -/
def DistO.convert (G : Fmt K) (conv : L → M K) (A : DistO L) : M (DistO K) := do
  use {A.self}
  let B ← newDist G
  let t ← conv A.tile
  pure { B with tile := t }

/-! ## The formats -/

/-- Dense tiles with `N` rows; an MPI message needs no memory (`dense/bml_parallel_dense_typed.c` 76-145). -/
def denseFmt (N : Nat) : Fmt DenseO where
  blocks := DenseO.blocks
  zero := newDense N
  copyNew A := A.copyNew
  copyTo A B := do
    use (A.blocks + B.blocks)
    pure B
  deallocate A := A.deallocate
  array A := A.array
  fromArray a := do
    let A ← newDense N
    use (A.blocks + {a})
    pure A
  multiply _ A B C := do
    use (A.blocks + B.blocks + C.blocks)
    pure C
  send A := use A.blocks
  recv A := do
    use A.blocks
    pure A
  transpose A := do
    use A.blocks
    pure A

/-- ELLPACK tiles with `N` rows (messages: `ellpack/bml_parallel_ellpack_typed.c` 121-175); `plain k`: the
`k`-th product has `alpha` one and `beta` zero. -/
def ellFmt (N : Nat) (plain : Nat → Bool) : Fmt EllO where
  blocks := EllO.blocks
  zero := newEll N
  copyNew A := A.newFrom A.N
  copyTo A B := do
    use (A.blocks + B.blocks)
    pure B
  deallocate A := A.deallocate
  array A := A.array
  fromArray a := do
    let A ← newEll N
    use (A.blocks + {a})
    pure A
  multiply k A B C := do
    A.multiply false (plain k) B C
    pure C
  send A := use A.blocks
  recv A := do
    use A.blocks
    pure A
  transpose A := do
    use A.blocks
    pure A

/-! ## Proofs -/

variable {E : Prop}

/-- The calls of a format leave nothing behind; a new matrix has `size` blocks. -/
structure Fmt.Safe (E : Prop) (F : Fmt L) (size : Nat) : Prop where
  zero : Owns E 0 F.zero fun t P => P = F.blocks t ∧ (F.blocks t).card = size
  copyNew : ∀ a, Owns E (F.blocks a) (F.copyNew a) fun t P => P = F.blocks a + F.blocks t
  copyTo : ∀ a b, Owns E (F.blocks a + F.blocks b) (F.copyTo a b) fun t P => P = F.blocks a + F.blocks t
  deallocate : ∀ a, Owns E (F.blocks a) (F.deallocate a) fun _ P => P = 0
  array : ∀ a, Owns E (F.blocks a) (F.array a) fun p P => P = F.blocks a + {p}
  fromArray : ∀ p, Owns E {p} (F.fromArray p) fun t P => P = {p} + F.blocks t
  multiply : ∀ k a b c, Owns E (F.blocks a + F.blocks b + F.blocks c) (F.multiply k a b c)
    fun t P => P = F.blocks a + F.blocks b + F.blocks t
  send : ∀ a, Owns E (F.blocks a) (F.send a) fun _ P => P = F.blocks a
  recv : ∀ a, Owns E (F.blocks a) (F.recv a) fun t P => P = F.blocks t
  transpose : ∀ a, Owns E (F.blocks a) (F.transpose a) fun t P => P = F.blocks t

variable {F : Fmt L} {size : Nat}

theorem newDist_owns (hF : F.Safe E size) : Owns E 0 (newDist F) fun A P =>
    P = A.blocks F ∧ (F.blocks A.tile).card = size := by
  unfold newDist
  refine Owns.malloc fun a => Owns.malloc fun b => Owns.malloc fun c => ?_
  refine Owns.call hF.zero (R := {a} + {b} + {c}) (by abel1) ?_
  rintro t _ ⟨rfl, h⟩
  exact Owns.pure ⟨by simp only [DistO.blocks]; abel1, h⟩

omit [Allocator] in
theorem DistO.deallocate_owns (hF : F.Safe E size) (A : DistO L) :
    Owns E (A.blocks F) (A.deallocate F) fun _ P => P = {A.row} + {A.col} := by
  unfold DistO.deallocate DistO.blocks
  refine Owns.useR (R := {A.row} + {A.col} + F.blocks A.tile) (by abel1) ?_
  refine Owns.call (hF.deallocate A.tile) (R := {A.self} + {A.row} + {A.col}) (by abel1) ?_
  rintro _ _ rfl
  exact Owns.free_last (P' := {A.row} + {A.col}) (by abel1) rfl

theorem DistO.copyNew_owns (hF : F.Safe E size) (A : DistO L) :
    Owns E (A.blocks F) (A.copyNew F) fun B P => P = A.blocks F + B.blocks F := by
  unfold DistO.copyNew
  refine Owns.useR (R := {A.row} + {A.col} + F.blocks A.tile) (by unfold DistO.blocks; abel1) ?_
  refine Owns.call (newDist_owns hF) (R := A.blocks F) (by abel1) ?_
  rintro B _ ⟨rfl, _⟩
  refine Owns.call (hF.copyTo A.tile B.tile) (R := {A.self} + {A.row} + {A.col} + ({B.self} + {B.row} + {B.col}))
    (by simp only [DistO.blocks]; abel1) ?_
  rintro t _ rfl
  exact Owns.pure (by simp only [DistO.blocks]; abel1)

omit [Allocator] in
theorem exchange_owns (hF : F.Safe E size) (a b : L) : Owns E (F.blocks a + F.blocks b) (exchange F a b)
    fun t P => P = F.blocks t + F.blocks b := by
  unfold exchange
  refine Owns.call (hF.recv a) (R := F.blocks b) rfl ?_
  rintro t _ rfl
  refine Owns.call (hF.send b) (R := F.blocks t) (by abel1) ?_
  rintro _ _ rfl
  exact Owns.pure (by abel1)

omit [Allocator] in
theorem exchangeIf_owns (hF : F.Safe E size) (c : Prop) [Decidable c] (a b : L) :
    Owns E (F.blocks a + F.blocks b) (if c then exchange F a b else pure a)
      fun t P => P = F.blocks t + F.blocks b := by
  split
  · exact exchange_owns hF a b
  · exact Owns.pure rfl

theorem DistO.transposeNew_owns (hF : F.Safe E size) (off : Bool) (A : DistO L) :
    Owns E (A.blocks F) (A.transposeNew F off) fun B P => P = A.blocks F + B.blocks F := by
  unfold DistO.transposeNew
  refine Owns.bind (A.copyNew_owns hF) ?_
  rintro B _ rfl
  refine Owns.call (exchangeIf_owns hF (off = true) B.tile A.tile)
    (R := {A.self} + {A.row} + {A.col} + ({B.self} + {B.row} + {B.col})) (by simp only [DistO.blocks]; abel1) ?_
  rintro t _ rfl
  refine Owns.call (hF.transpose t)
    (R := A.blocks F + ({B.self} + {B.row} + {B.col})) (by simp only [DistO.blocks]; abel1) ?_
  rintro t' _ rfl
  exact Owns.pure (by simp only [DistO.blocks]; abel1)

theorem DistO.transpose_owns (hF : F.Safe E size) (off : Bool) (A : DistO L) :
    Owns E (A.blocks F) (A.transpose F off) fun A' P => ∃ X, P = A'.blocks F + X ∧ X.card = 2 := by
  unfold DistO.transpose
  refine Owns.bind (A.copyNew_owns hF) ?_
  rintro B _ rfl
  refine Owns.call (exchangeIf_owns hF (off = true) A.tile B.tile)
    (R := {A.self} + {A.row} + {A.col} + ({B.self} + {B.row} + {B.col})) (by simp only [DistO.blocks]; abel1) ?_
  rintro t _ rfl
  refine Owns.call (hF.transpose t)
    (R := B.blocks F + ({A.self} + {A.row} + {A.col})) (by simp only [DistO.blocks]; abel1) ?_
  rintro t' _ rfl
  refine Owns.call (B.deallocate_owns hF) (R := F.blocks t' + ({A.self} + {A.row} + {A.col})) (by abel1) ?_
  rintro _ _ rfl
  exact Owns.pure ⟨{B.row} + {B.col}, by simp only [DistO.blocks]; abel1, by simp⟩

omit [Allocator] in
theorem cannonTurns_owns (hF : F.Safe E size) : ∀ (n k : Nat) (a1 a2 b1 b2 c : L),
    Owns E (F.blocks a1 + F.blocks a2 + F.blocks b1 + F.blocks b2 + F.blocks c)
      (cannonTurns F n k a1 a2 b1 b2 c) fun r P => P = F.blocks r.1 + F.blocks r.2.1 + F.blocks r.2.2.1 +
        F.blocks r.2.2.2.1 + F.blocks r.2.2.2.2
  | 0, _, _, _, _, _, _ => Owns.pure rfl
  | n + 1, k, a1, a2, b1, b2, c => by
    unfold cannonTurns
    refine Owns.call (exchange_owns hF a1 a2) (R := F.blocks b1 + F.blocks b2 + F.blocks c) (by abel1) ?_
    rintro a _ rfl
    refine Owns.call (exchange_owns hF b1 b2) (R := F.blocks a + F.blocks a2 + F.blocks c) (by abel1) ?_
    rintro b _ rfl
    refine Owns.call (hF.multiply k a b c) (R := F.blocks a2 + F.blocks b2) (by abel1) ?_
    rintro t _ rfl
    exact Owns.congr (by abel1) (cannonTurns_owns hF n (k + 1) a2 a b2 b t)

omit [Allocator] in
/-- A matrix among the blocks owned. -/
theorem copyNew_among (hF : F.Safe E size) (a : L) {S : Multiset Blk} (h : F.blocks a ≤ S) :
    Owns E S (F.copyNew a) fun t P => P = S + F.blocks t := by
  obtain ⟨R, rfl⟩ := Multiset.le_iff_exists_add.1 h
  refine Owns.frame (hF.copyNew a) (R := R) rfl ?_
  rintro t _ rfl
  abel1

omit [Allocator] in
theorem DistO.tile_le (A : DistO L) : F.blocks A.tile ≤ A.blocks F := Multiset.le_add_left _ _

omit [Allocator] in
theorem DistO.self_le (A : DistO L) : {A.self} ≤ A.blocks F := by
  unfold DistO.blocks
  rw [add_assoc, add_assoc]
  exact Multiset.le_add_right _ _

omit [Allocator] in
/-- `A` and `B` may be the same matrix: `S` has what they own, counted once or twice. -/
theorem DistO.multiply_owns (hF : F.Safe E size) (p prow pcol : Nat) (A B C : DistO L) (S : Multiset Blk)
    (hA : A.blocks F ≤ S) (hB : B.blocks F ≤ S) :
    Owns E (S + C.blocks F) (A.multiply F p prow pcol B C) fun C' P => P = S + C'.blocks F := by
  have ta := le_trans A.tile_le hA
  have tb := le_trans B.tile_le hB
  unfold DistO.multiply
  refine Owns.use (le_trans (Multiset.union_le (le_trans A.self_le hA) (le_trans B.self_le hB))
    (Multiset.le_add_right _ _)) ?_
  refine Owns.use (le_trans C.self_le (Multiset.le_add_left _ _)) ?_
  refine Owns.call (copyNew_among hF A.tile ta) (R := C.blocks F) rfl ?_
  rintro a1 _ rfl
  refine Owns.call (copyNew_among hF A.tile ta) (R := F.blocks a1 + C.blocks F) (by abel1) ?_
  rintro a2 _ rfl
  refine Owns.call (copyNew_among hF B.tile tb) (R := F.blocks a1 + F.blocks a2 + C.blocks F) (by abel1) ?_
  rintro b1 _ rfl
  refine Owns.call (copyNew_among hF B.tile tb) (R := F.blocks a1 + F.blocks a2 + F.blocks b1 + C.blocks F)
    (by abel1) ?_
  rintro b2 _ rfl
  refine Owns.call (exchangeIf_owns hF (prow > 0) a2 a1) (R := S + F.blocks b1 + F.blocks b2 + C.blocks F)
    (by abel1) ?_
  rintro a2' _ rfl
  refine Owns.call (exchangeIf_owns hF (pcol > 0) b2 b1) (R := S + F.blocks a1 + F.blocks a2' + C.blocks F)
    (by abel1) ?_
  rintro b2' _ rfl
  refine Owns.call (hF.multiply 0 a2' b2' C.tile)
    (R := S + F.blocks a1 + F.blocks b1 + ({C.self} + {C.row} + {C.col})) (by unfold DistO.blocks; abel1) ?_
  rintro c _ rfl
  refine Owns.call (cannonTurns_owns hF (p - 1) 1 a1 a2' b1 b2' c)
    (R := S + ({C.self} + {C.row} + {C.col})) (by abel1) ?_
  rintro ⟨x1, x2, y1, y2, z⟩ _ rfl
  refine Owns.call (hF.deallocate x1)
    (R := F.blocks x2 + F.blocks y1 + F.blocks y2 + F.blocks z + (S + ({C.self} + {C.row} + {C.col})))
    (by abel1) ?_
  rintro _ _ rfl
  refine Owns.call (hF.deallocate x2)
    (R := F.blocks y1 + F.blocks y2 + F.blocks z + (S + ({C.self} + {C.row} + {C.col}))) (by abel1) ?_
  rintro _ _ rfl
  refine Owns.call (hF.deallocate y1)
    (R := F.blocks y2 + F.blocks z + (S + ({C.self} + {C.row} + {C.col}))) (by abel1) ?_
  rintro _ _ rfl
  refine Owns.call (hF.deallocate y2)
    (R := F.blocks z + (S + ({C.self} + {C.row} + {C.col}))) (by abel1) ?_
  rintro _ _ rfl
  exact Owns.pure (by simp only [DistO.blocks]; abel1)

theorem bufs_owns (n : Nat) : Owns E 0 (times malloc n) fun L P => P = total (fun p => {p}) L ∧ L.length = n :=
  Owns.times (Owns.malloc_last fun p => by abel1) n

theorem DistO.toDense_owns (hF : F.Safe E size) (first : Bool) (ntasks : Nat) (A : DistO L) :
    Owns E (A.blocks F) (A.toDense F first ntasks) fun r P => ∃ X, P = A.blocks F + optBlk r + X ∧ X.card = 1 := by
  unfold DistO.toDense
  refine Owns.use A.self_le ?_
  split
  · refine Owns.malloc fun a => ?_
    refine Owns.call (hF.array A.tile) (R := {A.self} + {A.row} + {A.col} + {a}) (by unfold DistO.blocks; abel1) ?_
    rintro s _ rfl
    refine Owns.useR (R := A.blocks F) (by unfold DistO.blocks; abel1) ?_
    refine Owns.malloc fun r => Owns.malloc fun q => ?_
    refine Owns.call (bufs_owns (ntasks - 1)) (R := A.blocks F + {a} + {s} + {r} + {q})
      (by unfold DistO.blocks; abel1) ?_
    rintro l _ ⟨rfl, _⟩
    refine Owns.useR (R := A.blocks F + {s}) (by abel1) ?_
    refine Owns.freeAll (P' := A.blocks F + {a} + {s} + {r} + {q}) (by abel1) ?_
    refine Owns.freeAll (P' := A.blocks F + {a} + {s}) (by simp only [total]; abel1) ?_
    exact Owns.pure ⟨{s}, by simp only [optBlk], by simp⟩
  · refine Owns.call (hF.array A.tile) (R := {A.self} + {A.row} + {A.col}) (by unfold DistO.blocks; abel1) ?_
    rintro s _ rfl
    refine Owns.useR (R := A.blocks F) (by unfold DistO.blocks; abel1) ?_
    exact Owns.pure ⟨{s}, by simp only [optBlk, DistO.blocks]; abel1, by simp⟩

theorem importDist_owns (hF : F.Safe E size) (first : Bool) (ntasks : Nat) (a : Blk) :
    Owns E {a} (importDist F first ntasks a) fun A P => P = {a} + A.blocks F := by
  unfold importDist
  refine Owns.malloc fun s => Owns.malloc fun r => Owns.malloc fun c => Owns.malloc fun b => ?_
  split
  · refine Owns.malloc fun sb => Owns.malloc fun q => ?_
    refine Owns.call (bufs_owns (ntasks - 1)) (R := {a} + {s} + {r} + {c} + {b} + {sb} + {q}) (by abel1) ?_
    rintro l _ ⟨rfl, _⟩
    refine Owns.useR (R := {s} + {r} + {c}) (by abel1) ?_
    refine Owns.freeAll (P' := {a} + {s} + {r} + {c} + {b} + {sb} + {q}) (by abel1) ?_
    refine Owns.freeAll (P' := {a} + {s} + {r} + {c} + {b}) (by simp only [total]; abel1) ?_
    refine Owns.call (hF.fromArray b) (R := {a} + {s} + {r} + {c}) (by abel1) ?_
    rintro t _ rfl
    refine Owns.free (P' := {a} + {s} + {r} + {c} + F.blocks t) (by abel1) ?_
    exact Owns.pure (by simp only [DistO.blocks]; abel1)
  · refine Owns.useR (R := {a} + {s} + {r} + {c}) (by abel1) ?_
    refine Owns.call (hF.fromArray b) (R := {a} + {s} + {r} + {c}) (by abel1) ?_
    rintro t _ rfl
    refine Owns.free (P' := {a} + {s} + {r} + {c} + F.blocks t) (by abel1) ?_
    exact Owns.pure (by simp only [DistO.blocks]; abel1)

theorem DistO.getRow_owns (hF : F.Safe E size) (mine : Bool) (A : DistO L) :
    Owns E (A.blocks F) (A.getRow F mine) fun r P =>
      ∃ X, P = A.blocks F + {r} + X ∧ X.card = if mine then 1 else 0 := by
  unfold DistO.getRow
  refine Owns.use A.self_le ?_
  refine Owns.malloc fun row => Owns.malloc fun cnt => ?_
  split
  · refine Owns.call (hF.array A.tile) (R := {A.self} + {A.row} + {A.col} + {row} + {cnt})
      (by unfold DistO.blocks; abel1) ?_
    rintro s _ rfl
    refine Owns.malloc fun rc => Owns.malloc fun d => ?_
    refine Owns.useR (R := A.blocks F) (by unfold DistO.blocks; abel1) ?_
    refine Owns.freeAll (P' := A.blocks F + {row} + {s}) (by simp only [total, DistO.blocks]; abel1) ?_
    exact Owns.pure ⟨{s}, rfl, by simp⟩
  · refine Owns.malloc fun rc => Owns.malloc fun d => ?_
    refine Owns.useR (R := A.blocks F) (by abel1) ?_
    refine Owns.freeAll (P' := A.blocks F + {row}) (by simp only [total]; abel1) ?_
    exact Owns.pure ⟨0, by abel1, by simp⟩

theorem DistO.gershgorin_owns (hF : F.Safe E size) (diag : Bool) (A : DistO L) :
    Owns E (A.blocks F) (A.gershgorin F diag) fun r P => P = A.blocks F + {r} := by
  unfold DistO.gershgorin
  refine Owns.use A.self_le ?_
  refine Owns.malloc fun rad => ?_
  refine Owns.call (hF.array A.tile) (R := {A.self} + {A.row} + {A.col} + {rad}) (by unfold DistO.blocks; abel1) ?_
  rintro s _ rfl
  refine Owns.useR (R := A.blocks F) (by unfold DistO.blocks; abel1) ?_
  refine Owns.free (P' := A.blocks F + {rad}) (by unfold DistO.blocks; abel1) ?_
  split
  · refine Owns.call (hF.array A.tile) (R := {A.self} + {A.row} + {A.col} + {rad})
      (by unfold DistO.blocks; abel1) ?_
    rintro d _ rfl
    refine Owns.useR (R := A.blocks F) (by unfold DistO.blocks; abel1) ?_
    refine Owns.free (P' := A.blocks F + {rad}) (by unfold DistO.blocks; abel1) ?_
    refine Owns.free (P' := A.blocks F) (by abel1) ?_
    exact Owns.malloc_last fun p => by abel1
  · refine Owns.free (P' := A.blocks F) (by abel1) ?_
    exact Owns.malloc_last fun p => by abel1

theorem DistO.convert_owns {G : Fmt K} (hG : G.Safe E size) (conv : L → M K) (A : DistO L)
    (hc : Owns E (F.blocks A.tile) (conv A.tile) fun t P => P = F.blocks A.tile + G.blocks t) :
    Owns E (A.blocks F) (A.convert G conv) fun B P =>
      ∃ X, P = A.blocks F + B.blocks G + X ∧ X.card = size := by
  unfold DistO.convert
  refine Owns.use A.self_le ?_
  refine Owns.call (newDist_owns hG) (R := A.blocks F) (by abel1) ?_
  rintro B _ ⟨rfl, h⟩
  refine Owns.call hc (R := {A.self} + {A.row} + {A.col} + B.blocks G) (by simp only [DistO.blocks]; abel1) ?_
  rintro t _ rfl
  exact Owns.pure ⟨G.blocks B.tile, by simp only [DistO.blocks]; abel1, h⟩

/-! ## The formats are safe -/

theorem denseFmt_safe (N : Nat) : (denseFmt N).Safe E 14 where
  zero := (newDense_owns N).mono fun A _ h => ⟨h.1, by simp [denseFmt, DenseO.blocks, Dom.blocks]⟩
  copyNew A := A.copyNew_owns.mono fun _ _ h => h.1
  copyTo A B := Owns.use le_rfl (Owns.pure rfl)
  deallocate A := A.deallocate_owns
  array A := A.array_owns
  fromArray p := by
    refine Owns.call (newDense_owns N) (R := {p}) (by abel1) ?_
    rintro A _ ⟨rfl, _⟩
    exact Owns.use le_rfl (Owns.pure (add_comm _ _))
  multiply k A B C := Owns.use le_rfl (Owns.pure rfl)
  send A := Owns.use_last le_rfl rfl
  recv A := Owns.use le_rfl (Owns.pure rfl)
  transpose A := Owns.use le_rfl (Owns.pure rfl)

theorem ellFmt_safe (N : Nat) (plain : Nat → Bool) : (ellFmt N plain).Safe E 16 where
  zero := (newEll_owns N).mono fun A _ h => ⟨h.1, by simp [ellFmt, EllO.blocks, Dom.blocks]⟩
  copyNew A := (A.newFrom_owns A.N).mono fun _ _ h => h.1
  copyTo A B := Owns.use le_rfl (Owns.pure rfl)
  deallocate A := A.deallocate_owns
  array A := A.array_owns
  fromArray p := by
    refine Owns.call (newEll_owns N) (R := {p}) (by abel1) ?_
    rintro A _ ⟨rfl, _⟩
    exact Owns.use le_rfl (Owns.pure (add_comm _ _))
  multiply k A B C := by
    refine Owns.bind (EllO.multiply_owns false (plain k) A B C (fun h => absurd h (by decide))) ?_
    rintro _ _ rfl
    exact Owns.pure rfl
  send A := Owns.use_last le_rfl rfl
  recv A := Owns.use le_rfl (Owns.pure rfl)
  transpose A := Owns.use le_rfl (Owns.pure rfl)

end Memory
end Bml
