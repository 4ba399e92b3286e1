import Mathlib.Data.Finset.Card
import Mathlib.Data.Finset.Range
import Mathlib.Data.Finset.Interval
import Verif.Memory.Dist
import Verif.Memory.BlockProof

/-!
# What reading and writing a distributed matrix does with memory

`distributed2d/bml_utilities_distributed2d.c` on one rank.  The matrix for the whole is made by one branch for
block-ELLPACK (lines 32-43 and 89-102) and by another for all other formats.  The files and the buffers of
MPI are left out.
-/

namespace Bml
namespace Memory

variable [Allocator] {L : Type}

/-- The functions of a tile format that `bml_utilities_distributed2d.c` calls; the first argument of `recv` and
`assign` is the number of the rank the tile comes from. -/
structure FileFmt (L : Type) where
  blocks : L → Multiset Blk
  whole : L → M L
  noinit : L → M L
  read : L → M L
  bcast : L → M L
  extract : L → L → M L
  copyTo : L → L → M L
  deallocate : L → M Unit
  recv : Nat → L → M L
  assign : Nat → L → L → M L
  send : L → M Unit
  write : L → M Unit

/-- `bml_read_bml_matrix_distributed2d` (`distributed2d/bml_utilities_distributed2d.c` 16-66); `first`: the rank
is 0. -/
def DistO.readFile (F : FileFmt L) (first : Bool) (A : DistO L) : M (DistO L) := do
  use {A.self}
  let B ← F.whole A.tile
  let B ← (if first then F.read B else pure B)
  let B ← F.bcast B
  let C ← F.extract B A.tile
  let t ← F.copyTo C A.tile
  F.deallocate B
  F.deallocate C
  pure { A with tile := t }

/-- The loop over the other ranks (`distributed2d/bml_utilities_distributed2d.c` 114-125), `n` turns from rank
`k` on. -/
def gatherTurns (F : FileFmt L) (tile : L) : Nat → Nat → L → M L
  | 0, _, B => pure B
  | n + 1, k, B => do
    let C ← F.noinit tile
    let C ← F.recv k C
    let B ← F.assign k B C
    F.deallocate C
    gatherTurns F tile n (k + 1) B

/-- `bml_write_bml_matrix_distributed2d` (`distributed2d/bml_utilities_distributed2d.c` 68-136) with `ntasks`
ranks. -/
def DistO.writeFile (F : FileFmt L) (first : Bool) (ntasks : Nat) (A : DistO L) : M Unit := do
  use {A.self}
  if first then do
    let B ← F.whole A.tile
    let B ← F.assign 0 B A.tile
    let B ← gatherTurns F A.tile (ntasks - 1) 1 B
    F.write B
    F.deallocate B
  else
    F.send A.tile

/-- Dense tiles of `n` rows, `N` rows in the whole: `bml_read_bml_matrix_dense`, `bml_write_bml_matrix_dense`
(`dense/bml_utilities_dense_typed.c`), `bml_mpi_bcast_matrix_dense`, `bml_mpi_recv_dense`, `bml_mpi_send_dense`
(`dense/bml_parallel_dense_typed.c`), `bml_extract_submatrix_dense`, `bml_assign_submatrix_dense`
(`dense/bml_submatrix_dense_typed.c`) allocate nothing but the extracted matrix. -/
def denseFiles (n N : Nat) : FileFmt DenseO where
  blocks := DenseO.blocks
  whole _ := newDense N
  noinit _ := newDense n
  read B := do use B.blocks; pure B
  bcast B := do use B.blocks; pure B
  extract B _ := do
    use B.blocks
    let C ← newDense n
    use (B.blocks + C.blocks)
    pure C
  copyTo C A := do use (C.blocks + A.blocks); pure A
  deallocate := DenseO.deallocate
  recv _ C := do use C.blocks; pure C
  assign _ B C := do use (B.blocks + C.blocks); pure B
  send A := use A.blocks
  write B := use B.blocks

/-- ELLPACK tiles: `ellpack/bml_utilities_ellpack_typed.c`, `ellpack/bml_parallel_ellpack_typed.c` and
`bml_extract_submatrix_ellpack`, `bml_assign_submatrix_ellpack` (`ellpack/bml_submatrix_ellpack_typed.c`). -/
def ellFiles (n N : Nat) : FileFmt EllO where
  blocks := EllO.blocks
  whole _ := newEll N
  noinit _ := newEll n
  read B := do use B.blocks; pure B
  bcast B := do use B.blocks; pure B
  extract B _ := B.newFrom n
  copyTo C A := do use (C.blocks + A.blocks); pure A
  deallocate := EllO.deallocate
  recv _ C := do use C.blocks; pure C
  assign _ B C := do use (B.blocks + C.blocks); pure B
  send A := use A.blocks
  write B := use B.blocks

/-- CSR tiles: `csr/bml_utilities_csr_typed.c` 23-178, `csr/bml_parallel_csr_typed.c` 23-125 and 194-259,
`csr/bml_submatrix_csr_typed.c` 29-97 and `bml_copy_csr` (`csr/bml_copy_csr_typed.c` 87-138).  `rd`, `bc` and
`asg k` are the rows the file, the broadcast and the tile of rank `k` add to, each with whether it has to grow;
`full` is that for the rows of the extracted matrix.  Left out: rows too small for what is received or copied into
them, which overflow or end in an error (C67). -/
def csrFiles (n N : Nat) (rd bc : List (Nat × Bool)) (full : Nat → Bool) (asg : Nat → List (Nat × Bool)) :
    FileFmt CsrO where
  blocks := CsrO.blocks
  whole _ := newCsr N
  noinit _ := newCsr n
  read B := do
    use B.blocks
    let rows ← appends rd B.rows
    pure { B with rows := rows }
  bcast B := do
    use B.blocks
    let cols ← malloc
    let nnz ← malloc
    let values ← malloc
    use ({cols} + {nnz} + {values})
    let rows ← appends bc B.rows
    freeAll [values, cols, nnz]
    pure { B with rows := rows }
  extract B _ := B.extract n full
  copyTo C A := do use (C.blocks + A.blocks); pure A
  deallocate := CsrO.deallocate
  recv _ C := do
    each (fun _ : Unit => do
      let q ← malloc
      use {q}
      free q) [(), (), ()]
    use C.blocks
    pure C
  assign k B C := do
    use (B.blocks + C.blocks)
    let rows ← appends (asg k) B.rows
    pure { B with rows := rows }
  send A := do
    use A.blocks
    each (fun _ : Unit => do
      let q ← malloc
      use {q}
      free q) [(), (), ()]
  write B := use B.blocks

/-- `n` submatrices more in a row. -/
def addRow (n : Nat) (r : BRow) : M BRow := do
  let s ← freshRow n r.rest
  pure ⟨r.used ++ s.used, s.rest⟩

/-- The arrays of a message: `indexb`, `nnzb`, `values`. -/
def withArrays {α : Type} (c : M α) : M α := do
  let indexb ← malloc
  let nnzb ← malloc
  let values ← malloc
  use ({indexb} + {nnzb} + {values})
  let r ← c
  freeAll [nnzb, indexb, values]
  pure r

/-- The matrix for the whole of `p` rows and columns of tiles
(`distributed2d/bml_utilities_distributed2d.c` 32-43 and 89-102): the array of the block sizes is copied by
`bml_block_matrix_ellblock` and not freed by anyone. -/
def BlkO.whole (p : Nat) (A : BlkO) : M BlkO := do
  let bsizes ← malloc
  use ({bsizes} + {A.self} + {A.bsize})
  newBlk (A.N * p) (A.rows.length * p) (A.MB * p)

/-- `bml_read_bml_matrix_ellblock` (`ellblock/bml_utilities_ellblock_typed.c` 24-163) of a file with entries in
`n i` submatrices of row `i`, not marked symmetric. -/
def BlkO.readIn (n : Nat → Nat) (B : BlkO) : M BlkO := do
  use B.blocks
  let rows ← eachRow (fun i r => addRow (n i) r) 0 B.rows
  pure { B with rows := rows }

/-- `bml_mpi_bcast_matrix_ellblock` (`ellblock/bml_parallel_ellblock_typed.c` 158-223) of a matrix with `n i`
submatrices in row `i`. -/
def BlkO.bcast (n : Nat → Nat) (B : BlkO) : M BlkO :=
  withArrays do
    use B.blocks
    let B ← B.clear
    let rows ← eachRow (fun i r => freshRow (n i) r.ptrs) 0 B.rows
    pure { B with rows := rows }

/-- `bml_mpi_recv_ellblock` (`ellblock/bml_parallel_ellblock_typed.c` 59-100) of a matrix with `n i` submatrices
in row `i`. -/
def BlkO.recv (n : Nat → Nat) (C : BlkO) : M BlkO :=
  withArrays do
    use C.blocks
    let rows ← eachRow (fun i r => freshRow (n i) r.ptrs) 0 C.rows
    pure { C with rows := rows }

/-- `bml_mpi_send_ellblock` (`ellblock/bml_parallel_ellblock_typed.c` 22-57). -/
def BlkO.send (A : BlkO) : M Unit := withArrays (use A.blocks)

/-- The submatrices of row `i`. -/
def BlkO.inRow (A : BlkO) (i : Nat) : Nat := (A.rows.getD i ⟨[], []⟩).used.length

/-- `bml_assign_submatrix_ellblock` (`ellblock/bml_submatrix_ellblock_typed.c` 114-176): the tile of rank `k` of
`p` rows and columns of tiles, its submatrices behind those already there. -/
def BlkO.assign (p k : Nat) (B C : BlkO) : M BlkO := do
  use (B.blocks + C.blocks)
  let rows ← eachRow (fun i r =>
    addRow (if i / C.rows.length = k / p then C.inRow (i % C.rows.length) else 0) r) 0 B.rows
  pure { B with rows := rows }

/-- `bml_write_bml_matrix_ellblock` (`ellblock/bml_utilities_ellblock_typed.c` 173-256). -/
def BlkO.print (B : BlkO) : M Unit := do
  use B.blocks
  let offset ← malloc
  use (B.blocks + {offset})
  free offset

/-- Block-ELLPACK tiles on `p` rows and columns of ranks; the default block sizes are those of the tiles.  The
file has `n i` submatrices in row `i`, of them `m i` in row `i` of the tile; rank `k` sends `c k i` submatrices
in row `i`. -/
def blkFiles (p : Nat) (n m : Nat → Nat) (c : Nat → Nat → Nat) : FileFmt BlkO where
  blocks := BlkO.blocks
  whole A := A.whole p
  noinit A := newBlk A.N A.rows.length A.MB
  read := BlkO.readIn n
  bcast := BlkO.bcast n
  extract B A := B.newFrom A.N A.rows.length A.MB m
  copyTo C A := C.copy A m
  deallocate := BlkO.deallocate
  recv k := BlkO.recv (c k)
  assign := BlkO.assign p
  send := BlkO.send
  write := BlkO.print

/-! ## Proofs -/

variable {E : Prop}

/-- What the functions of a format leave, for `nt` ranks: `lost` blocks are lost with the matrix for the whole,
`ext` with the extracted one and `loss` with the copy into the tile. -/
structure FileFmt.Safe (E : Prop) (F : FileFmt L) (tile : L) (nt lost ext loss : Nat) where
  Fresh : L → Prop
  Recv : L → Prop
  Full : L → Prop
  Tile : L → Prop
  W : Nat → L → Prop
  own : Tile tile
  full : ∀ B, Fresh B → Full B
  whole : Owns E (F.blocks tile) (F.whole tile) fun B P =>
    ∃ X, P = F.blocks tile + F.blocks B + X ∧ X.card = lost ∧ Fresh B ∧ W 0 B
  noinit : Owns E 0 (F.noinit tile) fun C P => P = F.blocks C ∧ Recv C
  read : ∀ B, Fresh B → Owns E (F.blocks B) (F.read B) fun B' P => P = F.blocks B' ∧ Full B'
  bcast : ∀ B, Full B → Owns E (F.blocks B) (F.bcast B) fun B' P => P = F.blocks B'
  extract : ∀ B, Owns E (F.blocks B) (F.extract B tile) fun C P =>
    ∃ X, P = F.blocks B + F.blocks C + X ∧ X.card = ext
  copyTo : ∀ C, Owns E (F.blocks C + F.blocks tile) (F.copyTo C tile) fun t P =>
    ∃ X, P = F.blocks C + F.blocks t + X ∧ X.card = loss
  deallocate : ∀ B, Owns E (F.blocks B) (F.deallocate B) fun _ P => P = 0
  recv : ∀ k C, Recv C → Owns E (F.blocks C) (F.recv k C) fun C' P => P = F.blocks C' ∧ Tile C'
  assign : ∀ k B C, k < nt → W k B → Tile C →
    Owns E (F.blocks B + F.blocks C) (F.assign k B C) fun B' P => P = F.blocks B' + F.blocks C ∧ W (k + 1) B'
  send : Owns E (F.blocks tile) (F.send tile) fun _ P => P = F.blocks tile
  write : ∀ B, Owns E (F.blocks B) (F.write B) fun _ P => P = F.blocks B

/-- The blocks of a distributed matrix on one rank. -/
def fileBlocks (F : FileFmt L) (A : DistO L) : Multiset Blk := {A.self} + {A.row} + {A.col} + F.blocks A.tile

omit [Allocator] in
theorem DistO.readFile_owns {F : FileFmt L} {A : DistO L} {nt lost ext loss : Nat}
    (S : F.Safe E A.tile nt lost ext loss) (first : Bool) :
    Owns E (fileBlocks F A) (A.readFile F first) fun A' P =>
      ∃ X, P = fileBlocks F A' + X ∧ X.card = lost + ext + loss := by
  unfold DistO.readFile
  refine Owns.useR (R := {A.row} + {A.col} + F.blocks A.tile) (by simp only [fileBlocks]; abel) ?_
  refine Owns.call S.whole (R := {A.self} + {A.row} + {A.col}) (by simp only [fileBlocks]; abel) ?_
  rintro B _ ⟨X, rfl, hx, hf, _⟩
  have h1 : Owns E (F.blocks B) (if first then F.read B else pure B) fun B' P => P = F.blocks B' ∧ S.Full B' := by
    cases first
    · exact Owns.pure ⟨rfl, S.full B hf⟩
    · exact S.read B hf
  refine Owns.call h1 (R := {A.self} + {A.row} + {A.col} + F.blocks A.tile + X) (by abel) ?_
  rintro B1 _ ⟨rfl, hB⟩
  refine Owns.call (S.bcast B1 hB) (R := {A.self} + {A.row} + {A.col} + F.blocks A.tile + X) (by abel) ?_
  rintro B2 _ rfl
  refine Owns.call (S.extract B2) (R := {A.self} + {A.row} + {A.col} + F.blocks A.tile + X) (by abel) ?_
  rintro C _ ⟨Z, rfl, hz⟩
  refine Owns.call (S.copyTo C) (R := {A.self} + {A.row} + {A.col} + F.blocks B2 + X + Z) (by abel) ?_
  rintro t _ ⟨Y, rfl, hy⟩
  refine Owns.call (S.deallocate B2) (R := {A.self} + {A.row} + {A.col} + F.blocks C + F.blocks t + X + Z + Y)
    (by abel) ?_
  rintro _ _ rfl
  refine Owns.call (S.deallocate C) (R := {A.self} + {A.row} + {A.col} + F.blocks t + X + Z + Y) (by abel) ?_
  rintro _ _ rfl
  exact Owns.pure ⟨X + Z + Y, by simp only [fileBlocks]; abel, by simp [hx, hy, hz]⟩

omit [Allocator] in
theorem gatherTurns_owns {F : FileFmt L} {tile : L} {nt lost ext loss : Nat} (S : F.Safe E tile nt lost ext loss) :
    ∀ (n k : Nat) (B : L), k + n ≤ nt → S.W k B →
      Owns E (F.blocks B) (gatherTurns F tile n k B) fun B' P => P = F.blocks B'
  | 0, k, B, _, _ => Owns.pure rfl
  | n + 1, k, B, h, hw => by
    refine Owns.call S.noinit (R := F.blocks B) (by abel) ?_
    rintro C _ ⟨rfl, hc⟩
    refine Owns.call (S.recv k C hc) (R := F.blocks B) rfl ?_
    rintro C' _ ⟨rfl, ht⟩
    refine Owns.call (S.assign k B C' (by omega) hw ht) (R := 0) (by abel) ?_
    rintro B' _ ⟨rfl, hw'⟩
    refine Owns.call (S.deallocate C') (R := F.blocks B') (by abel) ?_
    rintro _ _ rfl
    rw [zero_add]
    exact gatherTurns_owns S n (k + 1) B' (by omega) hw'

omit [Allocator] in
theorem DistO.writeFile_owns {F : FileFmt L} {A : DistO L} {nt lost ext loss : Nat}
    (S : F.Safe E A.tile nt lost ext loss) (hnt : 0 < nt) (first : Bool) :
    Owns E (fileBlocks F A) (A.writeFile F first nt) fun _ P =>
      ∃ X, P = fileBlocks F A + X ∧ X.card = if first then lost else 0 := by
  unfold DistO.writeFile
  refine Owns.useR (R := {A.row} + {A.col} + F.blocks A.tile) (by simp only [fileBlocks]; abel) ?_
  cases first
  · refine Owns.frame S.send (R := {A.self} + {A.row} + {A.col}) (by simp only [fileBlocks]; abel) ?_
    rintro _ _ rfl
    exact ⟨0, by simp only [fileBlocks]; abel, rfl⟩
  · refine Owns.call S.whole (R := {A.self} + {A.row} + {A.col}) (by simp only [fileBlocks]; abel) ?_
    rintro B _ ⟨X, rfl, hx, _, hw⟩
    refine Owns.call (S.assign 0 B A.tile hnt hw S.own) (R := {A.self} + {A.row} + {A.col} + X) (by abel) ?_
    rintro B1 _ ⟨rfl, hw1⟩
    refine Owns.call (gatherTurns_owns S (nt - 1) 1 B1 (by omega) hw1)
      (R := {A.self} + {A.row} + {A.col} + F.blocks A.tile + X) (by abel) ?_
    rintro B2 _ rfl
    refine Owns.call (S.write B2) (R := {A.self} + {A.row} + {A.col} + F.blocks A.tile + X) rfl ?_
    rintro _ _ rfl
    refine Owns.frame (S.deallocate B2) (R := {A.self} + {A.row} + {A.col} + F.blocks A.tile + X) rfl ?_
    rintro _ _ rfl
    exact ⟨X, by simp only [fileBlocks]; abel, by simpa using hx⟩

/-- Dense tiles. -/
def denseFiles_safe (n N nt : Nat) (A : DenseO) : (denseFiles n N).Safe E A nt 0 0 0 where
  Fresh _ := True
  Recv _ := True
  Full _ := True
  Tile _ := True
  W _ _ := True
  own := trivial
  full _ _ := trivial
  whole := by
    refine Owns.frame (newDense_owns N) (R := A.blocks) (by abel) ?_
    rintro B _ ⟨rfl, _⟩
    exact ⟨0, by simp only [denseFiles]; abel, rfl, trivial, trivial⟩
  noinit := (newDense_owns n).mono fun _ _ h => ⟨h.1, trivial⟩
  read B _ := Owns.use le_rfl (Owns.pure ⟨rfl, trivial⟩)
  bcast B _ := Owns.use le_rfl (Owns.pure rfl)
  extract B := by
    refine Owns.use le_rfl ?_
    refine Owns.call (newDense_owns n) (R := B.blocks) (by simp only [denseFiles]; abel) ?_
    rintro C _ ⟨rfl, _⟩
    exact Owns.useR (R := 0) (by abel) (Owns.pure ⟨0, by simp only [denseFiles]; abel, rfl⟩)
  copyTo C := Owns.use le_rfl (Owns.pure ⟨0, by simp only [denseFiles]; abel, rfl⟩)
  deallocate B := B.deallocate_owns
  recv _ C _ := Owns.use le_rfl (Owns.pure ⟨rfl, trivial⟩)
  assign _ B C _ _ _ := Owns.use le_rfl (Owns.pure ⟨rfl, trivial⟩)
  send := Owns.use_last le_rfl rfl
  write B := Owns.use_last le_rfl rfl

/-- ELLPACK tiles. -/
def ellFiles_safe (n N nt : Nat) (A : EllO) : (ellFiles n N).Safe E A nt 0 0 0 where
  Fresh _ := True
  Recv _ := True
  Full _ := True
  Tile _ := True
  W _ _ := True
  own := trivial
  full _ _ := trivial
  whole := by
    refine Owns.frame (newEll_owns N) (R := A.blocks) (by abel) ?_
    rintro B _ ⟨rfl, _⟩
    exact ⟨0, by simp only [ellFiles]; abel, rfl, trivial, trivial⟩
  noinit := (newEll_owns n).mono fun _ _ h => ⟨h.1, trivial⟩
  read B _ := Owns.use le_rfl (Owns.pure ⟨rfl, trivial⟩)
  bcast B _ := Owns.use le_rfl (Owns.pure rfl)
  extract B := (B.newFrom_owns n).mono fun _ _ h => ⟨0, by rw [h.1]; simp only [ellFiles]; abel, rfl⟩
  copyTo C := Owns.use le_rfl (Owns.pure ⟨0, by simp only [ellFiles]; abel, rfl⟩)
  deallocate B := B.deallocate_owns
  recv _ C _ := Owns.use le_rfl (Owns.pure ⟨rfl, trivial⟩)
  assign _ B C _ _ _ := Owns.use le_rfl (Owns.pure ⟨rfl, trivial⟩)
  send := Owns.use_last le_rfl rfl
  write B := Owns.use_last le_rfl rfl

/-- Appending to the rows of a CSR matrix. -/
theorem appendCsr_owns (app : List (Nat × Bool)) (B : CsrO) (h : ∀ x ∈ app, x.1 < B.rows.length) :
    Owns E B.blocks (appends app B.rows) fun L' P =>
      P = ({ B with rows := L' } : CsrO).blocks ∧ L'.length = B.rows.length := by
  refine Owns.frame (appends_owns app B.rows h) (R := {B.self} + {B.data})
    (by simp only [CsrO.blocks]; abel) ?_
  rintro L' _ ⟨rfl, hl⟩
  exact ⟨by simp only [CsrO.blocks]; abel, hl⟩

/-- An array for each message. -/
theorem arrays_owns : Owns E 0 (each (fun _ : Unit => do
      let q ← malloc
      use {q}
      free q) [(), (), ()]) fun _ P => P = 0 := by
  refine Owns.frame (Owns.each (own := fun _ => 0) (fun _ => ?_) [(), (), ()]) (R := 0) (by simp [total]) ?_
  · refine Owns.malloc fun q => ?_
    refine Owns.useR (R := 0) rfl ?_
    exact Owns.free_last (P' := 0) rfl rfl
  · rintro _ _ rfl
    rfl

/-- CSR tiles. -/
def csrFiles_safe (n N nt : Nat) (rd bc : List (Nat × Bool)) (full : Nat → Bool) (asg : Nat → List (Nat × Bool))
    (A : CsrO) (hrd : ∀ x ∈ rd, x.1 < N) (hbc : ∀ x ∈ bc, x.1 < N) (hasg : ∀ k, ∀ x ∈ asg k, x.1 < N) :
    (csrFiles n N rd bc full asg).Safe E A nt 0 (2 * n) 0 where
  Fresh B := B.rows.length = N
  Recv _ := True
  Full B := B.rows.length = N
  Tile _ := True
  W _ B := B.rows.length = N
  own := trivial
  full _ h := h
  whole := by
    refine Owns.frame (newCsr_owns N) (R := A.blocks) (by abel) ?_
    rintro B _ ⟨rfl, e⟩
    exact ⟨0, by simp only [csrFiles]; abel, rfl, e, e⟩
  noinit := (newCsr_owns n).mono fun _ _ h => ⟨h.1, trivial⟩
  read B h := by
    refine Owns.use le_rfl ?_
    refine Owns.bind (appendCsr_owns rd B (by rw [h]; exact hrd)) ?_
    rintro L' _ ⟨rfl, hl⟩
    exact Owns.pure ⟨rfl, hl.trans h⟩
  bcast B h := by
    refine Owns.use le_rfl (Owns.malloc fun x => Owns.malloc fun y => Owns.malloc fun z => ?_)
    refine Owns.useR (R := B.blocks) (by simp only [csrFiles]; abel) ?_
    refine Owns.call (appendCsr_owns bc B (by rw [h]; exact hbc)) (R := {x} + {y} + {z}) (by abel) ?_
    rintro L' _ ⟨rfl, _⟩
    refine Owns.freeAll (P' := ({ B with rows := L' } : CsrO).blocks) (by simp only [total]; abel) ?_
    exact Owns.pure rfl
  extract B := (B.extract_owns n full).mono fun _ _ ⟨X, e, hx, _⟩ => ⟨X, e, hx⟩
  copyTo C := Owns.use le_rfl (Owns.pure ⟨0, by simp only [csrFiles]; abel, rfl⟩)
  deallocate B := B.deallocate_owns
  recv _ C _ := by
    refine Owns.call arrays_owns (R := C.blocks) (by simp only [csrFiles]; abel) ?_
    rintro _ _ rfl
    exact Owns.useR (R := 0) (by abel) (Owns.pure ⟨by simp only [csrFiles]; abel, trivial⟩)
  assign k B C _ hw _ := by
    refine Owns.use le_rfl ?_
    refine Owns.call (appendCsr_owns (asg k) B (by rw [hw]; exact hasg k)) (R := C.blocks) rfl ?_
    rintro L' _ ⟨rfl, hl⟩
    exact Owns.pure ⟨rfl, hl.trans hw⟩
  send := by
    refine Owns.use le_rfl ?_
    refine Owns.frame arrays_owns (R := A.blocks) (by simp only [csrFiles]; abel) ?_
    rintro _ _ rfl
    simp only [csrFiles]
    abel
  write B := Owns.use_last le_rfl rfl

omit [Allocator] in
theorem total_append (a b : List Blk) : total (fun p => ({p} : Multiset Blk)) (a ++ b) =
    total (fun p => {p}) a + total (fun p => {p}) b := by
  induction a with
  | nil => simp [total]
  | cons p a ih => simp only [List.cons_append, total, ih]; abel

theorem addRow_owns (n : Nat) (r : BRow) (h : n ≤ r.rest.length) :
    Owns E r.blocks (addRow n r) fun r' P => P = r'.blocks ∧ r'.used.length = r.used.length + n ∧
      r'.used.length + r'.rest.length = r.used.length + r.rest.length := by
  refine Owns.call (freshRow_owns n r.rest h) (R := r.blocks) (by abel) ?_
  rintro s _ ⟨rfl, e1, e2⟩
  refine Owns.pure ⟨?_, by simp [e2], by simp [e1, e2]; omega⟩
  simp only [BRow.blocks, total_append]
  abel

theorem withArrays_owns {α : Type} {c : M α} {P : Multiset Blk} {Q : α → Multiset Blk → Prop}
    (h : Owns E P c Q) : Owns E P (withArrays c) Q := by
  unfold withArrays
  refine Owns.malloc fun x => Owns.malloc fun y => Owns.malloc fun z => ?_
  refine Owns.useR (R := P) (by abel) ?_
  refine Owns.call h (R := {x} + {y} + {z}) (by abel) ?_
  intro r P' hq
  refine Owns.freeAll (P' := P') (by simp only [total]; abel) ?_
  exact Owns.pure hq

/-- Adding submatrices to the rows. -/
theorem appendRows_owns (A : BlkO) (n : Nat → Nat)
    (h : ∀ (k : Nat) (r : BRow), A.rows[k]? = some r → n k ≤ r.rest.length) :
    Owns E A.blocks (eachRow (fun i r => addRow (n i) r) 0 A.rows) fun L' P =>
      P = ({ A with rows := L' } : BlkO).blocks ∧ L'.length = A.rows.length ∧
        ∀ (k : Nat) (r' : BRow), L'[k]? = some r' → ∃ r, A.rows[k]? = some r ∧
          r'.used.length = r.used.length + n k ∧
          r'.used.length + r'.rest.length = r.used.length + r.rest.length := by
  refine Owns.mono (rows_owns (fun _ _ => 0) (fun k r r' => r'.used.length = r.used.length + n k ∧
    r'.used.length + r'.rest.length = r.used.length + r.rest.length) A fun k r hk => ?_) ?_
  · refine Owns.mono (addRow_owns (n k) r (h k r hk)) ?_
    rintro r' P ⟨e, h1, h2⟩
    exact ⟨0, by rw [e, add_zero], rfl, h1, h2⟩
  · rintro L' P ⟨X, e, hx, hl, hp⟩
    rw [sumRows_zero, Multiset.card_eq_zero] at hx
    refine ⟨by rw [e, hx, add_zero], hl, fun k r' hk => ?_⟩
    have hlt : k < A.rows.length := by
      rw [← hl]
      exact (List.getElem?_eq_some_iff.1 hk).1
    have h1 : A.rows[k]? = some A.rows[k] := List.getElem?_eq_getElem hlt
    exact ⟨_, h1, hp k _ r' h1 hk⟩

/-- Rows without submatrices lose none when they are filled. -/
theorem fillEmpty_owns (A : BlkO) (n : Nat → Nat) (hr : A.Room n)
    (h0 : ∀ (k : Nat) (r : BRow), A.rows[k]? = some r → r.used = []) :
    Owns E A.blocks (eachRow (fun i r => freshRow (n i) r.ptrs) 0 A.rows) fun L' P =>
      P = ({ A with rows := L' } : BlkO).blocks ∧ L'.length = A.rows.length ∧
        ∀ (k : Nat) (r' : BRow), L'[k]? = some r' → k < A.rows.length ∧ r'.used.length = n k := by
  refine Owns.mono (fill_owns A n hr) ?_
  rintro L' P ⟨X, e, hx, hl, hp⟩
  have hX : X = 0 := by
    rw [← Multiset.card_eq_zero, hx]
    refine (sumRows_congr (g := fun _ _ => 0) A.rows 0 fun k r hk => ?_).trans (sumRows_zero 0 _)
    simp [h0 k r (by simpa using hk)]
  refine ⟨by rw [e, hX, add_zero], hl, fun k r' hk => ?_⟩
  have hlt : k < A.rows.length := by
    rw [← hl]
    exact (List.getElem?_eq_some_iff.1 hk).1
  exact ⟨hlt, (hp k _ r' (List.getElem?_eq_getElem hlt) hk).1⟩

/-- The ranks before rank `k` in row `q` of the grid. -/
def before (p k q : Nat) : Nat := ((Finset.range k).filter fun t => t / p = q).card

omit [Allocator] in
theorem before_le {p : Nat} (hp : 0 < p) (k q : Nat) : before p k q ≤ p := by
  rw [before]
  calc _ ≤ (Finset.range p).card := by
        refine Finset.card_le_card_of_injOn (· % p) ?_ ?_
        · intro t _
          simpa using Nat.mod_lt t hp
        · intro a ha b hb hab
          have h1 : a / p = q := by simpa using (Finset.mem_filter.1 ha).2
          have h2 : b / p = q := by simpa using (Finset.mem_filter.1 hb).2
          rw [← Nat.div_add_mod a p, ← Nat.div_add_mod b p, h1, h2]
          exact congrArg _ hab
    _ = p := Finset.card_range p

omit [Allocator] in
theorem before_succ (p k q : Nat) : before p (k + 1) q = before p k q + if k / p = q then 1 else 0 := by
  rw [before, Finset.range_add_one, Finset.filter_insert]
  split
  · rw [Finset.card_insert_of_notMem (by simp)]
    rfl
  · rfl

/-- Block-ELLPACK tiles. -/
def blkFiles_safe (p nt : Nat) (n m : Nat → Nat) (c : Nat → Nat → Nat) (A : BlkO) (hp : 0 < p)
    (hn : ∀ i < A.rows.length * p, n i ≤ A.MB * p) (hm : ∀ i < A.rows.length, m i ≤ A.MB)
    (hc : ∀ k, ∀ i < A.rows.length, c k i ≤ A.MB) (hr : A.Room m) (hcl : A.Clean)
    (hA : ∀ (i : Nat) (r : BRow), A.rows[i]? = some r → r.used.length ≤ A.MB) :
    (blkFiles p n m c).Safe E A nt 1 0 (A.shrink m) where
  Fresh B := ∀ (k : Nat) (r : BRow), B.rows[k]? = some r → r.used = [] ∧ n k ≤ r.rest.length
  Recv C := C.rows = List.replicate A.rows.length ⟨[], List.replicate A.MB none⟩
  Full B := B.Room n
  Tile C := C.rows.length = A.rows.length ∧
    ∀ (i : Nat) (r : BRow), C.rows[i]? = some r → r.used.length ≤ A.MB
  W k B := ∀ (i : Nat) (r : BRow), B.rows[i]? = some r →
    r.used.length + r.rest.length = A.MB * p ∧ r.used.length ≤ A.MB * before p k (i / A.rows.length)
  own := ⟨rfl, hA⟩
  full B h k r hk := by
    have := h k r hk
    simp [BRow.ptrs, this.1, this.2]
  whole := by
    show Owns E A.blocks (A.whole p) _
    unfold BlkO.whole
    refine Owns.malloc fun b => ?_
    refine Owns.useR (R := {A.index} + {A.nnz} + {A.ptr} + total BRow.blocks A.rows)
      (by simp only [BlkO.blocks, BlkO.frame]; abel) ?_
    refine Owns.frame (newBlk_owns _ _ _) (R := {b} + A.blocks) (by abel) ?_
    rintro B _ ⟨rfl, e, _⟩
    refine ⟨{b}, by simp only [blkFiles]; abel, rfl, ?_, ?_⟩
    · intro k r hk
      rw [e] at hk
      obtain ⟨rfl, hlt⟩ := newBlk_row hk
      exact ⟨rfl, by simpa using hn k hlt⟩
    · intro k r hk
      rw [e] at hk
      obtain ⟨rfl, _⟩ := newBlk_row hk
      simp
  noinit := (newBlk_owns _ _ _).mono fun _ _ h => ⟨h.1, h.2.1⟩
  read B h := by
    show Owns E B.blocks (BlkO.readIn n B) _
    refine Owns.use le_rfl ?_
    refine Owns.bind (appendRows_owns B n fun k r hk => (h k r hk).2) ?_
    rintro L' _ ⟨rfl, _, hL⟩
    refine Owns.pure ⟨rfl, fun k r' hk => ?_⟩
    obtain ⟨r, h1, h2, _⟩ := hL k r' hk
    simp [BRow.ptrs, h2]
    omega
  bcast B h := by
    refine withArrays_owns (Owns.use le_rfl ?_)
    refine Owns.bind B.clear_owns ?_
    rintro B' _ ⟨rfl, hl, hq, _⟩
    have key : ∀ (k : Nat) (r' : BRow), B'.rows[k]? = some r' → r'.used = [] ∧ n k ≤ r'.ptrs.length := by
      intro k r' hk
      have hlt : k < B.rows.length := by
        rw [← hl]
        exact (List.getElem?_eq_some_iff.1 hk).1
      have h1 : B.rows[k]? = some B.rows[k] := List.getElem?_eq_getElem hlt
      rw [hq k _ r' h1 hk]
      exact ⟨rfl, by simpa [BRow.ptrs] using h k _ h1⟩
    refine Owns.bind (fillEmpty_owns B' n (fun k r hk => (key k r hk).2) fun k r hk => (key k r hk).1) ?_
    rintro L' _ ⟨rfl, _⟩
    exact Owns.pure rfl
  extract B := (B.newFrom_owns _ _ _ m hm).mono fun _ _ h => ⟨0, by rw [h.1]; simp only [blkFiles]; abel, rfl⟩
  copyTo C := C.copy_owns A m hr hcl
  deallocate B := B.deallocate_owns
  recv k C h := by
    refine withArrays_owns (Owns.use le_rfl ?_)
    refine Owns.bind (fillEmpty_owns C (c k) ?_ ?_) ?_
    · intro i r hi
      rw [h] at hi
      obtain ⟨rfl, hlt⟩ := newBlk_row hi
      simpa [BRow.ptrs] using hc k i hlt
    · intro i r hi
      rw [h] at hi
      rw [(newBlk_row hi).1]
    rintro L' _ ⟨rfl, hl, hL⟩
    have hlen : C.rows.length = A.rows.length := by rw [h, List.length_replicate]
    refine Owns.pure ⟨rfl, hl.trans hlen, fun i r hi => ?_⟩
    obtain ⟨h1, h2⟩ := hL i r hi
    rw [h2]
    exact hc k i (by omega)
  assign k B C hk hw ht := by
    refine Owns.use le_rfl ?_
    have hle : ∀ (i : Nat) (r : BRow), B.rows[i]? = some r →
        (if i / C.rows.length = k / p then C.inRow (i % C.rows.length) else 0) ≤
          A.MB * if k / p = i / A.rows.length then 1 else 0 := by
      intro i r _
      rw [ht.1]
      split
      · rename_i e
        rw [if_pos e.symm, Nat.mul_one, BlkO.inRow, List.getD_eq_getElem?_getD]
        cases hg : C.rows[i % A.rows.length]? with
        | none => exact Nat.zero_le _
        | some r => exact ht.2 _ r hg
      · exact Nat.zero_le _
    have hsum : ∀ (i : Nat) (r : BRow), B.rows[i]? = some r → r.used.length +
        (if i / C.rows.length = k / p then C.inRow (i % C.rows.length) else 0) ≤
          A.MB * before p (k + 1) (i / A.rows.length) := by
      intro i r hi
      rw [before_succ, Nat.mul_add]
      exact Nat.add_le_add (hw i r hi).2 (hle i r hi)
    refine Owns.call (appendRows_owns B (fun i =>
      if i / C.rows.length = k / p then C.inRow (i % C.rows.length) else 0) ?_) (R := C.blocks) rfl ?_
    · intro i r hi
      have h1 := hsum i r hi
      have h2 := Nat.mul_le_mul_left A.MB (before_le hp (k + 1) (i / A.rows.length))
      have h3 := (hw i r hi).1
      omega
    rintro L' _ ⟨rfl, _, hL⟩
    refine Owns.pure ⟨rfl, fun i r' hi => ?_⟩
    obtain ⟨r, h1, h2, h3⟩ := hL i r' hi
    exact ⟨h3.trans (hw i r h1).1, by rw [h2]; exact hsum i r h1⟩
  send := withArrays_owns (Owns.use_last le_rfl rfl)
  write B := by
    refine Owns.use le_rfl (Owns.malloc fun o => ?_)
    refine Owns.useR (R := 0) (by simp only [blkFiles]; abel) ?_
    exact Owns.free_last (P' := B.blocks) rfl rfl

end Memory
end Bml
