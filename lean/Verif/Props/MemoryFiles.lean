import Verif.Memory.DistFiles
import Verif.Props.MemoryBlock
import Verif.Props.MemoryDist

/-!
# C85 for reading and writing distributed matrices

`first`: the rank is 0, the one that reads or writes the file.
-/

namespace Bml
namespace Spec

open Memory

/-- What one rank has of a distributed matrix whose tile has the blocks `own`. -/
def heldBy {L : Type} (own : L → Multiset Blk) (A : DistO L) : Multiset Blk :=
  {A.self} + {A.row} + {A.col} + own A.tile

end Spec

namespace Props

open Memory _root_.Bml.Spec

variable [Allocator]

/-- Reading and writing a distributed dense or ELLPACK matrix leaves, on every rank, the matrix and nothing
else; with any number of ranks. -/
theorem C85_distributed_files (n N nt : Nat) (hnt : 0 < nt) (first : Bool) (A : DistO DenseO) (B : DistO EllO) :
    Leaves (A.readFile (denseFiles n N) first) (heldBy DenseO.blocks A) (heldBy DenseO.blocks) ∧
    Leaves (A.writeFile (denseFiles n N) first nt) (heldBy DenseO.blocks A) (fun _ => heldBy DenseO.blocks A) ∧
    Leaves (B.readFile (ellFiles n N) first) (heldBy EllO.blocks B) (heldBy EllO.blocks) ∧
    Leaves (B.writeFile (ellFiles n N) first nt) (heldBy EllO.blocks B) (fun _ => heldBy EllO.blocks B) :=
  ⟨blk_leaves (DistO.readFile_owns (denseFiles_safe n N nt A.tile) first) rfl,
   blk_leaves (DistO.writeFile_owns (denseFiles_safe n N nt A.tile) hnt first) (by cases first <;> rfl),
   blk_leaves (DistO.readFile_owns (ellFiles_safe n N nt B.tile) first) rfl,
   blk_leaves (DistO.writeFile_owns (ellFiles_safe n N nt B.tile) hnt first) (by cases first <;> rfl)⟩

/-- A dense matrix on four ranks, read and written by rank 0, then released: the two communicators stay. -/
example : Res.okAnd (fun r => decide (r.2.card = 2)) (letI := exTop; (do
    let A ← newDist (denseFmt 2)
    let A ← A.readFile (denseFiles 2 4) true
    A.writeFile (denseFiles 2 4) true 4
    A.deallocate (denseFmt 2) : M Unit) 0) = true := by decide +kernel

/-- Reading a distributed CSR matrix loses, on every rank, the two arrays `bml_extract_submatrix` makes for each
of the `n` rows of a tile; writing loses nothing.  Whatever rows have to grow. -/
theorem C85_csr_read_file_leaks (n N nt : Nat) (hnt : 0 < nt) (first : Bool) (A : DistO CsrO)
    (rd bc : List (Nat × Bool)) (full : Nat → Bool) (asg : Nat → List (Nat × Bool))
    (hrd : ∀ x ∈ rd, x.1 < N) (hbc : ∀ x ∈ bc, x.1 < N) (hasg : ∀ k, ∀ x ∈ asg k, x.1 < N) :
    Loses (2 * n) (A.readFile (csrFiles n N rd bc full asg) first) (heldBy CsrO.blocks A)
      (heldBy CsrO.blocks) ∧
    Leaves (A.writeFile (csrFiles n N rd bc full asg) first nt) (heldBy CsrO.blocks A)
      (fun _ => heldBy CsrO.blocks A) := by
  have S : (csrFiles n N rd bc full asg).Safe False A.tile nt 0 (2 * n) 0 :=
    csrFiles_safe n N nt rd bc full asg A.tile hrd hbc hasg
  refine ⟨mem_loses (DistO.readFile_owns S first) ?_,
    blk_leaves (DistO.writeFile_owns S hnt first) (by cases first <;> rfl)⟩
  rintro A' P ⟨X, e, hx⟩
  exact ⟨X, e, by omega⟩

/-- Four ranks with tiles of two rows, a file with entries in rows 0 and 3, rows that have to grow: reading loses
four blocks, writing none. -/
example : Res.okAnd (fun r => decide (r.2.card = 4)) (letI := exTop; (do
    let t ← newCsr 2
    let s ← malloc
    let F := csrFiles 2 4 [(0, true), (3, false)] [(0, false), (3, true)] (fun i => decide (i = 0))
      fun k => [(k, true)]
    let A : DistO CsrO := ⟨s, s, s, t⟩
    let A ← A.readFile F false
    A.writeFile F true 4
    A.tile.deallocate
    free s : M Unit) 0) = true := by decide +kernel

/-- Reading a distributed block-ELLPACK matrix loses, on every rank, the array of the block sizes, and the
submatrices by which the rows of the tile shrink. -/
theorem C85_ellblock_read_file_leaks (p : Nat) (hp : 0 < p) (n m : Nat → Nat) (first : Bool) (A : DistO BlkO)
    (hn : ∀ i < A.tile.rows.length * p, n i ≤ A.tile.MB * p) (hm : ∀ i < A.tile.rows.length, m i ≤ A.tile.MB)
    (hr : Fits A.tile m) (hc : Ready A.tile) (hA : ∀ r ∈ A.tile.rows, r.used.length ≤ A.tile.MB) :
    Loses (1 + dropped A.tile m) (A.readFile (blkFiles p n m fun _ _ => 0) first) (heldBy BlkO.blocks A)
      (heldBy BlkO.blocks) := by
  rw [← blk_dropped]
  refine mem_loses (DistO.readFile_owns (blkFiles_safe p 1 n m (fun _ _ => 0) A.tile hp hn hm
    (fun _ _ _ => Nat.zero_le _) (blk_room hr) (blk_clean hc)
    fun _ r hi => hA r (List.mem_of_getElem? hi)) first) ?_
  rintro A' P ⟨X, e, hx⟩
  exact ⟨X, e, by omega⟩

/-- Writing a distributed block-ELLPACK matrix loses the array of the block sizes on rank 0 and nothing on the
others; every tile has at most `MB` submatrices in a row, and none of them is lost on the way. -/
theorem C85_ellblock_write_file_leaks (p nt : Nat) (hp : 0 < p) (hnt : 0 < nt) (c : Nat → Nat → Nat)
    (first : Bool) (A : DistO BlkO) (hc : ∀ k, ∀ i < A.tile.rows.length, c k i ≤ A.tile.MB)
    (hr : Ready A.tile) (hA : ∀ r ∈ A.tile.rows, r.used.length ≤ A.tile.MB) :
    Loses (if first then 1 else 0) (A.writeFile (blkFiles p (fun _ => 0) (fun _ => 0) c) first nt)
      (heldBy BlkO.blocks A) (fun _ => heldBy BlkO.blocks A) :=
  mem_loses (DistO.writeFile_owns (blkFiles_safe p nt (fun _ => 0) (fun _ => 0) c A.tile hp
    (fun _ _ => Nat.zero_le _) (fun _ _ => Nat.zero_le _) hc (fun _ _ _ => Nat.zero_le _) (blk_clean hr)
    fun _ r hi => hA r (List.mem_of_getElem? hi)) hnt first) fun _ _ h => h

/-- Four ranks, a tile of two block rows with one submatrix each on rank 0.  Reading a file with two and one
submatrices in the rows of the tile loses one block; with one and none it loses two. -/
example : Res.okAnd (fun r => decide (r.2.card = 1)) (letI := exTop; (do
    let t ← fullBlk 4 2 2 fun _ => 1
    let s ← malloc
    let A : DistO BlkO := ⟨s, s, s, t⟩
    let A ← A.readFile (blkFiles 2 (fun i => if i = 0 then 3 else 1) (fun i => 2 - i) fun _ _ => 0) true
    A.tile.deallocate
    free s : M Unit) 0) = true := by decide +kernel

example : Res.okAnd (fun r => decide (r.2.card = 2)) (letI := exTop; (do
    let t ← fullBlk 4 2 2 fun _ => 1
    let s ← malloc
    let A : DistO BlkO := ⟨s, s, s, t⟩
    let A ← A.readFile (blkFiles 2 (fun i => if i = 0 then 3 else 1) (fun i => 1 - i) fun _ _ => 0) true
    A.tile.deallocate
    free s : M Unit) 0) = true := by decide +kernel

/-- Writing on four ranks that send full rows. -/
example : Res.okAnd (fun r => decide (r.2.card = 1)) (letI := exTop; (do
    let t ← fullBlk 4 2 2 fun _ => 2
    let s ← malloc
    let A : DistO BlkO := ⟨s, s, s, t⟩
    A.writeFile (blkFiles 2 (fun _ => 0) (fun _ => 0) fun _ _ => 2) true 4
    A.tile.deallocate
    free s : M Unit) 0) = true := by decide +kernel

end Props
end Bml
