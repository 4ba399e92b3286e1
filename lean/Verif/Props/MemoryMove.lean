import Verif.Memory.BlockMove
import Verif.Props.MemoryBlock
import Verif.Props.MemoryDist

/-!
# C85 for the transpose in place and the messages of block-ELLPACK matrices
-/

namespace Bml
namespace Props

open Memory _root_.Bml.Spec

/-- The transpose in place keeps all blocks of the matrix and takes no other, unless a row is too short for what is
to be moved into it, whichever submatrices are exchanged and moved. -/
theorem C85_ellblock_transpose (A : BlkO) (L : List Move) :
    (∀ H, A.transposeIn L H = .ub) ∨ Leaves (A.transposeIn L) A.blocks BlkO.blocks := by
  rcases BlkO.transposeIn_owns (E := False) L A with h | h
  · exact .inl h
  · exact .inr (mem_leaves h fun _ _ h => h)

variable [Allocator]

/-- Sending a block-ELLPACK matrix leaves it and nothing else. -/
theorem C85_ellblock_send (A : BlkO) : Leaves A.send A.blocks fun _ => A.blocks :=
  mem_leaves A.send_owns fun _ _ h => h

/-- Receiving into a block-ELLPACK matrix, with or without waiting, loses all submatrices it had. -/
theorem C85_ellblock_recv_leaks (A : BlkO) (n : Nat → Nat) (hn : Fits A n) :
    Loses (submatrices A) (A.recv n) A.blocks BlkO.blocks ∧
      Loses (submatrices A) (A.irecv n) A.blocks BlkO.blocks := by
  rw [← blk_stored]
  exact ⟨mem_loses (A.recv_owns n (blk_room hn)) fun _ _ h => h,
    mem_loses (A.irecv_owns n (blk_room hn)) fun _ _ h => h⟩

/-- A matrix with two and one submatrices receives one and one, is transposed (the block of row 1 goes to row 0
and its place) and released: three blocks are lost. -/
example : Res.okAnd (fun r => decide (r.2.card = 3)) (letI := exTop; (do
    let A ← fullBlk 4 2 2 fun i => 2 - i
    let A ← A.irecv fun _ => 1
    let A ← A.transposeIn [.move 1 0, .swap 0 1 0]
    A.deallocate : M Unit) 0) = true := by decide +kernel

omit [Allocator] in
/-- After a transpose in place, `bml_add_identity` stores the diagonal block of a row over the submatrix that was
moved out of it; two pointers then lead to one block, and the release frees it twice.  Without the transpose the
same calls end well. -/
theorem C85_ellblock_add_after_transpose : ∃ al : Allocator,
    (letI := al; (do
      let A ← fullBlk 4 2 2 fun i => i
      let A ← A.transposeIn [.move 1 0, .swap 0 0 0]
      let A ← A.addIdentity (fun _ => 1) fun i => 2 - i
      A.deallocate : M Unit) 0) = .ub ∧
    (letI := al; (do
      let A ← fullBlk 4 2 2 fun i => i
      let A ← A.addIdentity (fun _ => 1) fun i => i + 1
      A.deallocate : M Unit) 0) = .ok ((), 0) :=
  ⟨exTop, Res.eq_ub_of_isUb (by decide +kernel), by decide +kernel⟩

omit [Allocator] in
/-- The product of distributed block-ELLPACK matrices receives into copies of the tiles that have submatrices: with
one submatrix in each tile, rank (1,0) of 2 x 2 loses three of them, beside the communicators. -/
theorem C85_distributed_ellblock_leaks : ∃ al : Allocator,
    Res.okAnd (fun r => decide (r.2.card = 6 + 3)) (letI := al; (do
      let F := blkFmt 2 1 1 (fun _ => 1) (fun _ => 1) (fun _ _ => 1) (fun _ _ => 1) (fun _ => false) []
      let a ← malloc
      let A ← importDist F false 4 a
      let B ← importDist F false 4 a
      let C ← newDist F
      free a
      let C' ← A.multiply F 2 1 0 B C
      A.deallocate F
      B.deallocate F
      C'.deallocate F : M Unit) 0) = true :=
  ⟨exTop, by decide +kernel⟩

end Props
end Bml
