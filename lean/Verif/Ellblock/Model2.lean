import Verif.Ellblock.Model

/-!
# The block-ELLPACK format: thresholds

Sources under `src/C-interface/ellblock/`.
-/

namespace Bml

namespace EllB

variable {R : Type}

/-- Thresholding inside a block (`bml_threshold_ellblock_typed.c` 67-75 and 123-131): elements that
are not above the threshold become zero. -/
def thrBlock [Zero R] (big : R → Bool) (bi bj : Nat) (b : Arr R) : Res (Arr R) :=
  loop2 bi bj b fun ii jj b => do
    let x ← b.read (ROWMAJOR ii jj bi bj)
    if big x = false then b.write (ROWMAJOR ii jj bi bj) 0 else pure b

/-- `bml_threshold_new_ellblock` (`bml_threshold_ellblock_typed.c` 29-85). -/
def thresholdNew [Zero R] (g : Glob) (big : R → Bool) (A : EllB R) : Res (Glob × EllB R) := do
  let (g, B) ← blockMatrix (R := R) g A.NB A.MB A.M A.bsize
  let B ← loop A.NB B fun ib B =>
    A.eachIdx ib B fun ind jb B => do
      let v ← A.block ind
      let bi ← A.bsize.read ib
      let bj ← A.bsize.read jb
      let above ← anyBig big v 0 (bi * bj)
      if above then do
        let n ← B.nnzb.read ib
        let b ← copyNew (bi * bj) v
        let b ← thrBlock big bi bj b
        let B ← B.alloc (ROWMAJOR ib n A.NB A.MB) b
        let B ← B.setIndex (ROWMAJOR ib n A.NB A.MB) jb
        B.setNnzb ib (n + 1)
      else pure B
  pure (g, B)

/-- `A->indexb[ind-1] = A->indexb[ind]; A->ptr_value[ind-1] = A->ptr_value[ind]`
(`bml_allocate_ellblock_typed.c` 104-105). -/
def moveCell (A : EllB R) (ind : Nat) : Res (EllB R) := do
  let x ← A.indexb.read ind
  let ix ← A.indexb.write (ind - 1) x
  let p ← A.ptr.read ind
  let ptr ← A.ptr.write (ind - 1) p
  pure { A with indexb := ix, ptr := ptr }

/-- `bml_free_block_ellblock` (`bml_allocate_ellblock_typed.c` 41-117), without the memory pool.  The
loop over `jpp` is written as a loop over the addresses `ROWMAJOR(ib, jpp)`.  (If there is no such
block and the row is empty, C sets `nnzb` to `-1`; here it stays `0`.) -/
def freeBlock (A : EllB R) (ib jb : Nat) : Res (EllB R) := do
  let n ← A.nnzb.read ib
  let A ← match ← A.findBlk ib jb 0 n with
    | none => pure A
    | some ind => do
      let A ← A.freeAt ind
      let A ← loopFrom (ind + 1) (ROWMAJOR ib n A.NB A.MB) A fun k A => A.moveCell k
      let last := ROWMAJOR ib (n - 1) A.NB A.MB
      let ptr ← A.ptr.write last none
      let ix ← A.indexb.write last unset
      pure { A with ptr := ptr, indexb := ix }
  A.setNnzb ib (n - 1)

/-- The loop over the blocks of one row in `bml_threshold_ellblock`
(`bml_threshold_ellblock_typed.c` 110-138): `jp` moves on after a block that stays, and stays after
a block that is removed.  `nnzb[ib] - jp` falls by one each time, so the fuel `nnzb[ib] + 1` is
not used up. -/
def thresholdRow [Zero R] (big : R → Bool) (ib : Nat) : Nat → Nat → EllB R → Res (EllB R)
  | 0, _, _ => .ub
  | fuel + 1, jp, A => do
    let n ← A.nnzb.read ib
    if jp < n then do
      let ind := ROWMAJOR ib jp A.NB A.MB
      let jb ← A.indexb.read ind
      let v ← A.block ind
      let bi ← A.bsize.read ib
      let bj ← A.bsize.read jb
      let above ← anyBig big v 0 (bi * bj)
      if above then do
        let b ← thrBlock big bi bj v
        let A ← A.putBlock ind b
        thresholdRow big ib fuel (jp + 1) A
      else do
        let A ← A.freeBlock ib jb
        thresholdRow big ib fuel jp A
    else pure A

/-- `bml_threshold_ellblock` (`bml_threshold_ellblock_typed.c` 95-140). -/
def threshold [Zero R] (big : R → Bool) (A : EllB R) : Res (EllB R) :=
  loop A.NB A fun ib A => do
    let n ← A.nnzb.read ib
    thresholdRow big ib (n + 1) 0 A

end EllB

end Bml
