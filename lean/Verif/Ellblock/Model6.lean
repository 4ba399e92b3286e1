import Verif.Ellblock.Model

/-!
# Model of block-ELLPACK conversion and submatrices

`bml_convert_ellblock_typed.c` and `bml_submatrix_ellblock_typed.c`.
-/

namespace Bml

namespace EllB

variable {R : Type}

/-! ## Conversion -/

/-- `bml_convert_ellblock_typed.c` 57-65: the block `(ib,jb)` is read element by element with
`bml_get_element`, here `get`, into a buffer from `malloc`. -/
def convertRead (get : Nat → Nat → Res R) (junk : Nat → R) (bs off : Arr Nat) (ib jb : Nat) :
    Res (Arr R) := do
  let bi ← bs.read ib
  let bj ← bs.read jb
  loop2 bi bj (⟨bi * bj, junk⟩ : Arr R) fun ii jj b => do
    let oi ← off.read ib
    let oj ← off.read jb
    let v ← get (oi + ii) (oj + jj)
    b.write (ROWMAJOR ii jj bi bj) v

/-- Lines 51-67: one block.  `B->nnzb[ib]` is already `NB`, so `bml_set_block_ellblock` finds the
block by its index. -/
def convertBlock (get : Nat → Nat → Res R) (junk : Nat → R) (bs off : Arr Nat) (ib jb : Nat)
    (B : EllB R) : Res (EllB R) := do
  let bi ← bs.read ib
  let bj ← bs.read jb
  let B ← B.alloc (ROWMAJOR ib jb B.NB B.NB) ⟨bi * bj, junk⟩
  let B ← B.setIndex (ROWMAJOR ib jb B.NB B.NB) jb
  let b ← convertRead get junk bs off ib jb
  B.setBlock ib jb b

/-- `bml_convert_ellblock` (16-73): `N` is `bml_get_N` of the source matrix, `get i j` its
`bml_get_element`.  Simplification: the answer `-1` of `bml_get_N` for a NULL matrix, which ends the
program, is not modelled. -/
def convert (g : Glob) (N M : Nat) (get : Nat → Nat → Res R) (junk : Nat → R) :
    Res (Glob × EllB R) := do
  let (g, bs) ← getBlockSizes g N N
  let (g, B) ← blockMatrix (R := R) g g.nb g.nb M bs
  let off ← offsets bs B.NB
  let B ← loop B.NB B fun ib B => do
    let B ← B.setNnzb ib B.NB
    loop B.NB B (convertBlock get junk bs off ib)
  pure (g, B)

/-! ## Submatrices -/

/-- `while (count < target) { count += bsize[ib]; ib++; }`
(`bml_submatrix_ellblock_typed.c` 48-54, 57-63, 67-73, 134-140, 143-149).  The fuel
`bsize.size + 1` is never used up: the read runs out of bounds first. -/
def countTo (bs : Arr Nat) (target : Nat) : Nat → Nat → Nat → Res (Nat × Nat)
  | 0, _, _ => .ub
  | fuel + 1, ib, count =>
    if count < target then do
      let b ← bs.read ib
      countTo bs target fuel (ib + 1) (count + b)
    else .ok (ib, count)

/-- The same with `assert(count == target)` (48-55, 57-64, 134-141, 143-150): the block that starts
at row `target`. -/
def blockAt (bs : Arr Nat) (target : Nat) : Res Nat := do
  let r ← countTo bs target (bs.size + 1) 0 0
  if r.2 = target then pure r.1 else .error

/-- Lines 82-100: a block `jb` of row `ib` of `A`, stored at `ind`, goes to `B` if it lies in the
wanted block columns.  There is no check that the row of `B` has room.  Simplification: the new block is
filled before its pointer is stored. -/
def extractPut (A : EllB R) (irowb icolb nb ib ind jb : Nat) (B : EllB R) : Res (EllB R) :=
  if icolb ≤ jb ∧ jb < icolb + nb then do
    let bi ← A.bsize.read ib
    let bj ← A.bsize.read jb
    let n ← B.nnzb.read (ib - irowb)
    let indB := ROWMAJOR (ib - irowb) n B.NB B.MB
    let v ← A.block ind
    let b ← copyNew (bi * bj) v
    let B ← B.alloc indB b
    let B ← B.setIndex indB (jb - icolb)
    B.setNnzb (ib - irowb) (n + 1)
  else pure B

/-- `bml_extract_submatrix_ellblock` (25-105).  Negative `irow`, `icol` end the program at the
assertion and are not modelled. -/
def extract (g : Glob) (A : EllB R) (irow icol BN BM : Nat) : Res (Glob × EllB R) := do
  let (g, B) ← zeroMatrix (R := R) g BN BM
  let irowb ← blockAt A.bsize irow
  let icolb ← blockAt A.bsize icol
  let nb ← countTo A.bsize BN (A.bsize.size + 1) 0 0
  let B ← loopFrom irowb (irowb + nb.1) B fun ib B =>
    A.eachIdx ib B (extractPut A irowb icolb nb.1 ib)
  pure (g, B)

/-- Lines 157-173: the block `jb` of row `ib` of `B`, stored at `ind`, is appended to row
`ib + irowb` of `A`.  The number of elements is computed from the block sizes of `A` at `ib`, `jb`.  There
is no check for a block that is already there, nor for room.  Simplification: the new block is
filled before its pointer is stored. -/
def assignPut (B : EllB R) (irowb icolb ib ind jb : Nat) (A : EllB R) : Res (EllB R) := do
  let bi ← A.bsize.read ib
  let bj ← A.bsize.read jb
  let n ← A.nnzb.read (ib + irowb)
  let indA := ROWMAJOR (ib + irowb) n A.NB A.MB
  let v ← B.block ind
  let b ← copyNew (bi * bj) v
  let A ← A.alloc indA b
  let A ← A.setIndex indA (jb + icolb)
  A.setNnzb (ib + irowb) (n + 1)

/-- `bml_assign_submatrix_ellblock` (114-176), `A` and `B` different matrices. -/
def assign (A B : EllB R) (irow icol : Nat) : Res (EllB R) := do
  let irowb ← blockAt A.bsize irow
  let icolb ← blockAt A.bsize icol
  loop B.NB A fun ib A => B.eachIdx ib A (assignPut B irowb icolb ib)

end EllB

end Bml
