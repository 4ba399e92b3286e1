import Verif.Ellblock.Model3
import Verif.Ellblock.Reduce
import Verif.Ellpack.Model4

/-!
# Model of block-ELLPACK transposition

`bml_transpose_ellblock_typed.c`.
-/

namespace Bml

namespace EllB

variable {R : Type}

/-- Lines 53-68: the block `jb` of row `ib`, stored at `ind` in `A`, goes to row `jb` of `B`.  There
is no check that the row has room.  Simplification: the new block is filled before its pointer is
stored, which no other statement sees. -/
def transposePut (junk : Nat → R) (A : EllB R) (ib ind jb : Nat) (B : EllB R) : Res (EllB R) := do
  let n ← B.nnzb.read jb
  let indB := ROWMAJOR jb n A.NB A.MB
  let B ← B.setIndex indB ib
  let bi ← A.bsize.read ib
  let bj ← A.bsize.read jb
  let v ← A.block ind
  let t ← transBlock bi bj v ⟨bi * bj, junk⟩
  let B ← B.alloc indB t
  B.setNnzb jb (n + 1)

/-- `bml_transpose_new_ellblock`, lines 28-73, `junk` the content of fresh memory. -/
def transposeNew (g : Glob) (junk : Nat → R) (A : EllB R) : Res (Glob × EllB R) := do
  let (g, B) ← blockMatrix (R := R) g A.NB A.MB A.M A.bsize
  let B ← loop A.NB B fun ib B => A.eachIdx ib B (transposePut junk A ib)
  pure (g, B)

/-- `ellblock_swap_block_row_entries`, lines 83-106. -/
def swapEntries (A : EllB R) (r p q : Nat) : Res (EllB R) :=
  if p = q then .ok A
  else do
    let tmp ← A.ptr.read (ROWMAJOR r p A.NB A.MB)
    let itmp ← A.indexb.read (ROWMAJOR r p A.NB A.MB)
    let y ← A.ptr.read (ROWMAJOR r q A.NB A.MB)
    let ptr ← A.ptr.write (ROWMAJOR r p A.NB A.MB) y
    let ptr ← ptr.write (ROWMAJOR r q A.NB A.MB) tmp
    let iy ← A.indexb.read (ROWMAJOR r q A.NB A.MB)
    let ix ← A.indexb.write (ROWMAJOR r p A.NB A.MB) iy
    let ix ← ix.write (ROWMAJOR r q A.NB A.MB) itmp
    pure { A with ptr := ptr, indexb := ix }

/-- Lines 163-172: the elements of the two blocks, each with its mirror image.  The blocks are
different allocations. -/
def swapBlocks (bi bj : Nat) (b b' : Arr R) : Res (Arr R × Arr R) :=
  loop2 bi bj (b, b') fun ii jj st => do
    let tmp ← st.1.read (ROWMAJOR ii jj bi bj)
    let y ← st.2.read (ROWMAJOR jj ii bj bi)
    let b ← st.1.write (ROWMAJOR ii jj bi bj) y
    let b' ← st.2.write (ROWMAJOR jj ii bj bi) tmp
    pure (b, b')

/-- Lines 252-261: a diagonal block in place. -/
def flipBlock (n : Nat) (b : Arr R) : Res (Arr R) :=
  loop n b fun ii b => loopFrom ii n b fun jj b => do
    let tmp ← b.read (ROWMAJOR ii jj n n)
    let y ← b.read (ROWMAJOR jj ii n n)
    let b ← b.write (ROWMAJOR ii jj n n) y
    b.write (ROWMAJOR jj ii n n) tmp

/-- Lines 150-155: the position of block `ib` in row `jb`, from position `p` on. -/
def findSym (A : EllB R) (ib jb : Nat) : Nat → Nat → Res (Option Nat)
  | _, 0 => .ok none
  | p, fuel + 1 => do
    let k ← A.indexb.read (ROWMAJOR jb p A.NB A.MB)
    if k = ib then pure (some p) else findSym A ib jb (p + 1) fuel

/-- The state of the loop over one row: the matrix, `nz_t` and `iposb + 1`. -/
structure TrSt (R : Type) where
  A : EllB R
  nzt : Arr Nat
  pos1 : Nat

/-- Lines 188-215 and 220-247: the block at `iposb` goes to row `jb`: its pointer is copied, the block
is transposed through `buffer` (`n2` elements), and row `ib` gets shorter.  Its pointer cell keeps the
address. -/
def moveBlock (n2 : Nat) (junk : Nat → R) (ib jb : Nat) (s : TrSt R) : Res (TrSt R) := do
  let A := s.A
  let n ← A.nnzb.read jb
  let x ← A.ptr.read (ROWMAJOR ib (s.pos1 - 1) A.NB A.MB)
  let ptr ← A.ptr.write (ROWMAJOR jb n A.NB A.MB) x
  let A := { A with ptr := ptr }
  let A ← A.setIndex (ROWMAJOR jb n A.NB A.MB) ib
  let A ← A.setNnzb jb (n + 1)
  let b ← A.block (ROWMAJOR jb n A.NB A.MB)
  let bi ← A.bsize.read ib
  let bj ← A.bsize.read jb
  let t ← transBlock bi bj b ⟨n2, junk⟩
  let b ← copyTo (bi * bj) b t
  let A ← A.putBlock (ROWMAJOR jb n A.NB A.MB) b
  let nj ← s.nzt.read jb
  let A ← swapEntries A jb n nj
  let nzt ← s.nzt.write jb (nj + 1)
  let m ← A.nnzb.read ib
  let A ← A.setNnzb ib (m - 1)
  pure ⟨A, nzt, s.pos1 - 1⟩

/-- Lines 158-183: both blocks exist. -/
def exchange (ib jb jpos : Nat) (s : TrSt R) : Res (TrSt R) := do
  let A := s.A
  let b ← A.block (ROWMAJOR ib (s.pos1 - 1) A.NB A.MB)
  let b' ← A.block (ROWMAJOR jb jpos A.NB A.MB)
  let bi ← A.bsize.read ib
  let bj ← A.bsize.read jb
  let bb ← swapBlocks bi bj b b'
  let A ← A.putBlock (ROWMAJOR ib (s.pos1 - 1) A.NB A.MB) bb.1
  let A ← A.putBlock (ROWMAJOR jb jpos A.NB A.MB) bb.2
  let ni ← s.nzt.read ib
  let A ← swapEntries A ib (s.pos1 - 1) ni
  let nj ← s.nzt.read jb
  let A ← swapEntries A jb jpos nj
  let nzt ← s.nzt.write ib (ni + 1)
  let nj ← nzt.read jb
  let nzt ← nzt.write jb (nj + 1)
  pure ⟨A, nzt, s.pos1⟩

/-- Lines 250-266: a diagonal block. -/
def diagStep (ib : Nat) (s : TrSt R) : Res (TrSt R) := do
  let A := s.A
  let b ← A.block (ROWMAJOR ib (s.pos1 - 1) A.NB A.MB)
  let bi ← A.bsize.read ib
  let b ← flipBlock bi b
  let A ← A.putBlock (ROWMAJOR ib (s.pos1 - 1) A.NB A.MB) b
  let ni ← s.nzt.read ib
  let A ← swapEntries A ib (s.pos1 - 1) ni
  let nzt ← s.nzt.write ib (ni + 1)
  pure ⟨A, nzt, s.pos1⟩

/-- Lines 143-268: one iteration of the `while` loop for row `ib`. -/
def transStep (n2 : Nat) (junk : Nat → R) (ib : Nat) (s : TrSt R) : Res (TrSt R) := do
  let jb ← s.A.indexb.read (ROWMAJOR ib (s.pos1 - 1) s.A.NB s.A.MB)
  if jb > ib then do
    let jn ← s.A.nnzb.read jb
    let js ← s.nzt.read jb
    match ← findSym s.A ib jb js (jn - js) with
    | some jpos => exchange ib jb jpos s
    | none => moveBlock n2 junk ib jb s
  else if jb < ib then moveBlock n2 junk ib jb s
  else diagStep ib s

/-- Lines 139-269 for row `ib`; the fuel is the initial number of blocks of the row. -/
def transRow (n2 : Nat) (junk : Nat → R) (ib : Nat) (st : EllB R × Arr Nat) :
    Res (EllB R × Arr Nat) := do
  let n ← st.1.nnzb.read ib
  let s ← whileLoop (fun s => decide (s.nzt.get ib < s.pos1)) (transStep n2 junk ib) n ⟨st.1, st.2, n⟩
  pure (s.A, s.nzt)

/-- `bml_transpose_ellblock`, lines 115-270.  `buffer` is modelled as fresh memory for every block. -/
def transposeInPlace (junk : Nat → R) (A : EllB R) : Res (EllB R) := do
  let m ← A.maxBsize
  let st ← loop A.NB (A, (⟨A.NB, fun _ => 0⟩ : Arr Nat)) (transRow (m * m) junk)
  pure st.1

end EllB

end Bml
