import Verif.Ellblock.Model3

/-!
# The block-ELLPACK format: norms of two matrices

Sources under `src/C-interface/ellblock/`.
-/

namespace Bml

namespace EllB

variable {R K : Type}

/-- The buffers of `bml_sum_squares2_ellblock` (`bml_norm_ellblock_typed.c` 202-209). -/
structure Sq2 (R : Type) where
  y : Arr (Arr R)
  ix : Arr Nat
  jjb : Arr Nat

/-- `bml_sum_squares2_ellblock` 226-231 and 246-251.  Simplification: the loops over `ii` and `jj`
visit the positions `0, …, bi * bj - 1` in this order. -/
def sq2Axpy [Add R] [Mul R] (bs : Arr Nat) (ib jb : Nat) (c : R) (b : Arr R) (s : Sq2 R) :
    Res (Sq2 R) := do
  let bi ← bs.read ib
  let bj ← bs.read jb
  let yv ← s.y.read jb
  let yv ← axpyBuf (bi * bj) c b yv
  let y ← s.y.write jb yv
  pure { s with y := y }

/-- `bml_sum_squares2_ellblock` 214-232: the blocks of row `ib` of `A`.  The second component of the
state is `lb`. -/
def sq2Load [Add R] [Mul R] (α : R) (A : EllB R) (ib : Nat) (s : Sq2 R) : Res (Sq2 R × Nat) :=
  A.eachIdx ib (s, 0) fun ind jb st => do
    let ix ← st.1.ix.write jb 1
    let jjb ← st.1.jjb.write st.2 jb
    let b ← A.block ind
    let s ← sq2Axpy A.bsize ib jb α b { st.1 with ix := ix, jjb := jjb }
    pure (s, st.2 + 1)

/-- `if (ix[jb] == 0) { jjb[lb] = jb; lb++; }`, lines 239-243. -/
def sq2Note (jb : Nat) (st : Sq2 R × Nat) : Res (Sq2 R × Nat) := do
  let t ← st.1.ix.read jb
  if t = 0 then do
    let jjb ← st.1.jjb.write st.2 jb
    pure ({ st.1 with jjb := jjb }, st.2 + 1)
  else pure st

/-- `bml_sum_squares2_ellblock` 234-252: the blocks of row `ib` of `B`, addressed with the width of
`A`. -/
def sq2Add [Add R] [Mul R] (β : R) (A B : EllB R) (ib : Nat) (st : Sq2 R × Nat) :
    Res (Sq2 R × Nat) := do
  let n ← B.nnzb.read ib
  loop n st fun jp st => do
    let jb ← B.indexb.read (ROWMAJOR ib jp A.NB A.MB)
    let st ← sq2Note jb st
    let b ← B.block (ROWMAJOR ib jp A.NB A.MB)
    let s ← sq2Axpy A.bsize ib jb β b st.1
    pure (s, st.2)

/-- `bml_sum_squares2_ellblock` 254-266; `sq x` is `|x| * |x|`, `above x` is
`x > threshold * threshold`, `n2` is `maxbsize2`. -/
def sq2Flush [Zero R] [Zero K] [Add K] (sq : R → K) (above : K → Bool) (n2 : Nat) (A : EllB R)
    (ib lb : Nat) (s : Sq2 R) (sum : K) : Res (Sq2 R × K) :=
  loop lb (s, sum) fun jp st => do
    let jb ← st.1.jjb.read jp
    let yv ← st.1.y.read jb
    let bi ← A.bsize.read ib
    let bj ← A.bsize.read jb
    let normx ← bufSum sq bi bj yv
    let ix ← st.1.ix.write jb 0
    let yv ← zeroBuf n2 yv
    let y ← st.1.y.write jb yv
    let jjb ← st.1.jjb.write jp 0
    pure (⟨y, ix, jjb⟩, if above normx then st.2 + normx else st.2)

/-- One block row of `bml_sum_squares2_ellblock`, lines 211-267. -/
def sumSq2Row [Zero R] [Add R] [Mul R] [Zero K] [Add K] (sq : R → K) (above : K → Bool) (n2 : Nat)
    (α β : R) (A B : EllB R) (ib : Nat) (st : Sq2 R × K) : Res (Sq2 R × K) := do
  let l ← sq2Load α A ib st.1
  let t ← sq2Add β A B ib l
  sq2Flush sq above n2 A ib t.2 t.1 st.2

/-- `bml_sum_squares2_ellblock` (`bml_norm_ellblock_typed.c` 174-272). -/
def sumSquares2 [Zero R] [Add R] [Mul R] [Zero K] [Add K] (sq : R → K) (above : K → Bool) (α β : R)
    (A B : EllB R) : Res K := do
  let mb ← A.maxBsize
  let st ← loop A.NB ((⟨⟨A.NB, fun _ => ⟨mb * mb, fun _ => 0⟩⟩, ⟨A.NB, fun _ => 0⟩,
    ⟨A.NB, fun _ => 0⟩⟩ : Sq2 R), (0 : K)) fun ib st => sumSq2Row sq above (mb * mb) α β A B ib st
  pure st.2

/-- `BMAXSIZE`, `bml_types_ellblock.h` 56. -/
def bmaxsize : Nat := 25

/-- `trnorm` of one block row of `bml_add_norm_ellblock` (`bml_add_ellblock_typed.c` 254-320): the
buffers `y` hold `A - B`; for each block the sum of squares is squared.  Simplification: `x` and `y`
are filled by the same loops in the C code, here one after the other. -/
def normRow [Zero R] [Add R] [Mul R] [Neg R] [One R] [Zero K] [Add K] [Mul K] (sq : R → K)
    (A B : EllB R) (ib : Nat) (s : BScr R) (tr : K) : Res (BScr R × K) := do
  let st ← accumBlocks A.bsize A.MB A ib 1 (s, 0)
  let st ← accumBlocks A.bsize A.MB B ib (-1) st
  loop st.2 (st.1, tr) fun jp (st : BScr R × K) => do
    let jb ← st.1.jx.read jp
    let y ← st.1.x.read jb
    let bi ← A.bsize.read ib
    let bj ← A.bsize.read jb
    let normy ← bufSum sq bi bj y
    let s ← wipe jb (bi * bj) st.1
    pure (s, st.2 + normy * normy)

/-- Storing a block of the sum, `bml_add_ellblock_typed.c` 323-332: the block of the cell is
overwritten; a cell without a block is not given one. -/
def putNorm (ib ll jb n : Nat) (x : Arr R) (A : EllB R) : Res (EllB R) := do
  let kb := ROWMAJOR ib ll A.NB A.MB
  let d ← A.block kb
  let d ← copyTo n d x
  let A ← A.putBlock kb d
  A.setIndex kb jb

/-- One block row of `bml_add_norm_ellblock`, lines 254-339.  The state holds the matrix, the buffers
`x` and `y` and `trnorm`. -/
def addNormRow [Zero R] [Add R] [Mul R] [Neg R] [One R] [Zero K] [Add K] [Mul K] (sq : R → K)
    (big : R → Bool) (B : EllB R) (α β : R) (ib : Nat) (st : EllB R × BScr R × BScr R × K) :
    Res (EllB R × BScr R × BScr R × K) := do
  let y ← normRow sq st.1 B ib st.2.2.1 st.2.2.2
  let l ← accumBlocks st.1.bsize st.1.MB st.1 ib α (st.2.1, 0)
  let l ← accumBlocks st.1.bsize st.1.MB B ib β l
  let A ← st.1.setNnzb ib l.2
  let f ← flush big false id (putNorm ib) A.bsize ib l.2 A l.1
  let A ← f.1.setNnzb ib f.2.2
  pure (A, f.2.1, y.1, y.2)

/-- `bml_add_norm_ellblock` (`bml_add_ellblock_typed.c` 211-342).  Each buffer has `BMAXSIZE` values
(pieces of one allocation; here an access beyond a piece is undefined). -/
def addNorm [Zero R] [Add R] [Mul R] [Neg R] [One R] [Zero K] [Add K] [Mul K] (sq : R → K)
    (big : R → Bool) (A B : EllB R) (α β : R) : Res (EllB R × K) := do
  let st ← loop A.NB (A, (clearScr A.NB bmaxsize : BScr R), (clearScr A.NB bmaxsize : BScr R), (0 : K))
    fun ib st => addNormRow sq big B α β ib st
  pure (st.1, st.2.2.2)

end EllB

end Bml
