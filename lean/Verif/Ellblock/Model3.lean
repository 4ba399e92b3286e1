import Verif.Ellblock.Model2
import Verif.Ellblock.Reduce
import Mathlib.Algebra.Field.Defs

/-!
# The block-ELLPACK format: sums and products

Sources under `src/C-interface/ellblock/`.
-/

namespace Bml

/-- The work space of one thread (`bml_add_ellblock_typed.c` 60-66, 103-113,
`bml_multiply_ellblock_typed.c` 271-310): `x[jb]` is the buffer for column block `jb`.
Simplification: the buffers are pieces of one allocation; here each is an array of its own, so
that an access beyond one of them is undefined. -/
structure BScr (R : Type) where
  x : Arr (Arr R)
  ix : Arr Nat
  jx : Arr Nat

namespace EllB

variable {R : Type}

/-- The initial work space: `NB` zeroed buffers of `n2` values, `ix` and `jx` zeroed. -/
def clearScr [Zero R] (NB n2 : Nat) : BScr R :=
  ⟨⟨NB, fun _ => ⟨n2, fun _ => 0⟩⟩, ⟨NB, fun _ => 0⟩, ⟨NB, fun _ => 0⟩⟩

/-- Zero the first `n` values of a buffer. -/
def zeroBuf [Zero R] (n : Nat) (x : Arr R) : Res (Arr R) :=
  if n ≤ x.size then .ok ⟨x.size, fun k => if k < n then 0 else x.get k⟩ else .ub

/-- `if (ix[jb] == 0) { zero the first n values of x[jb]; ix[jb] = mark; jx[l] = jb; l++; }`
(`bml_add_ellblock_typed.c` 123-132 and 147-156, `bml_multiply_ellblock_typed.c` 345-351 and
553-559). -/
def touch [Zero R] (mark jb n : Nat) (st : BScr R × Nat) : Res (BScr R × Nat) := do
  let t ← st.1.ix.read jb
  if t = 0 then do
    let x ← st.1.x.read jb
    let x ← zeroBuf n x
    let xs ← st.1.x.write jb x
    let ix ← st.1.ix.write jb mark
    let jx ← st.1.jx.write st.2 jb
    pure (⟨xs, ix, jx⟩, st.2 + 1)
  else pure st

/-- Change the buffer of column block `jb`. -/
def onBuf (jb : Nat) (f : Arr R → Res (Arr R)) (s : BScr R) : Res (BScr R) := do
  let x ← s.x.read jb
  let x ← f x
  let xs ← s.x.write jb x
  pure { s with x := xs }

/-- `for (kk < n) x[kk] = x[kk] + c * v[kk]`. -/
def axpyBuf [Add R] [Mul R] (n : Nat) (c : R) (v x : Arr R) : Res (Arr R) :=
  loop n x fun kk x => do
    let y ← x.read kk
    let z ← v.read kk
    x.write kk (y + c * z)

/-- The accumulation of `c` times the blocks of row `ib` of `A`, `bml_add_ellblock_typed.c` 116-138
and 140-162.  `MB` is the width by which the addresses are computed: that of the first matrix, also
for the second. -/
def accumBlocks [Zero R] [Add R] [Mul R] (bs : Arr Nat) (MB : Nat) (A : EllB R) (ib : Nat) (c : R)
    (st : BScr R × Nat) : Res (BScr R × Nat) := do
  let n ← A.nnzb.read ib
  loop n st fun jp st => do
    let ind := ROWMAJOR ib jp A.NB MB
    let jb ← A.indexb.read ind
    let bi ← bs.read ib
    let bj ← bs.read jb
    let st ← touch (ib + 1) jb (bi * bj) st
    let v ← A.block ind
    let s ← onBuf jb (axpyBuf (bi * bj) c v) st.1
    pure (s, st.2)

/-- `if (c > 0 || c < 0) …`, lines 116 and 140. -/
def accumIf [Zero R] [Add R] [Mul R] (nz : R → Bool) (bs : Arr Nat) (MB : Nat) (A : EllB R)
    (ib : Nat) (c : R) (st : BScr R × Nat) : Res (BScr R × Nat) :=
  if nz c = true then accumBlocks bs MB A ib c st else .ok st

/-- `memset(x[jb], 0, n); ix[jb] = 0;` -/
def wipe [Zero R] (jb n : Nat) (s : BScr R) : Res (BScr R) := do
  let s ← onBuf jb (zeroBuf n) s
  let ix ← s.ix.write jb 0
  pure { s with ix := ix }

/-- The loop that stores one row: `bml_add_ellblock_typed.c` 165-193,
`bml_multiply_ellblock_typed.c` 388-425 and 585-611.  A block is stored by `put` in the next cell
of the row if it has an element above the threshold, and in the products (`diag`) also if it is the
diagonal block; its buffer is zeroed (the first `wn` values, `wn` a function of the size of the
block). -/
def flush [Zero R] (big : R → Bool) (diag : Bool) (wn : Nat → Nat)
    (put : Nat → Nat → Nat → Arr R → EllB R → Res (EllB R)) (bs : Arr Nat) (ib l : Nat)
    (C : EllB R) (s : BScr R) : Res (EllB R × BScr R × Nat) :=
  loop l (C, s, 0) fun jp (st : EllB R × BScr R × Nat) => do
    let jb ← st.2.1.jx.read jp
    let x ← st.2.1.x.read jb
    let bi ← bs.read ib
    let bj ← bs.read jb
    let above ← anyBig big x 0 (bi * bj)
    if (diag = true ∧ jb = ib) ∨ above = true then do
      let C ← put st.2.2 jb (bi * bj) x st.1
      let s ← wipe jb (wn (bi * bj)) st.2.1
      pure (C, s, st.2.2 + 1)
    else do
      let s ← wipe jb (wn (bi * bj)) st.2.1
      pure (st.1, s, st.2.2)

/-- `if (A_ptr_value[kb] == NULL) A_ptr_value[kb] = bml_allocate_block_ellblock(A, ib, n)`
(`bml_add_ellblock_typed.c` 176-182); `junk` is the content of the new block. -/
def ensure (A : EllB R) (junk : Nat → R) (n kb : Nat) : Res (EllB R) := do
  match ← A.ptr.read kb with
  | none => A.alloc kb ⟨n, junk⟩
  | some _ => .ok A

/-- Storing a sum, `bml_add_ellblock_typed.c` 175-188: a cell without a block gets a new one, a cell
with a block keeps its allocation. -/
def putAdd (junk : Nat → R) (ib ll jb n : Nat) (x : Arr R) (A : EllB R) : Res (EllB R) := do
  let kb := ROWMAJOR ib ll A.NB A.MB
  let A ← A.ensure junk n kb
  let d ← A.block kb
  let d ← copyTo n d x
  let A ← A.putBlock kb d
  A.setIndex kb jb

/-- One iteration of the parallel loop of `bml_add_ellblock`, lines 93-194.  `nz c` is
`c > 0 || c < 0`. -/
def addRow [Zero R] [Add R] [Mul R] (nz : R → Bool) (big : R → Bool) (junk : Nat → R) (B : EllB R)
    (α β : R) (ib : Nat) (A : EllB R) (s : BScr R) : Res (EllB R × BScr R) := do
  let st ← accumIf nz A.bsize A.MB A ib α (s, 0)
  let (s, l) ← accumIf nz A.bsize A.MB B ib β st
  let A ← A.setNnzb ib l
  let (A, s, ll) ← flush big false id (putAdd junk ib) A.bsize ib l A s
  let A ← A.setNnzb ib ll
  pure (A, s)

/-- `bml_add_ellblock` (`bml_add_ellblock_typed.c` 35-197).  The parallel loop runs in the order
`sc`, whose first components are the threads. -/
def add [Zero R] [Add R] [Mul R] (sc : Sched) (nz : R → Bool) (big : R → Bool) (junk : Nat → R)
    (A B : EllB R) (α β : R) : Res (EllB R) :=
  if A.NB ≠ B.NB then .error else do
    let a0 ← A.bsize.read 0
    let b0 ← B.bsize.read 0
    if a0 ≠ b0 then .error else do
      let m ← A.maxBsize
      let st ← forList sc (A, fun _ => clearScr A.NB (m * m))
        fun ti (st : EllB R × (Nat → BScr R)) => do
          let (A, s) ← addRow nz big junk B α β ti.2 st.1 (st.2 ti.1)
          pure (A, upd st.2 ti.1 s)
      pure st.1

/-- `bml_add_identity_ellblock` (`bml_add_ellblock_typed.c` 354-370). -/
def addIdentity [Zero R] [One R] [Add R] [Mul R] (g : Glob) (sc : Sched) (nz : R → Bool)
    (big : R → Bool) (junk : Nat → R) (A : EllB R) (β : R) : Res (Glob × EllB R) := do
  let (g, I) ← identityMatrix (R := R) g A.N 1
  let A ← add sc nz big junk A I 1 β
  pure (g, A)

/-- `bml_scale_add_identity_ellblock` (`bml_add_ellblock_typed.c` 383-394). -/
def scaleAddIdentity [Zero R] [One R] [Add R] [Mul R] (g : Glob) (sc : Sched) (nz : R → Bool)
    (big : R → Bool) (junk : Nat → R) (A : EllB R) (α β : R) : Res (Glob × EllB R) := do
  let A ← scaleInplace α A
  addIdentity g sc nz big junk A β

/-- `bml_normalize_ellblock` (`bml_normalize_ellblock_typed.c` 33-46).  `is_above_threshold(x, 0.0)`
is `x ≠ 0`. -/
def normalize [DivisionRing R] [DecidableEq R] (g : Glob) (sc : Sched) (junk : Nat → R)
    (A : EllB R) (mineval maxeval : R) : Res (Glob × EllB R) :=
  scaleAddIdentity g sc (fun c => decide (c ≠ 0)) (fun c => decide (c ≠ 0)) junk A
    (-1 / (maxeval - mineval)) (maxeval / (maxeval - mineval))

/-! ## Products -/

/-- `a[0] * b[0] + … + a[ld-1] * b[ld-1]` with the pointers at `o` and `o'`, summed from the left
(`bml_multiply_block1` … `bml_multiply_block6`, `bml_multiply_ellblock_typed.c` 28-168). -/
def dot [Add R] [Mul R] (a b : Arr R) (o o' : Nat) : Nat → Res R
  | 0 => .ub
  | 1 => do
    let x ← a.read o
    let y ← b.read o'
    pure (x * y)
  | n + 2 => do
    let s ← dot a b o o' (n + 1)
    let x ← a.read (o + (n + 1))
    let y ← b.read (o' + (n + 1))
    pure (s + x * y)

/-- `bml_multiply_block1` … `6` (lines 28-168): `ld` summands. The function table has six entries, a
call through another entry is undefined. -/
def multBlock [Add R] [Mul R] (a b : Arr R) (ld bi bk : Nat) (x : Arr R) : Res (Arr R) :=
  if ld = 0 ∨ 6 < ld then .ub else
  loop2 bi bk x fun ii jj x => do
    let y ← x.read (ii * bk + jj)
    let d ← dot a b (ld * ii) (jj * ld) ld
    x.write (ii * bk + jj) (y + d)

/-- The transposed copy of the right block, lines 357-363 and 564-571. -/
def transBlock (bj bk : Nat) (v t : Arr R) : Res (Arr R) :=
  loop2 bj bk t fun ii jj t => do
    let y ← v.read (ii * bk + jj)
    t.write (jj * bj + ii) y

/-- One row of the product, lines 327-378 and 541-576, `n2` the size of the buffers, `junk` the
content of the fresh buffer `T_value_right`. -/
def accumProd [Zero R] [Add R] [Mul R] (bs : Arr Nat) (n2 : Nat) (junk : Nat → R) (A B : EllB R)
    (ib : Nat) (s : BScr R) : Res (BScr R × Nat) := do
  let st : BScr R × Nat × Arr R := (s, 0, ⟨n2, junk⟩)
  let st ← A.eachIdx ib st fun ind jb st => do
    let v ← A.block ind
    let bi ← bs.read ib
    let bj ← bs.read jb
    B.eachIdx jb st fun indk kb st => do
      let (s, l, t) := st
      let (s, l) ← touch (ib + 1) kb n2 (s, l)
      let w ← B.block indk
      let bk ← bs.read kb
      let t ← transBlock bj bk w t
      let s ← onBuf kb (multBlock v t bj bi bk) s
      pure (s, l, t)
  pure (st.1, st.2.1)

/-- Storing a block of the product, lines 404-418 and 594-604: always a new block. -/
def putProd (ib ll jb n : Nat) (x : Arr R) (C : EllB R) : Res (EllB R) := do
  let ind := ROWMAJOR ib ll C.NB C.MB
  let d ← copyNew n x
  let C ← C.alloc ind d
  C.setIndex ind jb

/-- One iteration of the parallel loop of `bml_multiply_AB_ellblock`, lines 511-617. -/
def prodRow [Zero R] [Add R] [Mul R] (big : R → Bool) (n2 : Nat) (junk : Nat → R) (A B : EllB R)
    (ib : Nat) (C : EllB R) (s : BScr R) : Res (EllB R × BScr R) := do
  let (s, l) ← accumProd A.bsize n2 junk A B ib s
  if C.MB < l then .error else do
    let (C, s, ll) ← flush big true (fun _ => n2) (putProd ib) A.bsize ib l C s
    let C ← C.setNnzb ib ll
    pure (C, s)

/-- `bml_multiply_AB_ellblock` (`bml_multiply_ellblock_typed.c` 455-621). -/
def multiplyAB [Zero R] [Add R] [Mul R] (sc : Sched) (big : R → Bool) (junk : Nat → R)
    (A B C : EllB R) : Res (EllB R) :=
  if A.NB ≠ B.NB ∨ A.NB ≠ C.NB then .error else do
    let m ← A.maxBsize
    let st ← forList sc (C, fun _ => clearScr A.NB (m * m))
      fun ti (st : EllB R × (Nat → BScr R)) => do
        let (C, s) ← prodRow big (m * m) junk A B ti.2 st.1 (st.2 ti.1)
        pure (C, upd st.2 ti.1 s)
    pure st.1

/-- The diagonal of the block `(ib,ib)` of `X`, lines 336-340. -/
def diagBlocks [Zero R] [Add R] (X : EllB R) (ib : Nat) : Res R :=
  X.eachIdx ib 0 fun ind jb t =>
    if jb = ib then do
      let v ← X.block ind
      let bi ← X.bsize.read ib
      loop bi t fun kk t => do
        let y ← v.read (kk * (1 + bi))
        pure (t + y)
    else pure t

/-- The sum that is meant to be the trace of the block `(ib,ib)` of the square, lines 398-402: the
stride is computed from `bsize[jb]`, where `jb` is the position in the list of touched columns. -/
def traceProd [Zero R] [Add R] (bs : Arr Nat) (ib l : Nat) (s : BScr R) : Res R :=
  loop l 0 fun jb t => do
    let jp ← s.jx.read jb
    if jp = ib then do
      let x ← s.x.read jp
      let bi ← bs.read ib
      loop bi t fun kk t => do
        let c ← bs.read jb
        let y ← x.read (kk * (1 + c))
        pure (t + y)
    else pure t

/-- One iteration of the parallel loop of `bml_multiply_x2_ellblock`, lines 302-430, with its
contribution to the two traces.  Simplification: the sums over the diagonals are separate passes. -/
def squareRow [Zero R] [Add R] [Mul R] (big : R → Bool) (n2 : Nat) (junk : Nat → R) (X : EllB R)
    (ib : Nat) (X2 : EllB R) (s : BScr R) : Res (EllB R × BScr R × R × R) := do
  let t1 ← X.diagBlocks ib
  let (s, l) ← accumProd X.bsize n2 junk X X ib s
  if X.MB < l then .error else do
    let t2 ← traceProd X.bsize ib l s
    let (X2, s, ll) ← flush big true (fun _ => n2) (putProd ib) X.bsize ib l X2 s
    let X2 ← X2.setNnzb ib ll
    pure (X2, s, t1, t2)

/-- `bml_multiply_x2_ellblock` (`bml_multiply_ellblock_typed.c` 246-442).  (The new blocks are
addressed with the `MB` of `X`; the model's `putProd` uses that of `X2`, which is the same for two
matrices made under the same block sizes; otherwise it is `ub` here.) -/
def multiplyX2 [Zero R] [Add R] [Mul R] (sc : Sched) (big : R → Bool) (junk : Nat → R)
    (X X2 : EllB R) : Res (EllB R × R × R) :=
  if X.NB ≠ X2.NB ∨ X.MB ≠ X2.MB then .ub else do
    let X2 ← X2.clear
    let m ← X.maxBsize
    let st ← forList sc (X2, (fun _ => clearScr X.NB (m * m)), (0 : R), (0 : R))
      fun ti (st : EllB R × (Nat → BScr R) × R × R) => do
        let (X2, s, t1, t2) ← squareRow big (m * m) junk X ti.2 st.1 (st.2.1 ti.1)
        pure (X2, upd st.2.1 ti.1 s, st.2.2.1 + t1, st.2.2.2 + t2)
    pure (st.1, st.2.2.1, st.2.2.2)

/-- `bml_multiply_ellblock` (`bml_multiply_ellblock_typed.c` 183-231), for `A ≠ B`. -/
def multiply [Zero R] [Add R] [Mul R] (g : Glob) (sc sc' : Sched) (nz big : R → Bool)
    (junk : Nat → R) (A B C : EllB R) (α β : R) : Res (Glob × EllB R) := do
  let (g, A2) ← blockMatrix (R := R) g C.NB C.MB C.M C.bsize
  let A2 ← multiplyAB sc big junk A B A2
  let C ← add sc' nz big junk C A2 β α
  pure (g, C)

/-- `bml_multiply_ellblock` (`bml_multiply_ellblock_typed.c` 183-231), for `A = B`; `isOne`, `isZero`
are the comparisons in line 204. -/
def multiplySame [Zero R] [Add R] [Mul R] (g : Glob) (sc sc' : Sched) (nz big isOne isZero : R → Bool)
    (junk : Nat → R) (A C : EllB R) (α β : R) : Res (Glob × EllB R) :=
  if isOne α = true ∧ isZero β = true then do
    let (C, _, _) ← multiplyX2 sc big junk A C
    pure (g, C)
  else do
    let (g, A2) ← blockMatrix (R := R) g C.NB C.MB C.M C.bsize
    let (A2, _, _) ← multiplyX2 sc big junk A A2
    let C ← add sc' nz big junk C A2 β α
    pure (g, C)

end EllB

end Bml
