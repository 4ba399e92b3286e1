import Verif.Basic

/-!
# The block-ELLPACK format: storage, element access, constructors

Sources under `src/C-interface/ellblock/`.  Modelled is the default build, without
`BML_ELLBLOCK_USE_MEMPOOL`: every block is its own `malloc`.

The blocks of a matrix are modelled with a heap of their own: `ptr_value` holds addresses, so that
aliases, dangling and stale pointers can be told apart.  Matrices never share blocks.
-/

namespace Bml

/-- `bml_matrix_ellblock_t` (`bml_types_ellblock.h`).  `heap a` is the live allocation at address
`a`, `next` the next address the allocator hands out (addresses are not reused, so that every use
after `free` shows).  Simplification: `indexb` holds naturals; the `-1` that marks an unused cell is
`unset`, which is out of range for every array, as `-1` is. -/
structure EllB (R : Type) where
  N : Nat
  M : Nat
  NB : Nat
  MB : Nat
  bsize : Arr Nat
  indexb : Arr Nat
  nnzb : Arr Nat
  ptr : Arr (Option Nat)
  heap : Nat → Option (Arr R)
  next : Nat

namespace EllB

variable {R : Type}

/-- `-1` as an unsigned 32 bit number. -/
def unset : Nat := 4294967295

/-- Dereferencing `ptr_value[ind]`. -/
def block (A : EllB R) (ind : Nat) : Res (Arr R) := do
  match ← A.ptr.read ind with
  | none => .ub
  | some a =>
    match A.heap a with
    | none => .ub
    | some b => .ok b

/-- `assert(ptr_value[ind] != NULL)`, then dereference. -/
def blockAssert (A : EllB R) (ind : Nat) : Res (Arr R) := do
  match ← A.ptr.read ind with
  | none => .error
  | some a =>
    match A.heap a with
    | none => .ub
    | some b => .ok b

/-- Store the new content `b` of the block `ptr_value[ind]` points to. -/
def putBlock (A : EllB R) (ind : Nat) (b : Arr R) : Res (EllB R) := do
  match ← A.ptr.read ind with
  | none => .ub
  | some a =>
    match A.heap a with
    | none => .ub
    | some _ => .ok { A with heap := upd A.heap a (some b) }

/-- `ptr_value[ind] = bml_allocate_block_ellblock(A, ib, nelements)`
(`bml_allocate_ellblock_typed.c` 21-39), a fresh block with the content `b`. -/
def alloc (A : EllB R) (ind : Nat) (b : Arr R) : Res (EllB R) := do
  let p ← A.ptr.write ind (some A.next)
  pure { A with ptr := p, heap := upd A.heap A.next (some b), next := A.next + 1 }

/-- `bml_free_memory(ptr_value[ind])`: freeing NULL does nothing, freeing twice is undefined. -/
def freeAt (A : EllB R) (ind : Nat) : Res (EllB R) := do
  match ← A.ptr.read ind with
  | none => .ok A
  | some a =>
    match A.heap a with
    | none => .ub
    | some _ => .ok { A with heap := upd A.heap a none }

/-- `A->indexb[ind] = jb`. -/
def setIndex (A : EllB R) (ind jb : Nat) : Res (EllB R) := do
  let x ← A.indexb.write ind jb
  pure { A with indexb := x }

/-- `A->nnzb[ib] = n`. -/
def setNnzb (A : EllB R) (ib n : Nat) : Res (EllB R) := do
  let x ← A.nnzb.write ib n
  pure { A with nnzb := x }

/-- `memcpy(dst, src, n)` where `dst` is a fresh block of `n` elements. -/
def copyNew (n : Nat) (src : Arr R) : Res (Arr R) :=
  if n ≤ src.size then .ok ⟨n, src.get⟩ else .ub

/-- `memcpy(dst, src, n)` into an existing block. -/
def copyTo (n : Nat) (dst src : Arr R) : Res (Arr R) :=
  if n ≤ src.size ∧ n ≤ dst.size then
    .ok ⟨dst.size, fun k => if k < n then src.get k else dst.get k⟩
  else .ub

/-- `for (ii < n) for (jj < m) …` -/
def loop2 {σ : Type} (n m : Nat) (s : σ) (f : Nat → Nat → σ → Res σ) : Res σ :=
  loop n s fun ii s => loop m s fun jj s => f ii jj s

/-- The loop over the stored blocks of block row `ib`:
`for (jp = 0; jp < A->nnzb[ib]; jp++) { ind = ROWMAJOR(ib, jp, NB, MB); jb = A->indexb[ind]; … }` -/
def eachIdx {σ : Type} (A : EllB R) (ib : Nat) (s : σ) (f : Nat → Nat → σ → Res σ) : Res σ := do
  let n ← A.nnzb.read ib
  loop n s fun jp s => do
    let jb ← A.indexb.read (ROWMAJOR ib jp A.NB A.MB)
    f (ROWMAJOR ib jp A.NB A.MB) jb s

/-- `while (ii >= bsize[ib]) { ii -= bsize[ib]; ib++; }`.  The fuel `bsize.size + 1` is never used
up: the read runs out of bounds first. -/
def locate (bs : Arr Nat) : Nat → Nat → Nat → Res (Nat × Nat)
  | 0, _, _ => .ub
  | fuel + 1, ib, ii => do
    let b ← bs.read ib
    if ii ≥ b then locate bs fuel (ib + 1) (ii - b) else .ok (ib, ii)

/-- The block and the position inside it of a global index. -/
def find (A : EllB R) (i : Nat) : Res (Nat × Nat) := locate A.bsize (A.bsize.size + 1) 0 i

/-- Position of the first block `jb` of block row `ib`. -/
def findBlk (A : EllB R) (ib jb : Nat) : Nat → Nat → Res (Option Nat)
  | _, 0 => .ok none
  | jp, fuel + 1 => do
    let c ← A.indexb.read (ROWMAJOR ib jp A.NB A.MB)
    if c = jb then .ok (some (ROWMAJOR ib jp A.NB A.MB)) else findBlk A ib jb (jp + 1) fuel

/-- `bml_get_element_ellblock` (`bml_getters_ellblock_typed.c` 19-65). -/
def getElement [Zero R] (A : EllB R) (i j : Int) : Res R :=
  if i < 0 ∨ (A.N : Int) ≤ i then .error
  else if j < 0 ∨ (A.N : Int) ≤ j then .error
  else do
    let (ib, ii) ← A.find i.toNat
    let (jb, jj) ← A.find j.toNat
    let n ← A.nnzb.read ib
    match ← A.findBlk ib jb 0 n with
    | none => .ok 0
    | some ind => do
      let bi ← A.bsize.read ib
      let bj ← A.bsize.read jb
      let b ← A.block ind
      b.read (ROWMAJOR ii jj bi bj)

/-- The loop of `bml_set_element_new_ellblock` 61-72: write into every block with the right index,
report whether there was one. -/
def writeMatching (A : EllB R) (ib jb k : Nat) (v : R) (nullCheck : Bool) :
    Res (EllB R × Bool) := do
  let n ← A.nnzb.read ib
  loop n (A, false) fun jp s => do
    let c ← s.1.indexb.read (ROWMAJOR ib jp A.NB A.MB)
    if c = jb then do
      let b ← if nullCheck then s.1.blockAssert (ROWMAJOR ib jp A.NB A.MB)
        else s.1.block (ROWMAJOR ib jp A.NB A.MB)
      let b ← b.write k v
      let A ← s.1.putBlock (ROWMAJOR ib jp A.NB A.MB) b
      pure (A, true)
    else pure s

/-- A block of `n` zeros except for `v` at `k` (`memset`, then one write). -/
def unitBlock [Zero R] (n k : Nat) (v : R) : Res (Arr R) :=
  (⟨n, fun _ => 0⟩ : Arr R).write k v

/-- `bml_set_element_new_ellblock` (`bml_setters_ellblock_typed.c` 32-95) and
`bml_set_element_ellblock` 111-119, which calls it.  The indices are naturals; a negative index,
which C does not check, is not modelled. -/
def setElement [Zero R] (A : EllB R) (i j : Nat) (v : R) : Res (EllB R) := do
  let (ib, ii) ← A.find i
  let (jb, jj) ← A.find j
  let bi ← A.bsize.read ib
  let bj ← A.bsize.read jb
  let (A, found) ← A.writeMatching ib jb (ROWMAJOR ii jj bi bj) v true
  if found then pure A
  else do
    let n ← A.nnzb.read ib
    if n = A.MB then .error
    else do
      let ind := ROWMAJOR ib n A.NB A.MB
      match ← A.ptr.read ind with
      | some _ => .error
      | none => do
        let b ← unitBlock (bi * bj) (ROWMAJOR ii jj bi bj) v
        let A ← A.alloc ind b
        let A ← A.setIndex ind jb
        A.setNnzb ib (n + 1)

/-- `bml_set_row_ellblock` (`bml_setters_ellblock_typed.c` 131-199).  `big x` stands for
`|x| > threshold`.  There is no check for a full block row. -/
def setRow [Zero R] (big : R → Bool) (A : EllB R) (i : Nat) (row : Arr R) : Res (EllB R) := do
  let (ib, ii) ← A.find i
  loop A.N A fun k A => do
    let v ← row.read k
    if big v then do
      let (jb, jj) ← A.find k
      let bi ← A.bsize.read ib
      let bj ← A.bsize.read jb
      let (A, found) ← A.writeMatching ib jb (ROWMAJOR ii jj bi bj) v false
      if found then pure A
      else do
        let n ← A.nnzb.read ib
        let ind := ROWMAJOR ib n A.NB A.MB
        let b ← unitBlock (bi * bj) (ROWMAJOR ii jj bi bj) v
        let A ← A.alloc ind b
        let A ← A.setNnzb ib (n + 1)
        A.setIndex ind jb
    else pure A

/-- The comparison `bml_norm_inf(v + o, n, 1, 1) > threshold`, and
`bml_norm_inf(v, nrows, ncols, ncols) > threshold` with `n = nrows * ncols`
(`bml_utilities_ellblock_typed.c` 260-293): some element is above the threshold.  Simplification: the
maximum of the absolute values is not formed; `normInf_gt` in `Verif.Ellblock.Rep` shows that this is
the same. -/
def anyBig (big : R → Bool) (v : Arr R) (o n : Nat) : Res Bool :=
  loop n false fun k s => do
    let x ← v.read (o + k)
    pure (s || big x)

/-- The loops `for (ii) A_value[ROWMAJOR(ii, ii)] = …` of `bml_set_diagonal_ellblock`. -/
def writeDiag (n : Nat) (b : Arr R) (f : Nat → Res R) : Res (Arr R) :=
  loop n b fun ii b => do
    let v ← f ii
    b.write (ROWMAJOR ii ii n n) v

/-- `bml_set_diagonal_ellblock` (`bml_setters_ellblock_typed.c` 209-284). -/
def setDiagonal [Zero R] (big : R → Bool) (A : EllB R) (diag : Arr R) : Res (EllB R) := do
  let s ← loop A.NB (A, 0) fun ib s => do
    let A := s.1
    let o := s.2
    let n ← A.bsize.read ib
    let nz ← A.nnzb.read ib
    let (A, found) ← loop nz (A, false) fun jp s => do
      let A := s.1
      let ind := ROWMAJOR ib jp A.NB A.MB
      let jb ← A.indexb.read ind
      if jb = ib then do
        let b ← A.block ind
        let above ← anyBig big diag o n
        let b ← if above then writeDiag n b (fun ii => diag.read (o + ii))
          else writeDiag n b (fun _ => .ok 0)
        let A ← A.putBlock ind b
        pure (A, true)
      else pure s
    let A ← if found then pure A
      else do
        let above ← anyBig big diag o n
        if above then do
          let nz ← A.nnzb.read ib
          let ind := ROWMAJOR ib nz A.NB A.MB
          let b ← writeDiag n ⟨n * n, fun _ => 0⟩ (fun ii => diag.read (o + ii))
          let A ← A.alloc ind b
          let A ← A.setIndex ind ib
          A.setNnzb ib (nz + 1)
        else pure A
    pure (A, o + n)
  pure s.1

/-- The search of `bml_set_block_ellblock` 303-315 and its `memcpy`. -/
def setBlock (A : EllB R) (ib jb : Nat) (elements : Arr R) : Res (EllB R) :=
  if ¬ ib < A.NB then .error
  else if ¬ jb < A.NB then .error
  else do
    let n ← A.nnzb.read ib
    match ← A.findBlk ib jb 0 n with
    | none => .error
    | some ind => do
      let bi ← A.bsize.read ib
      let bj ← A.bsize.read jb
      let b ← A.blockAssert ind
      let b ← copyTo (bi * bj) b elements
      A.putBlock ind b

/-- The `offset` array: `offset[0] = 0; offset[ib] = offset[ib-1] + bsize[ib-1]` for
`1 ≤ ib < NB`. -/
def offsets (bs : Arr Nat) (NB : Nat) : Res (Arr Nat) := do
  let o ← (⟨NB, fun _ => 0⟩ : Arr Nat).write 0 0
  loopFrom 1 NB o fun ib o => do
    let p ← o.read (ib - 1)
    let b ← bs.read (ib - 1)
    o.write ib (p + b)

/-- `bml_get_row_ellblock` (`bml_getters_ellblock_typed.c` 76-125).  `if (jb >= 0)` is always true
of the stored blocks and not modelled. -/
def getRow [Zero R] (A : EllB R) (i : Nat) : Res (Arr R) := do
  let (ib, ii) ← A.find i
  let off ← offsets A.bsize A.NB
  A.eachIdx ib (⟨A.N, fun _ => 0⟩ : Arr R) fun ind jb row => do
    let b ← A.block ind
    let bi ← A.bsize.read ib
    let bj ← A.bsize.read jb
    loop bj row fun jj row => do
      let o ← off.read jb
      let v ← b.read (ROWMAJOR ii jj bi bj)
      row.write (o + jj) v

/-- `bml_get_diagonal_ellblock` (`bml_getters_ellblock_typed.c` 135-166). -/
def getDiagonal [Zero R] (A : EllB R) : Res (Arr R) := do
  let s ← loop A.NB ((⟨A.N, fun _ => 0⟩ : Arr R), 0) fun ib s => do
    let n ← A.bsize.read ib
    let d ← A.eachIdx ib s.1 fun ind jb d =>
      if jb = ib then do
        let b ← A.blockAssert ind
        loop n d fun ii d => do
          let v ← b.read (ROWMAJOR ii ii n n)
          d.write (s.2 + ii) v
      else pure d
    pure (d, s.2 + n)
  pure s.1

/-! ## The global block sizes -/

/-- The static variables of `bml_allocate_ellblock.c` 15-18 (`s_default_block_dim` is 4). -/
structure Glob where
  bsize : Option (Arr Nat)
  nb : Nat
  mb : Nat

/-- At program start. -/
def Glob.init : Glob := ⟨none, 0, 0⟩

/-- `bml_set_block_sizes` (`bml_allocate_ellblock.c` 24-46). -/
def setBlockSizes (g : Glob) (bsize : Arr Nat) (nb mb : Nat) : Res Glob :=
  if ¬ nb > 0 then .error
  else if ¬ mb > 0 then .error
  else if g.nb ≠ 0 then .error
  else do
    let b ← copyNew nb bsize
    pure ⟨some b, nb, mb⟩

/-- `bml_get_block_sizes` (`bml_allocate_ellblock.c` 48-81).  For `N = 0` the C code writes
`s_default_bsize[-1]`, undefined. -/
def getBlockSizes (g : Glob) (N M : Nat) : Res (Glob × Arr Nat) :=
  match g.bsize with
  | some b => .ok (g, b)
  | none =>
    if ¬ M > 0 then .error
    else
      let nb := if N / 4 * 4 < N then N / 4 + 1 else N / 4
      let mb := if M / 4 * 4 < M then M / 4 + 1 else M / 4
      let mb := if mb < 4 then 4 else mb
      let mb := if mb > nb then nb else mb
      if nb = 0 then .ub
      else
        let b : Arr Nat := ⟨nb, fun ib => if ib = nb - 1 then N - 4 * (nb - 1) else 4⟩
        .ok (⟨some b, nb, mb⟩, b)

/-- The empty matrix object of `bml_block_matrix_ellblock`. -/
def empty (N M NB MB : Nat) (bs : Arr Nat) : EllB R where
  N := N
  M := M
  NB := NB
  MB := MB
  bsize := bs
  indexb := ⟨NB * MB, fun _ => unset⟩
  nnzb := ⟨NB, fun _ => 0⟩
  ptr := ⟨NB * MB, fun _ => none⟩
  heap := fun _ => none
  next := 0

/-- `bml_block_matrix_ellblock` (`bml_allocate_ellblock_typed.c` 176-243). -/
def blockMatrix (g : Glob) (NB MB M : Nat) (bsize : Arr Nat) : Res (Glob × EllB R) :=
  if ¬ NB > 0 then .error
  else if ¬ MB > 0 then .error
  else do
    let N ← loop NB 0 fun ib s => do
      let b ← bsize.read ib
      if b < 1000000 then pure (s + b) else .error
    if ¬ N ≥ M then .error
    else do
      let bs ← copyNew NB bsize
      let g ← if g.mb = 0 then setBlockSizes g bsize NB MB else pure g
      pure (g, empty N M NB MB bs)

/-- `bml_zero_matrix_ellblock` (`bml_allocate_ellblock_typed.c` 245-261, and the check `N >= M` of
`bml_allocate_ellblock.c` 231). -/
def zeroMatrix (g : Glob) (N M : Nat) : Res (Glob × EllB R) :=
  if ¬ N ≥ M then .error
  else do
    let (g, bs) ← getBlockSizes g N M
    blockMatrix g g.nb g.mb M bs

/-- `bml_noinit_matrix_ellblock` (`bml_allocate_ellblock_typed.c` 146-159).  The arguments of
`bml_block_matrix_ellblock` are evaluated in an order C leaves open; modelled is the order in which
`bml_get_nb`, `bml_get_mb` are read last.  In every order `bml_get_block_sizes(N, 0)` fails its
assertion if no block sizes are set. -/
def noinitMatrix (g : Glob) (N M : Nat) : Res (Glob × EllB R) := do
  let (g, bs) ← getBlockSizes g N 0
  blockMatrix g g.nb g.mb M bs

/-- `bml_clear_ellblock` (`bml_allocate_ellblock_typed.c` 127-144): the blocks are freed, the
pointers to them stay. -/
def clear (A : EllB R) : Res (EllB R) := do
  let A ← loop A.NB A fun ib A => do
    let n ← A.nnzb.read ib
    loop n A fun jp A => A.freeAt (ROWMAJOR ib jp A.NB A.MB)
  pure { A with nnzb := ⟨A.nnzb.size, fun k => if k < A.NB then 0 else A.nnzb.get k⟩ }

/-- `bml_identity_matrix_ellblock` (`bml_allocate_ellblock_typed.c` 410-449). -/
def identityMatrix [Zero R] [One R] (g : Glob) (N M : Nat) : Res (Glob × EllB R) := do
  let (g, bs) ← getBlockSizes g N M
  let (g, A) ← blockMatrix (R := R) g g.nb g.mb M bs
  let A ← loop A.NB A fun ib A => do
    let n ← bs.read ib
    let ind := ROWMAJOR ib 0 A.NB A.MB
    let b ← writeDiag n ⟨n * n, fun _ => 0⟩ (fun _ => .ok 1)
    let A ← A.alloc ind b
    let A ← A.setNnzb ib 1
    A.setIndex ind ib
  pure (g, A)

/-- `bml_banded_matrix_ellblock` (`bml_allocate_ellblock_typed.c` 276-295).  `rnd i j` is the value
drawn for position `(i,j)`. -/
def bandedMatrix [Zero R] (g : Glob) (N M : Nat) (rnd : Nat → Nat → R) : Res (Glob × EllB R) := do
  let (g, A) ← zeroMatrix (R := R) g N M
  let A ← loop N A fun i A =>
    loopFrom (i - M / 2) (if i + M ≤ N + M / 2 then i + M - M / 2 else N) A fun j A =>
      A.setElement i j (rnd i j)
  pure (g, A)

/-! ## Dense import and export, copies, scaling -/

/-- `bml_import_from_dense_ellblock` (`bml_import_ellblock_typed.c` 30-103).  `addr` is the address
of `(i,j)` in the dense array, `ROWMAJOR` or `COLMAJOR`; `junk` what the `malloc`ed buffer holds.
There is no check for a full block row. -/
def importDense (g : Glob) (addr : Nat → Nat → Nat) (big : R → Bool) (N M : Nat) (dense : Arr R)
    (junk : Nat → R) : Res (Glob × EllB R) := do
  let (g, A) ← zeroMatrix (R := R) g N M
  let off ← offsets A.bsize A.NB
  let A ← loop A.NB A fun ib A => do
    let A ← A.setNnzb ib 0
    loop A.NB A fun jb A => do
      let bi ← A.bsize.read ib
      let bj ← A.bsize.read jb
      let b ← loop2 bi bj (⟨bi * bj, junk⟩ : Arr R) fun ii jj b => do
        let oi ← off.read ib
        let oj ← off.read jb
        let v ← dense.read (addr (oi + ii) (oj + jj))
        b.write (ROWMAJOR ii jj bi bj) v
      let above ← anyBig big b 0 (bi * bj)
      if above then do
        let n ← A.nnzb.read ib
        let ind := ROWMAJOR ib n A.NB A.MB
        let b ← copyNew (bi * bj) b
        let A ← A.alloc ind b
        let A ← A.setIndex ind jb
        A.setNnzb ib (n + 1)
      else pure A
  pure (g, A)

/-- `bml_export_to_dense_ellblock` (`bml_export_ellblock_typed.c` 28-102); `addr` as above. -/
def exportDense [Zero R] (addr : Nat → Nat → Nat) (A : EllB R) : Res (Arr R) :=
  if ¬ A.N > 0 then .error
  else do
    let off ← offsets A.bsize A.NB
    -- assert(offset[ib] < N)
    loopFrom 1 A.NB () fun ib _ => do
      let o ← off.read ib
      if o < A.N then pure () else .error
    loop A.NB (⟨A.N * A.N, fun _ => 0⟩ : Arr R) fun ib d =>
      A.eachIdx ib d fun ind jb d => do
        let b ← A.blockAssert ind
        let bi ← A.bsize.read ib
        let bj ← A.bsize.read jb
        loop2 bi bj d fun ii jj d => do
          let oi ← off.read ib
          let oj ← off.read jb
          let v ← b.read (ROWMAJOR ii jj bi bj)
          d.write (addr (oi + ii) (oj + jj)) v

/-- `bml_copy_ellblock_new` (`bml_copy_ellblock_typed.c` 22-62).  The block rows are copied in
parallel; they only write to the pointers of their own row, and the model runs them in any given
order `sc`. -/
def copyMatrix (g : Glob) (sc : Sched) (A : EllB R) : Res (Glob × EllB R) := do
  let (g, B) ← blockMatrix (R := R) g A.NB A.MB A.M A.bsize
  let nz ← copyTo A.NB B.nnzb A.nnzb
  let ix ← copyTo (A.NB * A.MB) B.indexb A.indexb
  let B := { B with nnzb := nz, indexb := ix }
  let B ← forList sc B fun ti B => do
    let ib := ti.2
    let bi ← B.bsize.read ib
    if ¬ bi > 0 then .error
    else if ¬ bi < 10 then .error
    else do
      let n ← A.nnzb.read ib
      loop n B fun jp B => do
        let ind := ROWMAJOR ib jp A.NB A.MB
        let jb ← B.indexb.read ind
        if ¬ jb < A.NB then .error
        else
          match ← B.ptr.read ind with
          | some _ => .error
          | none => do
            let ai ← A.bsize.read ib
            let aj ← A.bsize.read jb
            let src ← A.block ind
            let b ← copyNew (ai * aj) src
            B.alloc ind b
  pure (g, B)

/-- `bml_copy_ellblock` (`bml_copy_ellblock_typed.c` 71-109).  The order of the block rows does not
matter; the model takes it as a parameter. -/
def copyInto (sc : Sched) (junk : Nat → R) (A B : EllB R) : Res (EllB R) :=
  if A.NB ≠ B.NB then .error
  else do
    let nz ← copyTo A.NB B.nnzb A.nnzb
    let ix ← copyTo (A.NB * A.MB) B.indexb A.indexb
    let B := { B with nnzb := nz, indexb := ix }
    forList sc B fun ti B => do
      let ib := ti.2
      let n ← A.nnzb.read ib
      loop n B fun jp B => do
        let ind := ROWMAJOR ib jp A.NB A.MB
        let src ← A.blockAssert ind
        let jb ← B.indexb.read ind
        let ai ← A.bsize.read ib
        let aj ← A.bsize.read jb
        let B ← match ← B.ptr.read ind with
          | some _ => pure B
          | none => B.alloc ind ⟨ai * aj, junk⟩
        let dst ← B.block ind
        let b ← copyTo (ai * aj) dst src
        B.putBlock ind b

/-- BLAS `scal` on the first `n` elements. -/
def scal [Mul R] (n : Nat) (c : R) (b : Arr R) : Res (Arr R) :=
  loop n b fun k b => do
    let v ← b.read k
    b.write k (c * v)

/-- `bml_scale_inplace_ellblock` (`bml_scale_ellblock_typed.c` 81-87, 66-77). -/
def scaleInplace [Mul R] (c : R) (A : EllB R) : Res (EllB R) :=
  loop A.NB A fun ib A => do
    let n ← A.nnzb.read ib
    loop n A fun jp A => do
      let ind := ROWMAJOR ib jp A.NB A.MB
      let jb ← A.indexb.read ind
      let bi ← A.bsize.read ib
      let bj ← A.bsize.read jb
      let b ← A.blockAssert ind
      let b ← scal (bi * bj) c b
      A.putBlock ind b

/-- `bml_scale_ellblock` with `A != B` (`bml_scale_ellblock_typed.c` 49-79). -/
def scaleInto [Mul R] (sc : Sched) (junk : Nat → R) (c : R) (A B : EllB R) : Res (EllB R) := do
  let B ← copyInto sc junk A B
  loop A.NB B fun ib B => do
    let n ← A.nnzb.read ib
    loop n B fun jp B => do
      let ind := ROWMAJOR ib jp A.NB A.MB
      let jb ← A.indexb.read ind
      let bi ← A.bsize.read ib
      let bj ← A.bsize.read jb
      let b ← B.blockAssert ind
      let b ← scal (bi * bj) c b
      B.putBlock ind b

/-- `bml_scale_ellblock_new` (`bml_scale_ellblock_typed.c` 29-40): copy, then scale `A` into the
copy. -/
def scaleNew [Mul R] (g : Glob) (sc sc' : Sched) (junk : Nat → R) (c : R) (A : EllB R) :
    Res (Glob × EllB R) := do
  let (g, B) ← copyMatrix g sc A
  let B ← scaleInto sc' junk c A B
  pure (g, B)

end EllB

end Bml
