import Verif.Basic
import Mathlib.Data.List.Nodup
import Mathlib.Data.List.Perm.Basic
import Mathlib.Data.List.Infix

/-!
# Matrix handles and the memory behind them

A matrix handle is a pointer to a structure whose first member is the matrix type; the structure
points to further allocations.  This file models the allocations of every format, which calls make
them and which calls release them.  The numbers stored in the arrays are modelled elsewhere: here
an array is an opaque allocation.

Releasing or reading an address at which nothing is allocated is undefined behaviour.  The
allocator is arbitrary: it may return any address at which nothing is allocated (so addresses are
reused), or fail.
-/

namespace Bml.Handle

/-- An address. -/
abbrev Addr := Nat

/-- `bml_matrix_type_t`, `bml_types.h` lines 7-21. -/
inductive Typ
  | uninitialized | dense | ellpack | ellblock | csr | distributed2d
  deriving DecidableEq

/-- `bml_matrix_precision_t`, `bml_types.h` lines 24-36. -/
inductive Prec
  | uninitialized | singleReal | doubleReal | singleComplex | doubleComplex
  deriving DecidableEq

/-- `bml_distribution_mode_t`, `bml_types.h` lines 70-78. -/
inductive Mode
  | sequential | distributed | graphDistributed
  deriving DecidableEq

/-- The scalar members of a matrix structure. -/
structure Hdr where
  prec : Prec
  N : Nat
  M : Nat
  NB : Nat
  mode : Mode
  deriving DecidableEq

/-- What is allocated at an address: a plain array, a domain structure with its five arrays
(`bml_types.h` lines 81-115), a matrix structure of one of the formats with the pointers it holds, a
CSR row with its two arrays, the array of row pointers of a CSR matrix, or the array of block
pointers of a block-ELLPACK matrix (only the pointers of stored blocks, row by row; the slots
behind them are not listed). -/
inductive Obj
  | raw
  | domain (rmin rmax rext displ elem : Addr)
  | dense (hd : Hdr) (matrix dom dom2 : Addr)
  | ellpack (hd : Hdr) (value index nnz dom dom2 : Addr)
  | csr (hd : Hdr) (data : Addr)
  | rows (ptrs : List Addr)
  | row (cols vals : Addr)
  | ellblock (hd : Hdr) (ptr indexb nnzb bsize : Addr)
  | blocks (ptrs : List Addr)
  | dist (hd : Hdr) (matrix : Addr)

/-- The memory. -/
abbrev Mem := Addr → Option Obj

/-- An allocator: an address, or failure. -/
abbrev Alloc := Mem → Option Addr

/-- `bml_allocate_memory` and `bml_noinit_allocate_memory`, `bml_allocate.c` lines 43-100 (the branch
with `calloc`/`malloc`): a failed allocation is reported. -/
def malloc (al : Alloc) (h : Mem) : Res (Addr × Mem) :=
  match al h with
  | none => .error
  | some a => .ok (a, upd h a (some .raw))

/-- `n` successive allocations. -/
def mallocs (al : Alloc) : Nat → Mem → Res (List Addr × Mem)
  | 0, h => .ok ([], h)
  | n + 1, h => do
    let (a, h) ← malloc al h
    let (L, h) ← mallocs al n h
    pure (a :: L, h)

/-- Filling in the structure allocated at `a`. -/
def store (a : Addr) (o : Obj) (h : Mem) : Res Mem :=
  match h a with
  | none => .ub
  | some _ => .ok (upd h a (some o))

/-- `bml_free_memory`, `bml_allocate.c` lines 128-137. -/
def free (a : Addr) (h : Mem) : Res Mem :=
  match h a with
  | none => .ub
  | some _ => .ok (upd h a none)

/-- Releasing a list of allocations, in order. -/
def freeAll : List Addr → Mem → Res Mem
  | [], h => .ok h
  | a :: L, h => do
    let h ← free a h
    freeAll L h

/-- `bml_default_domain`, `bml_allocate.c` lines 600-615: the structure and its five arrays (what is
stored in them is modelled in `Verif.Domain`). -/
def newDomain (al : Alloc) (h : Mem) : Res (Addr × Mem) := do
  let (L, h) ← mallocs al 6 h
  match L with
  | [d, a, b, c, e, f] => do
    let h ← store d (.domain a b c e f) h
    pure (d, h)
  | _ => .ub

/-- `bml_deallocate_domain`, `bml_allocate.c` lines 207-218.  The five pointers are read before the
first release; the program reads each of them just before releasing it. -/
def deallocDomain (d : Addr) (h : Mem) : Res Mem :=
  match h d with
  | some (.domain a b c e f) => freeAll [a, b, c, e, f, d] h
  | _ => .ub

/-! ## Construction -/

/-- `bml_noinit_matrix_dense` and `bml_zero_matrix_dense`, `bml_allocate_dense_typed.c` lines 91-191:
the allocations (the two functions make the same ones). -/
def newDense (al : Alloc) (hd : Hdr) (h : Mem) : Res (Addr × Mem) := do
  let (L, h) ← mallocs al 2 h
  match L with
  | [a, m] => do
    let (d1, h) ← newDomain al h
    let (d2, h) ← newDomain al h
    let h ← store a (.dense hd m d1 d2) h
    pure (a, h)
  | _ => .ub

/-- `bml_noinit_matrix_ellpack` and `bml_zero_matrix_ellpack`, `bml_allocate_ellpack_typed.c` lines
146-266: the allocations.  The arrays for cuSPARSE and similar libraries are not built. -/
def newEllpack (al : Alloc) (hd : Hdr) (h : Mem) : Res (Addr × Mem) := do
  let (L, h) ← mallocs al 4 h
  match L with
  | [a, ix, nz, v] => do
    let (d1, h) ← newDomain al h
    let (d2, h) ← newDomain al h
    let h ← store a (.ellpack hd v ix nz d1 d2) h
    pure (a, h)
  | _ => .ub

/-- `csr_noinit_row` and `csr_zero_row`, `bml_allocate_csr_typed.c` lines 66-81 and 148-163, for the
`n` rows of a matrix.  The loop over rows is parallel in the program; the order of the allocations
is then a matter of the allocator, which is arbitrary here. -/
def newRows (al : Alloc) : Nat → Mem → Res (List Addr × Mem)
  | 0, h => .ok ([], h)
  | n + 1, h => do
    let (L, h) ← mallocs al 3 h
    match L with
    | [r, c, v] => do
      let h ← store r (.row c v) h
      let (L, h) ← newRows al n h
      pure (r :: L, h)
    | _ => .ub

/-- `bml_noinit_matrix_csr` and `bml_zero_matrix_csr`, `bml_allocate_csr_typed.c` lines 98-216.  The
allocation of the two domains is commented out in the source (lines 130-133 and 211-214). -/
def newCsr (al : Alloc) (hd : Hdr) (h : Mem) : Res (Addr × Mem) := do
  let (L, h) ← mallocs al 2 h
  match L with
  | [a, data] => do
    let (rs, h) ← newRows al hd.N h
    let h ← store data (.rows rs) h
    let h ← store a (.csr hd data) h
    pure (a, h)
  | _ => .ub

/-- `bml_block_matrix_ellblock`, `bml_allocate_ellblock_typed.c` lines 171-240 (without the memory
pool): the allocations.  No block is stored.  The table of default block sizes that the first call
allocates and nothing releases is left out (it is the subject of C39). -/
def newEllblock (al : Alloc) (hd : Hdr) (h : Mem) : Res (Addr × Mem) := do
  let (L, h) ← mallocs al 5 h
  match L with
  | [a, bs, ix, nz, p] => do
    let h ← store p (.blocks []) h
    let h ← store a (.ellblock hd p ix nz bs) h
    pure (a, h)
  | _ => .ub

/-- The allocations of a matrix of type `t` that is not distributed: the dispatch of
`bml_noinit_rectangular_matrix`, `bml_allocate.c` lines 280-307 and of the constructors of each
format over the precision, for instance `bml_allocate_dense.c` lines 112-140. -/
def newLocal (al : Alloc) (t : Typ) (hd : Hdr) (h : Mem) : Res (Addr × Mem) :=
  match t with
  | .uninitialized => .error
  | .distributed2d => .error
  | .dense => if hd.prec = .uninitialized then .error else newDense al hd h
  | .ellpack => if hd.prec = .uninitialized then .error else newEllpack al hd h
  | .csr => if hd.prec = .uninitialized then .error else newCsr al hd h
  | .ellblock => if hd.prec = .uninitialized then .error else newEllblock al hd h

/-- `bml_zero_matrix` in sequential mode, `bml_allocate.c` lines 386-430.  `bml_zero_matrix_ellpack`
asserts `M > 0` (`bml_allocate_ellpack_typed.c` line 211). -/
def zeroLocal (al : Alloc) (t : Typ) (hd : Hdr) (h : Mem) : Res (Addr × Mem) :=
  if t = .ellpack ∧ hd.M = 0 then .error else newLocal al t hd h

/-- The header of a tile: `bml_allocate_distributed2d.c` lines 164-166. -/
def Hdr.tile (hd : Hdr) (p : Nat) : Hdr := ⟨hd.prec, hd.N / p, hd.M / p, hd.NB, .sequential⟩

/-! ## Release -/

/-- `csr_deallocate_row`, `bml_allocate_csr.c` lines 169-176, for a list of rows. -/
def deallocRows : List Addr → Mem → Res Mem
  | [], h => .ok h
  | r :: L, h =>
    match h r with
    | some (.row c v) => do
      let h ← freeAll [v, c, r] h
      deallocRows L h
    | _ => .ub

/-- The release of a matrix that is not distributed: `bml_deallocate_dense`
(`bml_allocate_dense_typed.c` lines 34-52), `bml_deallocate_ellpack` (`bml_allocate_ellpack_typed.c`
lines 32-67), `bml_deallocate_csr` (`bml_allocate_csr.c` lines 184-201) and `bml_deallocate_ellblock`
(`bml_allocate_ellblock.c` lines 119-142).  Pointers are read before the first release. -/
def deallocLocal (a : Addr) (h : Mem) : Res Mem :=
  match h a with
  | some (.dense _ m d1 d2) => do
    let h ← deallocDomain d1 h
    let h ← deallocDomain d2 h
    freeAll [m, a] h
  | some (.ellpack _ v ix nz d1 d2) => do
    let h ← deallocDomain d1 h
    let h ← deallocDomain d2 h
    freeAll [v, ix, nz, a] h
  | some (.csr _ data) =>
    match h data with
    | some (.rows rs) => do
      let h ← deallocRows rs h
      freeAll [data, a] h
    | _ => .ub
  | some (.ellblock _ p ix nz bs) =>
    match h p with
    | some (.blocks bl) => do
      let h ← freeAll bl h
      freeAll [p, ix, nz, bs, a] h
    | _ => .ub
  | _ => .ub

/-- The release of any matrix: the `switch` of `bml_deallocate`, `bml_allocate.c` lines 173-197, with
`bml_deallocate_distributed2d`, `bml_allocate_distributed2d.c` lines 83-91. -/
def deallocMat (a : Addr) (h : Mem) : Res Mem :=
  match h a with
  | some (.dist _ l) => do
    let h ← deallocLocal l h
    free a h
  | _ => deallocLocal a h

/-! ## The state of a program -/

/-- A program's memory, its matrix handles (`none` is `NULL`), and the number of MPI communicators
created and not released. -/
structure State where
  mem : Mem
  vars : Nat → Option Addr
  comms : Nat

/-- A program at its start. -/
def State.init : State := ⟨fun _ => none, fun _ => none, 0⟩

/-- `v = bml_zero_matrix(t, …, sequential)`.  A matrix that `v` pointed to is not released: "the
function does not check whether the matrix is already allocated" (`bml_allocate.c` lines 373-374). -/
def zero (al : Alloc) (v : Nat) (t : Typ) (hd : Hdr) (s : State) : Res State := do
  let (a, h) ← zeroLocal al t hd s.mem
  pure { s with mem := h, vars := upd s.vars v (some a) }

/-- `v = bml_zero_matrix(t, …, distributed)`: `bml_zero_matrix_distributed2d` and
`bml_setup_distributed2d`, `bml_allocate_distributed2d.c` lines 42-75 and 149-168, on a grid of
`p × p` processes.  Two communicators are created. -/
def zeroDist (al : Alloc) (p v : Nat) (t : Typ) (hd : Hdr) (s : State) : Res State := do
  if hd.N = 0 ∨ hd.M = 0 ∨ hd.N / p * p ≠ hd.N then .error
  let (a, h) ← malloc al s.mem
  let (l, h) ← zeroLocal al t (hd.tile p) h
  let h ← store a (.dist hd l) h
  pure { mem := h, vars := upd s.vars v (some a), comms := s.comms + 2 }

/-- The allocations of a copy of the matrix at `l`, which is not distributed: `bml_copy_dense_new`
(`bml_copy_dense_typed.c` lines 32-64), `bml_copy_ellpack_new` (`bml_copy_ellpack_typed.c` lines
22-77), `bml_copy_csr_new` (`bml_copy_csr_typed.c` lines 46-76), `bml_copy_ellblock_new`
(`bml_copy_ellblock_typed.c` lines 22-63).  What is copied into the arrays is modelled elsewhere. -/
def copyLocal (al : Alloc) (l : Addr) (h : Mem) : Res (Addr × Mem) :=
  match h l with
  | some (.dense hd _ _ _) => newDense al hd h
  | some (.ellpack hd _ _ _ _ _) => newEllpack al hd h
  | some (.csr hd _) => newCsr al hd h
  | some (.ellblock hd p _ _ _) =>
    match h p with
    | some (.blocks bl) => do
      let (L, h) ← mallocs al 5 h
      match L with
      | [a, bs, ix, nz, p'] => do
        let (bl', h) ← mallocs al bl.length h
        let h ← store p' (.blocks bl') h
        let h ← store a (.ellblock hd p' ix nz bs) h
        pure (a, h)
      | _ => .ub
    | _ => .ub
  | _ => .ub

/-- `v = bml_copy_new(w)`, `bml_copy.c` lines 25-56, with `bml_copy_distributed2d_new`
(`bml_copy_distributed2d.c` lines 19-35: a new matrix with its own communicators, then a copy of the
tile; the tile of the new matrix gets the allocations of the tile of `w`). -/
def copyNew (al : Alloc) (v w : Nat) (s : State) : Res State :=
  match s.vars w with
  | none => .error
  | some b =>
    match s.mem b with
    | none => .ub
    | some (.dist hd l) => do
      let (a, h) ← malloc al s.mem
      let (l', h) ← copyLocal al l h
      let h ← store a (.dist hd l') h
      pure { mem := h, vars := upd s.vars v (some a), comms := s.comms + 2 }
    | some _ => do
      let (a, h) ← copyLocal al b s.mem
      pure { s with mem := h, vars := upd s.vars v (some a) }

/-- `bml_deallocate(&v)`, `bml_allocate.c` lines 160-200. -/
def deallocate (v : Nat) (s : State) : Res State :=
  match s.vars v with
  | none => .ok s
  | some a => do
    let h ← deallocMat a s.mem
    pure { s with mem := h, vars := upd s.vars v none }

/-- The matrix that holds the elements: the tile of a distributed matrix, otherwise the matrix
itself. -/
def target (h : Mem) (a : Addr) : Addr :=
  match h a with
  | some (.dist _ l) => l
  | _ => a

/-- `bml_clear(v)`, `bml_allocate.c` lines 226-253, with `bml_clear_ellblock`,
`bml_allocate_ellblock_typed.c` lines 127-144, which releases the blocks.  The other formats
overwrite their arrays. -/
def clear (v : Nat) (s : State) : Res State :=
  match s.vars v with
  | none => .error
  | some a =>
    match s.mem (target s.mem a) with
    | some (.ellblock _ p _ _ _) =>
      match s.mem p with
      | some (.blocks bl) => do
        let h ← freeAll bl s.mem
        let h ← store p (.blocks []) h
        pure { s with mem := h }
      | _ => .ub
    | some (.dense _ _ _ _) => .ok s
    | some (.ellpack _ _ _ _ _ _) => .ok s
    | some (.csr _ _) => .ok s
    | _ => .ub

/-- A call that makes row `i` of a CSR matrix grow: `csr_set_row_element_new`,
`bml_setters_csr_typed.c` lines 26-49 (and lines 112-122, 275-285).  Reallocation releases the old
array and allocates the new one, possibly at the same address.  Formats whose rows do not grow, and
rows that are not there, are left alone. -/
def growRow (al : Alloc) (v i : Nat) (s : State) : Res State :=
  match s.vars v with
  | none => .error
  | some a =>
    match s.mem (target s.mem a) with
    | none => .ub
    | some (.csr _ data) =>
      match s.mem data with
      | some (.rows rs) =>
        match rs[i]? with
        | none => .ok s
        | some r =>
          match s.mem r with
          | some (.row c v) => do
            let h ← free c s.mem
            let (c', h) ← malloc al h
            let h ← free v h
            let (v', h) ← malloc al h
            let h ← store r (.row c' v') h
            pure { s with mem := h }
          | _ => .ub
      | _ => .ub
    | some _ => .ok s

/-- A call that stores a new block as the `k`-th one: `bml_set_element_ellblock`,
`bml_setters_ellblock_typed.c` lines 60-100, and the other callers of `bml_allocate_block_ellblock`,
`bml_allocate_ellblock_typed.c` lines 21-39. -/
def addBlock (al : Alloc) (v k : Nat) (s : State) : Res State :=
  match s.vars v with
  | none => .error
  | some a =>
    match s.mem (target s.mem a) with
    | none => .ub
    | some (.ellblock _ p _ _ _) =>
      match s.mem p with
      | some (.blocks bl) => do
        let (b, h) ← malloc al s.mem
        let h ← store p (.blocks (bl.take k ++ b :: bl.drop k)) h
        pure { s with mem := h }
      | _ => .ub
    | some _ => .ok s

/-- A call that drops the `k`-th block: `bml_free_block_ellblock`,
`bml_allocate_ellblock_typed.c` lines 41-117, as `bml_threshold` calls it. -/
def dropBlock (v k : Nat) (s : State) : Res State :=
  match s.vars v with
  | none => .error
  | some a =>
    match s.mem (target s.mem a) with
    | none => .ub
    | some (.ellblock _ p _ _ _) =>
      match s.mem p with
      | some (.blocks bl) =>
        match bl[k]? with
        | none => .ok s
        | some b => do
          let h ← free b s.mem
          let h ← store p (.blocks (bl.take k ++ bl.drop (k + 1))) h
          pure { s with mem := h }
      | _ => .ub
    | some _ => .ok s

/-! ## Introspection -/

/-- The introspection functions of `bml_introspection.c` and `bml_allocated`. -/
inductive Query
  | allocated | type | deepType | precision | N | M | NB | distributionMode
  | rowBandwidth (i : Int) | bandwidth | sparsity | localMatrix | dataPtr

/-- What they return.  `elements` stands for a number computed from the elements (modelled under
C33), `pointer` for a pointer into the matrix. -/
inductive Obs
  | typ (t : Typ) | prec (p : Prec) | int (i : Int) | mode (m : Mode) | elements | pointer

/-- `bml_get_type`, `bml_introspection.c` lines 21-35: reads the first member of the structure. -/
def getType (h : Mem) : Option Addr → Res Typ
  | none => .ok .uninitialized
  | some a =>
    match h a with
    | some (.dense _ _ _ _) => .ok .dense
    | some (.ellpack _ _ _ _ _ _) => .ok .ellpack
    | some (.csr _ _) => .ok .csr
    | some (.ellblock _ _ _ _ _) => .ok .ellblock
    | some (.dist _ _) => .ok .distributed2d
    | _ => .ub

/-- The scalar members of a matrix structure, read through a pointer. -/
def header (h : Mem) : Option Addr → Res Hdr
  | none => .ub
  | some a =>
    match h a with
    | some (.dense hd _ _ _) => .ok hd
    | some (.ellpack hd _ _ _ _ _) => .ok hd
    | some (.csr hd _) => .ok hd
    | some (.ellblock hd _ _ _ _) => .ok hd
    | some (.dist hd _) => .ok hd
    | _ => .ub

/-- `bml_get_local_matrix`, `bml_introspection.c` lines 329-345. -/
def localMatrix (h : Mem) (A : Option Addr) : Res (Option Addr) := do
  match ← getType h A with
  | .distributed2d =>
    match A with
    | some a =>
      match h a with
      | some (.dist _ l) => .ok (some l)
      | _ => .ub
    | none => .ub
  | _ => .error

/-- `bml_get_N`, `bml_introspection.c` lines 105-136. -/
def getN (h : Mem) (A : Option Addr) : Res Int := do
  match ← getType h A with
  | .uninitialized => .ok (-1)
  | _ => do
    let hd ← header h A
    pure hd.N

/-- The introspection functions: `bml_introspection.c` lines 21-361 and `bml_allocate.c` lines
29-34. -/
def query (h : Mem) (A : Option Addr) : Query → Res Obs
  | .allocated => do
    let n ← getN h A
    pure (.int n)
  | .type => do
    let t ← getType h A
    pure (.typ t)
  | .deepType => do
    match ← getType h A with
    | .distributed2d => do
      let l ← localMatrix h A
      let t ← getType h l
      pure (.typ t)
    | t => pure (.typ t)
  | .precision => do
    match ← getType h A with
    | .uninitialized => pure (.prec .uninitialized)
    | .distributed2d => do
      let l ← localMatrix h A
      match ← getType h l with
      | .uninitialized => pure (.prec .uninitialized)
      | _ => do
        let hd ← header h l
        pure (.prec hd.prec)
    | _ => do
      let hd ← header h A
      pure (.prec hd.prec)
  | .N => do
    let n ← getN h A
    pure (.int n)
  | .M => do
    match ← getType h A with
    | .uninitialized => pure (.int 0)
    | .dense => do
      let hd ← header h A
      pure (.int hd.N)
    | _ => do
      let hd ← header h A
      pure (.int hd.M)
  | .NB => do
    match ← getType h A with
    | .uninitialized => pure (.int 0)
    | .dense => pure (.int 1)
    | .ellpack => pure (.int 1)
    | .csr => pure (.int 1)
    | .ellblock => do
      let hd ← header h A
      pure (.int hd.NB)
    | .distributed2d => .error
  | .rowBandwidth i => do
    let n ← getN h A
    if i < 0 ∨ n ≤ i then .error
    match ← getType h A with
    | .dense => pure .elements
    | .ellpack => pure .elements
    | .csr => pure .elements
    | _ => .error
  | .bandwidth => do
    match ← getType h A with
    | .dense => pure .elements
    | .ellpack => pure .elements
    | .csr => pure .elements
    | _ => .error
  | .distributionMode => do
    match ← getType h A with
    | .dense => do
      let hd ← header h A
      pure (.mode hd.mode)
    | .ellpack => do
      let hd ← header h A
      pure (.mode hd.mode)
    | .csr => do
      let hd ← header h A
      pure (.mode hd.mode)
    | _ => .error
  | .sparsity => do
    match ← getType h A with
    | .uninitialized => .error
    | _ => pure .elements
  | .localMatrix => do
    let _ ← localMatrix h A
    pure .pointer
  | .dataPtr => do
    match ← getType h A with
    | .dense => pure .pointer
    | _ => .error

/-! ## Call sequences -/

/-- A library call on handles, or the C assignment `v = w` of one handle to another. -/
inductive Cmd
  | zero (v : Nat) (t : Typ) (hd : Hdr)
  | zeroDist (v : Nat) (t : Typ) (hd : Hdr)
  | copyNew (v w : Nat)
  | deallocate (v : Nat)
  | clear (v : Nat)
  | growRow (v i : Nat)
  | addBlock (v k : Nat)
  | dropBlock (v k : Nat)
  | query (v : Nat) (q : Query)
  | assign (v w : Nat)

/-- One call on a grid of `p × p` processes; introspection also returns its result. -/
def step (al : Alloc) (p : Nat) : Cmd → State → Res (State × Option Obs)
  | .zero v t hd, s => do
    let s ← zero al v t hd s
    pure (s, none)
  | .zeroDist v t hd, s => do
    let s ← zeroDist al p v t hd s
    pure (s, none)
  | .copyNew v w, s => do
    let s ← copyNew al v w s
    pure (s, none)
  | .deallocate v, s => do
    let s ← deallocate v s
    pure (s, none)
  | .clear v, s => do
    let s ← clear v s
    pure (s, none)
  | .growRow v i, s => do
    let s ← growRow al v i s
    pure (s, none)
  | .addBlock v k, s => do
    let s ← addBlock al v k s
    pure (s, none)
  | .dropBlock v k, s => do
    let s ← dropBlock v k s
    pure (s, none)
  | .query v q, s => do
    let o ← query s.mem (s.vars v) q
    pure (s, some o)
  | .assign v w, s => pure ({ s with vars := upd s.vars v (s.vars w) }, none)

/-- A sequence of calls. -/
def run (al : Alloc) (p : Nat) : List Cmd → State → Res State
  | [], s => .ok s
  | c :: cs, s => do
    let (s, _) ← step al p c s
    run al p cs s

end Bml.Handle
