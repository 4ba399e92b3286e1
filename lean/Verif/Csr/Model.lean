import Verif.Ellpack.Model4
import Verif.Csr.Hash

/-!
# Model of the CSR format (1): rows, element access, constructors, copies, updates

`src/C-interface/csr/`.  A row is a separate object with its own two arrays, which grow on demand.
The CSR functions always work on all rows; `A->domain` is not consulted.
-/

namespace Bml

/-- `csr_sparse_row_t`, `bml_types_csr.h` lines 47-59. -/
structure CsrRow (R : Type) where
  nnz : Nat
  vals : Arr R
  cols : Arr Nat
  alloc : Nat

/-- `bml_matrix_csr_t`, `bml_types_csr.h` lines 60-94, without the fields for MPI, the domain and
the unused fields `TOTNNZ_`, `lvarsgid_`, `table_`.  `M` is `NZMAX_`. -/
structure Csr (R : Type) where
  N : Nat
  M : Nat
  data : Arr (CsrRow R)

/-- `bml_reallocate_memory(a, n * sizeof(*a))`, `bml_allocate.c`.  The first cells keep their
content.  The content of the new cells is whatever `get` holds there; the theorems are about all
`get`. -/
def Arr.realloc {α : Type} (a : Arr α) (n : Nat) : Arr α := ⟨n, a.get⟩

namespace CsrRow

variable {R : Type}

/-- `INIT_ROW_SPACE`, `bml_types_csr.h` line 10. -/
def initRowSpace : Nat := 10

/-- `alloc_size_ *= EXPAND_FACT`, `bml_types_csr.h` line 11: the product with the `double` 1.3,
truncated to `int`.  For `int` arguments this is the integer part of `13 a / 10`.  A result above
`INT_MAX` is not modelled. -/
def expand (a : Nat) : Nat := a * 13 / 10

/-- Walk over the entries of a row: `for (pos = 0; pos < NNZ_; pos++) s = f(cols[pos], vals[pos], s)`.
Loops that look at one of the two arrays only are written in the same way. -/
def fold {σ : Type} (r : CsrRow R) (s : σ) (f : Nat → R → σ → Res σ) : Res σ :=
  loop r.nnz s fun pos s => do
    let c ← r.cols.read pos
    let v ← r.vals.read pos
    f c v s

/-! ## `bml_setters_csr_typed.c` -/

/-- `csr_set_row_element_new`, lines 26-49. -/
def setNew (r : CsrRow R) (j : Nat) (v : R) : Res (CsrRow R) := do
  let pos := r.nnz
  let r := { r with nnz := r.nnz + 1 }
  let r := if r.nnz > r.alloc then
      { r with alloc := expand r.alloc, cols := r.cols.realloc (expand r.alloc),
               vals := r.vals.realloc (expand r.alloc) }
    else r
  let cols ← r.cols.write pos j
  let vals ← r.vals.write pos v
  pure { r with cols := cols, vals := vals }

/-- Lines 73-81: search of column `j` from position `p`. -/
def findPos (r : CsrRow R) (j : Nat) : Nat → Nat → Res (Option Nat)
  | _, 0 => .ok none
  | p, fuel + 1 => do
    let k ← r.cols.read p
    if k = j then pure (some p) else findPos r j (p + 1) fuel

/-- `csr_set_row_element`, lines 62-86. -/
def set (r : CsrRow R) (j : Nat) (v : R) : Res (CsrRow R) := do
  match ← r.findPos j 0 r.nnz with
  | some l => do
    let vals ← r.vals.write l v
    pure { r with vals := vals }
  | none => r.setNew j v

/-- Lines 112-121 and 275-284: make room for `count` entries. -/
def reserve (r : CsrRow R) (count : Nat) : CsrRow R :=
  if count > r.alloc then
    { r with alloc := count, cols := r.cols.realloc count, vals := r.vals.realloc count }
  else r

/-- `csr_set_row`, lines 101-130. -/
def setAll (r : CsrRow R) (count : Nat) (nzcolids : Arr Nat) (rowvals : Arr R) :
    Res (CsrRow R) := do
  let r := r.reserve count
  let st ← loop count (r.cols, r.vals) fun j st => do
    let col ← nzcolids.read j
    let index ← st.1.write j col
    let v ← rowvals.read col
    let data ← st.2.write j v
    pure (index, data)
  pure { r with cols := st.1, vals := st.2, nnz := count }

/-- `csr_set_sparse_row`, lines 263-295. -/
def setSparse (r : CsrRow R) (count : Nat) (cols : Arr Nat) (vals : Arr R) (big : R → Bool) :
    Res (CsrRow R) := do
  let r := r.reserve count
  let r := { r with nnz := 0 }
  loop count r fun j r => do
    let v ← vals.read j
    if big v then do
      let c ← cols.read j
      let index ← r.cols.write r.nnz c
      let data ← r.vals.write r.nnz v
      pure { r with cols := index, vals := data, nnz := r.nnz + 1 }
    else pure r

/-! ## `bml_getters_csr_typed.c` -/

/-- `csr_get_row_element`, lines 20-44. -/
def get [Zero R] (r : CsrRow R) (j : Int) : Res R :=
  if j < 0 then .error
  else do
    match ← r.findPos j.toNat 0 r.nnz with
    | some pos => r.vals.read pos
    | none => pure 0

/-! ## `bml_allocate_csr_typed.c` -/

/-- `csr_clear_row`, lines 25-32. -/
def clear [Zero R] (r : CsrRow R) : Res (CsrRow R) := do
  let cols ← memset r.cols r.nnz 0
  let vals ← memset r.vals r.nnz 0
  pure { r with cols := cols, vals := vals, nnz := 0 }

/-- Lines 72-73 and 154-155. -/
def rowSpace (alloc : Nat) : Nat := if initRowSpace ≥ alloc then initRowSpace else alloc

/-- `csr_noinit_row`, lines 66-81; `jv`, `ji` are what `malloc` returns. -/
def noinit (alloc : Nat) (jv : Nat → R) (ji : Nat → Nat) : CsrRow R :=
  ⟨0, ⟨rowSpace alloc, jv⟩, ⟨rowSpace alloc, ji⟩, rowSpace alloc⟩

/-- `csr_zero_row`, lines 148-163. -/
def zero [Zero R] (alloc : Nat) : CsrRow R :=
  ⟨0, ⟨rowSpace alloc, fun _ => 0⟩, ⟨rowSpace alloc, fun _ => 0⟩, rowSpace alloc⟩

/-! ## `bml_copy_csr_typed.c` -/

/-- `csr_copy_row_new`, lines 23-37. -/
def copyNew (r : CsrRow R) (jv : Nat → R) (ji : Nat → Nat) : Res (CsrRow R) := do
  let b := noinit r.alloc jv ji
  let cols ← copyRange r.cols 0 b.cols 0 r.nnz
  let vals ← copyRange r.vals 0 b.vals 0 r.nnz
  pure { b with cols := cols, vals := vals, nnz := r.nnz }

/-- `csr_copy_row`, lines 87-103. -/
def copyInto (r b : CsrRow R) : Res (CsrRow R) :=
  if b.alloc < r.nnz then .error
  else do
    let cols ← copyRange r.cols 0 b.cols 0 r.nnz
    let vals ← copyRange r.vals 0 b.vals 0 r.nnz
    pure { b with cols := cols, vals := vals, nnz := r.nnz }

/-- `csr_scale_row`, `bml_scale_csr_typed.c` lines 26-40. -/
def scale [Mul R] (a : R) (r : CsrRow R) : Res (CsrRow R) := do
  let vals ← scal r.nnz a r.vals 0
  pure { r with vals := vals }

/-- Row of `bml_threshold_csr`, `bml_threshold_csr_typed.c` lines 86-103. -/
def threshold (big : R → Bool) (r : CsrRow R) : Res (CsrRow R) := do
  let st ← loop r.nnz (r.cols, r.vals, 0) fun pos (st : Arr Nat × Arr R × Nat) => do
    let v ← st.2.1.read pos
    if big v then
      if st.2.2 < pos then do
        let c ← st.1.read pos
        let cols ← st.1.write st.2.2 c
        let vals ← st.2.1.write st.2.2 v
        pure (cols, vals, st.2.2 + 1)
      else pure (st.1, st.2.1, st.2.2 + 1)
    else pure st
  pure { r with cols := st.1, vals := st.2.1, nnz := st.2.2 }

/-- `csr_swap_row_entries`, `bml_transpose_csr_typed.c` lines 89-107. -/
def swap (r : CsrRow R) (ipos jpos : Nat) : Res (CsrRow R) :=
  if ipos = jpos then pure r else do
    let tmp ← r.vals.read ipos
    let itmp ← r.cols.read ipos
    let v ← r.vals.read jpos
    let vals ← r.vals.write ipos v
    let vals ← vals.write jpos tmp
    let c ← r.cols.read jpos
    let cols ← r.cols.write ipos c
    let cols ← cols.write jpos itmp
    pure { r with vals := vals, cols := cols }

end CsrRow

namespace Csr

variable {R : Type}

/-- `#pragma omp parallel for` over the rows where iteration `i` updates the row object
`A->data_[i]`. -/
def forRows (A : Csr R) (sc : Sched) (f : Nat → CsrRow R → Res (CsrRow R)) : Res (Csr R) :=
  forList sc A fun ti A => do
    let r ← A.data.read ti.2
    let r ← f ti.2 r
    let data ← A.data.write ti.2 r
    pure { A with data := data }

/-- The same with private variables (`S`) of every thread and a reduction variable (`T`). -/
def forRowsS {S T : Type} (A : Csr R) (sc : Sched) (s : S) (t : T)
    (f : Nat → CsrRow R → S → T → Res (CsrRow R × S × T)) : Res (Csr R × T) := do
  let st ← forList sc (A, (fun _ => s), t) fun ti (st : Csr R × (Nat → S) × T) => do
    let r ← st.1.data.read ti.2
    let (r, s, t) ← f ti.2 r (st.2.1 ti.1) st.2.2
    let data ← st.1.data.write ti.2 r
    pure ({ st.1 with data := data }, upd st.2.1 ti.1 s, t)
  pure (st.1, st.2.2)

/-- `A->data_[i] = f(A->data_[i])`. -/
def onRow (A : Csr R) (i : Nat) (f : CsrRow R → Res (CsrRow R)) : Res (Csr R) := do
  let r ← A.data.read i
  let r ← f r
  let data ← A.data.write i r
  pure { A with data := data }

variable [Zero R] [One R] [Add R] [Mul R] [Neg R] [Sub R]

/-! ## `bml_setters_csr_typed.c`, `bml_getters_csr_typed.c` -/

/-- `bml_set_element_new_csr`, lines 144-155. -/
def setElementNew (A : Csr R) (i j : Nat) (v : R) : Res (Csr R) := A.onRow i (·.setNew j v)

/-- `bml_set_element_csr`, lines 170-183. -/
def setElement (A : Csr R) (i j : Nat) (v : R) : Res (Csr R) := A.onRow i (·.set j v)

/-- `bml_set_row_csr`, lines 195-224; `junk` is the content of the allocated `cols`. -/
def setRow (A : Csr R) (i : Nat) (row : Arr R) (big : R → Bool) (junk : Nat → Nat) :
    Res (Csr R) :=
  A.onRow i fun r => do
    let st ← loop A.N ((⟨A.N, junk⟩ : Arr Nat), 0) fun j st => do
      let v ← row.read j
      if big v then do
        let cols ← st.1.write st.2 j
        pure (cols, st.2 + 1)
      else pure st
    ({ r with nnz := 0 } : CsrRow R).setAll st.2 st.1 row

/-- `bml_set_diagonal_csr`, lines 234-249. -/
def setDiagonal (A : Csr R) (diag : Arr R) (big : R → Bool) : Res (Csr R) :=
  loop A.N A fun i A => do
    let d ← diag.read i
    A.onRow i (·.set i (if big d then d else 0))

/-- `bml_set_sparse_row_csr`, lines 310-324. -/
def setSparseRow (A : Csr R) (i count : Nat) (cols : Arr Nat) (vals : Arr R) (big : R → Bool) :
    Res (Csr R) := A.onRow i (·.setSparse count cols vals big)

/-- `bml_get_csr`, `bml_getters_csr_typed.c` lines 53-67. -/
def getElement (A : Csr R) (i j : Int) : Res R :=
  if i < 0 ∨ i ≥ A.N then .error
  else do
    let r ← A.data.read i.toNat
    r.get j

/-- `bml_get_row_csr`, lines 153-172. -/
def getRow (A : Csr R) (i : Nat) : Res (Arr R) := do
  let r ← A.data.read i
  r.fold (⟨A.N, fun _ => 0⟩ : Arr R) fun c v row => row.write c v

/-- `bml_get_sparse_row_csr`, lines 122-142: columns, values and their number. -/
def getSparseRow (A : Csr R) (i : Nat) (jv : Nat → R) (ji : Nat → Nat) :
    Res (Arr Nat × Arr R × Nat) := do
  let r ← A.data.read i
  let cols ← copyRange r.cols 0 ⟨r.nnz, ji⟩ 0 r.nnz
  let vals ← copyRange r.vals 0 ⟨r.nnz, jv⟩ 0 r.nnz
  pure (cols, vals, r.nnz)

/-- `bml_get_diagonal_csr`, lines 182-195. -/
def getDiagonal (A : Csr R) : Res (Arr R) :=
  loop A.N ⟨A.N, fun _ => 0⟩ fun i diag => do
    let r ← A.data.read i
    let v ← r.get i
    diag.write i v

/-! ## `bml_allocate_csr_typed.c` -/

/-- `bml_clear_csr`, lines 42-53. -/
def clear (A : Csr R) (sc : Sched) : Res (Csr R) := A.forRows sc fun _ r => r.clear

/-- `bml_noinit_matrix_csr`, lines 98-135.  `jv i`, `ji i` are the contents of the arrays of row
`i`. -/
def noinit (N M : Nat) (jv : Nat → Nat → R) (ji : Nat → Nat → Nat) : Csr R :=
  ⟨N, M, ⟨N, fun i => CsrRow.noinit M (jv i) (ji i)⟩⟩

/-- `bml_zero_matrix_csr`, lines 180-216. -/
def newZero (N M : Nat) : Csr R := ⟨N, M, ⟨N, fun _ => CsrRow.zero M⟩⟩

/-- `bml_banded_matrix_csr`, lines 233-270; bounds as in `Ell.bandedRow`. -/
def banded (N M : Nat) (rv : Nat → Nat → R) (sc : Sched) : Res (Csr R) :=
  (newZero N M).forRows sc fun i r => do
    let jlo := i - M / 2
    let jhi := if i + M ≤ N + M / 2 then i + M - M / 2 else N
    let st ← loopFrom jlo jhi (r.cols, r.vals, 0) fun j (st : Arr Nat × Arr R × Nat) => do
      let cols ← st.1.write st.2.2 j
      let vals ← st.2.1.write st.2.2 (rv i st.2.2)
      pure (cols, vals, st.2.2 + 1)
    pure { r with cols := st.1, vals := st.2.1, nnz := st.2.2 }

/-- State of `bml_random_matrix_csr` inside a row: the row arrays, `col_marker` (`true` for 1),
`col_marker_pos`, the number of calls of `rand()`, `col` and `nnz_row`. -/
structure RandSt (R : Type) where
  cols : Arr Nat
  vals : Arr R
  marker : Arr Bool
  pos : Arr Nat
  calls : Nat
  col : Nat
  nnzRow : Nat

/-- Lines 320-334: one iteration of the loop over `j`. -/
def randomStep (N : Nat) (rnd : Nat → Nat) (toR : Nat → R) (s : RandSt R) : Res (RandSt R) := do
  let m ← s.marker.read s.col
  let s ← (if m = false then do
      let vals ← s.vals.write s.nnzRow (toR (rnd s.calls))
      let cols ← s.cols.write s.nnzRow s.col
      let pos ← s.pos.write s.nnzRow s.col
      let marker ← s.marker.write s.col true
      pure ⟨cols, vals, marker, pos, s.calls + 1, s.col, s.nnzRow + 1⟩
    else pure s)
  pure { s with calls := s.calls + 1, col := rnd s.calls % N }

/-- `bml_random_matrix_csr`, lines 292-359 (sequential); lines 313-342 are the row loop. -/
def random (N M : Nat) (rnd : Nat → Nat) (toR : Nat → R) : Res (Csr R) := do
  let st ← loop N ((newZero N M : Csr R), (⟨N, fun _ => false⟩ : Arr Bool),
      (⟨M, fun _ => 0⟩ : Arr Nat), 0) fun i st => do
    let r ← st.1.data.read i
    let s ← loop M (⟨r.cols, r.vals, st.2.1, st.2.2.1, st.2.2.2, i, 0⟩ : RandSt R)
      fun _ s => randomStep N rnd toR s
    let marker ← loop s.nnzRow s.marker fun j marker => do
      let c ← s.pos.read j
      marker.write c false
    let data ← st.1.data.write i { r with cols := s.cols, vals := s.vals, nnz := s.nnzRow }
    pure ({ st.1 with data := data }, marker, s.pos, s.calls)
  pure st.1

/-- `bml_identity_matrix_csr`, lines 376-406. -/
def identity (N M : Nat) (sc : Sched) : Res (Csr R) :=
  (newZero N M).forRows sc fun i r => do
    let cols ← r.cols.write 0 i
    let vals ← r.vals.write 0 1
    pure { r with cols := cols, vals := vals, nnz := 1 }

/-! ## `bml_copy_csr_typed.c`, `bml_convert_csr_typed.c`, import, export -/

/-- `bml_copy_csr_new`, lines 46-77. -/
def copyNew (A : Csr R) (sc : Sched) (jd : Nat → CsrRow R) (jv : Nat → Nat → R)
    (ji : Nat → Nat → Nat) : Res (Csr R) := do
  let data ← forList sc (⟨A.N, jd⟩ : Arr (CsrRow R)) fun ti data => do
    let r ← A.data.read ti.2
    let r ← r.copyNew (jv ti.2) (ji ti.2)
    data.write ti.2 r
  pure ⟨A.N, A.M, data⟩

/-- `bml_copy_csr`, lines 113-138. -/
def copyInto (A B : Csr R) (sc : Sched) : Res (Csr R) :=
  if A.N = B.N then
    B.forRows sc fun i b => do
      let r ← A.data.read i
      r.copyInto b
  else .error

/-- `bml_convert_csr`, `bml_convert_csr_typed.c` lines 20-45; `getRow i` is `bml_get_row(A, i)` of
the source, `big0` the test `|x| > 0`. -/
def convertFrom (getRow : Nat → Res (Arr R)) (N M : Nat) (big0 : R → Bool) (junk : Nat → Nat) :
    Res (Csr R) :=
  loop N (newZero N M) fun i B => do
    let row ← getRow i
    B.setRow i row big0 junk

/-- `bml_import_from_dense_csr`, `bml_import_csr_typed.c` lines 29-68. -/
def importDense (order : Order) (N : Nat) (D : Arr R) (big : R → Bool) (M : Nat) (sc : Sched) :
    Res (Csr R) :=
  (newZero N M).forRows sc fun i r =>
    loop N r fun j r => do
      let v ← D.read (order.addr i j N)
      if big v then r.setNew j v else pure r

/-- `bml_export_to_dense_csr`, `bml_export_csr_typed.c` lines 26-69. -/
def exportDense (A : Csr R) (order : Order) (sc : Sched) : Res (Arr R) :=
  forList sc ⟨A.N * A.N, fun _ => 0⟩ fun ti D => do
    let r ← A.data.read ti.2
    r.fold D fun j v D => D.write (order.addr ti.2 j A.N) v

/-! ## `bml_scale_csr_typed.c`, `bml_threshold_csr_typed.c` -/

/-- `bml_scale_inplace_csr`, lines 85-98. -/
def scaleInplace (a : R) (A : Csr R) (sc : Sched) : Res (Csr R) := A.forRows sc fun _ r => r.scale a

/-- `bml_scale_csr_new`, lines 49-59. -/
def scaleNew (a : R) (A : Csr R) (sc sc' : Sched) (jd : Nat → CsrRow R) (jv : Nat → Nat → R)
    (ji : Nat → Nat → Nat) : Res (Csr R) := do
  let B ← A.copyNew sc jd jv ji
  B.scaleInplace a sc'

/-- `bml_scale_csr`, lines 68-83, for `A != B`. -/
def scale (a : R) (A B : Csr R) (sc sc' : Sched) : Res (Csr R) := do
  let B ← A.copyInto B sc
  B.scaleInplace a sc'

/-- `bml_threshold_csr`, lines 73-105. -/
def threshold (A : Csr R) (big : R → Bool) (sc : Sched) : Res (Csr R) :=
  A.forRows sc fun _ r => r.threshold big

/-- `bml_threshold_new_csr`, lines 28-63.  `bnnz` is a constant: it is read once, before the loop
over the entries, and every kept entry is stored at that position. -/
def thresholdNew (A : Csr R) (big : R → Bool) (sc : Sched) : Res (Csr R) :=
  (newZero A.N A.M).forRows sc fun i b => do
    let bnnz := b.nnz
    let r ← A.data.read i
    r.fold b fun c v b =>
      if big v then do
        let vals ← b.vals.write bnnz v
        let cols ← b.cols.write bnnz c
        pure { b with vals := vals, cols := cols, nnz := b.nnz + 1 }
      else pure b

/-! ## `bml_add_csr_typed.c` -/

/-- Lines 60-64: `avals[pos] *= alpha` and the insertion of the columns into the table. -/
def scaleInsert (α : R) (r : CsrRow R) (t : Hash.Table) : Res (Arr R × Hash.Table) :=
  loop r.nnz (r.vals, t) fun pos st => do
    let v ← st.1.read pos
    let vals ← st.1.write pos (v * α)
    let c ← r.cols.read pos
    let t ← Hash.insert st.2 c
    pure (vals, t)

/-- Lines 68-81: one entry `(c, w)` of the row of `B`.  `stale` records that `vals_` has been
reallocated since `avals` was loaded in line 57; a write through `avals` is then an access to
freed memory. -/
def addEntry (β : R) (t : Hash.Table) (c : Nat) (w : R) (st : CsrRow R × Bool) :
    Res (CsrRow R × Bool) := do
  match ← Hash.lookup t c with
  | some k =>
    if st.2 then .ub
    else do
      let v ← st.1.vals.read k
      let vals ← st.1.vals.write k (v + β * w)
      pure ({ st.1 with vals := vals }, false)
  | none => do
    let r ← st.1.setNew c (β * w)
    pure (r, st.2 || decide (st.1.nnz + 1 > st.1.alloc))

/-- Lines 54-84: row `i`. -/
def addRow (α β : R) (brow : CsrRow R) (r : CsrRow R) (t : Hash.Table) :
    Res (CsrRow R × Hash.Table) := do
  let (vals, t) ← scaleInsert α r t
  let (r, _) ← brow.fold ({ r with vals := vals }, false) fun c w st => addEntry β t c w st
  let t ← Hash.reset t
  pure (r, t)

/-- `bml_get_bandwidth_csr`, `bml_introspection_csr.c` lines 118-132. -/
def bandwidth (A : Csr R) : Res Nat :=
  loop A.N 0 fun i m => do
    let r ← A.data.read i
    pure (if r.nnz > m then r.nnz else m)

/-- `bml_add_csr`, lines 37-90, for distinct `A`, `B`.  `sc`, `sc'` are the schedules of the two
parallel loops; every thread has its own table, `junk` is the content of its storage. -/
def add (A B : Csr R) (α β : R) (big : R → Bool) (sc sc' : Sched) (junk : Nat → Hash.Slot) :
    Res (Csr R) := do
  let tsize ← A.bandwidth
  let t ← Hash.newTable tsize junk
  let (A, _) ← A.forRowsS sc t () fun i r t _ => do
    let b ← B.data.read i
    let (r, t) ← addRow α β b r t
    pure (r, t, ())
  A.threshold big sc'

/-- `bml_add_csr` with `A == B`: `bcols`, `bvals` are `acols`, `avals`, and `bvals` is read after
the scaling. -/
def addSelf (A : Csr R) (α β : R) (big : R → Bool) (sc sc' : Sched) (junk : Nat → Hash.Slot) :
    Res (Csr R) := do
  let tsize ← A.bandwidth
  let t ← Hash.newTable tsize junk
  let (A, _) ← A.forRowsS sc t () fun _ r t _ => do
    let (vals, t) ← scaleInsert α r t
    let (r, _) ← loop r.nnz ({ r with vals := vals }, false) fun pos (st : CsrRow R × Bool) =>
      if st.2 then .ub
      else do
        let c ← st.1.cols.read pos
        let w ← st.1.vals.read pos
        addEntry β t c w st
    let t ← Hash.reset t
    pure (r, t, ())
  A.threshold big sc'

/-- Row of `bml_add_identity_csr`, lines 137-169. -/
def addIdentityRow [DecidableEq R] (β : R) (i : Nat) (r : CsrRow R) : Res (CsrRow R) := do
  let diag ← r.findPos i 0 r.nnz
  if β ≠ 0 then
    match diag with
    | none => r.setNew i β
    | some p => do
      let v ← r.vals.read p
      let vals ← r.vals.write p (v + β)
      pure { r with vals := vals }
  else pure r

/-- `bml_add_identity_csr`, lines 127-172. -/
def addIdentity [DecidableEq R] (A : Csr R) (β : R) (big : R → Bool) (sc sc' : Sched) :
    Res (Csr R) := do
  let A ← A.forRows sc fun i r => addIdentityRow β i r
  A.threshold big sc'

/-- `bml_scale_add_identity_csr`, lines 185-196.  `alphaR` is what the scaling routine finds when it
reads the `double` argument through a pointer to the element type; it is `alpha` for the type
`double`. -/
def scaleAddIdentity [DecidableEq R] (A : Csr R) (alphaR β : R) (big : R → Bool)
    (sc sc1 sc2 : Sched) : Res (Csr R) := do
  let A ← A.scaleInplace alphaR sc
  A.addIdentity β big sc1 sc2

/-- `bml_add_norm_csr`, lines 105-115: not implemented. -/
def addNorm (_A _B : Csr R) : Res (Csr R × R) := .error

/-- `bml_reorder_csr`, `bml_copy_csr_typed.c` lines 149-155: not implemented. -/
def reorder (_A : Csr R) (_perm : Arr Nat) : Res (Csr R) := .error

end Csr

end Bml
