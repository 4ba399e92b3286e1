import Verif.Basic
import Verif.SRow

/-!
# Model of the ELLPACK format (1): storage, getters, setters, add, multiply

Transcription of `src/C-interface/ellpack/*_typed.c`, CPU code path (no offload, no
cusparse/rocsparse/hypre).  `R` is the element type `REAL_T`.
-/

namespace Bml

/-- `struct bml_matrix_ellpack_t`, `src/C-interface/ellpack/bml_types_ellpack.h` 16-50: the
fields that the kernels use.  `value`, `index` are `N*M` arrays addressed by
`ROWMAJOR(i,k,N,M)`, `nnz` has length `N`. -/
structure Ell (R : Type) where
  N : Nat
  M : Nat
  val : Arr R
  idx : Arr Nat
  nnz : Arr Nat

/-- The scratch arrays `x`, `ix`, `jx` of the sparse kernels
(`bml_add_ellpack_typed.c` 88-93, `bml_multiply_ellpack_typed.c` 185-190, 414-419). -/
structure Scr (R : Type) where
  x : Arr R
  ix : Arr Nat
  jx : Arr Nat

namespace Ell

variable {R : Type} [Zero R] [One R] [Add R] [Mul R]

/-- `value[ROWMAJOR(i,p)] = v; index[ROWMAJOR(i,p)] = k;` -/
def putEntry (A : Ell R) (i p k : Nat) (v : R) : Res (Ell R) := do
  let val ← A.val.write (ROWMAJOR i p A.N A.M) v
  let idx ← A.idx.write (ROWMAJOR i p A.N A.M) k
  pure { A with val := val, idx := idx }

/-- `nnz[i] = n;` -/
def setNnz (A : Ell R) (i n : Nat) : Res (Ell R) := do
  let nnz ← A.nnz.write i n
  pure { A with nnz := nnz }

/-! ## Getters: `bml_getters_ellpack_typed.c` -/

/-- Lines 47-54: the search loop of `bml_get_element_ellpack`, starting at slot `p`
with `fuel` slots left. -/
def findFrom (A : Ell R) (i j : Nat) : Nat → Nat → Res R
  | _, 0 => .ok 0
  | p, fuel + 1 => do
    let k ← A.idx.read (ROWMAJOR i p A.N A.M)
    if k = j then A.val.read (ROWMAJOR i p A.N A.M)
    else findFrom A i j (p + 1) fuel

/-- `bml_get_element_ellpack`, lines 18-55.  The indices are C `int`s and may be negative. -/
def getElement (A : Ell R) (i j : Int) : Res R :=
  if i < 0 ∨ i ≥ A.N then .error
  else if j < 0 ∨ j ≥ A.N then .error
  else do
    let n ← A.nnz.read i.toNat
    findFrom A i.toNat j.toNat 0 n

/-- `bml_get_row_ellpack`, lines 66-98.  (Stored columns are `Nat`, so the test `ll >= 0`
is always true.) -/
def getRow (A : Ell R) (i : Nat) : Res (Arr R) := do
  let n ← A.nnz.read i
  loop n ⟨A.N, fun _ => 0⟩ fun j row => do
    let ll ← A.idx.read (ROWMAJOR i j A.N A.M)
    let v ← A.val.read (ROWMAJOR i j A.N A.M)
    row.write ll v

/-- `bml_get_diagonal_ellpack`, lines 108-136. -/
def getDiagonal (A : Ell R) : Res (Arr R) :=
  loop A.N ⟨A.N, fun _ => 0⟩ fun i diag => do
    let n ← A.nnz.read i
    let diag ← diag.write i 0
    loop n diag fun j diag => do
      let k ← A.idx.read (ROWMAJOR i j A.N A.M)
      if k = i then
        let v ← A.val.read (ROWMAJOR i j A.N A.M)
        diag.write i v
      else pure diag

/-! ## Setters: `bml_setters_ellpack_typed.c` -/

/-- `bml_set_element_new_ellpack`, lines 26-50: append, no check. -/
def setElementNew (A : Ell R) (i j : Nat) (v : R) : Res (Ell R) := do
  let n ← A.nnz.read i
  let A ← A.putEntry i n j v
  A.setNnz i (n + 1)

/-- Lines 84-92: search of column `j` in row `i`, from slot `p`. -/
def findSlot (A : Ell R) (i j : Nat) : Nat → Nat → Res (Option Nat)
  | _, 0 => .ok none
  | p, fuel + 1 => do
    let k ← A.idx.read (ROWMAJOR i p A.N A.M)
    if k = j then pure (some p) else findSlot A i j (p + 1) fuel

/-- `bml_set_element_ellpack`, lines 66-113.  The row is searched only when it holds more
than two entries; otherwise the element is appended. -/
def setElement (A : Ell R) (i j : Nat) (v : R) : Res (Ell R) := do
  let n ← A.nnz.read i
  if n > 2 then
    match ← findSlot A i j 0 n with
    | some l =>
      let val ← A.val.write (ROWMAJOR i l A.N A.M) v
      pure { A with val := val }
    | none => do
      let A ← A.putEntry i n j v
      A.setNnz i (n + 1)
  else do
    let A ← A.putEntry i n j v
    A.setNnz i (n + 1)

/-- `bml_set_row_ellpack`, lines 125-161.  `ll` counts from 0 instead of -1. -/
def setRow (A : Ell R) (i : Nat) (row : Arr R) (big : R → Bool) : Res (Ell R) := do
  let (A, ll) ← loop A.N (A, 0) fun j (st : Ell R × Nat) => do
    let v ← row.read j
    if big v then
      let A ← st.1.putEntry i st.2 j v
      pure (A, st.2 + 1)
    else pure st
  A.setNnz i ll

/-- `bml_set_diagonal_ellpack`, lines 171-221, body of the row loop. -/
def setDiagonalRow (big : R → Bool) (diag : Arr R) (i : Nat) (A : Ell R) : Res (Ell R) := do
  let n ← A.nnz.read i
  let d ← diag.read i
  let (A, ll) ← loop n (A, false) fun j (st : Ell R × Bool) => do
    let k ← st.1.idx.read (ROWMAJOR i j st.1.N st.1.M)
    if k = i then
      let val ← st.1.val.write (ROWMAJOR i j st.1.N st.1.M) (if big d then d else 0)
      pure ({ st.1 with val := val }, true)
    else pure st
  if ll then pure A
  else if big d then do
    let A ← A.putEntry i n i d
    A.setNnz i (n + 1)
  else pure A

/-- `bml_set_diagonal_ellpack`, lines 171-221. -/
def setDiagonal (A : Ell R) (diag : Arr R) (big : R → Bool) : Res (Ell R) :=
  loop A.N A fun i A => setDiagonalRow big diag i A

/-! ## The accumulator of the sparse kernels -/

/-- `if (ix[k] == 0) { x[k] = 0; ix[k] = i+1; jx[l] = k; l++; }  x[k] = x[k] + v;`
`bml_add_ellpack_typed.c` 166-173, 180-187; `bml_multiply_ellpack_typed.c` 283-292, 500-509,
657-665. -/
def accum (mark k : Nat) (v : R) (st : Scr R × Nat) : Res (Scr R × Nat) := do
  let t ← st.1.ix.read k
  let st ← (if t = 0 then do
      let x ← st.1.x.write k 0
      let jx ← st.1.jx.write st.2 k
      let ix ← st.1.ix.write k mark
      pure (⟨x, ix, jx⟩, st.2 + 1)
    else pure st)
  let xk ← st.1.x.read k
  let x ← st.1.x.write k (xk + v)
  pure ({ st.1 with x := x }, st.2)

/-- The loop over row `i` of `A` adding `alpha` times each entry to the accumulator:
`bml_add_ellpack_typed.c` 163-174 and 177-188. -/
def accumRow (A : Ell R) (i mark : Nat) (α : R) (st : Scr R × Nat) : Res (Scr R × Nat) := do
  let n ← A.nnz.read i
  loop n st fun jp st => do
    let k ← A.idx.read (ROWMAJOR i jp A.N A.M)
    let v ← A.val.read (ROWMAJOR i jp A.N A.M)
    accum mark k (α * v) st

/-- The compaction loop: walk over `jx[0..l)`, store the entries that pass `test` at
consecutive slots of row `i`, reset the scratch.  `bml_add_ellpack_typed.c` 191-204,
`bml_multiply_ellpack_typed.c` 301-321, 521-541 (the two branches there have
the same body). -/
def flush (C : Ell R) (i : Nat) (test : Nat → R → Bool) (s : Scr R) (l : Nat) :
    Res (Ell R × Scr R × Nat) :=
  loop l (C, s, 0) fun jp (st : Ell R × Scr R × Nat) => do
    let jind ← st.2.1.jx.read jp
    let xTmp ← st.2.1.x.read jind
    let (C, ll) ← (if test jind xTmp then do
        let C ← st.1.putEntry i st.2.2 jind xTmp
        pure (C, st.2.2 + 1)
      else pure (st.1, st.2.2))
    let x ← st.2.1.x.write jind 0
    let ix ← st.2.1.ix.write jind 0
    pure (C, ⟨x, ix, st.2.1.jx⟩, ll)

/-- The scratch arrays after the three `memset`s. -/
def clearScr (N : Nat) : Scr R := ⟨⟨N, fun _ => 0⟩, ⟨N, fun _ => 0⟩, ⟨N, fun _ => 0⟩⟩

/-! ## Addition: `bml_add_ellpack_typed.c` -/

/-- Body of the row loop of `bml_add_ellpack`, lines 161-205. -/
def addRow [DecidableEq R] (B : Ell R) (α β : R) (big : R → Bool) (i : Nat)
    (A : Ell R) (s : Scr R) : Res (Ell R × Scr R) := do
  let st ← (if α ≠ 0 then accumRow A i (i + 1) α (s, 0) else pure (s, 0))
  let st ← (if β ≠ 0 then accumRow B i (i + 1) β st else pure st)
  let A ← A.setNnz i st.2
  let (A, s, ll) ← flush A i (fun _ x => big x) st.1 st.2
  let A ← A.setNnz i ll
  pure (A, s)

/-- `bml_add_ellpack`, lines 50-216: `A := alpha A + beta B`, rows `rowMin..rowMax` of this
rank, under the OpenMP schedule `sc`.  Each thread has its own copy of the scratch arrays
(`firstprivate`). -/
def add [DecidableEq R] (A B : Ell R) (α β : R) (big : R → Bool) (sc : Sched) :
    Res (Ell R) := do
  let (A, _) ← forList sc (A, fun _ => clearScr A.N)
    fun ti (st : Ell R × (Nat → Scr R)) => do
      let (A, s) ← addRow B α β big ti.2 st.1 (st.2 ti.1)
      pure (A, upd st.2 ti.1 s)
  pure A

/-- `bml_add(A, A, ...)`: both arguments are the same matrix, so the kernel reads the
second operand from the matrix it is updating. -/
def addSelf [DecidableEq R] (A : Ell R) (α β : R) (big : R → Bool) (sc : Sched) :
    Res (Ell R) := do
  let (A, _) ← forList sc (A, fun _ => clearScr A.N)
    fun ti (st : Ell R × (Nat → Scr R)) => do
      let (A, s) ← addRow st.1 α β big ti.2 st.1 (st.2 ti.1)
      pure (A, upd st.2 ti.1 s)
  pure A

/-! ## Multiplication: `bml_multiply_ellpack_typed.c` -/

/-- Lines 492-511: accumulate row `i` of `A*B`. -/
def accumProd (A B : Ell R) (i : Nat) (st : Scr R × Nat) : Res (Scr R × Nat) := do
  let n ← A.nnz.read i
  loop n st fun jp st => do
    let a ← A.val.read (ROWMAJOR i jp A.N A.M)
    let j ← A.idx.read (ROWMAJOR i jp A.N A.M)
    accumRow B j (i + 1) a st

/-- Body of the row loop of `bml_multiply_AB_ellpack`, lines 491-542. -/
def multABRow (A B : Ell R) (big : R → Bool) (i : Nat) (C : Ell R) (s : Scr R) :
    Res (Ell R × Scr R) := do
  let st ← accumProd A B i (s, 0)
  if st.2 > C.M then .error
  else do
    let (C, s, ll) ← flush C i (fun j x => decide (j = i) || big x) st.1 st.2
    let C ← C.setNnz i ll
    pure (C, s)

/-- `bml_multiply_AB_ellpack`, lines 362-553. -/
def multAB (A B C : Ell R) (big : R → Bool) (sc : Sched) : Res (Ell R) := do
  let (C, _) ← forList sc (C, fun _ => clearScr C.N)
    fun ti (st : Ell R × (Nat → Scr R)) => do
      let (C, s) ← multABRow A B big ti.2 st.1 (st.2 ti.1)
      pure (C, upd st.2 ti.1 s)
  pure C

/-- Lines 272-279 (the part concerning `traceX`): sum of the stored diagonal entries of row
`i`.  In C this is interleaved with the accumulation; it touches only `traceX`. -/
def rowTrace (X : Ell R) (i : Nat) (t : R) : Res R := do
  let n ← X.nnz.read i
  loop n t fun jp t => do
    let a ← X.val.read (ROWMAJOR i jp X.N X.M)
    let j ← X.idx.read (ROWMAJOR i jp X.N X.M)
    pure (if j = i then t + a else t)

/-- Lines 302-312 (the part concerning `traceX2`): sum of `x[jp]` over touched columns
`jp == i`. -/
def scrTrace (s : Scr R) (l i : Nat) (t : R) : Res R :=
  loop l t fun j t => do
    let jp ← s.jx.read j
    let xtmp ← s.x.read jp
    pure (if jp = i then t + xtmp else t)

/-- Body of the row loop of `bml_multiply_x2_ellpack`, lines 271-332.  The capacity check
comes after the stores. -/
def multX2Row (X : Ell R) (big : R → Bool) (i : Nat) (C : Ell R) (s : Scr R) (tr : R × R) :
    Res (Ell R × Scr R × (R × R)) := do
  let t1 ← rowTrace X i tr.1
  let st ← accumProd X X i (s, 0)
  let t2 ← scrTrace st.1 st.2 i tr.2
  let (C, s, ll) ← flush C i (fun j x => decide (j = i) || big x) st.1 st.2
  if ll > C.M then .error
  else do
    let C ← C.setNnz i ll
    pure (C, s, (t1, t2))

/-- `bml_multiply_x2_ellpack`, lines 130-349.  Returns `X2` and the pair
`(traceX, traceX2)`.  The OpenMP `reduction(+)` of the traces is modelled by one running sum
(addition in `R` is exact and commutative). -/
def multX2 (X X2 : Ell R) (big : R → Bool) (sc : Sched) : Res (Ell R × (R × R)) := do
  let (C, _, tr) ← forList sc (X2, (fun _ => clearScr X.N), ((0 : R), (0 : R)))
    fun ti (st : Ell R × (Nat → Scr R) × (R × R)) => do
      let (C, s, tr) ← multX2Row X big ti.2 st.1 (st.2.1 ti.1) st.2.2
      pure (C, upd st.2.1 ti.1 s, tr)
  pure (C, tr)

/-- `bml_noinit_matrix_ellpack`, `bml_allocate_ellpack_typed.c` 146-188: value and index
arrays come from `malloc` (content `jv`, `ji` arbitrary), `nnz` from `calloc`. -/
def noinit (N M : Nat) (jv : Nat → R) (ji : Nat → Nat) : Ell R :=
  ⟨N, M, ⟨N * M, jv⟩, ⟨N * M, ji⟩, ⟨N, fun _ => 0⟩⟩

/-- `bml_multiply_ellpack`, lines 55-118, for distinct `A`, `B`: product into a temporary
`A2` of `C`'s dimensions, then `C := beta C + alpha A2`.  `sc1`, `sc2` are the
schedules of the two parallel loops. -/
def multiply [DecidableEq R] (A B C : Ell R) (α β : R) (big : R → Bool) (sc1 sc2 : Sched)
    (jv : Nat → R) (ji : Nat → Nat) : Res (Ell R) := do
  let A2 ← multAB A B (noinit C.N C.M jv ji) big sc1
  add C A2 β α big sc2

/-- `bml_multiply_ellpack`, lines 55-118, for `A == B`: `x2` directly into `C` when
`alpha == 1 && beta == 0`, else `x2` into a temporary and add. -/
def multiplySelf [DecidableEq R] (A C : Ell R) (α β : R) (big : R → Bool) (sc1 sc2 : Sched)
    (jv : Nat → R) (ji : Nat → Nat) : Res (Ell R) :=
  if α = 1 ∧ β = 0 then do
    let (C, _) ← multX2 A C big sc1
    pure C
  else do
    let (A2, _) ← multX2 A (noinit C.N C.M jv ji) big sc1
    add C A2 β α big sc2

end Ell

end Bml
