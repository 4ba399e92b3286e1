import Verif.Sparsity
import Verif.Ellpack.Model2

/-!
# Model of the ELLPACK format (3): constructors, clear, import, export, convert, introspection,
element-wise product
-/

namespace Bml

/-- `memset(a, v, n * sizeof(*a))` for an all-zero pattern `v`. -/
def memset {α : Type} (a : Arr α) (n : Nat) (v : α) : Res (Arr α) :=
  loop n a fun k a => a.write k v

/-- `bml_dense_order_t`, `src/C-interface/bml_types.h` 38-45. -/
inductive Order where
  | rowMajor
  | colMajor
  deriving DecidableEq, Repr

/-- The address of element `(i,j)` of an `N × N` dense array in the given order. -/
def Order.addr (o : Order) (i j N : Nat) : Nat :=
  match o with
  | .rowMajor => ROWMAJOR i j N N
  | .colMajor => COLMAJOR i j N N

namespace Ell

variable {R : Type} [Zero R] [One R] [Add R] [Mul R]

/-! ## `bml_allocate_ellpack_typed.c` -/

/-- `bml_clear_ellpack`, lines 77-130 (the branch with three `memset`s, 124-126). -/
def clear (A : Ell R) : Res (Ell R) := do
  let nnz ← memset A.nnz A.N 0
  let idx ← memset A.idx (A.N * A.M) 0
  let val ← memset A.val (A.N * A.M) 0
  pure { A with nnz := nnz, idx := idx, val := val }

/-- `bml_zero_matrix_ellpack`, lines 205-266, with the assertion `M > 0`. -/
def newZero (N M : Nat) : Res (Ell R) := if M > 0 then .ok (zeroMatrix N M) else .error

/-- `bml_banded_matrix_ellpack`, lines 283-314, body of the row loop.  `C` `int`s may be
negative in the bounds `i - M/2`; the two conditional expressions are written with truncated
subtraction: `max(i-M/2, 0)` is `i - M/2`, and `i - M/2 + M ≤ N` is tested as
`i + M ≤ N + M/2`.  `rv i k` is the random value stored in slot `k`. -/
def bandedRow (rv : Nat → Nat → R) (i : Nat) (A : Ell R) : Res (Ell R) := do
  let jlo := i - A.M / 2
  let jhi := if i + A.M ≤ A.N + A.M / 2 then i + A.M - A.M / 2 else A.N
  let (A, jind) ← loopFrom jlo jhi (A, 0) fun j (st : Ell R × Nat) => do
    let A ← st.1.putEntry i st.2 j (rv i st.2)
    pure (A, st.2 + 1)
  A.setNnz i jind

/-- `bml_banded_matrix_ellpack`, lines 283-314. -/
def banded (N M : Nat) (rv : Nat → Nat → R) (sc : Sched) : Res (Ell R) := do
  let A ← newZero N M
  forList sc A fun ti A => bandedRow rv ti.2 A

/-- State of `bml_random_matrix_ellpack`: the matrix, `col_marker` (`true` for 1, `false` for
-1), `col_marker_pos`, and the number of calls of `rand()` so far. -/
structure RandSt (R : Type) where
  A : Ell R
  marker : Arr Bool
  pos : Arr Nat
  calls : Nat

/-- Lines 366-382: one iteration of the loop over `j`; the state carries `col` and
`nnz_row`.  `rnd n` is the `n`-th result of `rand()`, `toR` the conversion
`rand() * INV_RAND_MAX`. -/
def randomStep (rnd : Nat → Nat) (toR : Nat → R) (i : Nat)
    (st : RandSt R × Nat × Nat) : Res (RandSt R × Nat × Nat) := do
  let (s, col, nnzRow) := st
  let m ← s.marker.read col
  let (s, nnzRow) ← (if m = false then do
      let A ← s.A.putEntry i nnzRow col (toR (rnd s.calls))
      let pos ← s.pos.write nnzRow col
      let marker ← s.marker.write col true
      pure (⟨A, marker, pos, s.calls + 1⟩, nnzRow + 1)
    else pure (s, nnzRow))
  pure ({ s with calls := s.calls + 1 }, rnd s.calls % s.A.N, nnzRow)

/-- Lines 360-391: row `i`. -/
def randomRow (rnd : Nat → Nat) (toR : Nat → R) (i : Nat) (s : RandSt R) : Res (RandSt R) := do
  let (s, _, nnzRow) ← loop s.A.M (s, i, 0) fun _ st => randomStep rnd toR i st
  let A ← s.A.setNnz i nnzRow
  let marker ← loop nnzRow s.marker fun j marker => do
    let c ← s.pos.read j
    marker.write c false
  pure { s with A := A, marker := marker }

/-- `bml_random_matrix_ellpack`, lines 340-397 (sequential). -/
def random (N M : Nat) (rnd : Nat → Nat) (toR : Nat → R) : Res (Ell R) := do
  let A ← newZero N M
  let s ← loop N (⟨A, ⟨N, fun _ => false⟩, ⟨M, fun _ => 0⟩, 0⟩ : RandSt R)
    fun i s => randomRow rnd toR i s
  pure s.A

/-- `bml_identity_matrix_ellpack`, lines 414-443. -/
def identity (N M : Nat) (sc : Sched) : Res (Ell R) := do
  let A ← newZero N M
  forList sc A fun ti A => do
    let A ← A.putEntry ti.2 0 ti.2 1
    A.setNnz ti.2 1

/-! ## `bml_import_ellpack_typed.c`, `bml_export_ellpack_typed.c` -/

/-- `bml_import_from_dense_ellpack`, lines 46-70: row `i`. -/
def importRow (order : Order) (D : Arr R) (big : R → Bool) (i : Nat) (A : Ell R) :
    Res (Ell R) := do
  let A ← A.setNnz i 0
  loop A.N A fun j A => do
    let v ← D.read (order.addr i j A.N)
    if big v then do
      let n ← A.nnz.read i
      let A ← A.putEntry i n j v
      A.setNnz i (n + 1)
    else pure A

/-- `bml_import_from_dense_ellpack`, lines 28-76. -/
def importDense (order : Order) (N : Nat) (D : Arr R) (big : R → Bool) (M : Nat) (sc : Sched) :
    Res (Ell R) := do
  let A ← newZero N M
  forList sc A fun ti A => importRow order D big ti.2 A

/-- `bml_export_to_dense_ellpack`, lines 44-70: row `i`. -/
def exportRow (A : Ell R) (order : Order) (i : Nat) (D : Arr R) : Res (Arr R) := do
  let n ← A.nnz.read i
  loop n D fun j D => do
    let k ← A.idx.read (ROWMAJOR i j A.N A.M)
    let v ← A.val.read (ROWMAJOR i j A.N A.M)
    D.write (order.addr i k A.N) v

/-- `bml_export_to_dense_ellpack`, lines 26-73. -/
def exportDense (A : Ell R) (order : Order) (sc : Sched) : Res (Arr R) :=
  forList sc ⟨A.N * A.N, fun _ => 0⟩ fun ti D => exportRow A order ti.2 D

/-! ## `bml_convert_ellpack_typed.c` -/

/-- `bml_convert_ellpack`, lines 12-38: every element of the source, zeros included, goes
through `bml_set_element`.  `get i j` is `bml_get_element(A, i, j)` of the source, of any
format and of the same precision as the result. -/
def convertFrom (get : Nat → Nat → Res R) (N M : Nat) : Res (Ell R) := do
  let B ← newZero N M
  loop N B fun i B => loop N B fun j B => do
    let v ← get i j
    B.setElement i j v

/-! ## `bml_introspection_ellpack.c`, `bml_introspection_ellpack_typed.c` -/

/-- `bml_get_row_bandwidth_ellpack`, lines 96-102. -/
def rowBandwidth (A : Ell R) (i : Nat) : Res Nat := A.nnz.read i

/-- `bml_get_bandwidth_ellpack`, lines 109-120. -/
def bandwidth (A : Ell R) : Res Nat :=
  loop A.N 0 fun i m => do
    let n ← A.nnz.read i
    pure (if n > m then n else m)

/-- `bml_get_sparsity_ellpack`, `bml_introspection_ellpack_typed.c` 26-58: the counter
`nnzs`. -/
def sparsityCount (A : Ell R) (big : R → Bool) : Res Nat :=
  loop A.N 0 fun i c => do
    let n ← A.nnz.read i
    loop n c fun j c => do
      let v ← A.val.read (ROWMAJOR i j A.N A.M)
      pure (if big v then c + 1 else c)

/-- `bml_get_sparsity_ellpack`, lines 25-54. -/
def sparsity (A : Ell R) (big : R → Bool) : Res ℚ := do
  let c ← sparsityCount A big
  sparsityOf A.N c

/-! ## `bml_element_multiply_ellpack_typed.c` -/

/-- Lines 147-171: accumulate the products `A(i,k) B(i,k)` of the stored entries of `A`. -/
def accumHad (A B : Ell R) (i : Nat) (st : Scr R × Nat) : Res (Scr R × Nat) := do
  let n ← A.nnz.read i
  loop n st fun jp (st : Scr R × Nat) => do
    let k ← A.idx.read (ROWMAJOR i jp A.N A.M)
    let t ← st.1.ix.read k
    let st ← (if t = 0 then do
        let x ← st.1.x.write k 0
        let jx ← st.1.jx.write st.2 k
        let ix ← st.1.ix.write k (i + 1)
        pure (⟨x, ix, jx⟩, st.2 + 1)
      else pure st)
    let m ← B.nnz.read i
    loop m st fun kp (st : Scr R × Nat) => do
      let kB ← B.idx.read (ROWMAJOR i kp B.N B.M)
      if k = kB then do
        let a ← A.val.read (ROWMAJOR i jp A.N A.M)
        let b ← B.val.read (ROWMAJOR i kp B.N B.M)
        let xk ← st.1.x.read k
        let x ← st.1.x.write k (xk + a * b)
        pure ({ st.1 with x := x }, st.2)
      else pure st

/-- Body of the row loop of `bml_element_multiply_AB_ellpack`, lines 147-201. -/
def hadRow (A B : Ell R) (big : R → Bool) (i : Nat) (C : Ell R) (s : Scr R) :
    Res (Ell R × Scr R) := do
  let st ← accumHad A B i (s, 0)
  if st.2 > C.M then .error
  else do
    let (C, s, ll) ← flush C i (fun j x => decide (j = i) || big x) st.1 st.2
    let C ← C.setNnz i ll
    pure (C, s)

/-- `bml_element_multiply_AB_ellpack`, lines 36-210. -/
def elementMultiply (A B C : Ell R) (big : R → Bool) (sc : Sched) : Res (Ell R) := do
  let (C, _) ← forList sc (C, fun _ => clearScr C.N)
    fun ti (st : Ell R × (Nat → Scr R)) => do
      let (C, s) ← hadRow A B big ti.2 st.1 (st.2 ti.1)
      pure (C, upd st.2 ti.1 s)
  pure C

end Ell

end Bml
