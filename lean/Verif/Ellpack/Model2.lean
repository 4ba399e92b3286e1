import Verif.Ellpack.Model

/-!
# Model of the ELLPACK format (2): threshold, scale, copy, reorder, identity, trace, norms
-/

namespace Bml

/-- `memcpy(&dst[d], &src[s], n)`, `n` counted in elements. -/
def copyRange {α : Type} (src : Arr α) (s : Nat) (dst : Arr α) (d n : Nat) : Res (Arr α) :=
  loop n dst fun k dst => do
    let v ← src.read (s + k)
    dst.write (d + k) v

/-- BLAS `SCAL(n, a, &x[start], 1)`: `x[start+k] = a * x[start+k]` for `k < n`. -/
def scal {R : Type} [Mul R] (n : Nat) (a : R) (x : Arr R) (start : Nat) : Res (Arr R) :=
  loop n x fun k x => do
    let v ← x.read (start + k)
    x.write (start + k) (a * v)

namespace Ell

variable {R : Type} [Zero R] [One R] [Add R] [Mul R] [Neg R] [Sub R]

/-! ## `bml_threshold_ellpack_typed.c` -/

/-- `bml_zero_matrix_ellpack`, `bml_allocate_ellpack_typed.c` 205-266: all arrays zero. -/
def zeroMatrix (N M : Nat) : Ell R :=
  ⟨N, M, ⟨N * M, fun _ => 0⟩, ⟨N * M, fun _ => 0⟩, ⟨N, fun _ => 0⟩⟩

/-- Lines 63-74: one row of `bml_threshold_new_ellpack`. -/
def thresholdNewRow (A : Ell R) (big : R → Bool) (i : Nat) (B : Ell R) : Res (Ell R) := do
  let n ← A.nnz.read i
  loop n B fun j B => do
    let v ← A.val.read (ROWMAJOR i j A.N A.M)
    if big v then do
      let k ← A.idx.read (ROWMAJOR i j A.N A.M)
      let p ← B.nnz.read i
      let B ← B.putEntry i p k v
      B.setNnz i (p + 1)
    else pure B

/-- `bml_threshold_new_ellpack`, lines 28-78. -/
def thresholdNew (A : Ell R) (big : R → Bool) (sc : Sched) : Res (Ell R) :=
  forList sc (zeroMatrix A.N A.M) fun ti B => thresholdNewRow A big ti.2 B

/-- Lines 116-131: one row of `bml_threshold_ellpack`, compaction in place. -/
def thresholdRow (big : R → Bool) (i : Nat) (A : Ell R) : Res (Ell R) := do
  let n ← A.nnz.read i
  let (A, rlen) ← loop n (A, 0) fun j (st : Ell R × Nat) => do
    let v ← st.1.val.read (ROWMAJOR i j st.1.N st.1.M)
    if big v then do
      let A ← (if st.2 < j then do
          let k ← st.1.idx.read (ROWMAJOR i j st.1.N st.1.M)
          st.1.putEntry i st.2 k v
        else pure st.1)
      pure (A, st.2 + 1)
    else pure st
  A.setNnz i rlen

/-- `bml_threshold_ellpack`, lines 88-133. -/
def threshold (A : Ell R) (big : R → Bool) (sc : Sched) : Res (Ell R) :=
  forList sc A fun ti A => thresholdRow big ti.2 A

/-! ## `bml_copy_ellpack_typed.c` -/

/-- Lines 135-141: the two `memcpy`s of row `i`, with the `N`, `M` of `A`. -/
def copyRow (A : Ell R) (i : Nat) (st : Arr Nat × Arr R) : Res (Arr Nat × Arr R) := do
  let idx ← copyRange A.idx (ROWMAJOR i 0 A.N A.M) st.1 (ROWMAJOR i 0 A.N A.M) A.M
  let val ← copyRange A.val (ROWMAJOR i 0 A.N A.M) st.2 (ROWMAJOR i 0 A.N A.M) A.M
  pure (idx, val)

/-- `bml_copy_ellpack`, lines 86-148.  Row `i` is copied to `B` at `ROWMAJOR(i,0,N,M)` with
the `N`, `M` of `A`. -/
def copyInto (A B : Ell R) (sc : Sched) : Res (Ell R) :=
  if A.M = 0 then .error else do
    let nnz ← copyRange A.nnz 0 B.nnz 0 A.N
    let (idx, val) ← forList sc (B.idx, B.val) fun ti st => copyRow A ti.2 st
    pure { B with nnz := nnz, idx := idx, val := val }

/-- `bml_copy_ellpack_new`, lines 22-77.  `jv`, `ji` are the contents of the `malloc`ed
arrays. -/
def copyNew (A : Ell R) (sc : Sched) (jv : Nat → R) (ji : Nat → Nat) : Res (Ell R) := do
  let B := noinit A.N A.M jv ji
  let nnz ← copyRange A.nnz 0 B.nnz 0 A.N
  let (idx, val) ← forList sc (B.idx, B.val) fun ti st => copyRow A ti.2 st
  pure { B with nnz := nnz, idx := idx, val := val }

/-- `bml_copy`, `src/C-interface/bml_copy.c` 63-111, both arguments ELLPACK. -/
def bmlCopy (A B : Ell R) (sc : Sched) : Res (Ell R) :=
  if A.N ≠ B.N then .error
  else if A.M > B.M then .error
  else copyInto A B sc

/-- Lines 181-188: row `i` of the copy `B` goes to row `perm[i]` of `A`. -/
def reorderRow (B : Ell R) (perm : Arr Nat) (i : Nat) (A : Ell R) : Res (Ell R) := do
  let pi ← perm.read i
  let idx ← copyRange B.idx (ROWMAJOR i 0 A.N A.M) A.idx (ROWMAJOR pi 0 A.N A.M) A.M
  let val ← copyRange B.val (ROWMAJOR i 0 A.N A.M) A.val (ROWMAJOR pi 0 A.N A.M) A.M
  let n ← B.nnz.read i
  let nnz ← A.nnz.write pi n
  pure { A with idx := idx, val := val, nnz := nnz }

/-- Lines 194-201: the columns of row `i` are renamed. -/
def reorderCols (perm : Arr Nat) (i : Nat) (A : Ell R) : Res (Ell R) := do
  let n ← A.nnz.read i
  loop n A fun j A => do
    let k ← A.idx.read (ROWMAJOR i j A.N A.M)
    let pk ← perm.read k
    let idx ← A.idx.write (ROWMAJOR i j A.N A.M) pk
    pure { A with idx := idx }

/-- `bml_reorder_ellpack`, lines 157-205; `sc0`, `sc1`, `sc2` are the schedules of the copy and
of the two loops. -/
def reorder (A : Ell R) (perm : Arr Nat) (sc0 sc1 sc2 : Sched) (jv : Nat → R)
    (ji : Nat → Nat) : Res (Ell R) := do
  let B ← copyNew A sc0 jv ji
  let A ← forList sc1 A fun ti A => reorderRow B perm ti.2 A
  forList sc2 A fun ti A => reorderCols perm ti.2 A

/-! ## `bml_scale_ellpack_typed.c` -/

/-- `bml_scale_inplace_ellpack`, lines 91-125, BLAS path: the rank's rows `lo..hi` are the
`(hi-lo)*M` cells from `lo*M` (`localRowExtent`, `localDispl`). -/
def scaleInplace (a : R) (A : Ell R) (lo hi : Nat) : Res (Ell R) := do
  let val ← scal ((hi - lo) * A.M) a A.val (lo * A.M)
  pure { A with val := val }

/-- `bml_scale_ellpack`, lines 47-89, distinct `A`, `B`. -/
def scale (a : R) (A B : Ell R) (lo hi : Nat) (sc : Sched) : Res (Ell R) := do
  let B ← copyInto A B sc
  let val ← scal ((hi - lo) * B.M) a B.val (lo * B.M)
  pure { B with val := val }

/-- `bml_scale_ellpack_new`, lines 28-38. -/
def scaleNew (a : R) (A : Ell R) (lo hi : Nat) (sc sc' : Sched) (jv : Nat → R)
    (ji : Nat → Nat) : Res (Ell R) := do
  let B ← copyNew A sc jv ji
  scale a A B lo hi sc'

/-! ## `bml_add_ellpack_typed.c`: identity and norm -/

/-- Lines 501-541: one row of `bml_add_identity_ellpack`.  The stack arrays `jx`, `x` have
`A_M` cells. -/
def addIdentityRow [DecidableEq R] (β : R) (big : R → Bool) (i : Nat) (A : Ell R)
    (jx : Arr Nat) (x : Arr R) : Res (Ell R × Arr Nat × Arr R) := do
  let n ← A.nnz.read i
  let (jx, x, diag) ← loop n (jx, x, (none : Option Nat))
    fun jp (st : Arr Nat × Arr R × Option Nat) => do
      let k ← A.idx.read (ROWMAJOR i jp A.N A.M)
      let v ← A.val.read (ROWMAJOR i jp A.N A.M)
      let x ← st.2.1.write jp v
      let jx ← st.1.write jp k
      pure (jx, x, if k = i then some jp else st.2.2)
  let (jx, x, l) ← (if β ≠ 0 then
      match diag with
      | none => do
        let x ← x.write n β
        let jx ← jx.write n i
        pure (jx, x, n + 1)
      | some d => do
        let xd ← x.read d
        let x ← x.write d (xd + β)
        pure (jx, x, n)
    else pure (jx, x, n))
  let (A, ll) ← loop l (A, 0) fun jp (st : Ell R × Nat) => do
    let jind ← jx.read jp
    let xTmp ← x.read jp
    if big xTmp then do
      let A ← st.1.putEntry i st.2 jind xTmp
      pure (A, st.2 + 1)
    else pure st
  let A ← A.setNnz i ll
  pure (A, jx, x)

/-- `bml_add_identity_ellpack`, lines 420-549.  All rows; every thread has its own `jx`,
`x`. -/
def addIdentity [DecidableEq R] (A : Ell R) (β : R) (big : R → Bool) (sc : Sched) :
    Res (Ell R) := do
  let (A, _) ← forList sc (A, fun _ => ((⟨A.M, fun _ => 0⟩ : Arr Nat), (⟨A.M, fun _ => 0⟩ : Arr R)))
    fun ti (st : Ell R × (Nat → Arr Nat × Arr R)) => do
      let (A, jx, x) ← addIdentityRow β big ti.2 st.1 (st.2 ti.1).1 (st.2 ti.1).2
      pure (A, upd st.2 ti.1 (jx, x))
  pure A

/-- `bml_scale_add_identity_ellpack`, lines 562-573.  The code passes `&alpha` (a
`double *`) to a routine that reads a `REAL_T` through it; `alphaR` is the value read
there.  For `REAL_T = double` this is `alpha`. -/
def scaleAddIdentity [DecidableEq R] (A : Ell R) (alphaR β : R) (big : R → Bool) (lo hi : Nat)
    (sc : Sched) : Res (Ell R) := do
  let A ← scaleInplace alphaR A lo hi
  addIdentity A β big sc

/-- The accumulator of `bml_add_norm_ellpack` (lines 345-377): like `accum`, with a second
array `y`. -/
def accumN (mark k : Nat) (v w : R) (st : Scr R × Arr R × Nat) : Res (Scr R × Arr R × Nat) := do
  let t ← st.1.ix.read k
  let st ← (if t = 0 then do
      let x ← st.1.x.write k 0
      let ix ← st.1.ix.write k mark
      let y ← st.2.1.write k 0
      let jx ← st.1.jx.write st.2.2 k
      pure (⟨x, ix, jx⟩, y, st.2.2 + 1)
    else pure st)
  let xk ← st.1.x.read k
  let x ← st.1.x.write k (xk + v)
  let yk ← st.2.1.read k
  let y ← st.2.1.write k (yk + w)
  pure ({ st.1 with x := x }, y, st.2.2)

/-- One row of `bml_add_norm_ellpack`, lines 345-396. -/
def addNormRow (B : Ell R) (α β : R) (big : R → Bool) (i : Nat)
    (A : Ell R) (s : Scr R) (y : Arr R) (tn : R) : Res (Ell R × Scr R × Arr R × R) := do
  let n ← A.nnz.read i
  let st ← loop n (s, y, 0) fun jp st => do
    let k ← A.idx.read (ROWMAJOR i jp A.N A.M)
    let v ← A.val.read (ROWMAJOR i jp A.N A.M)
    accumN (i + 1) k (α * v) v st
  let m ← B.nnz.read i
  let (s, y, l) ← loop m st fun jp st => do
    let k ← B.idx.read (ROWMAJOR i jp B.N B.M)
    let v ← B.val.read (ROWMAJOR i jp B.N B.M)
    accumN (i + 1) k (β * v) (-v) st
  let A ← A.setNnz i l
  let (A, s, y, ll, tn) ← loop l (A, s, y, 0, tn)
    fun jp (st : Ell R × Scr R × Arr R × Nat × R) => do
      let jind ← st.2.1.jx.read jp
      let xTmp ← st.2.1.x.read jind
      let yv ← st.2.2.1.read jind
      let (A, ll) ← (if big xTmp then do
          let A ← st.1.putEntry i st.2.2.2.1 jind xTmp
          pure (A, st.2.2.2.1 + 1)
        else pure (st.1, st.2.2.2.1))
      let x ← st.2.1.x.write jind 0
      let ix ← st.2.1.ix.write jind 0
      let y ← st.2.2.1.write jind 0
      pure (A, ⟨x, ix, st.2.1.jx⟩, y, ll, st.2.2.2.2 + yv * yv)
  let A ← A.setNnz i ll
  pure (A, s, y, tn)

/-- `bml_add_norm_ellpack`, lines 230-408. -/
def addNorm (A B : Ell R) (α β : R) (big : R → Bool) (sc : Sched) : Res (Ell R × R) := do
  let (A, _, tn) ← forList sc
    (A, (fun _ => (clearScr A.N, (⟨A.N, fun _ => 0⟩ : Arr R))), (0 : R))
    fun ti (st : Ell R × (Nat → Scr R × Arr R) × R) => do
      let (A, s, y, tn) ← addNormRow B α β big ti.2 st.1 (st.2.1 ti.1).1 (st.2.1 ti.1).2 st.2.2
      pure (A, upd st.2.1 ti.1 (s, y), tn)
  pure (A, tn)

/-! ## `bml_trace_ellpack_typed.c` -/

/-- Lines 80-87: the first stored diagonal entry of row `i`, searched from slot `p`. -/
def traceRow (A : Ell R) (i : Nat) : Nat → Nat → Res R := A.findFrom i i

/-- `bml_trace_ellpack`, lines 29-92 (CPU path): `reduction(+)` modelled by one sum. -/
def trace (A : Ell R) (sc : Sched) : Res R :=
  forList sc (0 : R) fun ti t => do
    let n ← A.nnz.read ti.2
    let v ← traceRow A ti.2 0 n
    pure (t + v)

/-- `bml_getVector_ellpack`, `bml_submatrix_ellpack_typed.c` 377-406, the inner search for one
column: the result cell starts with the uninitialised value `cur`; each non-matching slot
sets it to zero; a match sets it and stops. -/
def vecSearch (A : Ell R) (irow c : Nat) : Nat → Nat → R → Res R
  | _, 0, cur => .ok cur
  | p, fuel + 1, _ => do
    let k ← A.idx.read (ROWMAJOR irow p A.N A.M)
    if k = c then A.val.read (ROWMAJOR irow p A.N A.M)
    else vecSearch A irow c (p + 1) fuel 0

/-- `bml_getVector_ellpack`, lines 377-406; `jj` is read at offset `off`; `junk` is the content
of the `malloc`ed result. -/
def getVector (A : Ell R) (jj : Arr Nat) (off irow colCnt : Nat) (junk : Nat → R) :
    Res (Arr R) :=
  loop colCnt ⟨colCnt, junk⟩ fun i rv => do
    let n ← A.nnz.read irow
    let c ← jj.read (off + i)
    let cur ← rv.read i
    let v ← vecSearch A irow c 0 n cur
    rv.write i v

/-- `bml_trace_mult_ellpack`, lines 103-162.  `junk i` is the uninitialised memory handed out
in iteration `i`. -/
def traceMult (A B : Ell R) (sc : Sched) (junk : Nat → Nat → R) : Res R :=
  if A.N ≠ B.N ∨ A.M ≠ B.M then .error
  else
    forList sc (0 : R) fun ti t => do
      let n ← A.nnz.read ti.2
      let rv ← getVector B A.idx (ROWMAJOR ti.2 0 A.N A.M) ti.2 n (junk ti.2)
      loop n t fun j t => do
        let v ← A.val.read (ROWMAJOR ti.2 j A.N A.M)
        let r ← rv.read j
        pure (t + v * r)

/-! ## `bml_norm_ellpack_typed.c` -/

/-- `bml_sum_squares_ellpack`, lines 25-62. -/
def sumSquares (A : Ell R) (sc : Sched) : Res R :=
  forList sc (0 : R) fun ti t => do
    let n ← A.nnz.read ti.2
    loop n t fun j t => do
      let v ← A.val.read (ROWMAJOR ti.2 j A.N A.M)
      pure (t + v * v)

/-- `bml_sum_squares_submatrix_ellpack`, lines 73-106. -/
def sumSquaresSub (A : Ell R) (core : Nat) (sc : Sched) : Res R :=
  forList sc (0 : R) fun ti t => do
    let n ← A.nnz.read ti.2
    loop n t fun j t => do
      let k ← A.idx.read (ROWMAJOR ti.2 j A.N A.M)
      if k < core then do
        let v ← A.val.read (ROWMAJOR ti.2 j A.N A.M)
        pure (t + v * v)
      else pure t

/-- One row of `bml_sum_AB_ellpack`, lines 187-211. -/
def sumABRow (A B : Ell R) (α : R) (big : R → Bool) (i : Nat) (y : Arr R) (jjb : Arr Nat)
    (sum : R) : Res (Arr R × Arr Nat × R) := do
  let n ← A.nnz.read i
  let (ix, y) ← loop n ((⟨A.N, fun _ => 0⟩ : Arr Nat), y) fun jp (st : Arr Nat × Arr R) => do
    let k ← A.idx.read (ROWMAJOR i jp A.N A.M)
    let ix ← st.1.write k 1
    let v ← A.val.read (ROWMAJOR i jp A.N A.M)
    let y ← st.2.write k (α * v)
    pure (ix, y)
  let m ← B.nnz.read i
  let (y, jjb, l) ← loop m (y, jjb, 0) fun jp (st : Arr R × Arr Nat × Nat) => do
    let k ← B.idx.read (ROWMAJOR i jp B.N B.M)
    let t ← ix.read k
    if t ≠ 0 then do
      let jjb ← st.2.1.write st.2.2 k
      let v ← B.val.read (ROWMAJOR i jp B.N B.M)
      let yk ← st.1.read k
      let y ← st.1.write k (yk * v)
      pure (y, jjb, st.2.2 + 1)
    else pure st
  let sum ← loop l sum fun jp sum => do
    let k ← jjb.read jp
    let v ← y.read k
    pure (if big v then sum + v else sum)
  pure (y, jjb, sum)

/-- `bml_sum_AB_ellpack`, lines 118-215. -/
def sumAB (A B : Ell R) (α : R) (big : R → Bool) (sc : Sched) : Res R := do
  let (_, sum) ← forList sc
    ((fun _ => ((⟨A.N, fun _ => 0⟩ : Arr R), (⟨A.M, fun _ => 0⟩ : Arr Nat))), (0 : R))
    fun ti (st : (Nat → Arr R × Arr Nat) × R) => do
      let (y, jjb, sum) ← sumABRow A B α big ti.2 (st.1 ti.1).1 (st.1 ti.1).2 st.2
      pure (upd st.1 ti.1 (y, jjb), sum)
  pure sum

/-- One row of `bml_sum_squares2_ellpack`, lines 301-333. -/
def sumSquares2Row (A B : Ell R) (α β : R) (big : R → Bool) (i : Nat) (s : Scr R) (sum : R) :
    Res (Scr R × R) := do
  let n ← A.nnz.read i
  let (s, l) ← loop n (s, 0) fun jp (st : Scr R × Nat) => do
    let k ← A.idx.read (ROWMAJOR i jp A.N A.M)
    let x ← st.1.x.write k 0
    let ix ← st.1.ix.write k 1
    let jx ← st.1.jx.write st.2 k
    let v ← A.val.read (ROWMAJOR i jp A.N A.M)
    let yk ← x.read k
    let x ← x.write k (yk + α * v)
    pure (⟨x, ix, jx⟩, st.2 + 1)
  let m ← B.nnz.read i
  let (s, l) ← loop m (s, l) fun jp (st : Scr R × Nat) => do
    let k ← B.idx.read (ROWMAJOR i jp B.N B.M)
    let t ← st.1.ix.read k
    let st ← (if t = 0 then do
        let x ← st.1.x.write k 0
        let jx ← st.1.jx.write st.2 k
        pure (⟨x, st.1.ix, jx⟩, st.2 + 1)
      else pure st)
    let v ← B.val.read (ROWMAJOR i jp B.N B.M)
    let yk ← st.1.x.read k
    let x ← st.1.x.write k (yk + β * v)
    pure ({ st.1 with x := x }, st.2)
  let (ix, sum) ← loop l (s.ix, sum) fun jp (st : Arr Nat × R) => do
    let k ← s.jx.read jp
    let v ← s.x.read k
    let ix ← st.1.write k 0
    pure (ix, if big v then st.2 + v * v else st.2)
  pure ({ s with ix := ix }, sum)

/-- `bml_sum_squares2_ellpack`, lines 228-337 (`y` is called `x` here, `jjb` `jx`). -/
def sumSquares2 (A B : Ell R) (α β : R) (big : R → Bool) (sc : Sched) : Res R := do
  let (_, sum) ← forList sc ((fun _ => clearScr A.N), (0 : R))
    fun ti (st : (Nat → Scr R) × R) => do
      let (s, sum) ← sumSquares2Row A B α β big ti.2 (st.1 ti.1) st.2
      pure (upd st.1 ti.1 s, sum)
  pure sum

/-- `bml_fnorm2_ellpack`, lines 408-423 and 425-436: the inner search of the other matrix,
with the running value of `rvalue`.  Both matrices are addressed with `A`'s `M`. -/
def fnSearch (M c i : Nat) (idx : Arr Nat) (val : Arr R) : Nat → Nat → R → Res R
  | _, 0, cur => .ok cur
  | p, fuel + 1, _ => do
    let k ← idx.read (i * M + p)
    if k = c then val.read (i * M + p) else fnSearch M c i idx val (p + 1) fuel 0

/-- One row of `bml_fnorm2_ellpack`, lines 406-444; `rv` is the thread's `rvalue`, which is
uninitialised at first and carried from one iteration to the next. -/
def fnorm2Row [DecidableEq R] (A B : Ell R) (i : Nat) (rv : R) (fn : R) : Res (R × R) := do
  let n ← A.nnz.read i
  let m ← B.nnz.read i
  let (rv, fn) ← loop n (rv, fn) fun j (st : R × R) => do
    let c ← A.idx.read (ROWMAJOR i j A.N A.M)
    let rv ← fnSearch A.M c i B.idx B.val 0 m st.1
    let v ← A.val.read (ROWMAJOR i j A.N A.M)
    pure (rv, st.2 + (v - rv) * (v - rv))
  loop m (rv, fn) fun j (st : R × R) => do
    let c ← B.idx.read (ROWMAJOR i j A.N A.M)
    let rv ← fnSearch A.M c i A.idx A.val 0 n st.1
    let v ← B.val.read (ROWMAJOR i j A.N A.M)
    pure (rv, if rv = 0 then st.2 + v * v else st.2)

/-- `bml_fnorm2_ellpack`, lines 370-456, the sum of squares under the final `sqrt`; `junk t`
is the initial content of thread `t`'s private `rvalue`. -/
def fnorm2Sq [DecidableEq R] (A B : Ell R) (sc : Sched) (junk : Nat → R) : Res R := do
  let (_, fn) ← forList sc (junk, (0 : R)) fun ti (st : (Nat → R) × R) => do
    let (rv, fn) ← fnorm2Row A B ti.2 (st.1 ti.1) st.2
    pure (upd st.1 ti.1 rv, fn)
  pure fn

end Ell

end Bml
