import Verif.Sparsity
import Verif.Ellpack.Model4
import Verif.Dense.Gemm

/-!
# Model of the dense format

`src/C-interface/dense/*_typed.c`, CPU build (no MAGMA, no MKL offload).  `lo`, `hi` are
`localRowMin[rank]`, `localRowMax[rank]` of the domain (`0`, `N` on a single rank).
-/

namespace Bml

/-- BLAS `AXPY(n, a, &x[start], 1, &y[start], 1)`: `y[start+k] += a * x[start+k]`, `x` and `y`
different arrays. -/
def axpy {R : Type} [Add R] [Mul R] (n : Nat) (a : R) (x y : Arr R) (start : Nat) : Res (Arr R) :=
  loop n y fun k y => do
    let v ← x.read (start + k)
    let w ← y.read (start + k)
    y.write (start + k) (w + a * v)

/-- `AXPY` with `x` and `y` the same array. -/
def axpySelf {R : Type} [Add R] [Mul R] (n : Nat) (a : R) (y : Arr R) (start : Nat) : Res (Arr R) :=
  loop n y fun k y => do
    let v ← y.read (start + k)
    let w ← y.read (start + k)
    y.write (start + k) (w + a * v)

/-- `bml_matrix_dense_t`, `src/C-interface/dense/bml_types_dense.h`: `N` and the row-major array
`matrix`.  The leading dimension `ld` is always `N`. -/
structure Dense (R : Type) where
  N : Nat
  mat : Arr R

namespace Dense

variable {R : Type}

/-- `A_matrix[p]` with a C `int` index: undefined outside of the allocation. -/
def readInt (x : Arr R) (p : Int) : Res R := if p < 0 then .ub else x.read p.toNat

/-- `A_matrix[p] = v` with a C `int` index. -/
def writeInt (x : Arr R) (p : Int) (v : R) : Res (Arr R) := if p < 0 then .ub else x.write p.toNat v

/-! ## `bml_setters_dense_typed.c`, `bml_getters_dense_typed.c` -/

/-- `bml_set_element_dense`, lines 17-46, also `bml_set_element_new` (`bml_setters.c` 21-22).  No
index check. -/
def setElement (A : Dense R) (i j : Int) (v : R) : Res (Dense R) := do
  let mat ← writeInt A.mat (i * A.N + j) v
  pure { A with mat := mat }

/-- `bml_get_element_dense`, lines 19-44.  No index check. -/
def getElement (A : Dense R) (i j : Int) : Res R := readInt A.mat (i * A.N + j)

/-- `bml_set_row_dense`, lines 48-80. -/
def setRow (A : Dense R) (i : Nat) (row : Arr R) : Res (Dense R) := do
  let mat ← loop A.N A.mat fun j mat => do
    let v ← row.read j
    mat.write (ROWMAJOR i j A.N A.N) v
  pure { A with mat := mat }

/-- `bml_set_diagonal_dense`, lines 82-119. -/
def setDiagonal (A : Dense R) (diagonal : Arr R) : Res (Dense R) := do
  let mat ← loop A.N A.mat fun j mat => do
    let v ← diagonal.read j
    mat.write (ROWMAJOR j j A.N A.N) v
  pure { A with mat := mat }

/-- `bml_get_row_dense`, lines 46-74; `junk` is the content of the new array. -/
def getRow (A : Dense R) (i : Nat) (junk : Nat → R) : Res (Arr R) :=
  loop A.N ⟨A.N, junk⟩ fun j row => do
    let v ← A.mat.read (ROWMAJOR i j A.N A.N)
    row.write j v

/-- `bml_get_diagonal_dense`, lines 76-103. -/
def getDiagonal (A : Dense R) (junk : Nat → R) : Res (Arr R) :=
  loop A.N ⟨A.N, junk⟩ fun j d => do
    let v ← A.mat.read (ROWMAJOR j j A.N A.N)
    d.write j v

/-! ## `bml_allocate_dense_typed.c` -/

/-- `bml_noinit_matrix_dense`, lines 91-132. -/
def noinit (N : Nat) (junk : Nat → R) : Dense R := ⟨N, ⟨N * N, junk⟩⟩

/-- `bml_zero_matrix_dense`, lines 146-191 (`calloc`). -/
def zeroMatrix [Zero R] (N : Nat) : Dense R := ⟨N, ⟨N * N, fun _ => 0⟩⟩

/-- `bml_clear_dense`, lines 62-79. -/
def clear [Zero R] (A : Dense R) : Res (Dense R) := do
  let mat ← memset A.mat (A.N * A.N) 0
  pure { A with mat := mat }

/-- `bml_banded_matrix_dense`, lines 206-250; the bounds as in the ELLPACK constructor (truncated
subtraction).  `rv i j` is the random value. -/
def banded [Zero R] (N M : Nat) (rv : Nat → Nat → R) (sc : Sched) : Res (Dense R) := do
  let mat ← forList sc (zeroMatrix N : Dense R).mat fun ti mat =>
    let i := ti.2
    let jlo := i - M / 2
    let jhi := if i + M ≤ N + M / 2 then i + M - M / 2 else N
    loopFrom jlo jhi mat fun j mat => mat.write (ROWMAJOR i j N N) (rv i j)
  pure ⟨N, mat⟩

/-- `bml_random_matrix_dense`, lines 267-309. -/
def random [Zero R] (N : Nat) (rv : Nat → Nat → R) : Res (Dense R) := do
  let mat ← loop N (zeroMatrix N : Dense R).mat fun i mat => loop N mat fun j mat =>
    mat.write (ROWMAJOR i j N N) (rv i j)
  pure ⟨N, mat⟩

/-- `bml_identity_matrix_dense`, lines 323-362. -/
def identity [Zero R] [One R] (N : Nat) (sc : Sched) : Res (Dense R) := do
  let mat ← forList sc (zeroMatrix N : Dense R).mat fun ti mat =>
    mat.write (ROWMAJOR ti.2 ti.2 N N) 1
  pure ⟨N, mat⟩

/-! ## `bml_copy_dense_typed.c` -/

/-- `bml_copy_dense_new`, lines 32-64. -/
def copyNew (A : Dense R) (junk : Nat → R) : Res (Dense R) := do
  let mat ← copyRange A.mat 0 (noinit A.N junk).mat 0 (A.N * A.N)
  pure ⟨A.N, mat⟩

/-- `bml_copy_dense`, lines 73-104. -/
def copyInto (A B : Dense R) : Res (Dense R) := do
  let mat ← copyRange A.mat 0 B.mat 0 (A.N * A.N)
  pure { B with mat := mat }

/-- `bml_copy`, `src/C-interface/bml_copy.c` 63-111, both arguments dense (`bml_get_M` of a dense
matrix is `N`). -/
def bmlCopy (A B : Dense R) : Res (Dense R) :=
  if A.N ≠ B.N then .error
  else if A.N > B.N then .error
  else copyInto A B

/-- `bml_reorder_dense`, lines 113-155. -/
def reorder (A : Dense R) (perm : Arr Nat) (sc1 sc2 : Sched) (junk : Nat → R) : Res (Dense R) := do
  let B ← copyNew A junk
  let mat ← forList sc1 A.mat fun ti mat => do
    let p ← perm.read ti.2
    copyRange B.mat (ROWMAJOR ti.2 0 A.N A.N) mat (ROWMAJOR p 0 A.N A.N) A.N
  let mat ← forList sc2 mat fun ti mat => loop A.N mat fun j mat => do
    let p ← perm.read j
    let v ← B.mat.read (ROWMAJOR ti.2 p A.N A.N)
    mat.write (ROWMAJOR ti.2 j A.N A.N) v
  pure { A with mat := mat }

/-! ## `bml_convert_dense_typed.c`, `bml_import_dense_typed.c`, `bml_export_dense_typed.c` -/

/-- `bml_convert_dense`, lines 15-55; `get i j` is `bml_get_element` of the source. -/
def convertFrom [Zero R] (get : Nat → Nat → Res R) (N : Nat) : Res (Dense R) := do
  let mat ← loop N (zeroMatrix N : Dense R).mat fun i mat => loop N mat fun j mat => do
    let v ← get i j
    mat.write (ROWMAJOR i j N N) v
  pure ⟨N, mat⟩

/-- `bml_import_from_dense_dense`, lines 28-76. -/
def importDense [Zero R] (order : Order) (N : Nat) (D : Arr R) : Res (Dense R) :=
  match order with
  | .rowMajor => do
    let mat ← copyRange D 0 (zeroMatrix N : Dense R).mat 0 (N * N)
    pure ⟨N, mat⟩
  | .colMajor => do
    let mat ← loop N (zeroMatrix N : Dense R).mat fun i mat => loop N mat fun j mat => do
      let v ← D.read (COLMAJOR i j N N)
      mat.write (ROWMAJOR i j N N) v
    pure ⟨N, mat⟩

/-- `bml_export_to_dense_dense`, lines 25-76. -/
def exportDense (A : Dense R) (order : Order) (junk : Nat → R) : Res (Arr R) :=
  match order with
  | .rowMajor => copyRange A.mat 0 ⟨A.N * A.N, junk⟩ 0 (A.N * A.N)
  | .colMajor => loop A.N ⟨A.N * A.N, junk⟩ fun i D => loop A.N D fun j D => do
      let v ← A.mat.read (ROWMAJOR i j A.N A.N)
      D.write (COLMAJOR i j A.N A.N) v

/-! ## `bml_transpose_dense_typed.c`, `bml_transpose_triangle_dense_typed.c`,
`bml_adjungate_triangle_dense_typed.c` -/

/-- `bml_transpose_new_dense`, lines 32-79. -/
def transposeNew (A : Dense R) (sc : Sched) (junk : Nat → R) : Res (Dense R) := do
  let mat ← forList sc (noinit A.N junk).mat fun ti mat => loop A.N mat fun j mat => do
    let v ← A.mat.read (ROWMAJOR j ti.2 A.N A.N)
    mat.write (ROWMAJOR ti.2 j A.N A.N) v
  pure ⟨A.N, mat⟩

/-- `bml_transpose_dense`, lines 88-123; the test `i != j` is always true there. -/
def transpose (A : Dense R) (sc : Sched) : Res (Dense R) := do
  let mat ← forList sc A.mat fun ti mat => loopFrom (ti.2 + 1) A.N mat fun j mat =>
    if ti.2 ≠ j then do
      let tmp ← mat.read (ROWMAJOR ti.2 j A.N A.N)
      let v ← mat.read (ROWMAJOR j ti.2 A.N A.N)
      let mat ← mat.write (ROWMAJOR ti.2 j A.N A.N) v
      mat.write (ROWMAJOR j ti.2 A.N A.N) tmp
    else pure mat
  pure { A with mat := mat }

/-- The loops 36-60 of `bml_adjungate_triangle_dense`, and 35-60 of
`bml_transpose_triangle_dense` with `f = id`: copy one triangle into the other. -/
def triangleLoop (f : R → R) (A : Dense R) (upper : Bool) (sc : Sched) : Res (Dense R) := do
  let mat ← forList sc A.mat fun ti mat => loopFrom (ti.2 + 1) A.N mat fun j mat =>
    if upper then do
      let v ← mat.read (ROWMAJOR ti.2 j A.N A.N)
      mat.write (ROWMAJOR j ti.2 A.N A.N) (f v)
    else do
      let v ← mat.read (ROWMAJOR j ti.2 A.N A.N)
      mat.write (ROWMAJOR ti.2 j A.N A.N) (f v)
  pure { A with mat := mat }

/-- `bml_transpose_triangle_dense`, lines 26-61: an unknown selector does nothing. -/
def transposeTriangle (A : Dense R) (triangle : Char) (sc : Sched) : Res (Dense R) :=
  if triangle = 'u' then triangleLoop id A true sc
  else if triangle = 'l' then triangleLoop id A false sc
  else pure A

/-- `bml_adjungate_triangle_dense`, lines 27-65. -/
def adjungate (conj : R → R) (A : Dense R) (triangle : Char) (sc : Sched) : Res (Dense R) :=
  if triangle = 'u' then triangleLoop conj A true sc
  else if triangle = 'l' then triangleLoop conj A false sc
  else .error

/-! ## `bml_submatrix_dense_typed.c` -/

/-- `bml_extract_submatrix_dense`, lines 23-52. -/
def extractSubmatrix [Zero R] (A : Dense R) (irow icol BN : Nat) : Res (Dense R) := do
  let mat ← loopFrom irow (irow + BN) (zeroMatrix BN : Dense R).mat fun i mat =>
    loopFrom icol (icol + BN) mat fun j mat => do
      let v ← A.mat.read (ROWMAJOR i j A.N A.N)
      mat.write (ROWMAJOR (i - irow) (j - icol) BN BN) v
  pure ⟨BN, mat⟩

/-- `bml_assign_submatrix_dense`, lines 61-86. -/
def assignSubmatrix (A B : Dense R) (irow icol : Nat) : Res (Dense R) := do
  let mat ← loop B.N A.mat fun i mat =>
    copyRange B.mat (ROWMAJOR i 0 B.N B.N) mat (ROWMAJOR (i + irow) icol A.N A.N) B.N
  pure { A with mat := mat }

/-! ## `bml_introspection_dense_typed.c`; `big` is `is_above_threshold` -/

/-- `bml_get_row_bandwidth_dense`, lines 18-43, `big x` being `|x| > 0`. -/
def rowBandwidth (A : Dense R) (big : R → Bool) (i : Nat) : Res Nat :=
  loop A.N 0 fun j c => do
    let v ← A.mat.read (ROWMAJOR i j A.N A.N)
    pure (if big v then c + 1 else c)

/-- `bml_get_bandwidth_dense`, lines 50-83. -/
def bandwidth (A : Dense R) (big : R → Bool) : Res Nat :=
  loop A.N 0 fun i m => do
    let n ← rowBandwidth A big i
    pure (if n > m then n else m)

/-- `bml_get_sparsity_dense`, lines 91-124: the counter `nnzs`. -/
def sparsityCount (A : Dense R) (big : R → Bool) : Res Nat :=
  loop A.N 0 fun i c => loop A.N c fun j c => do
    let v ← A.mat.read (ROWMAJOR i j A.N A.N)
    pure (if big v then c + 1 else c)

/-- `bml_get_sparsity_dense`. -/
def sparsity (A : Dense R) (big : R → Bool) : Res ℚ := do
  let c ← sparsityCount A big
  sparsityOf A.N c

section Arith

variable [Zero R] [One R] [Add R] [Mul R] [Neg R] [Sub R]

/-! ## `bml_add_dense_typed.c` -/

/-- `bml_add_dense`, lines 49-142, `A` and `B` different matrices: `SCAL`, then `AXPY`.
`localDispl[rank] = lo*N`, `localRowExtent[rank] = hi - lo`. -/
def add (A B : Dense R) (α β : R) (lo hi : Nat) : Res (Dense R) := do
  let mat ← scal ((hi - lo) * B.N) α A.mat (lo * B.N)
  let mat ← axpy ((hi - lo) * B.N) β B.mat mat (lo * B.N)
  pure { A with mat := mat }

/-- `bml_add_dense(A, A, alpha, beta)`: both arguments are the same matrix. -/
def addSelf (A : Dense R) (α β : R) (lo hi : Nat) : Res (Dense R) := do
  let mat ← scal ((hi - lo) * A.N) α A.mat (lo * A.N)
  let mat ← axpySelf ((hi - lo) * A.N) β mat (lo * A.N)
  pure { A with mat := mat }

/-- A `reduction(+:acc)` loop over cells. -/
def reduceCells (sc : Sched) (f : Nat → Res R) : Res R :=
  forList sc 0 fun ti acc => do
    let v ← f ti.2
    pure (acc + v)

/-- `bml_add_norm_dense`, lines 155-184; `sc` runs over the cells `lo*N .. hi*N`. -/
def addNorm (A B : Dense R) (α β : R) (lo hi : Nat) (sc : Sched) : Res (Dense R × R) := do
  let trnorm ← reduceCells sc fun p => do
    let v ← B.mat.read p
    pure (v * v)
  let A ← add A B α β lo hi
  pure (A, trnorm)

/-- `bml_add_identity_dense`, lines 195-231; `sc` runs over the rows `lo .. hi`. -/
def addIdentity (A : Dense R) (β : R) (sc : Sched) : Res (Dense R) := do
  let mat ← forList sc A.mat fun ti mat => do
    let v ← mat.read (ROWMAJOR ti.2 ti.2 A.N A.N)
    mat.write (ROWMAJOR ti.2 ti.2 A.N A.N) (v + β)
  pure { A with mat := mat }

/-! ## `bml_scale_dense_typed.c` -/

/-- `bml_scale_inplace_dense`, lines 114-141. -/
def scaleInplace (a : R) (A : Dense R) (lo hi : Nat) : Res (Dense R) := do
  let mat ← scal ((hi - lo) * A.N) a A.mat (lo * A.N)
  pure { A with mat := mat }

/-- `bml_scale_dense_new`, lines 39-70. -/
def scaleNew (a : R) (A : Dense R) (lo hi : Nat) (junk : Nat → R) : Res (Dense R) := do
  let B ← copyNew A junk
  scaleInplace a B lo hi

/-- `bml_scale_dense`, lines 79-112, `A != B`. -/
def scale (a : R) (A B : Dense R) (lo hi : Nat) : Res (Dense R) := do
  let B ← copyInto A B
  scaleInplace a B lo hi

/-- `bml_scale_add_identity_dense`, `bml_add_dense_typed.c` 243-253. -/
def scaleAddIdentity (A : Dense R) (α β : R) (lo hi : Nat) (sc : Sched) : Res (Dense R) := do
  let A ← scaleInplace α A lo hi
  addIdentity A β sc

/-! ## `bml_threshold_dense_typed.c`; `sc` runs over the cells `lo*N .. hi*N` -/

/-- `bml_threshold_new_dense`, lines 34-76. -/
def thresholdNew (A : Dense R) (big : R → Bool) (sc : Sched) : Res (Dense R) := do
  let mat ← forList sc (zeroMatrix A.N : Dense R).mat fun ti mat => do
    let v ← A.mat.read ti.2
    if big v then mat.write ti.2 v else pure mat
  pure ⟨A.N, mat⟩

/-- `bml_threshold_dense`, lines 86-125. -/
def threshold (A : Dense R) (big : R → Bool) (sc : Sched) : Res (Dense R) := do
  let mat ← forList sc A.mat fun ti mat => do
    let v ← mat.read ti.2
    if big v then pure mat else mat.write ti.2 0
  pure { A with mat := mat }

/-! ## `bml_element_multiply_dense_typed.c` -/

/-- `bml_element_multiply_AB_dense`, lines 41-98. -/
def elementMultiply (A B C : Dense R) (sc : Sched) : Res (Dense R) := do
  let mat ← forList sc C.mat fun ti mat => do
    let a ← A.mat.read ti.2
    let b ← B.mat.read ti.2
    mat.write ti.2 (a * b)
  pure { C with mat := mat }

/-! ## `bml_trace_dense_typed.c`, `bml_norm_dense_typed.c`

The sums are returned in `R`; the C code returns their real part. -/

/-- `bml_trace_dense`, lines 31-84; `sc` runs over rows. -/
def trace (A : Dense R) (sc : Sched) : Res R :=
  reduceCells sc fun i => A.mat.read (ROWMAJOR i i A.N A.N)

/-- `bml_trace_mult_dense`, lines 95-157; `sc` runs over cells. -/
def traceMult (A B : Dense R) (sc : Sched) : Res R :=
  if A.N ≠ B.N then .error
  else reduceCells sc fun p => do
    let a ← A.mat.read p
    let b ← B.mat.read p
    pure (a * b)

/-- `bml_sum_squares_dense`, lines 32-85, and `bml_sum_squares_submatrix_dense`, lines 95-155
(there `sc` runs over the cells `0 .. core_size*N`). -/
def sumSquares (A : Dense R) (sc : Sched) : Res R :=
  reduceCells sc fun p => do
    let v ← A.mat.read p
    pure (v * v)

/-- `bml_sum_AB_dense`, lines 167-227. -/
def sumAB (A B : Dense R) (α : R) (big : R → Bool) (sc : Sched) : Res R :=
  reduceCells sc fun p => do
    let a ← A.mat.read p
    let b ← B.mat.read p
    pure (if big (α * a * b) then α * a * b else 0)

/-- `bml_sum_squares2_dense`, lines 240-307. -/
def sumSquares2 (A B : Dense R) (α β : R) (big : R → Bool) (sc : Sched) : Res R :=
  reduceCells sc fun p => do
    let a ← A.mat.read p
    let b ← B.mat.read p
    let temp := α * a + β * b
    pure (if big temp then temp * temp else 0)

/-- The two statements of the loop body of `bml_fnorm2_dense` (lines 373-374). -/
inductive FnEv where
  /-- `temp = A_matrix[i] - B_matrix[i];` -/
  | assign (i : Nat)
  /-- `fnorm += temp * temp;` -/
  | accum (i : Nat)
  deriving DecidableEq, Repr

/-- One statement of the loop body (lines 373-374) on the pair (`temp`, `fnorm`). -/
def fnStep (A B : Dense R) (e : FnEv) (st : R × R) : Res (R × R) :=
  match e with
  | .assign i => do
    let a ← A.mat.read i
    let b ← B.mat.read i
    pure (a - b, st.2)
  | .accum _ => pure (st.1, st.2 + st.1 * st.1)

/-- `bml_fnorm2_dense`, lines 342-385, up to the square root.  `temp` is `shared`: every thread
writes and reads the same variable.  `evs` is the order in which the statements take effect;
`temp0` is the uninitialised value. -/
def fnorm2Sq (A B : Dense R) (evs : List FnEv) (temp0 : R) : Res R := do
  let st ← forList evs (temp0, (0 : R)) (fnStep A B)
  pure st.2

/-! ## `bml_multiply_dense_typed.c` -/

variable [DecidableEq R]

/-- `bml_multiply_dense`, lines 56-105.  `bml_gemm` is the internal product (or a BLAS with the
same contract); `C` is different from `A` and `B`. -/
def multiply (A B C : Dense R) (α β : R) : Res (Dense R) := do
  let mat ← Gemm.gemm 'N' 'N' A.N A.N A.N α B.mat A.N A.mat A.N β C.mat A.N
  pure { C with mat := mat }

/-- `bml_multiply_AB_dense`, lines 140-147. -/
def multiplyAB (A B C : Dense R) : Res (Dense R) := multiply A B C 1 0

/-- `bml_multiply_x2_dense`, lines 116-128. -/
def multiplyX2 (X X2 : Dense R) (sc sc' : Sched) : Res (Dense R × R × R) := do
  let t0 ← trace X sc
  let X2 ← multiply X X X2 1 0
  let t1 ← trace X2 sc'
  pure (X2, t0, t1)

/-- `bml_multiply_adjust_AB_dense`, lines 161-172. -/
def multiplyAdjustAB (A B C : Dense R) : Res (Dense R) := do
  let mat ← Gemm.gemm 'T' 'T' A.N A.N A.N (1 : R) A.mat A.N B.mat A.N 0 C.mat A.N
  pure { C with mat := mat }

end Arith

/-! ## `bml_normalize_dense_typed.c` -/

section Gersh

variable {K : Type} [Field K] [LinearOrder K]

/-- Lines 138-148: `dvalue` and `radius` of row `i`. -/
def gershRow (A : Dense R) (absv : R → K) (i : Nat) : Res (R × K) := do
  let radius ← loop A.N (0 : K) fun j r => do
    let v ← A.mat.read (ROWMAJOR i j A.N A.N)
    pure (r + absv v)
  let d ← A.mat.read (ROWMAJOR i i A.N A.N)
  pure (d, radius - absv d)

/-- `bml_gershgorin_dense`, lines 97-180, on one rank, and `bml_gershgorin_partial_dense`, lines
191-239 (`sc` over the rows `0 .. nrows`); `top`, `bot` are `DBL_MAX`, `DBL_MIN`.  The `min` and
`max` reductions combine in the order of `sc`. -/
def gershgorin (A : Dense R) (absv re : R → K) (top bot : K) (sc : Sched) : Res (K × K) :=
  forList sc (top, bot) fun ti st => do
    let dr ← gershRow A absv ti.2
    let emax := if re dr.1 + dr.2 > st.2 then re dr.1 + dr.2 else st.2
    let emin := if re dr.1 - dr.2 < st.1 then re dr.1 - dr.2 else st.1
    pure (emin, emax)

/-- `bml_accumulate_offdiag_dense`, lines 50-87. -/
def accumulateOffdiag (A : Dense R) (absv : R → K) (includeDiag : Bool) : Res (Arr K) :=
  loop A.N ⟨A.N, fun _ => 0⟩ fun i out => do
    let radius ← loop A.N (0 : K) fun j r => do
      let v ← A.mat.read (ROWMAJOR i j A.N A.N)
      pure (if i ≠ j ∨ includeDiag = true then r + absv v else r)
    out.write i radius

/-- `bml_normalize_dense`, lines 37-48. -/
def normalize (A : Dense K) (mineval maxeval : K) (lo hi : Nat) (sc : Sched) : Res (Dense K) :=
  scaleAddIdentity A (-1 / (maxeval - mineval)) (maxeval / (maxeval - mineval)) lo hi sc

end Gersh

end Dense

end Bml
