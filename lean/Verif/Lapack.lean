import Verif.Dense.Rep
import Verif.Csr.Model
import Verif.Ellpack.Model3
import Verif.Ellblock.Model
import Mathlib.Data.Real.Basic
import Mathlib.Analysis.RCLike.Basic
import Mathlib.Analysis.Complex.Basic

/-!
# Inverse and diagonalization

`bml_inverse` and `bml_diagonalize` call LAPACK.  LAPACK is not part of the library: its procedures are
parameters of the model, and the theorems assume of them what the LAPACK documentation promises, in
exact arithmetic.
-/

namespace Bml

namespace Lapack

variable {R : Type}

/-! ## Inverse -/

/-- `GETRF` followed by `GETRI` on an array of order `n` with leading dimension `n`: the contents of the
array afterwards. -/
abbrev Invert (R : Type) := Nat → Arr R → Arr R

/-- `bml_inverse_inplace_dense`, `bml_inverse_dense_typed.c` 58-134 (without MAGMA).  The result `info`
of the two calls is not looked at.  `lwork = N * N` is large enough. -/
def inverseInplace (inv : Invert R) (A : Dense R) : Res (Dense R) :=
  if A.mat.size < A.N * A.N then .ub else .ok { A with mat := inv A.N A.mat }

/-- `bml_inverse_dense`, `bml_inverse_dense_typed.c` 39-48. -/
def inverseDense (inv : Invert R) (junk : Nat → R) (A : Dense R) : Res (Dense R) := do
  let B ← A.copyNew junk
  inverseInplace inv B

/-- `bml_inverse_ellpack`, `bml_inverse_ellpack_typed.c` 35-68.  `nonzero` is the test for magnitude
above the threshold 0; `sc`, `sc'` are the orders of the two parallel loops. -/
def inverseEllpack [CommRing R] (inv : Invert R) (nonzero : R → Bool) (sc sc' : Sched) (junk : Nat → R)
    (A : Ell R) : Res (Ell R) := do
  let x ← A.exportDense .rowMajor sc
  let D ← Dense.importDense .rowMajor A.N x
  let D ← inverseInplace inv D
  let y ← D.exportDense .rowMajor junk
  Ell.importDense .rowMajor A.N y nonzero A.M sc'

/-- `bml_inverse_csr`, `bml_inverse_csr_typed.c` 35-70. -/
def inverseCsr [CommRing R] (inv : Invert R) (nonzero : R → Bool) (sc sc' : Sched) (junk : Nat → R)
    (A : Csr R) : Res (Csr R) := do
  let x ← A.exportDense .rowMajor sc
  let D ← Dense.importDense .rowMajor A.N x
  let D ← inverseInplace inv D
  let y ← D.exportDense .rowMajor junk
  Csr.importDense .rowMajor A.N y nonzero A.M sc'

/-- `bml_inverse_ellblock`, `bml_inverse_ellblock_typed.c` 35-68. -/
def inverseEllblock [Zero R] (inv : Invert R) (nonzero : R → Bool) (g : EllB.Glob) (junk : Nat → R)
    (A : EllB R) : Res (EllB.Glob × EllB R) := do
  let x ← A.exportDense (fun i j => ROWMAJOR i j A.N A.N)
  let D ← Dense.importDense .rowMajor A.N x
  let D ← inverseInplace inv D
  let y ← D.exportDense .rowMajor junk
  EllB.importDense g (fun i j => ROWMAJOR i j A.N A.N) nonzero A.N A.M y junk

/-! ## Diagonalization -/

variable {K : Type}

/-- `SSYEV`/`DSYEV` (or `SYEVD`), or `CHEEVR`/`ZHEEVR` with all eigenvalues asked for, with `"V"` and
`"U"`, on an array of order `n`: eigenvalues and the array of eigenvectors. -/
abbrev Eigen (K : Type) := Nat → Arr K → Arr ℝ × Arr K

/-- The loop after the LAPACK call, `bml_diagonalize_dense.c` 267-276, 636-645, 751-760, 861-870. -/
def storeEigen [RCLike K] (n : Nat) (r : Arr ℝ × Arr K) (w : Arr K) (V : Dense K) :
    Res (Arr K × Dense K) := do
  let (w, mat) ← loop n (w, V.mat) fun i st => do
    let x ← r.1.read i
    let w ← st.1.write i (x : K)
    let mat ← loop n st.2 fun j mat => do
      let y ← r.2.read (COLMAJOR i j n n)
      mat.write (ROWMAJOR i j n n) y
    pure (w, mat)
  pure (w, { V with mat := mat })

/-- `bml_diagonalize_dense_cpu_single_real`, `bml_diagonalize_dense_cpu_double_real`,
`bml_diagonalize_dense_single_complex`, `bml_diagonalize_dense_double_complex` (without MAGMA and MKL
offload), `bml_diagonalize_dense.c` 230-282, 601-650, 667-774, 776-884.  `w` is the caller's array for
the eigenvalues (its elements have the type of the matrix elements), `V` the caller's matrix for the
eigenvectors.  The result `info` of the call is not looked at. -/
def diagonalizeDense [RCLike K] (ev : Eigen K) (A : Dense K) (w : Arr K) (V : Dense K) :
    Res (Arr K × Dense K) :=
  if A.mat.size < A.N * A.N then .ub else storeEigen A.N (ev A.N A.mat) w V

/-- The Fortran procedure `bml_diagonalize`, `bml_diagonalize_m.F90` 20-28, for a dense matrix of type
`double_complex`: the eigenvalues go to an array of `real(C_DOUBLE)`, whose address is passed on, and
the C function writes elements of the type of the matrix there (`bml_diagonalize_dense.c` 861-870): a
real and an imaginary part for each eigenvalue. -/
def diagonalizeFortran (ev : Eigen ℂ) (A : Dense ℂ) (w : Arr ℝ) (V : Dense ℂ) :
    Res (Arr ℝ × Dense ℂ) :=
  if A.mat.size < A.N * A.N then .ub else do
    let r := ev A.N A.mat
    let (w, mat) ← loop A.N (w, V.mat) fun i st => do
      let x ← r.1.read i
      let w ← st.1.write (2 * i) x
      let w ← w.write (2 * i + 1) 0
      let mat ← loop A.N st.2 fun j mat => do
        let y ← r.2.read (COLMAJOR i j A.N A.N)
        mat.write (ROWMAJOR i j A.N A.N) y
      pure (w, mat)
    pure (w, { V with mat := mat })

/-- `bml_diagonalize_ellpack`, `bml_diagonalize_ellpack_typed.c` 36-91. -/
def diagonalizeEllpack [RCLike K] (ev : Eigen K) (nonzero : K → Bool) (sc sc' sc2 : Sched)
    (junk : Nat → K) (A : Ell K) (w : Arr K) (V : Ell K) : Res (Arr K × Ell K) := do
  let x ← A.exportDense .rowMajor sc
  let D ← Dense.importDense .rowMajor A.N x
  let (w, E) ← diagonalizeDense ev D w (Dense.zeroMatrix A.N)
  let y ← E.exportDense .rowMajor junk
  let T ← Ell.importDense .rowMajor A.N y nonzero A.M sc'
  let V ← T.copyInto V sc2
  pure (w, V)

/-- `bml_diagonalize_csr`, `bml_diagonalize_csr_typed.c` 36-92. -/
def diagonalizeCsr [RCLike K] (ev : Eigen K) (nonzero : K → Bool) (sc sc' sc2 : Sched)
    (junk : Nat → K) (A : Csr K) (w : Arr K) (V : Csr K) : Res (Arr K × Csr K) := do
  let x ← A.exportDense .rowMajor sc
  let D ← Dense.importDense .rowMajor A.N x
  let (w, E) ← diagonalizeDense ev D w (Dense.zeroMatrix A.N)
  let y ← E.exportDense .rowMajor junk
  let T ← Csr.importDense .rowMajor A.N y nonzero A.M sc'
  let V ← T.copyInto V sc2
  pure (w, V)

/-- `bml_diagonalize_ellblock`, `bml_diagonalize_ellblock_typed.c` 36-91. -/
def diagonalizeEllblock [RCLike K] (ev : Eigen K) (nonzero : K → Bool) (g : EllB.Glob) (sc2 : Sched)
    (junk : Nat → K) (A : EllB K) (w : Arr K) (V : EllB K) : Res (Arr K × EllB.Glob × EllB K) := do
  let x ← A.exportDense (fun i j => ROWMAJOR i j A.N A.N)
  let D ← Dense.importDense .rowMajor A.N x
  let (w, E) ← diagonalizeDense ev D w (Dense.zeroMatrix A.N)
  let y ← E.exportDense .rowMajor junk
  let (g, T) ← EllB.importDense g (fun i j => ROWMAJOR i j A.N A.N) nonzero A.N A.M y junk
  let V ← EllB.copyInto sc2 junk T V
  pure (w, g, V)

end Lapack

end Bml
