import Verif.Ellpack.Model2
import Verif.Dense.Model
import Verif.Csr.Model2
import Mathlib.Analysis.Complex.Norm
import Mathlib.Analysis.Real.Sqrt

/-!
# `bml_fnorm`

The reductions of the model return the full sum in the element type; the C code takes the real
part (`REAL_PART(sum)`) and then the square root in `double`.
-/

namespace Bml

/-- `sqrt(REAL_PART(sum))` for the real element types. -/
noncomputable def sqrtReal (s : Res ℝ) : Res ℝ := do
  let x ← s
  pure (Real.sqrt x)

/-- `sqrt(REAL_PART(sum))` for the complex element types. -/
noncomputable def sqrtComplex (s : Res ℂ) : Res ℝ := do
  let x ← s
  pure (Real.sqrt x.re)

namespace Ell

/-- `bml_fnorm_ellpack`, `bml_norm_ellpack_typed.c` 346-360, real types. -/
noncomputable def fnorm (A : Ell ℝ) (sc : Sched) : Res ℝ := sqrtReal (sumSquares A sc)

/-- The same for complex types. -/
noncomputable def fnormComplex (A : Ell ℂ) (sc : Sched) : Res ℝ := sqrtComplex (sumSquares A sc)

end Ell

namespace Dense

/-- `bml_fnorm_dense`, `bml_norm_dense_typed.c` 316-333, real types. -/
noncomputable def fnorm (A : Dense ℝ) (sc : Sched) : Res ℝ := sqrtReal (sumSquares A sc)

/-- The same for complex types. -/
noncomputable def fnormComplex (A : Dense ℂ) (sc : Sched) : Res ℝ := sqrtComplex (sumSquares A sc)

end Dense

namespace Csr

/-- `bml_fnorm_csr`, `bml_norm_csr_typed.c` 238-250, real types. -/
noncomputable def fnorm (A : Csr ℝ) (sc : Sched) : Res ℝ := sqrtReal (sumSquares A sc)

/-- The same for complex types. -/
noncomputable def fnormComplex (A : Csr ℂ) (sc : Sched) : Res ℝ := sqrtComplex (sumSquares A sc)

end Csr

end Bml
