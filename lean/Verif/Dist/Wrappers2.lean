import Verif.Dist.WrapFormats
import Verif.Norm

/-!
# The functions on 2-D distributed matrices (2): norms, sparsity, clear, copy, conversion

The functions of the local format are parameters; the first argument is the rank, so that schedules
and uninitialised memory may differ.
-/

namespace Bml.Dist

variable {τ σ R : Type}

/-- `bml_clear_distributed2d`, `bml_allocate_distributed2d.c` 99-104, and `bml_copy_distributed2d`,
`bml_copy_distributed2d.c` 44-50, call the local function, nothing else. -/
def clear (f : Nat → τ → Res τ) (r : Nat) (A : τ) : Res τ := f r A

def copy (f : Nat → τ → τ → Res τ) (r : Nat) (A B : τ) : Res τ := f r A B

/-- `bml_fnorm_distributed2d`, `bml_norm_distributed2d.c` 92-102. -/
noncomputable def fnorm (f : Nat → τ → Res ℝ) (p : Nat) (D : Nat → τ) : Res ℝ := do
  let s ← sumReduce (p * p) fun r => do
    let norm ← f r (D r)
    pure (norm * norm)
  pure (Real.sqrt s)

/-- `bml_fnorm2_distributed2d`, lines 112-123. -/
noncomputable def fnorm2 (f : Nat → τ → τ → Res ℝ) (p : Nat) (D E : Nat → τ) : Res ℝ := do
  let s ← sumReduce (p * p) fun r => do
    let norm ← f r (D r) (E r)
    pure (norm * norm)
  pure (Real.sqrt s)

/-- `bml_get_sparsity_distributed2d`, `bml_introspection_distributed2d.c` 113-126; `nloc * nloc` and
`A->N * A->N` are products of `int`s.  The other operations are exact. -/
def sparsity {K : Type} [Field K] (f : Nat → τ → Res K) (p N : Nat) (D : Nat → τ) : Res K := do
  let s ← sumReduce (p * p) fun r => do
    let sp ← f r (D r)
    if N / p * (N / p) ≤ 2147483647 then pure (sp * ((N / p * (N / p) : Nat) : K)) else .ub
  if N * N ≤ 2147483647 then pure (s / ((N * N : Nat) : K)) else .ub

/-- `bml_convert_distributed2d`, `bml_convert_distributed2d.c` 10-29, on rank `r`: a zero matrix is made
(`bml_zero_matrix_distributed2d`, with its assertions), its local matrix is replaced by the result of
the local conversion, which gets the width `m` of the old local matrix. -/
def convert (zero : Nat → Nat → Res σ) (getM : τ → Res Nat) (conv : Nat → τ → Nat → Res σ)
    (p N M r : Nat) (A : τ) : Res σ :=
  if N > 0 ∧ M > 0 ∧ N / p * p = N then do
    let _ ← zero (N / p) (M / p)
    let m ← getM A
    conv r A m
  else .error

end Bml.Dist
