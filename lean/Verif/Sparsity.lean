import Mathlib.Algebra.Field.Basic
import Verif.Basic

/-!
# The last lines of `bml_get_sparsity`
-/

namespace Bml

/-- `1.0 - (double) nnzs / ((double) (N * N))`, the same text in `bml_introspection_ellpack_typed.c` 52,
`bml_introspection_csr_typed.c` 46, `bml_introspection_dense_typed.c` 121 and
`bml_introspection_ellblock_typed.c` 59.  `N` is an `int`, so the product of two `int`s is undefined
behaviour above 2147483647.  The division is exact; for `N = 0` the C result is not a number. -/
def sparsityOf {K : Type} [Field K] (N nnzs : Nat) : Res K :=
  if N * N ≤ 2147483647 then .ok (1 - (nnzs : K) / ((N * N : Nat) : K)) else .ub

theorem sparsityOf_ok {K : Type} [Field K] {N : Nat} (h : N ≤ 46340) (nnzs : Nat) :
    (sparsityOf N nnzs : Res K) = .ok (1 - (nnzs : K) / ((N * N : Nat) : K)) := by
  have : N * N ≤ 46340 * 46340 := Nat.mul_le_mul h h
  exact if_pos (by omega)

theorem sparsityOf_ub {K : Type} [Field K] {N : Nat} (h : 46341 ≤ N) (nnzs : Nat) :
    (sparsityOf N nnzs : Res K) = .ub := by
  have : 46341 * 46341 ≤ N * N := Nat.mul_le_mul h h
  exact if_neg (by omega)

end Bml
