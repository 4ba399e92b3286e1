import Verif.Spec
import Mathlib.Algebra.Order.AbsoluteValue.Basic
import Mathlib.Algebra.Order.BigOperators.Ring.Finset
import Mathlib.Algebra.Order.Field.Basic
import Mathlib.Tactic.Linarith
import Mathlib.Tactic.FieldSimp
import Mathlib.Data.Finset.Max

/-!
# Eigenvalues and Gershgorin circles

`Spec.Eigen n a l` says that `l` is an eigenvalue of the leading `n × n` block of `a`.
-/

namespace Bml.Spec

variable {R : Type*}

/-- `l` is an eigenvalue: some nonzero vector `v` has `a v = l v`. -/
def Eigen [CommRing R] (n : Nat) (a : Mat R) (l : R) : Prop :=
  ∃ v : Nat → R, (∃ i, i < n ∧ v i ≠ 0) ∧
    ∀ i, i < n → ∑ j ∈ Finset.range n, a i j * v j = l * v i

/-- The sum of the absolute values of the other elements of row `i`. -/
def radius {K : Type*} [AddCommMonoid K] [Zero R] (absv : R → K) (n : Nat) (a : Mat R) (i : Nat) :
    K :=
  ∑ j ∈ (Finset.range n).filter (fun j => j ≠ i), absv (a i j)

variable {K : Type*} [Field K] [LinearOrder K] [IsStrictOrderedRing K]

/-- The circle theorem. -/
theorem Eigen.circle [CommRing R] (abv : AbsoluteValue R K) {n : Nat} {a : Mat R} {l : R}
    (h : Eigen n a l) : ∃ i, i < n ∧ abv (l - a i i) ≤ radius abv n a i := by
  obtain ⟨v, ⟨i0, hi0, hv0⟩, hv⟩ := h
  obtain ⟨i, hi, hmax⟩ := Finset.exists_max_image (Finset.range n) (fun i => abv (v i))
    ⟨i0, by simpa using hi0⟩
  simp only [Finset.mem_range] at hi hmax
  have hpos : 0 < abv (v i) := lt_of_lt_of_le (abv.pos hv0) (hmax i0 hi0)
  refine ⟨i, hi, ?_⟩
  have hsum := hv i hi
  have hsplit : ∑ j ∈ Finset.range n, a i j * v j =
      a i i * v i + ∑ j ∈ (Finset.range n).filter (fun j => j ≠ i), a i j * v j := by
    rw [Finset.filter_ne', Finset.add_sum_erase _ (fun j => a i j * v j) (by simpa using hi)]
  have heq : (l - a i i) * v i =
      ∑ j ∈ (Finset.range n).filter (fun j => j ≠ i), a i j * v j := by
    rw [sub_mul, ← hsum, hsplit]; ring
  have h1 : abv (l - a i i) * abv (v i) ≤ radius abv n a i * abv (v i) := by
    rw [← abv.map_mul, heq]
    refine le_trans (abv.sum_le _ _) ?_
    unfold radius
    rw [Finset.sum_mul]
    refine Finset.sum_le_sum (fun j hj => ?_)
    rw [abv.map_mul]
    simp only [Finset.mem_filter, Finset.mem_range] at hj
    exact mul_le_mul_of_nonneg_left (hmax j hj.1) (abv.nonneg _)
  exact le_of_mul_le_mul_right h1 hpos

end Bml.Spec
