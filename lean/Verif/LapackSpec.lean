import Verif.Lapack
import Mathlib.LinearAlgebra.Matrix.NonsingularInverse
import Mathlib.Analysis.RCLike.Basic

/-!
# What is assumed of LAPACK, and inverse matrices
-/

namespace Bml

namespace Spec

variable {R : Type}

/-- `b` is the inverse of the `n × n` matrix `a`. -/
def IsInverse [Semiring R] (n : Nat) (a b : Mat R) : Prop :=
  Eq n (mul n a b) one ∧ Eq n (mul n b a) one

/-- The leading block as a Mathlib matrix. -/
def toMatrix (n : Nat) (a : Mat R) : Matrix (Fin n) (Fin n) R := fun i j => a i j

theorem toMatrix_inj {n : Nat} {a b : Mat R} : toMatrix n a = toMatrix n b ↔ Eq n a b := by
  constructor
  · intro h i j hi hj
    exact congrFun (congrFun h ⟨i, hi⟩) ⟨j, hj⟩
  · intro h
    funext i j
    exact h i j i.2 j.2

theorem toMatrix_mul [Semiring R] (n : Nat) (a b : Mat R) :
    toMatrix n (mul n a b) = toMatrix n a * toMatrix n b := by
  funext i j
  rw [Matrix.mul_apply]
  exact (Fin.sum_univ_eq_sum_range (fun k => a i k * b k j) n).symm

theorem toMatrix_one [Semiring R] (n : Nat) : toMatrix n (one : Mat R) = 1 := by
  funext i j
  rw [Matrix.one_apply]
  unfold toMatrix one
  by_cases h : i = j
  · rw [if_pos h, if_pos (by rw [h])]
  · rw [if_neg h, if_neg (fun e => h (Fin.ext e))]

theorem isInverse_iff [CommRing R] {n : Nat} {a b : Mat R} :
    IsInverse n a b ↔ toMatrix n a * toMatrix n b = 1 := by
  unfold IsInverse
  rw [← toMatrix_inj, ← toMatrix_inj, toMatrix_mul, toMatrix_mul, toMatrix_one]
  constructor
  · exact fun h => h.1
  · exact fun h => ⟨h, mul_eq_one_comm.1 h⟩

/-- There is at most one inverse. -/
theorem IsInverse.unique [CommRing R] {n : Nat} {a b c : Mat R} (h : IsInverse n a b)
    (h' : IsInverse n a c) : Eq n b c := by
  rw [← toMatrix_inj]
  have h1 := mul_eq_one_comm.1 (isInverse_iff.1 h)
  have h2 := isInverse_iff.1 h'
  calc toMatrix n b = toMatrix n b * (toMatrix n a * toMatrix n c) := by rw [h2, mul_one]
    _ = toMatrix n c := by rw [← mul_assoc, h1, one_mul]

theorem IsInverse.transpose [CommRing R] {n : Nat} {a b : Mat R} (h : IsInverse n a b) :
    IsInverse n (transpose a) (transpose b) := by
  have key : ∀ x y : Mat R, Eq n (mul n x y) one → Eq n (mul n (Spec.transpose y) (Spec.transpose x))
      one := by
    intro x y h i j hi hj
    have := h j i hj hi
    unfold mul one at this ⊢
    rw [show (if i = j then (1 : R) else 0) = if j = i then 1 else 0 by simp only [eq_comm], ← this]
    exact Finset.sum_congr rfl fun k _ => mul_comm _ _
  exact ⟨key _ _ h.2, key _ _ h.1⟩

theorem IsInverse.congr [CommRing R] {n : Nat} {a a' b b' : Mat R} (h : IsInverse n a b)
    (ha : Eq n a a') (hb : Eq n b b') : IsInverse n a' b' := by
  rw [isInverse_iff] at h ⊢
  rwa [← toMatrix_inj.2 ha, ← toMatrix_inj.2 hb]

end Spec

namespace Lapack

variable {R : Type}

/-- The matrix in a column-major array of order `n`, as LAPACK reads it. -/
def colMat (n : Nat) (x : Arr R) : Spec.Mat R := fun i j => x.get (i + j * n)

/-- What is assumed of `GETRF` and `GETRI`: the array keeps its size, and if the matrix in it has an
inverse, the inverse is in the array afterwards.  Nothing is assumed for singular matrices. -/
structure Inverts [CommRing R] (inv : Invert R) : Prop where
  size : ∀ n x, n * n ≤ x.size → (inv n x).size = x.size
  inverse : ∀ n x b, n * n ≤ x.size → Spec.IsInverse n (colMat n x) b →
    Spec.IsInverse n (colMat n x) (colMat n (inv n x))

variable {K : Type} [RCLike K]

/-- The matrix that `"U"` makes LAPACK work on: the upper triangle of the array, its conjugate below,
the real part of the diagonal. -/
def upper (n : Nat) (x : Arr K) : Spec.Mat K := fun i j =>
  if i < j then colMat n x i j
  else if i = j then (RCLike.re (colMat n x i i) : K)
  else star (colMat n x j i)

/-- `w` are eigenvalues, in ascending order, and the columns of `v` orthonormal eigenvectors of the
matrix `a`. -/
structure Spectral (n : Nat) (a : Spec.Mat K) (w : Nat → ℝ) (v : Spec.Mat K) : Prop where
  eigen : ∀ i j, i < n → j < n → Spec.mul n a v i j = w j * v i j
  ortho : ∀ i j, i < n → j < n →
    ∑ k ∈ Finset.range n, star (v k i) * v k j = if i = j then 1 else 0
  ascending : ∀ i j, i ≤ j → j < n → w i ≤ w j

/-- What is assumed of the eigenvalue procedures. -/
structure Diagonalizes (ev : Eigen K) : Prop where
  vals : ∀ n x, n * n ≤ x.size → (ev n x).1.size = n
  vecs : ∀ n x, n * n ≤ x.size → (ev n x).2.size = n * n
  spectral : ∀ n x, n * n ≤ x.size →
    Spectral n (upper n x) (ev n x).1.get (colMat n (ev n x).2)

end Lapack

end Bml
