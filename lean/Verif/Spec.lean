import Mathlib.Algebra.BigOperators.Group.Finset.Basic
import Mathlib.Algebra.BigOperators.Ring.Finset

/-!
# The specification

A matrix is a function of two indices, looked at below its size `N`.  These are the
mathematical operations that the property theorems compare the library with.
-/

namespace Bml.Spec

variable {R : Type*}

/-- A matrix over `R`; only entries with both indices below the size matter. -/
abbrev Mat (R : Type*) := Nat → Nat → R

/-- What remains of `x` after thresholding; `big x` stands for `|x| > threshold`. -/
def keep [Zero R] (big : R → Bool) (x : R) : R := if big x then x else 0

/-- The zero matrix. -/
def zero [Zero R] : Mat R := fun _ _ => 0

/-- The identity matrix. -/
def one [Zero R] [One R] : Mat R := fun i j => if i = j then 1 else 0

/-- The `n × n` product. -/
def mul [NonUnitalNonAssocSemiring R] (n : Nat) (a b : Mat R) : Mat R :=
  fun i j => ∑ k ∈ Finset.range n, a i k * b k j

/-- The trace of the leading `n × n` block. -/
def tr [AddCommMonoid R] (n : Nat) (a : Mat R) : R := ∑ i ∈ Finset.range n, a i i

/-- The sum of all entries of the leading `n × m` block. -/
def total [AddCommMonoid R] (n m : Nat) (a : Mat R) : R :=
  ∑ i ∈ Finset.range n, ∑ j ∈ Finset.range m, a i j

/-- `alpha a + beta b`, thresholded. -/
def add [CommRing R] (big : R → Bool) (α β : R) (a b : Mat R) : Mat R :=
  fun i j => keep big (α * a i j + β * b i j)

/-- Thresholding off the diagonal only, as the sparse products do. -/
def keepOff [Zero R] (big : R → Bool) (a : Mat R) : Mat R :=
  fun i j => if i = j then a i j else keep big (a i j)

/-- The number of entries of row `i` above threshold. -/
def rowCount (big : R → Bool) (n : Nat) (a : Mat R) (i : Nat) : Nat :=
  ((Finset.range n).filter (fun j => big (a i j) = true)).card

/-- The entry `(i,j)` replaced by `v`. -/
def set (a : Mat R) (i j : Nat) (v : R) : Mat R :=
  fun i' j' => if i' = i ∧ j' = j then v else a i' j'

/-- The transpose. -/
def transpose (a : Mat R) : Mat R := fun i j => a j i

/-- Two matrices agree on their leading `n × n` block. -/
def Eq (n : Nat) (a b : Mat R) : Prop := ∀ i j, i < n → j < n → a i j = b i j

end Bml.Spec
