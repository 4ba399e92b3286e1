import Verif.Elemental
import Verif.Ellpack.Model2
import Verif.Ellpack.Model3
import Verif.Csr.Model2

/-!
# Element, row and diagonal access through the Fortran interface

`bml_setters_m.F90`, `bml_getters_m.F90`, `bml_elemental_m.F90`, `bml_introspection_m.F90` and
`bml_reorder` of `bml_copy_m.F90`: thin procedures that turn Fortran's indices, which count from one,
into C's, hand over addresses and copy results.  A procedure name stands for one specific procedure
for each of the four element types; the compiler chooses by the type `f` of the variable the caller
gives.  The matrix has its own element type `p`, which is known at run time only and not compared
with `f`.
-/

namespace Bml
namespace Fortran

open Elemental (Kind Any)

variable {R : Type} [CommRing R]

/-- A matrix of one of three formats.  The block format and distributed matrices are left out here. -/
inductive Mat (R : Type)
  | dense (A : Dense R)
  | ellpack (A : Ell R)
  | csr (A : Csr R)

/-- As an argument of the functions of `bml_elemental.c`. -/
def Mat.any : Mat R → Any R
  | .dense A => .dense A
  | .ellpack A => .ellpack A
  | .csr A => .csr A

/-- `bml_get_n` (`bml_introspection_m.F90` 28-36). -/
def Mat.n : Mat R → Nat
  | .dense A => A.N
  | .ellpack A => A.N
  | .csr A => A.N

/-- Element `j`, counted from one, of a Fortran vector. -/
def at1 (x : Arr R) (j : Nat) : R := x.get (j - 1)

/-- A C index that must not be negative: the row arrays of the sparse formats (`A->nnz[i]`,
`A->data_[i]`) and the row of a dense matrix that is passed on as a whole are addressed with it.
For the column of a sparse element, which is only stored, this is a simplification: C accepts a
negative column and stores it. -/
def cIndex (i : Int) : Res Nat := if i < 0 then .ub else .ok i.toNat

/-- A value of type `f` read as a value of the matrix's type `p`, or the reverse: undefined unless
the types are the same.  (On a machine a number of the wrong type, or memory beyond the variable, is
read.) -/
def typed {α : Type} (f p : Kind) (r : Res α) : Res α := if f = p then r else .ub

/-- `bml_set_element`, `bml_setters_m.F90` 103-146, and its C dispatch, `bml_setters.c` 39-65. -/
def setElement (f p : Kind) (A : Mat R) (i j : Int) (v : R) : Res (Mat R) :=
  typed f p <| match A with
    | .dense A => do
      let A ← A.setElement (i - 1) (j - 1) v
      pure (.dense A)
    | .ellpack A => do
      let i ← cIndex (i - 1)
      let j ← cIndex (j - 1)
      let A ← A.setElement i j v
      pure (.ellpack A)
    | .csr A => do
      let i ← cIndex (i - 1)
      let j ← cIndex (j - 1)
      let A ← A.setElement i j v
      pure (.csr A)

/-- `bml_set_element_new`, `bml_setters_m.F90` 59-101, and its C dispatch, `bml_setters.c` 12-37. -/
def setElementNew (f p : Kind) (A : Mat R) (i j : Int) (v : R) : Res (Mat R) :=
  typed f p <| match A with
    | .dense A => do
      let A ← A.setElement (i - 1) (j - 1) v
      pure (.dense A)
    | .ellpack A => do
      let i ← cIndex (i - 1)
      let j ← cIndex (j - 1)
      let A ← A.setElementNew i j v
      pure (.ellpack A)
    | .csr A => do
      let i ← cIndex (i - 1)
      let j ← cIndex (j - 1)
      let A ← A.setElementNew i j v
      pure (.csr A)

/-- `bml_get_element`, `bml_elemental_m.F90` 28-90. -/
def getElement (f p : Kind) (A : Mat R) (i j : Int) : Res R :=
  Elemental.getTyped f p A.any (i - 1) (j - 1)

/-- The threshold test of an optional argument: `x` passes if `|x| > threshold`, and if the argument
is absent if `|x| > 0` (`bml_setters_m.F90` 159-163). -/
def test (nonzero : R → Bool) (threshold : Option (R → Bool)) : R → Bool := threshold.getD nonzero

/-- `bml_set_row`, `bml_setters_m.F90` 150-224, and its C dispatch, `bml_setters.c` 67-97: the dense
variant takes no threshold.  `junk` is the content of a work array. -/
def setRow (f p : Kind) (nonzero : R → Bool) (junk : Nat → Nat) (A : Mat R) (i : Int) (row : Arr R)
    (threshold : Option (R → Bool)) : Res (Mat R) :=
  typed f p <| do
    let i ← cIndex (i - 1)
    match A with
    | .dense A => do
      let A ← A.setRow i row
      pure (.dense A)
    | .ellpack A => do
      let A ← A.setRow i row (test nonzero threshold)
      pure (.ellpack A)
    | .csr A => do
      let A ← A.setRow i row (test nonzero threshold) junk
      pure (.csr A)

/-- `bml_set_diagonal`, `bml_setters_m.F90` 227-297, and its C dispatch, `bml_setters.c` 99-127: the
dense variant takes no threshold. -/
def setDiagonal (f p : Kind) (nonzero : R → Bool) (A : Mat R) (d : Arr R)
    (threshold : Option (R → Bool)) : Res (Mat R) :=
  typed f p <| match A with
    | .dense A => do
      let A ← A.setDiagonal d
      pure (.dense A)
    | .ellpack A => do
      let A ← A.setDiagonal d (test nonzero threshold)
      pure (.ellpack A)
    | .csr A => do
      let A ← A.setDiagonal d (test nonzero threshold)
      pure (.csr A)

/-- `c_f_pointer(ptr, x_ptr, [n])`, `x = x_ptr`: the first `n` elements of the C array are copied
into the caller's allocatable vector, which is reallocated to that size
(`bml_getters_m.F90` 43-46 and 121-125).  `junk` is the content of the new vector. -/
def copyOut (n : Nat) (junk : Nat → R) (x : Arr R) : Res (Arr R) :=
  loop n ⟨n, junk⟩ fun k y => do
    let v ← x.read k
    y.write k v

/-- `bml_get_row`, `bml_getters_m.F90` 112-190, and its C dispatch, `bml_getters.c` 51-83. -/
def getRow (f p : Kind) (junk junk' : Nat → R) (A : Mat R) (i : Int) : Res (Arr R) :=
  typed f p <| do
    let i ← cIndex (i - 1)
    let x ← match A with
      | .dense A => A.getRow i junk
      | .ellpack A => A.getRow i
      | .csr A => A.getRow i
    copyOut A.n junk' x

/-- `bml_get_diagonal`, `bml_getters_m.F90` 33-104, and its C dispatch, `bml_getters.c` 91-113. -/
def getDiagonal (f p : Kind) (junk junk' : Nat → R) (A : Mat R) : Res (Arr R) :=
  typed f p <| do
    let x ← match A with
      | .dense A => A.getDiagonal junk
      | .ellpack A => A.getDiagonal
      | .csr A => A.getDiagonal
    copyOut A.n junk' x

/-- `bml_get_row_bandwidth`, `bml_introspection_m.F90` 55-63. -/
def rowBandwidth (nonzero : R → Bool) (A : Mat R) (i : Int) : Res Nat := do
  let i ← cIndex (i - 1)
  match A with
  | .dense A => A.rowBandwidth nonzero i
  | .ellpack A => A.rowBandwidth i
  | .csr A => A.rowBandwidth i

/-- `bml_reorder`, `bml_copy_m.F90` 57-66, of an ELLPACK matrix: the permutation is passed on as it
is. -/
def reorder (A : Ell R) (perm : Arr Nat) (sc0 sc1 sc2 : Sched) (jv : Nat → R) (ji : Nat → Nat) :
    Res (Ell R) :=
  A.reorder perm sc0 sc1 sc2 jv ji

end Fortran
end Bml
