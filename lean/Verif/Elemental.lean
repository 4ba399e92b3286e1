import Verif.Ellpack.Model3
import Verif.Csr.Model
import Verif.Ellblock.Model
import Verif.Dense.Model

/-!
# The typed element functions

`bml_get_element_single_real`, `bml_get_element_double_real`, `bml_get_element_single_complex` and
`bml_get_element_double_complex` (`bml_elemental.c`) return an element by value.  They are a second
implementation of element access besides `bml_get_element` (`bml_getters.c`), and the one that the
Fortran `bml_get_element` uses.
-/

namespace Bml
namespace Elemental

/-- The four functions, named by their element type, and the four precisions a matrix may have
(`bml_matrix_precision_t`, `bml_types.h` 24-36). -/
inductive Kind
  | singleReal | doubleReal | singleComplex | doubleComplex
  deriving DecidableEq

/-- A matrix of any of the formats (`bml_types.h` 7-21).  Of a distributed matrix nothing is needed
here. -/
inductive Any (R : Type)
  | dense (A : Dense R)
  | ellpack (A : Ell R)
  | ellblock (A : EllB R)
  | csr (A : Csr R)
  | distributed

variable {R : Type} [CommRing R]

/-- `bml_get_element_dense_*`, `bml_elemental_dense.c` 17-113: the four functions differ in the
element type only. -/
def dense (A : Dense R) (i j : Int) : Res R :=
  if i < 0 ∨ i ≥ A.N then .error
  else if j < 0 ∨ j ≥ A.N then .error
  else A.mat.read (ROWMAJOR i.toNat j.toNat A.N A.N)

/-- `bml_get_element_ellpack_single_real`, `bml_elemental_ellpack.c` 34-41: the search loop, from slot
`p` with `fuel` slots left. -/
def findOwn (A : Ell R) (i j : Nat) : Nat → Nat → Res R
  | _, 0 => .ok 0
  | p, fuel + 1 => do
    let k ← A.idx.read (ROWMAJOR i p A.N A.M)
    if k = j then A.val.read (ROWMAJOR i p A.N A.M)
    else findOwn A i j (p + 1) fuel

/-- The search loop of the other three functions, `bml_elemental_ellpack.c` 67-74, 101-109 and
135-143: the column is looked up in `A->index[j_index]`, without the offset of the row. -/
def findFirst (A : Ell R) (i j : Nat) : Nat → Nat → Res R
  | _, 0 => .ok 0
  | p, fuel + 1 => do
    let k ← A.idx.read p
    if k = j then A.val.read (ROWMAJOR i p A.N A.M)
    else findFirst A i j (p + 1) fuel

/-- `bml_get_element_ellpack_*`, `bml_elemental_ellpack.c` 17-144. -/
def ellpack (f : Kind) (A : Ell R) (i j : Int) : Res R :=
  if i < 0 ∨ i ≥ A.N then .error
  else if j < 0 ∨ j ≥ A.N then .error
  else do
    let n ← A.nnz.read i.toNat
    match f with
    | .singleReal => findOwn A i.toNat j.toNat 0 n
    | _ => findFirst A i.toNat j.toNat 0 n

/-- `bml_get_element_*`, `bml_elemental.c` 19-134, called with function `f` on a matrix of precision
`p`.  The precision of the matrix is not looked at: elements of another type are read through a
pointer of the wrong type, which is undefined.  (On a machine, if the size is the same or smaller,
some number that is not the element comes back.) -/
def getTyped (f p : Kind) (A : Any R) (i j : Int) : Res R :=
  match A with
  | .dense A => do
    let x ← dense A i j
    if f = p then pure x else .ub
  | .ellpack A => do
    let x ← ellpack f A i j
    if f = p then pure x else .ub
  | _ => .error

end Elemental
end Bml
