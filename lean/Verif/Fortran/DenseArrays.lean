import Verif.Fortran.Access

/-!
# Import and export of dense arrays through the Fortran interface

`bml_import_m.F90` and `bml_export_m.F90`, for matrices that are not distributed.
-/

namespace Bml
namespace Fortran

open Elemental (Kind)

variable {R : Type} [CommRing R]

/-- A Fortran array of rank two as a procedure with an assumed-shape dummy argument
(`a_dense(:, :)`, `bml_import_m.F90` 35) gets it: the storage it lies in, the position of its first
element, the distance of neighbours in a column and in a row, and the extents.  Array sections
such as `a(1:n, 1:n)` and `a(1:9:2, :)` and pointers are passed like this, without a copy. -/
structure Section (R : Type) where
  mem : Arr R
  off : Nat
  s1 : Int
  s2 : Int
  n1 : Nat
  n2 : Nat

namespace Section

/-- Position of element `(i,j)`, counted from one. -/
def pos (S : Section R) (i j : Nat) : Int := S.off + ((i : Int) - 1) * S.s1 + ((j : Int) - 1) * S.s2

/-- Element `(i,j)`, counted from one. -/
def elem (S : Section R) (i j : Nat) : R := S.mem.get (S.pos i j).toNat

/-- All elements lie in the storage. -/
def Valid (S : Section R) : Prop := ∀ i j, 1 ≤ i → i ≤ S.n1 → 1 ≤ j → j ≤ S.n2 →
  0 ≤ S.pos i j ∧ S.pos i j < S.mem.size

/-- An array of its own, not a section: column after column. -/
def whole (x : Arr R) (n1 n2 : Nat) : Section R := ⟨x, 0, 1, n1, n1, n2⟩

/-- `c_loc` of the first element (`bml_import_m.F90` 74-79): what C sees from there. -/
def passed (S : Section R) : Arr R := ⟨S.mem.size - S.off, fun q => S.mem.get (S.off + q)⟩

end Section

/-- The names of the three formats. -/
inductive Fmt
  | dense | ellpack | csr
  deriving DecidableEq

/-- `bml_import_from_dense`, `bml_import_m.F90` 31-81, with the C dispatch, `bml_import.c` 28-68, for
matrices that are not distributed.  `n_` is the first extent; the second one is not looked at.  The
matrix that the variable held before is released first (line 73; see C70). -/
def importFromDense (fmt : Fmt) (S : Section R) (nonzero : R → Bool) (threshold : Option (R → Bool))
    (m : Option Nat) (sc : Sched) : Res (Mat R) :=
  if fmt ≠ .dense ∧ m = none then .error
  else match fmt with
    | .dense => do
      let A ← Dense.importDense .colMajor S.n1 S.passed
      pure (.dense A)
    | .ellpack => do
      let A ← Ell.importDense .colMajor S.n1 S.passed (test nonzero threshold) (m.getD S.n1) sc
      pure (.ellpack A)
    | .csr => do
      let A ← Csr.importDense .colMajor S.n1 S.passed (test nonzero threshold) (m.getD S.n1) sc
      pure (.csr A)

/-- The C function called by `bml_export_to_dense`. -/
def exportC (A : Mat R) (sc : Sched) (junk : Nat → R) : Res (Arr R) :=
  match A with
  | .dense A => A.exportDense .colMajor junk
  | .ellpack A => A.exportDense .colMajor sc
  | .csr A => A.exportDense .colMajor sc

/-- `bml_export_to_dense`, `bml_export_m.F90` 29-46, on the process `rank`: the caller's variable
afterwards, and the number of arrays of the library that have not been freed. -/
def exportToDense (f p : Kind) (rank : Nat) (A : Mat R) (sc : Sched) (junk junk' : Nat → R)
    (old : Option (Section R)) : Res (Option (Section R) × Nat) :=
  typed f p <| do
    let x ← exportC A sc junk
    if rank = 0 then do
      let y ← copyOut (A.n * A.n) junk' x
      pure (some (Section.whole y A.n A.n), 0)
    else pure (old, 1)

end Fortran
end Bml
