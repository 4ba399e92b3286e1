import Verif.Fortran.DenseArrays
import Verif.Ellblock.Model

/-!
# Block-ELLPACK matrices through the Fortran interface

The procedures of `Verif/Fortran/Access.lean` and `Verif/Fortran/DenseArrays.lean`, called with a
matrix of the block format.
-/

namespace Bml
namespace Fortran
namespace Block

open Elemental (Kind)

variable {R : Type} [CommRing R]

/-- `bml_set_element`, `bml_setters_m.F90` 103-146, and `bml_set_element_new` 59-101, with the C
dispatch, `bml_setters.c` 27-29 and 55-57: for this format both are the same.
A negative C index counts as undefined here; C takes it as a position before the first row or column of
the first block. -/
def setElement (f p : Kind) (A : EllB R) (i j : Int) (v : R) : Res (EllB R) :=
  typed f p <| do
    let i ← cIndex (i - 1)
    let j ← cIndex (j - 1)
    A.setElement i j v

/-- `bml_get_element`, `bml_elemental_m.F90` 28-90. -/
def getElement (f p : Kind) (A : EllB R) (i j : Int) : Res R :=
  Elemental.getTyped f p (.ellblock A) (i - 1) (j - 1)

/-- `bml_set_row`, `bml_setters_m.F90` 150-224, and its C dispatch, `bml_setters.c` 82-84. -/
def setRow (f p : Kind) (nonzero : R → Bool) (A : EllB R) (i : Int) (row : Arr R)
    (threshold : Option (R → Bool)) : Res (EllB R) :=
  typed f p <| do
    let i ← cIndex (i - 1)
    A.setRow (test nonzero threshold) i row

/-- `bml_set_diagonal`, `bml_setters_m.F90` 227-297, and its C dispatch, `bml_setters.c` 113-115. -/
def setDiagonal (f p : Kind) (nonzero : R → Bool) (A : EllB R) (d : Arr R)
    (threshold : Option (R → Bool)) : Res (EllB R) :=
  typed f p (A.setDiagonal (test nonzero threshold) d)

/-- `bml_get_row`, `bml_getters_m.F90` 112-190, and its C dispatch, `bml_getters.c` 67-69. -/
def getRow (f p : Kind) (junk : Nat → R) (A : EllB R) (i : Int) : Res (Arr R) :=
  typed f p <| do
    let i ← cIndex (i - 1)
    let x ← A.getRow i
    copyOut A.N junk x

/-- `bml_get_diagonal`, `bml_getters_m.F90` 33-104, and its C dispatch, `bml_getters.c` 102-104. -/
def getDiagonal (f p : Kind) (junk : Nat → R) (A : EllB R) : Res (Arr R) :=
  typed f p <| do
    let x ← A.getDiagonal
    copyOut A.N junk x

/-- `bml_get_row_bandwidth`, `bml_introspection_m.F90` 55-63, and its C dispatch,
`bml_introspection.c` 216-234: `LOG_ERROR` for a row outside the matrix, and also for any row of
a block matrix, for which there is no case. -/
def rowBandwidth (A : EllB R) (i : Int) : Res Nat :=
  if i - 1 < 0 ∨ i - 1 ≥ A.N then .error else .error

/-- `bml_import_from_dense`, `bml_import_m.F90` 31-81, with the C dispatch, `bml_import.c` 56-59.
`g` are the global block sizes.  `n_` is the first extent; the second one is not looked at. -/
def importFromDense (g : EllB.Glob) (S : Section R) (nonzero : R → Bool)
    (threshold : Option (R → Bool)) (m : Option Nat) (junk : Nat → R) : Res (EllB.Glob × EllB R) :=
  match m with
  | none => .error
  | some m => EllB.importDense g (fun i j => COLMAJOR i j S.n1 S.n1) (test nonzero threshold) S.n1 m
      S.passed junk

/-- `bml_export_to_dense`, `bml_export_m.F90` 29-46, with the C dispatch, `bml_export.c` 47-48, on
the process `rank`: the caller's variable afterwards, and the number of arrays of the library that
have not been freed. -/
def exportToDense (f p : Kind) (rank : Nat) (A : EllB R) (junk : Nat → R)
    (old : Option (Section R)) : Res (Option (Section R) × Nat) :=
  typed f p <| do
    let x ← A.exportDense (fun i j => COLMAJOR i j A.N A.N)
    if rank = 0 then do
      let y ← copyOut (A.N * A.N) junk x
      pure (some (Section.whole y A.N A.N), 0)
    else pure (old, 1)

end Block
end Fortran
end Bml
