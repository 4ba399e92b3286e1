import Verif.Fortran.DenseArrays
import Verif.Ellblock.Model
import Verif.Dist.Wrappers

/-!
# Printing

`bml_print_bml_matrix`, `bml_print_dense_matrix`, `bml_print_dense_vector` and their Fortran
counterparts.  What is printed is a sequence of elements and line ends; how `printf` writes a number
(three decimals) is not modelled.
-/

namespace Bml
namespace Print

open Fortran (Section)

variable {R : Type}

/-- A piece of output. -/
inductive Tok (R : Type)
  | elem (x : R)
  | nl
  deriving DecidableEq

/-- `for (int i = lo; i < hi; i++)`. -/
def loopInt {σ : Type} (lo hi : Int) (s : σ) (f : Int → σ → Res σ) : Res σ :=
  loop (hi - lo).toNat s fun k s => f (lo + k) s

/-- Reading an array at a position that may be negative. -/
def readInt (x : Arr R) (k : Int) : Res R := if k < 0 then .ub else x.read k.toNat

/-- `ROWMAJOR` and `COLMAJOR` (`bml_utilities.h`) of `int` indices. -/
def addr (order : Order) (N : Nat) (i j : Int) : Int :=
  match order with
  | .rowMajor => i * N + j
  | .colMajor => i + j * N

/-- `bml_print_dense_matrix`, `bml_utilities.c` 269-422.  `out` is what has been printed before.  The
test for negative `N` is left out. -/
def printDense (order : Order) (N : Nat) (x : Arr R) (il iu jl ju : Int) (out : List (Tok R)) :
    Res (List (Tok R)) :=
  loopInt il iu out fun i out => do
    let out ← loopInt jl ju out fun j out => do
      let v ← readInt x (addr order N i j)
      pure (out ++ [.elem v])
    pure (out ++ [.nl])

/-- `bml_print_dense_vector`, `bml_utilities.c` 432-488. -/
def printVector (x : Arr R) (il iu : Int) (out : List (Tok R)) : Res (List (Tok R)) := do
  let out ← loopInt il iu out fun i out => do
    let v ← readInt x i
    pure (out ++ [.elem v])
  pure (out ++ [.nl])

/-- A matrix that is not distributed. -/
inductive AnyMat (R : Type)
  | dense (A : Dense R)
  | ellpack (A : Ell R)
  | ellblock (A : EllB R)
  | csr (A : Csr R)

/-- `bml_print_bml_matrix`, `bml_utilities.c` 44-193, and `bml_print_bml_matrix_dense`,
`bml_utilities_dense_typed.c` 207-240.  `sc` is the order of the parallel loop of the export. -/
def printMatrix [CommRing R] (sc : Sched) (A : AnyMat R) (il iu jl ju : Int) (out : List (Tok R)) :
    Res (List (Tok R)) :=
  match A with
  | .dense A => printDense .rowMajor A.N A.mat il iu jl ju out
  | .ellpack A => do
    let x ← A.exportDense .rowMajor sc
    printDense .rowMajor A.N x il iu jl ju out
  | .ellblock A => do
    let x ← A.exportDense (fun i j => ROWMAJOR i j A.N A.N)
    printDense .rowMajor A.N x il iu jl ju out
  | .csr A => do
    let x ← A.exportDense .rowMajor sc
    printDense .rowMajor A.N x il iu jl ju out

/-- `bml_print_bml_matrix` of a distributed matrix, `bml_utilities.c` 194-250, on process `rank`. -/
def printDist {τ : Type} (L : Dist.Local τ R) (p N : Nat) (D : Nat → τ) (junk : Nat → R) (rank : Nat)
    (il iu jl ju : Int) (out : List (Tok R)) : Res (List (Tok R)) := do
  let x ← Dist.exportDense L .rowMajor p N D junk
  if rank = 0 then printDense .rowMajor N x il iu jl ju out else pure out

/-- Fortran `bml_print_matrix` of a matrix, `bml_utilities_m.F90` 39-51, without the tag: the bounds
are passed on as they are. -/
def printFortran [CommRing R] (sc : Sched) (A : AnyMat R) (il iu jl ju : Int) (out : List (Tok R)) :
    Res (List (Tok R)) :=
  printMatrix sc A il iu jl ju out

/-- Fortran `bml_print_matrix` of an array, `bml_utilities_typed_m.F90` 29-50, without the tag.  The
lower bounds of an assumed-shape array are one. -/
def printArray (S : Section R) (il iu jl ju : Int) (out : List (Tok R)) : Res (List (Tok R)) :=
  printDense .colMajor S.n1 S.passed (il - 1) (iu - 1 + 1) (jl - 1) (ju - 1 + 1) out

end Print
end Bml
