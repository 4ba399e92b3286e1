import Verif.Common.Handle

/-!
# The Fortran interface (1): matrix variables, names and introspection

Model of `src/Fortran-interface`: what the Fortran procedures do before and after the C function they
call.  A Fortran variable of type `bml_matrix_t` holds a C pointer (`bml_types_m.F90` 36-43), so the
variables are the handles of `Verif.Common.Handle`, and the C side is the one modelled there.
-/

namespace Bml.Fortran

open Bml.Handle

/-- A value of type `character`. -/
abbrev Str := List Char

/-- The intrinsic `trim`: without the trailing blanks. -/
def trim (s : Str) : Str := (s.reverse.dropWhile fun c => decide (c = ' ')).reverse

/-- Assignment to a `character(len=20)` variable: padded with blanks, or cut off. -/
def char20 (s : Str) : Str := (s ++ List.replicate 20 ' ').take 20

/-- The names of `bml_types_m.F90` 46-70. -/
def nDense : Str := "dense".toList
@[inherit_doc nDense] def nEllpack : Str := "ellpack".toList
@[inherit_doc nDense] def nEllblock : Str := "ellblock".toList
@[inherit_doc nDense] def nCsr : Str := "csr".toList
@[inherit_doc nDense] def nReal : Str := "real".toList
@[inherit_doc nDense] def nComplex : Str := "complex".toList
@[inherit_doc nDense] def nSequential : Str := "sequential".toList
@[inherit_doc nDense] def nDistributed : Str := "distributed".toList
@[inherit_doc nDense] def nGraph : Str := "graph_distributed".toList

/-! ## Names to numbers: `bml_interface_m.F90` -/

/-- `get_matrix_id`, lines 102-122, with the constants of lines 20-38. -/
def matrixId (s : Str) : Res Nat :=
  if trim s = nDense then .ok 1
  else if trim s = nEllpack then .ok 2
  else if trim s = nEllblock then .ok 3
  else if trim s = nCsr then .ok 4
  else .error

/-- `get_element_id`, lines 124-157, with the constants of lines 44-68.  The kinds `C_FLOAT` and
`C_DOUBLE` (and the complex ones) are 4 and 8.  For an unknown name or kind a message is printed and
the result is not assigned: it is then `junk`. -/
def elementId (junk : Nat) (et : Str) (kind : Nat) : Nat :=
  if trim et = nReal then
    if kind = 4 then 1 else if kind = 8 then 2 else junk
  else if trim et = nComplex then
    if kind = 4 then 3 else if kind = 8 then 4 else junk
  else junk

/-- `get_dmode_id`, lines 165-182, with the constants of lines 77-89. -/
def dmodeId (s : Str) : Res Nat :=
  if trim s = nSequential then .ok 0
  else if trim s = nDistributed then .ok 1
  else if trim s = nGraph then .ok 2
  else .error

/-! ## The enumerations of `bml_types.h` as numbers -/

/-- `bml_matrix_type_t`, lines 7-21. -/
def typNum : Typ → Nat
  | .uninitialized => 0 | .dense => 1 | .ellpack => 2 | .ellblock => 3 | .csr => 4
  | .distributed2d => 5

/-- An `int` passed as `bml_matrix_type_t`.  Numbers without a name take the `default` branch of the
`switch` in the constructors, like `type_uninitialized`. -/
def typOf : Nat → Typ
  | 1 => .dense | 2 => .ellpack | 3 => .ellblock | 4 => .csr | 5 => .distributed2d
  | _ => .uninitialized

/-- `bml_matrix_precision_t`, lines 24-36. -/
def precNum : Prec → Nat
  | .uninitialized => 0 | .singleReal => 1 | .doubleReal => 2 | .singleComplex => 3
  | .doubleComplex => 4

/-- An `int` passed as `bml_matrix_precision_t`; likewise. -/
def precOf : Nat → Prec
  | 1 => .singleReal | 2 => .doubleReal | 3 => .singleComplex | 4 => .doubleComplex
  | _ => .uninitialized

/-- `bml_distribution_mode_t`, lines 69-77. -/
def modeNum : Mode → Nat
  | .sequential => 0 | .distributed => 1 | .graphDistributed => 2

/-- An `int` passed as `bml_distribution_mode_t`. -/
def modeOf : Nat → Mode
  | 1 => .distributed | 2 => .graphDistributed | _ => .sequential

/-! ## Constructors, copies, release -/

/-- `bml_deallocate`, `bml_types_m.F90` 79-88.  The C function is only called on a pointer that is
associated; it sets the pointer to `NULL` itself. -/
def deallocate (v : Nat) (s : State) : Res State :=
  match s.vars v with
  | none => .ok { s with vars := upd s.vars v none }
  | some _ => do
    let s ← Handle.deallocate v s
    pure { s with vars := upd s.vars v none }

/-- `bml_zero_matrix`, `bml_allocate_m.F90` 81-103, with the choice between a distributed matrix and
another one that `bml_zero_matrix` makes in C (`bml_allocate.c` 396-404; `mpi` says whether the
library was built with `BML_USE_MPI`).  `junk` is the unassigned result of `get_element_id`, `nb` the
number of blocks that the constructor of block-ELLPACK chooses.  The other constructors
(`bml_noinit_matrix`, `bml_random_matrix`, `bml_identity_matrix`, `bml_banded_matrix`, lines 141-270)
have the same form and make the same allocations. -/
def zeroMatrix (al : Alloc) (mpi : Bool) (p junk nb v : Nat) (mt et : Str) (kind n m : Nat)
    (dm : Option Str) (s : State) : Res State := do
  let s ← deallocate v s
  let t ← matrixId mt
  let d ← dmodeId (char20 (dm.getD nSequential))
  let hd : Hdr := ⟨precOf (elementId junk et kind), n, m, nb, modeOf d⟩
  if mpi = true ∧ modeOf d = .distributed then zeroDist al p v (typOf t) hd s
  else zero al v (typOf t) hd s

/-- `bml_copy_new(a, b)`, `bml_copy_m.F90` 24-32. -/
def copyNew (al : Alloc) (a b : Nat) (s : State) : Res State := do
  let s ← deallocate b s
  Handle.copyNew al b a s

/-- `bml_clear(a)`, `bml_allocate_m.F90` 29-35.  The interface block (`bml_c_interface_m.F90` 215-218)
declares the argument of the C function without `value`, so the C function `bml_clear`
(`bml_allocate.c` 226-253) gets the address of the Fortran variable instead of the matrix.  It reads
the first four bytes of the variable, which holds the pointer, as the matrix type (little-endian
machine); the types it knows would make it work on the variable as if that were a matrix. -/
def clear (v : Nat) (s : State) : Res State :=
  let tag := ((s.vars v).getD 0) % 2 ^ 32
  if tag = 1 ∨ tag = 2 ∨ tag = 3 ∨ tag = 4 ∨ tag = 5 then .ub else .error

/-! ## Introspection: `bml_introspection_m.F90` -/

/-- The `select case` of `bml_get_type` and `bml_get_deep_type`, lines 90-103 and 119-132. -/
def typeName : Nat → Res Str
  | 0 => .ok (char20 "Unformatted".toList)
  | 1 => .ok (char20 nDense)
  | 2 => .ok (char20 nEllpack)
  | 3 => .ok (char20 nEllblock)
  | 5 => .ok (char20 nCsr)
  | _ => .error

/-- The `select case` of `bml_get_element_precision`, lines 166-175: the kinds of `1.0` and `1.0d0`. -/
def precisionKind : Nat → Res Nat
  | 1 => .ok 4
  | 2 => .ok 8
  | _ => .error

/-- The `select case` of `bml_get_element_type`, lines 192-205. -/
def elementName : Nat → Res Str
  | 1 => .ok (char20 nReal)
  | 2 => .ok (char20 nReal)
  | 3 => .ok (char20 nComplex)
  | 4 => .ok (char20 nComplex)
  | _ => .error

/-- The `select case` of `bml_get_distribution_mode`, lines 221-230. -/
def modeName : Nat → Res Str
  | 0 => .ok (char20 nSequential)
  | 1 => .ok (char20 nDistributed)
  | 3 => .ok (char20 nGraph)
  | _ => .error

/-- The introspection functions. -/
inductive Query
  | allocated | n | m | rowBandwidth (i : Int) | bandwidth | type | deepType | precision
  | elementPrecision | elementType | distributionMode | sparsity

/-- What they return. -/
inductive Obs
  | logical (b : Bool) | int (i : Int) | name (s : Str) | elements

/-- The result of a C function that returns an `int` or a number computed from the elements. -/
def passInt : Handle.Obs → Res Obs
  | .int i => .ok (.int i)
  | .elements => .ok .elements
  | _ => .ub

/-- `bml_allocated` (`bml_allocate_m.F90` 54-68) and the functions of `bml_introspection_m.F90`, lines
28-248.  Row numbers are passed on less one (line 61). -/
def query (h : Mem) (A : Option Addr) : Query → Res Obs
  | .allocated => do
    match ← Handle.query h A .allocated with
    | .int i => .ok (.logical (decide (i > 0)))
    | _ => .ub
  | .n => do
    let o ← Handle.query h A .N
    passInt o
  | .m => do
    let o ← Handle.query h A .M
    passInt o
  | .rowBandwidth i => do
    let o ← Handle.query h A (.rowBandwidth (i - 1))
    passInt o
  | .bandwidth => do
    let o ← Handle.query h A .bandwidth
    passInt o
  | .type => do
    match ← Handle.query h A .type with
    | .typ t => do
      let s ← typeName (typNum t)
      pure (.name s)
    | _ => .ub
  | .deepType => do
    match ← Handle.query h A .deepType with
    | .typ t => do
      let s ← typeName (typNum t)
      pure (.name s)
    | _ => .ub
  | .precision => do
    match ← Handle.query h A .precision with
    | .prec p => .ok (.int (precNum p))
    | _ => .ub
  | .elementPrecision => do
    match ← Handle.query h A .precision with
    | .prec p => do
      let k ← precisionKind (precNum p)
      pure (.int k)
    | _ => .ub
  | .elementType => do
    match ← Handle.query h A .precision with
    | .prec p => do
      let s ← elementName (precNum p)
      pure (.name s)
    | _ => .ub
  | .distributionMode => do
    match ← Handle.query h A .distributionMode with
    | .mode d => do
      let s ← modeName (modeNum d)
      pure (.name s)
    | _ => .ub
  | .sparsity => do
    let o ← Handle.query h A .sparsity
    passInt o

/-! ## Programs -/

/-- A Fortran statement on matrix variables: a call, or the intrinsic assignment `v = w`, which copies
the pointer (the defined assignment of `bml_types_m.F90` 40-41 is commented out).  `growRow`,
`addBlock` and `dropBlock` are what writing elements does to the memory of a matrix. -/
inductive Cmd
  | zero (v : Nat) (mt et : Str) (kind n m : Nat) (dm : Option Str) (junk nb : Nat)
  | copyNew (a b : Nat)
  | deallocate (v : Nat)
  | clear (v : Nat)
  | growRow (v i : Nat)
  | addBlock (v k : Nat)
  | dropBlock (v k : Nat)
  | query (v : Nat) (q : Query)
  | assign (v w : Nat)

/-- One statement. -/
def step (al : Alloc) (mpi : Bool) (p : Nat) : Cmd → State → Res State
  | .zero v mt et kind n m dm junk nb, s => zeroMatrix al mpi p junk nb v mt et kind n m dm s
  | .copyNew a b, s => copyNew al a b s
  | .deallocate v, s => deallocate v s
  | .clear v, s => clear v s
  | .growRow v i, s => Handle.growRow al v i s
  | .addBlock v k, s => Handle.addBlock al v k s
  | .dropBlock v k, s => Handle.dropBlock v k s
  | .query v q, s => do
    let _ ← query s.mem (s.vars v) q
    pure s
  | .assign v w, s => pure { s with vars := upd s.vars v (s.vars w) }

/-- A program. -/
def run (al : Alloc) (mpi : Bool) (p : Nat) : List Cmd → State → Res State
  | [], s => .ok s
  | c :: cs, s => do
    let s ← step al mpi p c s
    run al mpi p cs s

end Bml.Fortran
