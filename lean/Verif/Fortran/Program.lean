import Verif.Common.Program
import Verif.Elemental

/-!
# Programs that use the Fortran interface

`bml_add_m.F90`, `bml_multiply_m.F90`, `bml_scale_m.F90`, `bml_threshold_m.F90`, `bml_transpose_m.F90`,
`bml_copy_m.F90`, `bml_setters_m.F90`, `bml_getters_m.F90`, `bml_trace_m.F90`, `bml_norm_m.F90` and
`bml_export_m.F90`: the procedures fill in the arguments the caller leaves out, count indices from
zero, deallocate the destination of a new matrix and call C.

A matrix variable of a Fortran program holds a pointer, which is null until a matrix is created.  All
matrices of a program have the same size, format and element type `K`.  The element type of Fortran
data that are handed over by address is the choice of the caller and not compared with `K`.
-/

namespace Bml.Fortran.Program

open History (Cmd Env Ask)
open Elemental (Kind)

variable {R Q : Type} [CommRing R] [DecidableEq R] [Zero Q]

/-- A call of a Fortran procedure.  Numbers of type `Q` are thresholds. -/
inductive Call (R Q : Type) where
  /-- `call bml_zero_matrix(..., v)` -/
  | zero (v : Nat)
  /-- `call bml_identity_matrix(..., v)` -/
  | identity (v : Nat)
  /-- `call bml_set_element(v, i, j, x)` -/
  | setElement (f : Kind) (i j : Nat) (x : R) (v : Nat)
  /-- `call bml_set_row(v, i, row [, threshold])` -/
  | setRow (f : Kind) (i : Nat) (row : Arr R) (t : Option Q) (v : Nat)
  /-- `call bml_set_diagonal(v, diagonal [, threshold])` -/
  | setDiagonal (f : Kind) (d : Arr R) (t : Option Q) (v : Nat)
  /-- `call bml_copy_new(v, w)` -/
  | copyNew (v w : Nat)
  /-- `call bml_copy(v, w)` -/
  | copy (v w : Nat)
  /-- `call bml_scale(c, v)` -/
  | scaleOne (f : Kind) (c : R) (v : Nat)
  /-- `call bml_scale(c, v, w)` -/
  | scaleTwo (f : Kind) (c : R) (v w : Nat)
  /-- `call bml_add(v, w, α, β [, threshold])` -/
  | add (v w : Nat) (α β : R) (t : Option Q)
  /-- `call bml_add_deprecated(α, v, β, w [, threshold])` -/
  | addDeprecated (α : R) (v : Nat) (β : R) (w : Nat) (t : Option Q)
  /-- `call bml_add_identity(v, α, threshold)` -/
  | addIdentity (v : Nat) (α : R) (t : Q)
  /-- `call bml_scale_add_identity(v, α, β, threshold)` -/
  | scaleAddIdentity (v : Nat) (α β : R) (t : Q)
  /-- `call bml_threshold(v, threshold)` -/
  | threshold (v : Nat) (t : Q)
  /-- `call bml_multiply(v, w, u [, α] [, β] [, threshold])` -/
  | multiply (v w u : Nat) (α β : Option R) (t : Option Q)
  /-- `call bml_multiply_x2(v, w [, threshold], trace)`, without the traces -/
  | square (v w : Nat) (t : Option Q)
  /-- `call bml_transpose(v, w)` -/
  | transpose (v w : Nat)

/-- The call of C: `bml_setters_m.F90` 103-297 (`i-1`, `j-1`; `threshold_ = 0` if absent),
`bml_copy_m.F90` 28-55, `bml_scale_m.F90` 32-160, `bml_add_m.F90` 47-170,
`bml_threshold_m.F90` 13-20, `bml_multiply_m.F90` 31-60 (`alpha_ = 1`, `beta_ = 0`) and 99-125,
`bml_transpose_m.F90` 18-26.  `above t x` is the test `|x| > t`. -/
def Call.toC (above : Q → R → Bool) : Call R Q → Cmd R
  | .zero v => .zero v
  | .identity v => .identity v
  | .setElement _ i j x v => .set (i - 1) (j - 1) x v
  | .setRow _ i row t v => .setRow (above (t.getD 0)) (i - 1) row v
  | .setDiagonal _ d t v => .setDiagonal (above (t.getD 0)) d v
  | .copyNew v w => .copyNew v w
  | .copy v w => .copy v w
  | .scaleOne _ c v => .scaleInplace c v
  | .scaleTwo _ c v w => .scale c v w
  | .add v w α β t => .add (above (t.getD 0)) α β w v
  | .addDeprecated α v β w t => .add (above ((some (t.getD 0)).getD 0)) α β w v
  | .addIdentity v α t => .addIdentity (above t) α v
  | .scaleAddIdentity v α β t => .scaleAddIdentity (above t) α β v
  | .threshold v t => .threshold (above t) v
  | .multiply v w u α β t => .multiply (above (t.getD 0)) (α.getD 1) (β.getD 0) v w u
  | .square v w t => .square (above (t.getD 0)) v w
  | .transpose v w => .transposeNew v w

/-- The variable a procedure deallocates before it calls C (`bml_allocate_m.F90`: zero and identity
matrices; `bml_copy_m.F90` 34; `bml_transpose_m.F90` 23). -/
def Call.frees : Call R Q → Option Nat
  | .zero v | .identity v | .copyNew _ v | .transpose _ v => some v
  | _ => none

/-- The variables whose matrices C gets.  C looks at the format of the first one to choose the
function. -/
def Call.args : Call R Q → List Nat
  | .zero _ | .identity _ => []
  | .setElement _ _ _ _ v | .setRow _ _ _ _ v | .setDiagonal _ _ _ v | .copyNew v _
  | .scaleOne _ _ v | .addIdentity v _ _ | .scaleAddIdentity v _ _ _ | .threshold v _
  | .transpose v _ => [v]
  | .copy v w | .scaleTwo _ _ v w | .add v w _ _ _ | .addDeprecated _ v _ w _ | .square v w _ => [v, w]
  | .multiply v w u _ _ _ => [v, w, u]

/-- `bml_copy` compares the formats of its arguments. -/
def Call.checked : Call R Q → Bool
  | .copy _ _ => true
  | _ => false

/-- The element type of the data handed over by address. -/
def Call.kind : Call R Q → Option Kind
  | .setElement f _ _ _ _ | .setRow f _ _ _ _ | .setDiagonal f _ _ _ | .scaleOne f _ _
  | .scaleTwo f _ _ _ => some f
  | _ => none

/-- The indices, counted from one. -/
def Call.indices : Call R Q → List Nat
  | .setElement _ i j _ _ => [i, j]
  | .setRow _ i _ _ _ => [i]
  | _ => []

/-- A question: `bml_get_row(v, i, row)`, `bml_get_diagonal(v, diagonal)`, `bml_trace(v)`,
`bml_sum_squares(v)`, `bml_export_to_dense(v, array)`. -/
inductive Question where
  | row (f : Kind) (i v : Nat)
  | diagonal (f : Kind) (v : Nat)
  | trace (v : Nat)
  | sumSquares (v : Nat)
  | dense (f : Kind) (v : Nat)

/-- The call of C: `bml_getters_m.F90` 33-190, `bml_trace_m.F90` 20-27, `bml_norm_m.F90` 23-30,
`bml_export_m.F90` 28-53 (column major).  That the result is copied into a Fortran array is the
subject of `Fortran.copyOut` and left out here. -/
def Question.toC : Question → Ask
  | .row _ i v => .row (i - 1) v
  | .diagonal _ v => .diagonal v
  | .trace v => .trace v
  | .sumSquares v => .sumSquares v
  | .dense _ v => .dense .colMajor v

/-- The variable. -/
def Question.arg : Question → Nat
  | .row _ _ v | .diagonal _ v | .trace v | .sumSquares v | .dense _ v => v

/-- The element type of the Fortran array that receives the answer. -/
def Question.kind : Question → Option Kind
  | .row f _ _ | .diagonal f _ | .dense f _ => some f
  | _ => none

/-- The index, counted from one. -/
def Question.indices : Question → List Nat
  | .row _ i _ => [i]
  | _ => []

/-- What C does with its matrix arguments before it computes: the format of the first one is looked
up, for a null pointer the library reports an error and stops (`LOG_ERROR` in the `default` branches
of the dispatchers); a null pointer further on is dereferenced, except by `bml_copy`, which compares
the formats of its arguments (`bml_copy.c` 72-79) and is called with `checked`. -/
def present {τ : Type} (checked : Bool) (F : Nat → Option τ) : List Nat → Res Unit
  | [] => .ok ()
  | v :: vs =>
    if (F v).isNone then .error
    else if vs.any (fun w => (F w).isNone) then (if checked then .error else .ub) else .ok ()

/-- Data of type `f` read as data of type `K`; indices zero, which C gets as `-1`. -/
def wellTyped (K : Kind) (f : Option Kind) (is : List Nat) : Res Unit :=
  if f.any (fun f => decide (f ≠ K)) || is.any (fun i => decide (i = 0)) then .ub else .ok ()

/-- `call bml_deallocate(v)`, which leaves a null pointer (`bml_allocate.c` 161-200). -/
def release {τ : Type} (F : Nat → Option τ) : Option Nat → Nat → Option τ
  | some v => upd F v none
  | none => F

/-- One call of a Fortran procedure.  `F v` is `none` if variable `v` holds a null pointer; `value` is
what the C functions compute; `z` stands for the matrices of variables that are not looked at. -/
def call {τ : Type} (value : Env R → (Nat → τ) → Cmd R → Res τ) (above : Q → R → Bool) (K : Kind) (z : τ)
    (ω : Env R) (F : Nat → Option τ) (c : Call R Q) : Res (Nat → Option τ) := do
  let F := release F c.frees
  let _ ← present c.checked F c.args
  let _ ← wellTyped K c.kind c.indices
  let A ← value ω (fun v => (F v).getD z) (c.toC above)
  pure (upd F (c.toC above).target (some A))

/-- One question. -/
def ask {τ : Type} (answer : Env R → (Nat → τ) → Ask → Res (List R)) (K : Kind) (z : τ) (ω : Env R)
    (F : Nat → Option τ) (q : Question) : Res (List R) := do
  let _ ← present false F [q.arg]
  let _ ← wellTyped K q.kind q.indices
  answer ω (fun v => (F v).getD z) q.toC

/-- A statement of a Fortran program. -/
inductive Stmt (R Q : Type) where
  | call (c : Call R Q)
  | ask (q : Question)

/-- The answers a Fortran program gets. -/
def outputs {τ : Type} (value : Env R → (Nat → τ) → Cmd R → Res τ)
    (answer : Env R → (Nat → τ) → Ask → Res (List R)) (above : Q → R → Bool) (K : Kind) (z : τ) :
    List (Stmt R Q × Env R) → (Nat → Option τ) → Res (List (List R))
  | [], _ => .ok []
  | (.call c, ω) :: cs, F => do
    let F ← call value above K z ω F c
    outputs value answer above K z cs F
  | (.ask q, ω) :: cs, F => do
    let x ← ask answer K z ω F q
    let xs ← outputs value answer above K z cs F
    pure (x :: xs)

end Bml.Fortran.Program
