import Verif.Props.EllOps
import Verif.Props.EllTranspose
import Verif.Props.EllConstruct
import Verif.Props.Dense2
import Verif.Props.Csr2

/-!
# Sequences of calls

A program with matrix variables `0, 1, 2, ...`, all of the same size and format, that calls the library.
Every call computes a new value for one variable.
-/

namespace Bml.History

variable {R : Type} [Zero R] [One R] [Add R] [Mul R] [Neg R] [Sub R] [DecidableEq R]

/-- A call.  `t` is the test `|x| > threshold`; the target variable comes last. -/
inductive Cmd (R : Type) where
  /-- `v = bml_zero_matrix(...)` -/
  | zero (v : Nat)
  /-- `v = bml_identity_matrix(...)` -/
  | identity (v : Nat)
  /-- `bml_set_element(v, i, j, x)` -/
  | set (i j : Nat) (x : R) (v : Nat)
  /-- `bml_set_row(v, i, row, threshold)` -/
  | setRow (t : R → Bool) (i : Nat) (row : Arr R) (v : Nat)
  /-- `bml_set_diagonal(v, diag, threshold)` -/
  | setDiagonal (t : R → Bool) (diag : Arr R) (v : Nat)
  /-- `bml_copy_new`: `w = bml_copy_new(v)` -/
  | copyNew (v w : Nat)
  /-- `bml_copy(v, w)` -/
  | copy (v w : Nat)
  /-- `bml_scale_inplace(c, v)` -/
  | scaleInplace (c : R) (v : Nat)
  /-- `bml_scale(c, v, w)` -/
  | scale (c : R) (v w : Nat)
  /-- `bml_add(v, w, α, β, threshold)`; the target is `v` -/
  | add (t : R → Bool) (α β : R) (w v : Nat)
  /-- `bml_add_identity(v, β, threshold)` -/
  | addIdentity (t : R → Bool) (β : R) (v : Nat)
  /-- `bml_scale_add_identity(v, α, β, threshold)` -/
  | scaleAddIdentity (t : R → Bool) (α β : R) (v : Nat)
  /-- `bml_threshold(v, threshold)` -/
  | threshold (t : R → Bool) (v : Nat)
  /-- `bml_multiply(v, w, u, α, β, threshold)` -/
  | multiply (t : R → Bool) (α β : R) (v w u : Nat)
  /-- `bml_multiply_x2(v, w, threshold)` -/
  | square (t : R → Bool) (v w : Nat)
  /-- `bml_transpose(v)` -/
  | transpose (v : Nat)
  /-- `w = bml_transpose_new(v)` -/
  | transposeNew (v w : Nat)

/-- The variable a call changes. -/
def Cmd.target : Cmd R → Nat
  | .zero v | .identity v | .set _ _ _ v | .setRow _ _ _ v | .setDiagonal _ _ v | .copyNew _ v
  | .copy _ v | .scaleInplace _ v | .scale _ _ v | .add _ _ _ _ v | .addIdentity _ _ v
  | .scaleAddIdentity _ _ _ v | .threshold _ v | .multiply _ _ _ _ _ v | .square _ _ v
  | .transpose v | .transposeNew _ v => v

/-- Indices and array arguments fit the size `N`.  The matrix a call writes is not one of those it
reads, except for `bml_scale`; the two factors of `bml_multiply` may be the same matrix. -/
def Cmd.Legal (N : Nat) : Cmd R → Prop
  | .set i j _ _ => i < N ∧ j < N
  | .setRow _ i row _ => i < N ∧ N ≤ row.size
  | .setDiagonal _ d _ => N ≤ d.size
  | .copy v w => v ≠ w
  | .add _ _ _ w v => w ≠ v
  | .multiply _ _ _ v w u => v ≠ u ∧ w ≠ u
  | .square _ v w => v ≠ w
  | _ => True

/-- What the environment chooses during a call: the schedules of the parallel loops and the contents
of new memory. -/
structure Env (R : Type) where
  rows : Sched
  rows' : Sched
  rows'' : Sched
  elems : Sched
  upper : Sched
  ellSlots : Ell R → List (Nat × Nat)
  csrSlots : Csr R → List (Nat × Nat)
  vals : Nat → R
  ints : Nat → Nat
  vals2 : Nat → Nat → R
  ints2 : Nat → Nat → Nat
  csrRows : Nat → CsrRow R
  table : Nat → Hash.Slot

/-- The schedules are schedules: every iteration is run exactly once, in any order on any threads. -/
structure Env.Valid (N : Nat) (ω : Env R) : Prop where
  rows : IsSched 0 N ω.rows
  rows' : IsSched 0 N ω.rows'
  rows'' : IsSched 0 N ω.rows''
  elems : IsSched (0 * N) (N * N) ω.elems
  upper : IsSched 0 (N - 1) ω.upper
  ellSlots : ∀ A, (ω.ellSlots A).Perm A.slots
  csrSlots : ∀ A, (ω.csrSlots A).Perm A.slots

/-- The value a call computes, ELLPACK matrices of width `M` on one rank.  The tests whether two
arguments are the same matrix are those of the C functions (`A != B` in `bml_scale_ellpack`,
`A == B` in `bml_multiply_ellpack`). -/
def ellValue (N M : Nat) (ω : Env R) (S : Nat → Ell R) : Cmd R → Res (Ell R)
  | .zero _ => Ell.newZero N M
  | .identity _ => Ell.identity N M ω.rows
  | .set i j x v => (S v).setElement i j x
  | .setRow t i row v => (S v).setRow i row t
  | .setDiagonal t d v => (S v).setDiagonal d t
  | .copyNew v _ => Ell.copyNew (S v) ω.rows ω.vals ω.ints
  | .copy v w => Ell.bmlCopy (S v) (S w) ω.rows
  | .scaleInplace c v => Ell.scaleInplace c (S v) 0 N
  | .scale c v w =>
    if v = w then Ell.scaleInplace c (S v) 0 N else Ell.scale c (S v) (S w) 0 N ω.rows
  | .add t α β w v => Ell.add (S v) (S w) α β t ω.rows
  | .addIdentity t β v => Ell.addIdentity (S v) β t ω.rows
  | .scaleAddIdentity t α β v => Ell.scaleAddIdentity (S v) α β t 0 N ω.rows
  | .threshold t v => Ell.threshold (S v) t ω.rows
  | .multiply t α β v w u =>
    if v = w then Ell.multiplySelf (S v) (S u) α β t ω.rows ω.rows' ω.vals ω.ints
    else Ell.multiply (S v) (S w) (S u) α β t ω.rows ω.rows' ω.vals ω.ints
  | .square t v w => do
    let r ← Ell.multX2 (S v) (S w) t ω.rows
    pure r.1
  | .transpose v => Ell.transposeInPlace (S v)
  | .transposeNew v _ => Ell.transposeNew (S v) (ω.ellSlots (S v)) ω.vals ω.ints

/-- The value a call computes, CSR matrices. -/
def csrValue (N M : Nat) (ω : Env R) (S : Nat → Csr R) : Cmd R → Res (Csr R)
  | .zero _ => pure (Csr.newZero N M)
  | .identity _ => Csr.identity N M ω.rows
  | .set i j x v => (S v).setElement i j x
  | .setRow t i row v => (S v).setRow i row t ω.ints
  | .setDiagonal t d v => (S v).setDiagonal d t
  | .copyNew v _ => (S v).copyNew ω.rows ω.csrRows ω.vals2 ω.ints2
  | .copy v w => (S v).copyInto (S w) ω.rows
  | .scaleInplace c v => (S v).scaleInplace c ω.rows
  | .scale c v w =>
    if v = w then (S v).scaleInplace c ω.rows' else Csr.scale c (S v) (S w) ω.rows ω.rows'
  | .add t α β w v => (S v).add (S w) α β t ω.rows ω.rows' ω.table
  | .addIdentity t β v => (S v).addIdentity β t ω.rows ω.rows'
  | .scaleAddIdentity t α β v => (S v).scaleAddIdentity α β t ω.rows ω.rows' ω.rows''
  | .threshold t v => (S v).threshold t ω.rows
  | .multiply t α β v w u =>
    if v = w then
      Csr.multiplySelf (S v) (S u) α β t ω.rows ω.rows' ω.rows'' ω.vals2 ω.ints2 ω.table
    else Csr.multiply (S v) (S w) (S u) α β t ω.rows ω.rows' ω.rows'' ω.vals2 ω.ints2 ω.table
  | .square t v w => do
    let r ← Csr.multX2 (S v) (S w) t ω.rows
    pure r.1
  | .transpose v => (S v).transposeInPlace
  | .transposeNew v _ => (S v).transposeNew (ω.csrSlots (S v)) ω.vals2 ω.ints2

/-- The value a call computes, dense matrices. -/
def denseValue (N : Nat) (ω : Env R) (S : Nat → Dense R) : Cmd R → Res (Dense R)
  | .zero _ => pure (Dense.zeroMatrix N)
  | .identity _ => Dense.identity N ω.rows
  | .set i j x v => (S v).setElement i j x
  | .setRow _ i row v => (S v).setRow i row
  | .setDiagonal _ d v => (S v).setDiagonal d
  | .copyNew v _ => (S v).copyNew ω.vals
  | .copy v w => (S v).bmlCopy (S w)
  | .scaleInplace c v => Dense.scaleInplace c (S v) 0 N
  | .scale c v w =>
    if v = w then Dense.scaleInplace c (S v) 0 N else Dense.scale c (S v) (S w) 0 N
  | .add _ α β w v => Dense.add (S v) (S w) α β 0 N
  | .addIdentity _ β v => Dense.addIdentity (S v) β ω.rows
  | .scaleAddIdentity _ α β v => Dense.scaleAddIdentity (S v) α β 0 N ω.rows
  | .threshold t v => Dense.threshold (S v) t ω.elems
  | .multiply _ α β v w u => Dense.multiply (S v) (S w) (S u) α β
  | .square _ v w => do
    let r ← Dense.multiplyX2 (S v) (S w) ω.rows ω.rows'
    pure r.1
  | .transpose v => (S v).transpose ω.upper
  | .transposeNew v _ => (S v).transposeNew ω.rows ω.vals

/-- A sequence of calls, each with the choices of its environment; `value` as above. -/
def run {τ : Type} (value : Env R → (Nat → τ) → Cmd R → Res τ) :
    List (Cmd R × Env R) → (Nat → τ) → Res (Nat → τ)
  | [], S => .ok S
  | (c, ω) :: cs, S => do
    let A ← value ω S c
    run value cs (upd S c.target A)

end Bml.History
