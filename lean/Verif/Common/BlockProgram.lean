import Verif.Common.Program
import Verif.Ellblock.Model3
import Verif.Ellblock.Model4
import Verif.Ellblock.Model5

/-!
# Programs of block-ELLPACK matrices

The calls and questions of `History` for matrices of type `ellblock`.  The block sizes in force
(`EllB.Glob`) are part of the state of a program.
-/

namespace Bml.History

variable {R : Type} [CommRing R] [DecidableEq R]

/-- What the environment chooses during a call: the schedules of the parallel loops over block rows
and the contents of new memory. -/
structure BEnv (R : Type) where
  rows : Sched
  rows' : Sched
  vals : Nat → R

/-- Every block row is visited once. -/
structure BEnv.Valid (nb : Nat) (ω : BEnv R) : Prop where
  rows : IsSched 0 nb ω.rows
  rows' : IsSched 0 nb ω.rows'

/-- The value a call computes, block-ELLPACK matrices, and the block sizes in force afterwards.
`bml_scale` with equal arguments does not copy (`bml_scale_ellblock_typed.c` 57-61). -/
def blkValue (N M : Nat) (ω : BEnv R) (g : EllB.Glob) (S : Nat → EllB R) :
    Cmd R → Res (EllB.Glob × EllB R)
  | .zero _ => EllB.zeroMatrix g N M
  | .identity _ => EllB.identityMatrix g N M
  | .set i j x v => do
    let A ← (S v).setElement i j x
    pure (g, A)
  | .setRow t i row v => do
    let A ← (S v).setRow t i row
    pure (g, A)
  | .setDiagonal t d v => do
    let A ← (S v).setDiagonal t d
    pure (g, A)
  | .copyNew v _ => EllB.copyMatrix g ω.rows (S v)
  | .copy v w => do
    let A ← EllB.copyInto ω.rows ω.vals (S v) (S w)
    pure (g, A)
  | .scaleInplace c v => do
    let A ← EllB.scaleInplace c (S v)
    pure (g, A)
  | .scale c v w => do
    let A ← if v = w then EllB.scaleInplace c (S v) else EllB.scaleInto ω.rows ω.vals c (S v) (S w)
    pure (g, A)
  | .add t α β w v => do
    let A ← EllB.add ω.rows (fun x => decide (x ≠ 0)) t ω.vals (S v) (S w) α β
    pure (g, A)
  | .addIdentity t β v => EllB.addIdentity g ω.rows (fun x => decide (x ≠ 0)) t ω.vals (S v) β
  | .scaleAddIdentity t α β v =>
    EllB.scaleAddIdentity g ω.rows (fun x => decide (x ≠ 0)) t ω.vals (S v) α β
  | .threshold t v => do
    let A ← (S v).threshold t
    pure (g, A)
  | .multiply t α β v w u =>
    if v = w then
      EllB.multiplySame g ω.rows ω.rows' (fun x => decide (x ≠ 0)) t (fun x => decide (x = 1))
        (fun x => decide (x = 0)) ω.vals (S v) (S u) α β
    else EllB.multiply g ω.rows ω.rows' (fun x => decide (x ≠ 0)) t ω.vals (S v) (S w) (S u) α β
  | .square t v w => do
    let r ← EllB.multiplyX2 ω.rows t ω.vals (S v) (S w)
    pure (g, r.1)
  | .transpose v => do
    let A ← EllB.transposeInPlace ω.vals (S v)
    pure (g, A)
  | .transposeNew v _ => EllB.transposeNew g ω.vals (S v)

/-- What a block-ELLPACK program gets: `bml_getters_ellblock_typed.c`, `bml_trace_ellblock_typed.c`,
`bml_norm_ellblock_typed.c`, `bml_export_ellblock_typed.c`. -/
def blkAsk (N : Nat) (S : Nat → EllB R) : Ask → Res (List R)
  | .element i j v => do
    let x ← (S v).getElement i j
    pure [x]
  | .row i v => do
    let r ← (S v).getRow i
    pure (elems r)
  | .diagonal v => do
    let d ← (S v).getDiagonal
    pure (elems d)
  | .trace v => do
    let t ← (S v).trace
    pure [t]
  | .sumSquares v => do
    let t ← (S v).sumSquares
    pure [t]
  | .dense o v => do
    let D ← EllB.exportDense (fun i j => o.addr i j N) (S v)
    pure (elems D)

/-- The outputs of a program, one list per question, in order. -/
def blkOutputs (N M : Nat) :
    List (Stmt R × BEnv R) → EllB.Glob → (Nat → EllB R) → Res (List (List R))
  | [], _, _ => .ok []
  | (.call c, ω) :: cs, g, S => do
    let (g, A) ← blkValue N M ω g S c
    blkOutputs N M cs g (upd S c.target A)
  | (.ask q, _) :: cs, g, S => do
    let x ← blkAsk N S q
    let xs ← blkOutputs N M cs g S
    pure (x :: xs)

end Bml.History
