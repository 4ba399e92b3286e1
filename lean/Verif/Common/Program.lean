import Verif.Props.History

/-!
# Programs with output

A program calls the library (`History.Cmd`) and asks for values in between.  What it gets back is all
it can observe.
-/

namespace Bml.History

variable {R : Type} [Zero R] [One R] [Add R] [Mul R] [Neg R] [Sub R] [DecidableEq R]

/-- A question about variable `v`. -/
inductive Ask where
  /-- `bml_get_element(v, i, j)` -/
  | element (i j v : Nat)
  /-- `bml_get_row(v, i)` -/
  | row (i v : Nat)
  /-- `bml_get_diagonal(v)` -/
  | diagonal (v : Nat)
  /-- `bml_trace(v)` -/
  | trace (v : Nat)
  /-- `bml_sum_squares(v)`, the square of `bml_fnorm(v)` -/
  | sumSquares (v : Nat)
  /-- `bml_export_to_dense(v, order)` -/
  | dense (order : Order) (v : Nat)

/-- Indices are in range. -/
def Ask.Legal (N : Nat) : Ask → Prop
  | .element i j _ => i < N ∧ j < N
  | .row i _ => i < N
  | _ => True

/-- The elements of an array. -/
def elems (a : Arr R) : List R := (List.range a.size).map a.get

/-- What an ELLPACK program gets: `bml_getters_ellpack_typed.c`, `bml_trace_ellpack_typed.c`,
`bml_norm_ellpack_typed.c`, `bml_export_ellpack_typed.c`. -/
def ellAsk (ω : Env R) (S : Nat → Ell R) : Ask → Res (List R)
  | .element i j v => do
    let x ← (S v).getElement i j
    pure [x]
  | .row i v => do
    let r ← (S v).getRow i
    pure (elems r)
  | .diagonal v => do
    let d ← (S v).getDiagonal
    pure (elems d)
  | .trace v => do
    let t ← Ell.trace (S v) ω.rows
    pure [t]
  | .sumSquares v => do
    let t ← Ell.sumSquares (S v) ω.rows
    pure [t]
  | .dense o v => do
    let D ← Ell.exportDense (S v) o ω.rows
    pure (elems D)

/-- What a CSR program gets: `bml_getters_csr_typed.c`, `bml_trace_csr_typed.c`,
`bml_norm_csr_typed.c`, `bml_export_csr_typed.c`. -/
def csrAsk (ω : Env R) (S : Nat → Csr R) : Ask → Res (List R)
  | .element i j v => do
    let x ← (S v).getElement i j
    pure [x]
  | .row i v => do
    let r ← (S v).getRow i
    pure (elems r)
  | .diagonal v => do
    let d ← (S v).getDiagonal
    pure (elems d)
  | .trace v => do
    let t ← (S v).trace ω.rows
    pure [t]
  | .sumSquares v => do
    let t ← (S v).sumSquares ω.rows
    pure [t]
  | .dense o v => do
    let D ← (S v).exportDense o ω.rows
    pure (elems D)

/-- What a dense program gets: `bml_getters_dense_typed.c`, `bml_trace_dense_typed.c`,
`bml_norm_dense_typed.c`, `bml_export_dense_typed.c`. -/
def denseAsk (ω : Env R) (S : Nat → Dense R) : Ask → Res (List R)
  | .element i j v => do
    let x ← (S v).getElement i j
    pure [x]
  | .row i v => do
    let r ← (S v).getRow i ω.vals
    pure (elems r)
  | .diagonal v => do
    let d ← (S v).getDiagonal ω.vals
    pure (elems d)
  | .trace v => do
    let t ← (S v).trace ω.rows
    pure [t]
  | .sumSquares v => do
    let t ← (S v).sumSquares ω.elems
    pure [t]
  | .dense o v => do
    let D ← (S v).exportDense o ω.vals
    pure (elems D)

/-- A statement: a call or a question. -/
inductive Stmt (R : Type) where
  | call (c : Cmd R)
  | ask (q : Ask)

/-- The outputs of a program, one list per question, in order. -/
def outputs {τ : Type} (value : Env R → (Nat → τ) → Cmd R → Res τ)
    (answer : Env R → (Nat → τ) → Ask → Res (List R)) :
    List (Stmt R × Env R) → (Nat → τ) → Res (List (List R))
  | [], _ => .ok []
  | (.call c, ω) :: cs, S => do
    let A ← value ω S c
    outputs value answer cs (upd S c.target A)
  | (.ask q, ω) :: cs, S => do
    let x ← answer ω S q
    let xs ← outputs value answer cs S
    pure (x :: xs)

end Bml.History
