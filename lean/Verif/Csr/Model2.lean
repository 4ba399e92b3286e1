import Verif.Sparsity
import Verif.Csr.Model

/-!
# Model of the CSR format (2): traces, products, transposes, norms, spectra, submatrices
-/

namespace Bml

namespace Csr

variable {R : Type} [Zero R] [One R] [Add R] [Mul R] [Neg R] [Sub R]

/-! ## `bml_trace_csr_typed.c` -/

/-- `bml_trace_csr`, lines 27-53. -/
def trace (A : Csr R) (sc : Sched) : Res R :=
  forList sc 0 fun ti t => do
    let r ← A.data.read ti.2
    let v ← r.get ti.2
    pure (t + v)

/-- Lines 93-104: the search of column `i` in row `j` of `B`. -/
def traceMultEntry (B : Csr R) (i j : Nat) (a t : R) : Res R := do
  let b ← B.data.read j
  match ← b.findPos i 0 b.nnz with
  | some bpos => do
    let v ← b.vals.read bpos
    pure (t + a * v)
  | none => pure t

/-- `bml_trace_mult_csr`, lines 64-108. -/
def traceMult (A B : Csr R) (sc : Sched) : Res R :=
  if A.N ≠ B.N then .error
  else forList sc 0 fun ti t => do
    let r ← A.data.read ti.2
    r.fold t fun j a t => traceMultEntry B ti.2 j a t

/-! ## `bml_multiply_csr_typed.c` -/

/-- Lines 163-175 and 262-274: `a` times the row `b` is added to the accumulator. -/
def accumScaled (mark : Nat) (a : R) (b : CsrRow R) (st : Scr R × Nat) : Res (Scr R × Nat) :=
  b.fold st fun k v st => Ell.accum mark k (a * v) st

/-- Lines 179-196 and 277-293: clear row `i` and append the accumulated entries; `t` is the sum of
the diagonal entries met (`traceX2`), which the second place does not compute. -/
def flushRow (i : Nat) (big : R → Bool) (r : CsrRow R) (s : Scr R) (l : Nat) (t : R) :
    Res (CsrRow R × Scr R × R) := do
  let r ← r.clear
  loop l (r, s, t) fun j (st : CsrRow R × Scr R × R) => do
    let jp ← st.2.1.jx.read j
    let xtmp ← st.2.1.x.read jp
    let (r, t) ← (if jp = i then do
        let r ← st.1.setNew jp xtmp
        pure (r, st.2.2 + xtmp)
      else if big xtmp then do
        let r ← st.1.setNew jp xtmp
        pure (r, st.2.2)
      else pure (st.1, st.2.2))
    let ix ← st.2.1.ix.write jp 0
    let x ← st.2.1.x.write jp 0
    pure (r, ⟨x, ix, st.2.1.jx⟩, t)

/-- Lines 254-275: the products of row `i` of `A` with the rows of `B`. -/
def accumProd (A B : Csr R) (i : Nat) (st : Scr R × Nat) : Res (Scr R × Nat) := do
  let r ← A.data.read i
  r.fold st fun j a st => do
    let b ← B.data.read j
    accumScaled (i + 1) a b st

/-- `bml_multiply_AB_csr`, lines 215-295, for `C` different from `A` and `B`. -/
def multAB (A B C : Csr R) (big : R → Bool) (sc : Sched) : Res (Csr R) := do
  let (C, _) ← C.forRowsS sc (Ell.clearScr C.N) () fun i r s _ => do
    let (s, l) ← accumProd A B i (s, 0)
    let (r, s, _) ← flushRow i big r s l 0
    pure (r, s, ())
  pure C

/-- `bml_multiply_adjust_AB_csr`, lines 311-319. -/
def multAdjustAB (A B C : Csr R) (big : R → Bool) (sc : Sched) : Res (Csr R) := multAB A B C big sc

/-- Lines 152-176: as `accumProd`, with `traceX` as a further component. -/
def accumSquare (X : Csr R) (i : Nat) (st : (Scr R × Nat) × R) : Res ((Scr R × Nat) × R) := do
  let r ← X.data.read i
  r.fold st fun j a st => do
    let t := if j = i then st.2 + a else st.2
    let b ← X.data.read j
    let st' ← accumScaled (i + 1) a b st.1
    pure (st', t)

/-- `bml_multiply_x2_csr`, lines 101-202, for `X2` different from `X`: the matrix and the pair
`(traceX, traceX2)`. -/
def multX2 (X X2 : Csr R) (big : R → Bool) (sc : Sched) : Res (Csr R × (R × R)) :=
  X2.forRowsS sc (Ell.clearScr X.N) ((0 : R), (0 : R)) fun i r s t => do
    let (st, t1) ← accumSquare X i ((s, 0), t.1)
    let (r, s, t2) ← flushRow i big r st.1 st.2 t.2
    pure (r, s, (t1, t2))

/-- `bml_multiply_csr`, lines 38-89, for distinct `A`, `B`, `C`. -/
def multiply (A B C : Csr R) (α β : R) (big : R → Bool) (sc sc1 sc2 : Sched)
    (jv : Nat → Nat → R) (ji : Nat → Nat → Nat) (junk : Nat → Hash.Slot) : Res (Csr R) := do
  let A2 ← multAB A B (noinit C.N C.M jv ji) big sc
  add C A2 β α big sc1 sc2 junk

/-- `bml_multiply_csr`, lines 38-89, for `A == B` and `C` different. -/
def multiplySelf [DecidableEq R] (A C : Csr R) (α β : R) (big : R → Bool) (sc sc1 sc2 : Sched)
    (jv : Nat → Nat → R) (ji : Nat → Nat → Nat) (junk : Nat → Hash.Slot) : Res (Csr R) :=
  if α = 1 ∧ β = 0 then do
    let (C, _) ← multX2 A C big sc
    pure C
  else do
    let (A2, _) ← multX2 A (noinit C.N C.M jv ji) big sc
    add C A2 β α big sc1 sc2 junk

/-! ## `bml_element_multiply_csr_typed.c` -/

/-- Lines 79-85: mark column `k` as touched. -/
def touch (mark k : Nat) (st : Scr R × Nat) : Res (Scr R × Nat) := do
  let t ← st.1.ix.read k
  if t = 0 then do
    let x ← st.1.x.write k 0
    let jx ← st.1.jx.write st.2 k
    let ix ← st.1.ix.write k mark
    pure (⟨x, ix, jx⟩, st.2 + 1)
  else pure st

/-- Lines 75-98. -/
def accumHad (A B : Csr R) (i : Nat) (st : Scr R × Nat) : Res (Scr R × Nat) := do
  let r ← A.data.read i
  r.fold st fun k a st => do
    let st ← touch (i + 1) k st
    let b ← B.data.read i
    b.fold st fun kb v (st : Scr R × Nat) =>
      if k = kb then do
        let xk ← st.1.x.read k
        let x ← st.1.x.write k (xk + a * v)
        pure ({ st.1 with x := x }, st.2)
      else pure st

/-- `bml_element_multiply_AB_csr`, lines 36-119. -/
def elementMultiply (A B C : Csr R) (big : R → Bool) (sc : Sched) : Res (Csr R) := do
  let (C, _) ← C.forRowsS sc (Ell.clearScr C.N) () fun i r s _ => do
    let (s, l) ← accumHad A B i (s, 0)
    let (r, s, _) ← flushRow i big r s l 0
    pure (r, s, ())
  pure C

/-! ## `bml_transpose_csr_typed.c` -/

/-- `bml_transpose_new_csr`, lines 29-79.  The append is done under the lock of the target row;
`sc` is the order in which the appends for the positions `(row, pos)` of `A` happen. -/
def transposeNew (A : Csr R) (sc : List (Nat × Nat)) (jv : Nat → Nat → R) (ji : Nat → Nat → Nat) :
    Res (Csr R) :=
  forList sc (noinit A.N A.M jv ji) fun ip B => do
    let r ← A.data.read ip.1
    let j ← r.cols.read ip.2
    let v ← r.vals.read ip.2
    B.setElementNew j ip.1 v

/-- State of the in-place transpose: the matrix, `nz_t` and `ipos + 1`. -/
structure TrSt (R : Type) where
  A : Csr R
  nzt : Arr Nat
  pos1 : Nat

/-- Lines 135-203: one iteration of the `while` loop for row `i`. -/
def leftStep (i : Nat) (s : TrSt R) : Res (TrSt R) := do
  let ipos := s.pos1 - 1
  let ri ← s.A.data.read i
  let j ← ri.cols.read ipos
  if j > i then do
    let rj ← s.A.data.read j
    let jstart ← s.nzt.read j
    match ← rj.findPos i jstart (rj.nnz - jstart) with
    | some jpos => do
      let tmp ← ri.vals.read ipos
      let w ← rj.vals.read jpos
      let ivals ← ri.vals.write ipos w
      let jvals ← rj.vals.write jpos tmp
      let ni ← s.nzt.read i
      let ri ← ({ ri with vals := ivals } : CsrRow R).swap ipos ni
      let nj ← s.nzt.read j
      let rj ← ({ rj with vals := jvals } : CsrRow R).swap jpos nj
      let data ← s.A.data.write i ri
      let data ← data.write j rj
      let nzt ← s.nzt.write i (ni + 1)
      let nj ← nzt.read j
      let nzt ← nzt.write j (nj + 1)
      pure ⟨{ s.A with data := data }, nzt, s.pos1⟩
    | none => do
      let v ← ri.vals.read ipos
      let rj ← rj.setNew i v
      let nj ← s.nzt.read j
      let rj ← rj.swap (rj.nnz - 1) nj
      let nzt ← s.nzt.write j (nj + 1)
      let data ← s.A.data.write j rj
      let data ← data.write i { ri with nnz := ri.nnz - 1 }
      pure ⟨{ s.A with data := data }, nzt, s.pos1 - 1⟩
  else if j < i then do
    let rj ← s.A.data.read j
    let v ← ri.vals.read ipos
    let rj ← rj.setNew i v
    let nj ← s.nzt.read j
    let nzt ← s.nzt.write j (nj + 1)
    let data ← s.A.data.write j rj
    let data ← data.write i { ri with nnz := ri.nnz - 1 }
    pure ⟨{ s.A with data := data }, nzt, s.pos1 - 1⟩
  else do
    let ni ← s.nzt.read i
    let ri ← ri.swap ipos ni
    let nzt ← s.nzt.write i (ni + 1)
    let data ← s.A.data.write i ri
    pure ⟨{ s.A with data := data }, nzt, s.pos1⟩

/-- Lines 126-205: row `i`.  `ipos >= nz_t[i]` is `nz_t[i] < pos1`.  The fuel is the initial number
of entries of the row. -/
def leftRow (i : Nat) (st : Csr R × Arr Nat) : Res (Csr R × Arr Nat) := do
  let r ← st.1.data.read i
  let s ← whileLoop (fun s => decide (s.nzt.get i < s.pos1)) (leftStep i) r.nnz ⟨st.1, st.2, r.nnz⟩
  pure (s.A, s.nzt)

/-- `bml_transpose_csr`, lines 116-206. -/
def transposeInPlace (A : Csr R) : Res (Csr R) := do
  let (A, _) ← loop A.N (A, (⟨A.N, fun _ => 0⟩ : Arr Nat)) fun i st => leftRow i st
  pure A

/-! ## `bml_norm_csr_typed.c` -/

/-- `bml_sum_squares_csr`, lines 27-50. -/
def sumSquares (A : Csr R) (sc : Sched) : Res R :=
  forList sc 0 fun ti sum => do
    let r ← A.data.read ti.2
    r.fold sum fun _ x sum => pure (sum + x * x)

/-- `bml_sum_squares_submatrix_csr`, lines 61-86; `sc` runs over `0..core_size`. -/
def sumSquaresSubmatrix (A : Csr R) (coreSize : Nat) (sc : Sched) : Res R :=
  forList sc 0 fun ti sum => do
    let r ← A.data.read ti.2
    r.fold sum fun c x sum => if c < coreSize then pure (sum + x * x) else pure sum

/-- Lines 119-125 and 188-194: `cvals` and the table for row `i` of `A`. -/
def loadRow (α : R) (r : CsrRow R) (cvals : Arr R) (junk : Nat → Hash.Slot) :
    Res (Arr R × Hash.Table) := do
  let t ← Hash.newTable r.nnz junk
  loop r.nnz (cvals, t) fun pos (st : Arr R × Hash.Table) => do
    let v ← r.vals.read pos
    let cvals ← st.1.write pos (α * v)
    let c ← r.cols.read pos
    let t ← Hash.insert st.2 c
    pure (cvals, t)

/-- `bml_sum_AB_csr`, lines 98-154 (sequential). -/
def sumAB (A B : Csr R) (α : R) (big : R → Bool) (junk : Nat → Hash.Slot) : Res R := do
  let st ← loop A.N ((⟨A.N, fun _ => 0⟩ : Arr R), (⟨A.N, fun _ => 0⟩ : Arr Nat), (0 : R)) fun i st => do
    let r ← A.data.read i
    let (cvals, t) ← loadRow α r st.1 junk
    let b ← B.data.read i
    let (cvals, ipos, cnt) ← b.fold (cvals, st.2.1, 0) fun c v (st : Arr R × Arr Nat × Nat) => do
      match ← Hash.lookup t c with
      | some idx => do
        let x ← st.1.read idx
        let cvals ← st.1.write idx (x * v)
        let ipos ← st.2.1.write st.2.2 idx
        pure (cvals, ipos, st.2.2 + 1)
      | none => pure st
    let sum ← loop cnt st.2.2 fun k sum => do
      let p ← ipos.read k
      let x ← cvals.read p
      if big x then pure (sum + x) else pure sum
    pure (cvals, ipos, sum)
  pure st.2.2

/-- `bml_sum_squares2_csr`, lines 168-228 (sequential). -/
def sumSquares2 (A B : Csr R) (α β : R) (big : R → Bool) (junk : Nat → Hash.Slot) : Res R := do
  let st ← loop A.N ((⟨A.N, fun _ => 0⟩ : Arr R), (0 : R)) fun i st => do
    let r ← A.data.read i
    let (cvals, t) ← loadRow α r st.1 junk
    let b ← B.data.read i
    let (cvals, cnt) ← b.fold (cvals, r.nnz) fun c v (st : Arr R × Nat) => do
      match ← Hash.lookup t c with
      | some idx => do
        let x ← st.1.read idx
        let cvals ← st.1.write idx (x + β * v)
        pure (cvals, st.2)
      | none => do
        let cvals ← st.1.write st.2 (β * v)
        pure (cvals, st.2 + 1)
    loop cnt (cvals, st.2) fun k (st : Arr R × R) => do
      let x ← st.1.read k
      let cvals ← st.1.write k 0
      pure (cvals, if big x then st.2 + x * x else st.2)
  pure st.2

/-- `bml_fnorm2_csr`, lines 261-268: not implemented. -/
def fnorm2 (_A _B : Csr R) : Res R := .error

/-! ## `bml_normalize_csr_typed.c` -/

section Gersh

variable {K : Type} [Field K] [LinearOrder K]

/-- Lines 106-121: `dvalue` and `radius` of row `i`. -/
def gershRow (A : Csr R) (absv : R → K) (i : Nat) : Res (R × K) := do
  let r ← A.data.read i
  r.fold ((0 : R), (0 : K)) fun j v st =>
    if i = j then pure (v, st.2) else pure (st.1, st.2 + absv v)

/-- `bml_gershgorin_csr`, lines 82-152, and `bml_gershgorin_partial_csr`, lines 163-224, with
`nrows` the number of rows looked at; `top` and `bot` are `DBL_MAX` and `DBL_MIN`.  The first
(parallel) loop only fills `dval` and `rad`; it is fused with the second one, which is
sequential.  The result is `(emin, emax)`. -/
def gershgorinPartial (A : Csr R) (absv re : R → K) (top bot : K) (nrows : Nat) : Res (K × K) :=
  loop nrows (top, bot) fun i st => do
    let dr ← gershRow A absv i
    let emax := if re dr.1 + dr.2 > st.2 then re dr.1 + dr.2 else st.2
    let emin := if re dr.1 - dr.2 < st.1 then re dr.1 - dr.2 else st.1
    pure (emin, emax)

/-- `bml_gershgorin_csr`. -/
def gershgorin (A : Csr R) (absv re : R → K) (top bot : K) : Res (K × K) :=
  gershgorinPartial A absv re top bot A.N

/-- `bml_accumulate_offdiag_csr`, lines 47-71. -/
def accumulateOffdiag (A : Csr R) (absv : R → K) (includeDiag : Bool) : Res (Arr K) :=
  loop A.N ⟨A.N, fun _ => 0⟩ fun i out => do
    let r ← A.data.read i
    let radius ← r.fold (0 : K) fun j v acc =>
      if i ≠ j ∨ includeDiag = true then pure (acc + absv v) else pure acc
    out.write i radius

/-- `bml_normalize_csr`, lines 32-45.  `is_above_threshold(x, 0.0)` is `x ≠ 0`. -/
def normalize (A : Csr K) (mineval maxeval : K) (sc sc1 sc2 : Sched) : Res (Csr K) := do
  let maxminusmin := maxeval - mineval
  let gershfact := maxeval / maxminusmin
  let scalar := -1 / maxminusmin
  let A ← A.scaleInplace scalar sc
  A.addIdentity gershfact (fun x => decide (x ≠ 0)) sc1 sc2

end Gersh

/-! ## `bml_submatrix_csr_typed.c` -/

/-- Lines 38-59: one row. -/
def extractRow (r : CsrRow R) (icol bN : Nat) (jv : Nat → R) (ji : Nat → Nat) :
    Res (Arr Nat × Arr R × Nat) :=
  r.fold ((⟨bN, ji⟩ : Arr Nat), (⟨bN, jv⟩ : Arr R), 0) fun c v (st : Arr Nat × Arr R × Nat) =>
    if icol ≤ c ∧ c < icol + bN then do
      let newcols ← st.1.write st.2.2 (c - icol)
      let newvals ← st.2.1.write st.2.2 v
      pure (newcols, newvals, st.2.2 + 1)
    else pure st

/-- `bml_extract_submatrix_csr`, lines 29-62; `big0` is the test `|x| > 0`. -/
def extractSubmatrix (A : Csr R) (irow icol bN bM : Nat) (big0 : R → Bool) (jv : Nat → R)
    (ji : Nat → Nat) : Res (Csr R) :=
  loopFrom irow (irow + bN) (newZero bN bM) fun i B => do
    let r ← A.data.read i
    let (cols, vals, count) ← extractRow r icol bN jv ji
    B.setSparseRow (i - irow) count cols vals big0

/-- `bml_assign_submatrix_csr`, lines 71-97, for distinct `A`, `B`.  A column outside of `B` stops
at the `assert` (line 87). -/
def assignSubmatrix (A B : Csr R) (irow icol : Nat) : Res (Csr R) :=
  loop B.N A fun i A => do
    let b ← B.data.read i
    b.fold () fun c _ _ => if c < B.N then pure () else .error
    A.onRow (i + irow) fun r => b.fold r fun c v r => r.setNew (c + icol) v

/-! ## `bml_introspection_csr.c`, `bml_introspection_csr_typed.c` -/

/-- `bml_get_M_csr`, lines 76-97. -/
def getM (A : Csr R) : Res Nat :=
  loop A.N 0 fun i m => do
    let r ← A.data.read i
    pure (if r.alloc > m then r.alloc else m)

/-- `bml_get_row_bandwidth_csr`, lines 105-111. -/
def rowBandwidth (A : Csr R) (i : Nat) : Res Nat := do
  let r ← A.data.read i
  pure r.nnz

/-- The counter of `bml_get_sparsity_csr`, `bml_introspection_csr_typed.c` lines 33-44. -/
def countAbove (A : Csr R) (big : R → Bool) : Res Nat :=
  loop A.N 0 fun i n => do
    let r ← A.data.read i
    r.fold n fun _ v n => if big v then pure (n + 1) else pure n

/-- `bml_get_sparsity_csr`, lines 24-48. -/
def sparsity {K : Type} [Field K] (A : Csr R) (big : R → Bool) : Res K := do
  let nnzs ← A.countAbove big
  sparsityOf A.N nnzs

end Csr

end Bml
