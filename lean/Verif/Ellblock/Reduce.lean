import Verif.Sparsity
import Verif.Ellblock.Model

/-!
# The block-ELLPACK format: traces, sums, norms, circles

Sources under `src/C-interface/ellblock/`.  The sums are returned in the element type; the C code
takes the real part.  None of these loops is parallel.
-/

namespace Bml

namespace EllB

variable {R : Type}

/-- The loop nest over all elements of all stored blocks:
`for (ib) for (jp) { ind, jb, A_value = ptr_value[ind]; for (ii) for (jj) … A_value[ROWMAJOR(ii,jj)] … }` -/
def eachElem {σ : Type} (A : EllB R) (s : σ) (f : Nat → Nat → Nat → Nat → R → σ → Res σ) : Res σ :=
  loop A.NB s fun ib s =>
    A.eachIdx ib s fun ind jb s => do
      let b ← A.block ind
      let bi ← A.bsize.read ib
      let bj ← A.bsize.read jb
      loop2 bi bj s fun ii jj s => do
        let v ← b.read (ROWMAJOR ii jj bi bj)
        f ib jb ii jj v s

/-- `maxbsize = MAX(maxbsize, bsize[ib])` over all block rows (e.g. `bml_norm_ellblock_typed.c`
326-328, `bml_add_ellblock_typed.c` 68-70). -/
def maxBsize (A : EllB R) : Res Nat :=
  loop A.NB 0 fun ib m => do
    let b ← A.bsize.read ib
    pure (max m b)

/-- `bml_trace_ellblock` (`bml_trace_ellblock_typed.c` 27-58).  The `break` after the diagonal block
makes the inner loop a search. -/
def trace [Zero R] [Add R] (A : EllB R) : Res R :=
  loop A.NB 0 fun ib s => do
    let n ← A.nnzb.read ib
    match ← A.findBlk ib ib 0 n with
    | none => pure s
    | some ind => do
      let b ← A.block ind
      let bi ← A.bsize.read ib
      loop bi s fun ii s => do
        let v ← b.read (ROWMAJOR ii ii bi bi)
        pure (s + v)

/-- `bml_trace_mult_ellblock` (`bml_trace_ellblock_typed.c` 69-122). -/
def traceMult [Zero R] [Add R] [Mul R] (A B : EllB R) : Res R :=
  if A.NB ≠ B.NB ∨ A.MB ≠ B.MB then .error
  else
    loop A.NB 0 fun ib s =>
      A.eachIdx ib s fun indA jb s => do
        let a ← A.block indA
        B.eachIdx jb s fun indB kb s =>
          if kb = ib then do
            let b ← B.block indB
            let bi ← A.bsize.read ib
            let bj ← A.bsize.read jb
            loop2 bi bj s fun ii jj s => do
              let x ← a.read (ROWMAJOR ii jj bi bj)
              let y ← b.read (ROWMAJOR jj ii bj bi)
              pure (s + x * y)
          else pure s

/-- `bml_sum_squares_ellblock` (`bml_norm_ellblock_typed.c` 26-57). -/
def sumSquares [Zero R] [Add R] [Mul R] (A : EllB R) : Res R :=
  A.eachElem 0 fun _ _ _ _ v s => pure (s + v * v)

/-- The counter of `bml_get_sparsity_ellblock` (`bml_introspection_ellblock_typed.c` 26-57);
`big x` is `|x| > threshold`. -/
def sparsityCount (big : R → Bool) (A : EllB R) : Res Nat :=
  A.eachElem 0 fun _ _ _ _ v n => pure (if big v then n + 1 else n)

/-- `bml_get_sparsity_ellblock`, lines 26-61. -/
def sparsity {K : Type} [Field K] (big : R → Bool) (A : EllB R) : Res K := do
  let nnzs ← A.sparsityCount big
  sparsityOf A.N nnzs

/-- `bml_accumulate_offdiag_ellblock` (`bml_normalize_ellblock_typed.c` 48-87). -/
def accumulateOffdiag {K : Type} [Zero K] [Add K] (absv : R → K) (includeDiag : Bool)
    (A : EllB R) : Res (Arr K) := do
  let s ← loop A.NB ((⟨A.N, fun _ => 0⟩ : Arr K), 0) fun ib s => do
    let out ← A.eachIdx ib s.1 fun ind jb out => do
      let b ← A.block ind
      let bi ← A.bsize.read ib
      let bj ← A.bsize.read jb
      loop2 bi bj out fun ii jj out => do
        let v ← b.read (ROWMAJOR ii jj bi bj)
        if (ib ≠ jb ∨ ii ≠ jj) ∨ includeDiag = true then do
          let x ← out.read (s.2 + ii)
          out.write (s.2 + ii) (x + absv v)
        else pure out
    let bi ← A.bsize.read ib
    pure (out, s.2 + bi)
  pure s.1

/-- The loops of `bml_gershgorin_ellblock` that fill `dval` and `rad`
(`bml_normalize_ellblock_typed.c` 113-142). -/
def gershRows {K : Type} [Zero R] [Zero K] [Add K] (absv : R → K) (A : EllB R) :
    Res (Arr R × Arr K) := do
  let s ← loop A.NB (((⟨A.N, fun _ => 0⟩ : Arr R), (⟨A.N, fun _ => 0⟩ : Arr K)), 0) fun ib s => do
    let dr ← A.eachIdx ib s.1 fun ind jb dr => do
      let b ← A.block ind
      let bi ← A.bsize.read ib
      let bj ← A.bsize.read jb
      loop2 bi bj dr fun ii jj dr => do
        let v ← b.read (ROWMAJOR ii jj bi bj)
        if ib = jb ∧ ii = jj then do
          let d ← dr.1.write (s.2 + ii) v
          pure (d, dr.2)
        else do
          let x ← dr.2.read (s.2 + ii)
          let r ← dr.2.write (s.2 + ii) (x + absv v)
          pure (dr.1, r)
    let bi ← A.bsize.read ib
    pure (dr, s.2 + bi)
  pure s.1

/-- `bml_gershgorin_ellblock` (`bml_normalize_ellblock_typed.c` 98-170), on one rank; `top` and
`bot` are `DBL_MAX` and `DBL_MIN`. -/
def gershgorin {K : Type} [Zero R] [Field K] [LinearOrder K] (absv re : R → K) (top bot : K)
    (A : EllB R) : Res (K × K) := do
  let (d, r) ← A.gershRows absv
  loop A.N (top, bot) fun i st => do
    let x ← d.read i
    let y ← r.read i
    let emax := if re x + y > st.2 then re x + y else st.2
    let emin := if re x - y < st.1 then re x - y else st.1
    pure (emin, emax)

/-- `bml_sum_AB_ellblock` (`bml_norm_ellblock_typed.c`) 106-124: the blocks of row `ib` of `A` times
`α` go into the buffers `y`, and are marked in `ix`. -/
def sumABLoad [Mul R] (α : R) (A : EllB R) (ib : Nat) (y : Arr (Arr R)) :
    Res (Arr Nat × Arr (Arr R)) :=
  A.eachIdx ib ((⟨A.NB, fun _ => 0⟩ : Arr Nat), y) fun ind jb s => do
    let ix ← s.1.write jb 1
    let yv ← s.2.read jb
    let b ← A.block ind
    let bi ← A.bsize.read ib
    let bj ← A.bsize.read jb
    let yv ← loop2 bi bj yv fun ii jj yv => do
      let v ← b.read (ROWMAJOR ii jj bi bj)
      yv.write (ROWMAJOR ii jj bi bj) (α * v)
    let y ← s.2.write jb yv
    pure (ix, y)

/-- Lines 126-146: the marked buffers are multiplied with the blocks of row `ib` of `B`, their numbers
collected in `jjb`.  The addresses in `B` are computed with the width of `A`. -/
def sumABTimes [Mul R] (A B : EllB R) (ib : Nat) (ix : Arr Nat) (y : Arr (Arr R)) (jjb : Arr Nat) :
    Res (Arr (Arr R) × Arr Nat × Nat) := do
  let n ← B.nnzb.read ib
  loop n (y, jjb, 0) fun jp (s : Arr (Arr R) × Arr Nat × Nat) => do
    let jb ← B.indexb.read (ROWMAJOR ib jp A.NB A.MB)
    let t ← ix.read jb
    if t ≠ 0 then do
      let jjb ← s.2.1.write s.2.2 jb
      let yv ← s.1.read jb
      let b ← B.block (ROWMAJOR ib jp A.NB A.MB)
      let bi ← A.bsize.read ib
      let bj ← A.bsize.read jb
      let yv ← loop2 bi bj yv fun ii jj yv => do
        let v ← b.read (ROWMAJOR ii jj bi bj)
        let x ← yv.read (ROWMAJOR ii jj bi bj)
        yv.write (ROWMAJOR ii jj bi bj) (x * v)
      let y ← s.1.write jb yv
      pure (y, jjb, s.2.2 + 1)
    else pure s

/-- The sum over one buffer: `bml_sum_AB` and `bml_sum_squares` (`bml_utilities_ellblock_typed.c`
295-329); `f x` is `|x|` for the one, `|x| * |x|` for the other. -/
def bufSum {K : Type} [Zero K] [Add K] (f : R → K) (bi bj : Nat) (yv : Arr R) : Res K :=
  loop2 bi bj 0 fun ii jj n2 => do
    let x ← yv.read (ROWMAJOR ii jj bi bj)
    pure (n2 + f x)

/-- Lines 148-155: `above x` is `x > threshold * threshold`. -/
def sumABFlush {K : Type} [Zero K] [Add K] (f : R → K) (above : K → Bool) (A : EllB R) (ib : Nat)
    (y : Arr (Arr R)) (jjb : Arr Nat) (lb : Nat) (sum : K) : Res K :=
  loop lb sum fun jp sum => do
    let jb ← jjb.read jp
    let yv ← y.read jb
    let bi ← A.bsize.read ib
    let bj ← A.bsize.read jb
    let normx ← bufSum f bi bj yv
    pure (if above normx then sum + normx else sum)

/-- One block row of `bml_sum_AB_ellblock`, lines 104-156; `st.1` are the `NB` buffers, `st.2.1` is
`jjb`. -/
def sumABRow {K : Type} [Zero K] [Add K] [Mul R] (absv : R → K) (above : K → Bool) (α : R)
    (A B : EllB R) (ib : Nat) (st : Arr (Arr R) × Arr Nat × K) : Res (Arr (Arr R) × Arr Nat × K) := do
  let l ← sumABLoad α A ib st.1
  let t ← sumABTimes A B ib l.1 l.2 st.2.1
  let sum ← sumABFlush absv above A ib t.1 t.2.1 t.2.2 st.2.2
  pure (t.1, t.2.1, sum)

/-- `bml_sum_AB_ellblock` (`bml_norm_ellblock_typed.c` 70-161).  `int jjb[MB]` is cleared with
`memset(jjb, 0, NB * sizeof(int))`: undefined if `NB > MB`. -/
def sumAB {K : Type} [Zero K] [Add K] [Zero R] [Mul R] (absv : R → K) (above : K → Bool) (α : R)
    (A B : EllB R) : Res K := do
  let mb ← A.maxBsize
  if A.NB > A.MB then .ub
  else do
    let st ← loop A.NB ((⟨A.NB, fun _ => ⟨mb * mb, fun _ => 0⟩⟩ : Arr (Arr R)),
      (⟨A.MB, fun _ => 0⟩ : Arr Nat), (0 : K)) fun ib st => sumABRow absv above α A B ib st
    pure st.2.2

/-- `rvalue` of `bml_fnorm2_ellblock`: not set, NULL, or a pointer to a block. -/
inductive RPtr (R : Type) where
  | unset
  | null
  | to (b : Arr R)

/-- The search of `bml_fnorm2_ellblock` 337-346 and 361-370: `X` is the matrix searched, `miss` what
`rvalue` is set to at every miss, `cur` its value before. -/
def fnSearch (A X : EllB R) (ib c : Nat) (miss : RPtr R) : Nat → Nat → RPtr R → Res (RPtr R)
  | _, 0, cur => .ok cur
  | kp, fuel + 1, _ => do
    let k ← X.indexb.read (ROWMAJOR ib kp A.NB A.MB)
    if c = k then do
      let b ← X.block (ROWMAJOR ib kp A.NB A.MB)
      pure (.to b)
    else fnSearch A X ib c miss (kp + 1) fuel miss

/-- `bml_fnorm2_ellblock` 333-358: the blocks of row `ib` of `A` against those of `B`; `n` and `m` are
the numbers of blocks.  Simplification: the content of the block found is read at the search, which is
the same since nothing is written. -/
def fnLoopA [Zero R] [Add R] [Sub R] [Mul R] (mb : Nat) (A B : EllB R) (ib n m : Nat)
    (st : RPtr R × R) : Res (RPtr R × R) :=
  loop n st fun jp (st : RPtr R × R) => do
    let jb ← A.indexb.read (ROWMAJOR ib jp A.NB A.MB)
    let rv ← fnSearch A B ib jb (.to ⟨mb * mb, fun _ => 0⟩) 0 m st.1
    let a ← A.block (ROWMAJOR ib jp A.NB A.MB)
    let bi ← A.bsize.read ib
    let bj ← A.bsize.read jb
    let s ← loop2 bi bj st.2 fun ii jj s => do
      let x ← a.read (ROWMAJOR ii jj bi bj)
      match rv with
      | .to r => do
        let y ← r.read (ROWMAJOR ii jj bi bj)
        pure (s + (x - y) * (x - y))
      | _ => .ub
    pure (rv, s)

/-- `bml_fnorm2_ellblock` 360-387: the blocks of row `ib` of `B` that `A` does not have; the block
column is taken from `A_indexb` at `B`'s position. -/
def fnLoopB [Zero R] [Add R] [Mul R] (A B : EllB R) (ib n m : Nat)
    (st : RPtr R × R) : Res (RPtr R × R) :=
  loop m st fun jp (st : RPtr R × R) => do
    let c ← B.indexb.read (ROWMAJOR ib jp A.NB A.MB)
    let rv ← fnSearch A A ib c .null 0 n st.1
    match rv with
    | .unset => .ub
    | .to _ => pure (rv, st.2)
    | .null => do
      let jb ← A.indexb.read (ROWMAJOR ib jp A.NB A.MB)
      let b ← B.block (ROWMAJOR ib jp A.NB A.MB)
      let bi ← A.bsize.read ib
      let bj ← A.bsize.read jb
      let s ← loop2 bi bj st.2 fun ii jj s => do
        let x ← b.read (ROWMAJOR ii jj bi bj)
        pure (s + x * x)
      pure (rv, s)

/-- `bml_fnorm2_ellblock` (`bml_norm_ellblock_typed.c` 305-400): the sum under the square root.
`rvalue` is not initialised and keeps its value where the searched block row is empty. -/
def fnorm2Sq [Zero R] [Add R] [Sub R] [Mul R] (A B : EllB R) : Res R := do
  let mb ← A.maxBsize
  let st ← loop A.NB ((.unset : RPtr R), (0 : R)) fun ib st => do
    let n ← A.nnzb.read ib
    let m ← B.nnzb.read ib
    let st ← fnLoopA mb A B ib n m st
    fnLoopB A B ib n m st
  pure st.2

end EllB

end Bml
