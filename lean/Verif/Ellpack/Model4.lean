import Verif.Ellpack.Model3

/-!
# Model of the ELLPACK format (4): transpose, adjungate, Gershgorin, normalize, submatrices
-/

namespace Bml

/-- `while (cond(s)) s = body(s);` with at most `fuel` iterations.  A loop that wants to go on
when the fuel is used up has the outcome `ub`; the theorems show that this never happens, which
is the termination claim. -/
def whileLoop {σ : Type} (cond : σ → Bool) (body : σ → Res σ) : Nat → σ → Res σ
  | 0, s => if cond s then .ub else .ok s
  | fuel + 1, s => if cond s then body s >>= whileLoop cond body fuel else .ok s

namespace Ell

variable {R : Type} [Zero R] [One R] [Add R] [Mul R] [Neg R] [Sub R]

/-! ## `bml_transpose_ellpack_typed.c` -/

/-- Lines 84-98: the work done under the lock of row `trow` for slot `j` of row `i`. -/
def transposeStep (A : Ell R) (ij : Nat × Nat) (B : Ell R) : Res (Ell R) := do
  let trow ← A.idx.read (ROWMAJOR ij.1 ij.2 A.N A.M)
  let colcnt ← B.nnz.read trow
  let v ← A.val.read (ROWMAJOR ij.1 ij.2 A.N A.M)
  let B ← B.putEntry trow colcnt ij.1 v
  B.setNnz trow (colcnt + 1)

/-- All slots `(i, j)`, `i < N`, `j < A_nnz[i]`, in program order. -/
def slots (A : Ell R) : List (Nat × Nat) :=
  (List.range A.N).flatMap (fun i => (List.range (A.nnz.get i)).map (fun j => (i, j)))

/-- `bml_transpose_new_ellpack`, lines 35-130.  The append for one slot is atomic (it is done
under the lock of the target row); `sc` is the order in which the appends happen.  The order is
any permutation of the slots, which includes every interleaving of the threads. -/
def transposeNew (A : Ell R) (sc : List (Nat × Nat)) (jv : Nat → R) (ji : Nat → Nat) :
    Res (Ell R) :=
  forList sc (noinit A.N A.M jv ji) fun ij B => transposeStep A ij B

/-- `ellpack_swap_row_entries`, lines 139-163. -/
def swapEntries (A : Ell R) (row ipos jpos : Nat) : Res (Ell R) :=
  if ipos = jpos then pure A else do
    let v ← A.val.read (ROWMAJOR row ipos A.N A.M)
    let k ← A.idx.read (ROWMAJOR row ipos A.N A.M)
    let v' ← A.val.read (ROWMAJOR row jpos A.N A.M)
    let val ← A.val.write (ROWMAJOR row ipos A.N A.M) v'
    let val ← val.write (ROWMAJOR row jpos A.N A.M) v
    let k' ← A.idx.read (ROWMAJOR row jpos A.N A.M)
    let idx ← A.idx.write (ROWMAJOR row ipos A.N A.M) k'
    let idx ← idx.write (ROWMAJOR row jpos A.N A.M) k
    pure { A with val := val, idx := idx }

/-- State of the in-place transposition: the matrix, `nz_t` and `ipos + 1` of the current row. -/
structure TrSt (R : Type) where
  A : Ell R
  nzt : Arr Nat
  pos1 : Nat

/-- Lines 209-232: search slot `jpos ≥ p` of row `j` that holds column `i`. -/
def findSym (A : Ell R) (i j : Nat) : Nat → Nat → Res (Option Nat)
  | _, 0 => .ok none
  | p, fuel + 1 => do
    let k ← A.idx.read (ROWMAJOR j p A.N A.M)
    if k = i then pure (some p) else findSym A i j (p + 1) fuel

/-- Lines 201-269: one iteration of the `while` loop for row `i`, `ellpack_transpose_left_looking`. -/
def leftStep (i : Nat) (s : TrSt R) : Res (TrSt R) := do
  let ipos := s.pos1 - 1
  let A := s.A
  let j ← A.idx.read (ROWMAJOR i ipos A.N A.M)
  if j > i then do
    let jnnz ← A.nnz.read j
    let jstart ← s.nzt.read j
    match ← findSym A i j jstart (jnnz - jstart) with
    | some jpos => do
      let tmp ← A.val.read (ROWMAJOR i ipos A.N A.M)
      let w ← A.val.read (ROWMAJOR j jpos A.N A.M)
      let val ← A.val.write (ROWMAJOR i ipos A.N A.M) w
      let val ← val.write (ROWMAJOR j jpos A.N A.M) tmp
      let A := { A with val := val }
      let ni ← s.nzt.read i
      let A ← swapEntries A i ipos ni
      let nj ← s.nzt.read j
      let A ← swapEntries A j jpos nj
      let nzt ← s.nzt.write i (ni + 1)
      let nj ← nzt.read j
      let nzt ← nzt.write j (nj + 1)
      pure ⟨A, nzt, s.pos1⟩
    | none => do
      let v ← A.val.read (ROWMAJOR i ipos A.N A.M)
      let n ← A.nnz.read j
      let A ← A.putEntry j n i v
      let A ← A.setNnz j (n + 1)
      let nj ← s.nzt.read j
      let A ← swapEntries A j n nj
      let nzt ← s.nzt.write j (nj + 1)
      let m ← A.nnz.read i
      let A ← A.setNnz i (m - 1)
      pure ⟨A, nzt, s.pos1 - 1⟩
  else if j < i then do
    let v ← A.val.read (ROWMAJOR i ipos A.N A.M)
    let n ← A.nnz.read j
    let A ← A.putEntry j n i v
    let A ← A.setNnz j (n + 1)
    let nj ← s.nzt.read j
    let nzt ← s.nzt.write j (nj + 1)
    let m ← A.nnz.read i
    let A ← A.setNnz i (m - 1)
    pure ⟨A, nzt, s.pos1 - 1⟩
  else do
    let ni ← s.nzt.read i
    let A ← swapEntries A i ipos ni
    let nzt ← s.nzt.write i (ni + 1)
    pure ⟨A, nzt, s.pos1⟩

/-- Lines 196-271: row `i` of `ellpack_transpose_left_looking`.  `ipos >= nz_t[i]` is
`nz_t[i] < pos1`.  The fuel is the initial number of entries of the row. -/
def leftRow (i : Nat) (st : Ell R × Arr Nat) : Res (Ell R × Arr Nat) := do
  let innz ← st.1.nnz.read i
  let s ← whileLoop (fun s => decide (s.nzt.get i < s.pos1)) (leftStep i) innz ⟨st.1, st.2, innz⟩
  pure (s.A, s.nzt)

/-- `bml_transpose_ellpack`, lines 406-416, which calls `ellpack_transpose_left_looking`,
lines 172-284. -/
def transposeInPlace (A : Ell R) : Res (Ell R) := do
  let (A, _) ← loop A.N (A, (⟨A.N, fun _ => 0⟩ : Arr Nat)) fun i st => leftRow i st
  pure A

/-! ## `bml_adjungate_triangle_ellpack_typed.c` -/

/-- Where the thread of a row stands: not started, or at slot `j` of the `l` slots it saw. -/
inductive AdjPc where
  | idle
  | at (j l : Nat)
  deriving DecidableEq, Repr

/-- Lines 59-84 (`'u'`: `sel i ll = (ll > 0 && ll > i)`) and 102-127
(`'l'`: `sel i ll = (ll >= 0 && ll < i)`): the next atomic step of the iteration for row `i`:
either read `l = A_nnz[i]`, or handle one slot.  The array `lock` has `A_M` elements and is
indexed with the column `ll`. -/
def adjStep (conj : R → R) (sel : Nat → Nat → Bool) (i : Nat) (st : Ell R × (Nat → AdjPc)) :
    Res (Ell R × (Nat → AdjPc)) :=
  let A := st.1
  match st.2 i with
  | .idle => do
    let l ← A.nnz.read i
    pure (A, upd st.2 i (.at 0 l))
  | .at j l =>
    if j < l then do
      let ll ← A.idx.read (ROWMAJOR i j A.N A.M)
      if sel i ll then
        if ll < A.M then do
          let n ← A.nnz.read ll
          let v ← A.val.read (ROWMAJOR i j A.N A.M)
          let A ← A.putEntry ll n i (conj v)
          let A ← A.setNnz ll (n + 1)
          pure (A, upd st.2 i (.at (j + 1) l))
        else .ub
      else pure (A, upd st.2 i (.at (j + 1) l))
    else pure st

/-- `bml_adjungate_triangle_ellpack`, lines 28-142, OpenMP build.  `sc` lists, step by step, the
row whose thread moves next; returns the matrix and the program counters. -/
def adjungate (conj : R → R) (A : Ell R) (triangle : Char) (sc : List Nat) :
    Res (Ell R × (Nat → AdjPc)) :=
  if triangle = 'u' then
    forList sc (A, fun _ => .idle) (adjStep conj (fun i ll => decide (ll > 0) && decide (ll > i)))
  else if triangle = 'l' then
    forList sc (A, fun _ => .idle) (adjStep conj (fun i ll => decide (ll < i)))
  else .error

/-- The iteration of every row has come to its end. -/
def AdjDone (N : Nat) (pc : Nat → AdjPc) : Prop := ∀ i, i < N → ∃ j l, pc i = .at j l ∧ l ≤ j

/-! ## `bml_normalize_ellpack_typed.c` -/

section Gersh

variable {K : Type} [Field K] [LinearOrder K]

/-- Lines 124-146: `dvalue` and `radius` of row `i`. -/
def gershRow (A : Ell R) (absv : R → K) (i : Nat) : Res (R × K) := do
  let n ← A.nnz.read i
  loop n ((0 : R), (0 : K)) fun j st => do
    let k ← A.idx.read (ROWMAJOR i j A.N A.M)
    let v ← A.val.read (ROWMAJOR i j A.N A.M)
    if i = k then pure (v, st.2) else pure (st.1, st.2 + absv v)

/-- `bml_gershgorin_ellpack`, lines 82-175, on one rank with rows `lo..hi`; `top` and `bot` are
`DBL_MAX` and `DBL_MIN`.  The first (parallel) loop only fills `dval` and `rad`; it is fused with
the second one, which is sequential. -/
def gershgorin (A : Ell R) (absv re : R → K) (top bot : K) (lo hi : Nat) : Res (K × K) :=
  loopFrom lo hi (top, bot) fun i st => do
    let dr ← gershRow A (fun v => absv v) i
    let emax := if re dr.1 + dr.2 > st.2 then re dr.1 + dr.2 else st.2
    let emin := if re dr.1 - dr.2 < st.1 then re dr.1 - dr.2 else st.1
    pure (emin, emax)

/-- `bml_gershgorin_partial_ellpack`, lines 186-253. -/
def gershgorinPartial (A : Ell R) (absv re : R → K) (top bot : K) (nrows : Nat) : Res (K × K) :=
  gershgorin A absv re top bot 0 nrows

/-- `bml_accumulate_offdiag_ellpack`, lines 47-72. -/
def accumulateOffdiag (A : Ell R) (absv : R → K) (includeDiag : Bool) : Res (Arr K) :=
  loop A.N ⟨A.N, fun _ => 0⟩ fun i out => do
    let n ← A.nnz.read i
    let radius ← loop n (0 : K) fun j r => do
      let k ← A.idx.read (ROWMAJOR i j A.N A.M)
      if i ≠ k ∨ includeDiag = true then do
        let v ← A.val.read (ROWMAJOR i j A.N A.M)
        pure (r + absv v)
      else pure r
    out.write i radius

/-- `bml_normalize_ellpack`, lines 32-45.  `is_above_threshold(x, 0.0)` is `x ≠ 0`. -/
def normalize (A : Ell K) (mineval maxeval : K) (lo hi : Nat) (sc : Sched) : Res (Ell K) := do
  let maxminusmin := maxeval - mineval
  let gershfact := maxeval / maxminusmin
  let scalar := -1 / maxminusmin
  let A ← scaleInplace scalar A lo hi
  addIdentity A gershfact (fun x => decide (x ≠ 0)) sc

end Gersh

/-! ## `bml_submatrix_ellpack_typed.c` -/

/-- State of the index search: `ix`, `core_halo_index`, `l`. -/
structure HaloSt where
  ix : Arr Nat
  out : Arr Nat
  l : Nat

/-- Lines 71-77, 86-92, 102-108, 124-130: take index `k` if it is new. -/
def haloAdd (ii k : Nat) (s : HaloSt) : Res HaloSt := do
  let t ← s.ix.read k
  if t = 0 then do
    let ix ← s.ix.write k (ii + 1)
    let out ← s.out.write s.l k
    pure ⟨ix, out, s.l + 1⟩
  else pure s

/-- Lines 84-93, 100-109, 122-131: take the new columns of row `ii` of `B`. -/
def haloRow (B : Ell R) (ii : Nat) (s : HaloSt) : Res HaloSt := do
  let n ← B.nnz.read ii
  loop n s fun jp s => do
    let k ← B.idx.read (ROWMAJOR ii jp B.N B.M)
    haloAdd ii k s

/-- Lines 116-133: the double jump over the first `ls` indices found. -/
def doubleJump (B : Ell R) (s : HaloSt) : Res HaloSt :=
  loop s.l s fun j s => do
    let ii ← s.out.read j
    haloRow B ii s

/-- `bml_matrix2submatrix_index_graph_ellpack`, lines 155-233.  `out` is the caller's array.
Returns the array and `vsize`. -/
def indexGraph (B : Ell R) (nodelist : Arr Nat) (nsize : Nat) (out : Arr Nat) (dj : Bool) :
    Res (Arr Nat × Nat × Nat) := do
  let s ← loop nsize (⟨⟨B.N, fun _ => 0⟩, out, 0⟩ : HaloSt) fun j s => do
    let ii ← nodelist.read j
    haloAdd ii ii s
  let ll := s.l
  let s ← loop nsize s fun j s => do
    let ii ← nodelist.read j
    haloRow B ii s
  let s ← (if dj then doubleJump B s else pure s)
  pure (s.out, s.l, ll)

/-- `bml_matrix2submatrix_index_ellpack`, lines 38-142. -/
def indexMatrix (A B : Ell R) (nodelist : Arr Nat) (nsize : Nat) (out : Arr Nat) (dj : Bool) :
    Res (Arr Nat × Nat × Nat) := do
  let s ← loop nsize (⟨⟨A.N, fun _ => 0⟩, out, 0⟩ : HaloSt) fun j s => do
    let ii ← nodelist.read j
    haloAdd ii ii s
  let ll := s.l
  let s ← loop nsize s fun j s => do
    let ii ← nodelist.read j
    haloRow B ii s
  let s ← loop nsize s fun j s => do
    let ii ← nodelist.read j
    haloRow A ii s
  let s ← (if dj then doubleJump B s else pure s)
  pure (s.out, s.l, ll)

/-- `bml_matrix2submatrix_ellpack`, lines 244-294: `D` is the `BN × BN` array of the dense
target, `junk jb` the uninitialised memory that `bml_getVector_ellpack` gets in iteration `jb`. -/
def matrix2submatrix (A : Ell R) (D : Arr R) (BN : Nat) (chi : Arr Nat) (lsize : Nat) (sc : Sched)
    (junk : Nat → Nat → R) : Res (Arr R) :=
  forList sc D fun ti D => do
    let irow ← chi.read ti.2
    let rv ← getVector A chi 0 irow lsize (junk ti.2)
    loop lsize D fun j D => do
      let v ← rv.read j
      D.write (ROWMAJOR ti.2 j BN BN) v

/-- Lines 347-371: row `ja` of `bml_submatrix2matrix_ellpack`. -/
def sub2matRow (D : Arr R) (AN : Nat) (chi : Arr Nat) (lsize : Nat) (big : R → Bool) (ja : Nat)
    (B : Ell R) : Res (Ell R) := do
  let ii ← chi.read ja
  let (B, icol) ← loop lsize (B, 0) fun jb (st : Ell R × Nat) => do
    let v ← D.read (ROWMAJOR ja jb AN AN)
    if big v then do
      let c ← chi.read jb
      let B ← st.1.putEntry ii st.2 c v
      pure (B, st.2 + 1)
    else pure st
  if icol > B.M then .error
  else B.setNnz ii icol

/-- `bml_submatrix2matrix_ellpack`, lines 306-374. -/
def submatrix2matrix (D : Arr R) (AN : Nat) (B : Ell R) (chi : Arr Nat) (lsize : Nat)
    (big : R → Bool) (sc : Sched) : Res (Ell R) :=
  forList sc B fun ti B => sub2matRow D AN chi lsize big ti.2 B

/-- Lines 580-598: row `i = irow + iB` of `bml_extract_submatrix_ellpack`. -/
def extractRow (A : Ell R) (irow icol BN iB : Nat) (B : Ell R) : Res (Ell R) := do
  let n ← A.nnz.read (irow + iB)
  loop n B fun jp B => do
    let j ← A.idx.read (ROWMAJOR (irow + iB) jp A.N A.M)
    if icol ≤ j ∧ j < icol + BN then do
      let p ← B.nnz.read iB
      let v ← A.val.read (ROWMAJOR (irow + iB) jp A.N A.M)
      let B ← B.putEntry iB p (j - icol) v
      B.setNnz iB (p + 1)
    else pure B

/-- `bml_extract_submatrix_ellpack`, lines 564-600. -/
def extractSubmatrix (A : Ell R) (irow icol BN BM : Nat) : Res (Ell R) := do
  let B ← newZero BN BM
  loop BN B fun iB B => extractRow A irow icol BN iB B

/-- `bml_assign_submatrix_ellpack`, lines 609-641. -/
def assignSubmatrix (A B : Ell R) (irow icol : Nat) : Res (Ell R) :=
  loop B.N A fun i A => do
    let n ← B.nnz.read i
    loop n A fun jp A => do
      let jB ← B.idx.read (ROWMAJOR i jp B.N B.M)
      let jpA ← A.nnz.read (i + irow)
      let v ← B.val.read (ROWMAJOR i jp B.N B.M)
      let A ← A.putEntry (i + irow) jpA (jB + icol) v
      A.setNnz (i + irow) (jpA + 1)

/-- Lines 452-466: the group number of every node.  `hindex` holds 1-based first nodes; `jh` is the
content of the uninitialised array `hnode`. -/
def groupNodes (AN : Nat) (hindex : Arr Nat) (ngroups : Nat) (jh : Nat → Nat) : Res (Arr Nat) :=
  loop ngroups ⟨AN, jh⟩ fun i hnode => do
    let hend ← (if i + 1 = ngroups then pure AN else do
      let h ← hindex.read (i + 1)
      pure (h - 1))
    let h ← hindex.read i
    loopFrom (h - 1) hend hnode fun j hnode => hnode.write j i

/-- Lines 519-540: is there an entry above the threshold in row `kk` whose column lies in group
`i`? -/
def groupSym (A : Ell R) (hnode : Arr Nat) (big : R → Bool) (i kk : Nat) : Nat → Nat → Res Bool
  | _, 0 => .ok false
  | l, fuel + 1 => do
    let c ← A.idx.read (ROWMAJOR kk l A.N A.M)
    let jj ← hnode.read c
    if jj = i then do
      let v ← A.val.read (ROWMAJOR kk l A.N A.M)
      if big v then pure true else groupSym A hnode big i kk (l + 1) fuel
    else groupSym A hnode big i kk (l + 1) fuel

/-- Lines 490-545: row `i` of `bml_group_matrix_ellpack`.  `ix` belongs to the thread
(`firstprivate`) and is not reset between rows. -/
def groupRow (A : Ell R) (hindex : Arr Nat) (hnode : Arr Nat) (big : R → Bool) (i : Nat)
    (B : Ell R) (ix : Arr Nat) : Res (Ell R × Arr Nat) := do
  let ix ← ix.write i (i + 1)
  let B ← B.putEntry i 0 i 1
  let B ← B.setNnz i 1
  let hend ← (if i + 1 = B.N then pure A.N else do
    let h ← hindex.read (i + 1)
    pure (h - 1))
  let h ← hindex.read i
  loopFrom (h - 1) hend (B, ix) fun j st => do
    let n ← A.nnz.read j
    loop n st fun k (st : Ell R × Arr Nat) => do
      let kk ← A.idx.read (ROWMAJOR j k A.N A.M)
      let ii ← hnode.read kk
      let t ← st.2.read ii
      if t = 0 ∧ ii ≠ i then do
        let v ← A.val.read (ROWMAJOR j k A.N A.M)
        let add ← (if big v then pure true else do
          let m ← A.nnz.read kk
          groupSym A hnode big i kk 0 m)
        if add then do
          let ix ← st.2.write ii (i + 1)
          let p ← st.1.nnz.read i
          let B ← st.1.putEntry i p ii 1
          let B ← B.setNnz i (p + 1)
          pure (B, ix)
        else pure st
      else pure st

/-- `bml_group_matrix_ellpack`, lines 417-552 (the branch for compilers other than IBM's).
`sc` assigns the rows to threads; each thread has its own copy of `ix`, zero at the start.  The
first parallel loop writes disjoint cells of `hnode` and is modelled in program order. -/
def groupMatrix (A : Ell R) (hindex : Arr Nat) (ngroups : Nat) (big : R → Bool) (sc : Sched)
    (jv : Nat → R) (ji jh : Nat → Nat) : Res (Ell R) := do
  let hnode ← groupNodes A.N hindex ngroups jh
  let (B, _) ← forList sc (noinit ngroups ngroups jv ji, fun _ => (⟨ngroups, fun _ => 0⟩ : Arr Nat))
    fun ti (st : Ell R × (Nat → Arr Nat)) => do
      let (B, ix) ← groupRow A hindex hnode big ti.2 st.1 (st.2 ti.1)
      pure (B, upd st.2 ti.1 ix)
  pure B

end Ell

end Bml
