import Verif.Basic

/-!
# Model of the domain decomposition and of the process grid

`src/C-interface/bml_allocate.c`, `ellpack/bml_allocate_ellpack.c`, `dense/bml_allocate_dense.c`,
`bml_utilities.c`, `distributed2d/bml_allocate_distributed2d.c`.
-/

namespace Bml

/-- The largest value of a C `int`. -/
def INT_MAX : Nat := 2147483647

/-- Products and sums of non-negative numbers. -/
structure Arith where
  mul : Nat → Nat → Res Nat
  add : Nat → Nat → Res Nat

/-- Arithmetic of C `int`s: overflow is undefined. -/
def intArith : Arith where
  mul a b := if a * b ≤ INT_MAX then .ok (a * b) else .ub
  add a b := if a + b ≤ INT_MAX then .ok (a + b) else .ub

/-- `bml_domain_t`, `src/C-interface/bml_types.h`, without the ranks of the global domain.
The functions are written for any arithmetic of the products `rows * columns` and their sums; the code
is the instance `intArith`.  The numbers of rows themselves are arguments of type `int` and cannot
overflow. -/
structure Domain where
  totalProcs : Nat
  totalRows : Nat
  totalCols : Nat
  globalRowMin : Nat
  globalRowMax : Nat
  rowMin : Arr Nat
  rowMax : Arr Nat
  extent : Arr Nat
  elements : Arr Nat
  displ : Arr Nat
  minExtent : Nat
  maxExtent : Nat

/-- `bml_distribution_mode_t`, `src/C-interface/bml_types.h`. -/
inductive DistMode where
  | sequential
  | distributed
  | graphDistributed
  deriving DecidableEq, Repr

namespace Domain

/-- The allocations, lines 610-625.  `junk` is the content of the fresh arrays. -/
def alloc (N M p : Nat) (junk : Nat → Nat) : Domain where
  totalProcs := p
  totalRows := N
  totalCols := M
  globalRowMin := 0
  globalRowMax := N
  rowMin := ⟨p, junk⟩
  rowMax := ⟨p, junk⟩
  extent := ⟨p, junk⟩
  elements := ⟨p, junk⟩
  displ := ⟨p, junk⟩
  minExtent := junk 0
  maxExtent := junk 1

/-- Lines 627-644, case `sequential`. -/
def sequentialRank (ar : Arith) (i : Nat) (d : Domain) : Res Domain := do
  let rowMin ← d.rowMin.write i d.globalRowMin
  let rowMax ← d.rowMax.write i d.globalRowMax
  let hi ← rowMax.read i
  let lo ← rowMin.read i
  let extent ← d.extent.write i (hi - lo)
  let e ← extent.read i
  let k ← ar.mul e d.totalCols
  let elements ← d.elements.write i k
  let displ ← d.displ.write i 0
  pure { d with rowMin := rowMin, rowMax := rowMax, extent := extent, elements := elements,
                displ := displ }

/-- Lines 669-674 and 677-683: the rows of rank `i > 0`. -/
def nextRank (i : Nat) (d : Domain) : Res Domain := do
  let hi ← d.rowMax.read (i - 1)
  let rowMin ← d.rowMin.write i hi
  let lo ← rowMin.read i
  let e ← d.extent.read i
  let rowMax ← d.rowMax.write i (lo + e)
  pure { d with rowMin := rowMin, rowMax := rowMax }

/-- Lines 686-695: number of elements and displacement of rank `i`. -/
def elemRank (ar : Arith) (i : Nat) (d : Domain) : Res Domain := do
  let e ← d.extent.read i
  let k ← ar.mul e d.totalCols
  let elements ← d.elements.write i k
  let disp ← (if i = 0 then pure 0 else do
    let a ← d.displ.read (i - 1)
    let b ← elements.read (i - 1)
    ar.add a b)
  let displ ← d.displ.write i disp
  pure { d with elements := elements, displ := displ }

/-- Lines 646-697, case `distributed`.  `ceilDiv` is `ceil((float) N / (float) nRanks)`, which is
computed in single precision and not used any further in this function. -/
def distribute (ar : Arith) (d : Domain) (N p : Nat) (ceilDiv : Nat) : Res Domain := do
  let avg := N / p
  let d := { d with maxExtent := ceilDiv, minExtent := avg }
  let extent ← loop p d.extent fun i e => e.write i avg
  let nleft := N - p * avg
  let extent ← loop nleft extent fun i e => do
    let x ← e.read i
    e.write i (x + 1)
  let rowMin ← d.rowMin.write 0 d.globalRowMin
  let e0 ← extent.read 0
  let rowMax ← d.rowMax.write 0 e0
  let d := { d with extent := extent, rowMin := rowMin, rowMax := rowMax }
  let d ← loopFrom 1 (p - 1) d nextRank
  let d ← (if p > 1 then nextRank (p - 1) d else pure d)
  loop p d (elemRank ar)

/-- `bml_default_domain`, lines 600-707, for `p` ranks.  `p = 0` would divide by zero. -/
def defaultWith (ar : Arith) (N M p : Nat) (mode : DistMode) (junk : Nat → Nat) (ceilDiv : Nat) : Res Domain :=
  match mode with
  | .sequential => loop p (alloc N M p junk) (sequentialRank ar)
  | .distributed => if p = 0 then .ub else distribute ar (alloc N M p junk) N p ceilDiv
  | .graphDistributed => .error

/-- `bml_default_domain`. -/
def default (N M p : Nat) (mode : DistMode) (junk : Nat → Nat) (ceilDiv : Nat) : Res Domain :=
  defaultWith intArith N M p mode junk ceilDiv

/-- `bml_update_domain_ellpack`, lines 333-343: the nodes of the parts of rank `i`, which are
numbered from one. -/
def partSumEllpack (pmin pmax nn : Arr Nat) (i : Nat) : Res Nat := do
  let a ← pmin.read i
  let b ← pmax.read i
  if a = 0 ∧ 0 < b then .ub
  else loopFrom (a - 1) b 0 fun j r => do
    let x ← nn.read j
    pure (r + x)

/-- `bml_update_domain_dense`, lines 343-347. -/
def partSumDense (pmin pmax nn : Arr Nat) (i : Nat) : Res Nat := do
  let a ← pmin.read i
  let b ← pmax.read i
  loopFrom a (b + 1) 0 fun j r => do
    if j = 0 then .ub else do
      let x ← nn.read (j - 1)
      pure (r + x)

/-- One rank of the update: ellpack lines 345-362, dense lines 349-366. -/
def updateRank (ar : Arith) (partSum : Nat → Res Nat) (i : Nat) (d : Domain) : Res Domain := do
  let rtotal ← partSum i
  let lo ← (if i = 0 then pure d.globalRowMin else d.rowMax.read (i - 1))
  let rowMin ← d.rowMin.write i lo
  let rowMax ← d.rowMax.write i (lo + rtotal)
  let extent ← d.extent.write i (lo + rtotal - lo)
  let e ← extent.read i
  let k ← ar.mul e d.totalCols
  let elements ← d.elements.write i k
  let disp ← (if i = 0 then pure 0 else do
    let a ← d.displ.read (i - 1)
    let b ← elements.read (i - 1)
    ar.add a b)
  let displ ← d.displ.write i disp
  pure { d with rowMin := rowMin, rowMax := rowMax, extent := extent, elements := elements,
                displ := displ }

/-- `bml_update_domain_ellpack` 322-387 / `bml_update_domain_dense` 332-378. -/
def updateWith (ar : Arith) (partSum : Nat → Res Nat) (p : Nat) (d : Domain) : Res Domain := do
  let d ← loop p d (updateRank ar partSum)
  let e0 ← d.extent.read 0
  let (mn, mx) ← loopFrom 1 p (e0, e0) fun i st => do
    let e ← d.extent.read i
    pure (if e < st.1 then e else st.1, if e > st.2 then e else st.2)
  pure { d with minExtent := mn, maxExtent := mx }

/-- `bml_update_domain`. -/
def update (partSum : Nat → Res Nat) (p : Nat) (d : Domain) : Res Domain :=
  updateWith intArith partSum p d

end Domain

/-! ## The process grid -/

/-- `while (result < x) { i++; result = i * i; }`, `bml_utilities.c` lines 565-572.  An overflow
of `i * i` is undefined behaviour.  The fuel is an upper bound of the number of iterations: running
out of it is `ub` as well. -/
def sqrtLoop (x : Int) : Nat → Nat → Nat → Res Nat
  | 0, _, _ => .ub
  | fuel + 1, i, result =>
    if (result : Int) < x then
      if (i + 1) * (i + 1) ≤ INT_MAX then sqrtLoop x fuel (i + 1) ((i + 1) * (i + 1)) else .ub
    else .ok i

/-- `bml_sqrtint`, `bml_utilities.c` lines 561-573. -/
def sqrtint (x : Int) : Res Nat := sqrtLoop x 46342 1 1

/-- `bml_setcomm_distributed2d`, `distributed2d/bml_allocate_distributed2d.c` lines 16-40: the side
of the process grid.  (`p * p` cannot overflow here, see `sqrtint`.) -/
def setcomm (ntasks : Nat) : Res Nat := do
  let p ← sqrtint ntasks
  if p * p ≠ ntasks then .error else pure p

/-- `bml_setup_distributed2d`, lines 43-77: grid side and tile size; the `assert` in line 76. -/
def setupGrid (ntasks N : Nat) : Res (Nat × Nat) := do
  let p ← setcomm ntasks
  if N / p * p = N then pure (p, N / p) else .error

end Bml
