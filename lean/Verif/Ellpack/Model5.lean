import Verif.Ellpack.Model4
import Mathlib.Data.List.Sort

/-!
# Model of the ELLPACK format (5): adjacency lists

`bml_submatrix_ellpack.c` lines 338-512.  `xadj` and `adjncy` are arrays of the caller; the entries of
`xadj` are modelled as integers because they can become negative.
-/

namespace Bml

/-- An `int` used as an index: negative values are out of bounds. -/
def toIdx (z : Int) : Res Nat := if z < 0 then .ub else .ok z.toNat

/-- `qsort(&a[lo], n, sizeof(int), sortById)`: sort `n` cells in place.  A negative `n` becomes a huge
`size_t`. -/
def sortSeg (a : Arr Nat) (lo n : Int) : Res (Arr Nat) := do
  let lo ← toIdx lo
  let n ← toIdx n
  if lo + n ≤ a.size then
    let L := ((List.range n).map fun p => a.get (lo + p)).insertionSort (· ≤ ·)
    pure ⟨a.size, fun k => if lo ≤ k ∧ k < lo + n then L.getD (k - lo) 0 else a.get k⟩
  else .ub

namespace Ell

variable {R : Type}

/-- Lines 357-365, 459-466, 482-491: does row `r` hold column `c` (search from slot `l`, stop at the
first hit)? -/
def hasCol (A : Ell R) (r c : Nat) : Nat → Nat → Res Bool
  | _, 0 => .ok false
  | l, fuel + 1 => do
    let k ← A.idx.read (ROWMAJOR r l A.N A.M)
    if k = c then pure true else hasCol A r c (l + 1) fuel

/-- Lines 380-388: the neighbours of row `i`. -/
def adjFill (A : Ell R) (xadj : Arr Int) (i : Nat) (adj : Arr Nat) : Res (Arr Nat) := do
  let j ← xadj.read i
  let n ← A.nnz.read i
  let (adj, _) ← loop n (adj, j) fun jj (st : Arr Nat × Int) => do
    let k ← A.idx.read (ROWMAJOR i jj A.N A.M)
    if k ≠ i then do
      let p ← toIdx st.2
      let adj ← st.1.write p k
      pure (adj, st.2 + 1)
    else pure st
  pure adj

/-- Lines 404-410: add one to the neighbours of row `i`. -/
def adjBump (xadj : Arr Int) (i : Nat) (adj : Arr Nat) : Res (Arr Nat) := do
  let a ← xadj.read i
  let b ← xadj.read (i + 1)
  loop (b - a).toNat adj fun d adj => do
    let p ← toIdx (a + d)
    let v ← adj.read p
    adj.write p (v + 1)

/-- Lines 413-416, 506-509: add one to the `n` entries of `xadj`. -/
def xadjBump (n : Nat) (xadj : Arr Int) : Res (Arr Int) :=
  loop n xadj fun i xadj => do
    let v ← xadj.read i
    xadj.write i (v + 1)

/-- `bml_adjacency_ellpack`, lines 338-418.  `sc1`, `sc2`, `sc3` are the orders in which the rows are
handled in the three parallel loops over rows; the loop over `xadj` alone is modelled in program
order (its iterations touch disjoint cells). -/
def adjacency (A : Ell R) (xadj : Arr Int) (adj : Arr Nat) (base : Bool) (sc1 sc2 sc3 : Sched) :
    Res (Arr Int × Arr Nat) := do
  let xadj ← xadj.write 0 0
  let n0 ← A.nnz.read 0
  let check ← hasCol A 0 0 0 n0
  let xadj ← loopFrom 1 (A.N + 1) xadj fun i xadj => do
    let p ← xadj.read (i - 1)
    let n ← A.nnz.read (i - 1)
    if check then xadj.write i (p + n - 1) else xadj.write i (p + n)
  let adj ← forList sc1 adj fun ti adj => adjFill A xadj ti.2 adj
  let adj ← forList sc2 adj fun ti adj => do
    let a ← xadj.read ti.2
    let b ← xadj.read (ti.2 + 1)
    sortSeg adj a (b - a)
  if base then do
    let adj ← forList sc3 adj fun ti adj => adjBump xadj ti.2 adj
    let xadj ← xadjBump (A.N + 1) xadj
    pure (xadj, adj)
  else pure (xadj, adj)

/-- Lines 446-450: the first row of every group, 0-based.  A first row `0` (that is, row `-1`) is out
of bounds as soon as it is used. -/
def groupFirst (hindex : Arr Nat) (nn : Nat) : Res (Arr Nat) :=
  loop nn ⟨nn, fun _ => 0⟩ fun i hnode => do
    let h ← hindex.read i
    if h = 0 then .ub else hnode.write i (h - 1)

/-- Lines 454-470: `xadj[i + 1]`. -/
def groupCount (A : Ell R) (hnode : Arr Nat) (nn i : Nat) (xadj : Arr Int) : Res (Arr Int) := do
  let hi ← hnode.read i
  let n ← A.nnz.read hi
  let cnt ← loop nn (0 : Int) fun j cnt => do
    let hj ← hnode.read j
    let b ← hasCol A hi hj 0 n
    if b then pure (cnt + 1) else pure cnt
  let p ← xadj.read i
  xadj.write (i + 1) (p + cnt)

/-- Lines 478-492. -/
def groupAdjFill (A : Ell R) (hnode : Arr Nat) (nn : Nat) (xadj : Arr Int) (i : Nat)
    (adj : Arr Nat) : Res (Arr Nat) := do
  let ll ← xadj.read i
  let hi ← hnode.read i
  let n ← A.nnz.read hi
  let (adj, _) ← loop nn (adj, ll) fun j (st : Arr Nat × Int) => do
    let hj ← hnode.read j
    let b ← hasCol A hi hj 0 n
    if b then do
      let p ← toIdx st.2
      let adj ← st.1.write p j
      pure (adj, st.2 + 1)
    else pure st
  pure adj

/-- `bml_adjacency_group_ellpack`, lines 431-512.  For `nn = 0` the loops over groups do nothing.
The loop bound of line 500 is `i <= xadj[nnodes]`. -/
def adjacencyGroup (A : Ell R) (hindex : Arr Nat) (nn : Nat) (xadj : Arr Int) (adj : Arr Nat)
    (base : Bool) (sc : Sched) : Res (Arr Int × Arr Nat) := do
  let hnode ← groupFirst hindex nn
  let xadj ← xadj.write 0 0
  let xadj ← loop nn xadj fun i xadj => groupCount A hnode nn i xadj
  let adj ← forList sc adj fun ti adj => groupAdjFill A hnode nn xadj ti.2 adj
  if base then do
    let m ← xadj.read nn
    let adj ← loop (m + 1).toNat adj fun i adj => do
      let v ← adj.read i
      adj.write i (v + 1)
    let xadj ← xadjBump (nn + 1) xadj
    pure (xadj, adj)
  else pure (xadj, adj)

end Ell

end Bml
