import Verif.Ellblock.Model
import Verif.Dist.Message

/-!
# Block-ELLPACK: messages

Source: `src/C-interface/ellblock/bml_parallel_ellblock_typed.c`.  Buffers obtained from
`bml_allocate_memory` are zero (`calloc`).
-/

namespace Bml

namespace EllB

variable {R : Type}

/-- The three messages of one matrix: tags 112, 113 and 111. -/
structure Msg (R : Type) where
  indexb : Arr Nat
  nnzb : Arr Nat
  values : Arr R

/-- Lines 41-51 and 184-194: the stored blocks are written one after the other into `values`; the
state is the buffer and `pvalues - values`. -/
def packValues [Zero R] (A : EllB R) : Res (Arr R × Nat) :=
  loop A.NB (⟨A.N * A.M, fun _ => 0⟩, 0) fun ib st =>
    A.eachIdx ib st fun ind jb st => do
      let bi ← A.bsize.read ib
      let bj ← A.bsize.read jb
      let b ← A.block ind
      let v ← copyRange b 0 st.1 st.2 (bi * bj)
      pure (v, st.2 + bi * bj)

/-- `bml_mpi_send_ellblock`, lines 22-57. -/
def mpiSend [Zero R] (A : EllB R) : Res (Msg R) := do
  let ix ← copyRange A.indexb 0 ⟨A.NB * A.MB, fun _ => 0⟩ 0 (A.NB * A.MB)
  let nz ← copyRange A.nnzb 0 ⟨A.NB, fun _ => 0⟩ 0 A.NB
  let (v, _) ← A.packValues
  pure ⟨ix, nz, v⟩

/-- `memcpy(dst, &src[s], n)` where `dst` is a fresh block of `n` elements. -/
def sliceNew (n : Nat) (src : Arr R) (s : Nat) : Res (Arr R) :=
  if s + n ≤ src.size then .ok ⟨n, fun k => src.get (s + k)⟩ else .ub

/-- Lines 84-96, 127-139 and 206-218: every block of the received structure is allocated, whatever its
pointer was before, and filled from `values`. -/
def unpackValues (B : EllB R) (values : Arr R) : Res (EllB R) := do
  let (B, _) ← loop B.NB (B, 0) fun ib st => do
    let n ← st.1.nnzb.read ib
    loop n st fun jp st => do
      let jb ← st.1.indexb.read (ROWMAJOR ib jp st.1.NB st.1.MB)
      let bi ← st.1.bsize.read ib
      let bj ← st.1.bsize.read jb
      let b ← sliceNew (bi * bj) values st.2
      let B ← st.1.alloc (ROWMAJOR ib jp st.1.NB st.1.MB) b
      pure (B, st.2 + bi * bj)
  pure B

/-- `bml_mpi_recv_ellblock`, lines 59-100. -/
def mpiRecv [Zero R] (B : EllB R) (m : Msg R) : Res (EllB R) := do
  let ix ← recvInto (B.NB * B.MB) m.indexb ⟨B.NB * B.MB, fun _ => 0⟩
  let nz ← recvInto B.NB m.nnzb ⟨B.NB, fun _ => 0⟩
  let v ← recvInto (B.N * B.M) m.values ⟨B.N * B.M, fun _ => 0⟩
  let nz ← copyRange nz 0 B.nnzb 0 B.NB
  let ix ← copyRange ix 0 B.indexb 0 (B.NB * B.MB)
  unpackValues { B with nnzb := nz, indexb := ix } v

/-- `bml_mpi_irecv_ellblock`, lines 102-115, with `bml_mpi_irecv_complete_ellblock`, 117-141: the
index arrays are received in place. -/
def mpiIrecv [Zero R] (B : EllB R) (m : Msg R) : Res (EllB R) := do
  let ix ← recvInto (B.NB * B.MB) m.indexb B.indexb
  let nz ← recvInto B.NB m.nnzb B.nnzb
  let v ← recvInto (B.N * B.M) m.values ⟨B.N * B.M, fun _ => 0⟩
  unpackValues { B with nnzb := nz, indexb := ix } v

/-- `bml_mpi_recv_matrix_ellblock`, lines 146-156. -/
def mpiRecvMatrix [Zero R] (g : Glob) (N M : Nat) (m : Msg R) : Res (Glob × EllB R) := do
  let (g, A) ← zeroMatrix (R := R) g N M
  let A ← A.mpiRecv m
  pure (g, A)

/-- `bml_mpi_bcast_matrix_ellblock`, lines 158-223, on one rank: `m` is what the root read out of its
matrix (lines 168-173, 181-195).  The root does the same to its own matrix.  Simplification: counts that
differ between the ranks are counted as undefined behaviour (MPI calls them erroneous). -/
def mpiBcast (B : EllB R) (m : Msg R) : Res (EllB R) :=
  if ¬ B.NB > 0 then .error
  else if ¬ B.MB > 0 then .error
  else if m.nnzb.size = B.NB ∧ m.indexb.size = B.NB * B.MB ∧ m.values.size = B.N * B.M then do
    let B ← B.clear
    let nz ← copyRange m.nnzb 0 B.nnzb 0 B.NB
    let ix ← copyRange m.indexb 0 B.indexb 0 (B.NB * B.MB)
    unpackValues { B with nnzb := nz, indexb := ix } m.values
  else .ub

/-- A message from `A` to `B`, received by `bml_mpi_irecv`. -/
def deliver [Zero R] (B A : EllB R) : Res (EllB R) := do
  let m ← A.mpiSend
  B.mpiIrecv m

end EllB

end Bml
