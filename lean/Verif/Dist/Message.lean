import Verif.Dense.Rep
import Verif.Ellpack.Update
import Verif.Csr.Ops4

/-!
# Sending a matrix to another rank

`bml_mpi_send`, `bml_mpi_recv`, `bml_mpi_irecv` / `bml_mpi_irecv_complete` and the broadcast, of the
dense, ELLPACK and CSR formats.  The send functions read the message out of the matrix, the receive
functions put a message into a matrix.  The messages of one call travel in the order in which they
were sent (they carry different tags, and MPI does not reorder messages of the same tag).
-/

namespace Bml

section Recv

variable {α : Type}

/-- What `MPI_Recv(buf, cap, ..)` or `MPI_Irecv` with `MPI_Wait` leaves in `buf`: a message longer
than `cap` is an error (`MPI_ERR_TRUNCATE`, the default handler ends the program); a shorter one
fills the first cells. -/
def recvInto (cap : Nat) (msg buf : Arr α) : Res (Arr α) :=
  if msg.size > cap then .error else copyRange msg 0 buf 0 msg.size

theorem wp_recvInto {E : Prop} {cap : Nat} {msg buf : Arr α} (h : msg.size ≤ cap)
    (hb : cap ≤ buf.size) :
    (recvInto cap msg buf).wp E (fun r => r.size = buf.size ∧
      ∀ q, r.get q = if q < msg.size then msg.get q else buf.get q) := by
  unfold recvInto
  rw [if_neg (by omega)]
  refine Res.wp_mono (wp_copyRange (by omega) (by omega)) ?_
  rintro r ⟨h1, h2⟩
  refine ⟨h1, fun q => ?_⟩
  rw [h2 q]
  by_cases hq : q < msg.size
  · rw [if_pos (by omega), if_pos hq]; congr 1; omega
  · rw [if_neg (by omega), if_neg hq]

end Recv

variable {R : Type}

/-! ## Dense -/

namespace Dense

variable [CommRing R]

/-- `bml_mpi_send_dense`, `src/C-interface/dense/bml_parallel_dense_typed.c` 76-95: the message. -/
def mpiSend (A : Dense R) : Res (Arr R) :=
  copyRange A.mat 0 ⟨A.N * A.N, fun _ => 0⟩ 0 (A.N * A.N)

/-- `bml_mpi_recv_dense`, lines 97-117; `bml_mpi_irecv_dense`, 119-133, with
`bml_mpi_irecv_complete_dense`, 135-145. -/
def mpiRecv (B : Dense R) (msg : Arr R) : Res (Dense R) := do
  let mat ← recvInto (B.N * B.N) msg B.mat
  pure { B with mat := mat }

/-- `bml_mpi_recv_matrix_dense`, lines 147-158. -/
def mpiRecvMatrix (N : Nat) (msg : Arr R) : Res (Dense R) := mpiRecv (zeroMatrix N) msg

/-- A message from `A` to `B`. -/
def deliver (B A : Dense R) : Res (Dense R) := do
  let msg ← A.mpiSend
  B.mpiRecv msg

theorem wp_mpiSend {E : Prop} {N : Nat} {A : Dense R} {a : Spec.Mat R} (hA : A.Rep N a) :
    A.mpiSend.wp E (fun m => m.size = N * N ∧ ∀ q, q < N * N → m.get q = A.mat.get q) := by
  unfold mpiSend
  rw [hA.dim]
  refine Res.wp_mono (wp_copyRange (by rw [hA.size]; omega) (by simp)) ?_
  rintro m ⟨h1, h2⟩
  refine ⟨h1, fun q hq => ?_⟩
  rw [h2 q, if_pos (by omega)]
  congr 1; omega

theorem wp_deliver {E : Prop} {N : Nat} {A B : Dense R} {a b : Spec.Mat R} (hA : A.Rep N a)
    (hB : B.Rep N b) : (deliver B A).wp E (fun B' => B'.Rep N a) := by
  unfold deliver
  rw [Res.wp_bind]
  refine Res.wp_mono (wp_mpiSend hA) ?_
  rintro m ⟨h1, h2⟩
  unfold mpiRecv
  rw [Res.wp_bind, hB.dim]
  refine Res.wp_mono (wp_recvInto (by omega) (by rw [hB.size])) ?_
  rintro m' ⟨g1, g2⟩
  refine ⟨rfl, by rw [g1, hB.size], fun i j hi hj => ?_⟩
  have hq : i * N + j < N * N := addr_lt hi hj
  show m'.get (i * N + j) = _
  rw [g2, h1, if_pos hq, h2 _ hq]
  exact hA.get i j hi hj

end Dense

/-! ## ELLPACK -/

namespace Ell

/-- The data of the datatype built by `bml_mpi_type_create_struct_ellpack`,
`src/C-interface/ellpack/bml_parallel_ellpack_typed.c` 87-119: values, column indices, counts. -/
structure Msg (R : Type) where
  val : Arr R
  idx : Arr Nat
  nnz : Arr Nat

/-- `bml_mpi_send_ellpack`, lines 121-134: the message. -/
def mpiSend [CommRing R] (A : Ell R) : Res (Msg R) := do
  let val ← copyRange A.val 0 ⟨A.N * A.M, fun _ => 0⟩ 0 (A.N * A.M)
  let idx ← copyRange A.idx 0 ⟨A.N * A.M, fun _ => 0⟩ 0 (A.N * A.M)
  let nnz ← copyRange A.nnz 0 ⟨A.N, fun _ => 0⟩ 0 A.N
  pure ⟨val, idx, nnz⟩

/-- `bml_mpi_recv_ellpack`, lines 136-150; `bml_mpi_irecv_ellpack`, 152-165, with
`bml_mpi_irecv_complete_ellpack`, 167-172.  Simplification: a message whose type signature differs
from that of the receiving matrix is counted as undefined behaviour (MPI calls it erroneous). -/
def mpiRecv (B : Ell R) (m : Msg R) : Res (Ell R) :=
  if m.val.size = B.N * B.M ∧ m.idx.size = B.N * B.M ∧ m.nnz.size = B.N then do
    let val ← recvInto (B.N * B.M) m.val B.val
    let idx ← recvInto (B.N * B.M) m.idx B.idx
    let nnz ← recvInto B.N m.nnz B.nnz
    pure { B with val := val, idx := idx, nnz := nnz }
  else .ub

variable [CommRing R]

/-- `bml_mpi_recv_matrix_ellpack`, lines 177-187. -/
def mpiRecvMatrix (N M : Nat) (m : Msg R) : Res (Ell R) := mpiRecv (zeroMatrix N M) m

/-- A message from `A` to `B`. -/
def deliver (B A : Ell R) : Res (Ell R) := do
  let m ← A.mpiSend
  B.mpiRecv m

theorem wp_mpiSend {E : Prop} {A : Ell R} (hA : A.Shape) :
    A.mpiSend.wp E (fun m => m.val.size = A.N * A.M ∧ m.idx.size = A.N * A.M ∧ m.nnz.size = A.N ∧
      (∀ q, q < A.N * A.M → m.val.get q = A.val.get q) ∧
      (∀ q, q < A.N * A.M → m.idx.get q = A.idx.get q) ∧
      (∀ q, q < A.N → m.nnz.get q = A.nnz.get q)) := by
  unfold mpiSend
  rw [Res.wp_bind]
  refine Res.wp_mono (wp_copyRange (by rw [hA.val_size]; omega) (by simp)) ?_
  rintro v ⟨v1, v2⟩
  rw [Res.wp_bind]
  refine Res.wp_mono (wp_copyRange (by rw [hA.idx_size]; omega) (by simp)) ?_
  rintro x ⟨x1, x2⟩
  rw [Res.wp_bind]
  refine Res.wp_mono (wp_copyRange (by rw [hA.nnz_size]; omega) (by simp)) ?_
  rintro n ⟨n1, n2⟩
  refine ⟨v1, x1, n1, fun q hq => ?_, fun q hq => ?_, fun q hq => ?_⟩
  · rw [v2 q, if_pos (by omega)]; congr 1; omega
  · rw [x2 q, if_pos (by omega)]; congr 1; omega
  · rw [n2 q, if_pos (by omega)]; congr 1; omega

theorem wp_deliver {E : Prop} {A B : Ell R} (hA : A.Shape) (hB : B.Shape) (hN : B.N = A.N)
    (hM : B.M = A.M) : (deliver B A).wp E (SameAs A) := by
  unfold deliver
  rw [Res.wp_bind]
  refine Res.wp_mono (wp_mpiSend hA) ?_
  rintro m ⟨s1, s2, s3, g1, g2, g3⟩
  unfold mpiRecv
  have hv := hB.val_size
  have hx := hB.idx_size
  have hn := hB.nnz_size
  rw [hN, hM] at hv hx
  rw [hN] at hn
  rw [hN, hM]
  rw [if_pos ⟨s1, s2, s3⟩, Res.wp_bind]
  refine Res.wp_mono (wp_recvInto (by omega) (by omega)) ?_
  rintro v ⟨v1, v2⟩
  rw [Res.wp_bind]
  refine Res.wp_mono (wp_recvInto (by omega) (by omega)) ?_
  rintro x ⟨x1, x2⟩
  rw [Res.wp_bind]
  refine Res.wp_mono (wp_recvInto (by omega) (by omega)) ?_
  rintro n ⟨n1, n2⟩
  refine ⟨⟨v1.trans hv, x1.trans hx, n1.trans hn⟩, rfl, rfl, fun i hi => ?_, fun i k hi hk => ?_⟩
  · show n.get i = _
    rw [n2, s3, if_pos hi, g3 i hi]
  · have hq : i * A.M + k < A.N * A.M := by
      calc i * A.M + k < i * A.M + A.M := by omega
        _ = (i + 1) * A.M := by ring
        _ ≤ A.N * A.M := Nat.mul_le_mul_right _ hi
    constructor
    · show x.get _ = _
      rw [x2, s2, if_pos hq, g2 _ hq]
    · show v.get _ = _
      rw [v2, s1, if_pos hq, g1 _ hq]

end Ell

/-! ## CSR -/

/-- The array from position `off` on: the pointer `a + off`. -/
def Arr.drop {α : Type} (a : Arr α) (off : Nat) : Arr α := ⟨a.size - off, fun k => a.get (off + k)⟩

namespace Csr

/-- The three messages of a CSR matrix: the lengths of the rows, all columns, all values. -/
structure Msg (R : Type) where
  nnz : Arr Nat
  cols : Arr Nat
  vals : Arr R

variable [CommRing R]

/-- `bml_mpi_send_csr`, `src/C-interface/csr/bml_parallel_csr_typed.c` 23-74: the messages. -/
def mpiSend (A : Csr R) : Res (Msg R) := do
  let (nnz, tot) ← loop A.N ((⟨A.N, fun _ => 0⟩ : Arr Nat), 0) fun i st => do
    let r ← A.data.read i
    let nnz ← st.1.write i r.nnz
    pure (nnz, st.2 + r.nnz)
  let (cols, _) ← loop A.N ((⟨tot, fun _ => 0⟩ : Arr Nat), 0) fun i st => do
    let r ← A.data.read i
    let c ← copyRange r.cols 0 st.1 st.2 r.nnz
    pure (c, st.2 + r.nnz)
  let (vals, _) ← loop A.N ((⟨tot, fun _ => 0⟩ : Arr R), 0) fun i st => do
    let r ← A.data.read i
    let c ← copyRange r.vals 0 st.1 st.2 r.nnz
    pure (c, st.2 + r.nnz)
  pure ⟨nnz, cols, vals⟩

/-- `bml_mpi_recv_csr`, lines 76-125: the rows are not enlarged. -/
def mpiRecv (B : Csr R) (m : Msg R) : Res (Csr R) := do
  let nnz ← recvInto B.N m.nnz ⟨B.N, fun _ => 0⟩
  let (B, tot) ← loop B.N (B, 0) fun i st => do
    let k ← nnz.read i
    let r ← st.1.data.read i
    let data ← st.1.data.write i { r with nnz := k }
    pure ({ st.1 with data := data }, st.2 + k)
  let cols ← recvInto tot m.cols ⟨tot, fun _ => 0⟩
  let (B, _) ← loop B.N (B, 0) fun i st => do
    let r ← st.1.data.read i
    let c ← copyRange cols st.2 r.cols 0 r.nnz
    let data ← st.1.data.write i { r with cols := c }
    pure ({ st.1 with data := data }, st.2 + r.nnz)
  let vals ← recvInto tot m.vals ⟨tot, fun _ => 0⟩
  let (B, _) ← loop B.N (B, 0) fun i st => do
    let r ← st.1.data.read i
    let v ← copyRange vals st.2 r.vals 0 r.nnz
    let data ← st.1.data.write i { r with vals := v }
    pure ({ st.1 with data := data }, st.2 + r.nnz)
  pure B

/-- The rows of `B` are set from the three buffers: lines 165-173 and 246-254.  The threshold of
`bml_set_sparse_row` is `0`, so `big0 x` is `|x| > 0`. -/
def unpack (B : Csr R) (m : Msg R) (big0 : R → Bool) : Res (Csr R) := do
  let (B, _) ← loop B.N (B, 0) fun i st => do
    let k ← m.nnz.read i
    let B ← st.1.setSparseRow i k (m.cols.drop st.2) (m.vals.drop st.2) big0
    pure (B, st.2 + k)
  pure B

/-- `bml_mpi_irecv_csr`, lines 127-156, with `bml_mpi_irecv_complete_csr`, 158-177. -/
def mpiIrecv (B : Csr R) (m : Msg R) (big0 : R → Bool) : Res (Csr R) := do
  let nnz ← recvInto B.N m.nnz ⟨B.N, fun _ => 0⟩
  let cols ← recvInto (B.M * B.N * 2) m.cols ⟨B.M * B.N * 2, fun _ => 0⟩
  let vals ← recvInto (B.M * B.N * 2) m.vals ⟨B.M * B.N * 2, fun _ => 0⟩
  B.unpack ⟨nnz, cols, vals⟩ big0

/-- `bml_mpi_recv_matrix_csr`, lines 182-192. -/
def mpiRecvMatrix (N M : Nat) (m : Msg R) : Res (Csr R) := mpiRecv (newZero N M) m

/-- `bml_mpi_bcast_matrix_csr`, lines 194-259, on a rank other than the root: `m` is what the root
read out of its matrix (lines 204-207, 214-220, 225-230, 236-242), the buffers have exactly its size.
The root does the same to its own matrix. -/
def mpiBcast (B : Csr R) (m : Msg R) (big0 : R → Bool) : Res (Csr R) :=
  if ¬ B.N > 0 then .error
  else if ¬ m.cols.size > 0 then .error
  else B.unpack m big0

/-- A message from `A` to `B`, received by `bml_mpi_irecv`. -/
def deliver (big0 : R → Bool) (B A : Csr R) : Res (Csr R) := do
  let m ← A.mpiSend
  B.mpiIrecv m big0

/-- A message from `A` to `B`, received by `bml_mpi_recv`. -/
def deliverBlocking (B A : Csr R) : Res (Csr R) := do
  let m ← A.mpiSend
  B.mpiRecv m

/-- Where row `i` starts in the message. -/
def start (A : Csr R) (i : Nat) : Nat := ∑ k ∈ Finset.range i, (A.data.get k).nnz

omit [CommRing R] in
theorem start_succ (A : Csr R) (i : Nat) : A.start (i + 1) = A.start i + (A.data.get i).nnz :=
  Finset.sum_range_succ _ _

omit [CommRing R] in
theorem start_le (A : Csr R) {i j : Nat} (h : i ≤ j) : A.start i ≤ A.start j := by
  induction j, h using Nat.le_induction with
  | base => exact le_refl _
  | succ j _ ih => rw [start_succ]; omega

/-- The message of `A` (the buffers may be larger). -/
structure Packed (A : Csr R) (m : Msg R) : Prop where
  nnz_size : m.nnz.size = A.N
  cols_size : A.start A.N ≤ m.cols.size
  vals_size : A.start A.N ≤ m.vals.size
  nnz : ∀ i, i < A.N → m.nnz.get i = (A.data.get i).nnz
  cols : ∀ i k, i < A.N → k < (A.data.get i).nnz →
    m.cols.get (A.start i + k) = (A.data.get i).cols.get k
  vals : ∀ i k, i < A.N → k < (A.data.get i).nnz →
    m.vals.get (A.start i + k) = (A.data.get i).vals.get k

omit [CommRing R] in
/-- One of the two packing loops. -/
theorem wp_pack {E : Prop} {β : Type} {A : Csr R} (hs : A.data.size = A.N)
    (f : CsrRow R → Arr β) (hf : ∀ i, i < A.N → (A.data.get i).nnz ≤ (f (A.data.get i)).size)
    (z : β) :
    (loop A.N ((⟨A.start A.N, fun _ => z⟩ : Arr β), 0) fun i st => do
      let r ← A.data.read i
      let c ← copyRange (f r) 0 st.1 st.2 r.nnz
      pure (c, st.2 + r.nnz)).wp E (fun st => st.1.size = A.start A.N ∧
        ∀ i k, i < A.N → k < (A.data.get i).nnz →
          st.1.get (A.start i + k) = (f (A.data.get i)).get k) := by
  refine wp_loop' (fun n (st : Arr β × Nat) => st.2 = A.start n ∧ st.1.size = A.start A.N ∧
    ∀ i k, i < n → k < (A.data.get i).nnz →
      st.1.get (A.start i + k) = (f (A.data.get i)).get k) ?_ ?_ (fun st h => h.2)
  · exact ⟨rfl, rfl, fun i k hi => by omega⟩
  · rintro n hn ⟨c, o⟩ ⟨h1, h2, h3⟩
    simp only at h1 h2 h3
    subst h1
    have hle := A.start_le (i := n + 1) (j := A.N) (by omega)
    rw [start_succ] at hle
    simp only
    rw [Arr.read_ok (by omega), Res.bind_ok, Res.wp_bind]
    refine Res.wp_mono (wp_copyRange (by have := hf n hn; omega) (by omega)) ?_
    rintro c' ⟨g1, g2⟩
    refine ⟨(start_succ A n).symm, g1.trans h2, fun i k hi hk => ?_⟩
    simp only
    rw [g2]
    by_cases he : i = n
    · subst he
      rw [if_pos (by omega)]
      congr 1; omega
    · have hle' := A.start_le (i := i + 1) (j := n) (by omega)
      rw [start_succ] at hle'
      rw [if_neg (by omega)]
      exact h3 i k (by omega) hk

theorem wp_mpiSend {E : Prop} {A : Csr R} {N : Nat} {a : Spec.Mat R} (hA : A.Rep N a) :
    A.mpiSend.wp E (fun m => Packed A m ∧ m.cols.size = A.start A.N ∧ m.vals.size = A.start A.N) := by
  have hd := hA.dim
  have hs : A.data.size = A.N := by rw [hA.size, hd]
  unfold mpiSend
  rw [Res.wp_bind]
  refine Res.wp_mono (wp_loop (fun n (st : Arr Nat × Nat) => st.2 = A.start n ∧ st.1.size = A.N ∧
    ∀ i, i < n → st.1.get i = (A.data.get i).nnz) ⟨rfl, rfl, fun i hi => by omega⟩ ?_) ?_
  · rintro n hn ⟨c, o⟩ ⟨h1, h2, h3⟩
    simp only at h1 h2 h3
    subst h1
    simp only
    rw [Arr.read_ok (by omega), Res.bind_ok, Res.wp_bind, Arr.wp_write]
    refine ⟨by omega, (start_succ A n).symm, h2, fun i hi => ?_⟩
    simp only
    by_cases he : i = n
    · subst he; rw [upd_same]
    · rw [upd_ne _ _ he]; exact h3 i (by omega)
  · rintro ⟨nn, tot⟩ ⟨h1, h2, h3⟩
    simp only at h1 h2 h3
    subst h1
    simp only
    rw [Res.wp_bind]
    refine Res.wp_mono (wp_pack hs (fun r => r.cols) (fun i hi => ?_) 0) ?_
    · have := (hA.is (by omega : i < N)).nnz_le
      have := (hA.is (by omega : i < N)).cols_size
      omega
    rintro ⟨c, o⟩ ⟨c1, c2⟩
    simp only at c1 c2 ⊢
    rw [Res.wp_bind]
    refine Res.wp_mono (wp_pack hs (fun r => r.vals) (fun i hi => ?_) 0) ?_
    · have := (hA.is (by omega : i < N)).nnz_le
      have := (hA.is (by omega : i < N)).vals_size
      omega
    rintro ⟨v, o'⟩ ⟨v1, v2⟩
    simp only at v1 v2 ⊢
    exact ⟨⟨h2, c1.ge, v1.ge, h3, c2, v2⟩, c1, v1⟩

theorem wp_unpack {E : Prop} {A B : Csr R} {N : Nat} {a b : Spec.Mat R} (hA : A.Rep N a)
    (hB : B.Rep N b) {m : Msg R} (hm : Packed A m) {big0 : R → Bool}
    (h0 : ∀ x, big0 x = false → x = 0) :
    (B.unpack m big0).wp E (fun B' => B'.M = B.M ∧ B'.Rep N a) := by
  have hAd := hA.dim
  unfold unpack
  rw [hB.dim, Res.wp_bind]
  refine Res.wp_mono (wp_loop (fun n (st : Csr R × Nat) => st.2 = A.start n ∧ st.1.M = B.M ∧
    st.1.Rep N (fun i j => if i < n then a i j else b i j)) ⟨rfl, rfl, ?_⟩ ?_) ?_
  · exact hB.congr fun i j _ _ => by simp
  · rintro n hn ⟨B1, o⟩ ⟨h1, h2, h3⟩
    simp only at h1 h2 h3
    subst h1
    have hle := A.start_le (i := n + 1) (j := A.N) (by omega)
    rw [start_succ] at hle
    have hc := hm.cols_size
    have hv := hm.vals_size
    simp only
    rw [Arr.read_ok (by rw [hm.nnz_size]; omega), Res.bind_ok, hm.nnz n (by omega), Res.wp_bind]
    have hpre : CsrRow.pre (m.cols.drop (A.start n)).get (m.vals.drop (A.start n)).get
        (A.data.get n).nnz = A.row n :=
      CsrRow.pre_congr fun k hk => ⟨hm.cols n k (by omega) hk, hm.vals n k (by omega) hk⟩
    have hg := hA.good hn
    have hwf := (represents_iff.2 hA).wf
    refine Res.wp_mono (wp_setSparseRow h3 hn (by simp only [Arr.drop]; omega)
      (by simp only [Arr.drop]; omega) big0 ?_ ?_) ?_
    · intro k hk _
      show m.cols.get (A.start n + k) < N
      rw [hm.cols n k (by omega) hk, ← hAd]
      exact hwf.col_lt n k (by omega) hk
    · intro k k' hk hk' _ _ he
      change m.cols.get (A.start n + k) = m.cols.get (A.start n + k') at he
      rw [hm.cols n k (by omega) hk, hm.cols n k' (by omega) hk'] at he
      exact hwf.col_inj n k k' (by omega) hk hk' he
    · rintro B2 ⟨g1, g2⟩
      refine ⟨(start_succ A n).symm, g1.trans h2, g2.congr fun i j hi hj => ?_⟩
      simp only
      by_cases he : i = n
      · subst he
        rw [if_pos rfl, if_pos (by omega), hpre, SRow.den_filter_keep hg.1, hA.den hi hj]
        unfold Spec.keep
        by_cases hb : big0 (a i j) = true
        · rw [if_pos hb]
        · rw [if_neg hb]; exact (h0 (a i j) (by simpa using hb)).symm
      · rw [if_neg he]
        by_cases hlt : i < n
        · rw [if_pos hlt, if_pos (by omega)]
        · rw [if_neg hlt, if_neg (by omega)]
  · rintro ⟨B1, o⟩ ⟨-, h2, h3⟩
    exact ⟨h2, h3.congr fun i j hi _ => if_pos hi⟩

/-- `bml_mpi_irecv`: right if the buffers of `2 M N` entries suffice, otherwise an error. -/
theorem wp_deliver {E : Prop} {A B : Csr R} {N : Nat} {a b : Spec.Mat R} (hA : A.Rep N a)
    (hB : B.Rep N b) {big0 : R → Bool} (h0 : ∀ x, big0 x = false → x = 0)
    (hE : B.M * N * 2 < A.start N → E) :
    (deliver big0 B A).wp E (fun B' => A.start N ≤ B.M * N * 2 ∧ B'.M = B.M ∧ B'.Rep N a) := by
  have hAd := hA.dim
  unfold deliver
  rw [Res.wp_bind]
  refine Res.wp_mono (wp_mpiSend hA) ?_
  rintro m ⟨hm, hc, hv⟩
  rw [hAd] at hc hv
  unfold mpiIrecv
  rw [Res.wp_bind, hB.dim]
  have hns := hm.nnz_size
  refine Res.wp_mono (wp_recvInto (by omega) (le_refl _)) ?_
  rintro nn ⟨n1, n2⟩
  by_cases hle : A.start N ≤ B.M * N * 2
  · rw [Res.wp_bind]
    refine Res.wp_mono (wp_recvInto (by omega) (le_refl _)) ?_
    rintro c ⟨c1, c2⟩
    rw [Res.wp_bind]
    refine Res.wp_mono (wp_recvInto (by omega) (le_refl _)) ?_
    rintro v ⟨v1, v2⟩
    have hlt : ∀ i k, i < A.N → k < (A.data.get i).nnz → A.start i + k < A.start N := by
      intro i k hi hk
      have := A.start_le (i := i + 1) (j := N) (by omega)
      rw [start_succ] at this
      omega
    refine Res.wp_mono (wp_unpack (E := E) (m := ⟨nn, c, v⟩) hA hB ⟨?_, ?_, ?_, ?_, ?_, ?_⟩ h0)
      (fun B' h => ⟨hle, h⟩)
    · exact n1.trans hAd.symm
    · rw [hAd, c1]; exact hle
    · rw [hAd, v1]; exact hle
    · intro i hi
      show nn.get i = _
      rw [n2, if_pos (by omega), hm.nnz i hi]
    · intro i k hi hk
      show c.get _ = _
      have := hlt i k hi hk
      rw [c2, if_pos (by omega), hm.cols i k hi hk]
    · intro i k hi hk
      show v.get _ = _
      have := hlt i k hi hk
      rw [v2, if_pos (by omega), hm.vals i k hi hk]
  · have : recvInto (B.M * N * 2) m.cols ⟨B.M * N * 2, fun _ => 0⟩ = .error := by
      unfold recvInto
      rw [if_pos (by omega)]
    rw [this]
    exact hE (by omega)

/-- `bml_mpi_recv`: right if every row of the receiver has the space. -/
theorem wp_deliverBlocking {E : Prop} {A B : Csr R} {N : Nat} {a b : Spec.Mat R} (hA : A.Rep N a)
    (hB : B.Rep N b) (hfit : ∀ i, i < N → (A.data.get i).nnz ≤ (B.data.get i).alloc) :
    (deliverBlocking B A).wp E (fun B' => B'.M = B.M ∧ B'.Rep N a) := by
  have hAd := hA.dim
  have hBd := hB.dim
  have hBs := hB.size
  unfold deliverBlocking
  rw [Res.wp_bind]
  refine Res.wp_mono (wp_mpiSend hA) ?_
  rintro m ⟨hm, hc, hv⟩
  rw [hAd] at hc hv
  have hns := hm.nnz_size
  unfold mpiRecv
  rw [Res.wp_bind]
  refine Res.wp_mono (wp_recvInto (by omega) (le_refl _)) ?_
  rintro nn ⟨n1, n2⟩
  rw [Res.wp_bind]
  refine Res.wp_mono (wp_loop (fun n (st : Csr R × Nat) => st.2 = A.start n ∧ st.1.M = B.M ∧
    st.1.N = N ∧ st.1.data.size = N ∧
    ∀ i, i < N → st.1.data.get i = if i < n then { B.data.get i with nnz := (A.data.get i).nnz }
      else B.data.get i) ⟨rfl, rfl, hBd, hBs, fun i _ => by simp⟩ ?_) ?_
  · rintro n hn ⟨B1, o⟩ ⟨h1, h2, h3, h4, h5⟩
    simp only at h1 h2 h3 h4 h5
    subst h1
    simp only
    have hk : nn.get n = (A.data.get n).nnz := by
      rw [n2, if_pos (by omega), hm.nnz n (by omega)]
    rw [Arr.read_ok (by rw [n1]; exact hn), Res.bind_ok, hk, Arr.read_ok (by omega), Res.bind_ok,
      Res.wp_bind, Arr.wp_write]
    refine ⟨by omega, (start_succ A n).symm, h2, h3, h4, fun i hi => ?_⟩
    simp only
    by_cases he : i = n
    · subst he
      rw [upd_same, if_pos (by omega), h5 i hi, if_neg (by omega)]
    · rw [upd_ne _ _ he, h5 i hi]
      by_cases hlt : i < n
      · rw [if_pos hlt, if_pos (by omega)]
      · rw [if_neg hlt, if_neg (by omega)]
  rintro ⟨B1, tot⟩ ⟨h1, h2, h3, h4, h5⟩
  simp only at h1 h2 h3 h4 h5
  rw [hBd] at h1 h5
  subst h1
  simp only
  rw [Res.wp_bind]
  refine Res.wp_mono (wp_recvInto (by omega) (le_refl _)) ?_
  rintro c ⟨c1, c2⟩
  rw [Res.wp_bind, h3]
  have hlt : ∀ i k, i < N → k < (A.data.get i).nnz → A.start i + k < A.start N := by
    intro i k hi hk
    have := A.start_le (i := i + 1) (j := N) (by omega)
    rw [start_succ] at this
    omega
  have hst : ∀ n, n < N → A.start n + (A.data.get n).nnz ≤ A.start N := by
    intro n hn
    have := A.start_le (i := n + 1) (j := N) (by omega)
    rw [start_succ] at this
    omega
  refine Res.wp_mono (wp_loop (fun n (st : Csr R × Nat) => st.2 = A.start n ∧ st.1.M = B.M ∧
    st.1.N = N ∧ st.1.data.size = N ∧
    ∀ i, i < N → (st.1.data.get i).nnz = (A.data.get i).nnz ∧
      (st.1.data.get i).alloc = (B.data.get i).alloc ∧
      (st.1.data.get i).cols.size = (B.data.get i).alloc ∧
      (st.1.data.get i).vals = (B.data.get i).vals ∧
      (i < n → ∀ k, k < (A.data.get i).nnz → (st.1.data.get i).cols.get k =
        (A.data.get i).cols.get k)) ⟨rfl, h2, h3, h4, fun i hi => ?_⟩ ?_) ?_
  · simp only
    rw [h5 i hi, if_pos hi]
    exact ⟨rfl, rfl, (hB.is hi).cols_size, rfl, fun h => by omega⟩
  · rintro n hn ⟨B2, o⟩ ⟨k1, k2, k3, k4, k5⟩
    simp only at k1 k2 k3 k4 k5
    subst k1
    have hn5 := k5 n hn
    have := hfit n hn
    have := hst n hn
    simp only
    rw [Arr.read_ok (by omega), Res.bind_ok, Res.wp_bind, hn5.1]
    refine Res.wp_mono (wp_copyRange (by rw [c1]; exact hst n hn) (by omega)) ?_
    rintro c' ⟨q1, q2⟩
    rw [Res.wp_bind, Arr.wp_write]
    refine ⟨by omega, (start_succ A n).symm, k2, k3, k4, fun i hi => ?_⟩
    simp only
    by_cases he : i = n
    · subst he
      rw [upd_same]
      refine ⟨rfl, hn5.2.1, q1.trans hn5.2.2.1, hn5.2.2.2.1, fun _ k hk => ?_⟩
      show c'.get k = _
      rw [q2, if_pos (by omega), c2, Nat.sub_zero, if_pos (by have := hlt i k hi hk; omega),
        hm.cols i k (by omega) hk]
    · rw [upd_ne _ _ he]
      obtain ⟨e1, e2, e3, e4, e5⟩ := k5 i hi
      exact ⟨e1, e2, e3, e4, fun h => e5 (by omega)⟩
  rintro ⟨B2, o⟩ ⟨-, k2, k3, k4, k5⟩
  simp only at k2 k3 k4 k5 ⊢
  rw [Res.wp_bind]
  refine Res.wp_mono (wp_recvInto (by omega) (le_refl _)) ?_
  rintro v ⟨v1, v2⟩
  rw [Res.wp_bind, k3]
  refine Res.wp_mono (wp_loop (fun n (st : Csr R × Nat) => st.2 = A.start n ∧ st.1.M = B.M ∧
    st.1.N = N ∧ st.1.data.size = N ∧
    ∀ i, i < N → (st.1.data.get i).nnz = (A.data.get i).nnz ∧
      (st.1.data.get i).alloc = (B.data.get i).alloc ∧
      (st.1.data.get i).cols.size = (B.data.get i).alloc ∧
      (st.1.data.get i).vals.size = (B.data.get i).alloc ∧
      (∀ k, k < (A.data.get i).nnz → (st.1.data.get i).cols.get k = (A.data.get i).cols.get k) ∧
      (i < n → ∀ k, k < (A.data.get i).nnz → (st.1.data.get i).vals.get k =
        (A.data.get i).vals.get k)) ⟨rfl, k2, k3, k4, fun i hi => ?_⟩ ?_) ?_
  · simp only
    obtain ⟨e1, e2, e3, e4, e5⟩ := k5 i hi
    exact ⟨e1, e2, e3, by rw [e4, (hB.is hi).vals_size], e5 hi, fun h => by omega⟩
  · rintro n hn ⟨B3, o⟩ ⟨l1, l2, l3, l4, l5⟩
    simp only at l1 l2 l3 l4 l5
    subst l1
    have hn5 := l5 n hn
    have := hfit n hn
    have := hst n hn
    simp only
    rw [Arr.read_ok (by omega), Res.bind_ok, Res.wp_bind, hn5.1]
    refine Res.wp_mono (wp_copyRange (by rw [v1]; exact hst n hn) (by omega)) ?_
    rintro c' ⟨q1, q2⟩
    rw [Res.wp_bind, Arr.wp_write]
    refine ⟨by omega, (start_succ A n).symm, l2, l3, l4, fun i hi => ?_⟩
    simp only
    by_cases he : i = n
    · subst he
      rw [upd_same]
      refine ⟨rfl, hn5.2.1, hn5.2.2.1, q1.trans hn5.2.2.2.1, hn5.2.2.2.2.1, fun _ k hk => ?_⟩
      show c'.get k = _
      rw [q2, if_pos (by omega), v2, Nat.sub_zero, if_pos (by have := hlt i k hi hk; omega),
        hm.vals i k (by omega) hk]
    · rw [upd_ne _ _ he]
      obtain ⟨e1, e2, e3, e4, e5, e6⟩ := l5 i hi
      exact ⟨e1, e2, e3, e4, e5, fun h => e6 (by omega)⟩
  rintro ⟨B3, o⟩ ⟨-, l2, l3, l4, l5⟩
  simp only at l2 l3 l4 l5 ⊢
  refine ⟨l2, l3, l4, fun i hi => ?_⟩
  obtain ⟨e1, e2, e3, e4, e5, e6⟩ := l5 i hi
  have hr : (B3.data.get i).list = A.row i := by
    unfold row
    rw [CsrRow.list_eq, CsrRow.list_eq, e1]
    exact CsrRow.pre_congr fun k hk => ⟨e5 k hk, e6 hi k hk⟩
  refine CsrRow.Is.holds (L := A.row i) ⟨⟨by rw [e3, e2], by rw [e4, e2], ?_, ?_⟩, hr⟩ (hA.good hi)
    (fun j hj => hA.den hi hj)
  · rw [e1, e2]; exact hfit i hi
  · rw [e2]; exact (hB.is hi).1.space

/-- `bml_mpi_bcast_matrix`, for a matrix with at least one stored entry. -/
theorem wp_bcast {E : Prop} {A B : Csr R} {N : Nat} {a b : Spec.Mat R} (hA : A.Rep N a)
    (hB : B.Rep N b) {big0 : R → Bool} (h0 : ∀ x, big0 x = false → x = 0) (hpos : 0 < A.start N) :
    (A.mpiSend >>= fun m => B.mpiBcast m big0).wp E (fun B' => B'.M = B.M ∧ B'.Rep N a) := by
  rw [Res.wp_bind]
  refine Res.wp_mono (wp_mpiSend hA) ?_
  rintro m ⟨hm, hc, hv⟩
  unfold mpiBcast
  have hN : 0 < N := by
    by_contra h
    have : N = 0 := by omega
    subst this
    simp [start] at hpos
  rw [hA.dim] at hc
  rw [if_neg (by rw [hB.dim]; omega), if_neg (by omega)]
  exact wp_unpack hA hB hm h0

/-- A matrix without stored entries cannot be broadcast. -/
theorem bcast_empty {A B : Csr R} {N : Nat} {a : Spec.Mat R} (hA : A.Rep N a)
    (big0 : R → Bool) (h : A.start N = 0) : (A.mpiSend >>= fun m => B.mpiBcast m big0) = .error := by
  obtain ⟨m, e, -, hc, -⟩ := Res.wp_exists (wp_mpiSend (E := False) hA)
  rw [e, Res.bind_ok]
  unfold mpiBcast
  by_cases hN : B.N > 0
  · rw [if_neg (by omega), if_pos (by rw [hc, hA.dim, h]; omega)]
  · rw [if_pos hN]

end Csr

end Bml
