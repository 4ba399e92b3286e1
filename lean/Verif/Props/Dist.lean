import Verif.Dist.Formats

/-!
# Property C42: the distributed product, and C57: sending a matrix

A distributed matrix is a local matrix per rank; rank `i p + j` of the `p × p` grid has the `n × n`
tile `(i,j)`: `Dist.Holds`.  An execution is any interleaving of the ranks' steps with any rule for
when a send completes, as long as a send whose receive has been posted can complete (`Dist.Net.Step`).
-/

namespace Bml.Props

open Dist

variable {R : Type} [CommRing R]

/-! ## C42 -/

/-- The product is complete: `C->matrix` of every rank is its tile of `alpha A B + beta C`. -/
def ProductDone {τ : Type} (Rep : τ → Spec.Mat R → Prop) (p n : Nat)
    (conf : Conf (Res (Buf τ)) (Res τ)) (a b c : Spec.Mat R) (α β : R) : Prop :=
  ∀ i j, i < p → j < p → ∃ buf, conf.st (rankOf p i j) = .ok buf ∧
    Rep buf.c (tile n i j fun r s => α * Spec.mul (p * n) a b r s + β * c r s)

/-- `k` steps of `bml_multiply` on distributed matrices with local matrices `A`, `B`, `C` lead to
`conf`, in some interleaving, where `can` decides when sends complete. -/
def ProductReaches {τ : Type} (O : Ops τ R) (p : Nat) (A B C : Nat → τ) (α β : R)
    (can : Conf (Res (Buf τ)) (Res τ) → Nat → Prop) (k : Nat) (conf : Conf (Res (Buf τ)) (Res τ)) :
    Prop :=
  (cannonNet O p α β).Reach can (cannonStart O A B C) k conf

/-- No rank can do another step. -/
def ProductStuck {τ : Type} (O : Ops τ R) (p : Nat) (α β : R)
    (can : Conf (Res (Buf τ)) (Res τ) → Nat → Prop) (conf : Conf (Res (Buf τ)) (Res τ)) : Prop :=
  ¬ ∃ conf', (cannonNet O p α β).Step can conf conf'

/-- The MPI library lets a send complete once the receive has been posted. -/
def Fair {τ : Type} (O : Ops τ R) (p : Nat) (α β : R)
    (can : Conf (Res (Buf τ)) (Res τ) → Nat → Prop) : Prop :=
  ∀ c r, (cannonNet O p α β).Ready c r → can c r

/-- Every execution of the distributed product is finite, and the ones that cannot go on have
computed the product: for any format whose local functions are exact. -/
theorem cannon_correct {τ : Type} {O : Ops τ R} {p n : Nat} {Rep RepC : τ → Spec.Mat R → Prop}
    (hO : O.Exact n Rep RepC) {A B C : Nat → τ} {a b c : Spec.Mat R} (hA : Holds Rep p n A a)
    (hB : Holds Rep p n B b) (hC : Holds RepC p n C c) (α β : R)
    {can : Conf (Res (Buf τ)) (Res τ) → Nat → Prop} (hcan : Fair O p α β can) {k : Nat}
    {conf : Conf (Res (Buf τ)) (Res τ)} (h : ProductReaches O p A B C α β can k conf) :
    k ≤ 6 * p * (p * p) ∧ (ProductStuck O p α β can conf → ProductDone RepC p n conf a b c α β) := by
  obtain ⟨h1, h2⟩ := Net.Reach.correct (cannon_matched O p α β) hcan h
  refine ⟨?_, fun hstuck i j hi hj => ?_⟩
  · have : 3 * (2 * p) * (p * p) = 6 * p * (p * p) := by ring
    rw [← this]; exact h1
  · obtain ⟨t, e, ht⟩ := cannon_sync (α := α) (β := β) hO hA hB hC hi hj
    exact ⟨t, ((h2 hstuck _ (rankOf_lt hi hj)).2.1).trans e, ht⟩

/-- **C42**, dense local matrices: on every `p × p` grid of tiles with at least one row, in every
execution, `bml_multiply` ends on all ranks with `C = alpha A B + beta C`; there is no deadlock. -/
theorem C42_dense_multiply [DecidableEq R] {p n : Nat} (hn : 0 < n) {A B C : Nat → Dense R}
    {a b c : Spec.Mat R} (hA : Holds (fun A a => A.Represents n a) p n A a)
    (hB : Holds (fun A a => A.Represents n a) p n B b)
    (hC : Holds (fun A a => A.Represents n a) p n C c) (α β : R) (junk : Nat → Nat → Nat → R)
    {can : Conf (Res (Buf (Dense R))) (Res (Dense R)) → Nat → Prop}
    (hcan : Fair (denseOps junk) p α β can) {k : Nat}
    {conf : Conf (Res (Buf (Dense R))) (Res (Dense R))}
    (h : ProductReaches (denseOps junk) p A B C α β can k conf) :
    k ≤ 6 * p * (p * p) ∧ (ProductStuck (denseOps junk) p α β can conf →
      ProductDone (fun A a => A.Represents n a) p n conf a b c α β) :=
  cannon_correct (denseOps_exact junk hn) hA hB hC α β hcan h

/-- **C42**, ELLPACK local matrices with room for full rows (`n ≤ M`), and threshold `0`
(`big x` is false only for `x = 0`); every schedule of the local loops. -/
theorem C42_ellpack_multiply_partial [DecidableEq R] {p n M : Nat} (hM : n ≤ M) {A B C : Nat → Ell R}
    {a b c : Spec.Mat R} (hA : Holds (fun A a => A.Represents n a ∧ A.M = M) p n A a)
    (hB : Holds (fun A a => A.Represents n a ∧ A.M = M) p n B b)
    (hC : Holds (fun A a => A.Represents n a ∧ A.M = M) p n C c) (α β : R) {run : EllRun R}
    (hrun : run.Ok n) {big : R → Bool} (h0 : ∀ x, big x = false → x = 0)
    {can : Conf (Res (Buf (Ell R))) (Res (Ell R)) → Nat → Prop}
    (hcan : Fair (ellOps run big) p α β can) {k : Nat}
    {conf : Conf (Res (Buf (Ell R))) (Res (Ell R))}
    (h : ProductReaches (ellOps run big) p A B C α β can k conf) :
    k ≤ 6 * p * (p * p) ∧ (ProductStuck (ellOps run big) p α β can conf →
      ProductDone (fun A a => A.Represents n a ∧ A.M = M) p n conf a b c α β) :=
  cannon_correct (ellOps_exact hrun hM h0) hA hB hC α β hcan h

/-- **C42**, CSR local matrices, threshold `0`.  `n ≤ 2 M` makes the receive buffers large enough,
rows of `C` with room for `n` entries avoid the overflow in `bml_add` (C08), and `n ≤ 174762` is the
limit of its hash table (C26). -/
theorem C42_csr_multiply_partial {p n M : Nat} (hM : n ≤ M * 2) (hn : n ≤ 174762)
    {A B C : Nat → Csr R}
    {a b c : Spec.Mat R} (hA : Holds (fun A a => A.Represents n a ∧ A.M = M) p n A a)
    (hB : Holds (fun A a => A.Represents n a ∧ A.M = M) p n B b)
    (hC : Holds (fun A a => A.Represents n a ∧ ∀ i, i < n → n ≤ (A.data.get i).alloc) p n C c)
    (α β : R) {run : CsrRun R} (hrun : run.Ok n) {big big0 : R → Bool}
    (h0 : ∀ x, big x = false → x = 0) (h0' : ∀ x, big0 x = false → x = 0)
    {can : Conf (Res (Buf (Csr R))) (Res (Csr R)) → Nat → Prop}
    (hcan : Fair (csrOps run big big0) p α β can) {k : Nat}
    {conf : Conf (Res (Buf (Csr R))) (Res (Csr R))}
    (h : ProductReaches (csrOps run big big0) p A B C α β can k conf) :
    k ≤ 6 * p * (p * p) ∧ (ProductStuck (csrOps run big big0) p α β can conf →
      ProductDone (fun A a => A.Represents n a ∧ ∀ i, i < n → n ≤ (A.data.get i).alloc) p n conf
        a b c α β) :=
  cannon_correct (csrOps_exact hrun hM hn h0 h0') hA hB hC α β hcan h

/-- Executions that end exist, for every fair rule. -/
theorem product_ends {τ : Type} (O : Ops τ R) (p : Nat) (A B C : Nat → τ) (α β : R)
    {can : Conf (Res (Buf τ)) (Res τ) → Nat → Prop} (hcan : Fair O p α β can) :
    ∃ k conf, ProductReaches O p A B C α β can k conf ∧ ProductStuck O p α β can conf :=
  Net.exists_final (cannon_matched O p α β) hcan _

/-- A distributed matrix made of dense tiles. -/
def denseTiles (p n : Nat) (a : Spec.Mat R) (r : Nat) : Dense R :=
  Dense.ofMat n (tile n (prow p r) (pcol p r) a)

theorem denseTiles_holds (p n : Nat) (a : Spec.Mat R) :
    Holds (fun A a => A.Represents n a) p n (denseTiles p n a) a := by
  intro i j hi hj
  unfold denseTiles
  rw [prow_rankOf hj, pcol_rankOf hj]
  exact Dense.ofMat_rep n _

/-- A `4 × 4` matrix on a `2 × 2` grid. -/
def exG : Spec.Mat Int := fun i j => (i : Int) * 4 + j + 1

example : ∃ k conf, ProductReaches (denseOps fun _ _ _ => (7 : Int)) 2 (denseTiles 2 2 exG)
      (denseTiles 2 2 exG) (denseTiles 2 2 exG) 2 (-1) (fun _ _ => True) k conf ∧
    (∃ buf, conf.st 2 = .ok buf ∧ buf.c.getElement 1 0 = .ok 839) := by
  obtain ⟨k, conf, h, hs⟩ := product_ends (denseOps fun _ _ _ => (7 : Int)) 2 (denseTiles 2 2 exG)
      (denseTiles 2 2 exG) (denseTiles 2 2 exG) 2 (-1) (can := fun _ _ => True) (fun _ _ _ => trivial)
  obtain ⟨buf, e, hb⟩ := (C42_dense_multiply (by omega) (denseTiles_holds 2 2 exG)
    (denseTiles_holds 2 2 exG) (denseTiles_holds 2 2 exG) 2 (-1) (fun _ _ _ => 7)
    (fun _ _ _ => trivial) h).2 hs 1 0 (by omega) (by omega)
  exact ⟨k, conf, h, buf, e, (hb.get 1 0 (by omega) (by omega)).trans (by decide)⟩

/-- Two by two copies of the example matrix. -/
def exE : Spec.Mat Int := fun i j => exa (i % 3) (j % 3)

theorem exE_holds : Holds (fun A a => A.Represents 3 a ∧ A.M = 4) 2 3 (fun _ => exA) exE := by
  intro i j _ _
  refine ⟨exA_rep.congr fun r s hr hs => ?_, rfl⟩
  unfold tile exE
  rw [Nat.mul_add_mod', Nat.mul_add_mod', Nat.mod_eq_of_lt hr, Nat.mod_eq_of_lt hs]

/-- Schedules and uninitialised memory for the example. -/
def exRun : EllRun Int := ⟨fun _ _ => exSched, fun _ _ => exSched, fun _ _ => exSched,
  fun _ _ _ => 5, fun _ _ _ => 9⟩

example : ∃ k conf, ProductReaches (ellOps exRun fun x => decide (x ≠ 0)) 2 (fun _ => exA)
      (fun _ => exA) (fun _ => exA) 2 (-1) (fun _ _ => True) k conf ∧
    (∃ buf, conf.st 2 = .ok buf ∧
      buf.c.getElement 1 0 = .ok (2 * Spec.mul 6 exE exE 4 0 - exE 4 0)) ∧
    Spec.mul 6 exE exE 4 0 ≠ 0 := by
  obtain ⟨k, conf, h, hs⟩ := product_ends (ellOps exRun fun x => decide (x ≠ 0)) 2 (fun _ => exA)
      (fun _ => exA) (fun _ => exA) 2 (-1) (can := fun _ _ => True) (fun _ _ _ => trivial)
  obtain ⟨buf, e, hb⟩ := (C42_ellpack_multiply_partial (by omega) exE_holds exE_holds exE_holds 2 (-1)
    (run := exRun) ⟨fun _ _ => exSched_ok, fun _ _ => exSched_ok, fun _ _ => exSched_ok⟩
    (fun x hx => by simpa using hx) (fun _ _ _ => trivial) h).2 hs 1 0 (by omega) (by omega)
  exact ⟨k, conf, h, ⟨buf, e, (hb.1.get 1 0 (by omega) (by omega)).trans (by decide)⟩, by decide⟩

/-- Two by two copies of the CSR example matrix. -/
def exCE : Spec.Mat Int := fun i j => exCm (i % 2) (j % 2)

theorem exCE_holds : Holds (fun A a => A.Represents 2 a ∧ A.M = exC.M) 2 2 (fun _ => exC) exCE := by
  intro i j _ _
  refine ⟨exC_rep.congr fun r s hr hs => ?_, rfl⟩
  unfold tile exCE
  rw [Nat.mul_add_mod', Nat.mul_add_mod', Nat.mod_eq_of_lt hr, Nat.mod_eq_of_lt hs]

/-- Schedules and uninitialised memory for the example. -/
def exCRun : CsrRun Int := ⟨fun _ _ => seqSched 0 2, fun _ _ => [(1, 1), (0, 0)],
  fun _ _ => seqSched 0 2, fun _ _ _ => CsrRow.zero 0, fun _ _ _ _ => 5, fun _ _ _ _ => 9,
  fun _ _ _ => ⟨none, 0, 0⟩⟩

example : ∃ k conf, ProductReaches (csrOps exCRun (fun x => decide (x ≠ 0)) fun x => decide (x ≠ 0)) 2
      (fun _ => exC) (fun _ => exC) (fun _ => exC) 2 (-1) (fun _ _ => True) k conf ∧
    (∃ buf, conf.st 2 = .ok buf ∧
      buf.c.getElement 1 0 = .ok (2 * Spec.mul 4 exCE exCE 3 0 - exCE 3 0)) ∧
    Spec.mul 4 exCE exCE 3 0 ≠ 0 := by
  obtain ⟨k, conf, h, hs⟩ := product_ends (csrOps exCRun (fun x => decide (x ≠ 0)) fun x => decide (x ≠ 0))
      2 (fun _ => exC) (fun _ => exC) (fun _ => exC) 2 (-1) (can := fun _ _ => True) (fun _ _ _ => trivial)
  obtain ⟨buf, e, hb⟩ := (C42_csr_multiply_partial (by decide) (by omega) exCE_holds exCE_holds
    (fun i j hi hj => ⟨(exCE_holds i j hi hj).1, by decide⟩) 2 (-1)
    (run := exCRun) ⟨fun _ _ => isSched_seq 0 2, fun _ _ => List.Perm.swap 0 1 [], fun _ _ => isSched_seq 0 2⟩
    (fun x hx => by simpa using hx) (fun x hx => by simpa using hx)
    (fun _ _ _ => trivial) h).2 hs 1 0 (by omega) (by omega)
  exact ⟨k, conf, h, ⟨buf, e, (hb.1.get 1 0 (by omega) (by omega)).trans (by decide)⟩, by decide⟩

/-! ## C57 -/

/-- **C57**, dense: the receiver of `bml_mpi_send` gets the sender's matrix (`bml_mpi_recv` and
`bml_mpi_irecv`), whatever it held before. -/
theorem C57_dense_send_recv {N : Nat} {A B : Dense R} {a b : Spec.Mat R} (hA : A.Represents N a)
    (hB : B.Represents N b) : ∃ B', (A.mpiSend >>= fun m => B.mpiRecv m) = .ok B' ∧ B'.Represents N a := by
  obtain ⟨B', e, h⟩ := Res.wp_exists (Dense.wp_deliver (E := False) (Dense.represents_iff.1 hA)
    (Dense.represents_iff.1 hB))
  exact ⟨B', e, Dense.represents_iff.2 h⟩

example : ∃ B', ((Dense.ofMat 2 exD).mpiSend >>= fun m => (Dense.zeroMatrix 2).mpiRecv m) = .ok B' ∧
    B'.getElement 0 1 = .ok (exD 0 1) := by
  obtain ⟨B', e, h⟩ := C57_dense_send_recv (Dense.ofMat_rep 2 exD) (C32_dense_zero 2)
  exact ⟨B', e, h.get 0 1 (by omega) (by omega)⟩

/-- **C57**, ELLPACK, for a receiver of the same dimensions. -/
theorem C57_ellpack_send_recv {N : Nat} {A B : Ell R} {a b : Spec.Mat R} (hA : A.Represents N a)
    (hB : B.Represents N b) (hM : B.M = A.M) :
    ∃ B', (A.mpiSend >>= fun m => B.mpiRecv m) = .ok B' ∧ B'.M = A.M ∧ B'.Represents N a := by
  have hA' := Ell.represents_iff.1 hA
  have hB' := Ell.represents_iff.1 hB
  obtain ⟨B', e, h⟩ := Res.wp_exists (Ell.wp_deliver (E := False) hA'.shape hB'.shape
    (hB'.dim.trans hA'.dim.symm) hM)
  exact ⟨B', e, h.M, Ell.represents_iff.2 (h.rep hA')⟩

example : ∃ B', (exA.mpiSend >>= fun m => exB.mpiRecv m) = .ok B' ∧ B'.M = exA.M ∧
    B'.Represents 3 exa := C57_ellpack_send_recv exA_rep exB_rep rfl

/-- **C57**, CSR, `bml_mpi_irecv`: the receiver gets the sender's matrix if the stored entries are
not more than `2 M N`, where `M` is the receiver's.  Entries that are stored zeros are not stored at
the receiver. -/
theorem C57_csr_send_irecv {N : Nat} {A B : Csr R} {a b : Spec.Mat R} (hA : A.Represents N a)
    (hB : B.Represents N b) {big0 : R → Bool} (h0 : ∀ x, big0 x = false → x = 0)
    (hfit : ∑ i ∈ Finset.range N, (A.data.get i).nnz ≤ B.M * N * 2) :
    ∃ B', (A.mpiSend >>= fun m => B.mpiIrecv m big0) = .ok B' ∧ B'.M = B.M ∧ B'.Represents N a := by
  obtain ⟨B', e, -, h1, h2⟩ := Res.wp_exists (Csr.wp_deliver (E := False) (Csr.represents_iff.1 hA)
    (Csr.represents_iff.1 hB) h0 (fun h => by unfold Csr.start at h; omega))
  exact ⟨B', e, h1, Csr.represents_iff.2 h2⟩

/-- **C57**, CSR, `bml_mpi_irecv`, more entries: the program ends with an MPI error. -/
theorem C57_csr_irecv_truncated {N : Nat} {A B : Csr R} {a b : Spec.Mat R} (hA : A.Represents N a)
    (hB : B.Represents N b) {big0 : R → Bool} (h0 : ∀ x, big0 x = false → x = 0)
    (hfit : B.M * N * 2 < ∑ i ∈ Finset.range N, (A.data.get i).nnz) :
    (A.mpiSend >>= fun m => B.mpiIrecv m big0) = .error := by
  rcases Res.wp_elim (Csr.wp_deliver (E := True) (Csr.represents_iff.1 hA)
    (Csr.represents_iff.1 hB) h0 (fun _ => trivial)) with ⟨B', -, h, -⟩ | ⟨h, -⟩
  · unfold Csr.start at h; omega
  · exact h

example : ∃ B', (exC.mpiSend >>= fun m => (Csr.newZero 2 1 : Csr Int).mpiIrecv m
    fun x => decide (x ≠ 0)) = .ok B' ∧ B'.M = 1 ∧ B'.Represents 2 exCm :=
  C57_csr_send_irecv exC_rep (C32_csr_zero 2 1) (fun x hx => by simpa using hx) (by decide)

/-- A full `3 × 3` matrix sent to a matrix made with `M = 1` (`bml_zero_matrix(csr, .., 3, 1, ..)`):
nine entries for a buffer of six. -/
def exCFull : Csr Int := Csr.ofRows 3 3 fun i => [(0, 1), (1, 2), (2, (i : Int) + 3)]

example : (exCFull.mpiSend >>= fun m => (Csr.newZero 3 1).mpiIrecv m fun x => decide (x ≠ 0)) =
    .error :=
  C57_csr_irecv_truncated (Csr.ofRows_rep (by decide)) (C32_csr_zero 3 1)
    (fun x hx => by simpa using hx) (by decide)

/-- **C57**, CSR, `bml_mpi_recv`: right if every row of the receiver has the space for the row it
gets.  Missing: larger rows. -/
theorem C57_csr_send_recv_partial {N : Nat} {A B : Csr R} {a b : Spec.Mat R} (hA : A.Represents N a)
    (hB : B.Represents N b) (hfit : ∀ i, i < N → (A.data.get i).nnz ≤ (B.data.get i).alloc) :
    ∃ B', (A.mpiSend >>= fun m => B.mpiRecv m) = .ok B' ∧ B'.M = B.M ∧ B'.Represents N a :=
  Csr.exists_of_wpM (Csr.wp_deliverBlocking (Csr.represents_iff.1 hA) (Csr.represents_iff.1 hB) hfit)

example : ∃ B', (exC.mpiSend >>= fun m => (Csr.newZero 2 1 : Csr Int).mpiRecv m) = .ok B' ∧
    B'.M = 1 ∧ B'.Represents 2 exCm :=
  C57_csr_send_recv_partial exC_rep (C32_csr_zero 2 1) (by decide)

/-- An `11 × 11` matrix whose first row is full. -/
def exWide : Csr Int := Csr.ofRows 11 11 fun i => if i = 0 then (List.range 11).map fun j => (j, 1) else []

/-- **C57 fails for CSR and `bml_mpi_recv`**: a row with more entries than the receiver's row has
space for is written beyond its end. -/
theorem C57_csr_recv_overflow : exWide.Represents 11 (fun i j => if i = 0 ∧ j < 11 then 1 else 0) ∧
    (Csr.newZero 11 1 : Csr Int).Represents 11 Spec.zero ∧
    (exWide.mpiSend >>= fun m => (Csr.newZero 11 1).mpiRecv m) = .ub := by
  refine ⟨?_, C32_csr_zero 11 1, Res.eq_ub_of_isUb (by decide +kernel)⟩
  refine Csr.represents_iff.2 ((Csr.represents_iff.1 (Csr.ofRows_rep (by decide))).congr ?_)
  intro i j hi hj
  have : ∀ i, i < 11 → ∀ j, j < 11 → SRow.den (if i = 0 then (List.range 11).map fun j => (j, (1 : Int))
      else []) j = if i = 0 ∧ j < 11 then 1 else 0 := by decide +kernel
  exact this i hi j hj

/-- **C57**, CSR, broadcast: every rank gets the root's matrix if it has a stored entry. -/
theorem C57_csr_bcast {N : Nat} {A B : Csr R} {a b : Spec.Mat R} (hA : A.Represents N a)
    (hB : B.Represents N b) {big0 : R → Bool} (h0 : ∀ x, big0 x = false → x = 0)
    (hpos : ∃ i j, i < N ∧ A.Stored i j) :
    ∃ B', (A.mpiSend >>= fun m => B.mpiBcast m big0) = .ok B' ∧ B'.M = B.M ∧ B'.Represents N a := by
  refine Csr.exists_of_wpM (Csr.wp_bcast (Csr.represents_iff.1 hA) (Csr.represents_iff.1 hB) h0 ?_)
  obtain ⟨i, j, hi, k, hk, -⟩ := hpos
  have h1 : (A.data.get i).nnz ≤ A.start N :=
    Finset.single_le_sum (f := fun i => (A.data.get i).nnz) (fun _ _ => Nat.zero_le _)
      (Finset.mem_range.2 hi)
  omega

example : ∃ B', (exC.mpiSend >>= fun m => (Csr.newZero 2 1 : Csr Int).mpiBcast m
    fun x => decide (x ≠ 0)) = .ok B' ∧ B'.M = 1 ∧ B'.Represents 2 exCm :=
  C57_csr_bcast exC_rep (C32_csr_zero 2 1) (fun x hx => by simpa using hx) ⟨0, 1, by decide, by decide⟩

/-- **C57 fails for CSR and the broadcast of a matrix without stored entries**: the assertion
`totnnz > 0` ends the program. -/
theorem C57_csr_bcast_empty {N : Nat} {A B : Csr R} {a : Spec.Mat R} (hA : A.Represents N a)
    (big0 : R → Bool) (h : ∀ i, i < N → (A.data.get i).nnz = 0) :
    (A.mpiSend >>= fun m => B.mpiBcast m big0) = .error :=
  Csr.bcast_empty (Csr.represents_iff.1 hA) big0
    (Finset.sum_eq_zero fun i hi => h i (Finset.mem_range.1 hi))

example : ((Csr.newZero 2 1 : Csr Int).mpiSend >>= fun m => exC.mpiBcast m fun x => decide (x ≠ 0)) =
    .error := C57_csr_bcast_empty (C32_csr_zero 2 1) _ (by decide)

/-- **C57**, `bml_mpi_recv_matrix`, dense: the new matrix is the sender's. -/
theorem C57_dense_recv_matrix {N : Nat} {A : Dense R} {a : Spec.Mat R} (hA : A.Represents N a) :
    ∃ B, (A.mpiSend >>= fun m => Dense.mpiRecvMatrix N m) = .ok B ∧ B.Represents N a :=
  C57_dense_send_recv hA (C32_dense_zero N)

/-- **C57**, `bml_mpi_recv_matrix`, ELLPACK, called with the sender's `N` and `M`. -/
theorem C57_ellpack_recv_matrix {N : Nat} {A : Ell R} {a : Spec.Mat R} (hA : A.Represents N a) :
    ∃ B, (A.mpiSend >>= fun m => Ell.mpiRecvMatrix N A.M m) = .ok B ∧ B.M = A.M ∧ B.Represents N a :=
  C57_ellpack_send_recv hA (Ell.represents_iff.2 (Ell.zero_rep N A.M)) rfl

/-- **C57**, `bml_mpi_recv_matrix`, CSR: a new row has space for `M` entries, and at least for ten. -/
theorem C57_csr_recv_matrix_partial {N M : Nat} {A : Csr R} {a : Spec.Mat R} (hA : A.Represents N a)
    (hfit : ∀ i, i < N → (A.data.get i).nnz ≤ max M 10) :
    ∃ B, (A.mpiSend >>= fun m => Csr.mpiRecvMatrix N M m) = .ok B ∧ B.M = M ∧ B.Represents N a :=
  C57_csr_send_recv_partial hA (C32_csr_zero N M) hfit

example : ∃ B, ((Dense.ofMat 2 exD).mpiSend >>= fun m => Dense.mpiRecvMatrix 2 m) = .ok B ∧
    B.getElement 1 0 = .ok (exD 1 0) := by
  obtain ⟨B', e, h⟩ := C57_dense_recv_matrix (Dense.ofMat_rep 2 exD)
  exact ⟨B', e, h.get 1 0 (by omega) (by omega)⟩

example : ∃ B, (exA.mpiSend >>= fun m => Ell.mpiRecvMatrix 3 exA.M m) = .ok B ∧ B.M = exA.M ∧
    B.Represents 3 exa := C57_ellpack_recv_matrix exA_rep

example : ∃ B, (exC.mpiSend >>= fun m => Csr.mpiRecvMatrix 2 1 m) = .ok B ∧ B.M = 1 ∧
    B.Represents 2 exCm := C57_csr_recv_matrix_partial exC_rep (by decide)

/-- **C57 fails for CSR and `bml_mpi_recv_matrix`**: eleven entries in a row, `M = 1`. -/
theorem C57_csr_recv_matrix_overflow :
    (exWide.mpiSend >>= fun m => Csr.mpiRecvMatrix 11 1 m) = .ub := C57_csr_recv_overflow.2.2

end Bml.Props
