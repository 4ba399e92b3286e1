import Verif.Props.Dist
import Verif.Dist.EllbFormats

/-!
# Properties C57 and C42 for block-ELLPACK matrices
-/

set_option linter.unusedSectionVars false

namespace Bml.Props

open Dist

variable {R : Type} [CommRing R]

/-! ## C57 -/

/-- **C57**, block-ELLPACK, `bml_mpi_send` with `bml_mpi_recv`: a receiver of the same shape gets the
sender's matrix, whatever it held before, if the stored blocks have at most `N M` elements.  Missing:
more elements (`C57_ellblock_send_overflow`); the blocks the receiver had are lost
(`C57_ellblock_recv_leaks`), its pointers stay (`C57_ellblock_recv_then_set`). -/
theorem C57_ellblock_send_recv_partial {N : Nat} {A B : EllB R} {a b : Spec.Mat R}
    (hA : A.Represents N a) (hB : B.Represents N b) (hM : B.M = A.M) (hNB : B.NB = A.NB)
    (hMB : B.MB = A.MB) (hbs : B.bsize = A.bsize) (hfit : A.stored ≤ N * A.M) :
    ∃ B', (A.mpiSend >>= fun m => B.mpiRecv m) = .ok B' ∧ EllB.Same B B' ∧ B'.Represents N a ∧
      (∀ ib jb, ib < A.NB → (B'.Has ib jb ↔ A.Has ib jb)) ∧
      ((∀ k, k < B.NB * B.MB → B.ptr.get k = none) → B'.Clean) := by
  obtain ⟨L, h⟩ := EllB.represents_iff.1 hA
  obtain ⟨K, h'⟩ := EllB.represents_iff.1 hB
  have hS : EllB.Same A B := ⟨hB.dim.trans hA.dim.symm, hM, hNB, hMB, hbs⟩
  obtain ⟨B', e, h1, h2, h3, ⟨L', h4, -⟩, h5⟩ := Res.wp_exists (h.wp_recv (E := False) h'.is hS
    (by rw [h.dim]; exact hfit))
  refine ⟨B', e, hS.symm.trans h1, EllB.represents_iff.2 ⟨L', h4⟩, fun ib jb hib => ?_, fun hp => h5 ?_⟩
  · exact EllB.has_congr h1 h2 h3 (h.is.le ib hib) (h.is.nz ib hib) hib
  · intro ib jp h1 _ h3
    exact hp _ (addr_lt h1 h3)

/-- **C57**, block-ELLPACK, `bml_mpi_irecv` with `bml_mpi_irecv_complete`. -/
theorem C57_ellblock_send_irecv_partial {N : Nat} {A B : EllB R} {a b : Spec.Mat R}
    (hA : A.Represents N a) (hB : B.Represents N b) (hM : B.M = A.M) (hNB : B.NB = A.NB)
    (hMB : B.MB = A.MB) (hbs : B.bsize = A.bsize) (hfit : A.stored ≤ N * A.M) :
    ∃ B', (A.mpiSend >>= fun m => B.mpiIrecv m) = .ok B' ∧ EllB.Same B B' ∧ B'.Represents N a ∧
      (∀ ib jb, ib < A.NB → (B'.Has ib jb ↔ A.Has ib jb)) ∧
      ((∀ k, k < B.NB * B.MB → B.ptr.get k = none) → B'.Clean) := by
  obtain ⟨L, h⟩ := EllB.represents_iff.1 hA
  obtain ⟨K, h'⟩ := EllB.represents_iff.1 hB
  have hS : EllB.Same A B := ⟨hB.dim.trans hA.dim.symm, hM, hNB, hMB, hbs⟩
  obtain ⟨B', e, h1, h2, h3, ⟨L', h4, -⟩, h5⟩ := Res.wp_exists (h.wp_deliver (E := False) h'.is hS
    (by rw [h.dim]; exact hfit))
  refine ⟨B', e, hS.symm.trans h1, EllB.represents_iff.2 ⟨L', h4⟩, fun ib jb hib => ?_, fun hp => h5 ?_⟩
  · exact EllB.has_congr h1 h2 h3 (h.is.le ib hib) (h.is.nz ib hib) hib
  · intro ib jp h1 _ h3
    exact hp _ (addr_lt h1 h3)

/-- **C57**, block-ELLPACK, broadcast: every rank (also the root) has the root's matrix afterwards. -/
theorem C57_ellblock_bcast_partial {N : Nat} {A B : EllB R} {a b : Spec.Mat R}
    (hA : A.Represents N a) (hB : B.Represents N b) (hM : B.M = A.M) (hNB : B.NB = A.NB)
    (hMB : B.MB = A.MB) (hbs : B.bsize = A.bsize) (h0 : 0 < A.NB) (h1 : 0 < A.MB)
    (hfit : A.stored ≤ N * A.M) :
    ∃ B', (A.mpiSend >>= fun m => B.mpiBcast m) = .ok B' ∧ EllB.Same B B' ∧ B'.Represents N a ∧
      (∀ ib jb, ib < A.NB → (B'.Has ib jb ↔ A.Has ib jb)) ∧
      ((∀ k, k < B.NB * B.MB → B.ptr.get k = none) → B'.Clean) := by
  obtain ⟨L, h⟩ := EllB.represents_iff.1 hA
  obtain ⟨K, h'⟩ := EllB.represents_iff.1 hB
  have hS : EllB.Same A B := ⟨hB.dim.trans hA.dim.symm, hM, hNB, hMB, hbs⟩
  obtain ⟨B', e, h1, h2, h3, ⟨L', h4, -⟩, h5⟩ := Res.wp_exists (h.wp_bcast (E := False) h'.is hS h0 h1
    (by rw [h.dim]; exact hfit))
  refine ⟨B', e, hS.symm.trans h1, EllB.represents_iff.2 ⟨L', h4⟩, fun ib jb hib => ?_, fun hp => h5 ?_⟩
  · exact EllB.has_congr h1 h2 h3 (h.is.le ib hib) (h.is.nz ib hib) hib
  · intro ib jp h1 _ h3
    exact hp _ (addr_lt h1 h3)

/-- The buffer is large enough if the matrix was made with `M = N`. -/
theorem C57_ellblock_fits {N : Nat} {A : EllB R} {a : Spec.Mat R} (hA : A.Represents N a) (hM : A.M = N) :
    A.stored ≤ N * A.M := by
  obtain ⟨L, h⟩ := EllB.represents_iff.1 hA
  rw [hM]
  exact h.stored_le

/-- `ebU`, sent to a matrix that holds something else. -/
example : ∃ B', (ebU.mpiSend >>= fun m => ebV.mpiRecv m) = .ok B' ∧
    B'.getElement 0 0 = .ok 5 ∧ B'.getElement 7 0 = .ok 0 := by
  obtain ⟨B', e, -, h, -⟩ := C57_ellblock_send_recv_partial ebU_spec.1 ebV_spec.1
    (ebV_spec.2.2.trans ebU_spec.2.2.symm) rfl rfl rfl (C57_ellblock_fits ebU_spec.1 ebU_spec.2.2)
  exact ⟨B', e, h.get 0 0 (by decide) (by decide), h.get 7 0 (by decide) (by decide)⟩

example : ∃ B', (ebU.mpiSend >>= fun m => ebV.mpiIrecv m) = .ok B' ∧
    B'.getElement 0 0 = .ok 5 ∧ B'.getElement 7 0 = .ok 0 := by
  obtain ⟨B', e, -, h, -⟩ := C57_ellblock_send_irecv_partial ebU_spec.1 ebV_spec.1
    (ebV_spec.2.2.trans ebU_spec.2.2.symm) rfl rfl rfl (C57_ellblock_fits ebU_spec.1 ebU_spec.2.2)
  exact ⟨B', e, h.get 0 0 (by decide) (by decide), h.get 7 0 (by decide) (by decide)⟩

example : ∃ B', (ebU.mpiSend >>= fun m => ebU.mpiBcast m) = .ok B' ∧
    B'.getElement 0 0 = .ok 5 ∧ B'.getElement 7 0 = .ok 0 := by
  obtain ⟨B', e, -, h, -⟩ := C57_ellblock_bcast_partial ebU_spec.1 ebU_spec.1
    rfl rfl rfl rfl (by decide) (by decide) (C57_ellblock_fits ebU_spec.1 ebU_spec.2.2)
  exact ⟨B', e, h.get 0 0 (by decide) (by decide), h.get 7 0 (by decide) (by decide)⟩

/-- **C57 fails for block-ELLPACK** and matrices whose stored blocks have more than `N M` elements:
`bml_mpi_send` writes beyond the end of its buffer. -/
theorem C57_ellblock_send_overflow {N : Nat} {A : EllB R} {a : Spec.Mat R} (hA : A.Represents N a)
    (hfit : N * A.M < A.stored) : A.mpiSend = .ub := by
  obtain ⟨L, h⟩ := EllB.represents_iff.1 hA
  exact EllB.mpiSend_ub h.is h.good (by rw [h.dim]; exact hfit)

/-- A `4 × 4` matrix made for one element per row, with one element stored: the block has 16 elements,
the buffer 4. -/
def ebN : EllB Int := match runB [(⟨1, 2, 7⟩ : BWrite Int)] (newB Int 4 1) with
  | .ok A => A
  | _ => newB Int 4 1

theorem ebN_spec : ebN.Represents 4 (mkBm [⟨1, 2, 7⟩]) ∧ ebN.M = 1 := by
  obtain ⟨h1, h2, h3, -⟩ := newB_spec (R := Int) (N := 4) (M := 1) (by decide) (by decide)
  obtain ⟨A', e, -, c2, c3⟩ := C38_history_full h1 h2 (by decide) [(⟨1, 2, 7⟩ : BWrite Int)] (by decide)
  unfold ebN
  rw [e]
  exact ⟨c3, c2.trans h3⟩

example : ebN.mpiSend = .ub := C57_ellblock_send_overflow ebN_spec.1 (by decide +kernel)

/-- **C57, a leak**: the blocks of the receiver are neither freed nor used again.  Here the block at
address `x` was the receiver's block `(0,0)`; it stays allocated and no pointer leads to it. -/
theorem C57_ellblock_recv_leaks : ∃ B' x, (ebT1.mpiSend >>= fun m => ebT1.mpiRecv m) = .ok B' ∧
    ebT1.ptr.get 0 = some x ∧ (B'.heap x).isSome = true ∧
    ∀ k, k < B'.ptr.size → B'.ptr.get k ≠ some x := by
  obtain ⟨B', e, h⟩ := Res.exists_okAnd (r := ebT1.mpiSend >>= fun m => ebT1.mpiRecv m)
    (p := fun B' => (B'.heap 0).isSome && decide (∀ k, k < B'.ptr.size → B'.ptr.get k ≠ some 0))
    (by decide +kernel)
  rw [Bool.and_eq_true] at h
  exact ⟨B', 0, e, by decide +kernel, h.1, of_decide_eq_true h.2⟩

/-- **C57, old pointers**: a matrix that held a block and receives the zero matrix ends the program in
the next `bml_set_element` (failed assertion), where the sender's matrix accepts it.  The same after a
broadcast. -/
theorem C57_ellblock_recv_then_set :
    (ebT.mpiSend >>= fun m => ebT1.mpiRecv m >>= fun B => B.setElement 0 0 5) = .error ∧
    (ebT.mpiSend >>= fun m => ebT1.mpiIrecv m >>= fun B => B.setElement 0 0 5) = .error ∧
    (ebT.mpiSend >>= fun m => ebT1.mpiBcast m >>= fun B => B.setElement 0 0 5) = .error ∧
    (ebT.setElement 0 0 5 >>= fun B => B.getElement 0 0) = .ok 5 :=
  ⟨Res.eq_error_of_isError (by decide +kernel), Res.eq_error_of_isError (by decide +kernel),
    Res.eq_error_of_isError (by decide +kernel), by decide +kernel⟩

/-- **C57**, block-ELLPACK, `bml_mpi_recv_matrix`, partial: the new matrix has the block sizes that are
set on the receiving rank; if they are those of the sender's matrix it is the sender's matrix.  Missing:
other block sizes (`C57_ellblock_recv_matrix_sizes`). -/
theorem C57_ellblock_recv_matrix_partial {N : Nat} {A : EllB R} {a : Spec.Mat R}
    (hA : A.Represents N a) (hM : A.M ≤ N) {g g' : EllB.Glob} (hg : g.For N A.M)
    (hb : EllB.getBlockSizes g N A.M = .ok (g', A.bsize)) (hNB : A.NB = g'.nb) (hMB : A.MB = g'.mb)
    (hfit : A.stored ≤ N * A.M) :
    ∃ B', (A.mpiSend >>= fun m => EllB.mpiRecvMatrix g N A.M m) = .ok (g', B') ∧ B'.M = A.M ∧
      B'.Represents N a ∧ B'.Clean := by
  obtain ⟨g1, b1, e, hs, e1⟩ := EllB.zeroMatrix_eq (R := R) (g := g) (N := N) (M := A.M) hg hM
  rw [hb] at e1
  cases e1
  obtain ⟨L, h⟩ := EllB.represents_iff.1 hA
  have eb : (⟨A.NB, A.bsize.get⟩ : Arr Nat) = A.bsize := by rw [← h.is.bs_size]
  rw [← hNB, ← hMB, eb] at e
  have hZ := EllB.empty_rows (R := R) (N := N) (M := A.M) (MB := A.MB) h.is.bs_size h.N_eq
  obtain ⟨B', e2, h1, h2, -, h3⟩ := C57_ellblock_send_recv_partial hA (EllB.represents_iff.2 ⟨_, hZ⟩) rfl
    rfl rfl rfl hfit
  refine ⟨B', ?_, h1.M, h2, h3 (fun _ _ => rfl)⟩
  cases em : A.mpiSend with
  | ok m =>
    rw [em, Res.bind_ok] at e2
    unfold EllB.mpiRecvMatrix
    rw [Res.bind_ok, e, Res.bind_ok]
    simp only
    rw [e2]
    rfl
  | error => rw [em] at e2; cases e2
  | ub => rw [em] at e2; cases e2

example : ∃ B', (ebU.mpiSend >>= fun m => EllB.mpiRecvMatrix ⟨some ebU.bsize, 2, 2⟩ 8 ebU.M m) =
    .ok (⟨some ebU.bsize, 2, 2⟩, B') ∧ B'.getElement 0 0 = .ok 5 := by
  obtain ⟨B', e, -, h, -⟩ := C57_ellblock_recv_matrix_partial ebU_spec.1 (le_of_eq ebU_spec.2.2)
    (g := ⟨some ebU.bsize, 2, 2⟩) (g' := ⟨some ebU.bsize, 2, 2⟩)
    (Or.inr ⟨_, rfl, by decide +kernel, by decide, by decide, by decide +kernel, by decide +kernel⟩) rfl rfl rfl
    (C57_ellblock_fits ebU_spec.1 ebU_spec.2.2)
  exact ⟨B', e, h.get 0 0 (by decide) (by decide)⟩

/-- **C57 fails for `bml_mpi_recv_matrix`** on a rank with other block sizes: the sender has blocks of
sizes 4 and 1, the receiver of sizes 1 and 4; nothing is reported, and the element `(1,1)` is lost. -/
theorem C57_ellblock_recv_matrix_sizes : ebX.getElement 1 1 = .ok 2 ∧
    ∃ r, (ebX.mpiSend >>= fun m => EllB.mpiRecvMatrix
      ⟨some ⟨2, fun k => if k = 0 then 1 else 4⟩, 2, 2⟩ 5 5 m) = .ok r ∧ r.2.getElement 1 1 = .ok 0 := by
  refine ⟨by decide +kernel, ?_⟩
  obtain ⟨r, e, h⟩ := Res.exists_okAnd (r := ebX.mpiSend >>= fun m => EllB.mpiRecvMatrix
      ⟨some ⟨2, fun k => if k = 0 then 1 else 4⟩, 2, 2⟩ 5 5 m)
    (p := fun r => decide (r.2.getElement 1 1 = .ok 0)) (by decide +kernel)
  exact ⟨r, e, of_decide_eq_true h⟩

/-! ## C42 -/

/-- **C42**, block-ELLPACK local matrices with blocks of one size `s ≤ 6`, made with `M = n` and with
room for all blocks in every block row, threshold `0`; the unused pointers of `C` are NULL. -/
theorem C42_ellblock_multiply_partial {p n s NB MB : Nat} {bs : Arr Nat} (h0 : 0 < NB) (hMB : NB ≤ MB)
    (hu : ∀ ib, ib < NB → bs.get ib = s) (hs : 0 < s ∧ s ≤ 6) {A B C : Nat → EllB R}
    {a b c : Spec.Mat R} (hA : Holds (BTile n NB MB bs) p n A a) (hB : Holds (BTile n NB MB bs) p n B b)
    (hC : Holds (fun C c => BTile n NB MB bs C c ∧ C.Clean) p n C c) (α β : R) {run : EllbRun R}
    (hrun : run.Ok NB) {nz big : R → Bool} (hnz : ∀ x, nz x = false → x = 0)
    (hbig : ∀ x, big x = false → x = 0) {can : Conf (Res (Buf (EllB R))) (Res (EllB R)) → Nat → Prop}
    (hcan : Fair (ellbOps run nz big) p α β can) {k : Nat}
    {conf : Conf (Res (Buf (EllB R))) (Res (EllB R))}
    (h : ProductReaches (ellbOps run nz big) p A B C α β can k conf) :
    k ≤ 6 * p * (p * p) ∧ (ProductStuck (ellbOps run nz big) p α β can conf →
      ProductDone (BTile n NB MB bs) p n conf a b c α β) := by
  have hC' : Holds (fun A a => BTile n NB MB bs A a ∧ A.Tidy ∧ A.Ample) p n C c := by
    intro i j hi hj
    obtain ⟨h1, h2⟩ := hC i j hi hj
    exact ⟨h1, C62_uniform_room (s := s) h1.rep h2 (fun ib hib => by
      rw [h1.bsize, hu ib (by rw [← h1.NB]; exact hib)])⟩
  obtain ⟨h1, h2⟩ := cannon_correct (ellbOps_exact hrun h0 hMB hu hs hnz hbig) hA hB hC' α β hcan h
  refine ⟨h1, fun hst i j hi hj => ?_⟩
  obtain ⟨buf, e, hb⟩ := h2 hst i j hi hj
  exact ⟨buf, e, hb.1⟩

/-- Two by two copies of `ebU` and of `ebV`. -/
def ebUE : Spec.Mat Int := fun i j => ebUm (i % 8) (j % 8)
def ebVE : Spec.Mat Int := fun i j => ebVm (i % 8) (j % 8)

theorem ebUE_holds : Holds (BTile 8 2 2 ebU.bsize) 2 8 (fun _ => ebU) ebUE := by
  intro i j _ _
  obtain ⟨L, h⟩ := EllB.represents_iff.1 ebU_spec.1
  refine ⟨EllB.represents_iff.2 ⟨L, h.congr fun r s hr hs => ?_⟩, ebU_spec.2.2, rfl, rfl, rfl⟩
  unfold tile ebUE
  rw [Nat.mul_add_mod', Nat.mul_add_mod', Nat.mod_eq_of_lt hr, Nat.mod_eq_of_lt hs]

theorem ebVE_holds : Holds (BTile 8 2 2 ebU.bsize) 2 8 (fun _ => ebV) ebVE := by
  intro i j _ _
  obtain ⟨L, h⟩ := EllB.represents_iff.1 ebV_spec.1
  refine ⟨EllB.represents_iff.2 ⟨L, h.congr fun r s hr hs => ?_⟩, ebV_spec.2.2, rfl, rfl, rfl⟩
  unfold tile ebVE
  rw [Nat.mul_add_mod', Nat.mul_add_mod', Nat.mod_eq_of_lt hr, Nat.mod_eq_of_lt hs]

/-- Global block sizes, schedules and uninitialised memory for the example. -/
def exBRun : EllbRun Int := ⟨⟨some ebU.bsize, 2, 2⟩, fun _ _ => [(0, 1), (1, 0)],
  fun _ _ => [(0, 0), (0, 1)], fun _ _ => [(1, 1), (0, 0)], fun _ _ _ => 9⟩

theorem exBRun_ok : exBRun.Ok 2 :=
  ⟨by decide, fun _ _ => show List.Perm [1, 0] [0, 1] by decide,
    fun _ _ => show List.Perm [0, 1] [0, 1] by decide, fun _ _ => show List.Perm [1, 0] [0, 1] by decide⟩

example : ∃ k conf, ProductReaches (ellbOps exBRun nzI nzI) 2 (fun _ => ebU) (fun _ => ebV)
      (fun _ => ebU) 2 (-1) (fun _ _ => True) k conf ∧
    (∃ buf, conf.st 2 = .ok buf ∧
      buf.c.getElement 0 7 = .ok (2 * Spec.mul 16 ebUE ebVE 8 7 - ebUE 8 7)) ∧
    Spec.mul 16 ebUE ebVE 8 7 ≠ 0 := by
  obtain ⟨k, conf, h, hs⟩ := product_ends (ellbOps exBRun nzI nzI) 2 (fun _ => ebU) (fun _ => ebV)
      (fun _ => ebU) 2 (-1) (can := fun _ _ => True) (fun _ _ _ => trivial)
  obtain ⟨buf, e, hb⟩ := (C42_ellblock_multiply_partial (NB := 2) (c := ebUE) (by decide)
    (by decide) ebU_bs (by decide) ebUE_holds ebVE_holds (fun i j hi hj => ⟨ebUE_holds i j hi hj, ebU_spec.2.1⟩) 2 (-1) exBRun_ok
    nzI_zero nzI_zero (fun _ _ _ => trivial) h).2 hs 1 0 (by omega) (by omega)
  exact ⟨k, conf, h, ⟨buf, e, (hb.rep.get 0 7 (by omega) (by omega)).trans (by decide)⟩, by decide⟩

end Bml.Props
