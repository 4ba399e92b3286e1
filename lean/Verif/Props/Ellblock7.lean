import Verif.Props.Ellblock3
import Verif.Props.Csr
import Verif.Ellblock.Ops25

/-!
# Property theorems: conversion to and submatrices of block-ELLPACK matrices (C66)

`g.Set N b`: the block sizes the library has in effect are `b`, and add up to `N`; `g.For N M`: they are
not set yet, or add up to `N`.  `EllB.off bs ib` is the first row of block `ib`.
`A.WindowFits irowb icolb nb n`: no block row of the window of `nb × nb` blocks that starts at block
`(irowb, icolb)` stores more than `n` blocks in the window.
-/

namespace Bml.Props

open Bml

variable {R : Type} [CommRing R]

/-! ## C66, conversion -/

/-- **C66**, conversion to block-ELLPACK from any format whose `bml_get_element` returns `a i j`: the
result has these elements, and stores all blocks.  The block sizes in effect must be unset or add up to
`N`. -/
theorem C66_convert_partial {g : EllB.Glob} {N M : Nat} (h : g.For N N) (hM : M ≤ N) {a : Spec.Mat R}
    {get : Nat → Nat → Res R} (hget : ∀ i j, i < N → j < N → get i j = .ok (a i j))
    (junk : Nat → R) :
    ∃ g' B, EllB.convert g N M get junk = .ok (g', B) ∧ B.Represents N a ∧ B.Clean ∧ B.M = M ∧
      B.NB ≤ B.MB ∧ ∀ ib jb, ib < B.NB → jb < B.NB → B.Has ib jb := by
  obtain ⟨⟨g', B⟩, e, b, L, -, -, h1, h2, h3, h4, h5, -, h6⟩ :=
    Res.wp_exists (EllB.wp_convert (E := False) h hM hget junk)
  exact ⟨g', B, e, EllB.represents_iff.2 ⟨L, h1⟩, h2, h3, by simp only at h4 h5; omega, h6⟩

/-- At program start. -/
example : ∃ g' B, EllB.convert EllB.Glob.init 2 1
      (fun i j => (Dense.ofMat 2 exD).getElement i j) (fun _ => 9) = .ok (g', B) ∧
    B.Represents 2 exD ∧ B.getElement 1 0 = .ok 3 := by
  obtain ⟨g', B, e, h, -⟩ := C66_convert_partial (g := EllB.Glob.init) (N := 2) (M := 1)
    (Or.inl ⟨rfl, by decide⟩) (by decide) (a := exD)
    (get := fun i j => (Dense.ofMat 2 exD).getElement i j)
    (fun i j hi hj => (Dense.ofMat_rep 2 exD).get i j hi hj) (fun _ => 9)
  exact ⟨g', B, e, h, h.get 1 0 (by decide) (by decide)⟩

/-- **C66**: dense to block-ELLPACK, and from there to dense and to CSR. -/
theorem C66_convert_round_trip_partial {g : EllB.Glob} {N M : Nat} (h : g.For N N) (hM : M ≤ N)
    {A : Dense R} {a : Spec.Mat R} (hA : A.Represents N a) (big0 : R → Bool)
    (h0 : ∀ x, big0 x = false → x = 0) (junk : Nat → R) (junk' : Nat → Nat) :
    ∃ g' B A' C, EllB.convert g N M (fun i j => A.getElement i j) junk = .ok (g', B) ∧
      Dense.convertFrom (fun i j => B.getElement i j) N = .ok A' ∧ A'.Represents N a ∧
      Csr.convertFrom (fun i => B.getRow i) N M big0 junk' = .ok C ∧ C.Represents N a := by
  obtain ⟨g', B, e, hB, -⟩ := C66_convert_partial h hM (fun i j hi hj => hA.get i j hi hj) junk
  obtain ⟨A', e', h'⟩ := C29_convert_dense (N := N) (get := fun i j => B.getElement i j) (a := a)
    fun i j hi hj => hB.get i j hi hj
  obtain ⟨C, e2, -, h2⟩ := C29_convert_csr (M := M) (a := a) (getRow := fun i => B.getRow i)
    (fun i hi => C54_get_row hB hi) big0 h0 junk'
  exact ⟨g', B, A', C, e, e', h', e2, h2⟩

example : ∃ g' B A' C, EllB.convert ⟨some ⟨2, fun _ => 1⟩, 2, 1⟩ 2 2
      (fun i j => (Dense.ofMat 2 exD).getElement i j) (fun _ => 9) = .ok (g', B) ∧
    Dense.convertFrom (fun i j => B.getElement i j) 2 = .ok A' ∧ A'.Represents 2 exD ∧
    Csr.convertFrom (fun i => B.getRow i) 2 2 (fun x => decide (x ≠ 0)) (fun _ => 0) = .ok C ∧
    C.Represents 2 exD :=
  C66_convert_round_trip_partial (Or.inr ⟨_, rfl, rfl, by decide, by decide, by decide, by decide⟩)
    (by decide) (Dense.ofMat_rep 2 exD) _ (by simp) _ _

/-- **C66 fails** if block sizes are in effect that do not add up to the size of the source matrix: the
result has the size of the block sizes.  A smaller size goes unnoticed: the rest of the source is lost. -/
theorem C66_convert_truncates {g : EllB.Glob} {NG N M : Nat} {b : Arr Nat} (hg : g.Set NG b)
    (hN : NG ≤ N) (hM : M ≤ NG) {a : Spec.Mat R} {get : Nat → Nat → Res R}
    (hget : ∀ i j, i < N → j < N → get i j = .ok (a i j)) (junk : Nat → R) :
    ∃ g' B, EllB.convert g N M get junk = .ok (g', B) ∧ B.N = NG ∧ B.Represents NG a := by
  obtain ⟨⟨g', B⟩, e, b', L, -, -, h1, -⟩ :=
    Res.wp_exists (EllB.wp_convert (E := False) (hg.for NG) hM
      (fun i j hi hj => hget i j (by omega) (by omega)) junk)
  refine ⟨g', B, ?_, h1.dim, EllB.represents_iff.2 ⟨L, h1⟩⟩
  rw [← e]
  unfold EllB.convert EllB.getBlockSizes
  rw [hg.bsize]

/-- A 2×2 matrix becomes a 1×1 matrix. -/
example : ∃ g' B, EllB.convert ⟨some ⟨1, fun _ => 1⟩, 1, 1⟩ 2 1
      (fun i j => (Dense.ofMat 2 exD).getElement i j) (fun _ => 9) = .ok (g', B) ∧ B.N = 1 := by
  obtain ⟨g', B, e, h, -⟩ := C66_convert_truncates (g := ⟨some ⟨1, fun _ => 1⟩, 1, 1⟩) (NG := 1)
    (b := ⟨1, fun _ => 1⟩) ⟨rfl, rfl, by decide, by decide, by decide, by decide⟩ (N := 2) (M := 1)
    (by decide) (by decide) (a := exD) (get := fun i j => (Dense.ofMat 2 exD).getElement i j)
    (fun i j hi hj => (Dense.ofMat_rep 2 exD).get i j hi hj) (fun _ => 9)
  exact ⟨g', B, e, h⟩

/-- `M` larger than the matrix ends the program. -/
theorem C66_convert_M {g : EllB.Glob} {N M : Nat} (h : g.For N N) (hM : N < M)
    (get : Nat → Nat → Res R) (junk : Nat → R) : EllB.convert g N M get junk = .error := by
  obtain ⟨g', b, e, hs⟩ := EllB.wp_getBlockSizes h (le_refl _)
  unfold EllB.convert
  rw [e, Res.bind_ok]
  simp only
  unfold EllB.blockMatrix
  rw [if_neg (by have := hs.nb; omega), if_neg (by have := hs.nb; omega),
    EllB.wp_blockSum (by rw [hs.size]) hs.small, Res.bind_ok, hs.sum, if_pos (by omega)]
  rfl

example : EllB.convert EllB.Glob.init 2 3 (fun i j => (Dense.ofMat 2 exD).getElement i j)
    (fun _ => 9) = .error := C66_convert_M (Or.inl ⟨rfl, by decide⟩) (by decide) _ _

/-! ## C66, extraction -/

/-- **C66**, `bml_extract_submatrix`, partial: the window of `nb × nb` blocks at block
`(irowb, icolb)` appears in the upper left corner of the result, whose other elements are zero.  The
block sizes in effect, the first block sizes of `A`, and those of the window in rows and columns must be
the same, and the blocks must fit into the block rows.  Missing: the result is not of the size asked
for (`C66_extract_dim`); different block sizes give a damaged result (`C66_extract_sizes`); missing
room is not reported (`C66_extract_room`); the window must consist of whole blocks
(`C66_extract_aligned`). -/
theorem C66_extract_partial {N : Nat} {A : EllB R} {a : Spec.Mat R} (hA : A.Represents N a)
    (hpos : ∀ ib, ib < A.NB → 0 < A.bsize.get ib) {irowb icolb nb : Nat}
    (hrow : irowb + nb ≤ A.NB) (hcol : icolb + nb ≤ A.NB) {g : EllB.Glob} {NG : Nat} {b : Arr Nat}
    (hg : g.Set NG b) (hnb : nb ≤ g.nb) (hsz : ∀ k, k < nb → A.bsize.get k = b.get k ∧
      A.bsize.get (irowb + k) = b.get k ∧ A.bsize.get (icolb + k) = b.get k)
    (hfit : A.WindowFits irowb icolb nb g.mb) {irow icol BN BM : Nat}
    (hir : irow = EllB.off A.bsize.get irowb) (hic : icol = EllB.off A.bsize.get icolb)
    (hBN : BN = EllB.off A.bsize.get nb) (hBM : BM ≤ BN) :
    ∃ B, EllB.extract g A irow icol BN BM = .ok (g, B) ∧ B.N = NG ∧ B.M = BM ∧ B.Clean ∧
      B.Represents NG (fun i j => if i < BN ∧ j < BN then a (irow + i) (icol + j) else 0) ∧
      ∀ ib jb, ib < nb → jb < nb → (B.Has ib jb ↔ A.Has (irowb + ib) (icolb + jb)) := by
  subst hir hic hBN
  obtain ⟨L, h⟩ := EllB.represents_iff.1 hA
  obtain ⟨⟨g', B⟩, e, h1, -, -, h2, -, h3, ⟨LB, h4⟩, h5⟩ :=
    Res.wp_exists (h.wp_extract (E := False) hpos hrow hcol hg hnb hsz hfit hBM)
  simp only at h1 h2 h3 h4 h5
  subst h1
  exact ⟨B, e, h4.dim, h2, h3, EllB.represents_iff.2 ⟨LB, h4⟩, h5⟩

theorem windowFits_of_le {A : EllB R} {irowb icolb nb n : Nat} (h : nb ≤ n) :
    A.WindowFits irowb icolb nb n :=
  fun _ _ => ⟨Finset.range nb, by rw [Finset.card_range]; exact h, fun _ hc _ =>
    Finset.mem_range.2 hc⟩

/-- The block sizes of `ebU`, two blocks of size 4. -/
def ebUg : EllB.Glob := ⟨some ⟨2, fun _ => 4⟩, 2, 2⟩

theorem ebUg_set : ebUg.Set 8 ⟨2, fun _ => 4⟩ := ⟨rfl, rfl, by decide, by decide, by decide, by decide⟩

theorem ebU_sizes (s : Nat) (hs : s < 2) : ∀ k, k < 1 → ebU.bsize.get k = 4 ∧
    ebU.bsize.get (s + k) = 4 ∧ ebU.bsize.get k = 4 := by
  intro k hk
  exact ⟨ebU_bs k (show k < 2 by omega), ebU_bs (s + k) (show s + k < 2 by omega),
    ebU_bs k (show k < 2 by omega)⟩

/-- The upper right block of `ebU`. -/
theorem ebU_extract : ∃ B, EllB.extract ebUg ebU 0 4 4 4 = .ok (ebUg, B) ∧ B.N = 8 ∧
    B.getElement 0 3 = .ok 1 ∧ B.getElement 0 7 = .ok 0 := by
  obtain ⟨B, e, h1, -, -, h2, -⟩ := C66_extract_partial ebU_spec.1
    (fun ib hib => by rw [ebU_bs ib hib]; decide) (irowb := 0) (icolb := 1) (nb := 1)
    (by decide) (by decide) ebUg_set (by decide)
    (fun k hk => by
      have h1 := ebU_sizes 0 (by decide) k hk
      have h2 := ebU_sizes 1 (by decide) k hk
      exact ⟨h1.1, h1.2.1, h2.2.1⟩)
    (windowFits_of_le (by decide)) (irow := 0) (icol := 4) (BN := 4) (BM := 4)
    (by decide +kernel) (by decide +kernel) (by decide +kernel) (by decide)
  exact ⟨B, e, h1, h2.get 0 3 (by decide) (by decide), h2.get 0 7 (by decide) (by decide)⟩

/-- **C66 fails** for the size of the result: whatever size is asked for, the extracted matrix has
the size that belongs to the block sizes in effect; in a program that has created one block-ELLPACK
matrix, that of the first such matrix. -/
theorem C66_extract_dim {g : EllB.Glob} {NG : Nat} {b : Arr Nat} (hg : g.Set NG b) (A : EllB R)
    (irow icol BN BM : Nat) : (EllB.extract g A irow icol BN BM).wlp (fun r => r.2.N = NG) := by
  intro r hr
  unfold EllB.extract EllB.zeroMatrix at hr
  by_cases hBM : BN ≥ BM
  · rw [if_neg (by omega)] at hr
    have e1 : EllB.getBlockSizes g BN BM = .ok (g, b) := by
      unfold EllB.getBlockSizes
      rw [hg.bsize]
    rw [e1, Res.bind_ok] at hr
    simp only at hr
    by_cases hM : BM ≤ NG
    · rw [hg.blockMatrix hM, Res.bind_ok] at hr
      simp only at hr
      have hkeep : ∀ irowb icolb nb ib ind jb (B : EllB R),
          (EllB.extractPut A irowb icolb nb ib ind jb B).wlp (fun B' => B'.N = B.N) := by
        intro irowb icolb nb ib ind jb B
        unfold EllB.extractPut EllB.alloc EllB.setIndex EllB.setNnzb
        split
        · simp only [Res.wlp_bind, Res.pure_eq, Res.wlp_ok]
          intro _ _ _ _ _ _ _ _ _ _ _ _ _ _ _ _
          trivial
        · exact Res.wlp_ok.2 rfl
      cases e2 : EllB.blockAt A.bsize irow with
      | ok irowb =>
        rw [e2, Res.bind_ok] at hr
        cases e3 : EllB.blockAt A.bsize icol with
        | ok icolb =>
          rw [e3, Res.bind_ok] at hr
          cases e4 : EllB.countTo A.bsize BN (A.bsize.size + 1) 0 0 with
          | ok nb =>
            rw [e4, Res.bind_ok] at hr
            have hloop : (loopFrom irowb (irowb + nb.1)
                (EllB.empty NG BM g.nb g.mb ⟨g.nb, b.get⟩ : EllB R) fun ib B =>
                A.eachIdx ib B (EllB.extractPut A irowb icolb nb.1 ib)).wlp (fun B => B.N = NG) := by
              unfold loopFrom
              refine wlp_loop (fun _ (B : EllB R) => B.N = NG) rfl ?_
              intro k _ B hB
              unfold EllB.eachIdx
              rw [Res.wlp_bind]
              intro n _
              refine wlp_loop (fun _ (B : EllB R) => B.N = NG) hB ?_
              intro k' _ B' hB'
              rw [Res.wlp_bind]
              intro jb _
              exact Res.wlp_mono (hkeep _ _ _ _ _ _ _) (fun B2 h2 => h2.trans hB')
            cases e5 : loopFrom irowb (irowb + nb.1)
                (EllB.empty NG BM g.nb g.mb ⟨g.nb, b.get⟩ : EllB R) fun ib B =>
                A.eachIdx ib B (EllB.extractPut A irowb icolb nb.1 ib) with
            | ok B =>
              rw [e5] at hr
              cases hr
              exact hloop B e5
            | error => rw [e5] at hr; cases hr
            | ub => rw [e5] at hr; cases hr
          | error => rw [e4] at hr; cases hr
          | ub => rw [e4] at hr; cases hr
        | error => rw [e3] at hr; cases hr
        | ub => rw [e3] at hr; cases hr
      | error => rw [e2] at hr; cases hr
      | ub => rw [e2] at hr; cases hr
    · unfold EllB.blockMatrix at hr
      rw [if_neg (by have := hg.nb; omega), if_neg (by have := hg.mb; omega),
        EllB.wp_blockSum (by rw [hg.size]) hg.small, Res.bind_ok, hg.sum, if_pos (by omega)] at hr
      cases hr
  · rw [if_pos (by omega)] at hr
    cases hr

/-- In the example above a 4×4 matrix was asked for, and an 8×8 matrix returned. -/
example : ∃ B, EllB.extract ebUg ebU 0 4 4 4 = .ok (ebUg, B) ∧ B.N = 8 ∧ B.N ≠ 4 := by
  obtain ⟨B, e, h, -⟩ := ebU_extract
  exact ⟨B, e, C66_extract_dim ebUg_set ebU 0 4 4 4 _ e, by rw [h]; decide⟩

/-- A window that does not start with a block ends the program. -/
theorem C66_extract_aligned {N : Nat} {A : EllB R} {a : Spec.Mat R} (hA : A.Represents N a)
    {g : EllB.Glob} {NG : Nat} {b : Arr Nat} (hg : g.Set NG b) {irow BN BM : Nat} (hBM : BM ≤ BN)
    (hM : BM ≤ NG) (hir : irow ≤ N) (hno : ∀ k, k ≤ A.NB → EllB.off A.bsize.get k ≠ irow)
    (icol : Nat) : EllB.extract g A irow icol BN BM = .error := by
  obtain ⟨L, h⟩ := EllB.represents_iff.1 hA
  unfold EllB.extract EllB.zeroMatrix
  rw [if_neg (by omega)]
  have e1 : EllB.getBlockSizes g BN BM = .ok (g, b) := by
    unfold EllB.getBlockSizes
    rw [hg.bsize]
  rw [e1, Res.bind_ok]
  simp only
  rw [hg.blockMatrix hM, Res.bind_ok]
  simp only
  rw [EllB.blockAt_error (by rw [h.is.bs_size, h.N_eq]; exact hir) (by rw [h.is.bs_size]; exact hno)]
  rfl

example : EllB.extract ebUg ebU 2 0 4 4 = .error :=
  C66_extract_aligned ebU_spec.1 ebUg_set (by decide) (by decide) (by decide) (by decide +kernel) 0

/-- With blocks of the sizes 4 and 1, the last diagonal element is extracted into a block of 16
elements; reading the result then leaves the allocation. -/
theorem C66_extract_sizes : ∃ r, EllB.extract ⟨some ebA.bsize, 2, 2⟩ ebA 4 4 1 1 = .ok r ∧
    r.2.getElement 0 0 = .ok 2 ∧ r.2.getElement 1 0 = .ub := by
  obtain ⟨r, h1, h2⟩ := Res.exists_okAnd
    (r := EllB.extract ⟨some ebA.bsize, 2, 2⟩ ebA 4 4 1 1)
    (p := fun r => decide (r.2.getElement 0 0 = .ok 2) && decide (r.2.getElement 1 0 = .ub))
    (by decide +kernel)
  rw [Bool.and_eq_true] at h2
  exact ⟨r, h1, of_decide_eq_true h2.1, of_decide_eq_true h2.2⟩

/-- A converted matrix has room for all blocks of a block row, a matrix of `bml_zero_matrix` maybe for
fewer: extracting all of a full 2×2 matrix, with room for one block per row, writes behind the end of an
array. -/
theorem C66_extract_room : ∃ r, EllB.convert ⟨some ⟨2, fun _ => 1⟩, 2, 1⟩ 2 2
      (fun i j => (Dense.ofMat 2 exD).getElement i j) (fun _ => 9) = .ok r ∧
    EllB.extract r.1 r.2 0 0 2 2 = .ub := by
  obtain ⟨r, h1, h2⟩ := Res.exists_okAnd
    (r := EllB.convert ⟨some ⟨2, fun _ => 1⟩, 2, 1⟩ 2 2
      (fun i j => (Dense.ofMat 2 exD).getElement i j) (fun _ => 9))
    (p := fun r => (EllB.extract r.1 r.2 0 0 2 2).isUb) (by decide +kernel)
  exact ⟨r, h1, Res.eq_ub_of_isUb h2⟩

/-! ## C66, assignment -/

/-- **C66**, `bml_assign_submatrix`, partial: if no block of `B` lands on a stored block of `A`, the
elements of `B` are added to those of `A`.  The block sizes of `B`, the first ones of `A` and those of the
window must be the same, and the block rows must have room.  Missing: a stored block is not
replaced (`C66_assign_present`), and keeps its values where `B` is zero (`C66_assign_zero`);
missing room and different block sizes are not detected (`C66_assign_room`, `C66_assign_sizes`). -/
theorem C66_assign_partial {N NB : Nat} {A B : EllB R} {a b : Spec.Mat R} (hA : A.Represents N a)
    (hB : B.Represents NB b) (hpos : ∀ ib, ib < A.NB → 0 < A.bsize.get ib) {irowb icolb : Nat}
    (hrow : irowb + B.NB ≤ A.NB) (hcol : icolb + B.NB ≤ A.NB)
    (hsz : ∀ k, k < B.NB → A.bsize.get k = B.bsize.get k ∧
      A.bsize.get (irowb + k) = B.bsize.get k ∧ A.bsize.get (icolb + k) = B.bsize.get k)
    (hno : ∀ ib jb, ib < B.NB → jb < B.NB → B.Has ib jb → ¬ A.Has (irowb + ib) (icolb + jb))
    (hroom : ∀ ib, ib < B.NB → A.nnzb.get (irowb + ib) + B.nnzb.get ib ≤ A.MB) {irow icol : Nat}
    (hir : irow = EllB.off A.bsize.get irowb) (hic : icol = EllB.off A.bsize.get icolb) :
    ∃ A', EllB.assign A B irow icol = .ok A' ∧ EllB.Same A A' ∧ (A.Clean → A'.Clean) ∧
      A'.Represents N (fun i j => a i j +
        if irow ≤ i ∧ i < irow + NB ∧ icol ≤ j ∧ j < icol + NB then b (i - irow) (j - icol) else 0) := by
  subst hir hic
  obtain ⟨L, h⟩ := EllB.represents_iff.1 hA
  obtain ⟨LB, h'⟩ := EllB.represents_iff.1 hB
  obtain ⟨A', e, h1, h2, ⟨L', h3⟩, -⟩ :=
    Res.wp_exists (h.wp_assign (E := False) h' hpos hrow hcol hsz hno hroom)
  exact ⟨A', e, h1, h2, EllB.represents_iff.2 ⟨L', h3⟩⟩

/-- **C66**, assignment into a part of `A` without stored blocks: the window becomes `B`, the rest of
`A` does not change. -/
theorem C66_assign_empty_partial {N NB : Nat} {A B : EllB R} {a b : Spec.Mat R}
    (hA : A.Represents N a) (hB : B.Represents NB b) (hpos : ∀ ib, ib < A.NB → 0 < A.bsize.get ib)
    {irowb icolb : Nat} (hrow : irowb + B.NB ≤ A.NB) (hcol : icolb + B.NB ≤ A.NB)
    (hsz : ∀ k, k < B.NB → A.bsize.get k = B.bsize.get k ∧
      A.bsize.get (irowb + k) = B.bsize.get k ∧ A.bsize.get (icolb + k) = B.bsize.get k)
    (hno : ∀ ib jb, ib < B.NB → jb < B.NB → ¬ A.Has (irowb + ib) (icolb + jb))
    (hroom : ∀ ib, ib < B.NB → A.nnzb.get (irowb + ib) + B.nnzb.get ib ≤ A.MB) {irow icol : Nat}
    (hir : irow = EllB.off A.bsize.get irowb) (hic : icol = EllB.off A.bsize.get icolb) :
    ∃ A', EllB.assign A B irow icol = .ok A' ∧
      A'.Represents N (fun i j =>
        if irow ≤ i ∧ i < irow + NB ∧ icol ≤ j ∧ j < icol + NB then b (i - irow) (j - icol)
        else a i j) := by
  obtain ⟨A', e, -, -, h⟩ := C66_assign_partial hA hB hpos hrow hcol hsz
    (fun ib jb h1 h2 _ => hno ib jb h1 h2) hroom hir hic
  refine ⟨A', e, ?_⟩
  obtain ⟨L', h3⟩ := EllB.represents_iff.1 h
  refine EllB.represents_iff.2 ⟨L', h3.congr ?_⟩
  intro i j hi hj
  beta_reduce
  split
  · rename_i hw
    obtain ⟨L, hl⟩ := EllB.represents_iff.1 hA
    obtain ⟨LB, hlB⟩ := EllB.represents_iff.1 hB
    have er := EllB.off_shift (s := irowb) (fun k hk => (hsz k hk).2.1)
    have ec := EllB.off_shift (s := icolb) (fun k hk => (hsz k hk).2.2)
    obtain ⟨ib, ii, q1, q2, q3⟩ := EllB.off_surj B.bsize.get B.NB (i - irow)
      (by rw [hlB.N_eq]; omega)
    obtain ⟨jb, jj, q4, q5, q6⟩ := EllB.off_surj B.bsize.get B.NB (j - icol)
      (by rw [hlB.N_eq]; omega)
    have hd := hl.den (irowb + ib) (icolb + jb) ii jj (by omega) (by omega)
      (by rw [(hsz ib q1).2.1]; exact q2) (by rw [(hsz jb q4).2.2]; exact q5)
    rw [er ib (by omega), ec jb (by omega), EllB.val_of_not_mem] at hd
    · rw [show EllB.off A.bsize.get irowb + EllB.off B.bsize.get ib + ii = i by omega,
        show EllB.off A.bsize.get icolb + EllB.off B.bsize.get jb + jj = j by omega] at hd
      rw [← hd, zero_add]
    · intro hm
      exact hno ib jb q1 q4 ((hl.has_iff (by omega)).2 hm)
  · rw [add_zero]

/-- A 4×4 matrix, one block. -/
def eb4 : EllB Int := mkB 4 [⟨0, 1, 6⟩]

theorem eb4_spec : eb4.Represents 4 (mkBm [⟨0, 1, 6⟩]) ∧ eb4.Clean ∧ eb4.M = 4 :=
  mkB_spec (N := 4) (by decide) _ (by decide) (by decide)

/-- It goes to the empty lower left of `ebU`. -/
example : ∃ A', EllB.assign ebU eb4 4 0 = .ok A' ∧ A'.getElement 4 1 = .ok 6 ∧
    A'.getElement 0 7 = .ok 1 := by
  obtain ⟨A', e, h⟩ := C66_assign_empty_partial ebU_spec.1 eb4_spec.1
    (fun ib hib => by rw [ebU_bs ib hib]; decide) (irowb := 1) (icolb := 0) (by decide) (by decide)
    (by decide +kernel)
    (by
      intro ib jb hib hjb
      have : ib = 0 := Nat.lt_one_iff.1 hib
      subst this
      have : jb = 0 := Nat.lt_one_iff.1 hjb
      subst this
      rintro ⟨jp, h1, h2⟩
      have h1' : jp < 1 := h1
      have : jp = 0 := by omega
      subst this
      exact absurd h2 (by decide +kernel))
    (by decide +kernel) (irow := 4) (icol := 0) (by decide +kernel) (by decide +kernel)
  exact ⟨A', e, h.get 4 1 (by decide) (by decide), h.get 0 7 (by decide) (by decide)⟩

/-- **C66 fails** where `A` already stores a block: the assigned values are appended as a second block of
the same place, and reading still gives the old ones. -/
theorem C66_assign_present : eb4.getElement 0 1 = .ok 6 ∧ ebU.getElement 0 1 = .ok 0 ∧
    (∃ A', EllB.assign (mkB 8 [⟨0, 0, 5⟩]) eb4 0 0 = .ok A' ∧
      A'.getElement 0 0 = .ok 5 ∧ A'.getElement 0 1 = .ok 0 ∧ A'.nnzb.get 0 = 2 ∧
      A'.indexb.get 0 = A'.indexb.get 1) := by
  refine ⟨eb4_spec.1.get 0 1 (by decide) (by decide), ebU_spec.1.get 0 1 (by decide) (by decide), ?_⟩
  obtain ⟨r, h1, h2⟩ := Res.exists_okAnd
    (r := EllB.assign (mkB 8 [(⟨0, 0, 5⟩ : BWrite Int)]) eb4 0 0)
    (p := fun A' => decide (A'.getElement 0 0 = .ok 5 ∧ A'.getElement 0 1 = .ok 0 ∧
      A'.nnzb.get 0 = 2 ∧ A'.indexb.get 0 = A'.indexb.get 1)) (by decide +kernel)
  exact ⟨r, h1, of_decide_eq_true h2⟩

/-- **C66 fails** for zero blocks: assigning a zero matrix changes nothing. -/
theorem C66_assign_zero {A : EllB R} {N NG : Nat} {a : Spec.Mat R} (hA : A.Represents N a)
    {bs : Arr Nat} {NB MB M : Nat} (hpos : ∀ ib, ib < A.NB → 0 < A.bsize.get ib)
    {irowb icolb : Nat} (hrow : irowb ≤ A.NB) (hcol : icolb ≤ A.NB) :
    EllB.assign A (EllB.empty NG M NB MB bs) (EllB.off A.bsize.get irowb)
      (EllB.off A.bsize.get icolb) = .ok A := by
  have hbs := hA.wf.bs_size
  unfold EllB.assign
  rw [EllB.blockAt_eq (by omega) (fun i hi => hpos i (by omega)), Res.bind_ok,
    EllB.blockAt_eq (by omega) (fun i hi => hpos i (by omega)), Res.bind_ok]
  have : ∀ n, n ≤ NB → (loop n A fun ib A => (EllB.empty NG M NB MB bs : EllB R).eachIdx ib A
      (EllB.assignPut (EllB.empty NG M NB MB bs) irowb icolb ib)) = .ok A := by
    intro n
    induction n with
    | zero => intro _; rfl
    | succ n ih =>
      intro hn
      rw [loop_succ, ih (by omega), Res.bind_ok]
      unfold EllB.eachIdx
      rw [Arr.read_ok (show n < NB by omega), Res.bind_ok]
      rfl
  exact this NB (le_refl _)

example : ebU.getElement 7 7 = .ok 3 ∧
    EllB.assign ebU (EllB.empty 4 4 1 1 ⟨1, fun _ => 4⟩) 4 4 = .ok ebU := by
  refine ⟨ebU_spec.1.get 7 7 (by decide) (by decide), ?_⟩
  have := C66_assign_zero ebU_spec.1 (NG := 4) (M := 4) (NB := 1) (MB := 1) (bs := ⟨1, fun _ => 4⟩)
    (fun ib hib => by rw [ebU_bs ib hib]; decide) (irowb := 1) (icolb := 1) (by decide) (by decide)
  rwa [show EllB.off ebU.bsize.get 1 = 4 by decide +kernel] at this

/-- There is no check for room: three 1×1 blocks, block rows for one block. -/
theorem C66_assign_room : ∃ A, runB [(⟨1, 0, 1⟩ : BWrite Int)] ebT = .ok A ∧
    EllB.assign A ebT1 0 0 = .ub := by
  obtain ⟨r, h1, h2⟩ := Res.exists_okAnd (r := runB [(⟨1, 0, 1⟩ : BWrite Int)] ebT)
    (p := fun A => (EllB.assign A ebT1 0 0).isUb) (by decide +kernel)
  exact ⟨r, h1, Res.eq_ub_of_isUb h2⟩

/-- The amount of data is computed from the wrong block sizes: a 1×1 matrix, assigned to the last
element of a matrix with blocks of 4 and 1, is read as a block of 16 elements. -/
theorem C66_assign_sizes : ∃ B, runB [(⟨0, 0, 8⟩ : BWrite Int)] (newB Int 1 1) = .ok B ∧
    B.N = 1 ∧ EllB.assign ebA B 4 4 = .ub := by
  obtain ⟨r, h1, h2⟩ := Res.exists_okAnd (r := runB [(⟨0, 0, 8⟩ : BWrite Int)] (newB Int 1 1))
    (p := fun B => decide (B.N = 1) && (EllB.assign ebA B 4 4).isUb) (by decide +kernel)
  rw [Bool.and_eq_true] at h2
  exact ⟨r, h1, of_decide_eq_true h2.1, Res.eq_ub_of_isUb h2.2⟩

end Bml.Props
