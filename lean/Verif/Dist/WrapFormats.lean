import Verif.Dist.WrapProof
import Verif.Dist.Formats
import Verif.Props.Dense2
import Verif.Props.EllConstruct
import Verif.Props.EllTranspose

/-!
# The distributed functions over the storage formats
-/

namespace Bml.Dist

open Bml.Props

variable {R : Type} [CommRing R]

/-! ## Dense -/

/-- What differs from run to run and from rank to rank. -/
structure DenseRun (R : Type) where
  rows : Nat → Sched
  flat : Nat → Sched
  tri : Nat → Sched
  junk : Nat → Nat → R

/-- The schedules execute the loops over rows, over cells, and over rows but the last. -/
structure DenseRun.Ok (c : DenseRun R) (n : Nat) : Prop where
  rows : ∀ r, IsSched 0 n (c.rows r)
  flat : ∀ r, IsSched (0 * n) (n * n) (c.flat r)
  tri : ∀ r, IsSched 0 (n - 1) (c.tri r)

/-- The dense functions; the threshold arguments of all but `bml_threshold` are ignored. -/
def denseLocal (c : DenseRun R) (bigT : R → Bool) : Local (Dense R) R where
  copyNew r _ A := A.bmlCopy (Dense.noinit A.N (c.junk r))
  deliver := Dense.deliver
  add _ A B α β := Dense.add A B α β 0 A.N
  addIdentity r A β := A.addIdentity β (c.rows r)
  scaleAddIdentity r A α β := A.scaleAddIdentity α β 0 A.N (c.rows r)
  scaleInplace _ α A := Dense.scaleInplace α A 0 A.N
  threshold r A := A.threshold bigT (c.flat r)
  setRow _ A i row := A.setRow i row
  getRow r A i := A.getRow i (c.junk r)
  setDiagonal _ A d := A.setDiagonal d
  getDiagonal r A := A.getDiagonal (c.junk r)
  trace r A := A.trace (c.rows r)
  sumSquares r A := A.sumSquares (c.flat r)
  transpose r A := A.transpose (c.tri r)
  zero _ n _ := .ok (Dense.zeroMatrix n)
  identity r n _ := Dense.identity n (c.rows r)
  importDense _ o n _ buf := Dense.importDense o n buf
  exportDense r A o := A.exportDense o (c.junk r)

theorem denseLocal_exact {c : DenseRun R} {n : Nat} (hc : c.Ok n) (m : Nat) (bigT : R → Bool) :
    (denseLocal c bigT).Exact n m (fun x => x) (Spec.keep bigT) (fun A a => A.Represents n a)
      (fun A a => A.Represents n a) where
  congr h hab := h.congr hab
  copyNew r {A a} h := by
    have hJ : (Dense.noinit A.N (c.junk r)).Represents n (fun i j => c.junk r (i * n + j)) :=
      Dense.represents_iff.2 ⟨h.dim, by rw [h.dim]; rfl, fun i j _ _ => rfl⟩
    exact (C07_dense_copy h hJ).1 rfl
  deliver {A B a b} hA hB := by
    obtain ⟨B', e, h⟩ := Res.wp_exists (Dense.wp_deliver (E := False) (Dense.represents_iff.1 hA)
      (Dense.represents_iff.1 hB))
    exact ⟨B', e, Dense.represents_iff.2 h⟩
  add r {A B a b} hA hB α β := by
    obtain ⟨A', e, h⟩ := C08_dense_add_value hA hB α β (Nat.zero_le n) (le_refl n)
    exact ⟨A', by rw [← hA.dim] at e; exact e, h.congr (Spec.onRows_all n _ _)⟩
  addIdentity r {A a} hA β := by
    obtain ⟨A', e, h⟩ := C09_dense_add_identity_partial hA β (hc.rows r) (le_refl n)
    exact ⟨A', e, h.congr (Spec.onRows_all n _ _)⟩
  scaleAddIdentity r {A a} hA α β := by
    obtain ⟨A', e, h⟩ := C09_dense_scale_add_identity_partial hA α β (Nat.zero_le n) (le_refl n) (hc.rows r)
    exact ⟨A', by rw [← hA.dim] at e; exact e, h.congr (Spec.onRows_all n _ _)⟩
  scaleInplace r {A a} hA α := by
    obtain ⟨A', e, h⟩ := C10_dense_scale_inplace hA α (Nat.zero_le n) (le_refl n)
    exact ⟨A', by rw [← hA.dim] at e; exact e, h.congr (Spec.onRows_all n _ _)⟩
  threshold r {A a} hA := by
    obtain ⟨A', e, h⟩ := C11_dense_threshold hA bigT (hc.flat r) (le_refl n)
    exact ⟨A', e, h.congr (Spec.onRows_all n _ _)⟩
  setRow r {A a} hA {i} hi {row} hr := by
    obtain ⟨A', e, h, -⟩ := C04_dense_set_get_row_partial hA hi hr (c.junk r)
    exact ⟨A', e, h⟩
  getRow r {A a} hA {i} hi := C04_dense_get_row hA hi (c.junk r)
  setDiagonal r {A a} hA {d} hd := by
    obtain ⟨A', e, h, -⟩ := C05_dense_set_get_diagonal_partial hA hd (c.junk r)
    exact ⟨A', e, h⟩
  getDiagonal r {A a} hA := Res.wp_exists (Dense.wp_getDiagonal (E := False) (Dense.represents_iff.1 hA) (c.junk r))
  trace r {A a} hA := C20_dense_trace hA (hc.rows r)
  sumSquares r {A a} hA := C21_dense_sum_squares hA (hc.flat r)
  transpose r {A a} hA := by
    obtain ⟨A', e, h, -⟩ := C18_dense_transpose hA (hc.tri r) (hc.tri r)
    exact ⟨A', e, h⟩
  zero r := ⟨_, rfl, C32_dense_zero n⟩
  identity r := C32_dense_identity (hc.rows r)
  importDense r o {buf} hb := by
    obtain ⟨A, -, e, h, -⟩ := C06_dense_round_trip o o hb (c.junk r)
    exact ⟨A, e, h⟩
  exportDense r {A a} hA o := Res.wp_exists
    (Dense.wp_export (E := False) (Dense.represents_iff.1 hA) o (c.junk r))

/-! ## ELLPACK -/

/-- What differs from run to run and from rank to rank; the loops run over the rows. -/
structure EllWrap (R : Type) where
  sc : Nat → Sched
  sc1 : Nat → Sched
  jv : Nat → Nat → R
  ji : Nat → Nat → Nat

structure EllWrap.Ok (c : EllWrap R) (n : Nat) : Prop where
  sc : ∀ r, IsSched 0 n (c.sc r)
  sc1 : ∀ r, IsSched 0 n (c.sc1 r)

/-- The ELLPACK functions. -/
def ellLocal [DecidableEq R] (c : EllWrap R) (big bigT : R → Bool) : Local (Ell R) R where
  copyNew r m A := A.bmlCopy (Ell.noinit A.N m (c.jv r) (c.ji r)) (c.sc1 r)
  deliver := Ell.deliver
  add r A B α β := Ell.add A B α β big (c.sc r)
  addIdentity r A β := Ell.addIdentity A β big (c.sc r)
  scaleAddIdentity r A α β := Ell.scaleAddIdentity A α β big 0 A.N (c.sc r)
  scaleInplace _ α A := Ell.scaleInplace α A 0 A.N
  threshold r A := Ell.threshold A bigT (c.sc r)
  setRow _ A i row := A.setRow i row big
  getRow _ A i := A.getRow i
  setDiagonal _ A d := A.setDiagonal d big
  getDiagonal _ A := A.getDiagonal
  trace r A := Ell.trace A (c.sc r)
  sumSquares r A := Ell.sumSquares A (c.sc r)
  transpose _ A := Ell.transposeInPlace A
  zero _ n m := Ell.newZero n m
  identity r n m := Ell.identity n m (c.sc r)
  importDense r o n m buf := Ell.importDense o n buf big m (c.sc r)
  exportDense r A o := Ell.exportDense A o (c.sc r)

/-- A row of width at least `n` that is full has its diagonal element. -/
theorem ell_room {n : Nat} {A : Ell R} {a : Spec.Mat R} (hA : A.Represents n a) (hM : n ≤ A.M) {i : Nat}
    (hi : i < n) : A.nnz.get i < A.M ∨ A.Stored i i := by
  by_cases h : A.Stored i i
  · exact Or.inr h
  · left
    have hR := Ell.represents_iff.1 hA
    have hg := hR.good i hi
    have h1 := (hg.append_singleton (v := (0 : R)) hi fun hm => h (Ell.stored_iff.2 hm)).length_le
    rw [List.length_append, List.length_singleton, Ell.row_length] at h1
    omega

theorem ellLocal_exact [DecidableEq R] {c : EllWrap R} {n m : Nat} (hc : c.Ok n) (hm : n ≤ m) (h0 : 0 < m)
    (big bigT : R → Bool) :
    (ellLocal c big bigT).Exact n m (Spec.keep big) (Spec.keep bigT)
      (fun A a => A.Represents n a ∧ A.M = m) (fun A a => A.Represents n a ∧ A.M = m) where
  congr h hab := ⟨h.1.congr hab, h.2⟩
  copyNew r {A a} h := by
    have hw : (Ell.noinit A.N m (c.jv r) (c.ji r)).WF :=
      ⟨rfl, rfl, rfl, fun _ _ => Nat.zero_le _, fun i k _ hk => absurd hk (Nat.not_lt_zero _),
        fun i k _ _ hk => absurd hk (Nat.not_lt_zero _)⟩
    obtain ⟨B, e, h1, h2⟩ := C07_copy_partial h.1 hw h.1.dim h.2.symm (by rw [h.2]; omega) (hc.sc1 r)
    exact ⟨B, e, h2, h1.trans h.2⟩
  deliver {A B a b} hA hB := by
    have hA' := Ell.represents_iff.1 hA.1
    have hB' := Ell.represents_iff.1 hB.1
    obtain ⟨B', e, h⟩ := Res.wp_exists (Ell.wp_deliver (E := False) hA'.shape hB'.shape
      (hB'.dim.trans hA'.dim.symm) (hB.2.trans hA.2.symm))
    exact ⟨B', e, Ell.represents_iff.2 (h.rep hA'), h.M.trans hA.2⟩
  add r {A B a b} hA hB α β := by
    obtain ⟨A', e, h1, h2⟩ := C08_add_all hA.1 hB.1 α β big (hc.sc r)
      (fun i _ => by rw [hA.2]; exact (rowCount_le _ _ _ _).trans hm)
    exact ⟨A', e, h2, h1.trans hA.2⟩
  addIdentity r {A a} hA β := by
    obtain ⟨A', e, h1, h2⟩ := C09_add_identity_partial hA.1 β big (hc.sc r)
      (fun i hi => Or.inr (ell_room hA.1 (by rw [hA.2]; exact hm) hi))
    exact ⟨A', e, h2, h1.trans hA.2⟩
  scaleAddIdentity r {A a} hA α β := by
    obtain ⟨A', e, h1, h2⟩ := C09_scale_add_identity_partial hA.1 α β big (hc.sc r)
      (fun i hi => Or.inr (ell_room hA.1 (by rw [hA.2]; exact hm) hi))
    exact ⟨A', by rw [← hA.1.dim] at e; exact e, h2, h1.trans hA.2⟩
  scaleInplace r {A a} hA α := by
    obtain ⟨A', e, h1, h2⟩ := C10_scale_inplace hA.1 α (Nat.zero_le n) (le_refl n)
    exact ⟨A', by rw [← hA.1.dim] at e; exact e, h2.congr (Spec.onRows_all n _ _), h1.trans hA.2⟩
  threshold r {A a} hA := by
    obtain ⟨A', e, h1, h2⟩ := C11_threshold hA.1 bigT (hc.sc r) (le_refl n)
    exact ⟨A', e, h2.congr (Spec.onRows_all n _ _), h1.trans hA.2⟩
  setRow r {A a} hA {i} hi {row} hr := by
    obtain ⟨A', e, h1, h2⟩ := C04_set_row hA.1 hi hr big (by
      rw [hA.2]
      exact ((Finset.card_filter_le _ _).trans (by simp)).trans hm)
    exact ⟨A', e, h2, h1.trans hA.2⟩
  getRow r {A a} hA {i} hi := C04_get_row hA.1 hi
  setDiagonal r {A a} hA {d} hd := by
    obtain ⟨A', e, h1, h2⟩ := C05_set_diagonal hA.1 hd big
      (fun i hi => Or.inr (ell_room hA.1 (by rw [hA.2]; exact hm) hi))
    exact ⟨A', e, h2, h1.trans hA.2⟩
  getDiagonal r {A a} hA := C05_get_diagonal hA.1
  trace r {A a} hA := C20_trace hA.1 (hc.sc r)
  sumSquares r {A a} hA := C21_sum_squares hA.1 (hc.sc r)
  transpose r {A a} hA := by
    obtain ⟨A', e, h1, h2⟩ := C18_transpose_wide hA.1 (by rw [hA.2]; exact hm)
    exact ⟨A', e, h2, h1.trans hA.2⟩
  zero r := by
    obtain ⟨A', e, h1, h2⟩ := C32_zero (R := R) (N := n) h0
    exact ⟨A', e, h2, h1⟩
  identity r := by
    obtain ⟨A', e, h1, h2⟩ := C32_identity (R := R) h0 (hc.sc r)
    exact ⟨A', e, h2, h1⟩
  importDense r o {buf} hb := by
    obtain ⟨A, e, h1, h2⟩ := C06_import_partial h0 hb big (hc.sc r)
      (fun i _ => (rowCount_le _ _ _ _).trans hm)
    exact ⟨A, e, h2, h1⟩
  exportDense r {A a} hA o := C06_export hA.1 o (hc.sc r)

/-! ## CSR -/

/-- What differs from run to run and from rank to rank; the loops run over the rows. -/
structure CsrWrap (R : Type) where
  sc : Nat → Sched
  sc1 : Nat → Sched
  sc2 : Nat → Sched
  jv : Nat → Nat → Nat → R
  ji : Nat → Nat → Nat → Nat
  jc : Nat → Nat → Nat
  junk : Nat → Nat → Hash.Slot

structure CsrWrap.Ok (c : CsrWrap R) (n : Nat) : Prop where
  sc : ∀ r, IsSched 0 n (c.sc r)
  sc1 : ∀ r, IsSched 0 n (c.sc1 r)
  sc2 : ∀ r, IsSched 0 n (c.sc2 r)

/-- The CSR functions. -/
def csrLocal [DecidableEq R] (c : CsrWrap R) (big bigT big0 : R → Bool) : Local (Csr R) R where
  copyNew r m A := A.copyInto (Csr.noinit A.N m (c.jv r) (c.ji r)) (c.sc1 r)
  deliver := Csr.deliver big0
  add r A B α β := A.add B α β big (c.sc r) (c.sc1 r) (c.junk r)
  addIdentity r A β := A.addIdentity β big (c.sc r) (c.sc1 r)
  scaleAddIdentity r A α β := A.scaleAddIdentity α β big (c.sc r) (c.sc1 r) (c.sc2 r)
  scaleInplace r α A := A.scaleInplace α (c.sc r)
  threshold r A := A.threshold bigT (c.sc r)
  setRow r A i row := A.setRow i row big (c.jc r)
  getRow _ A i := A.getRow i
  setDiagonal _ A d := A.setDiagonal d big
  getDiagonal _ A := A.getDiagonal
  trace r A := A.trace (c.sc r)
  sumSquares r A := A.sumSquares (c.sc r)
  transpose _ A := A.transposeInPlace
  zero _ n m := .ok (Csr.newZero n m)
  identity r n m := Csr.identity n m (c.sc r)
  importDense r o n m buf := Csr.importDense o n buf big m (c.sc r)
  exportDense r A o := A.exportDense o (c.sc r)

/-- `m` entries per row are enough for the receive buffer, and a row of a new matrix has space for
`n` entries.  A matrix that is added to must have space for `n` entries in every row. -/
theorem csrLocal_exact [DecidableEq R] {c : CsrWrap R} {n m : Nat} (hc : c.Ok n) (hm : n ≤ m * 2)
    (hsp : n ≤ m ∨ n ≤ 10) (hn : n ≤ 174762) (big bigT : R → Bool) {big0 : R → Bool}
    (h0 : ∀ x, big0 x = false → x = 0) :
    (csrLocal c big bigT big0).Exact n m (Spec.keep big) (Spec.keep bigT)
      (fun A a => A.Represents n a ∧ A.M = m)
      (fun A a => (A.Represents n a ∧ A.M = m) ∧ ∀ i, i < n → n ≤ (A.data.get i).alloc) where
  congr h hab := ⟨h.1.congr hab, h.2⟩
  copyNew r {A a} h := by
    have hA := Csr.represents_iff.1 h.1
    have hB : (Csr.noinit A.N m (c.jv r) (c.ji r)).Rep n (Spec.zero : Spec.Mat R) := by
      refine ⟨h.1.dim, h.1.dim, fun i hi => ?_⟩
      exact CsrRow.Is.holds (CsrRow.noinit_is m _ _) (SRow.good_nil n) fun j _ => rfl
    obtain ⟨B, e, h1, h2⟩ := Res.wp_exists (r := A.copyInto (Csr.noinit A.N m (c.jv r) (c.ji r)) (c.sc1 r))
      (Res.wp_mono' (Csr.wp_copyInto hA hB (hc.sc1 r)) (fun ⟨i, hi, hlt⟩ => by
        have hl := (hA.good hi).length_le
        have : ((Csr.noinit A.N m (c.jv r) (c.ji r)).data.get i).alloc = CsrRow.rowSpace m := rfl
        rw [this] at hlt
        have := CsrRow.rowSpace_ge m
        omega) (fun _ h => h))
    exact ⟨B, e, Csr.represents_iff.2 (h2.rep hA), h1⟩
  deliver {A B a b} hA hB := by
    have hA' := Csr.represents_iff.1 hA.1
    have hB' := Csr.represents_iff.1 hB.1
    obtain ⟨B', e, -, h1, h2⟩ := Res.wp_exists (Csr.wp_deliver (E := False) hA' hB' h0 (by
      intro hlt
      rw [hB.2] at hlt
      have h1 := Csr.start_le_sq hA'
      have h2 : n * n ≤ m * 2 * n := Nat.mul_le_mul_right n hm
      have h3 : m * 2 * n = m * n * 2 := by ring
      omega))
    exact ⟨B', e, Csr.represents_iff.2 h2, h1.trans hB.2⟩
  add r {A B a b} hA hB α β := by
    have hA' := Csr.represents_iff.1 hA.1.1
    obtain ⟨A', e, h1, h2⟩ := C08_csr_add_partial hA.1.1 hB.1 α β big (hc.sc r) (hc.sc1 r) (c.junk r)
      (fun i hi => by
        rw [(hA'.is hi).length]
        exact (hA'.good hi).length_le.trans hn)
      (fun i hi => Or.inr (by
        unfold unionFill
        exact ((Finset.card_filter_le _ _).trans (by simp)).trans (hA.2 i hi)))
    exact ⟨A', e, h2, h1.trans hA.1.2⟩
  addIdentity r {A a} hA β := by
    obtain ⟨A', e, h1, h2⟩ := C09_csr_add_identity hA.1 β big (hc.sc r) (hc.sc1 r)
    exact ⟨A', e, h2, h1.trans hA.2⟩
  scaleAddIdentity r {A a} hA α β := by
    obtain ⟨A', e, h1, h2⟩ := C09_csr_scale_add_identity_partial hA.1 α β big (hc.sc r) (hc.sc1 r) (hc.sc2 r)
    exact ⟨A', e, h2, h1.trans hA.2⟩
  scaleInplace r {A a} hA α := by
    obtain ⟨A', e, h1, h2⟩ := C10_csr_scale_inplace hA.1 α (hc.sc r)
    exact ⟨A', e, h2, h1.trans hA.2⟩
  threshold r {A a} hA := by
    obtain ⟨A', e, h1, h2, -⟩ := C11_csr_threshold hA.1 bigT (hc.sc r)
    exact ⟨A', e, h2, h1.trans hA.2⟩
  setRow r {A a} hA {i} hi {row} hr := by
    obtain ⟨A', e, h1, h2⟩ := Csr.exists_of_wpM (Csr.wp_setRow (Csr.represents_iff.1 hA.1) hi hr big (c.jc r))
    exact ⟨A', e, h2, h1.trans hA.2⟩
  getRow r {A a} hA {i} hi := C04_csr_get_row hA.1 hi
  setDiagonal r {A a} hA {d} hd := by
    obtain ⟨A', e, h1, h2⟩ := Csr.exists_of_wpM (Csr.wp_setDiagonal (Csr.represents_iff.1 hA.1) hd big)
    exact ⟨A', e, h2, h1.trans hA.2⟩
  getDiagonal r {A a} hA := C05_csr_get_diagonal hA.1
  trace r {A a} hA := C20_csr_trace hA.1 (hc.sc r)
  sumSquares r {A a} hA := C21_csr_sum_squares hA.1 (hc.sc r)
  transpose r {A a} hA := by
    obtain ⟨A', e, h1, h2, -⟩ := C18_csr_transpose hA.1
    exact ⟨A', e, h2, h1.trans hA.2⟩
  zero r := ⟨_, rfl, C32_csr_zero n m, rfl⟩
  identity r := by
    obtain ⟨A', e, h1, h2⟩ := C32_csr_identity (R := R) (M := m) (hc.sc r)
    exact ⟨A', e, h2, h1⟩
  importDense r o {buf} hb := by
    obtain ⟨A, e, h1, h2⟩ := Csr.exists_of_wpM (Csr.wp_importDense (M := m) (order := o) hb big (hc.sc r))
    exact ⟨A, e, h2, h1⟩
  exportDense r {A a} hA o := Res.wp_exists
    (Csr.wp_exportDense (E := False) (Csr.represents_iff.1 hA.1) o (hc.sc r))

end Bml.Dist
