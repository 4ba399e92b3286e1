import Verif.Dist.Cannon
import Verif.Dist.Message
import Verif.Ellpack.Adjust
import Verif.Props.Dense
import Verif.Props.EllOps
import Verif.Props.Csr2

/-!
# The distributed product over the storage formats

The local functions of `Dist.Ops` for dense, ELLPACK and CSR matrices, and the proof that they are
exact.
-/

namespace Bml

/-! ## The rows of a CSR matrix do not lose space in `bml_add` -/

namespace Csr

variable {R : Type} [CommRing R]

/-- The rows of `A'` have at least the space of the rows of `A`. -/
def Grown (A A' : Csr R) : Prop := ∀ i, (A.data.get i).alloc ≤ (A'.data.get i).alloc

omit [CommRing R] in
theorem wlp_setNew (r : CsrRow R) (j : Nat) (v : R) :
    (r.setNew j v).wlp (fun r' => r.alloc ≤ r'.alloc) := by
  unfold CsrRow.setNew
  simp only
  rw [Res.wlp_bind]
  refine Res.wlp_mono (Arr.wlp_write _ _ _) ?_
  rintro c -
  rw [Res.wlp_bind]
  refine Res.wlp_mono (Arr.wlp_write _ _ _) ?_
  rintro w -
  refine Res.wlp_ok.2 ?_
  show r.alloc ≤ CsrRow.alloc _
  by_cases h : r.nnz + 1 > r.alloc
  · simp only [if_pos h]; unfold CsrRow.expand; omega
  · simp only [if_neg h]; exact le_refl _

theorem wlp_addRow (α β : R) (b r : CsrRow R) (t : Hash.Table) :
    (addRow α β b r t).wlp (fun st => r.alloc ≤ st.1.alloc) := by
  unfold addRow
  rw [Res.wlp_bind]
  rintro ⟨vals, t1⟩ -
  simp only
  rw [Res.wlp_bind]
  unfold CsrRow.fold
  refine Res.wlp_mono (wlp_loop (fun _ (st : CsrRow R × Bool) => r.alloc ≤ st.1.alloc) (le_refl _) ?_) ?_
  · rintro k - ⟨s, stale⟩ hs
    rw [Res.wlp_bind]
    rintro c -
    rw [Res.wlp_bind]
    rintro w -
    unfold addEntry
    rw [Res.wlp_bind]
    rintro o -
    cases o with
    | some k =>
      simp only
      by_cases hst : stale = true
      · rw [if_pos hst]; exact Res.wlp_ub
      · rw [if_neg hst, Res.wlp_bind]
        rintro v -
        rw [Res.wlp_bind]
        rintro vs -
        exact Res.wlp_ok.2 hs
    | none =>
      simp only
      rw [Res.wlp_bind]
      refine Res.wlp_mono (wlp_setNew _ _ _) ?_
      intro r' hr'
      exact Res.wlp_ok.2 (le_trans hs hr')
  · rintro ⟨s, stale⟩ hs
    simp only
    rw [Res.wlp_bind]
    rintro t2 -
    exact Res.wlp_ok.2 hs

omit [CommRing R] in
theorem wlp_threshold (A : Csr R) (big : R → Bool) (sc : Sched) :
    (A.threshold big sc).wlp (Grown A) := by
  unfold threshold forRows
  refine wlp_forList (fun _ A' => Grown A A') (fun _ => le_refl _) ?_
  rintro pre ti A' - h
  rw [Res.wlp_bind]
  refine Res.wlp_mono (Arr.wlp_read _ _) ?_
  rintro r ⟨-, rfl⟩
  rw [Res.wlp_bind]
  unfold CsrRow.threshold
  rw [Res.wlp_bind]
  rintro st -
  refine Res.wlp_ok.2 ?_
  rw [Res.wlp_bind]
  refine Res.wlp_mono (Arr.wlp_write _ _ _) ?_
  rintro d ⟨-, rfl⟩
  refine Res.wlp_ok.2 fun i => ?_
  show _ ≤ CsrRow.alloc (upd _ _ _ i)
  by_cases he : i = ti.2
  · subst he; rw [upd_same]; exact h _
  · rw [upd_ne _ _ he]; exact h _

theorem wlp_add (A B : Csr R) (α β : R) (big : R → Bool) (sc sc' : Sched) (junk : Nat → Hash.Slot) :
    (A.add B α β big sc sc' junk).wlp (Grown A) := by
  unfold add
  rw [Res.wlp_bind]
  rintro m -
  rw [Res.wlp_bind]
  rintro t -
  rw [Res.wlp_bind]
  refine Res.wlp_mono (P := fun st : Csr R × Unit => Grown A st.1) ?_ ?_
  · unfold forRowsS
    rw [Res.wlp_bind]
    refine Res.wlp_mono (wlp_forList
      (fun _ (st : Csr R × (Nat → Hash.Table) × Unit) => Grown A st.1) (fun _ => le_refl _) ?_) ?_
    · rintro pre ti ⟨A', s, u⟩ - h
      rw [Res.wlp_bind]
      refine Res.wlp_mono (Arr.wlp_read _ _) ?_
      rintro r ⟨-, rfl⟩
      rw [Res.wlp_bind, Res.wlp_bind]
      rintro b -
      rw [Res.wlp_bind]
      refine Res.wlp_mono (wlp_addRow _ _ _ _ _) ?_
      rintro ⟨r, t'⟩ hr
      refine Res.wlp_ok.2 ?_
      simp only at hr ⊢
      rw [Res.wlp_bind]
      refine Res.wlp_mono (Arr.wlp_write _ _ _) ?_
      rintro d ⟨-, rfl⟩
      refine Res.wlp_ok.2 fun i => ?_
      show _ ≤ CsrRow.alloc (upd _ _ _ i)
      by_cases he : i = ti.2
      · subst he; rw [upd_same]; exact le_trans (h _) hr
      · rw [upd_ne _ _ he]; exact h _
    · rintro ⟨A', s, u⟩ h
      exact Res.wlp_ok.2 h
  · rintro ⟨A', u⟩ h
    simp only
    refine Res.wlp_mono (wlp_threshold A' big sc') ?_
    intro A'' h'' i
    exact le_trans (h i) (h'' i)

theorem wlp_multiply (A B C : Csr R) (α β : R) (big : R → Bool) (sc sc1 sc2 : Sched)
    (jv : Nat → Nat → R) (ji : Nat → Nat → Nat) (junk : Nat → Hash.Slot) :
    (multiply A B C α β big sc sc1 sc2 jv ji junk).wlp (Grown C) := by
  unfold multiply
  rw [Res.wlp_bind]
  rintro A2 -
  exact wlp_add _ _ _ _ _ _ _ _

omit [CommRing R] in
theorem start_le_sq [CommRing R] {A : Csr R} {N : Nat} {a : Spec.Mat R} (hA : A.Rep N a) :
    A.start N ≤ N * N := by
  unfold start
  have : ∀ i ∈ Finset.range N, (A.data.get i).nnz ≤ N := by
    intro i hi
    have hi : i < N := by simpa using hi
    rw [(hA.is hi).length]
    exact (hA.good hi).length_le
  have := Finset.sum_le_card_nsmul (Finset.range N) _ N this
  simpa using this

end Csr

namespace Dist

variable {R : Type} [CommRing R]

/-! ## Dense -/

/-- The dense functions; `junk r k` is the uninitialised memory of copy `k` on rank `r`. -/
def denseOps [DecidableEq R] (junk : Nat → Nat → Nat → R) : Ops (Dense R) R where
  copyNew r k A := A.copyNew (junk r k)
  deliver := Dense.deliver
  multiply _ _ A B C α β := Dense.multiply A B C α β

theorem denseOps_exact [DecidableEq R] (junk : Nat → Nat → Nat → R) {n : Nat} (hn : 0 < n) :
    (denseOps junk).Exact n (fun A a => A.Represents n a) (fun A a => A.Represents n a) where
  congr h hab := h.congr hab
  copy r k {A a} h := by
    obtain ⟨B, e, hB⟩ := Res.wp_exists (Dense.wp_copyNew (E := False) (Dense.represents_iff.1 h)
      (junk r k))
    exact ⟨B, e, Dense.represents_iff.2 hB⟩
  deliver {A B a b} hA hB := by
    obtain ⟨B', e, h⟩ := Res.wp_exists (Dense.wp_deliver (E := False) (Dense.represents_iff.1 hA)
      (Dense.represents_iff.1 hB))
    exact ⟨B', e, Dense.represents_iff.2 h⟩
  multiply _ _ {_ _ _ _ _ _} hA hB hC α β := Props.C14_dense_multiply_partial hn hA hB hC α β

/-! ## ELLPACK -/

/-- What differs from run to run in the ELLPACK functions: schedules and uninitialised memory, by
rank and call. -/
structure EllRun (R : Type) where
  sc : Nat → Nat → Sched
  sc1 : Nat → Nat → Sched
  sc2 : Nat → Nat → Sched
  jv : Nat → Nat → Nat → R
  ji : Nat → Nat → Nat → Nat

/-- The schedules execute the loops over `n` rows. -/
structure EllRun.Ok (c : EllRun R) (n : Nat) : Prop where
  sc : ∀ r k, IsSched 0 n (c.sc r k)
  sc1 : ∀ r k, IsSched 0 n (c.sc1 r k)
  sc2 : ∀ r k, IsSched 0 n (c.sc2 r k)

/-- The ELLPACK functions. -/
def ellOps [DecidableEq R] (c : EllRun R) (big : R → Bool) : Ops (Ell R) R where
  copyNew r k A := A.copyNew (c.sc r k) (c.jv r k) (c.ji r k)
  deliver := Ell.deliver
  multiply r k A B C α β := Ell.multiply A B C α β big (c.sc1 r k) (c.sc2 r k) (c.jv r k) (c.ji r k)

omit [CommRing R] in
theorem rowCount_le (big : R → Bool) (n : Nat) (a : Spec.Mat R) (i : Nat) :
    Spec.rowCount big n a i ≤ n := by
  unfold Spec.rowCount
  exact (Finset.card_filter_le _ _).trans (by simp)

theorem keep_id {big : R → Bool} (h0 : ∀ x, big x = false → x = 0) (x : R) : Spec.keep big x = x := by
  unfold Spec.keep
  by_cases hb : big x = true
  · rw [if_pos hb]
  · rw [if_neg hb, h0 x (by simpa using hb)]

theorem add_keepOff_exact {big : R → Bool} (h0 : ∀ x, big x = false → x = 0) (α β : R)
    (c m : Spec.Mat R) (i j : Nat) :
    Spec.add big β α c (Spec.keepOff big m) i j = α * m i j + β * c i j := by
  unfold Spec.add Spec.keepOff
  rw [keep_id h0, keep_id h0, ite_self]
  ring

theorem ellOps_exact [DecidableEq R] {c : EllRun R} {n M : Nat} (hc : c.Ok n) (hM : n ≤ M)
    {big : R → Bool} (h0 : ∀ x, big x = false → x = 0) :
    (ellOps c big).Exact n (fun A a => A.Represents n a ∧ A.M = M)
      (fun A a => A.Represents n a ∧ A.M = M) where
  congr h hab := ⟨h.1.congr hab, h.2⟩
  copy r k {A a} h := by
    have hA := Ell.represents_iff.1 h.1
    obtain ⟨B, e, hB⟩ := Res.wp_exists (Ell.wp_copyNew (E := False) hA.shape
      (sc := c.sc r k) (by rw [hA.dim]; exact hc.sc r k) (c.jv r k) (c.ji r k))
    exact ⟨B, e, Ell.represents_iff.2 (hB.rep hA), hB.M.trans h.2⟩
  deliver {A B a b} hA hB := by
    have hA' := Ell.represents_iff.1 hA.1
    have hB' := Ell.represents_iff.1 hB.1
    obtain ⟨B', e, h⟩ := Res.wp_exists (Ell.wp_deliver (E := False) hA'.shape hB'.shape
      (hB'.dim.trans hA'.dim.symm) (hB.2.trans hA.2.symm))
    exact ⟨B', e, Ell.represents_iff.2 (h.rep hA'), h.M.trans hA.2⟩
  multiply r k {A B C a b c'} hA hB hC α β := by
    obtain ⟨C', e, h1, h2⟩ := Props.C14_multiply hA.1 hB.1 hC.1 α β big (hc.sc1 r k) (hc.sc2 r k)
      (c.jv r k) (c.ji r k)
      (fun i _ => by
        rw [hC.2]
        unfold Ell.productFill
        exact ((Finset.card_filter_le _ _).trans (by simp)).trans hM)
      (fun i _ => by rw [hC.2]; exact (rowCount_le _ _ _ _).trans hM)
    exact ⟨C', e, h2.congr fun i j _ _ => add_keepOff_exact h0 α β _ _ i j, h1.trans hC.2⟩

/-! ## CSR -/

/-- What differs from run to run in the CSR functions. -/
structure CsrRun (R : Type) where
  sc : Nat → Nat → Sched
  sc1 : Nat → Nat → Sched
  sc2 : Nat → Nat → Sched
  jd : Nat → Nat → Nat → CsrRow R
  jv : Nat → Nat → Nat → Nat → R
  ji : Nat → Nat → Nat → Nat → Nat
  junk : Nat → Nat → Nat → Hash.Slot

/-- The schedules execute the loops over `n` rows. -/
structure CsrRun.Ok (c : CsrRun R) (n : Nat) : Prop where
  sc : ∀ r k, IsSched 0 n (c.sc r k)
  sc1 : ∀ r k, IsSched 0 n (c.sc1 r k)
  sc2 : ∀ r k, IsSched 0 n (c.sc2 r k)

/-- The CSR functions. -/
def csrOps (c : CsrRun R) (big big0 : R → Bool) : Ops (Csr R) R where
  copyNew r k A := A.copyNew (c.sc r k) (c.jd r k) (c.jv r k) (c.ji r k)
  deliver := Csr.deliver big0
  multiply r k A B C α β := Csr.multiply A B C α β big (c.sc r k) (c.sc1 r k) (c.sc2 r k)
    (c.jv r k) (c.ji r k) (c.junk r k)

theorem csrOps_exact {c : CsrRun R} {n M : Nat} (hc : c.Ok n) (hM : n ≤ M * 2) (hn : n ≤ 174762)
    {big big0 : R → Bool} (h0 : ∀ x, big x = false → x = 0) (h0' : ∀ x, big0 x = false → x = 0) :
    (csrOps c big big0).Exact n (fun A a => A.Represents n a ∧ A.M = M)
      (fun A a => A.Represents n a ∧ ∀ i, i < n → n ≤ (A.data.get i).alloc) where
  congr h hab := ⟨Csr.represents_iff.2 ((Csr.represents_iff.1 h.1).congr hab), h.2⟩
  copy r k {A a} h := by
    have hA := Csr.represents_iff.1 h.1
    obtain ⟨B, e, h1, h2⟩ := Res.wp_exists (Csr.wp_copyNew (E := False) hA (hc.sc r k)
      (c.jd r k) (c.jv r k) (c.ji r k))
    exact ⟨B, e, Csr.represents_iff.2 (h2.rep hA), h1.trans h.2⟩
  deliver {A B a b} hA hB := by
    have hA' := Csr.represents_iff.1 hA.1
    have hB' := Csr.represents_iff.1 hB.1
    obtain ⟨B', e, -, h1, h2⟩ := Res.wp_exists (Csr.wp_deliver (E := False) hA' hB' h0' (by
      intro hlt
      rw [hB.2] at hlt
      have h1 := Csr.start_le_sq hA'
      have h2 : n * n ≤ M * 2 * n := Nat.mul_le_mul_right n hM
      have h3 : M * 2 * n = M * n * 2 := by ring
      omega))
    exact ⟨B', e, Csr.represents_iff.2 h2, h1.trans hB.2⟩
  multiply r k {A B C a b c'} hA hB hC α β := by
    have hC' := Csr.represents_iff.1 hC.1
    obtain ⟨C', e, h1, h2⟩ := Props.C14_csr_multiply_partial hA.1 hB.1 hC.1 α β big (hc.sc r k)
      (hc.sc1 r k) (hc.sc2 r k) (c.jv r k) (c.ji r k) (c.junk r k)
      (fun i hi => by
        rw [(hC'.is hi).length]
        exact (hC'.good hi).length_le.trans hn)
      (fun i hi => Or.inr (by
        unfold Csr.unionCols
        exact ((Finset.card_filter_le _ _).trans (by simp)).trans (hC.2 i hi)))
    refine ⟨C', e, Csr.represents_iff.2 ((Csr.represents_iff.1 h2).congr
      fun i j _ _ => add_keepOff_exact h0 α β _ _ i j), fun i hi => ?_⟩
    exact (hC.2 i hi).trans (Csr.wlp_multiply A B C α β big _ _ _ _ _ _ C' e i)

end Dist

end Bml
