import Verif.Ellpack.Accum
import Mathlib.Algebra.BigOperators.Pi

/-!
# Row-parallel ELLPACK kernels, under every schedule
-/

set_option linter.unusedSectionVars false

namespace Bml

namespace Ell

variable {R : Type} {E : Prop}

open Scr

/-- `A'` differs from `A` at most in row `i`. -/
structure Frame (A A' : Ell R) (i : Nat) : Prop where
  N : A'.N = A.N
  M : A'.M = A.M
  nnz : ∀ i', i' ≠ i → A'.nnz.get i' = A.nnz.get i'
  rows : ∀ i' m, i' ≠ i → m ≤ A.M → A'.rowPre i' m = A.rowPre i' m

theorem Frame.refl (A : Ell R) (i : Nat) : Frame A A i :=
  ⟨rfl, rfl, fun _ _ => rfl, fun _ _ _ _ => rfl⟩

theorem Frame.trans {A B C : Ell R} {i : Nat} (h : Frame A B i) (h' : Frame B C i) :
    Frame A C i :=
  ⟨h'.N.trans h.N, h'.M.trans h.M, fun i' hi => (h'.nnz i' hi).trans (h.nnz i' hi),
    fun i' m hi hm => (h'.rows i' m hi (by rw [h.M]; exact hm)).trans (h.rows i' m hi hm)⟩

theorem frame_withNnz (A : Ell R) (i n : Nat) : Frame A (A.withNnz i n) i :=
  ⟨rfl, rfl, fun i' hi => by simp [upd_ne _ _ hi], fun _ _ _ _ => rfl⟩

theorem frame_put (A : Ell R) {i p : Nat} (k : Nat) (v : R) (hp : p < A.M) :
    Frame A (A.put i p k v) i :=
  ⟨rfl, rfl, fun _ _ => rfl, fun i' m hi hm => put_rowPre A hp hm (Or.inl hi)⟩

/-- Row `i` is within capacity and its list of entries satisfies `Φ`. -/
def RowSat (A : Ell R) (i : Nat) (Φ : SRow R → Prop) : Prop := A.nnz.get i ≤ A.M ∧ Φ (A.row i)

theorem Frame.rowSat {A A' : Ell R} {i : Nat} (h : Frame A A' i) {j : Nat} (hj : j ≠ i)
    {Φ : SRow R → Prop} (hs : A.RowSat j Φ) : A'.RowSat j Φ := by
  refine ⟨by rw [h.nnz j hj, h.M]; exact hs.1, ?_⟩
  unfold row
  rw [h.nnz j hj, h.rows j _ hj hs.1]
  exact hs.2

/-- A row kernel with a reduction variable, run under any schedule: rows `lo ≤ i < hi` go
from `P i` to `Q i`, the other rows stay as they are, the reduction variable collects
`r i` from every row. -/
theorem wp_kernelR {T : Type} [AddCommMonoid T] {lo hi N M Ns : Nat} {sc : Sched}
    (hsc : IsSched lo hi sc) (hhi : hi ≤ N)
    (step : Nat → Ell R → Scr R → T → Res (Ell R × Scr R × T)) (P Q : Nat → SRow R → Prop)
    (r : Nat → T)
    (hstep : ∀ i C s t, lo ≤ i → i < hi → C.Shape → C.N = N → C.M = M → C.RowSat i (P i) →
      s.Clean Ns → (step i C s t).wp E (fun st => st.1.Shape ∧ Frame C st.1 i ∧
        st.1.RowSat i (Q i) ∧ st.2.1.Clean Ns ∧ st.2.2 = t + r i))
    {C : Ell R} (hC : C.Shape) (hN : C.N = N) (hM : C.M = M)
    (hP : ∀ i, i < N → C.RowSat i (P i)) {scr : Nat → Scr R} (hscr : ∀ t, (scr t).Clean Ns)
    (t0 : T) :
    (forList sc (C, scr, t0) fun ti (st : Ell R × (Nat → Scr R) × T) => do
      let (C, s, t) ← step ti.2 st.1 (st.2.1 ti.1) st.2.2
      pure (C, upd st.2.1 ti.1 s, t)).wp E (fun st =>
        st.1.Shape ∧ st.1.N = N ∧ st.1.M = M ∧ st.2.2 = t0 + ∑ i ∈ Finset.Ico lo hi, r i ∧
        (∀ i, i < N → if lo ≤ i ∧ i < hi then st.1.RowSat i (Q i) else st.1.RowSat i (P i))) := by
  refine Res.wp_mono (wp_rowsD hsc
    (G := fun done st => st.1.Shape ∧ st.1.N = N ∧ st.1.M = M ∧ (∀ t, (st.2.1 t).Clean Ns) ∧
      st.2.2 = t0 + (done.map r).sum ∧
      ∀ i, i < N → ¬ (lo ≤ i ∧ i < hi) → st.1.RowSat i (P i))
    (P := fun i st => st.1.RowSat i (P i)) (Q := fun i st => st.1.RowSat i (Q i))
    ⟨hC, hN, hM, hscr, by simp, fun i hi _ => hP i hi⟩ (fun i _ h2 => hP i (by omega)) ?_) ?_
  · rintro done t i ⟨C, scr, tt⟩ h1 h2 ⟨gS, gN, gM, gC, gT, gO⟩ hPi
    simp only [Res.wp_bind]
    refine Res.wp_mono (hstep i C (scr t) tt h1 h2 gS gN gM hPi (gC t)) ?_
    rintro ⟨C', s', t'⟩ ⟨k1, k2, k3, k4, k5⟩
    simp only [Res.pure_eq, Res.wp_ok]
    refine ⟨⟨k1, by rw [k2.N, gN], by rw [k2.M, gM], ?_, ?_, ?_⟩, k3, ?_⟩
    · intro t'
      by_cases ht : t' = t
      · subst ht; simpa using k4
      · rw [upd_ne _ _ ht]; exact gC t'
    · simp only at k5 gT
      rw [k5, gT]
      simp [add_assoc]
    · intro j hj hnj
      exact k2.rowSat (by rintro rfl; exact hnj ⟨h1, h2⟩) (gO j hj hnj)
    · intro j _ _ hj
      exact ⟨k2.rowSat hj, k2.rowSat hj⟩
  · rintro ⟨C', scr', t'⟩ ⟨⟨gS, gN, gM, _, gT, gO⟩, hQ⟩
    refine ⟨gS, gN, gM, ?_, ?_⟩
    · rw [gT, hsc.sum_eq]
    intro i hi
    split
    · next h => exact hQ i h.1 h.2
    · next h => exact gO i hi h

/-- A row kernel run under any schedule: rows `lo ≤ i < hi` go from `P i` to `Q i`, the
other rows stay as they are. -/
theorem wp_kernel {lo hi N M Ns : Nat} {sc : Sched} (hsc : IsSched lo hi sc) (hhi : hi ≤ N)
    (step : Nat → Ell R → Scr R → Res (Ell R × Scr R)) (P Q : Nat → SRow R → Prop)
    (hstep : ∀ i C s, lo ≤ i → i < hi → C.Shape → C.N = N → C.M = M → C.RowSat i (P i) →
      s.Clean Ns → (step i C s).wp E (fun st => st.1.Shape ∧ Frame C st.1 i ∧
        st.1.RowSat i (Q i) ∧ st.2.Clean Ns))
    {C : Ell R} (hC : C.Shape) (hN : C.N = N) (hM : C.M = M)
    (hP : ∀ i, i < N → C.RowSat i (P i)) {scr : Nat → Scr R} (hscr : ∀ t, (scr t).Clean Ns) :
    (forList sc (C, scr) fun ti (st : Ell R × (Nat → Scr R)) => do
      let (C, s) ← step ti.2 st.1 (st.2 ti.1)
      pure (C, upd st.2 ti.1 s)).wp E (fun st =>
        st.1.Shape ∧ st.1.N = N ∧ st.1.M = M ∧
        (∀ i, i < N → if lo ≤ i ∧ i < hi then st.1.RowSat i (Q i) else st.1.RowSat i (P i))) := by
  refine Res.wp_mono (wp_rows hsc
    (G := fun st => st.1.Shape ∧ st.1.N = N ∧ st.1.M = M ∧ (∀ t, (st.2 t).Clean Ns) ∧
      ∀ i, i < N → ¬ (lo ≤ i ∧ i < hi) → st.1.RowSat i (P i))
    (P := fun i st => st.1.RowSat i (P i)) (Q := fun i st => st.1.RowSat i (Q i))
    ⟨hC, hN, hM, hscr, fun i hi _ => hP i hi⟩ (fun i _ h2 => hP i (by omega)) ?_) ?_
  · rintro t i ⟨C, scr⟩ h1 h2 ⟨gS, gN, gM, gC, gO⟩ hPi
    simp only [Res.wp_bind]
    refine Res.wp_mono (hstep i C (scr t) h1 h2 gS gN gM hPi (gC t)) ?_
    rintro ⟨C', s'⟩ ⟨k1, k2, k3, k4⟩
    simp only [Res.pure_eq, Res.wp_ok]
    refine ⟨⟨k1, by rw [k2.N, gN], by rw [k2.M, gM], ?_, ?_⟩, k3, ?_⟩
    · intro t'
      by_cases ht : t' = t
      · subst ht; simpa using k4
      · rw [upd_ne _ _ ht]; exact gC t'
    · intro j hj hnj
      exact k2.rowSat (by rintro rfl; exact hnj ⟨h1, h2⟩) (gO j hj hnj)
    · intro j _ _ hj
      exact ⟨k2.rowSat hj, k2.rowSat hj⟩
  · rintro ⟨C', scr'⟩ ⟨⟨gS, gN, gM, _, gO⟩, hQ⟩
    refine ⟨gS, gN, gM, ?_⟩
    intro i hi
    split
    · next h => exact hQ i h.1 h.2
    · next h => exact gO i hi h

section
variable [CommRing R]

/-- The list `L` is a proper row of width `N` with values `g`. -/
def IsRow (N : Nat) (g : Nat → R) (L : SRow R) : Prop :=
  SRow.Good N L ∧ ∀ j, j < N → L.den j = g j

theorem Rep.rowSat {A : Ell R} {N : Nat} {a : Spec.Mat R} (h : A.Rep N a) {i : Nat}
    (hi : i < N) : A.RowSat i (IsRow N (a i)) :=
  ⟨h.le i hi, h.good i hi, fun j hj => h.den i j hi hj⟩

theorem rep_of_rowSat {A : Ell R} {N : Nat} {a : Spec.Mat R} (hs : A.Shape) (hN : A.N = N)
    (h : ∀ i, i < N → A.RowSat i (IsRow N (a i))) : A.Rep N a :=
  ⟨hs, hN, fun i hi => (h i hi).1, fun i hi => (h i hi).2.1, fun i j hi hj => (h i hi).2.2 j hj⟩

/-- The values after compaction. -/
theorem den_filter {s : Scr R} {N l : Nat} {f : Nat → R} (h : s.Holds N l f)
    (test : Nat → R → Bool) (j : Nat) :
    (SRow.ofCols ((s.cols l).filter (fun j => test j (f j))) f).den j
      = if test j (f j) then f j else 0 := by
  rw [SRow.den_ofCols _ (h.nodup.filter _)]
  by_cases hm : j ∈ s.cols l
  · by_cases ht : test j (f j) = true <;> simp [hm, ht]
  · simp [hm, h.out j hm]

theorem good_filter {s : Scr R} {N l : Nat} {f : Nat → R} (h : s.Holds N l f)
    (test : Nat → R → Bool) :
    SRow.Good N (SRow.ofCols ((s.cols l).filter (fun j => test j (f j))) f) :=
  SRow.good_ofCols (h.nodup.filter _) (fun j hj => h.lt j (List.mem_filter.1 hj).1)

theorem length_filter_le {s : Scr R} {N l : Nat} {f : Nat → R} (h : s.Holds N l f)
    (test : Nat → R → Bool) :
    ((s.cols l).filter (fun j => test j (f j))).length
      ≤ ((Finset.range N).filter (fun j => test j (f j) = true)).card :=
  SRow.length_le_card (h.nodup.filter _) (fun j => test j (f j)) (fun j hj =>
    ⟨h.lt j (List.mem_filter.1 hj).1, (List.mem_filter.1 hj).2⟩)

/-! ## Addition -/

section
variable [DecidableEq R]

/-- What `add` stores in row `i`. -/
def AddRow (big : R → Bool) (N : Nat) (g : Nat → R) (L : SRow R) : Prop :=
  IsRow N (fun j => Spec.keep big (g j)) L ∧ ∀ p ∈ L, big p.2 = true

theorem wp_addRow {N i : Nat} {A B : Ell R} {s : Scr R} (hA : A.Shape) (hAN : A.N = N)
    (hi : i < N) (hB : B.Shape) (hBN : B.N = N) {a b : Nat → R}
    (ha : A.RowSat i (IsRow N a)) (hb : B.RowSat i (IsRow N b)) (hs : s.Clean N)
    (α β : R) (big : R → Bool)
    (hfit : ((Finset.range N).filter (fun j => big (α * a j + β * b j) = true)).card ≤ A.M) :
    (addRow B α β big i A s).wp E (fun st => st.1.Shape ∧ Frame A st.1 i ∧
      st.1.RowSat i (AddRow big N (fun j => α * a j + β * b j)) ∧ st.2.Clean N) := by
  unfold addRow
  rw [Res.wp_bind]
  -- first operand
  have h1 : (if α ≠ 0 then accumRow A i (i + 1) α (s, 0) else pure (s, 0)).wp E
      (fun st => st.1.Holds N st.2 (fun j => α * (A.row i).den j)) := by
    by_cases hα : α = 0
    · simp only [hα, ne_eq, not_true_eq_false, if_false, Res.wp_pure]
      exact hs.holds.congr (by simp)
    · simp only [ne_eq, hα, not_false_eq_true, if_true]
      refine Res.wp_mono (wp_accumRow hA (by omega) ha.1 (fun p hp => ha.2.1.2 p hp)
        hs.holds (by omega) α) ?_
      intro st hst
      exact hst.1.congr (by simp)
  refine Res.wp_mono h1 ?_
  rintro ⟨s1, l1⟩ hh1
  rw [Res.wp_bind]
  have h2 : (if β ≠ 0 then accumRow B i (i + 1) β (s1, l1) else pure (s1, l1)).wp E
      (fun st => st.1.Holds N st.2 (fun j => α * (A.row i).den j + β * (B.row i).den j)) := by
    by_cases hβ : β = 0
    · simp only [hβ, ne_eq, not_true_eq_false, if_false, Res.wp_pure]
      exact Holds.congr hh1 (by simp)
    · simp only [ne_eq, hβ, not_false_eq_true, if_true]
      refine Res.wp_mono (wp_accumRow hB (by omega) hb.1 (fun p hp => hb.2.1.2 p hp)
        hh1 (by omega) β) ?_
      intro st hst
      exact hst.1
  refine Res.wp_mono h2 ?_
  rintro ⟨s2, l2⟩ hh2
  simp only at hh2
  rw [setNnz_eq hA _ (by omega), Res.bind_ok, Res.wp_bind]
  have hval : ∀ j, j < N → α * (A.row i).den j + β * (B.row i).den j = α * a j + β * b j := by
    intro j hj; rw [ha.2.2 j hj, hb.2.2 j hj]
  have hlen : ((s2.cols l2).filter
      (fun j => big (α * (A.row i).den j + β * (B.row i).den j))).length ≤ A.M := by
    refine le_trans (length_filter_le hh2 (fun _ x => big x)) (le_trans (le_of_eq ?_) hfit)
    congr 1
    apply Finset.filter_congr
    intro j hj
    rw [hval j (by simpa using hj)]
  refine Res.wp_mono (wp_flush (hA.withNnz i l2) (by simpa using (by omega : i < A.N)) hh2
    (fun _ x => big x) hlen) ?_
  rintro ⟨C', s', ll⟩ ⟨hS, hN, hM, hnn, hfr, hrow, hll, hcl⟩
  simp only at hS hN hM hnn hfr hrow hll hcl ⊢
  rw [setNnz_eq hS _ (by rw [hN]; simpa using (by omega : i < A.N))]
  simp only [Res.bind_ok, Res.pure_eq, Res.wp_ok]
  refine ⟨hS.withNnz _ _, ?_, ?_, hcl⟩
  · refine ⟨hN, hM, ?_, ?_⟩
    · intro i' hne
      simp [hnn, upd_ne _ _ hne]
    · intro i' m hne hm
      rw [withNnz_rowPre, hfr i' m hne hm, withNnz_rowPre]
  · refine ⟨?_, ?_⟩
    · simp only [withNnz_nnz, upd_same, withNnz_M]
      rw [hll]
      exact le_trans hlen (le_of_eq hM.symm)
    · rw [withNnz_row_same, hrow]
      refine ⟨⟨good_filter hh2 (fun _ x => big x), ?_⟩, ?_⟩
      · intro j hj
        rw [den_filter hh2 (fun _ x => big x), hval j hj]
        rfl
      · intro p hp
        simp only [SRow.ofCols, List.mem_map] at hp
        obtain ⟨j, hj, rfl⟩ := hp
        exact (List.mem_filter.1 hj).2

/-- Internal form of the addition theorem. -/
theorem wp_add {N lo hi : Nat} {A B : Ell R} {a b : Spec.Mat R} (hA : A.Rep N a)
    (hB : B.Rep N b) (α β : R) (big : R → Bool) {sc : Sched} (hsc : IsSched lo hi sc)
    (hhi : hi ≤ N)
    (hfit : ∀ i, lo ≤ i → i < hi →
      Spec.rowCount big N (fun i j => α * a i j + β * b i j) i ≤ A.M) :
    (add A B α β big sc).wp E (fun A' => A'.M = A.M ∧ A'.Shape ∧ A'.N = N ∧
      ∀ i, i < N → if lo ≤ i ∧ i < hi
        then A'.RowSat i (AddRow big N (fun j => α * a i j + β * b i j))
        else A'.RowSat i (IsRow N (a i))) := by
  unfold add
  rw [Res.wp_bind]
  refine Res.wp_mono (wp_kernel (N := N) (M := A.M) (Ns := N) hsc hhi
    (fun i C s => addRow B α β big i C s) (fun i => IsRow N (a i))
    (fun i => AddRow big N (fun j => α * a i j + β * b i j)) ?_ hA.shape hA.dim rfl
    (fun i hi => hA.rowSat hi) ?_) ?_
  · intro i C s h1 h2 hC hN hM hP hs
    exact wp_addRow hC hN (by omega) hB.shape hB.dim hP (hB.rowSat (by omega)) hs α β big
      (by rw [hM]; exact hfit i h1 h2)
  · intro t; rw [hA.dim]; exact clean_clearScr N
  · rintro ⟨A', scr⟩ ⟨h1, h2, h3, h4⟩
    exact ⟨h3, h1, h2, h4⟩

/-- Addition of a matrix to itself (aliased arguments). -/
theorem wp_addSelf {N lo hi : Nat} {A : Ell R} {a : Spec.Mat R} (hA : A.Rep N a)
    (α β : R) (big : R → Bool) {sc : Sched} (hsc : IsSched lo hi sc)
    (hhi : hi ≤ N)
    (hfit : ∀ i, lo ≤ i → i < hi →
      Spec.rowCount big N (fun i j => α * a i j + β * a i j) i ≤ A.M) :
    (addSelf A α β big sc).wp E (fun A' => A'.M = A.M ∧ A'.Shape ∧ A'.N = N ∧
      ∀ i, i < N → if lo ≤ i ∧ i < hi
        then A'.RowSat i (AddRow big N (fun j => α * a i j + β * a i j))
        else A'.RowSat i (IsRow N (a i))) := by
  unfold addSelf
  rw [Res.wp_bind]
  refine Res.wp_mono (wp_kernel (N := N) (M := A.M) (Ns := N) hsc hhi
    (fun i C s => addRow C α β big i C s) (fun i => IsRow N (a i))
    (fun i => AddRow big N (fun j => α * a i j + β * a i j)) ?_ hA.shape hA.dim rfl
    (fun i hi => hA.rowSat hi) ?_) ?_
  · intro i C s h1 h2 hC hN hM hP hs
    exact wp_addRow hC hN (by omega) hC hN hP hP hs α β big
      (by rw [hM]; exact hfit i h1 h2)
  · intro t; rw [hA.dim]; exact clean_clearScr N
  · rintro ⟨A', scr⟩ ⟨h1, h2, h3, h4⟩
    exact ⟨h3, h1, h2, h4⟩

end

/-! ## Products -/

theorem wp_accumProd {N : Nat} {A B : Ell R} (hA : A.Shape) (hAN : A.N = N) (hB : B.Shape)
    (hBN : B.N = N) {i : Nat} (hi : i < N) {b : Spec.Mat R}
    (hle : A.nnz.get i ≤ A.M) (hlt : ∀ p ∈ A.row i, p.1 < N)
    (hb : ∀ k, k < N → B.RowSat k (IsRow N (b k)))
    {s : Scr R} (hs : s.Clean N) :
    (accumProd A B i (s, 0)).wp E (fun st =>
      st.1.Holds N st.2 (fun j => ((A.row i).map (fun p => p.2 * (B.row p.1).den j)).sum) ∧
      ∀ j, j ∈ st.1.cols st.2 ↔ ∃ p ∈ A.row i, j ∈ (B.row p.1).map Prod.fst) := by
  unfold accumProd
  rw [read_nnz hA (by omega), Res.bind_ok]
  refine wp_loop' (fun n st => st.1.Holds N st.2
      (fun j => ((A.rowPre i n).map (fun p => p.2 * (B.row p.1).den j)).sum) ∧
      ∀ j, j ∈ st.1.cols st.2 ↔ ∃ p ∈ A.rowPre i n, j ∈ (B.row p.1).map Prod.fst) ?_ ?_ ?_
  · exact ⟨hs.holds.congr (by simp), by simp [Scr.cols]⟩
  · rintro n hn ⟨s1, l1⟩ ⟨hH, hC⟩
    rw [read_val hA (by omega) (by omega), Res.bind_ok, read_idx hA (by omega) (by omega),
      Res.bind_ok]
    have hk : A.idx.get (i * A.M + n) < N := hlt _ (mem_rowPre.2 ⟨n, hn, rfl⟩)
    refine Res.wp_mono (wp_accumRow hB (by omega) (hb _ hk).1
      (fun p hp => (hb _ hk).2.1.2 p hp) hH (by omega) _) ?_
    rintro ⟨s2, l2⟩ ⟨h2, c2⟩
    refine ⟨h2.congr ?_, ?_⟩
    · intro j; simp [rowPre_succ]
    · intro j
      rw [c2, hC j, rowPre_succ]
      constructor
      · rintro (⟨p, hp, hj⟩ | hj)
        · exact ⟨p, by simp [hp], hj⟩
        · exact ⟨(A.idx.get (i * A.M + n), A.val.get (i * A.M + n)), by simp, hj⟩
      · rintro ⟨p, hp, hj⟩
        rcases List.mem_append.1 hp with hp | hp
        · exact Or.inl ⟨p, hp, hj⟩
        · simp at hp; subst hp; exact Or.inr hj
  · intro st h; exact h

/-- The stored sum is the matrix product. -/
theorem prod_value {N i : Nat} {L : SRow R} {B : Ell R} {a b : Spec.Mat R}
    (hL : IsRow N (a i) L) (hb : ∀ k, k < N → B.RowSat k (IsRow N (b k))) {j : Nat}
    (hj : j < N) :
    (L.map (fun p => p.2 * (B.row p.1).den j)).sum = Spec.mul N a b i j := by
  unfold Spec.mul
  rw [← SRow.sum_den_mul hL.1.2 (fun k => (B.row k).den j)]
  apply Finset.sum_congr rfl
  intro k hk
  have hk : k < N := by simpa using hk
  rw [hL.2 k hk, (hb k hk).2.2 j hj]

/-- The number of columns reached by the sparsity patterns: the size of the symbolic product
row, which is what the capacity check of `bml_multiply_AB` compares with `M`. -/
def symCount (A B : Ell R) (N i : Nat) : Nat :=
  ((Finset.range N).filter
    (fun j => ∃ p ∈ A.row i, j ∈ (B.row p.1).map Prod.fst)).card

/-- What the product kernels store in row `i`. -/
def MulRow (big : R → Bool) (N i : Nat) (g : Nat → R) (L : SRow R) : Prop :=
  IsRow N (fun j => if i = j then g j else Spec.keep big (g j)) L

theorem wp_multFlush {N i l : Nat} {C : Ell R} (hC : C.Shape) (hCN : C.N = N) (hi : i < N)
    {s : Scr R} {f g : Nat → R} (big : R → Bool) (hH : s.Holds N l f)
    (hfg : ∀ j, j < N → f j = g j)
    (hfit : ((s.cols l).filter (fun j => decide (j = i) || big (f j))).length ≤ C.M) :
    (flush C i (fun j x => decide (j = i) || big x) s l).wp E (fun st =>
      st.1.Shape ∧ st.1.N = C.N ∧ st.1.M = C.M ∧ st.1.nnz = C.nnz ∧
      Frame C (st.1.withNnz i st.2.2) i ∧
      (st.1.withNnz i st.2.2).RowSat i (MulRow big N i g) ∧
      st.2.2 ≤ C.M ∧
      st.2.1.Clean N) := by
  refine Res.wp_mono (wp_flush hC (by omega) hH (fun j x => decide (j = i) || big x) hfit) ?_
  rintro ⟨C', s', ll⟩ ⟨hS, hN, hM, hnn, hfr, hrow, hll, hcl⟩
  simp only at hS hN hM hnn hfr hrow hll hcl ⊢
  refine ⟨hS, hN, hM, hnn, ?_, ?_, by rw [hll]; exact hfit, hcl⟩
  · refine ⟨hN, hM, ?_, ?_⟩
    · intro i' hne; simp [upd_ne _ _ hne, hnn]
    · intro i' m hne hm
      rw [withNnz_rowPre, hfr i' m hne hm]
  · refine ⟨?_, ?_⟩
    · simp only [withNnz_nnz, upd_same, withNnz_M]
      rw [hll]; exact le_trans hfit (le_of_eq hM.symm)
    · rw [withNnz_row_same, hrow]
      refine ⟨good_filter hH (fun j x => decide (j = i) || big x), ?_⟩
      intro j hj
      rw [den_filter hH (fun j x => decide (j = i) || big x), hfg j hj]
      by_cases hji : i = j
      · subst hji; simp
      · simp [hji, Ne.symm hji, Spec.keep]

theorem wp_multABRow {N i : Nat} {A B C : Ell R} {s : Scr R} {a b : Spec.Mat R}
    (hA : A.Rep N a) (hB : B.Rep N b) (hC : C.Shape) (hCN : C.N = N) (hi : i < N)
    (hs : s.Clean N) (big : R → Bool) :
    (multABRow A B big i C s).wp (symCount A B N i > C.M) (fun st => st.1.Shape ∧
      Frame C st.1 i ∧
      st.1.RowSat i (fun L => MulRow big N i (fun j => Spec.mul N a b i j) L ∧
        symCount A B N i ≤ C.M) ∧ st.2.Clean N) := by
  unfold multABRow
  rw [Res.wp_bind]
  have hAi := hA.rowSat hi
  refine Res.wp_mono (wp_accumProd hA.shape hA.dim hB.shape hB.dim hi hAi.1
    (fun p hp => hAi.2.1.2 p hp) (fun k hk => hB.rowSat hk) hs) ?_
  rintro ⟨s1, l1⟩ ⟨hH, hcols⟩
  simp only at hH hcols ⊢
  have hcount : l1 = symCount A B N i := by
    have := SRow.length_eq_card (N := N) hH.nodup
      (fun j => decide (∃ p ∈ A.row i, j ∈ (B.row p.1).map Prod.fst)) (by
        intro j
        rw [hcols j]
        simp only [decide_eq_true_eq]
        constructor
        · intro h; exact ⟨hH.lt j ((hcols j).2 h), h⟩
        · exact fun h => h.2)
    rw [Scr.cols_length] at this
    rw [this]
    unfold symCount
    congr 1
    apply Finset.filter_congr
    intro j _
    simp
  split
  · next h => simp only [Res.wp_error]; omega
  · next h =>
    rw [Res.wp_bind]
    refine Res.wp_mono (wp_multFlush hC hCN hi big hH
      (g := fun j => Spec.mul N a b i j)
      (fun j hj => prod_value hAi.2 (fun k hk => hB.rowSat hk) hj) ?_) ?_
    · refine le_trans (List.length_filter_le _ _) ?_
      rw [Scr.cols_length]; omega
    · rintro ⟨C', s', ll⟩ ⟨hS, hN, hM, hnn, hfr, hrow, hll, hcl⟩
      simp only at hS hN hM hnn hfr hrow hll hcl ⊢
      rw [setNnz_eq hS _ (by omega)]
      simp only [Res.bind_ok, Res.pure_eq, Res.wp_ok]
      exact ⟨hS.withNnz _ _, hfr, ⟨hrow.1, hrow.2, by omega⟩, hcl⟩

/-- Internal form of the product theorem: exact dichotomy between success and the capacity
error. -/
theorem wp_multAB {N lo hi : Nat} {A B C : Ell R} {a b c : Spec.Mat R} (hA : A.Rep N a)
    (hB : B.Rep N b) (hC : C.Rep N c) (big : R → Bool) {sc : Sched}
    (hsc : IsSched lo hi sc) (hhi : hi ≤ N) :
    (multAB A B C big sc).wp (∃ i, lo ≤ i ∧ i < hi ∧ symCount A B N i > C.M)
      (fun C' => C'.M = C.M ∧ C'.Shape ∧ C'.N = N ∧
        ∀ i, i < N → if lo ≤ i ∧ i < hi
          then C'.RowSat i (fun L => MulRow big N i (fun j => Spec.mul N a b i j) L ∧
            symCount A B N i ≤ C.M)
          else C'.RowSat i (IsRow N (c i))) := by
  unfold multAB
  rw [Res.wp_bind]
  refine Res.wp_mono (wp_kernel (N := N) (M := C.M) (Ns := N) hsc hhi
    (fun i C s => multABRow A B big i C s) (fun i => IsRow N (c i))
    (fun i L => MulRow big N i (fun j => Spec.mul N a b i j) L ∧ symCount A B N i ≤ C.M)
    ?_ hC.shape hC.dim rfl (fun i hi => hC.rowSat hi) ?_) ?_
  · intro i C' s h1 h2 hC' hN hM hP hs
    refine Res.wp_mono' (wp_multABRow hA hB hC' hN (by omega) hs big) ?_ ?_
    · intro h; exact ⟨i, h1, h2, by omega⟩
    · rintro st ⟨k1, k2, k3, k4⟩
      exact ⟨k1, k2, ⟨k3.1, k3.2.1, by have := k3.2.2; omega⟩, k4⟩
  · intro t; rw [hC.dim]; exact clean_clearScr N
  · rintro ⟨A', scr⟩ ⟨h1, h2, h3, h4⟩
    exact ⟨h3, h1, h2, h4⟩

/-! ## Squaring -/

theorem wp_rowTrace {X : Ell R} (hX : X.Shape) {i : Nat} (hi : i < X.N)
    (hle : X.nnz.get i ≤ X.M) (t : R) :
    (rowTrace X i t).wp E (fun t' => t' = t + (X.row i).den i) := by
  unfold rowTrace
  rw [read_nnz hX hi, Res.bind_ok]
  refine wp_loop' (fun n t' => t' = t + (X.rowPre i n).den i) (by simp) ?_ (fun _ h => h)
  rintro n hn t' rfl
  rw [read_val hX hi (by omega), Res.bind_ok, read_idx hX hi (by omega), Res.bind_ok]
  simp only [Res.pure_eq, Res.wp_ok, rowPre_succ, SRow.den_append, SRow.den_cons,
    SRow.den_nil, add_zero]
  split <;> ring

theorem wp_scrTrace {N : Nat} {s : Scr R} {l : Nat} {f : Nat → R} (h : s.Holds N l f) (i : Nat)
    (t : R) : (scrTrace s l i t).wp E (fun t' => t' = t + f i) := by
  have hl : l ≤ N := by
    have h2 : (s.cols l).toFinset ⊆ Finset.range N := by
      intro a ha
      simp only [List.mem_toFinset] at ha
      simpa using h.lt a ha
    have h3 := Finset.card_le_card h2
    rw [List.toFinset_card_of_nodup h.nodup] at h3
    simpa using h3
  have hmem : ∀ j, j < l → s.jx.get j ∈ s.cols l := by
    intro j hj; unfold Scr.cols; exact List.mem_map.2 ⟨j, by simpa using hj, rfl⟩
  unfold scrTrace
  refine wp_loop' (fun n t' => t' = t + (SRow.ofCols (s.cols n) f).den i) ?_ ?_ ?_
  · simp [Scr.cols, SRow.ofCols]
  · rintro n hn t' rfl
    have hlt := h.lt _ (hmem n hn)
    rw [Res.wp_bind, Arr.wp_read]
    refine ⟨by rw [h.szj]; omega, ?_⟩
    rw [Res.wp_bind, Arr.wp_read]
    refine ⟨by rw [h.szx]; exact hlt, ?_⟩
    rw [h.val _ (hmem n hn), cols_succ, SRow.ofCols_append]
    simp only [Res.pure_eq, Res.wp_ok, SRow.den_append, SRow.ofCols, List.map_cons, List.map_nil,
      SRow.den_cons, SRow.den_nil, add_zero]
    split <;> ring
  · rintro t' rfl
    rw [SRow.den_ofCols _ h.nodup]
    by_cases hm : i ∈ s.cols l
    · simp [hm]
    · simp [hm, h.out i hm]

theorem wp_multX2Row {N i : Nat} {X C : Ell R} {s : Scr R} {a : Spec.Mat R}
    (hX : X.Rep N a) (hC : C.Shape) (hCN : C.N = N) (hi : i < N)
    (hs : s.Clean N) (big : R → Bool) (tr : R × R)
    (hfit : ((Finset.range N).filter (fun j => (j = i ∨ big (Spec.mul N a a i j) = true) ∧
      ∃ p ∈ X.row i, j ∈ (X.row p.1).map Prod.fst)).card ≤ C.M) :
    (multX2Row X big i C s tr).wp E (fun st => st.1.Shape ∧
      Frame C st.1 i ∧
      st.1.RowSat i (MulRow big N i (fun j => Spec.mul N a a i j)) ∧ st.2.1.Clean N ∧
      st.2.2 = tr + (a i i, Spec.mul N a a i i)) := by
  unfold multX2Row
  have hXi := hX.rowSat hi
  rw [Res.wp_bind]
  refine Res.wp_mono (wp_rowTrace hX.shape (by rw [hX.dim]; exact hi) hXi.1 _) ?_
  rintro t1 rfl
  rw [Res.wp_bind]
  refine Res.wp_mono (wp_accumProd hX.shape hX.dim hX.shape hX.dim hi hXi.1
    (fun p hp => hXi.2.1.2 p hp) (fun k hk => hX.rowSat hk) hs) ?_
  rintro ⟨s1, l1⟩ ⟨hH, hcols⟩
  simp only at hH hcols ⊢
  rw [Res.wp_bind]
  refine Res.wp_mono (wp_scrTrace hH i _) ?_
  rintro t2 rfl
  rw [Res.wp_bind]
  have hg : ∀ j, j < N → ((X.row i).map (fun p => p.2 * (X.row p.1).den j)).sum
      = Spec.mul N a a i j :=
    fun j hj => prod_value hXi.2 (fun k hk => hX.rowSat hk) hj
  refine Res.wp_mono (wp_multFlush hC hCN hi big hH (g := fun j => Spec.mul N a a i j) hg ?_) ?_
  · refine le_trans ?_ hfit
    refine le_trans (SRow.length_le_card (N := N) (hH.nodup.filter _)
      (fun j => decide ((j = i ∨ big (Spec.mul N a a i j) = true) ∧
      ∃ p ∈ X.row i, j ∈ (X.row p.1).map Prod.fst)) ?_) (le_of_eq ?_)
    · intro j hj
      obtain ⟨hj1, hj2⟩ := List.mem_filter.1 hj
      have hlt := hH.lt j hj1
      refine ⟨hlt, ?_⟩
      simp only [hg j hlt] at hj2
      simp only [decide_eq_true_eq]
      exact ⟨by simpa using hj2, (hcols j).1 hj1⟩
    · congr 1
      apply Finset.filter_congr
      intro j _
      simp
  · rintro ⟨C', s', ll⟩ ⟨hS, hN, hM, hnn, hfr, hrow, hll, hcl⟩
    simp only at hS hN hM hnn hfr hrow hll hcl ⊢
    rw [if_neg (by omega), setNnz_eq hS _ (by omega)]
    simp only [Res.bind_ok, Res.pure_eq, Res.wp_ok]
    refine ⟨hS.withNnz _ _, hfr, hrow, hcl, ?_⟩
    rw [hg i hi, hXi.2.2 i hi]
    rfl

/-- The number of entries that squaring stores in row `i`: columns reached by the sparsity
patterns that are on the diagonal or above threshold. -/
def x2Count (X : Ell R) (big : R → Bool) (a : Spec.Mat R) (N i : Nat) : Nat :=
  ((Finset.range N).filter (fun j => (j = i ∨ big (Spec.mul N a a i j) = true) ∧
      ∃ p ∈ X.row i, j ∈ (X.row p.1).map Prod.fst)).card

/-- Internal form of the squaring theorem. -/
theorem wp_multX2 {N lo hi : Nat} {X C : Ell R} {a c : Spec.Mat R} (hX : X.Rep N a)
    (hC : C.Rep N c) (big : R → Bool) {sc : Sched}
    (hsc : IsSched lo hi sc) (hhi : hi ≤ N)
    (hfit : ∀ i, lo ≤ i → i < hi → x2Count X big a N i ≤ C.M) :
    (multX2 X C big sc).wp E (fun r => r.1.M = C.M ∧ r.1.Shape ∧ r.1.N = N ∧
        r.2 = (∑ i ∈ Finset.Ico lo hi, a i i, ∑ i ∈ Finset.Ico lo hi, Spec.mul N a a i i) ∧
        ∀ i, i < N → if lo ≤ i ∧ i < hi
          then r.1.RowSat i (MulRow big N i (fun j => Spec.mul N a a i j))
          else r.1.RowSat i (IsRow N (c i))) := by
  unfold multX2
  rw [Res.wp_bind]
  refine Res.wp_mono (wp_kernelR (N := N) (M := C.M) (Ns := N) hsc hhi
    (fun i C s t => multX2Row X big i C s t) (fun i => IsRow N (c i))
    (fun i => MulRow big N i (fun j => Spec.mul N a a i j))
    (fun i => (a i i, Spec.mul N a a i i))
    ?_ hC.shape hC.dim rfl (fun i hi => hC.rowSat hi) ?_ (0, 0)) ?_
  · intro i C' s t h1 h2 hC' hN hM hP hs
    exact wp_multX2Row hX hC' hN (by omega) hs big t (by rw [hM]; exact hfit i h1 h2)
  · intro t; rw [hX.dim]; exact clean_clearScr N
  · rintro ⟨A', scr, tr⟩ ⟨h1, h2, h3, h4, h5⟩
    refine ⟨h3, h1, h2, ?_, h5⟩
    simp only at h4
    rw [h4]
    ext
    · simp [Prod.fst_sum]
    · simp [Prod.snd_sum]

end

end Ell

end Bml
