import Verif.Ellpack.Norms

/-!
# ELLPACK updates: threshold, copy, scale, reorder, identity, add with norm
-/

set_option linter.unusedSectionVars false

namespace Bml

theorem wp_copyRange {α : Type} {E : Prop} {src dst : Arr α} {s d n : Nat}
    (hs : s + n ≤ src.size) (hd : d + n ≤ dst.size) :
    (copyRange src s dst d n).wp E (fun r => r.size = dst.size ∧
      ∀ q, r.get q = if d ≤ q ∧ q < d + n then src.get (s + (q - d)) else dst.get q) := by
  unfold copyRange
  refine wp_loop' (fun k r => r.size = dst.size ∧
      ∀ q, r.get q = if d ≤ q ∧ q < d + k then src.get (s + (q - d)) else dst.get q) ?_ ?_
      (fun _ h => h)
  · refine ⟨rfl, fun q => ?_⟩
    rw [if_neg (by omega)]
  · rintro k hk r ⟨h1, h2⟩
    rw [Arr.read_ok (by omega), Res.bind_ok, Arr.wp_write]
    refine ⟨by omega, h1, fun q => ?_⟩
    simp only
    by_cases he : q = d + k
    · subst he
      rw [upd_same, if_pos (by omega)]
      congr 1; omega
    · rw [upd_ne _ _ he, h2 q]
      by_cases hc : d ≤ q ∧ q < d + k
      · rw [if_pos hc, if_pos (by omega)]
      · rw [if_neg hc, if_neg (by omega)]

theorem wp_scal {R : Type} [Mul R] {E : Prop} {x : Arr R} {a : R} {n start : Nat}
    (h : start + n ≤ x.size) :
    (scal n a x start).wp E (fun r => r.size = x.size ∧
      ∀ q, r.get q = if start ≤ q ∧ q < start + n then a * x.get q else x.get q) := by
  unfold scal
  refine wp_loop' (fun k r => r.size = x.size ∧
      ∀ q, r.get q = if start ≤ q ∧ q < start + k then a * x.get q else x.get q) ?_ ?_
      (fun _ h => h)
  · refine ⟨rfl, fun q => ?_⟩
    rw [if_neg (by omega)]
  · rintro k hk r ⟨h1, h2⟩
    rw [Arr.read_ok (by omega), Res.bind_ok, Arr.wp_write]
    refine ⟨by omega, h1, fun q => ?_⟩
    simp only
    by_cases he : q = start + k
    · subst he
      rw [upd_same, if_pos (by omega), h2, if_neg (by omega)]
    · rw [upd_ne _ _ he, h2 q]
      by_cases hc : start ≤ q ∧ q < start + k
      · rw [if_pos hc, if_pos (by omega)]
      · rw [if_neg hc, if_neg (by omega)]

namespace Ell

variable {R : Type} [CommRing R] {E : Prop}

omit [CommRing R] in
/-- A row kernel without scratch, under any schedule. -/
theorem wp_kernel0 {lo hi N M : Nat} {sc : Sched} (hsc : IsSched lo hi sc) (hhi : hi ≤ N)
    (step : Nat → Ell R → Res (Ell R)) (P Q : Nat → SRow R → Prop)
    (hstep : ∀ i C, lo ≤ i → i < hi → C.Shape → C.N = N → C.M = M → C.RowSat i (P i) →
      (step i C).wp E (fun C' => C'.Shape ∧ Frame C C' i ∧ C'.RowSat i (Q i)))
    {C : Ell R} (hC : C.Shape) (hN : C.N = N) (hM : C.M = M)
    (hP : ∀ i, i < N → C.RowSat i (P i)) :
    (forList sc C fun ti C => step ti.2 C).wp E (fun C' =>
        C'.Shape ∧ C'.N = N ∧ C'.M = M ∧
        (∀ i, i < N → if lo ≤ i ∧ i < hi then C'.RowSat i (Q i) else C'.RowSat i (P i))) := by
  refine Res.wp_mono (wp_rows hsc
    (G := fun C => C.Shape ∧ C.N = N ∧ C.M = M ∧
      ∀ i, i < N → ¬ (lo ≤ i ∧ i < hi) → C.RowSat i (P i))
    (P := fun i C => C.RowSat i (P i)) (Q := fun i C => C.RowSat i (Q i))
    ⟨hC, hN, hM, fun i hi _ => hP i hi⟩ (fun i _ h2 => hP i (by omega)) ?_) ?_
  · rintro t i C h1 h2 ⟨gS, gN, gM, gO⟩ hPi
    refine Res.wp_mono (hstep i C h1 h2 gS gN gM hPi) ?_
    rintro C' ⟨k1, k2, k3⟩
    refine ⟨⟨k1, by rw [k2.N, gN], by rw [k2.M, gM], ?_⟩, k3, ?_⟩
    · intro j hj hnj
      exact k2.rowSat (by rintro rfl; exact hnj ⟨h1, h2⟩) (gO j hj hnj)
    · intro j _ _ hj
      exact ⟨k2.rowSat hj, k2.rowSat hj⟩
  · rintro C' ⟨⟨gS, gN, gM, gO⟩, hQ⟩
    refine ⟨gS, gN, gM, ?_⟩
    intro i hi
    split
    · next h => exact hQ i h.1 h.2
    · next h => exact gO i hi h

theorem Rep.rowSelf {A : Ell R} {N : Nat} {a : Spec.Mat R} (h : A.Rep N a) {i : Nat}
    (hi : i < N) : A.RowSat i (fun L => L = A.row i) := ⟨h.le i hi, rfl⟩

theorem isRow_of_rep {A : Ell R} {N : Nat} {a : Spec.Mat R} (h : A.Rep N a) {i : Nat}
    (hi : i < N) : IsRow N (a i) (A.row i) := (h.rowSat hi).2

/-! ## Threshold -/

theorem keep_row {N : Nat} {g : Nat → R} {L : SRow R} (h : IsRow N g L) (big : R → Bool) :
    AddRow big N g (L.filter (fun p => big p.2)) := by
  refine ⟨⟨h.1.sublist List.filter_sublist, ?_⟩, fun p hp => (List.mem_filter.1 hp).2⟩
  intro j hj
  rw [SRow.den_filter_keep h.1.1, h.2 j hj]

omit [CommRing R] in
theorem wp_thresholdRow {A : Ell R} (hA : A.Shape) {i : Nat} (hi : i < A.N)
    (hle : A.nnz.get i ≤ A.M) (big : R → Bool) :
    (thresholdRow big i A).wp E (fun A' => A'.Shape ∧ Frame A A' i ∧
      A'.RowSat i (fun L => L = (A.row i).filter (fun p => big p.2))) := by
  unfold thresholdRow
  rw [read_nnz hA hi, Res.bind_ok, Res.wp_bind]
  refine wp_loop' (fun n (st : Ell R × Nat) => st.1.Shape ∧ Frame A st.1 i ∧
    st.1.nnz = A.nnz ∧ st.2 ≤ n ∧
    st.1.rowPre i st.2 = (A.rowPre i n).filter (fun p => big p.2) ∧
    ∀ k, n ≤ k → k < A.M → st.1.idx.get (i * A.M + k) = A.idx.get (i * A.M + k) ∧
      st.1.val.get (i * A.M + k) = A.val.get (i * A.M + k)) ?_ ?_ ?_
  · exact ⟨hA, Frame.refl A i, rfl, le_refl _, by simp, fun _ _ _ => ⟨rfl, rfl⟩⟩
  · rintro n hn ⟨C, l⟩ ⟨g1, g2, g3, g4, g5, g6⟩
    simp only at g1 g2 g3 g4 g5 g6 ⊢
    have hiC : i < C.N := by rw [g2.N]; exact hi
    have hnM : n < C.M := by rw [g2.M]; omega
    obtain ⟨e1, e2⟩ := g6 n (le_refl _) (by omega)
    rw [read_val g1 hiC hnM, Res.bind_ok]
    rw [show C.val.get (i * C.M + n) = A.val.get (i * A.M + n) by rw [g2.M, e2]]
    by_cases hb : big (A.val.get (i * A.M + n)) = true
    · rw [if_pos hb]
      by_cases hl : l < n
      · rw [if_pos hl, read_idx g1 hiC hnM, Res.bind_ok,
          putEntry_eq g1 _ _ hiC (by omega), Res.bind_ok]
        simp only [Res.pure_eq, Res.wp_ok]
        refine ⟨g1.put _ _ _ _, g2.trans (frame_put C _ _ (by omega)), g3, by omega, ?_, ?_⟩
        · rw [put_rowPre_succ C (by omega), g5, rowPre_succ, List.filter_append]
          simp [hb, g2.M, e1]
        · intro k hk hkM
          have hne : i * A.M + k ≠ i * C.M + l := by rw [g2.M]; omega
          simp only [put, upd_ne _ _ hne]
          exact g6 k (by omega) hkM
      · have hln : l = n := by omega
        subst hln
        rw [if_neg hl]
        simp only [Res.pure_eq, Res.bind_ok, Res.wp_ok]
        refine ⟨g1, g2, g3, by omega, ?_, fun k hk hkM => g6 k (by omega) hkM⟩
        rw [rowPre_succ, g5, rowPre_succ, List.filter_append]
        simp [hb, g2.M, e1, e2]
    · rw [if_neg hb]
      simp only [Res.pure_eq, Res.wp_ok]
      refine ⟨g1, g2, g3, by omega, ?_, fun k hk hkM => g6 k (by omega) hkM⟩
      rw [g5, rowPre_succ, List.filter_append]
      simp [hb]
  · rintro ⟨C, l⟩ ⟨g1, g2, g3, g4, g5, g6⟩
    simp only at g1 g2 g3 g4 g5 g6 ⊢
    rw [setNnz_eq g1 _ (by rw [g2.N]; exact hi)]
    simp only [Res.wp_ok]
    refine ⟨g1.withNnz _ _, g2.trans (frame_withNnz C i l), ?_, ?_⟩
    · simp [g2.M]; omega
    · rw [withNnz_row_same, g5]; rfl

/-- Internal form: thresholding in place, under any schedule. -/
theorem wp_threshold {N lo hi : Nat} {A : Ell R} {a : Spec.Mat R} (hA : A.Rep N a)
    (big : R → Bool) {sc : Sched} (hsc : IsSched lo hi sc) (hhi : hi ≤ N) :
    (threshold A big sc).wp E (fun A' => A'.M = A.M ∧ A'.Shape ∧ A'.N = N ∧
      ∀ i, i < N → if lo ≤ i ∧ i < hi
        then A'.RowSat i (fun L => L = (A.row i).filter (fun p => big p.2))
        else A'.RowSat i (fun L => L = A.row i)) := by
  unfold threshold
  refine Res.wp_mono (wp_kernel0 (N := N) (M := A.M) hsc hhi (fun i C => thresholdRow big i C)
    (fun i L => L = A.row i) (fun i L => L = (A.row i).filter (fun p => big p.2)) ?_ hA.shape
    hA.dim rfl (fun i hi => hA.rowSelf hi)) ?_
  · intro i C h1 h2 hC hN hM hP
    refine Res.wp_mono (wp_thresholdRow hC (by omega) hP.1 big) ?_
    rintro C' ⟨k1, k2, k3⟩
    exact ⟨k1, k2, k3.1, by rw [k3.2, hP.2]⟩
  · rintro A' ⟨h1, h2, h3, h4⟩
    exact ⟨h3, h1, h2, h4⟩

theorem shape_zeroMatrix (N M : Nat) : (zeroMatrix N M : Ell R).Shape := ⟨rfl, rfl, rfl⟩

theorem wp_thresholdNewRow {A B : Ell R} (hA : A.Shape) (hB : B.Shape) (hN : B.N = A.N)
    (hM : B.M = A.M) {i : Nat} (hi : i < A.N)
    (hle : A.nnz.get i ≤ A.M) (h0 : B.nnz.get i = 0) (big : R → Bool) :
    (thresholdNewRow A big i B).wp E (fun B' => B'.Shape ∧ Frame B B' i ∧
      B'.RowSat i (fun L => L = (A.row i).filter (fun p => big p.2))) := by
  unfold thresholdNewRow
  rw [read_nnz hA hi, Res.bind_ok]
  refine wp_loop' (fun n (B' : Ell R) => B'.Shape ∧ Frame B B' i ∧
    B'.nnz.get i ≤ n ∧
    B'.rowPre i (B'.nnz.get i) = (A.rowPre i n).filter (fun p => big p.2)) ?_ ?_ ?_
  · exact ⟨hB, Frame.refl B i, by omega, by simp [h0]⟩
  · rintro n hn C ⟨g1, g2, g3, g4⟩
    have hiC : i < C.N := by rw [g2.N, hN]; exact hi
    have hCM : C.M = A.M := by rw [g2.M, hM]
    rw [read_val hA hi (by omega), Res.bind_ok]
    by_cases hb : big (A.val.get (i * A.M + n)) = true
    · rw [if_pos hb, read_idx hA hi (by omega), Res.bind_ok, read_nnz g1 hiC, Res.bind_ok,
        putEntry_eq g1 _ _ hiC (by omega), Res.bind_ok,
        setNnz_eq (g1.put _ _ _ _) _ (by simpa using hiC)]
      simp only [Res.wp_ok]
      refine ⟨(g1.put _ _ _ _).withNnz _ _,
        (g2.trans (frame_put C _ _ (by omega))).trans (frame_withNnz _ _ _), ?_, ?_⟩
      · simp; omega
      · simp only [withNnz_nnz, upd_same, withNnz_rowPre]
        rw [put_rowPre_succ C (by omega), g4, rowPre_succ, List.filter_append]
        simp [hb]
    · rw [if_neg hb]
      simp only [Res.pure_eq, Res.wp_ok]
      refine ⟨g1, g2, by omega, ?_⟩
      rw [g4, rowPre_succ, List.filter_append]
      simp [hb]
  · rintro C ⟨g1, g2, g3, g4⟩
    exact ⟨g1, g2, by rw [g2.M, hM]; omega, g4⟩

theorem wp_thresholdNew {N lo hi : Nat} {A : Ell R} {a : Spec.Mat R} (hA : A.Rep N a)
    (big : R → Bool) {sc : Sched} (hsc : IsSched lo hi sc) (hhi : hi ≤ N) :
    (thresholdNew A big sc).wp E (fun A' => A'.M = A.M ∧ A'.Shape ∧ A'.N = N ∧
      ∀ i, i < N → if lo ≤ i ∧ i < hi
        then A'.RowSat i (fun L => L = (A.row i).filter (fun p => big p.2))
        else A'.RowSat i (fun L => L = [])) := by
  unfold thresholdNew
  refine Res.wp_mono (wp_kernel0 (N := N) (M := A.M) hsc hhi
    (fun i C => thresholdNewRow A big i C)
    (fun i L => L = []) (fun i L => L = (A.row i).filter (fun p => big p.2)) ?_
    (shape_zeroMatrix A.N A.M) hA.dim rfl ?_) ?_
  · intro i C h1 h2 hC hN hM hP
    refine wp_thresholdNewRow hA.shape hC (by rw [hN, hA.dim]) hM (by rw [hA.dim]; omega)
      (hA.le i (by omega)) ?_ big
    have := congrArg List.length hP.2
    simpa using this
  · intro i hi
    exact ⟨by simp [zeroMatrix], by simp [row, zeroMatrix, rowPre]⟩
  · rintro A' ⟨h1, h2, h3, h4⟩
    exact ⟨h3, h1, h2, h4⟩

/-! ## Copy -/

omit [CommRing R] in
theorem rowPre_congr {A B : Ell R} {i n : Nat} (hM : B.M = A.M)
    (h : ∀ k, k < n → B.idx.get (i * A.M + k) = A.idx.get (i * A.M + k) ∧
      B.val.get (i * A.M + k) = A.val.get (i * A.M + k)) : B.rowPre i n = A.rowPre i n := by
  unfold rowPre
  apply List.map_congr_left
  intro k hk
  rw [hM, (h k (by simpa using hk)).1, (h k (by simpa using hk)).2]

theorem copyRow_row {M i q : Nat} : i * M + 0 ≤ q ∧ q < i * M + 0 + M →
    ∃ k, k < M ∧ q = i * M + k := by
  intro h; exact ⟨q - i * M, by omega, by omega⟩

omit [CommRing R] in
theorem wp_copyRows {A : Ell R} (hA : A.Shape) {sc : Sched} (hsc : IsSched 0 A.N sc)
    {bi : Arr Nat} {bv : Arr R} (hbi : A.N * A.M ≤ bi.size) (hbv : A.N * A.M ≤ bv.size) :
    (forList sc (bi, bv) fun ti st => copyRow A ti.2 st).wp E (fun st =>
      st.1.size = bi.size ∧ st.2.size = bv.size ∧
      ∀ i k, i < A.N → k < A.M → st.1.get (i * A.M + k) = A.idx.get (i * A.M + k) ∧
        st.2.get (i * A.M + k) = A.val.get (i * A.M + k)) := by
  refine Res.wp_mono (wp_rows hsc (G := fun st => st.1.size = bi.size ∧ st.2.size = bv.size)
    (P := fun _ _ => True) (Q := fun i st => ∀ k, k < A.M →
        st.1.get (i * A.M + k) = A.idx.get (i * A.M + k) ∧
        st.2.get (i * A.M + k) = A.val.get (i * A.M + k)) ⟨rfl, rfl⟩ (fun _ _ _ => trivial) ?_) ?_
  · rintro t i ⟨ji, jv⟩ - hi ⟨g1, g2⟩ -
    simp only at g1 g2
    have hfit : i * A.M + A.M ≤ A.N * A.M := by
      calc i * A.M + A.M = (i + 1) * A.M := by ring
        _ ≤ A.N * A.M := Nat.mul_le_mul_right _ hi
    unfold copyRow
    simp only [ROWMAJOR, Nat.add_zero]
    rw [Res.wp_bind]
    refine Res.wp_mono (wp_copyRange (by rw [hA.idx_size]; omega) (by omega)) ?_
    rintro ji' ⟨h1, h2⟩
    rw [Res.wp_bind]
    refine Res.wp_mono (wp_copyRange (by rw [hA.val_size]; omega) (by omega)) ?_
    rintro jv' ⟨h3, h4⟩
    simp only [Res.pure_eq, Res.wp_ok]
    refine ⟨⟨by omega, by omega⟩, ?_, ?_⟩
    · intro k hk
      rw [h2, h4, if_pos (by omega), if_pos (by omega)]
      simp
    · intro j _ _ hji
      refine ⟨fun h => h, fun h k hk => ?_⟩
      have hout : ¬ (i * A.M ≤ j * A.M + k ∧ j * A.M + k < i * A.M + A.M) := by
        rintro ⟨q1, q2⟩
        have := addr_inj (i := i) (i' := j) (k := j * A.M + k - i * A.M) (k' := k) (M := A.M)
          (by omega) hk (by omega)
        exact hji this.1.symm
      rw [h2, h4, if_neg hout, if_neg hout]
      exact h k hk
  · rintro ⟨ji, jv⟩ ⟨⟨g1, g2⟩, h⟩
    exact ⟨g1, g2, fun i k hi hk => h i (by omega) hi k hk⟩

omit [CommRing R] in
theorem wp_copyNnz {A : Ell R} (hA : A.Shape) {bn : Arr Nat} (h : A.N ≤ bn.size) :
    (copyRange A.nnz 0 bn 0 A.N).wp E (fun r => r.size = bn.size ∧
      ∀ i, i < A.N → r.get i = A.nnz.get i) := by
  refine Res.wp_mono (wp_copyRange (by rw [hA.nnz_size]; omega) (by omega)) ?_
  rintro r ⟨h1, h2⟩
  refine ⟨h1, fun i hi => ?_⟩
  rw [h2, if_pos (by omega)]
  simp

omit [CommRing R] in
/-- What a faithful copy is: same dimensions, same counts, same cells. -/
structure SameAs (A B : Ell R) : Prop where
  shape : B.Shape
  N : B.N = A.N
  M : B.M = A.M
  nnz : ∀ i, i < A.N → B.nnz.get i = A.nnz.get i
  cell : ∀ i k, i < A.N → k < A.M → B.idx.get (i * A.M + k) = A.idx.get (i * A.M + k) ∧
        B.val.get (i * A.M + k) = A.val.get (i * A.M + k)

omit [CommRing R] in
theorem SameAs.row_eq {A B : Ell R} (h : SameAs A B) {i : Nat} (hi : i < A.N)
    (hle : A.nnz.get i ≤ A.M) : B.row i = A.row i := by
  unfold row
  rw [h.nnz i hi]
  exact rowPre_congr h.M (fun k hk => h.cell i k hi (by omega))

theorem SameAs.rep {A B : Ell R} (h : SameAs A B) {N : Nat} {a : Spec.Mat R} (hA : A.Rep N a) :
    B.Rep N a := by
  have hd := hA.dim
  refine ⟨h.shape, by rw [h.N, hd], ?_, ?_, ?_⟩
  · intro i hi; rw [h.nnz i (by omega), h.M]; exact hA.le i hi
  · intro i hi; rw [h.row_eq (by omega) (hA.le i hi)]; exact hA.good i hi
  · intro i j hi hj; rw [h.row_eq (by omega) (hA.le i hi)]; exact hA.den i j hi hj

omit [CommRing R] in
theorem wp_copyNew {A : Ell R} (hA : A.Shape) {sc : Sched} (hsc : IsSched 0 A.N sc)
    (jv : Nat → R) (ji : Nat → Nat) : (copyNew A sc jv ji).wp E (SameAs A) := by
  unfold copyNew
  simp only [noinit]
  rw [Res.wp_bind]
  refine Res.wp_mono (wp_copyNnz hA (bn := ⟨A.N, fun _ => 0⟩) (le_refl _)) ?_
  rintro nn ⟨h1, h2⟩
  rw [Res.wp_bind]
  refine Res.wp_mono (wp_copyRows hA hsc (bi := ⟨A.N * A.M, ji⟩) (bv := ⟨A.N * A.M, jv⟩)
    (le_refl _) (le_refl _)) ?_
  rintro ⟨bi, bv⟩ ⟨h3, h4, h5⟩
  simp only [Res.pure_eq, Res.wp_ok] at h3 h4 h5 ⊢
  exact ⟨⟨h4, h3, h1⟩, rfl, rfl, h2, h5⟩

omit [CommRing R] in
theorem wp_copyInto {A B : Ell R} (hA : A.Shape) (hB : B.Shape) (hN : B.N = A.N)
    (hM : B.M = A.M) (hpos : A.M ≠ 0) {sc : Sched} (hsc : IsSched 0 A.N sc) :
    (copyInto A B sc).wp E (SameAs A) := by
  unfold copyInto
  rw [if_neg hpos, Res.wp_bind]
  refine Res.wp_mono (wp_copyNnz hA (by rw [hB.nnz_size, hN])) ?_
  rintro nn ⟨h1, h2⟩
  rw [Res.wp_bind]
  refine Res.wp_mono (wp_copyRows hA hsc (bi := B.idx) (bv := B.val)
    (by rw [hB.idx_size, hN, hM]) (by rw [hB.val_size, hN, hM])) ?_
  rintro ⟨bi, bv⟩ ⟨h3, h4, h5⟩
  simp only [Res.pure_eq, Res.wp_ok] at h3 h4 h5 ⊢
  exact ⟨⟨by simp only; rw [h4, hB.val_size], by simp only; rw [h3, hB.idx_size],
    by simp only; rw [h1, hB.nnz_size]⟩, hN, hM, h2, h5⟩

/-! ## Scale -/

theorem wp_scaleVals {N lo hi : Nat} {A : Ell R} {a : Spec.Mat R} (hA : A.Rep N a) (c : R)
    (hlo : lo ≤ hi) (hhi : hi ≤ N) :
    (do let val ← scal ((hi - lo) * A.M) c A.val (lo * A.M)
        pure { A with val := val } : Res (Ell R)).wp E (fun A' => A'.M = A.M ∧ A'.Shape ∧
      A'.N = N ∧ A'.nnz = A.nnz ∧ A'.idx = A.idx ∧
      ∀ i, i < N → A'.row i = if lo ≤ i ∧ i < hi
        then (A.row i).map (fun p => (p.1, c * p.2)) else A.row i) := by
  have hend : lo * A.M + (hi - lo) * A.M = hi * A.M := by
    rw [← Nat.add_mul]; congr 1; omega
  rw [Res.wp_bind]
  refine Res.wp_mono (wp_scal ?_) ?_
  · rw [hend, hA.shape.val_size, hA.dim]
    exact Nat.mul_le_mul_right _ hhi
  · rintro v ⟨h1, h2⟩
    simp only [Res.pure_eq, Res.wp_ok]
    refine ⟨trivial, ⟨by simp only; rw [h1]; exact hA.shape.val_size, hA.shape.idx_size,
      hA.shape.nnz_size⟩, hA.dim, trivial, trivial, ?_⟩
    intro i hiN
    have hle := hA.le i hiN
    by_cases hr : lo ≤ i ∧ i < hi
    · rw [if_pos hr]
      unfold row rowPre
      rw [List.map_map]
      apply List.map_congr_left
      intro k hk
      have hk : k < A.nnz.get i := by simpa using hk
      have h3 : lo * A.M ≤ i * A.M := Nat.mul_le_mul_right _ hr.1
      have h4 : i * A.M + k < hi * A.M := addr_lt hr.2 (by omega)
      simp only [Function.comp]
      rw [h2, if_pos (by omega)]
    · rw [if_neg hr]
      unfold row rowPre
      apply List.map_congr_left
      intro k hk
      have hk : k < A.nnz.get i := by simpa using hk
      have hout : ¬ (lo * A.M ≤ i * A.M + k ∧ i * A.M + k < lo * A.M + (hi - lo) * A.M) := by
        rw [hend]
        rintro ⟨q1, q2⟩
        apply hr
        constructor
        · by_contra hc
          have : (i + 1) * A.M ≤ lo * A.M := Nat.mul_le_mul_right _ (by omega)
          have h5 : (i + 1) * A.M = i * A.M + A.M := by ring
          omega
        · by_contra hc
          have : hi * A.M ≤ i * A.M := Nat.mul_le_mul_right _ (by omega)
          omega
      simp only
      rw [h2, if_neg hout]

theorem rep_scaled {N lo hi : Nat} {A A' : Ell R} {a : Spec.Mat R} (hA : A.Rep N a) {c : R}
    (h : A'.M = A.M ∧ A'.Shape ∧ A'.N = N ∧ A'.nnz = A.nnz ∧ A'.idx = A.idx ∧
      ∀ i, i < N → A'.row i = if lo ≤ i ∧ i < hi
        then (A.row i).map (fun p => (p.1, c * p.2)) else A.row i) :
    A'.Rep N (fun i j => if lo ≤ i ∧ i < hi then c * a i j else a i j) := by
  obtain ⟨h1, h2, h3, h4, h5, h6⟩ := h
  refine ⟨h2, h3, ?_, ?_, ?_⟩
  · intro i hi; rw [h4, h1]; exact hA.le i hi
  · intro i hi
    rw [h6 i hi]
    split
    · exact (hA.good i hi).map_snd (fun p => c * p.2)
    · exact hA.good i hi
  · intro i j hi hj
    rw [h6 i hi]
    split
    · rw [SRow.den_map_mul, hA.den i j hi hj]
    · exact hA.den i j hi hj

end Ell

end Bml
