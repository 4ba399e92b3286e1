import Verif.Ellpack.Update2

/-!
# ELLPACK `bml_add_norm`
-/

set_option linter.unusedSectionVars false

namespace Bml

namespace Ell

variable {R : Type} [CommRing R] {E : Prop}

open Scr

/-- The accumulator together with the second array `y`, which holds `g`. -/
structure HoldsY (N : Nat) (s : Scr R) (y : Arr R) (l : Nat) (f g : Nat → R) : Prop where
  h : s.Holds N l f
  szy : y.size = N
  val : ∀ k ∈ s.cols l, y.get k = g k
  out : ∀ k, k ∉ s.cols l → g k = 0

theorem HoldsY.congr {N : Nat} {s : Scr R} {y : Arr R} {l : Nat} {f f' g g' : Nat → R}
    (h : HoldsY N s y l f g) (hf : ∀ k, f k = f' k) (hg : ∀ k, g k = g' k) :
    HoldsY N s y l f' g' := by
  have e1 : f = f' := funext hf
  have e2 : g = g' := funext hg
  subst e1; subst e2; exact h

theorem wp_accumN {N : Nat} {s : Scr R} {y : Arr R} {l : Nat} {f g : Nat → R}
    (h : HoldsY N s y l f g) {mark k : Nat} (hm : mark ≠ 0) (hk : k < N) (v w : R) :
    (accumN mark k v w (s, y, l)).wp E (fun st =>
      HoldsY N st.1 st.2.1 st.2.2 (fun j => f j + if k = j then v else 0)
        (fun j => g j + if k = j then w else 0)) := by
  have h0 := wp_accum (E := E) h.h hm hk v
  unfold accum at h0
  unfold accumN
  have hH := h.h
  have hix : k < s.ix.size := by rw [hH.szi]; exact hk
  have hx : k < s.x.size := by rw [hH.szx]; exact hk
  have hy : k < y.size := by rw [h.szy]; exact hk
  by_cases hmem : k ∈ s.cols l
  · have ht : s.ix.get k ≠ 0 := fun e => ((hH.mark k hk).1 e) hmem
    simp only [Res.wp_bind, Arr.wp_read, Arr.wp_write, if_neg ht, Res.wp_ok, Res.pure_eq,
      hix, hx, hy, true_and] at h0 ⊢
    obtain ⟨h1, h2⟩ := h0
    rw [if_pos hmem] at h2
    refine ⟨h1, h.szy, ?_, ?_⟩
    · intro j hj
      rw [h2] at hj
      by_cases hjk : k = j
      · subst hjk; simp [h.val k hj]
      · simp [upd_ne _ _ (Ne.symm hjk), hjk, h.val j hj]
    · intro j hj
      rw [h2] at hj
      have : k ≠ j := by
        rintro rfl; exact hj hmem
      simp [this, h.out j hj]
  · have ht : s.ix.get k = 0 := (hH.mark k hk).2 hmem
    have hl : l < s.jx.size := by rw [hH.szj]; exact hH.lt_of_not_mem hk hmem
    simp only [Res.wp_bind, Arr.wp_read, Arr.wp_write, if_pos ht, Res.wp_ok, Res.pure_eq,
      hix, hx, hl, hy, true_and] at h0 ⊢
    obtain ⟨h1, h2⟩ := h0
    rw [if_neg hmem] at h2
    refine ⟨h1, h.szy, ?_, ?_⟩
    · intro j hj
      rw [h2] at hj
      by_cases hjk : j = k
      · subst hjk; simp [h.out j hmem]
      · have : j ∈ s.cols l := by simpa [hjk] using hj
        simp [upd_ne _ _ hjk, Ne.symm hjk, h.val j this]
    · intro j hj
      rw [h2] at hj
      simp only [List.mem_append, List.mem_singleton, not_or] at hj
      simp [h.out j hj.1, Ne.symm hj.2]

theorem wp_accumRowN {N : Nat} {A : Ell R} (hs : A.Shape) {i : Nat} (hi : i < A.N)
    (hle : A.nnz.get i ≤ A.M) (hlt : ∀ p ∈ A.row i, p.1 < N)
    {s : Scr R} {y : Arr R} {l : Nat} {f g : Nat → R} (h : HoldsY N s y l f g)
    {mark : Nat} (hm : mark ≠ 0) (α γ : R) (w : R → R) (hw : ∀ v, w v = γ * v) :
    (loop (A.nnz.get i) (s, y, l) fun jp st => do
      let k ← A.idx.read (ROWMAJOR i jp A.N A.M)
      let v ← A.val.read (ROWMAJOR i jp A.N A.M)
      accumN mark k (α * v) (w v) st).wp E (fun st =>
      HoldsY N st.1 st.2.1 st.2.2 (fun j => f j + α * (A.row i).den j)
        (fun j => g j + γ * (A.row i).den j)) := by
  refine wp_loop' (fun n (st : Scr R × Arr R × Nat) => HoldsY N st.1 st.2.1 st.2.2
      (fun j => f j + α * (A.rowPre i n).den j)
      (fun j => g j + γ * (A.rowPre i n).den j)) ?_ ?_ (fun _ h => h)
  · exact h.congr (by simp) (by simp)
  · rintro k hk ⟨s', y', l'⟩ hH
    rw [read_idx hs hi (by omega), Res.bind_ok, read_val hs hi (by omega), Res.bind_ok]
    have hlt' : A.idx.get (i * A.M + k) < N :=
      hlt _ (mem_rowPre.2 ⟨k, hk, rfl⟩)
    refine Res.wp_mono (wp_accumN hH hm hlt' _ _) ?_
    rintro ⟨s2, y2, l2⟩ h2
    refine h2.congr ?_ ?_
    · intro j
      simp only [rowPre_succ, SRow.den_append, SRow.den_cons, SRow.den_nil, add_zero]
      split <;> ring
    · intro j
      simp only [rowPre_succ, SRow.den_append, SRow.den_cons, SRow.den_nil, add_zero, hw]
      split <;> ring

theorem wp_flushN {N : Nat} {C : Ell R} (hs : C.Shape) {i : Nat} (hi : i < C.N)
    {s : Scr R} {y : Arr R} {l : Nat} {f g : Nat → R} (h : HoldsY N s y l f g)
    (test : R → Bool) (tn : R)
    (hfit : ((s.cols l).filter (fun j => test (f j))).length ≤ C.M) :
    (loop l (C, s, y, 0, tn)
      fun jp (st : Ell R × Scr R × Arr R × Nat × R) => do
        let jind ← st.2.1.jx.read jp
        let xTmp ← st.2.1.x.read jind
        let yv ← st.2.2.1.read jind
        let (A, ll) ← (if test xTmp then do
            let A ← st.1.putEntry i st.2.2.2.1 jind xTmp
            pure (A, st.2.2.2.1 + 1)
          else pure (st.1, st.2.2.2.1))
        let x ← st.2.1.x.write jind 0
        let ix ← st.2.1.ix.write jind 0
        let y ← st.2.2.1.write jind 0
        pure (A, ⟨x, ix, st.2.1.jx⟩, y, ll, st.2.2.2.2 + yv * yv)).wp E (fun st =>
      (st.1.Shape ∧ st.1.N = C.N ∧ st.1.M = C.M ∧ st.1.nnz = C.nnz ∧
      (∀ i' m, i' ≠ i → m ≤ C.M → st.1.rowPre i' m = C.rowPre i' m) ∧
      st.1.rowPre i st.2.2.2.1 = SRow.ofCols ((s.cols l).filter (fun j => test (f j))) f ∧
      st.2.2.2.1 = ((s.cols l).filter (fun j => test (f j))).length ∧
      st.2.1.Clean N) ∧ st.2.2.1.size = N ∧
      st.2.2.2.2 = tn + ((s.cols l).map (fun k => g k * g k)).sum) := by
  have hf := wp_flush (E := False) hs hi h.h (fun _ x => test x) hfit
  rcases Res.wp_elim hf with ⟨b, hok, hb⟩ | ⟨_, hF⟩
  swap
  · exact absurd hF id
  unfold flush at hok
  refine Res.wp_mono (wp_loop_ext
    (π := fun st : Ell R × Scr R × Arr R × Nat × R => (st.1, st.2.1, st.2.2.2.1)) hok
    (fun n (st : Ell R × Scr R × Arr R × Nat × R) => st.2.1.jx = s.jx ∧ st.2.2.1.size = N ∧
      (∀ k ∈ s.cols l, k ∉ s.cols n → st.2.2.1.get k = g k) ∧
      st.2.2.2.2 = tn + ((s.cols n).map (fun k => g k * g k)).sum) ?_ ?_) ?_
  · refine ⟨rfl, h.szy, fun k hk _ => h.val k hk, by simp [Scr.cols]⟩
  · rintro n hn ⟨C', s', y', ll, t⟩ - ⟨g1, g2, g3, g4⟩ ⟨Cc, sc, lc⟩ hc
    simp only at g1 g2 g3 g4 hc ⊢
    have hmem : s.jx.get n ∈ s.cols l := by
      unfold Scr.cols
      exact List.mem_map.2 ⟨n, by simpa using hn, rfl⟩
    have hnot : s.jx.get n ∉ s.cols n := by
      have h1 := h.h.nodup
      unfold Scr.cols at h1 ⊢
      intro hm
      obtain ⟨q, hq, he⟩ := List.mem_map.1 hm
      have hq : q < n := by simpa using hq
      have h2 := List.inj_on_of_nodup_map h1 (x := q) (y := n) (by simp; omega) (by simpa using hn) he
      omega
    have hlt := h.h.lt _ hmem
    cases e1 : s'.jx.read n with
    | error => simp [e1] at hc
    | ub => simp [e1] at hc
    | ok jind =>
      have hj : jind = s.jx.get n := by
        by_cases hlt' : n < s'.jx.size
        · rw [Arr.read_ok hlt'] at e1
          have := Res.ok.inj e1
          rw [← this, g1]
        · rw [Arr.read_ub (by omega)] at e1; cases e1
      subst hj
      rw [e1, Res.bind_ok] at hc
      rw [Res.bind_ok]
      cases e2 : s'.x.read (s.jx.get n) with
      | error => simp [e2] at hc
      | ub => simp [e2] at hc
      | ok xt =>
        rw [e2, Res.bind_ok] at hc
        rw [Res.bind_ok, Arr.read_ok (by omega), Res.bind_ok, g3 _ hmem hnot]
        cases e3 : (if test xt = true then do
            let C ← C'.putEntry i ll (s.jx.get n) xt
            pure (C, ll + 1)
          else pure (C', ll) : Res (Ell R × Nat)) with
        | error => rw [e3] at hc; exact absurd hc (by simp)
        | ub => rw [e3] at hc; exact absurd hc (by simp)
        | ok cl =>
          rw [e3, Res.bind_ok] at hc
          rw [Res.bind_ok]
          cases e4 : s'.x.write (s.jx.get n) 0 with
          | error => simp [e4] at hc
          | ub => simp [e4] at hc
          | ok x' =>
            rw [e4, Res.bind_ok] at hc
            rw [Res.bind_ok]
            cases e5 : s'.ix.write (s.jx.get n) 0 with
            | error => simp [e5] at hc
            | ub => simp [e5] at hc
            | ok ix' =>
              rw [e5, Res.bind_ok] at hc
              rw [Res.bind_ok, Arr.write_ok _ (by omega), Res.bind_ok]
              simp only [Res.pure_eq, Res.ok.injEq, Prod.mk.injEq] at hc
              simp only [Res.pure_eq, Res.wp_ok]
              refine ⟨by rw [← hc.1, ← hc.2.1, ← hc.2.2], g1, g2, ?_, ?_⟩
              · intro k hk hkn
                rw [cols_succ, List.mem_append, List.mem_singleton, not_or] at hkn
                rw [upd_ne _ _ hkn.2]
                exact g3 k hk hkn.1
              · rw [g4, cols_succ]; simp [add_assoc]
  · rintro ⟨C', s', y', ll, t⟩ ⟨rfl, g1, g2, g3, g4⟩
    exact ⟨hb, g2, g4⟩

variable [DecidableEq R]

theorem wp_addNormRow {N i : Nat} {A B : Ell R} {s : Scr R} {y : Arr R} (hA : A.Shape)
    (hAN : A.N = N) (hi : i < N) (hB : B.Shape) (hBN : B.N = N) {a b : Nat → R}
    (ha : A.RowSat i (IsRow N a)) (hb : B.RowSat i (IsRow N b)) (hs : s.Clean N)
    (hy : y.size = N) (α β : R) (big : R → Bool)
    (hfit : ((Finset.range N).filter (fun j => big (α * a j + β * b j) = true)).card ≤ A.M)
    (tn : R) :
    (addNormRow B α β big i A s y tn).wp E (fun st => st.1.Shape ∧ Frame A st.1 i ∧
      st.1.RowSat i (AddRow big N (fun j => α * a j + β * b j)) ∧
      (st.2.1.Clean N ∧ st.2.2.1.size = N) ∧
      st.2.2.2 = tn + ∑ j ∈ Finset.range N, (a j - b j) * (a j - b j)) := by
  unfold addNormRow
  rw [read_nnz hA (by omega), Res.bind_ok, Res.wp_bind]
  have h0 : HoldsY N s y 0 (fun _ => 0) (fun _ => 0) :=
    ⟨hs.holds, hy, by simp [Scr.cols], fun _ _ => rfl⟩
  refine Res.wp_mono (wp_accumRowN hA (by omega) ha.1 (fun p hp => ha.2.1.2 p hp) h0
    (by omega) α 1 (fun v => v) (fun v => by ring)) ?_
  rintro ⟨s1, y1, l1⟩ hh1
  rw [read_nnz hB (by omega), Res.bind_ok, Res.wp_bind]
  refine Res.wp_mono (wp_accumRowN hB (by omega) hb.1 (fun p hp => hb.2.1.2 p hp) hh1
    (by omega) β (-1) (fun v => -v) (fun v => by ring)) ?_
  rintro ⟨s2, y2, l2⟩ hh2
  simp only at hh2
  replace hh2 := hh2.congr (f' := fun j => α * (A.row i).den j + β * (B.row i).den j)
    (g' := fun j => (A.row i).den j - (B.row i).den j) (fun k => by ring) (fun k => by ring)
  simp only
  rw [setNnz_eq hA _ (by omega), Res.bind_ok, Res.wp_bind]
  have hval : ∀ j, j < N → α * (A.row i).den j + β * (B.row i).den j = α * a j + β * b j := by
    intro j hj; rw [ha.2.2 j hj, hb.2.2 j hj]
  have hlen : ((s2.cols l2).filter
      (fun j => big (α * (A.row i).den j + β * (B.row i).den j))).length ≤ A.M := by
    refine le_trans (length_filter_le hh2.h (fun _ x => big x)) (le_trans (le_of_eq ?_) hfit)
    congr 1
    apply Finset.filter_congr
    intro j hj
    rw [hval j (by simpa using hj)]
  refine Res.wp_mono (wp_flushN (hA.withNnz i l2) (by simpa using (by omega : i < A.N)) hh2
    big tn hlen) ?_
  rintro ⟨C', s', y', ll, t⟩ ⟨⟨hS, hN, hM, hnn, hfr, hrow, hll, hcl⟩, hy', ht⟩
  simp only at hS hN hM hnn hfr hrow hll hcl hy' ht ⊢
  rw [setNnz_eq hS _ (by rw [hN]; simpa using (by omega : i < A.N))]
  simp only [Res.bind_ok, Res.pure_eq, Res.wp_ok]
  refine ⟨hS.withNnz _ _, ?_, ?_, ⟨hcl, hy'⟩, ?_⟩
  · refine ⟨hN, hM, ?_, ?_⟩
    · intro i' hne
      simp [hnn, upd_ne _ _ hne]
    · intro i' m hne hm
      rw [withNnz_rowPre, hfr i' m hne hm, withNnz_rowPre]
  · refine ⟨?_, ?_⟩
    · simp only [withNnz_nnz, upd_same, withNnz_M]
      rw [hll]
      exact le_trans hlen (le_of_eq hM.symm)
    · rw [withNnz_row_same, hrow]
      refine ⟨⟨good_filter hh2.h (fun _ x => big x), ?_⟩, ?_⟩
      · intro j hj
        rw [den_filter hh2.h (fun _ x => big x), hval j hj]
        rfl
      · intro p hp
        simp only [SRow.ofCols, List.mem_map] at hp
        obtain ⟨j, hj, rfl⟩ := hp
        exact (List.mem_filter.1 hj).2
  · rw [ht, SRow.sum_cols hh2.h.nodup hh2.h.lt]
    · congr 1
      apply Finset.sum_congr rfl
      intro j hj
      have hj : j < N := by simpa using hj
      rw [ha.2.2 j hj, hb.2.2 j hj]
    · intro j _ hj
      rw [hh2.out j hj]; ring

theorem wp_addNorm {N lo hi : Nat} {A B : Ell R} {a b : Spec.Mat R} (hA : A.Rep N a)
    (hB : B.Rep N b) (α β : R) (big : R → Bool) {sc : Sched} (hsc : IsSched lo hi sc)
    (hhi : hi ≤ N)
    (hfit : ∀ i, lo ≤ i → i < hi →
      Spec.rowCount big N (fun i j => α * a i j + β * b i j) i ≤ A.M) :
    (addNorm A B α β big sc).wp E (fun st => st.1.M = A.M ∧ st.1.Shape ∧ st.1.N = N ∧
      (∀ i, i < N → if lo ≤ i ∧ i < hi
        then st.1.RowSat i (AddRow big N (fun j => α * a i j + β * b i j))
        else st.1.RowSat i (IsRow N (a i))) ∧
      st.2 = ∑ i ∈ Finset.Ico lo hi, ∑ j ∈ Finset.range N,
        (a i j - b i j) * (a i j - b i j)) := by
  unfold addNorm
  rw [Res.wp_bind]
  refine Res.wp_mono (wp_rowsD hsc
    (G := fun done (st : Ell R × (Nat → Scr R × Arr R) × R) => st.1.Shape ∧ st.1.N = N ∧
      st.1.M = A.M ∧ (∀ t, (st.2.1 t).1.Clean N ∧ (st.2.1 t).2.size = N) ∧
      st.2.2 = (done.map (fun i => ∑ j ∈ Finset.range N,
        (a i j - b i j) * (a i j - b i j))).sum ∧
      ∀ i, i < N → ¬ (lo ≤ i ∧ i < hi) → st.1.RowSat i (IsRow N (a i)))
    (P := fun i st => st.1.RowSat i (IsRow N (a i)))
    (Q := fun i st => st.1.RowSat i (AddRow big N (fun j => α * a i j + β * b i j)))
    ⟨hA.shape, hA.dim, rfl, fun _ => ⟨by rw [hA.dim]; exact clean_clearScr N, hA.dim⟩,
      by simp, fun i hi _ => hA.rowSat hi⟩
    (fun i _ h2 => hA.rowSat (by omega)) ?_) ?_
  · rintro done t i ⟨C, scr, tt⟩ h1 h2 ⟨gS, gN, gM, gC, gT, gO⟩ hPi
    simp only [Res.wp_bind]
    refine Res.wp_mono (wp_addNormRow gS gN (by omega) hB.shape hB.dim hPi
      (hB.rowSat (by omega)) (gC t).1 (gC t).2 α β big
      (by rw [gM]; exact hfit i h1 h2) tt) ?_
    rintro ⟨C', s', y', t'⟩ ⟨k1, k2, k3, k4, k5⟩
    simp only [Res.pure_eq, Res.wp_ok] at k1 k2 k3 k4 k5 gT ⊢
    refine ⟨⟨k1, by rw [k2.N, gN], by rw [k2.M, gM], ?_, ?_, ?_⟩, k3, ?_⟩
    · intro t'
      by_cases ht : t' = t
      · subst ht; simpa using k4
      · rw [upd_ne _ _ ht]; exact gC t'
    · rw [k5, gT]
      simp
    · intro j hj hnj
      exact k2.rowSat (by rintro rfl; exact hnj ⟨h1, h2⟩) (gO j hj hnj)
    · intro j _ _ hj
      exact ⟨k2.rowSat hj, k2.rowSat hj⟩
  · rintro ⟨C', scr', t'⟩ ⟨⟨gS, gN, gM, _, gT, gO⟩, hQ⟩
    simp only [Res.pure_eq, Res.wp_ok]
    refine ⟨gM, gS, gN, ?_, ?_⟩
    · intro i hi
      split
      · next h => exact hQ i h.1 h.2
      · next h => exact gO i hi h
    · simp only at gT
      rw [gT, hsc.sum_eq]

end Ell

end Bml
