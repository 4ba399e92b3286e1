import Verif.Ellpack.Construct
import Mathlib.Algebra.BigOperators.Group.Finset.Sigma

/-!
# ELLPACK: banded and random matrices, introspection, conversion, element-wise product
-/

set_option linter.unusedSectionVars false

namespace Bml

namespace Ell

variable {R : Type} [CommRing R] {E : Prop}

/-! ## Banded -/

/-- First column of the band in row `i`. -/
def bandLo (M i : Nat) : Nat := i - M / 2

/-- One past the last column of the band in row `i`. -/
def bandHi (N M i : Nat) : Nat := if i + M ≤ N + M / 2 then i + M - M / 2 else N

/-- The entries of row `i` of a banded matrix. -/
def bandRow (N M : Nat) (rv : Nat → Nat → R) (i : Nat) : SRow R :=
  (List.range (bandHi N M i - bandLo M i)).map (fun k => (bandLo M i + k, rv i k))

theorem bandHi_le {N M i : Nat} (hi : i < N) : bandHi N M i ≤ N ∧
    bandHi N M i - bandLo M i ≤ M ∧ bandLo M i ≤ bandHi N M i := by
  unfold bandHi bandLo
  split <;> omega

theorem wp_bandedRow {A : Ell R} {N M : Nat} (hS : A.Shape) (hd : A.N = N) (hM : A.M = M)
    {i : Nat} (hi : i < N) (rv : Nat → Nat → R) :
    (bandedRow rv i A).wp E (fun A' => A'.Shape ∧ Frame A A' i ∧
      A'.RowSat i (fun L => L = bandRow N M rv i)) := by
  unfold bandedRow
  obtain ⟨b1, b2, b3⟩ := bandHi_le (M := M) hi
  simp only [hd, hM]
  change ((loopFrom (bandLo M i) (bandHi N M i) (A, 0) _) >>= _).wp E _
  rw [Res.wp_bind]
  refine wp_loopFrom (fun j (st : Ell R × Nat) => st.1.Shape ∧ Frame A st.1 i ∧
    st.2 = j - bandLo M i ∧
    st.1.rowPre i st.2 = (List.range st.2).map (fun k => (bandLo M i + k, rv i k))) b3 ?_ ?_ ?_
  · exact ⟨hS, Frame.refl _ _, by simp, by simp⟩
  · rintro j h1 h2 ⟨C, l⟩ ⟨g1, g2, g3, g4⟩
    simp only at g1 g2 g3 g4
    have hlt : l < C.M := by rw [g2.M, hM]; omega
    rw [putEntry_eq g1 _ _ (by rw [g2.N]; omega) hlt, Res.bind_ok, Res.wp_pure]
    refine ⟨g1.put _ _ _ _, g2.trans (frame_put C _ _ hlt), by simp only; omega, ?_⟩
    simp only
    rw [put_rowPre_succ C hlt, g4, List.range_succ, List.map_append]
    simp; omega
  · rintro ⟨C, l⟩ ⟨g1, g2, g3, g4⟩
    simp only at g1 g2 g3 g4 ⊢
    rw [setNnz_eq g1 _ (by rw [g2.N]; omega), Res.wp_ok]
    refine ⟨g1.withNnz _ _, g2.trans (frame_withNnz _ _ _), ?_, ?_⟩
    · simp only [withNnz_nnz, upd_same, withNnz_M, g2.M, hM]; omega
    · rw [withNnz_row_same, g4, g3]; rfl

theorem wp_banded {N M : Nat} (hM : M > 0) (rv : Nat → Nat → R) {sc : Sched}
    (hsc : IsSched 0 N sc) :
    (banded N M rv sc).wp E (fun A => A.M = M ∧ A.Shape ∧ A.N = N ∧
      ∀ i, i < N → A.RowSat i (fun L => L = bandRow N M rv i)) := by
  unfold banded newZero
  rw [if_pos hM, Res.bind_ok]
  refine Res.wp_mono (wp_kernel0 (N := N) (M := M) hsc (le_refl _)
    (fun i A => bandedRow rv i A) (fun _ _ => True) (fun i L => L = bandRow N M rv i) ?_
    (C := zeroMatrix N M) ⟨rfl, rfl, rfl⟩ rfl rfl (fun i hi => ⟨Nat.zero_le _, trivial⟩)) ?_
  · intro i C _ hi hS hN hCM _
    exact wp_bandedRow hS hN hCM hi rv
  · rintro A ⟨h1, h2, h3, h4⟩
    refine ⟨h3, h1, h2, fun i hi => ?_⟩
    have := h4 i hi
    rw [if_pos (by omega)] at this
    exact this

theorem bandRow_isRow {N M : Nat} (rv : Nat → Nat → R) {i : Nat} (hi : i < N) :
    IsRow N (fun j => if bandLo M i ≤ j ∧ j < bandHi N M i then rv i (j - bandLo M i) else 0)
      (bandRow N M rv i) := by
  obtain ⟨b1, b2, b3⟩ := bandHi_le (M := M) hi
  have hn : ((bandRow N M rv i).map Prod.fst).Nodup := by
    unfold bandRow
    rw [List.map_map]
    exact List.Nodup.map (fun a b h => by simpa using h) List.nodup_range
  refine ⟨⟨hn, fun p hp => ?_⟩, fun j hj => ?_⟩
  · unfold bandRow at hp
    obtain ⟨k, hk, rfl⟩ := List.mem_map.1 hp
    have : k < _ := List.mem_range.1 hk
    simp only; omega
  · simp only
    split
    · next hc =>
      apply SRow.den_of_mem hn
      unfold bandRow
      refine List.mem_map.2 ⟨j - bandLo M i, List.mem_range.2 (by omega), ?_⟩
      rw [Nat.add_sub_cancel' hc.1]
    · next hc =>
      apply SRow.den_of_not_mem
      intro hm
      unfold bandRow at hm
      rw [List.map_map] at hm
      obtain ⟨k, hk, he⟩ := List.mem_map.1 hm
      have : k < _ := List.mem_range.1 hk
      simp only [Function.comp] at he
      omega

/-! ## Random -/

/-- Invariant of the inner loop of the random constructor. -/
structure RandInv (N M i : Nat) (A0 : Ell R) (s : RandSt R) (nz : Nat) : Prop where
  shape : s.A.Shape
  frame : Frame A0 s.A i
  msize : s.marker.size = N
  psize : s.pos.size = M
  good : SRow.Good N (s.A.rowPre i nz)
  mark : ∀ c, c < N → (s.marker.get c = true ↔ c ∈ (s.A.rowPre i nz).map Prod.fst)
  pos : ∀ k, k < nz → s.pos.get k = s.A.idx.get (i * M + k)

theorem wp_randomStep {N M i : Nat} {A0 : Ell R} (hN : A0.N = N) (hM : A0.M = M) (hi : i < N)
    (rnd : Nat → Nat) (toR : Nat → R) {s : RandSt R} {col nz n : Nat} (hn : n < M)
    (hnz : nz ≤ n) (hcol : col < N) (h : RandInv N M i A0 s nz) :
    (randomStep rnd toR i (s, col, nz)).wp E (fun st => RandInv N M i A0 st.1 st.2.2 ∧
      st.2.1 < N ∧ st.2.2 ≤ n + 1 ∧ (s.marker.get col = true ∨ nz < st.2.2)
      ∧ nz ≤ st.2.2) := by
  unfold randomStep
  have hAN : s.A.N = N := by rw [h.frame.N, hN]
  have hAM : s.A.M = M := by rw [h.frame.M, hM]
  simp only
  rw [Arr.read_ok (by rw [h.msize]; exact hcol), Res.bind_ok]
  by_cases hm : s.marker.get col = false
  · rw [if_pos hm]
    rw [putEntry_eq h.shape _ _ (by omega) (by omega), Res.bind_ok,
      Arr.write_ok _ (by rw [h.psize]; omega), Res.bind_ok,
      Arr.write_ok _ (by rw [h.msize]; omega), Res.bind_ok, Res.pure_eq, Res.bind_ok]
    simp only [Res.wp_pure]
    have hnot : col ∉ (s.A.rowPre i nz).map Prod.fst := by
      rw [← h.mark col hcol, hm]; simp
    refine ⟨⟨h.shape.put _ _ _ _, h.frame.trans (frame_put _ _ _ (by omega)), h.msize, h.psize,
      ?_, ?_, ?_⟩, ?_, by omega, Or.inr (by omega), by omega⟩
    · rw [put_rowPre_succ s.A (by omega)]
      exact h.good.append_singleton hcol hnot
    · intro c hc
      rw [put_rowPre_succ s.A (by omega)]
      simp only [List.map_append, List.mem_append, List.map_cons, List.map_nil,
        List.mem_singleton]
      by_cases he : c = col
      · subst he; simp
      · rw [upd_ne _ _ he, h.mark c hc]; simp [he]
    · intro k hk
      simp only [put, hAM]
      by_cases he : k = nz
      · subst he; simp
      · rw [upd_ne _ _ he, upd_ne _ _ (by omega), h.pos k (by omega)]
    · show _ % s.A.N < N
      rw [hAN]; exact Nat.mod_lt _ (by omega)
  · rw [if_neg hm]
    simp only [Res.pure_eq, Res.bind_ok, Res.wp_ok]
    refine ⟨⟨h.shape, h.frame, h.msize, h.psize, h.good, h.mark, h.pos⟩,
      by show _ % s.A.N < N; rw [hAN]; exact Nat.mod_lt _ (by omega), by omega,
      Or.inl (by simpa using hm), le_refl _⟩

theorem wp_randomRow {N M i : Nat} (hi : i < N) (hMpos : M > 0) (rnd : Nat → Nat) (toR : Nat → R)
    {s : RandSt R} (hS : s.A.Shape) (hN : s.A.N = N) (hM : s.A.M = M) (hms : s.marker.size = N)
    (hps : s.pos.size = M) (hm0 : ∀ c, c < N → s.marker.get c = false) :
    (randomRow rnd toR i s).wp E (fun s' => s'.A.Shape ∧ Frame s.A s'.A i ∧
      s'.marker.size = N ∧ s'.pos.size = M ∧ (∀ c, c < N → s'.marker.get c = false) ∧
      s'.A.RowSat i (fun L => SRow.Good N L ∧ i ∈ L.map Prod.fst)) := by
  unfold randomRow
  rw [hM, Res.wp_bind]
  refine wp_loop' (fun n (st : RandSt R × Nat × Nat) => RandInv N M i s.A st.1 st.2.2 ∧
    st.2.1 < N ∧ st.2.2 ≤ n ∧ (n = 0 → st.2.1 = i ∧ st.2.2 = 0) ∧
    (0 < n → i ∈ (st.1.A.rowPre i st.2.2).map Prod.fst)) ?_ ?_ ?_
  · refine ⟨⟨hS, Frame.refl _ _, hms, hps, by simp, ?_, by simp⟩, hi, le_refl _,
      fun _ => ⟨rfl, rfl⟩, fun h => absurd h (by omega)⟩
    intro c hc; rw [hm0 c hc]; simp
  · rintro n hn ⟨s1, col, nz⟩ ⟨g1, g2, g3, g4, g5⟩
    simp only at g1 g2 g3 g4 g5
    -- strengthen: the rows only grow
    have hstep := wp_randomStep (E := E) hN hM hi rnd toR hn g3 g2 g1
    have key : (randomStep rnd toR i (s1, col, nz)).wp E (fun st =>
        ∀ c, c ∈ (s1.A.rowPre i nz).map Prod.fst ∨ c = col →
          c < N → st.1.marker.get c = true) := by
      unfold randomStep
      have hAN : s1.A.N = N := by rw [g1.frame.N, hN]
      have hAM : s1.A.M = M := by rw [g1.frame.M, hM]
      simp only
      rw [Arr.read_ok (by rw [g1.msize]; exact g2), Res.bind_ok]
      by_cases hm : s1.marker.get col = false
      · rw [if_pos hm]
        rw [putEntry_eq g1.shape _ _ (by omega) (by omega), Res.bind_ok,
          Arr.write_ok _ (by rw [g1.psize]; omega), Res.bind_ok,
          Arr.write_ok _ (by rw [g1.msize]; omega), Res.bind_ok, Res.pure_eq, Res.bind_ok]
        simp only [Res.wp_pure]
        intro c hc hcN
        by_cases he : c = col
        · subst he; simp
        · rw [upd_ne _ _ he, g1.mark c hcN]
          exact hc.resolve_right he
      · rw [if_neg hm]
        simp only [Res.pure_eq, Res.bind_ok, Res.wp_ok]
        intro c hc hcN
        rcases hc with hc | rfl
        · exact (g1.mark c hcN).2 hc
        · simpa using hm
    refine Res.wp_mono (Res.wp_and hstep key) ?_
    rintro ⟨s2, col2, nz2⟩ ⟨⟨k1, k2, k3, k4, k5⟩, k6⟩
    refine ⟨k1, k2, k3, fun h => absurd h (by omega), fun _ => ?_⟩
    rw [← k1.mark i hi]
    apply k6 i _ hi
    by_cases hn0 : n = 0
    · exact Or.inr (g4 hn0).1.symm
    · exact Or.inl (g5 (by omega))
  · rintro ⟨s1, col, nz⟩ ⟨g1, g2, g3, g4, g5⟩
    simp only at g1 g2 g3 g4 g5 ⊢
    have hAN : s1.A.N = N := by rw [g1.frame.N, hN]
    have hAM : s1.A.M = M := by rw [g1.frame.M, hM]
    rw [setNnz_eq g1.shape _ (by omega), Res.bind_ok, Res.wp_bind]
    refine wp_loop' (fun n (mk : Arr Bool) => mk.size = N ∧ ∀ c, c < N →
      (mk.get c = true ↔ c ∈ ((s1.A.rowPre i nz).drop n).map Prod.fst)) ?_ ?_ ?_
    · exact ⟨g1.msize, by simpa using g1.mark⟩
    · rintro n hn mk ⟨k1, k2⟩
      rw [Arr.read_ok (by rw [g1.psize]; omega), Res.bind_ok, g1.pos n hn]
      have hlt : s1.A.idx.get (i * M + n) < N :=
        g1.good.2 _ (mem_rowPre.2 ⟨n, hn, by rw [hAM]⟩)
      rw [Arr.write_ok _ (by omega), Res.wp_ok]
      refine ⟨k1, fun c hc => ?_⟩
      have hdrop : (s1.A.rowPre i nz).drop n = (s1.A.idx.get (i * M + n), s1.A.val.get (i * M + n))
          :: (s1.A.rowPre i nz).drop (n + 1) := by
        rw [List.drop_eq_getElem_cons (by simp; omega)]
        simp [rowPre, hAM]
      have hnd : (((s1.A.rowPre i nz).drop n).map Prod.fst).Nodup :=
        g1.good.1.sublist ((List.drop_sublist _ _).map _)
      rw [hdrop] at hnd
      simp only [List.map_cons, List.nodup_cons] at hnd
      simp only
      by_cases he : c = s1.A.idx.get (i * M + n)
      · subst he
        rw [upd_same]
        simpa using hnd.1
      · rw [upd_ne _ _ he, k2 c hc, hdrop]
        simp [he]
    · rintro mk ⟨k1, k2⟩
      rw [Res.pure_eq, Res.wp_ok]
      refine ⟨g1.shape.withNnz _ _, g1.frame.trans (frame_withNnz _ _ _), k1, g1.psize, ?_, ?_, ?_⟩
      · intro c hc
        have := k2 c hc
        rw [List.drop_eq_nil_of_le (by simp)] at this
        simpa using this
      · simp only [withNnz_nnz, upd_same, withNnz_M]; omega
      · rw [withNnz_row_same]
        exact ⟨g1.good, g5 hMpos⟩

theorem wp_random {N M : Nat} (hM : M > 0) (rnd : Nat → Nat) (toR : Nat → R) :
    (random N M rnd toR).wp E (fun A => A.M = M ∧ A.Shape ∧ A.N = N ∧
      ∀ i, i < N → A.RowSat i (fun L => SRow.Good N L ∧ i ∈ L.map Prod.fst)) := by
  unfold random newZero
  rw [if_pos hM, Res.bind_ok, Res.wp_bind]
  refine wp_loop' (fun n (s : RandSt R) => s.A.Shape ∧ s.A.N = N ∧ s.A.M = M ∧
    s.marker.size = N ∧ s.pos.size = M ∧ (∀ c, c < N → s.marker.get c = false) ∧
    ∀ i, i < n → s.A.RowSat i (fun L => SRow.Good N L ∧ i ∈ L.map Prod.fst)) ?_ ?_ ?_
  · exact ⟨⟨rfl, rfl, rfl⟩, rfl, rfl, rfl, rfl, fun _ _ => rfl, fun i hi => absurd hi (by omega)⟩
  · rintro i hi s ⟨g1, g2, g3, g4, g5, g6, g7⟩
    refine Res.wp_mono (wp_randomRow hi hM rnd toR g1 g2 g3 g4 g5 g6) ?_
    rintro s' ⟨k1, k2, k3, k4, k5, k6⟩
    refine ⟨k1, by rw [k2.N, g2], by rw [k2.M, g3], k3, k4, k5, fun i' hi' => ?_⟩
    by_cases he : i' = i
    · subst he; exact k6
    · exact k2.rowSat he (g7 i' (by omega))
  · rintro s ⟨g1, g2, g3, g4, g5, g6, g7⟩
    rw [Res.pure_eq, Res.wp_ok]
    exact ⟨g3, g1, g2, g7⟩

/-! ## Introspection -/

theorem wp_bandwidth {A : Ell R} (hA : A.Shape) :
    (bandwidth A).wp E (fun m => (∀ i, i < A.N → A.nnz.get i ≤ m) ∧
      (m = 0 ∨ ∃ i, i < A.N ∧ A.nnz.get i = m)) := by
  unfold bandwidth
  refine wp_loop' (fun n m => (∀ i, i < n → A.nnz.get i ≤ m) ∧
      (m = 0 ∨ ∃ i, i < n ∧ A.nnz.get i = m)) ?_ ?_ (fun _ h => h)
  · exact ⟨fun i hi => absurd hi (by omega), Or.inl rfl⟩
  · rintro n hn m ⟨g1, g2⟩
    rw [read_nnz hA hn, Res.bind_ok, Res.wp_pure]
    constructor
    · intro i hi
      by_cases he : i = n
      · subst he; split <;> omega
      · have := g1 i (by omega); split <;> omega
    · split
      · exact Or.inr ⟨n, by omega, rfl⟩
      · rcases g2 with g2 | ⟨i, hi, he⟩
        · exact Or.inl g2
        · exact Or.inr ⟨i, by omega, he⟩

theorem wp_sparsityCount {N : Nat} {A : Ell R} {a : Spec.Mat R} (hA : A.Rep N a) (big : R → Bool)
    (h0 : big 0 = false) :
    (sparsityCount A big).wp E (fun c =>
      c = ∑ i ∈ Finset.range N, Spec.rowCount big N a i) := by
  unfold sparsityCount
  have hd := hA.dim
  rw [hd]
  refine wp_loop' (fun n c => c = ∑ i ∈ Finset.range n, Spec.rowCount big N a i) (by simp) ?_
    (fun _ h => h)
  rintro i hi c rfl
  have hle := hA.le i hi
  rw [read_nnz hA.shape (by omega), Res.bind_ok]
  refine wp_loop' (fun n c => c = (∑ i ∈ Finset.range i, Spec.rowCount big N a i)
    + ((A.rowPre i n).map (fun p => if big p.2 then 1 else 0)).sum) (by simp) ?_ ?_
  · rintro k hk c rfl
    rw [hd.symm, read_val hA.shape (by omega) (by omega), Res.bind_ok, Res.wp_pure, rowPre_succ]
    simp only [List.map_append, List.sum_append, List.map_cons, List.map_nil, List.sum_cons,
      List.sum_nil, Nat.add_zero]
    split <;> omega
  · rintro c rfl
    rw [Finset.sum_range_succ]
    congr 1
    have h1 := SRow.sum_den_map (hA.good i hi) (fun _ v => if big v then 1 else 0)
      (fun _ => by simp [h0])
    change ((A.row i).map _).sum = _
    rw [← h1]
    unfold Spec.rowCount
    rw [Finset.card_filter]
    apply Finset.sum_congr rfl
    intro k hk
    rw [hA.den i k hi (by simpa using hk)]

/-! ## Conversion -/

theorem wp_convertFrom {N M : Nat} (hM : M > 0) (hNM : N ≤ M) {get : Nat → Nat → Res R}
    {a : Spec.Mat R} (hget : ∀ i j, i < N → j < N → get i j = .ok (a i j)) :
    (convertFrom get N M).wp E (fun B => B.M = M ∧ B.Rep N a) := by
  unfold convertFrom newZero
  rw [if_pos hM, Res.bind_ok]
  have outer : (loop N (zeroMatrix N M) fun i B => loop N B fun j B => do
      let v ← get i j
      B.setElement i j v).wp E (fun B => B.M = M ∧
        B.Rep N (fun i j => if i < N then a i j else 0) ∧
        ∀ i, N ≤ i → i < N → B.nnz.get i = 0) := by
    refine wp_loop' (fun n (B : Ell R) => B.M = M ∧
        B.Rep N (fun i j => if i < n then a i j else 0) ∧
        ∀ i, n ≤ i → i < N → B.nnz.get i = 0) ?_ ?_ (fun _ h => h)
    · exact ⟨rfl, by simpa using zero_rep N M, fun _ _ _ => rfl⟩
    · rintro i hi B ⟨g1, g2, g3⟩
      refine wp_loop' (fun n (B' : Ell R) => B'.M = M ∧
        B'.Rep N (fun i' j => if i' < i then a i' j else if i' = i ∧ j < n then a i j else 0) ∧
        B'.nnz.get i = n ∧ (∀ j, n ≤ j → ¬ B'.Stored i j) ∧
        ∀ i', i + 1 ≤ i' → i' < N → B'.nnz.get i' = 0) ?_ ?_ ?_
      · refine ⟨g1, by simpa using g2, g3 i (le_refl _) hi, ?_, fun i' h h' => g3 i' (by omega) h'⟩
        rintro j - ⟨k, hk, -⟩
        rw [g3 i (le_refl _) hi] at hk
        omega
      · rintro j hj B' ⟨k1, k2, k3, k4, k5⟩
        rw [hget i j hi hj, Res.bind_ok]
        have hcap : B'.nnz.get i < B'.M := by omega
        rw [setElement_append k2.shape (by rw [k2.dim]; exact hi) _ hcap (Or.inl (k4 j (le_refl _)))]
        refine ⟨k1, ?_, ?_, ?_, ?_⟩
        · have := app_rep k2 hi hj (a i j) hcap (k4 j (le_refl _))
          refine ⟨this.shape, this.dim, this.le, this.good, fun i' j' hi' hj' => ?_⟩
          rw [this.den i' j' hi' hj']
          simp only [Spec.set]
          by_cases he : i' = i ∧ j' = j
          · obtain ⟨rfl, rfl⟩ := he
            simp
          · rw [if_neg he]
            by_cases h1 : i' < i
            · simp [h1]
            · rw [if_neg h1, if_neg h1]
              by_cases h2 : i' = i ∧ j' < j
              · rw [if_pos h2, if_pos ⟨h2.1, by omega⟩]
              · rw [if_neg h2, if_neg (by omega)]
        · rw [app_nnz, k3]; simp
        · intro j' hj'
          rw [app_stored hcap (k2.le i hi)]
          rintro (h | ⟨-, h⟩)
          · exact k4 j' (by omega) h
          · omega
        · intro i' h h'
          rw [app_nnz, k5 i' h h', if_neg (by omega)]
      · rintro B' ⟨k1, k2, k3, k4, k5⟩
        refine ⟨k1, ⟨k2.shape, k2.dim, k2.le, k2.good, fun i' j' hi' hj' => ?_⟩, k5⟩
        rw [k2.den i' j' hi' hj']
        by_cases h1 : i' < i
        · rw [if_pos h1, if_pos (by omega)]
        · rw [if_neg h1]
          by_cases h2 : i' = i
          · subst h2; simp [hj']
          · rw [if_neg (by omega), if_neg (by omega)]
  refine Res.wp_mono outer ?_
  rintro B ⟨h1, h2, -⟩
  refine ⟨h1, ⟨h2.shape, h2.dim, h2.le, h2.good, fun i j hi hj => ?_⟩⟩
  rw [h2.den i j hi hj]; simp [hi]

/-! ## Element-wise product -/

theorem wp_accumHad {N : Nat} {A B : Ell R} {a b : Spec.Mat R} (hA : A.Rep N a) (hB : B.Rep N b)
    {i : Nat} (hi : i < N) {s : Scr R} (hs : s.Clean N) :
    (accumHad A B i (s, 0)).wp E (fun st =>
      st.1.Holds N st.2 (fun j => (A.row i).den j * (B.row i).den j) ∧
      st.1.cols st.2 = (A.row i).map Prod.fst) := by
  unfold accumHad
  have hAd := hA.dim
  have hBd := hB.dim
  have hle := hA.le i hi
  have hleB := hB.le i hi
  have hg := hA.good i hi
  rw [read_nnz hA.shape (by omega), Res.bind_ok]
  refine wp_loop' (fun n (st : Scr R × Nat) =>
      st.1.Holds N st.2 (fun j => (A.rowPre i n).den j * (B.row i).den j) ∧
      st.1.cols st.2 = (A.rowPre i n).map Prod.fst) ?_ ?_ (fun _ h => h)
  · exact ⟨hs.holds.congr (by simp), by simp [Scr.cols]⟩
  · rintro n hn ⟨s1, l1⟩ ⟨hH, hC⟩
    simp only at hH hC
    rw [read_idx hA.shape (by omega) (by omega), Res.bind_ok]
    have hk : A.idx.get (i * A.M + n) < N := hg.2 _ (mem_rowPre.2 ⟨n, hn, rfl⟩)
    have hnot : A.idx.get (i * A.M + n) ∉ s1.cols l1 := by
      rw [hC]
      intro hm
      obtain ⟨p, hp, hpe⟩ := List.mem_map.1 hm
      obtain ⟨q, hq, rfl⟩ := mem_rowPre.1 hp
      have h1 := hg.1
      unfold row rowPre at h1
      rw [List.map_map] at h1
      have := List.inj_on_of_nodup_map h1 (x := q) (y := n) (by simp; omega) (by simp; omega) hpe
      omega
    have hl : l1 < N := hH.lt_of_not_mem hk hnot
    have hxk : (A.rowPre i n).den (A.idx.get (i * A.M + n)) = 0 :=
      SRow.den_of_not_mem (by rw [← hC]; exact hnot)
    generalize hkk : A.idx.get (i * A.M + n) = k at hk hnot hxk ⊢
    rw [Arr.read_ok (by rw [hH.szi]; exact hk), Res.bind_ok,
      if_pos ((hH.mark k hk).2 hnot), Arr.write_ok _ (by rw [hH.szx]; exact hk), Res.bind_ok,
      Arr.write_ok _ (by rw [hH.szj]; exact hl), Res.bind_ok,
      Arr.write_ok _ (by rw [hH.szi]; exact hk), Res.bind_ok, Res.pure_eq, Res.bind_ok,
      read_nnz hB.shape (by omega), Res.bind_ok]
    have hcols : ∀ x ix, ((⟨x, ix, ⟨s1.jx.size, upd s1.jx.get l1 k⟩⟩ : Scr R)).cols (l1 + 1)
        = s1.cols l1 ++ [k] := by
      intro x ix
      rw [Scr.cols_succ]
      congr 1
      · unfold Scr.cols
        apply List.map_congr_left
        intro q hq
        have : q < l1 := by simpa using hq
        exact upd_ne _ _ (by omega)
      · simp
    refine wp_loop' (fun m (st : Scr R × Nat) => st.2 = l1 + 1 ∧
        st.1.ix = ⟨s1.ix.size, upd s1.ix.get k (i + 1)⟩ ∧
        st.1.jx = ⟨s1.jx.size, upd s1.jx.get l1 k⟩ ∧ st.1.x.size = N ∧
        (∀ q, q ≠ k → st.1.x.get q = s1.x.get q) ∧
        st.1.x.get k = A.val.get (i * A.M + n) * (B.rowPre i m).den k) ?_ ?_ ?_
    · refine ⟨rfl, rfl, rfl, hH.szx, fun q hq => upd_ne _ _ hq, ?_⟩
      simp
    · rintro m hm ⟨s2, l2⟩ ⟨g1, g2, g3, g4, g5, g6⟩
      simp only at g1 g2 g3 g4 g5 g6
      rw [read_idx hB.shape (by omega) (by omega), Res.bind_ok]
      by_cases he : k = B.idx.get (i * B.M + m)
      · rw [if_pos he, read_val hA.shape (by omega) (by omega), Res.bind_ok,
          read_val hB.shape (by omega) (by omega), Res.bind_ok,
          Arr.read_ok (by simp only; omega), Res.bind_ok, Arr.write_ok _ (by simp only; omega), Res.bind_ok,
          Res.pure_eq, Res.wp_ok]
        refine ⟨g1, g2, g3, g4, fun q hq => ?_, ?_⟩
        · simp only; rw [upd_ne _ _ hq]; exact g5 q hq
        · simp only
          rw [upd_same, g6, rowPre_succ, SRow.den_append]
          simp [he, mul_add]
      · rw [if_neg he, Res.pure_eq, Res.wp_ok]
        refine ⟨g1, g2, g3, g4, g5, ?_⟩
        rw [g6, rowPre_succ, SRow.den_append]
        simp [Ne.symm he]
    · rintro ⟨⟨x2, ix2, jx2⟩, l2⟩ ⟨g1, g2, g3, g4, g5, g6⟩
      simp only at g1 g2 g3 g4 g5 g6
      subst g1 g2 g3
      have hc := hcols x2 ⟨s1.ix.size, upd s1.ix.get k (i + 1)⟩
      have hden : ∀ j, (A.rowPre i (n + 1)).den j * (B.row i).den j =
          if j = k then A.val.get (i * A.M + n) * (B.row i).den k
          else (A.rowPre i n).den j * (B.row i).den j := by
        intro j
        rw [rowPre_succ, SRow.den_append]
        by_cases hj : j = k
        · subst hj; simp [hkk, hxk]
        · simp [hkk, hj, Ne.symm hj]
      refine ⟨⟨g4, hH.szi, hH.szj, ?_, ?_, ?_, ?_, ?_⟩, ?_⟩
      · rw [hc, List.nodup_append]
        refine ⟨hH.nodup, by simp, ?_⟩
        intro x hx y hy
        simp at hy; subst hy
        rintro rfl; exact hnot hx
      · intro q hq
        rw [hc] at hq
        rcases List.mem_append.1 hq with hq | hq
        · exact hH.lt q hq
        · simp at hq; subst hq; exact hk
      · intro q hq
        rw [hc]
        simp only
        by_cases he : q = k
        · subst he; simp
        · rw [upd_ne _ _ he, hH.mark q hq]; simp [he]
      · intro q hq
        rw [hc] at hq
        rw [hden q]
        simp only
        by_cases he : q = k
        · subst he
          rw [if_pos rfl]; exact g6
        · rw [if_neg he, g5 q he]
          apply hH.val
          rcases List.mem_append.1 hq with hq | hq
          · exact hq
          · simp at hq; exact absurd hq he
      · intro q hq
        rw [hc] at hq
        simp only [List.mem_append, List.mem_singleton, not_or] at hq
        rw [hden q, if_neg hq.2]
        exact hH.out q hq.1
      · rw [hc, hC, rowPre_succ]
        simp [hkk]

theorem wp_hadRow {N i : Nat} {A B C : Ell R} {s : Scr R} {a b : Spec.Mat R}
    (hA : A.Rep N a) (hB : B.Rep N b) (hC : C.Shape) (hCN : C.N = N) (hi : i < N)
    (hs : s.Clean N) (big : R → Bool) :
    (hadRow A B big i C s).wp (A.nnz.get i > C.M) (fun st => st.1.Shape ∧
      Frame C st.1 i ∧
      st.1.RowSat i (fun L => MulRow big N i (fun j => a i j * b i j) L ∧
        A.nnz.get i ≤ C.M) ∧ st.2.Clean N) := by
  unfold hadRow
  rw [Res.wp_bind]
  refine Res.wp_mono (wp_accumHad hA hB hi hs) ?_
  rintro ⟨s1, l1⟩ ⟨hH, hcols⟩
  simp only at hH hcols ⊢
  have hcount : l1 = A.nnz.get i := by
    have := congrArg List.length hcols
    simpa using this
  split
  · next h => simp only [Res.wp_error]; omega
  · next h =>
    rw [Res.wp_bind]
    refine Res.wp_mono (wp_multFlush hC hCN hi big hH
      (g := fun j => a i j * b i j)
      (fun j hj => by rw [hA.den i j hi hj, hB.den i j hi hj]) ?_) ?_
    · refine le_trans (List.length_filter_le _ _) ?_
      rw [Scr.cols_length]; omega
    · rintro ⟨C', s', ll⟩ ⟨hS, hN, hM, hnn, hfr, hrow, hll, hcl⟩
      simp only at hS hN hM hnn hfr hrow hll hcl ⊢
      rw [setNnz_eq hS _ (by omega)]
      simp only [Res.bind_ok, Res.pure_eq, Res.wp_ok]
      exact ⟨hS.withNnz _ _, hfr, ⟨hrow.1, hrow.2, by omega⟩, hcl⟩

/-- Internal form of the element-wise product theorem. -/
theorem wp_elementMultiply {N lo hi : Nat} {A B C : Ell R} {a b c : Spec.Mat R} (hA : A.Rep N a)
    (hB : B.Rep N b) (hC : C.Rep N c) (big : R → Bool) {sc : Sched}
    (hsc : IsSched lo hi sc) (hhi : hi ≤ N) :
    (elementMultiply A B C big sc).wp (∃ i, lo ≤ i ∧ i < hi ∧ A.nnz.get i > C.M)
      (fun C' => C'.M = C.M ∧ C'.Shape ∧ C'.N = N ∧
        ∀ i, i < N → if lo ≤ i ∧ i < hi
          then C'.RowSat i (fun L => MulRow big N i (fun j => a i j * b i j) L ∧
            A.nnz.get i ≤ C.M)
          else C'.RowSat i (IsRow N (c i))) := by
  unfold elementMultiply
  rw [Res.wp_bind]
  refine Res.wp_mono (wp_kernel (N := N) (M := C.M) (Ns := N) hsc hhi
    (fun i C s => hadRow A B big i C s) (fun i => IsRow N (c i))
    (fun i L => MulRow big N i (fun j => a i j * b i j) L ∧ A.nnz.get i ≤ C.M)
    ?_ hC.shape hC.dim rfl (fun i hi => hC.rowSat hi) ?_) ?_
  · intro i C' s h1 h2 hC' hN hM hP hs
    refine Res.wp_mono' (wp_hadRow hA hB hC' hN (by omega) hs big) ?_ ?_
    · intro h; exact ⟨i, h1, h2, by omega⟩
    · rintro st ⟨k1, k2, k3, k4⟩
      exact ⟨k1, k2, ⟨k3.1, k3.2.1, by have := k3.2.2; omega⟩, k4⟩
  · intro t; rw [hC.dim]; exact Scr.clean_clearScr N
  · rintro ⟨A', scr⟩ ⟨h1, h2, h3, h4⟩
    exact ⟨h3, h1, h2, h4⟩

end Ell

end Bml
