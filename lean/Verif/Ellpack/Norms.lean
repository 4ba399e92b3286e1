import Verif.Ellpack.Reduce

/-!
# ELLPACK two-matrix norms: `bml_sum_AB`, `bml_sum_squares2`, `bml_fnorm2`, `bml_add_norm`
-/

set_option linter.unusedSectionVars false

namespace Bml

namespace Ell

variable {R : Type} [CommRing R] {E : Prop}

/-- The columns stored in the first `n` slots of row `i`. -/
def colsPre (A : Ell R) (i n : Nat) : List Nat := (A.rowPre i n).map Prod.fst

@[simp] theorem colsPre_zero (A : Ell R) (i : Nat) : A.colsPre i 0 = [] := rfl

theorem colsPre_succ (A : Ell R) (i n : Nat) :
    A.colsPre i (n + 1) = A.colsPre i n ++ [A.idx.get (i * A.M + n)] := by
  simp [colsPre, rowPre_succ]

@[simp] theorem colsPre_length (A : Ell R) (i n : Nat) : (A.colsPre i n).length = n := by
  simp [colsPre]

theorem rowPre_sublist (A : Ell R) (i : Nat) {n m : Nat} (h : n ≤ m) :
    (A.rowPre i n).Sublist (A.rowPre i m) := by
  unfold rowPre
  apply List.Sublist.map
  exact List.range_sublist.2 h

theorem good_pre {N : Nat} {A : Ell R} {i n : Nat} (hg : SRow.Good N (A.row i))
    (hn : n ≤ A.nnz.get i) : SRow.Good N (A.rowPre i n) :=
  hg.sublist (rowPre_sublist A i hn)

theorem idx_not_mem {N : Nat} {A : Ell R} {i n : Nat} (hg : SRow.Good N (A.row i))
    (hn : n < A.nnz.get i) : A.idx.get (i * A.M + n) ∉ A.colsPre i n := by
  have := (good_pre (n := n + 1) hg hn).1
  rw [show (A.rowPre i (n + 1)).map Prod.fst = A.colsPre i (n + 1) from rfl, colsPre_succ,
    List.nodup_append] at this
  intro hm
  exact this.2.2 _ hm _ (by simp) rfl

theorem den_pre_not_mem {A : Ell R} {i n j : Nat} (h : j ∉ A.colsPre i n) :
    (A.rowPre i n).den j = 0 := SRow.den_of_not_mem h

theorem idx_lt {N : Nat} {A : Ell R} {i n : Nat} (hg : SRow.Good N (A.row i))
    (hn : n < A.nnz.get i) : A.idx.get (i * A.M + n) < N :=
  hg.2 _ (mem_rowPre.2 ⟨n, hn, rfl⟩)

theorem wp_sumABRow {N i : Nat} {A B : Ell R} {a b : Spec.Mat R} (hA : A.Rep N a)
    (hB : B.Rep N b) (hi : i < N) (α : R) (big : R → Bool) {y : Arr R} {jjb : Arr Nat}
    (hy : y.size = N) (hj : jjb.size = A.M) (t : R) :
    (sumABRow A B α big i y jjb t).wp E (fun st => st.1.size = N ∧ st.2.1.size = A.M ∧
      st.2.2 = t + ∑ j ∈ Finset.range N, Spec.keep big (α * a i j * b i j)) := by
  unfold sumABRow
  have hiA : i < A.N := by rw [hA.dim]; exact hi
  have hiB : i < B.N := by rw [hB.dim]; exact hi
  have hgA := hA.good i hi
  have hgB := hB.good i hi
  have hleA := hA.le i hi
  have hleB := hB.le i hi
  rw [read_nnz hA.shape hiA, Res.bind_ok, Res.wp_bind]
  have h1 : (loop (A.nnz.get i) ((⟨A.N, fun _ => 0⟩ : Arr Nat), y)
      fun jp (st : Arr Nat × Arr R) => do
        let k ← A.idx.read (ROWMAJOR i jp A.N A.M)
        let ix ← st.1.write k 1
        let v ← A.val.read (ROWMAJOR i jp A.N A.M)
        let y ← st.2.write k (α * v)
        pure (ix, y)).wp E (fun (st : Arr Nat × Arr R) => st.1.size = N ∧ st.2.size = N ∧
          (∀ k, k < N → (st.1.get k ≠ 0 ↔ k ∈ A.colsPre i (A.nnz.get i))) ∧
          ∀ k ∈ A.colsPre i (A.nnz.get i), st.2.get k = α * (A.rowPre i (A.nnz.get i)).den k) := by
    refine wp_loop' (fun n (st : Arr Nat × Arr R) => st.1.size = N ∧ st.2.size = N ∧
          (∀ k, k < N → (st.1.get k ≠ 0 ↔ k ∈ A.colsPre i n)) ∧
          ∀ k ∈ A.colsPre i n, st.2.get k = α * (A.rowPre i n).den k) ?_ ?_ (fun _ h => h)
    · exact ⟨hA.dim, hy, by simp, by simp⟩
    · rintro n hn ⟨ix, y⟩ ⟨g1, g2, g3, g4⟩
      simp only at g1 g2 g3 g4
      have hk := idx_lt hgA hn
      have hnm := idx_not_mem hgA hn
      rw [read_idx hA.shape hiA (by omega), Res.bind_ok, Arr.write_ok _ (by simp only; omega),
        Res.bind_ok, read_val hA.shape hiA (by omega), Res.bind_ok,
        Arr.write_ok _ (by simp only; omega), Res.bind_ok]
      simp only [Res.pure_eq, Res.wp_ok]
      refine ⟨g1, g2, ?_, ?_⟩
      · intro k hkN
        rw [colsPre_succ, List.mem_append, List.mem_singleton]
        by_cases he : k = A.idx.get (i * A.M + n)
        · subst he; simp
        · rw [upd_ne _ _ he]
          simp [he, ← g3 k hkN]
      · intro k hkm
        rw [colsPre_succ, List.mem_append, List.mem_singleton] at hkm
        rw [rowPre_succ, SRow.den_append]
        by_cases he : k = A.idx.get (i * A.M + n)
        · subst he; simp [den_pre_not_mem hnm]
        · rw [upd_ne _ _ he, g4 k (hkm.resolve_right he)]
          simp [Ne.symm he]
  refine Res.wp_mono h1 ?_
  rintro ⟨ix, y1⟩ ⟨g1, g2, g3, g4⟩
  simp only at g1 g2 g3 g4 ⊢
  rw [read_nnz hB.shape hiB, Res.bind_ok, Res.wp_bind]
  -- the common columns
  let CA := A.colsPre i (A.nnz.get i)
  let T : Nat → List Nat := fun n => (B.colsPre i n).filter (fun k => decide (k ∈ CA))
  have hTn : ∀ n, n ≤ B.nnz.get i → (T n).Nodup := fun n hn =>
    ((good_pre hgB hn).1).filter _
  have hCAn : CA.Nodup := hgA.1
  have hTlen : ∀ n, n ≤ B.nnz.get i → (T n).length ≤ A.nnz.get i := by
    intro n hn
    have h3 : (T n).toFinset ⊆ CA.toFinset := by
      intro k hk
      simp only [List.mem_toFinset] at hk ⊢
      simpa using (List.mem_filter.1 hk).2
    have h4 := Finset.card_le_card h3
    rw [List.toFinset_card_of_nodup (hTn n hn), List.toFinset_card_of_nodup hCAn] at h4
    simpa [CA] using h4
  have h2 : (loop (B.nnz.get i) (y1, jjb, 0) fun jp (st : Arr R × Arr Nat × Nat) => do
      let k ← B.idx.read (ROWMAJOR i jp B.N B.M)
      let t ← ix.read k
      if t ≠ 0 then do
        let jjb ← st.2.1.write st.2.2 k
        let v ← B.val.read (ROWMAJOR i jp B.N B.M)
        let yk ← st.1.read k
        let y ← st.1.write k (yk * v)
        pure (y, jjb, st.2.2 + 1)
      else pure st).wp E (fun (st : Arr R × Arr Nat × Nat) => st.1.size = N ∧ st.2.1.size = A.M ∧
        st.2.2 = (T (B.nnz.get i)).length ∧
        (List.range st.2.2).map st.2.1.get = T (B.nnz.get i) ∧
        (∀ k, k < N → st.1.get k = if k ∈ T (B.nnz.get i)
          then α * (A.row i).den k * (B.rowPre i (B.nnz.get i)).den k else y1.get k)) := by
    refine wp_loop' (fun n (st : Arr R × Arr Nat × Nat) => st.1.size = N ∧ st.2.1.size = A.M ∧
        st.2.2 = (T n).length ∧ (List.range st.2.2).map st.2.1.get = T n ∧
        (∀ k, k < N → st.1.get k = if k ∈ T n
          then α * (A.row i).den k * (B.rowPre i n).den k else y1.get k)) ?_ ?_ (fun _ h => h)
    · exact ⟨g2, hj, by simp [T], by simp [T], by simp [T]⟩
    · rintro n hn ⟨y, jb, l⟩ ⟨k1, k2, k3, k4, k5⟩
      simp only at k1 k2 k3 k4 k5
      have hk := idx_lt hgB hn
      have hnm := idx_not_mem hgB hn
      rw [read_idx hB.shape hiB (by omega), Res.bind_ok, Arr.read_ok (by omega), Res.bind_ok]
      by_cases hm : B.idx.get (i * B.M + n) ∈ CA
      · have hT : T (n + 1) = T n ++ [B.idx.get (i * B.M + n)] := by
          simp only [T, colsPre_succ, List.filter_append]
          simp [hm]
        have hlen := hTlen (n + 1) hn
        rw [hT, List.length_append, List.length_singleton] at hlen
        have hnT : B.idx.get (i * B.M + n) ∉ T n := fun h => hnm (List.mem_filter.1 h).1
        rw [if_pos ((g3 _ hk).2 hm), Arr.write_ok _ (by simp only; omega), Res.bind_ok,
          read_val hB.shape hiB (by omega), Res.bind_ok, Arr.read_ok (by simp only; omega),
          Res.bind_ok, Arr.write_ok _ (by simp only; omega), Res.bind_ok]
        simp only [Res.pure_eq, Res.wp_ok]
        refine ⟨k1, k2, ?_, ?_, ?_⟩
        · rw [hT, k3]; simp
        · rw [hT, List.range_succ, List.map_append]
          congr 1
          · rw [← k4]
            apply List.map_congr_left
            intro q hq
            have : q < l := by simpa using hq
            exact upd_ne _ _ (by omega)
          · simp
        · intro k hkN
          simp only [hT, List.mem_append, List.mem_singleton, rowPre_succ, SRow.den_append]
          by_cases he : k = B.idx.get (i * B.M + n)
          · subst he
            have := k5 _ hkN
            rw [if_neg hnT] at this
            rw [upd_same, this, g4 _ hm, den_pre_not_mem hnm]
            simp
            rfl
          · rw [upd_ne _ _ he, k5 k hkN]
            simp [he, Ne.symm he]
      · have hT : T (n + 1) = T n := by
          simp only [T, colsPre_succ, List.filter_append]
          simp [hm]
        rw [if_neg (fun h => hm ((g3 _ hk).1 h))]
        simp only [Res.pure_eq, Res.wp_ok]
        refine ⟨k1, k2, by rw [hT]; exact k3, by rw [hT]; exact k4, ?_⟩
        intro k hkN
        rw [hT, k5 k hkN, rowPre_succ, SRow.den_append]
        by_cases hkT : k ∈ T n
        · have : B.idx.get (i * B.M + n) ≠ k := by
            rintro rfl
            exact hnm (List.mem_filter.1 hkT).1
          simp [hkT, this]
        · simp [hkT]
  refine Res.wp_mono h2 ?_
  rintro ⟨y2, jb2, l⟩ ⟨k1, k2, k3, k4, k5⟩
  simp only at k1 k2 k3 k4 k5 ⊢
  rw [Res.wp_bind]
  have hTN : ∀ k ∈ T (B.nnz.get i), k < N := fun k hk => by
    obtain ⟨p, hp, rfl⟩ := List.mem_map.1 (List.mem_filter.1 hk).1
    exact hgB.2 p hp
  have hl := hTlen _ (le_refl _)
  have h3 : (loop l t fun jp sum => do
      let k ← jb2.read jp
      let v ← y2.read k
      pure (if big v then sum + v else sum)).wp E (fun s => s = t +
        ((List.range l).map (fun q => Spec.keep big (y2.get (jb2.get q)))).sum) := by
    refine wp_loop' (fun n s => s = t +
        ((List.range n).map (fun q => Spec.keep big (y2.get (jb2.get q)))).sum) (by simp) ?_
        (fun _ h => h)
    rintro n hn s rfl
    have hmem : jb2.get n ∈ T (B.nnz.get i) := by
      rw [← k4]; exact List.mem_map.2 ⟨n, by simpa using hn, rfl⟩
    have := hTN _ hmem
    rw [Arr.read_ok (by omega), Res.bind_ok, Arr.read_ok (by omega), Res.bind_ok]
    simp only [Res.pure_eq, Res.wp_ok, List.range_succ, List.map_append, List.sum_append,
      List.map_cons, List.map_nil, List.sum_cons, List.sum_nil, Spec.keep]
    split <;> simp [add_assoc]
  refine Res.wp_mono h3 ?_
  rintro s rfl
  simp only [Res.pure_eq, Res.wp_ok]
  refine ⟨k1, k2, ?_⟩
  congr 1
  have e1 : (List.range l).map (fun q => Spec.keep big (y2.get (jb2.get q)))
      = (T (B.nnz.get i)).map (fun k => Spec.keep big (y2.get k)) := by
    rw [← k4, List.map_map]; rfl
  have e2 : (T (B.nnz.get i)).map (fun k => Spec.keep big (y2.get k))
      = (T (B.nnz.get i)).map (fun k => Spec.keep big (α * a i k * b i k)) := by
    apply List.map_congr_left
    intro k hk
    rw [k5 k (hTN k hk), if_pos hk, hA.den i k hi (hTN k hk)]
    have := hB.den i k hi (hTN k hk)
    unfold row at this
    rw [this]
  rw [e1, e2]
  refine SRow.sum_cols (hTn _ (le_refl _)) hTN ?_
  intro j hj hnT
  have : α * a i j * b i j = 0 := by
    by_cases hb : j ∈ B.colsPre i (B.nnz.get i)
    · have ha : j ∉ CA := by
        intro h
        exact hnT (List.mem_filter.2 ⟨hb, by simpa using h⟩)
      have : a i j = 0 := by
        rw [← hA.den i j hi hj]; exact den_pre_not_mem ha
      rw [this]; ring
    · have : b i j = 0 := by
        rw [← hB.den i j hi hj]; exact den_pre_not_mem hb
      rw [this]; ring
  rw [this]; unfold Spec.keep; split <;> rfl

theorem wp_sumAB {N lo hi : Nat} {A B : Ell R} {a b : Spec.Mat R} (hA : A.Rep N a)
    (hB : B.Rep N b) (α : R) (big : R → Bool) {sc : Sched} (hsc : IsSched lo hi sc)
    (hhi : hi ≤ N) :
    (sumAB A B α big sc).wp E (fun t => t = ∑ i ∈ Finset.Ico lo hi, ∑ j ∈ Finset.range N,
      Spec.keep big (α * a i j * b i j)) := by
  unfold sumAB
  rw [Res.wp_bind]
  have := wp_reduceS (E := E) hsc (t0 := (0 : R))
    (s0 := fun _ => ((⟨A.N, fun _ => 0⟩ : Arr R), (⟨A.M, fun _ => 0⟩ : Arr Nat)))
    (fun i (s : Arr R × Arr Nat) t => do
      let (y, jjb, sum) ← sumABRow A B α big i s.1 s.2 t
      pure ((y, jjb), sum))
    (fun s => s.1.size = N ∧ s.2.size = A.M) (fun _ => ⟨hA.dim, rfl⟩)
    (fun i => ∑ j ∈ Finset.range N, Spec.keep big (α * a i j * b i j)) ?_
  · simp only [bind_assoc, pure_bind] at this
    refine Res.wp_mono this ?_
    rintro ⟨s, t⟩ h
    simp only at h ⊢
    rw [h]; simp
  · rintro i ⟨y, jjb⟩ t h1 h2 ⟨g1, g2⟩
    simp only [Res.wp_bind]
    refine Res.wp_mono (wp_sumABRow hA hB (by omega) α big g1 g2 t) ?_
    rintro ⟨y', j', t'⟩ ⟨k1, k2, k3⟩
    exact ⟨⟨k1, k2⟩, k3⟩

/-! ## `bml_sum_squares2` -/

theorem wp_sumSquares2Row {N i : Nat} {A B : Ell R} {a b : Spec.Mat R} (hA : A.Rep N a)
    (hB : B.Rep N b) (hi : i < N) (α β : R) (big : R → Bool) {s : Scr R}
    (hs : s.Clean N) (t : R) :
    (sumSquares2Row A B α β big i s t).wp E (fun st => st.1.Clean N ∧
      st.2 = t + ∑ j ∈ Finset.range N,
        Spec.keep big (α * a i j + β * b i j) * Spec.keep big (α * a i j + β * b i j)) := by
  unfold sumSquares2Row
  have hiA : i < A.N := by rw [hA.dim]; exact hi
  have hiB : i < B.N := by rw [hB.dim]; exact hi
  have hgA := hA.good i hi
  have hgB := hB.good i hi
  have hleA := hA.le i hi
  have hleB := hB.le i hi
  have hlA : A.nnz.get i ≤ N := by simpa using hgA.length_le
  rw [read_nnz hA.shape hiA, Res.bind_ok, Res.wp_bind]
  let CA := A.colsPre i (A.nnz.get i)
  have hCAn : CA.Nodup := hgA.1
  have h1 : (loop (A.nnz.get i) (s, 0) fun jp (st : Scr R × Nat) => do
      let k ← A.idx.read (ROWMAJOR i jp A.N A.M)
      let x ← st.1.x.write k 0
      let ix ← st.1.ix.write k 1
      let jx ← st.1.jx.write st.2 k
      let v ← A.val.read (ROWMAJOR i jp A.N A.M)
      let yk ← x.read k
      let x ← x.write k (yk + α * v)
      pure (⟨x, ix, jx⟩, st.2 + 1)).wp E (fun (st : Scr R × Nat) =>
        st.1.x.size = N ∧ st.1.ix.size = N ∧ st.1.jx.size = N ∧ st.2 = A.nnz.get i ∧
        st.1.cols st.2 = CA ∧ (∀ k, k < N → (st.1.ix.get k = 0 ↔ k ∉ CA)) ∧
        ∀ k ∈ CA, st.1.x.get k = α * (A.row i).den k) := by
    refine wp_loop' (fun n (st : Scr R × Nat) =>
        st.1.x.size = N ∧ st.1.ix.size = N ∧ st.1.jx.size = N ∧ st.2 = n ∧
        st.1.cols st.2 = A.colsPre i n ∧ (∀ k, k < N → (st.1.ix.get k = 0 ↔ k ∉ A.colsPre i n)) ∧
        ∀ k ∈ A.colsPre i n, st.1.x.get k = α * (A.rowPre i n).den k) ?_ ?_ (fun _ h => h)
    · exact ⟨hs.szx, hs.szi, hs.szj, rfl, by simp [Scr.cols], fun k hk => by simp [hs.mark k hk],
        by simp⟩
    · rintro n hn ⟨s, l⟩ ⟨g1, g2, g3, g4, g5, g6, g7⟩
      simp only at g1 g2 g3 g4 g5 g6 g7
      subst g4
      have hk := idx_lt hgA hn
      have hnm := idx_not_mem hgA hn
      rw [read_idx hA.shape hiA (by omega), Res.bind_ok, Arr.write_ok _ (by simp only; omega),
        Res.bind_ok, Arr.write_ok _ (by simp only; omega), Res.bind_ok,
        Arr.write_ok _ (by simp only; omega), Res.bind_ok,
        read_val hA.shape hiA (by omega), Res.bind_ok, Arr.read_ok (by simp only; omega),
        Res.bind_ok, Arr.write_ok _ (by simp only; omega), Res.bind_ok]
      simp only [Res.pure_eq, Res.wp_ok]
      refine ⟨g1, g2, g3, trivial, ?_, ?_, ?_⟩
      · rw [Scr.cols_succ, colsPre_succ, ← g5]
        congr 1
        · unfold Scr.cols
          apply List.map_congr_left
          intro q hq
          have : q < l := by simpa using hq
          exact upd_ne _ _ (by omega)
        · simp
      · intro k hkN
        rw [colsPre_succ, List.mem_append, List.mem_singleton]
        by_cases he : k = A.idx.get (i * A.M + l)
        · subst he; simp
        · rw [upd_ne _ _ he]
          simp [he, g6 k hkN]
      · intro k hkm
        rw [colsPre_succ, List.mem_append, List.mem_singleton] at hkm
        rw [rowPre_succ, SRow.den_append]
        by_cases he : k = A.idx.get (i * A.M + l)
        · subst he; simp [den_pre_not_mem hnm]
        · rw [upd_ne _ _ he, upd_ne _ _ he, g7 k (hkm.resolve_right he)]
          simp [Ne.symm he]
  refine Res.wp_mono h1 ?_
  rintro ⟨s1, l1⟩ ⟨g1, g2, g3, g4, g5, g6, g7⟩
  simp only at g1 g2 g3 g4 g5 g6 g7 ⊢
  rw [read_nnz hB.shape hiB, Res.bind_ok, Res.wp_bind]
  let T : Nat → List Nat := fun n => CA ++ (B.colsPre i n).filter (fun k => decide (k ∉ CA))
  have hTn : ∀ n, n ≤ B.nnz.get i → (T n).Nodup := by
    intro n hn
    refine List.nodup_append.2 ⟨hCAn, ((good_pre hgB hn).1).filter _, ?_⟩
    intro x hx y hy he
    subst he
    have := (List.mem_filter.1 hy).2
    simp at this
    exact this hx
  have hTN : ∀ n, n ≤ B.nnz.get i → ∀ k ∈ T n, k < N := by
    intro n hn k hk
    rcases List.mem_append.1 hk with hk | hk
    · obtain ⟨p, hp, rfl⟩ := List.mem_map.1 hk
      exact hgA.2 p hp
    · obtain ⟨p, hp, rfl⟩ := List.mem_map.1 (List.mem_filter.1 hk).1
      exact (good_pre hgB hn).2 p hp
  have hTlen : ∀ n, n ≤ B.nnz.get i → (T n).length ≤ N := by
    intro n hn
    have := (SRow.good_ofCols (f := fun _ => (0 : R)) (hTn n hn) (hTN n hn)).length_le
    simpa using this
  have hTmono : ∀ n, ∀ k, k ∈ T n → k ∈ T (n + 1) := by
    intro n k hk
    rcases List.mem_append.1 hk with hk | hk
    · exact List.mem_append_left _ hk
    · refine List.mem_append_right _ ?_
      rw [colsPre_succ, List.filter_append]
      exact List.mem_append_left _ hk
  have h2 : (loop (B.nnz.get i) (s1, l1) fun jp (st : Scr R × Nat) => do
      let k ← B.idx.read (ROWMAJOR i jp B.N B.M)
      let t ← st.1.ix.read k
      let st ← (if t = 0 then do
          let x ← st.1.x.write k 0
          let jx ← st.1.jx.write st.2 k
          pure (⟨x, st.1.ix, jx⟩, st.2 + 1)
        else pure st)
      let v ← B.val.read (ROWMAJOR i jp B.N B.M)
      let yk ← st.1.x.read k
      let x ← st.1.x.write k (yk + β * v)
      pure ({ st.1 with x := x }, st.2)).wp E (fun (st : Scr R × Nat) =>
        st.1.x.size = N ∧ st.1.ix = s1.ix ∧ st.1.jx.size = N ∧
        st.1.cols st.2 = T (B.nnz.get i) ∧
        ∀ k ∈ T (B.nnz.get i), st.1.x.get k = α * (A.row i).den k + β * (B.row i).den k) := by
    refine wp_loop' (fun n (st : Scr R × Nat) =>
        st.1.x.size = N ∧ st.1.ix = s1.ix ∧ st.1.jx.size = N ∧
        st.1.cols st.2 = T n ∧
        ∀ k ∈ T n, st.1.x.get k = α * (A.row i).den k + β * (B.rowPre i n).den k) ?_ ?_
        (fun _ h => h)
    · refine ⟨g1, rfl, g3, by simpa [T] using g5, ?_⟩
      intro k hk
      have : k ∈ CA := by simpa [T] using hk
      simp [g7 k this]
    · rintro n hn ⟨s, l⟩ ⟨k1, k2, k3, k4, k5⟩
      simp only at k1 k2 k3 k4 k5
      have hk := idx_lt hgB hn
      have hnm := idx_not_mem hgB hn
      have hlT : l = (T n).length := by rw [← k4]; simp
      rw [read_idx hB.shape hiB (by omega), Res.bind_ok,
        Arr.read_ok (by simp only; rw [k2]; omega), Res.bind_ok]
      have hixeq : s.ix.get (B.idx.get (i * B.M + n)) = 0 ↔ B.idx.get (i * B.M + n) ∉ CA := by
        rw [k2]; exact g6 _ hk
      by_cases hm : B.idx.get (i * B.M + n) ∈ CA
      · have hT : T (n + 1) = T n := by
          simp only [T, colsPre_succ, List.filter_append]
          simp [hm]
        rw [if_neg (fun h => (hixeq.1 h) hm)]
        simp only [Res.pure_eq, Res.bind_ok]
        rw [read_val hB.shape hiB (by omega), Res.bind_ok, Arr.read_ok (by omega),
          Res.bind_ok, Arr.write_ok _ (by omega), Res.bind_ok]
        simp only [Res.wp_ok]
        refine ⟨k1, k2, k3, by rw [hT]; exact k4, ?_⟩
        intro k hkT
        rw [hT] at hkT
        rw [rowPre_succ, SRow.den_append]
        by_cases he : k = B.idx.get (i * B.M + n)
        · subst he
          rw [upd_same, k5 _ hkT]
          simp; ring
        · rw [upd_ne _ _ he, k5 k hkT]
          simp [Ne.symm he]
      · have hT : T (n + 1) = T n ++ [B.idx.get (i * B.M + n)] := by
          simp only [T, colsPre_succ, List.filter_append]
          simp [hm]
        have hnT : B.idx.get (i * B.M + n) ∉ T n := by
          intro h
          rcases List.mem_append.1 h with h | h
          · exact hm h
          · exact hnm (List.mem_filter.1 h).1
        have hlen := hTlen (n + 1) hn
        rw [hT, List.length_append, List.length_singleton] at hlen
        rw [if_pos (hixeq.2 hm)]
        simp only [Res.pure_eq]
        rw [Arr.write_ok _ (by omega), Res.bind_ok, Arr.write_ok _ (by omega), Res.bind_ok]
        simp only [Res.bind_ok]
        rw [read_val hB.shape hiB (by omega), Res.bind_ok, Arr.read_ok (by simp only; omega),
          Res.bind_ok, Arr.write_ok _ (by simp only; omega), Res.bind_ok]
        simp only [Res.wp_ok]
        refine ⟨k1, k2, k3, ?_, ?_⟩
        · rw [Scr.cols_succ, hT, ← k4]
          congr 1
          · unfold Scr.cols
            apply List.map_congr_left
            intro q hq
            have : q < l := by simpa using hq
            exact upd_ne _ _ (by omega)
          · simp
        · intro k hkT
          rw [hT, List.mem_append, List.mem_singleton] at hkT
          rw [rowPre_succ, SRow.den_append]
          by_cases he : k = B.idx.get (i * B.M + n)
          · subst he
            have : (A.row i).den (B.idx.get (i * B.M + n)) = 0 := den_pre_not_mem hm
            simp [this, den_pre_not_mem hnm]
          · rw [upd_ne _ _ he, upd_ne _ _ he, k5 k (hkT.resolve_right he)]
            simp [Ne.symm he]
  refine Res.wp_mono h2 ?_
  rintro ⟨s2, l⟩ ⟨k1, k2, k3, k4, k5⟩
  simp only at k1 k2 k3 k4 k5 ⊢
  rw [Res.wp_bind]
  have hTN' := hTN _ (le_refl _)
  have hl : l = (T (B.nnz.get i)).length := by rw [← k4]; simp
  have hlN := hTlen _ (le_refl _)
  have h3 : (loop l (s2.ix, t) fun jp (st : Arr Nat × R) => do
      let k ← s2.jx.read jp
      let v ← s2.x.read k
      let ix ← st.1.write k 0
      pure (ix, if big v then st.2 + v * v else st.2)).wp E (fun (st : Arr Nat × R) =>
        st.1.size = N ∧ (∀ k, k < N → (k ∈ s2.cols l ∨ s2.ix.get k = 0) → st.1.get k = 0) ∧
        st.2 = t + ((s2.cols l).map (fun k => Spec.keep big (s2.x.get k) *
          Spec.keep big (s2.x.get k))).sum) := by
    refine wp_loop' (fun n (st : Arr Nat × R) =>
        st.1.size = N ∧ (∀ k, k < N → (k ∈ s2.cols n ∨ s2.ix.get k = 0) → st.1.get k = 0) ∧
        st.2 = t + ((s2.cols n).map (fun k => Spec.keep big (s2.x.get k) *
          Spec.keep big (s2.x.get k))).sum) ?_ ?_ (fun _ h => h)
    · refine ⟨by rw [k2]; exact g2, ?_, by simp [Scr.cols]⟩
      intro k _ h
      simpa [Scr.cols] using h
    · rintro n hn ⟨ix, u⟩ ⟨m1, m2, m3⟩
      simp only at m1 m2 m3
      subst m3
      have hmem : s2.jx.get n ∈ T (B.nnz.get i) := by
        rw [← k4]; exact List.mem_map.2 ⟨n, by simpa using hn, rfl⟩
      have := hTN' _ hmem
      rw [Arr.read_ok (by omega), Res.bind_ok, Arr.read_ok (by omega), Res.bind_ok,
        Arr.write_ok _ (by simp only; omega), Res.bind_ok]
      simp only [Res.pure_eq, Res.wp_ok]
      refine ⟨m1, ?_, ?_⟩
      · intro k hk h
        by_cases he : k = s2.jx.get n
        · subst he; simp
        · rw [upd_ne _ _ he]
          refine m2 k hk ?_
          rw [Scr.cols_succ, List.mem_append, List.mem_singleton] at h
          rcases h with (h | h) | h
          · exact Or.inl h
          · exact absurd h he
          · exact Or.inr h
      · rw [Scr.cols_succ, List.map_append, List.sum_append]
        simp only [List.map_cons, List.map_nil, List.sum_cons, List.sum_nil, add_zero, Spec.keep]
        split <;> simp [add_assoc]
  refine Res.wp_mono h3 ?_
  rintro ⟨ix, u⟩ ⟨m1, m2, m3⟩
  simp only [Res.pure_eq, Res.wp_ok] at m1 m2 m3 ⊢
  refine ⟨⟨k1, m1, k3, ?_⟩, ?_⟩
  · intro k hk
    refine m2 k hk ?_
    by_cases hc : k ∈ CA
    · left; rw [k4]; exact List.mem_append_left _ hc
    · right; rw [k2]; exact (g6 k hk).2 hc
  · rw [m3, k4]
    congr 1
    have e : (T (B.nnz.get i)).map (fun k => Spec.keep big (s2.x.get k) *
          Spec.keep big (s2.x.get k)) = (T (B.nnz.get i)).map (fun j =>
        Spec.keep big (α * a i j + β * b i j) * Spec.keep big (α * a i j + β * b i j)) := by
      apply List.map_congr_left
      intro k hk
      rw [k5 k hk, hA.den i k hi (hTN' k hk), hB.den i k hi (hTN' k hk)]
    rw [e]
    refine SRow.sum_cols (hTn _ (le_refl _)) hTN' ?_
    intro j hj hnT
    have ha : a i j = 0 := by
      rw [← hA.den i j hi hj]
      exact den_pre_not_mem (fun h => hnT (List.mem_append_left _ h))
    have hb : b i j = 0 := by
      rw [← hB.den i j hi hj]
      refine den_pre_not_mem (fun h => hnT ?_)
      by_cases hc : j ∈ CA
      · exact List.mem_append_left _ hc
      · exact List.mem_append_right _ (List.mem_filter.2 ⟨h, by simpa using hc⟩)
    rw [ha, hb]
    unfold Spec.keep
    split <;> simp

theorem wp_sumSquares2 {N lo hi : Nat} {A B : Ell R} {a b : Spec.Mat R} (hA : A.Rep N a)
    (hB : B.Rep N b) (α β : R) (big : R → Bool) {sc : Sched} (hsc : IsSched lo hi sc)
    (hhi : hi ≤ N) :
    (sumSquares2 A B α β big sc).wp E (fun t => t = ∑ i ∈ Finset.Ico lo hi,
      ∑ j ∈ Finset.range N,
        Spec.keep big (α * a i j + β * b i j) * Spec.keep big (α * a i j + β * b i j)) := by
  unfold sumSquares2
  rw [Res.wp_bind]
  refine Res.wp_mono (wp_reduceS hsc (fun i s t => sumSquares2Row A B α β big i s t)
    (fun s => s.Clean N) (fun _ => by rw [hA.dim]; exact Scr.clean_clearScr N) (fun i =>
    ∑ j ∈ Finset.range N,
        Spec.keep big (α * a i j + β * b i j) * Spec.keep big (α * a i j + β * b i j)) ?_) ?_
  · intro i s t h1 h2 hs
    exact wp_sumSquares2Row hA hB (by omega) α β big hs t
  · rintro ⟨s, t⟩ h
    simp only at h ⊢
    rw [h]; simp

/-! ## `bml_fnorm2` -/

theorem fnSearch_eq {B : Ell R} {M : Nat} (hM : B.M = M) (c i : Nat) :
    ∀ (fuel p : Nat) (cur : R),
      fnSearch M c i B.idx B.val p fuel cur = B.vecSearch i c p fuel cur := by
  intro fuel
  induction fuel with
  | zero => intros; rfl
  | succ fuel ih =>
    intro p cur
    simp only [fnSearch, vecSearch, ROWMAJOR, hM, ih]

theorem wp_fnorm2Row [DecidableEq R] {N i : Nat} {A B : Ell R} {a b : Spec.Mat R}
    (hA : A.Rep N a) (hB : B.Rep N b) (hM : A.M = B.M) (hi : i < N)
    (hne : A.nnz.get i = 0 ↔ B.nnz.get i = 0)
    (hnz : ∀ k, k < A.nnz.get i → A.val.get (i * A.M + k) ≠ 0) (rv fn : R) :
    (fnorm2Row A B i rv fn).wp E (fun st => st.2 = fn + ∑ j ∈ Finset.range N,
      (a i j - b i j) * (a i j - b i j)) := by
  unfold fnorm2Row
  have hiA : i < A.N := by rw [hA.dim]; exact hi
  have hiB : i < B.N := by rw [hB.dim]; exact hi
  have hgA := hA.good i hi
  have hgB := hB.good i hi
  have hleA := hA.le i hi
  have hleB := hB.le i hi
  rw [read_nnz hA.shape hiA, Res.bind_ok, read_nnz hB.shape hiB, Res.bind_ok, Res.wp_bind]
  have h1 : (loop (A.nnz.get i) (rv, fn) fun j (st : R × R) => do
      let c ← A.idx.read (ROWMAJOR i j A.N A.M)
      let rv ← fnSearch A.M c i B.idx B.val 0 (B.nnz.get i) st.1
      let v ← A.val.read (ROWMAJOR i j A.N A.M)
      pure (rv, st.2 + (v - rv) * (v - rv))).wp E (fun (st : R × R) =>
        st.2 = fn + ((A.row i).map (fun p => (p.2 - b i p.1) * (p.2 - b i p.1))).sum) := by
    refine wp_loop' (fun n (st : R × R) =>
        st.2 = fn + ((A.rowPre i n).map (fun p => (p.2 - b i p.1) * (p.2 - b i p.1))).sum)
        (by simp) ?_ (fun _ h => h)
    rintro n hn ⟨r, f⟩ g
    simp only at g
    subst g
    have hk := idx_lt hgA hn
    rw [read_idx hA.shape hiA (by omega), Res.bind_ok, fnSearch_eq hM.symm,
      vecSearch_den hB hi hk (fun h => by rw [hne.2 h] at hn; omega), Res.bind_ok,
      read_val hA.shape hiA (by omega), Res.bind_ok]
    simp [rowPre_succ, add_assoc]
  refine Res.wp_mono h1 ?_
  rintro ⟨r, f⟩ g
  simp only at g
  subst g
  simp only
  refine wp_loop' (fun n (st : R × R) =>
        st.2 = fn + ((A.row i).map (fun p => (p.2 - b i p.1) * (p.2 - b i p.1))).sum +
          ((B.rowPre i n).map (fun p => if a i p.1 = 0 then p.2 * p.2 else 0)).sum)
        (by simp) ?_ ?_
  · rintro n hn ⟨r, f⟩ g
    simp only at g
    subst g
    have hk := idx_lt hgB hn
    have e : ROWMAJOR i n A.N A.M = ROWMAJOR i n B.N B.M := by simp [ROWMAJOR, hM]
    rw [e, read_idx hB.shape hiB (by omega), Res.bind_ok, fnSearch_eq rfl,
      vecSearch_den hA hi hk (fun h => by rw [hne.1 h] at hn; omega), Res.bind_ok,
      read_val hB.shape hiB (by omega), Res.bind_ok]
    simp only [Res.pure_eq, Res.wp_ok, rowPre_succ, List.map_append, List.sum_append,
      List.map_cons, List.map_nil, List.sum_cons, List.sum_nil, add_zero]
    split <;> simp [add_assoc]
  · rintro ⟨r, f⟩ g
    simp only at g ⊢
    have e1 : (A.row i).map (fun p => (p.2 - b i p.1) * (p.2 - b i p.1))
        = (A.row i).map (fun p => if p.2 = 0 then 0 else (p.2 - b i p.1) * (p.2 - b i p.1)) := by
      apply List.map_congr_left
      intro p hp
      obtain ⟨k, hk, rfl⟩ := mem_rowPre.1 hp
      rw [if_neg (hnz k hk)]
    have e2 := SRow.sum_den_map hgA (fun k v => if v = 0 then 0 else (v - b i k) * (v - b i k))
      (by simp)
    have e3 := SRow.sum_den_map hgB (fun k v => if a i k = 0 then v * v else 0) (by simp)
    rw [g, e1, ← e2, show B.rowPre i (B.nnz.get i) = B.row i from rfl, ← e3, add_assoc,
      ← Finset.sum_add_distrib]
    congr 1
    apply Finset.sum_congr rfl
    intro j hj
    have hj : j < N := by simpa using hj
    rw [hA.den i j hi hj, hB.den i j hi hj]
    by_cases h : a i j = 0 <;> simp [h]

theorem wp_fnorm2Sq [DecidableEq R] {N lo hi : Nat} {A B : Ell R} {a b : Spec.Mat R}
    (hA : A.Rep N a) (hB : B.Rep N b) (hM : A.M = B.M) {sc : Sched} (hsc : IsSched lo hi sc)
    (hhi : hi ≤ N) (hne : ∀ i, lo ≤ i → i < hi → (A.nnz.get i = 0 ↔ B.nnz.get i = 0))
    (hnz : ∀ i, lo ≤ i → i < hi → ∀ k, k < A.nnz.get i → A.val.get (i * A.M + k) ≠ 0)
    (junk : Nat → R) :
    (fnorm2Sq A B sc junk).wp E (fun t => t = ∑ i ∈ Finset.Ico lo hi,
      ∑ j ∈ Finset.range N, (a i j - b i j) * (a i j - b i j)) := by
  unfold fnorm2Sq
  rw [Res.wp_bind]
  refine Res.wp_mono (wp_reduceS hsc (fun i s t => fnorm2Row A B i s t)
    (fun _ => True) (fun _ => trivial) (fun i => ∑ j ∈ Finset.range N,
      (a i j - b i j) * (a i j - b i j)) ?_) ?_
  · intro i s t h1 h2 _
    refine Res.wp_mono (wp_fnorm2Row hA hB hM (by omega) (hne i h1 h2) (hnz i h1 h2) s t) ?_
    intro st h
    exact ⟨trivial, h⟩
  · rintro ⟨s, t⟩ h
    simp only at h ⊢
    rw [h]; simp

end Ell

end Bml
