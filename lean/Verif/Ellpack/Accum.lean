import Verif.Ellpack.Rep

/-!
# Correctness of the accumulator used by the sparse kernels
-/

set_option linter.unusedSectionVars false

namespace Bml

namespace Scr

variable {R : Type}

/-- The touched columns, in order of first touch. -/
def cols (s : Scr R) (l : Nat) : List Nat := (List.range l).map s.jx.get

@[simp] theorem cols_length (s : Scr R) (l : Nat) : (s.cols l).length = l := by simp [cols]

theorem cols_succ (s : Scr R) (l : Nat) : s.cols (l + 1) = s.cols l ++ [s.jx.get l] := by
  simp [cols, List.range_succ]

/-- All scratch arrays have length `N` and no column is marked. -/
structure Clean (N : Nat) (s : Scr R) : Prop where
  szx : s.x.size = N
  szi : s.ix.size = N
  szj : s.jx.size = N
  mark : ∀ k, k < N → s.ix.get k = 0

/-- The accumulator holds the row vector `f`, of which the columns `cols s l` have been
touched. -/
structure Holds [Zero R] (N : Nat) (s : Scr R) (l : Nat) (f : Nat → R) : Prop where
  szx : s.x.size = N
  szi : s.ix.size = N
  szj : s.jx.size = N
  nodup : (s.cols l).Nodup
  lt : ∀ k ∈ s.cols l, k < N
  mark : ∀ k, k < N → (s.ix.get k = 0 ↔ k ∉ s.cols l)
  val : ∀ k ∈ s.cols l, s.x.get k = f k
  out : ∀ k, k ∉ s.cols l → f k = 0

variable [Zero R]

theorem Clean.holds {N : Nat} {s : Scr R} (h : s.Clean N) : s.Holds N 0 (fun _ => 0) :=
  ⟨h.szx, h.szi, h.szj, by simp [cols], by simp [cols], fun k hk => by simp [cols, h.mark k hk],
    by simp [cols], fun _ _ => rfl⟩

theorem Holds.congr {N : Nat} {s : Scr R} {l : Nat} {f g : Nat → R} (h : s.Holds N l f)
    (hfg : ∀ k, f k = g k) : s.Holds N l g := by
  have : f = g := funext hfg
  subst this; exact h

theorem Holds.lt_of_not_mem {N : Nat} {s : Scr R} {l : Nat} {f : Nat → R} (h : s.Holds N l f)
    {k : Nat} (hk : k < N) (hn : k ∉ s.cols l) : l < N := by
  have h1 : (s.cols l ++ [k]).Nodup := by
    rw [List.nodup_append]
    refine ⟨h.nodup, by simp, ?_⟩
    intro a ha b hb
    simp at hb; subst hb
    rintro rfl; exact hn ha
  have h2 : (s.cols l ++ [k]).toFinset ⊆ Finset.range N := by
    intro a ha
    simp only [List.toFinset_append, Finset.mem_union, List.mem_toFinset] at ha
    rcases ha with ha | ha
    · simpa using h.lt a ha
    · simp at ha; subst ha; simpa using hk
  have h3 := Finset.card_le_card h2
  rw [List.toFinset_card_of_nodup h1] at h3
  simp at h3
  omega

theorem clean_clearScr (N : Nat) : (Ell.clearScr N : Scr R).Clean N :=
  ⟨rfl, rfl, rfl, fun _ _ => rfl⟩

end Scr

namespace Ell

variable {R : Type} {E : Prop}

open Scr

/-- The accumulator without any law of arithmetic: the cell of column `k` becomes what it was
plus `v`. -/
theorem wp_accum_raw [Zero R] [Add R] {N : Nat} {s : Scr R} {l : Nat} {f : Nat → R} (h : s.Holds N l f)
    {mark k : Nat} (hm : mark ≠ 0) (hk : k < N) (v : R) :
    (accum mark k v (s, l)).wp E (fun st =>
      st.1.Holds N st.2 (upd f k (f k + v)) ∧
      st.1.cols st.2 = if k ∈ s.cols l then s.cols l else s.cols l ++ [k]) := by
  unfold accum
  have hix : k < s.ix.size := by rw [h.szi]; exact hk
  have hx : k < s.x.size := by rw [h.szx]; exact hk
  by_cases hmem : k ∈ s.cols l
  · have ht : s.ix.get k ≠ 0 := fun e => ((h.mark k hk).1 e) hmem
    simp only [Res.wp_bind, Arr.wp_read, Arr.wp_write, if_neg ht, Res.wp_ok, Res.pure_eq,
      hix, hx, true_and]
    refine ⟨⟨h.szx, h.szi, h.szj, h.nodup, h.lt, h.mark, ?_, ?_⟩, ?_⟩
    · intro j hj
      by_cases hjk : k = j
      · subst hjk; simp [h.val k hj]
      · simp [upd_ne _ _ (Ne.symm hjk), h.val j hj]
    · intro j hj
      have : k ≠ j := by
        rintro rfl; exact hj hmem
      rw [upd_ne _ _ (Ne.symm this), h.out j hj]
    · rw [if_pos hmem]; rfl
  · have ht : s.ix.get k = 0 := (h.mark k hk).2 hmem
    have hl : l < s.jx.size := by rw [h.szj]; exact h.lt_of_not_mem hk hmem
    have hcols : (List.range l).map (upd s.jx.get l k) = s.cols l := by
      unfold cols
      apply List.map_congr_left
      intro q hq
      have : q < l := by simpa using hq
      exact upd_ne _ _ (by omega)
    simp only [Res.wp_bind, Arr.wp_read, Arr.wp_write, if_pos ht, Res.wp_ok, Res.pure_eq,
      hix, hx, hl, true_and]
    have hc : (Scr.mk ⟨s.x.size, upd (upd s.x.get k 0) k (upd s.x.get k 0 k + v)⟩
        ⟨s.ix.size, upd s.ix.get k mark⟩ ⟨s.jx.size, upd s.jx.get l k⟩).cols (l + 1)
        = s.cols l ++ [k] := by
      rw [cols_succ]
      simp only [upd_same]
      congr 1
    refine ⟨⟨h.szx, h.szi, h.szj, ?_, ?_, ?_, ?_, ?_⟩, ?_⟩
    · rw [hc, List.nodup_append]
      refine ⟨h.nodup, by simp, ?_⟩
      intro a ha b hb
      simp at hb; subst hb
      rintro rfl; exact hmem ha
    · rw [hc]; intro a ha
      rcases List.mem_append.1 ha with ha | ha
      · exact h.lt a ha
      · simp at ha; subst ha; exact hk
    · intro j hj
      rw [hc]
      by_cases hjk : j = k
      · subst hjk; simp [hm]
      · simp [upd_ne _ _ hjk, h.mark j hj, hjk]
    · rw [hc]; intro j hj
      by_cases hjk : j = k
      · subst hjk; simp [h.out j hmem]
      · have : j ∈ s.cols l := by simpa [hjk] using hj
        simp [upd_ne _ _ hjk, h.val j this]
    · rw [hc]; intro j hj
      simp only [List.mem_append, List.mem_singleton, not_or] at hj
      rw [upd_ne _ _ hj.2, h.out j hj.1]
    · rw [hc, if_neg hmem]

section
variable [CommRing R]

theorem wp_accum {N : Nat} {s : Scr R} {l : Nat} {f : Nat → R} (h : s.Holds N l f)
    {mark k : Nat} (hm : mark ≠ 0) (hk : k < N) (v : R) :
    (accum mark k v (s, l)).wp E (fun st =>
      st.1.Holds N st.2 (fun j => f j + if k = j then v else 0) ∧
      st.1.cols st.2 = if k ∈ s.cols l then s.cols l else s.cols l ++ [k]) := by
  refine Res.wp_mono (wp_accum_raw h hm hk v) ?_
  rintro ⟨s', l'⟩ ⟨h1, h2⟩
  refine ⟨h1.congr ?_, h2⟩
  intro j
  by_cases hjk : k = j
  · subst hjk; simp
  · simp [upd_ne _ _ (Ne.symm hjk), hjk]

/-- Accumulating a whole row. -/
theorem wp_accumRow {N : Nat} {A : Ell R} (hs : A.Shape) {i : Nat} (hi : i < A.N)
    (hle : A.nnz.get i ≤ A.M) (hlt : ∀ p ∈ A.row i, p.1 < N)
    {s : Scr R} {l : Nat} {f : Nat → R} (h : s.Holds N l f)
    {mark : Nat} (hm : mark ≠ 0) (α : R) :
    (accumRow A i mark α (s, l)).wp E (fun st =>
      st.1.Holds N st.2 (fun j => f j + α * (A.row i).den j) ∧
      ∀ j, j ∈ st.1.cols st.2 ↔ (j ∈ s.cols l ∨ j ∈ (A.row i).map Prod.fst)) := by
  unfold accumRow
  rw [read_nnz hs hi, Res.bind_ok]
  refine wp_loop' (fun n st => st.1.Holds N st.2 (fun j => f j + α * (A.rowPre i n).den j) ∧
      ∀ j, j ∈ st.1.cols st.2 ↔ (j ∈ s.cols l ∨ j ∈ (A.rowPre i n).map Prod.fst)) ?_ ?_ ?_
  · refine ⟨h.congr (by simp), by simp⟩
  · rintro k hk ⟨s', l'⟩ ⟨hH, hC⟩
    rw [read_idx hs hi (by omega), Res.bind_ok, read_val hs hi (by omega), Res.bind_ok]
    have hlt' : A.idx.get (i * A.M + k) < N :=
      hlt _ (mem_rowPre.2 ⟨k, hk, rfl⟩)
    refine Res.wp_mono (wp_accum hH hm hlt' _) ?_
    rintro ⟨s2, l2⟩ ⟨h2, c2⟩
    refine ⟨h2.congr ?_, ?_⟩
    · intro j
      simp only [rowPre_succ, SRow.den_append, SRow.den_cons, SRow.den_nil, add_zero]
      split <;> ring
    · intro j
      rw [c2]
      simp only [rowPre_succ, List.map_append, List.map_cons, List.map_nil, List.mem_append,
        List.mem_singleton]
      simp only at hC
      split
      · next hmem =>
        rw [hC j]
        constructor
        · rintro (h | h)
          · exact Or.inl h
          · exact Or.inr (Or.inl h)
        · rintro (h | h | h)
          · exact Or.inl h
          · exact Or.inr h
          · subst h; exact (hC _).1 hmem
      · rw [List.mem_append, List.mem_singleton, hC j, or_assoc]
  · intro st hst; exact hst

end

/-- Compaction: the entries that pass the test, in order of first touch. -/
theorem wp_flush [Zero R] {N : Nat} {C : Ell R} (hs : C.Shape) {i : Nat} (hi : i < C.N)
    {s : Scr R} {l : Nat} {f : Nat → R} (h : s.Holds N l f) (test : Nat → R → Bool)
    (hfit : ((s.cols l).filter (fun j => test j (f j))).length ≤ C.M) :
    (flush C i test s l).wp E (fun st =>
      st.1.Shape ∧ st.1.N = C.N ∧ st.1.M = C.M ∧ st.1.nnz = C.nnz ∧
      (∀ i' m, i' ≠ i → m ≤ C.M → st.1.rowPre i' m = C.rowPre i' m) ∧
      st.1.rowPre i st.2.2 = SRow.ofCols ((s.cols l).filter (fun j => test j (f j))) f ∧
      st.2.2 = ((s.cols l).filter (fun j => test j (f j))).length ∧
      st.2.1.Clean N) := by
  unfold flush
  refine wp_loop' (fun jp st =>
      st.1.Shape ∧ st.1.N = C.N ∧ st.1.M = C.M ∧ st.1.nnz = C.nnz ∧
      (∀ i' m, i' ≠ i → m ≤ C.M → st.1.rowPre i' m = C.rowPre i' m) ∧
      st.1.rowPre i st.2.2 = SRow.ofCols ((s.cols jp).filter (fun j => test j (f j))) f ∧
      st.2.2 = ((s.cols jp).filter (fun j => test j (f j))).length ∧
      st.2.1.x.size = N ∧ st.2.1.ix.size = N ∧ st.2.1.jx = s.jx ∧
      (∀ k, k < N → k ∉ s.cols jp →
        st.2.1.ix.get k = s.ix.get k ∧ st.2.1.x.get k = s.x.get k) ∧
      (∀ k, k < N → k ∈ s.cols jp → st.2.1.ix.get k = 0)) ?_ ?_ ?_
  · refine ⟨hs, rfl, rfl, rfl, fun _ _ _ _ => rfl, by simp [SRow.ofCols, Scr.cols], ?_,
      h.szx, h.szi, rfl, fun _ _ _ => ⟨rfl, rfl⟩, ?_⟩
    · simp [Scr.cols]
    · simp [Scr.cols]
  · rintro jp hjp ⟨C', s', ll⟩ ⟨hS, hN, hM, hnn, hfr, hrow, hll, hx, hi', hj, hun, hcl⟩
    simp only at hS hN hM hnn hfr hrow hll hx hi' hj hun hcl ⊢
    have hsplit : s.cols l = s.cols jp ++ s.jx.get jp ::
        ((List.range (l - jp - 1)).map (fun q => s.jx.get (jp + 1 + q))) := by
      have : l = jp + (1 + (l - jp - 1)) := by omega
      unfold Scr.cols
      conv_lhs => rw [this, List.range_add, List.map_append, List.map_map, List.range_add,
        List.map_append, List.map_map]
      simp [Function.comp_def, Nat.add_assoc]
    have hmem : s.jx.get jp ∈ s.cols l := by rw [hsplit]; simp
    have hnot : s.jx.get jp ∉ s.cols jp := by
      have := h.nodup
      rw [hsplit, List.nodup_append] at this
      intro hm
      exact this.2.2 _ hm _ (by simp) rfl
    have hlt := h.lt _ hmem
    have hval : s'.x.get (s.jx.get jp) = f (s.jx.get jp) := by
      rw [(hun _ hlt hnot).2, h.val _ hmem]
    have hjps : jp < s'.jx.size := by
      rw [hj, h.szj]
      have hlen : (s.cols l).length ≤ N := by
        have h2 : (s.cols l).toFinset ⊆ Finset.range N := by
          intro a ha
          simp only [List.mem_toFinset] at ha
          simpa using h.lt a ha
        have h3 := Finset.card_le_card h2
        rw [List.toFinset_card_of_nodup h.nodup] at h3
        simpa using h3
      rw [cols_length] at hlen
      omega
    rw [Res.wp_bind, Arr.wp_read]
    refine ⟨hjps, ?_⟩
    rw [Res.wp_bind, Arr.wp_read]
    have hjx : s'.jx.get jp = s.jx.get jp := by rw [hj]
    rw [hjx]
    refine ⟨by rw [hx]; exact hlt, ?_⟩
    rw [hval]
    -- the part after the conditional store
    have tail : ∀ (C2 : Ell R) (ll2 : Nat), C2.Shape → C2.N = C.N → C2.M = C.M →
        C2.nnz = C.nnz → (∀ i' m, i' ≠ i → m ≤ C.M → C2.rowPre i' m = C.rowPre i' m) →
        C2.rowPre i ll2
          = SRow.ofCols ((s.cols (jp + 1)).filter (fun j => test j (f j))) f →
        ll2 = ((s.cols (jp + 1)).filter (fun j => test j (f j))).length →
        (do
          let x ← s'.x.write (s.jx.get jp) 0
          let ix ← s'.ix.write (s.jx.get jp) 0
          pure (C2, Scr.mk x ix s'.jx, ll2) : Res (Ell R × Scr R × Nat)).wp E (fun st =>
            st.1.Shape ∧ st.1.N = C.N ∧ st.1.M = C.M ∧ st.1.nnz = C.nnz ∧
            (∀ i' m, i' ≠ i → m ≤ C.M → st.1.rowPre i' m = C.rowPre i' m) ∧
            st.1.rowPre i st.2.2
              = SRow.ofCols ((s.cols (jp + 1)).filter (fun j => test j (f j))) f ∧
            st.2.2 = ((s.cols (jp + 1)).filter (fun j => test j (f j))).length ∧
            st.2.1.x.size = N ∧ st.2.1.ix.size = N ∧ st.2.1.jx = s.jx ∧
            (∀ k, k < N → k ∉ s.cols (jp + 1) →
              st.2.1.ix.get k = s.ix.get k ∧ st.2.1.x.get k = s.x.get k) ∧
            (∀ k, k < N → k ∈ s.cols (jp + 1) → st.2.1.ix.get k = 0)) := by
      intro C2 ll2 g1 g2 g3 g4 g5 g6 g7
      simp only [Res.wp_bind, Arr.wp_write, Res.pure_eq, Res.wp_ok, hx, hi', hlt, true_and]
      refine ⟨g1, g2, g3, g4, g5, g6, g7, hj, ?_, ?_⟩
      · intro k hk hkn
        rw [cols_succ, List.mem_append, List.mem_singleton, not_or] at hkn
        rw [upd_ne _ _ hkn.2, upd_ne _ _ hkn.2]
        exact hun k hk hkn.1
      · intro k hk hkm
        rw [cols_succ, List.mem_append, List.mem_singleton] at hkm
        by_cases he : k = s.jx.get jp
        · subst he; simp
        · rw [upd_ne _ _ he]
          exact hcl k hk (hkm.resolve_right he)
    by_cases ht : test (s.jx.get jp) (f (s.jx.get jp)) = true
    · have hfil : (s.cols (jp + 1)).filter (fun j => test j (f j))
          = (s.cols jp).filter (fun j => test j (f j)) ++ [s.jx.get jp] := by
        rw [cols_succ, List.filter_append]; simp [ht]
      have hcap : ll < C'.M := by
        have : ((s.cols (jp + 1)).filter (fun j => test j (f j))).length
            ≤ ((s.cols l).filter (fun j => test j (f j))).length := by
          apply List.Sublist.length_le
          apply List.Sublist.filter
          rw [hsplit, cols_succ]
          rw [show s.cols jp ++ s.jx.get jp :: (List.range (l - jp - 1)).map
              (fun q => s.jx.get (jp + 1 + q)) = (s.cols jp ++ [s.jx.get jp]) ++
              (List.range (l - jp - 1)).map (fun q => s.jx.get (jp + 1 + q)) by simp]
          exact List.sublist_append_left _ _
        rw [hfil] at this
        simp only [List.length_append, List.length_singleton] at this
        omega
      rw [if_pos ht, putEntry_eq hS _ _ (by omega) hcap]
      simp only [Res.bind_ok, Res.pure_eq]
      apply tail
      · exact hS.put _ _ _ _
      · exact hN
      · exact hM
      · exact hnn
      · intro i' m hne hm
        rw [put_rowPre _ hcap (by omega) (Or.inl hne), hfr i' m hne hm]
      · rw [put_rowPre_succ _ hcap, hrow, hfil, SRow.ofCols_append]; rfl
      · rw [hfil, hll]; simp
    · have hfil : (s.cols (jp + 1)).filter (fun j => test j (f j))
          = (s.cols jp).filter (fun j => test j (f j)) := by
        rw [cols_succ, List.filter_append]; simp [ht]
      rw [if_neg ht]
      simp only [Res.bind_ok, Res.pure_eq]
      apply tail
      · exact hS
      · exact hN
      · exact hM
      · exact hnn
      · exact hfr
      · rw [hfil]; exact hrow
      · rw [hfil]; exact hll
  · rintro ⟨C', s', ll⟩ ⟨hS, hN, hM, hnn, hfr, hrow, hll, hx, hi', hj, hun, hcl⟩
    refine ⟨hS, hN, hM, hnn, hfr, hrow, hll, hx, hi', ?_, ?_⟩
    · simp only at hj; rw [hj, h.szj]
    · intro k hk
      by_cases hkm : k ∈ s.cols l
      · exact hcl k hk hkm
      · exact (hun k hk hkm).1.trans ((h.mark k hk).2 hkm)

end Ell

end Bml
