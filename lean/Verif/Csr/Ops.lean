import Verif.Csr.Rep

/-!
# CSR: element access, constructors, copies, import and export, scaling, thresholds
-/

set_option linter.unusedSectionVars false

namespace Bml

/-- Scattering a row into an array: every entry arrives at its address, nothing else changes. -/
theorem wp_scatter {R : Type} {E : Prop} {L : SRow R} (hn : (L.map Prod.fst).Nodup)
    (addr : Nat → Nat) (hinj : ∀ p ∈ L, ∀ q ∈ L, addr p.1 = addr q.1 → p.1 = q.1) {D : Arr R}
    (hb : ∀ p ∈ L, addr p.1 < D.size) :
    (forList L D fun p D => D.write (addr p.1) p.2).wp E (fun D' => D'.size = D.size ∧
      (∀ p ∈ L, D'.get (addr p.1) = p.2) ∧
      ∀ q, (∀ p ∈ L, addr p.1 ≠ q) → D'.get q = D.get q) := by
  refine wp_forList (fun done D' => D'.size = D.size ∧
      (∀ p ∈ done, D'.get (addr p.1) = p.2) ∧
      ∀ q, (∀ p ∈ done, addr p.1 ≠ q) → D'.get q = D.get q) ?_ ?_ (fun _ h => h)
  · exact ⟨rfl, by simp, fun _ _ => rfl⟩
  · rintro pre p post hL D' ⟨h1, h2, h3⟩
    have hp : p ∈ L := by rw [hL]; simp
    rw [Arr.wp_write]
    refine ⟨by rw [h1]; exact hb p hp, h1, ?_, ?_⟩
    · intro q hq
      rcases List.mem_append.1 hq with hq | hq
      · have hqL : q ∈ L := by rw [hL]; simp [hq]
        have hne : addr q.1 ≠ addr p.1 := by
          intro he
          have he := hinj q hqL p hp he
          rw [hL, List.map_append, List.map_cons, List.nodup_append] at hn
          exact hn.2.2 q.1 (List.mem_map.2 ⟨q, hq, rfl⟩) p.1 (by simp) he
        simp only [upd_ne _ _ hne]
        exact h2 q hq
      · simp at hq; subst hq; simp
    · intro q hq
      have hne : q ≠ addr p.1 := fun he => hq p (by simp) he.symm
      simp only [upd_ne _ _ hne]
      exact h3 q (fun p' hp' => hq p' (by simp [hp']))

/-- Scattering into zeros. -/
theorem scatter_den {R : Type} [AddCommMonoid R] {N : Nat} {L : SRow R} (hg : SRow.Good N L)
    {addr : Nat → Nat} (hinj : ∀ j j', j < N → j' < N → addr j = addr j' → j = j') {D D' : Arr R}
    (h0 : ∀ j, j < N → D.get (addr j) = 0)
    (h2 : ∀ p ∈ L, D'.get (addr p.1) = p.2)
    (h3 : ∀ q, (∀ p ∈ L, addr p.1 ≠ q) → D'.get q = D.get q) {j : Nat} (hj : j < N) :
    D'.get (addr j) = L.den j := by
  by_cases hm : j ∈ L.map Prod.fst
  · obtain ⟨p, hp, rfl⟩ := List.mem_map.1 hm
    rw [h2 p hp, SRow.den_of_mem hg.1 hp]
  · rw [SRow.den_of_not_mem hm, h3 _ ?_, h0 j hj]
    intro p hp he
    exact hm (List.mem_map.2 ⟨p, hp, hinj _ _ (hg.2 p hp) hj he⟩)

namespace CsrRow

variable {R : Type} {E : Prop}

theorem rowSpace_ge (n : Nat) : n ≤ rowSpace n ∧ 10 ≤ rowSpace n := by
  unfold rowSpace initRowSpace; split <;> omega

theorem rowSpace_eq {n : Nat} (h : 10 ≤ n) : rowSpace n = n := by
  unfold rowSpace initRowSpace; split <;> omega

theorem noinit_is (alloc : Nat) (jv : Nat → R) (ji : Nat → Nat) : (noinit alloc jv ji).Is [] :=
  ⟨⟨rfl, rfl, Nat.zero_le _, (rowSpace_ge alloc).2⟩, rfl⟩

theorem zero_is [Zero R] (alloc : Nat) : (zero alloc : CsrRow R).Is [] :=
  ⟨⟨rfl, rfl, Nat.zero_le _, (rowSpace_ge alloc).2⟩, rfl⟩

theorem wp_clear [Zero R] {r : CsrRow R} {L : SRow R} (h : r.Is L) :
    r.clear.wp E (fun r' => r'.Is [] ∧ r'.alloc = r.alloc) := by
  unfold clear
  rw [Res.wp_bind]
  refine Res.wp_mono (wp_memset 0 (by rw [h.cols_size]; exact h.nnz_le)) ?_
  rintro c ⟨hc, -⟩
  rw [Res.wp_bind]
  refine Res.wp_mono (wp_memset 0 (by rw [h.vals_size]; exact h.nnz_le)) ?_
  rintro v ⟨hv, -⟩
  rw [Res.wp_pure]
  exact ⟨⟨⟨hc.trans h.cols_size, hv.trans h.vals_size, Nat.zero_le _, h.1.space⟩, rfl⟩, rfl⟩

/-- The two `memcpy` calls of a row copy. -/
theorem wp_copyCells {r b : CsrRow R} {L : SRow R} (h : r.Is L)
    (hc : b.cols.size = b.alloc) (hv : b.vals.size = b.alloc) (hs : 10 ≤ b.alloc)
    (hl : L.length ≤ b.alloc) :
    (do let cols ← copyRange r.cols 0 b.cols 0 r.nnz
        let vals ← copyRange r.vals 0 b.vals 0 r.nnz
        pure { b with cols := cols, vals := vals, nnz := r.nnz } : Res (CsrRow R)).wp E
      (fun r' => r'.Is L ∧ r'.alloc = b.alloc) := by
  have hn := h.length
  have hle := h.nnz_le
  rw [Res.wp_bind]
  refine Res.wp_mono (wp_copyRange (by rw [h.cols_size]; omega) (by omega)) ?_
  rintro c ⟨hc1, hc2⟩
  rw [Res.wp_bind]
  refine Res.wp_mono (wp_copyRange (by rw [h.vals_size]; omega) (by omega)) ?_
  rintro v ⟨hv1, hv2⟩
  rw [Res.wp_pure]
  refine ⟨⟨⟨hc1.trans hc, hv1.trans hv, by simp only; omega, hs⟩, ?_⟩, rfl⟩
  rw [← h.2, list_eq, list_eq]
  refine pre_congr (fun k hk => ?_)
  simp only at hk
  rw [hc2, hv2, if_pos (by omega), if_pos (by omega)]
  simp

theorem wp_copyNew {r : CsrRow R} {L : SRow R} (h : r.Is L) (jv : Nat → R) (ji : Nat → Nat) :
    (r.copyNew jv ji).wp E (fun r' => r'.Is L ∧ r'.alloc = r.alloc) := by
  unfold copyNew
  have hn := h.length
  have hle := h.nnz_le
  have hs := rowSpace_eq h.1.space
  refine Res.wp_mono (wp_copyCells (b := noinit r.alloc jv ji) h rfl rfl (rowSpace_ge _).2
    (by simp only [noinit]; omega)) ?_
  rintro r' ⟨h1, h2⟩
  exact ⟨h1, h2.trans hs⟩

theorem wp_copyInto {r b : CsrRow R} {L : SRow R} (h : r.Is L) (hb : b.WF) :
    (r.copyInto b).wp (b.alloc < L.length) (fun r' => r'.Is L ∧ r'.alloc = b.alloc) := by
  unfold copyInto
  rw [h.length]
  by_cases hl : b.alloc < L.length
  · rw [if_pos hl]; exact hl
  · rw [if_neg hl, ← h.length]
    exact wp_copyCells h hb.cols_size hb.vals_size hb.space (by omega)

theorem wp_scale [Mul R] {r : CsrRow R} {L : SRow R} (h : r.Is L) (a : R) :
    (r.scale a).wp E (fun r' => r'.Is (L.map fun p => (p.1, a * p.2)) ∧ r'.alloc = r.alloc) := by
  unfold scale
  have hle := h.nnz_le
  rw [Res.wp_bind]
  refine Res.wp_mono (wp_scal (by rw [h.vals_size]; omega)) ?_
  rintro v ⟨h1, h2⟩
  rw [Res.wp_pure]
  refine ⟨⟨⟨h.cols_size, h1.trans h.vals_size, hle, h.1.space⟩, ?_⟩, rfl⟩
  rw [← h.2]
  simp only [list, List.map_map]
  apply List.map_congr_left
  intro k hk
  have hk : k < r.nnz := by simpa using hk
  simp only [Function.comp]
  rw [h2, if_pos (by omega)]

theorem wp_threshold {r : CsrRow R} {L : SRow R} (h : r.Is L) (big : R → Bool) :
    (r.threshold big).wp E (fun r' => r'.Is (L.filter fun p => big p.2) ∧ r'.alloc = r.alloc) := by
  unfold threshold
  have hle := h.nnz_le
  have hcs := h.cols_size
  have hvs := h.vals_size
  rw [Res.wp_bind]
  refine wp_loop' (fun n (st : Arr Nat × Arr R × Nat) => st.1.size = r.alloc ∧
    st.2.1.size = r.alloc ∧ st.2.2 ≤ n ∧
    pre st.1.get st.2.1.get st.2.2 = (pre r.cols.get r.vals.get n).filter (fun p => big p.2) ∧
    ∀ k, n ≤ k → st.1.get k = r.cols.get k ∧ st.2.1.get k = r.vals.get k) ?_ ?_ ?_
  · exact ⟨hcs, hvs, le_refl _, rfl, fun _ _ => ⟨rfl, rfl⟩⟩
  · rintro n hn ⟨c, v, l⟩ ⟨g1, g2, g3, g4, g5⟩
    simp only at g1 g2 g3 g4 g5 ⊢
    obtain ⟨e1, e2⟩ := g5 n (le_refl _)
    rw [Arr.read_ok (by omega), Res.bind_ok, e2]
    rw [pre_succ, List.filter_append]
    by_cases hb : big (r.vals.get n) = true
    · rw [if_pos hb]
      by_cases hl : l < n
      · rw [if_pos hl]
        simp only [Res.wp_bind, Arr.wp_read, Arr.wp_write, Res.wp_pure]
        refine ⟨by omega, by omega, by omega, g1, g2, by omega, ?_, ?_⟩
        · rw [pre_upd, g4, e1]; simp [hb]
        · intro k hk
          rw [upd_ne _ _ (by omega), upd_ne _ _ (by omega)]
          exact g5 k (by omega)
      · have hln : l = n := by omega
        subst hln
        rw [if_neg hl]
        simp only [Res.wp_pure]
        refine ⟨g1, g2, by omega, ?_, fun k hk => g5 k (by omega)⟩
        rw [pre_succ, g4, e1, e2]; simp [hb]
    · rw [if_neg hb]
      simp only [Res.wp_pure]
      refine ⟨g1, g2, by omega, ?_, fun k hk => g5 k (by omega)⟩
      rw [g4]; simp [hb]
  · rintro ⟨c, v, l⟩ ⟨g1, g2, g3, g4, g5⟩
    simp only at g1 g2 g3 g4 g5
    simp only [Res.wp_pure]
    refine ⟨⟨⟨g1, g2, by simp only; omega, h.1.space⟩, ?_⟩, trivial⟩
    rw [list_eq]
    simp only
    rw [g4, ← list_eq, h.2]

theorem reserve_spec {r : CsrRow R} (h : r.WF) (count : Nat) :
    (r.reserve count).cols.size = (r.reserve count).alloc ∧
    (r.reserve count).vals.size = (r.reserve count).alloc ∧
    count ≤ (r.reserve count).alloc ∧ 10 ≤ (r.reserve count).alloc := by
  have := h.space
  have := h.cols_size
  have := h.vals_size
  unfold reserve
  split
  · refine ⟨rfl, rfl, le_refl _, ?_⟩; simp only; omega
  · refine ⟨by omega, by omega, by omega, by omega⟩

theorem wp_setAll {r : CsrRow R} (h : r.WF) {count : Nat} {nz : Arr Nat} {row : Arr R}
    (hc : count ≤ nz.size) (hr : ∀ k, k < count → nz.get k < row.size) :
    (r.setAll count nz row).wp E (fun r' =>
      r'.Is ((List.range count).map fun k => (nz.get k, row.get (nz.get k)))) := by
  obtain ⟨h1, h2, h3, h4⟩ := reserve_spec h count
  unfold setAll
  simp only
  rw [Res.wp_bind]
  refine wp_loop' (fun n (st : Arr Nat × Arr R) => st.1.size = (r.reserve count).alloc ∧
    st.2.size = (r.reserve count).alloc ∧
    pre st.1.get st.2.get n = (List.range n).map fun k => (nz.get k, row.get (nz.get k))) ?_ ?_ ?_
  · exact ⟨h1, h2, rfl⟩
  · rintro n hn ⟨c, v⟩ ⟨g1, g2, g3⟩
    simp only at g1 g2 g3
    simp only [Res.wp_bind, Arr.wp_read, Arr.wp_write, Res.wp_pure]
    refine ⟨by omega, by omega, hr n hn, by omega, g1, g2, ?_⟩
    rw [pre_upd, g3, List.range_succ, List.map_append]; rfl
  · rintro ⟨c, v⟩ ⟨g1, g2, g3⟩
    simp only at g1 g2 g3
    rw [Res.wp_pure]
    exact ⟨⟨g1, g2, h3, h4⟩, g3⟩

theorem wp_setSparse {r : CsrRow R} (h : r.WF) {count : Nat} {cols : Arr Nat} {vals : Arr R}
    (hc : count ≤ cols.size) (hv : count ≤ vals.size) (big : R → Bool) :
    (r.setSparse count cols vals big).wp E (fun r' =>
      r'.Is ((pre cols.get vals.get count).filter fun p => big p.2)) := by
  obtain ⟨h1, h2, h3, h4⟩ := reserve_spec h count
  unfold setSparse
  simp only
  refine wp_loop' (fun n (r' : CsrRow R) => r'.nnz ≤ n ∧ r'.alloc = (r.reserve count).alloc ∧
    r'.Is ((pre cols.get vals.get n).filter fun p => big p.2)) ?_ ?_ (fun _ h => h.2.2)
  · exact ⟨le_refl _, rfl, ⟨h1, h2, Nat.zero_le _, h4⟩, rfl⟩
  · rintro n hn r' ⟨g1, g2, g3⟩
    have e1 := g3.cols_size
    have e2 := g3.vals_size
    rw [Arr.read_ok (by omega), Res.bind_ok, pre_succ, List.filter_append]
    by_cases hb : big (vals.get n) = true
    · rw [if_pos hb]
      simp only [Res.wp_bind, Arr.wp_read, Arr.wp_write, Res.wp_pure]
      refine ⟨by omega, by omega, by omega, by omega, g2, ⟨e1, e2, by simp only; omega,
        g3.1.space⟩, ?_⟩
      rw [list_eq]
      simp only
      rw [pre_upd, ← list_eq, g3.2]
      simp [hb]
    · rw [if_neg hb, Res.wp_pure]
      refine ⟨by omega, g2, ?_⟩
      simpa [hb] using g3

variable [CommRing R]

theorem Holds.of_nil {r : CsrRow R} {N : Nat} (h : r.Is []) : r.Holds N (fun _ => 0) :=
  h.holds (SRow.good_nil N) (fun _ _ => rfl)

theorem Holds.scale {r r' : CsrRow R} {N : Nat} {g : Nat → R} {a : R} (h : r.Holds N g)
    (hr : r'.Is (r.list.map fun p => (p.1, a * p.2))) : r'.Holds N (fun j => a * g j) :=
  hr.holds (h.2.1.map_snd (fun p => a * p.2))
    (fun j hj => by rw [SRow.den_map_mul, h.2.2 j hj])

theorem Holds.filter {r r' : CsrRow R} {N : Nat} {g : Nat → R} {big : R → Bool} (h : r.Holds N g)
    (hr : r'.Is (r.list.filter fun p => big p.2)) : r'.Holds N (fun j => Spec.keep big (g j)) :=
  hr.holds (h.2.1.sublist List.filter_sublist)
    (fun j hj => by rw [SRow.den_filter_keep h.2.1.1, h.2.2 j hj])

end CsrRow

namespace Csr

variable {R : Type} [CommRing R] {E : Prop}

/-! ## Element access -/

theorem wp_onRow_rep {A : Csr R} {N i : Nat} {a : Spec.Mat R} {g : Nat → R} (hA : A.Rep N a)
    (hi : i < N) {f : CsrRow R → Res (CsrRow R)}
    (hf : (f (A.data.get i)).wp E (fun r => r.Holds N g)) :
    (A.onRow i f).wp E (fun A' => A'.M = A.M ∧
      A'.Rep N (fun i' j => if i' = i then g j else a i' j)) := by
  refine Res.wp_mono (wp_onRow (by rw [hA.size]; exact hi) hf) ?_
  rintro A' ⟨h1, h2, h3, h4, h5⟩
  refine ⟨h2, h1.trans hA.dim, h3.trans hA.size, ?_⟩
  intro k hk
  by_cases he : k = i
  · subst he; simpa using h4
  · rw [h5 k he]; simpa [he] using hA.holds k hk

theorem wp_setElement {A : Csr R} {N i j : Nat} {a : Spec.Mat R} (hA : A.Rep N a) (hi : i < N)
    (hj : j < N) (v : R) :
    (A.setElement i j v).wp E (fun A' => A'.M = A.M ∧ A'.Rep N (Spec.set a i j v)) := by
  unfold setElement
  refine Res.wp_mono (wp_onRow_rep hA hi (CsrRow.wp_set_holds (hA.holds i hi) hj v)) ?_
  rintro A' ⟨h1, h2⟩
  refine ⟨h1, h2.congr (fun i' j' _ _ => ?_)⟩
  unfold Spec.set
  by_cases hi' : i' = i <;> by_cases hj' : j' = j <;> simp [hi', hj']

theorem wp_setElementNew {A : Csr R} {N i j : Nat} {a : Spec.Mat R} (hA : A.Rep N a) (hi : i < N)
    (hj : j < N) (hn : ¬ A.Stored i j) (v : R) :
    (A.setElementNew i j v).wp E (fun A' => A'.M = A.M ∧ A'.Rep N (Spec.set a i j v)) := by
  unfold setElementNew
  refine Res.wp_mono (wp_onRow_rep hA hi (CsrRow.wp_setNew_holds (hA.holds i hi) hj
    (fun h => hn (stored_iff.2 h)) v)) ?_
  rintro A' ⟨h1, h2⟩
  refine ⟨h1, h2.congr (fun i' j' _ _ => ?_)⟩
  unfold Spec.set
  by_cases hi' : i' = i <;> by_cases hj' : j' = j <;> simp [hi', hj']

omit [CommRing R] in
/-- The columns above threshold, in increasing order. -/
theorem wp_bigCols {N : Nat} {row : Arr R} (hr : N ≤ row.size) (big : R → Bool)
    (junk : Nat → Nat) :
    (loop N ((⟨N, junk⟩ : Arr Nat), 0) fun j st => do
      let v ← row.read j
      if big v then do
        let cols ← st.1.write st.2 j
        pure (cols, st.2 + 1)
      else pure st).wp E (fun st => st.1.size = N ∧ st.2 ≤ N ∧
        (List.range st.2).map st.1.get = (List.range N).filter fun j => big (row.get j)) := by
  refine wp_loop' (fun n (st : Arr Nat × Nat) => st.1.size = N ∧ st.2 ≤ n ∧
        (List.range st.2).map st.1.get = (List.range n).filter fun j => big (row.get j)) ?_ ?_
        (fun _ h => h)
  · exact ⟨rfl, le_refl _, rfl⟩
  · rintro n hn ⟨c, l⟩ ⟨g1, g2, g3⟩
    simp only at g1 g2 g3
    rw [Arr.read_ok (by omega), Res.bind_ok, List.range_succ, List.filter_append]
    by_cases hb : big (row.get n) = true
    · rw [if_pos hb]
      simp only [Res.wp_bind, Arr.wp_write, Res.wp_pure]
      refine ⟨by omega, g1, by omega, ?_⟩
      rw [List.range_succ, List.map_append, ← g3]
      congr 1
      · apply List.map_congr_left
        intro k hk
        exact upd_ne _ _ (by have : k < l := by simpa using hk
                             omega)
      · simp [hb]
    · rw [if_neg hb, Res.wp_pure]
      refine ⟨g1, by simp only; omega, ?_⟩
      simp [hb, g3]

theorem wp_setRow {A : Csr R} {N i : Nat} {a : Spec.Mat R} (hA : A.Rep N a) (hi : i < N)
    {row : Arr R} (hr : N ≤ row.size) (big : R → Bool) (junk : Nat → Nat) :
    (A.setRow i row big junk).wp E (fun A' => A'.M = A.M ∧
      A'.Rep N (fun i' j => if i' = i then Spec.keep big (row.get j) else a i' j)) := by
  unfold setRow
  refine wp_onRow_rep (g := fun j => Spec.keep big (row.get j)) hA hi ?_
  rw [hA.dim, Res.wp_bind]
  refine Res.wp_mono (wp_bigCols hr big junk) ?_
  rintro ⟨c, l⟩ ⟨g1, g2, g3⟩
  simp only at g1 g2 g3
  simp only
  have hw := (hA.holds i hi).1
  have hmem : ∀ k, k < l → c.get k < N ∧ big (row.get (c.get k)) = true := by
    intro k hk
    have : c.get k ∈ (List.range l).map c.get := List.mem_map.2 ⟨k, by simpa using hk, rfl⟩
    rw [g3] at this
    simpa using this
  refine Res.wp_mono (CsrRow.wp_setAll (r := { A.data.get i with nnz := 0 })
    ⟨hw.cols_size, hw.vals_size, Nat.zero_le _, hw.space⟩ (by omega)
    (fun k hk => by have := (hmem k hk).1; omega)) ?_
  intro r hr'
  have e : ((List.range l).map fun k => (c.get k, row.get (c.get k))) =
      SRow.ofCols ((List.range N).filter fun j => big (row.get j)) row.get := by
    rw [← g3]; simp [SRow.ofCols, Function.comp_def]
  rw [e] at hr'
  have hnd : ((List.range N).filter fun j => big (row.get j)).Nodup := List.nodup_range.filter _
  refine hr'.holds (SRow.good_ofCols hnd (fun j hj => by
    simp only [List.mem_filter, List.mem_range] at hj; exact hj.1)) ?_
  intro j hj
  rw [SRow.den_ofCols _ hnd]
  unfold Spec.keep
  by_cases hb : big (row.get j) = true <;> simp [hb, hj]

theorem wp_setDiagonal {A : Csr R} {N : Nat} {a : Spec.Mat R} (hA : A.Rep N a) {diag : Arr R}
    (hd : N ≤ diag.size) (big : R → Bool) :
    (A.setDiagonal diag big).wp E (fun A' => A'.M = A.M ∧
      A'.Rep N (fun i j => if i = j then Spec.keep big (diag.get i) else a i j)) := by
  unfold setDiagonal
  rw [hA.dim]
  refine wp_loop' (fun n (A' : Csr R) => A'.M = A.M ∧
    A'.Rep N (fun i j => if i = j ∧ i < n then Spec.keep big (diag.get i) else a i j)) ?_ ?_ ?_
  · exact ⟨rfl, hA.congr (fun i j _ _ => by simp)⟩
  · rintro n hn A' ⟨h1, h2⟩
    rw [Arr.read_ok (by omega), Res.bind_ok]
    refine Res.wp_mono (wp_onRow_rep h2 hn (CsrRow.wp_set_holds (h2.holds n hn) hn _)) ?_
    rintro A2 ⟨k1, k2⟩
    refine ⟨k1.trans h1, k2.congr ?_⟩
    intro i j hi hj
    unfold Spec.keep
    simp only
    by_cases e1 : i = n
    · subst e1
      by_cases e2 : j = i
      · subst e2; simp
      · simp [e2, Ne.symm e2]
    · rw [if_neg e1]
      by_cases e2 : i = j ∧ i < n
      · rw [if_pos e2, if_pos (show i = j ∧ i < n + 1 by omega)]
      · rw [if_neg e2, if_neg (by omega)]
  · rintro A' ⟨h1, h2⟩
    refine ⟨h1, h2.congr ?_⟩
    intro i j hi hj
    simp [hi]

theorem wp_setSparseRow {A : Csr R} {N i : Nat} {a : Spec.Mat R} (hA : A.Rep N a) (hi : i < N)
    {count : Nat} {cols : Arr Nat} {vals : Arr R} (hc : count ≤ cols.size) (hv : count ≤ vals.size)
    (big : R → Bool)
    (hlt : ∀ k, k < count → big (vals.get k) = true → cols.get k < N)
    (hnd : ∀ k k', k < count → k' < count → big (vals.get k) = true → big (vals.get k') = true →
      cols.get k = cols.get k' → k = k') :
    (A.setSparseRow i count cols vals big).wp E (fun A' => A'.M = A.M ∧
      A'.Rep N (fun i' j => if i' = i then
        SRow.den ((CsrRow.pre cols.get vals.get count).filter fun p => big p.2) j else a i' j)) := by
  unfold setSparseRow
  refine wp_onRow_rep
    (g := fun j => SRow.den ((CsrRow.pre cols.get vals.get count).filter fun p => big p.2) j) hA hi ?_
  refine Res.wp_mono (CsrRow.wp_setSparse (hA.holds i hi).1 hc hv big) ?_
  intro r hr
  refine hr.holds ⟨?_, ?_⟩ (fun _ _ => rfl)
  · unfold CsrRow.pre
    rw [List.filter_map, List.map_map]
    refine List.Nodup.map_on ?_ (List.nodup_range.filter _)
    intro k hk k' hk' he
    simp only [List.mem_filter, List.mem_range, Function.comp] at hk hk'
    exact hnd k k' hk.1 hk'.1 hk.2 hk'.2 he
  · intro p hp
    simp only [CsrRow.pre, List.mem_filter, List.mem_map, List.mem_range] at hp
    obtain ⟨⟨k, hk, rfl⟩, hb⟩ := hp
    exact hlt k hk hb

theorem getElement_out {A : Csr R} {N : Nat} {a : Spec.Mat R} (h : A.Rep N a) (i j : Int) :
    (i < 0 ∨ (N : Int) ≤ i → A.getElement i j = .error) ∧
    (0 ≤ i → i < N → j < 0 → A.getElement i j = .error) ∧
    (0 ≤ i → i < N → (N : Int) ≤ j → A.getElement i j = .ok 0) := by
  refine ⟨?_, ?_, ?_⟩
  · intro hi
    unfold getElement
    rw [if_pos (by rw [h.dim]; omega)]
  · intro h1 h2 hj
    unfold getElement
    rw [if_neg (by rw [h.dim]; omega), h.read (by omega), Res.bind_ok]
    unfold CsrRow.get
    rw [if_pos hj]
  · intro h1 h2 hj
    unfold getElement
    rw [if_neg (by rw [h.dim]; omega), h.read (by omega), Res.bind_ok]
    have := CsrRow.get_out (h.holds i.toNat (by omega)) (j := j.toNat) (by omega)
    rwa [Int.toNat_of_nonneg (by omega)] at this

theorem wp_getRow {A : Csr R} {N i : Nat} {a : Spec.Mat R} (hA : A.Rep N a) (hi : i < N) :
    (A.getRow i).wp E (fun row => row.size = N ∧ ∀ j, j < N → row.get j = a i j) := by
  unfold getRow
  rw [hA.read hi, Res.bind_ok, (hA.is hi).fold, hA.dim]
  have hg := hA.good hi
  refine Res.wp_mono (wp_scatter hg.1 id (fun _ _ _ _ h => h) (fun p hp => hg.2 p hp)) ?_
  rintro D ⟨h1, h2, h3⟩
  refine ⟨h1, fun j hj => ?_⟩
  rw [← hA.den hi hj]
  exact scatter_den (addr := id) hg (fun _ _ _ _ h => h) (fun _ _ => rfl) h2 h3 hj

theorem wp_getSparseRow {A : Csr R} {N i : Nat} {a : Spec.Mat R} (hA : A.Rep N a) (hi : i < N)
    (jv : Nat → R) (ji : Nat → Nat) :
    (A.getSparseRow i jv ji).wp E (fun st => st.1.size = st.2.2 ∧ st.2.1.size = st.2.2 ∧
      CsrRow.pre st.1.get st.2.1.get st.2.2 = A.row i) := by
  unfold getSparseRow
  have h := hA.is hi
  have hle := h.nnz_le
  rw [hA.read hi, Res.bind_ok, Res.wp_bind]
  refine Res.wp_mono (wp_copyRange (by rw [h.cols_size]; omega) (by simp)) ?_
  rintro c ⟨hc1, hc2⟩
  rw [Res.wp_bind]
  refine Res.wp_mono (wp_copyRange (by rw [h.vals_size]; omega) (by simp)) ?_
  rintro v ⟨hv1, hv2⟩
  rw [Res.wp_pure]
  refine ⟨hc1, hv1, ?_⟩
  show _ = (A.data.get i).list
  rw [CsrRow.list_eq]
  refine CsrRow.pre_congr (fun k hk => ?_)
  simp only at hk
  rw [hc2, hv2, if_pos (by omega), if_pos (by omega)]
  simp

theorem wp_getDiagonal {A : Csr R} {N : Nat} {a : Spec.Mat R} (hA : A.Rep N a) :
    A.getDiagonal.wp E (fun d => d.size = N ∧ ∀ i, i < N → d.get i = a i i) := by
  unfold getDiagonal
  rw [hA.dim]
  refine wp_loop' (fun n (d : Arr R) => d.size = N ∧ ∀ i, i < n → d.get i = a i i) ?_ ?_
    (fun _ h => h)
  · exact ⟨rfl, fun i hi => by omega⟩
  · rintro n hn d ⟨h1, h2⟩
    rw [hA.read hn, Res.bind_ok, CsrRow.get_eq (hA.holds n hn) hn, Res.bind_ok, Arr.wp_write]
    refine ⟨by omega, h1, fun i hi => ?_⟩
    simp only
    by_cases he : i = n
    · subst he; simp
    · rw [upd_ne _ _ he]; exact h2 i (by omega)

/-! ## Constructors -/

theorem wp_clear {A : Csr R} {N : Nat} {a : Spec.Mat R} (hA : A.Rep N a) {sc : Sched}
    (hsc : IsSched 0 N sc) :
    (A.clear sc).wp E (fun A' => A'.M = A.M ∧ A'.Rep N Spec.zero) :=
  wp_forRows_rep hsc hA (fun i r _ hr =>
    Res.wp_mono (CsrRow.wp_clear hr.is) (fun _ h => CsrRow.Holds.of_nil h.1))

theorem rep_noinit (N M : Nat) (jv : Nat → Nat → R) (ji : Nat → Nat → Nat) :
    (noinit N M jv ji).Rep N Spec.zero :=
  ⟨rfl, rfl, fun _ _ => CsrRow.Holds.of_nil (CsrRow.noinit_is _ _ _)⟩

theorem rep_newZero (N M : Nat) : (newZero N M : Csr R).Rep N Spec.zero :=
  ⟨rfl, rfl, fun _ _ => CsrRow.Holds.of_nil (CsrRow.zero_is _)⟩

theorem wp_identity {N M : Nat} {sc : Sched} (hsc : IsSched 0 N sc) :
    (identity N M sc : Res (Csr R)).wp E (fun A => A.M = M ∧ A.Rep N Spec.one) := by
  unfold identity
  refine Res.wp_mono (wp_forRows (A := (newZero N M : Csr R)) hsc rfl
    (fun _ r => r = CsrRow.zero M) (fun i r => r.Holds N (Spec.one i)) (fun _ _ => rfl) ?_) ?_
  · rintro i _ hi rfl
    have := (CsrRow.rowSpace_ge M).2
    simp only [Res.wp_bind, Arr.wp_write, Res.wp_pure, CsrRow.zero]
    refine ⟨by omega, by omega, CsrRow.Is.holds (L := [(i, 1)]) ⟨⟨rfl, rfl, ?_, this⟩, rfl⟩ ?_ ?_⟩
    · simp only; omega
    · exact ⟨by simp, by simpa using hi⟩
    · intro j hj; simp [Spec.one]
  · rintro A ⟨h1, h2, h3, h4⟩
    exact ⟨h2, h1, h3, h4⟩

/-- The range of columns of a banded row. -/
theorem wp_banded {N M : Nat} {rv : Nat → Nat → R} {sc : Sched} (hsc : IsSched 0 N sc) :
    (banded N M rv sc).wp E (fun A => A.M = M ∧ A.Rep N (fun i j =>
      if i - M / 2 ≤ j ∧ j < (if i + M ≤ N + M / 2 then i + M - M / 2 else N)
      then rv i (j - (i - M / 2)) else 0)) := by
  unfold banded
  refine Res.wp_mono (wp_forRows (A := (newZero N M : Csr R)) hsc rfl
    (fun _ r => r = CsrRow.zero M) (fun i r => r.Holds N (fun j =>
      if i - M / 2 ≤ j ∧ j < (if i + M ≤ N + M / 2 then i + M - M / 2 else N)
      then rv i (j - (i - M / 2)) else 0)) (fun _ _ => rfl) ?_) ?_
  · rintro i _ hi rfl
    obtain ⟨hs1, hs2⟩ := CsrRow.rowSpace_ge M
    simp only
    generalize hlo : i - M / 2 = lo
    generalize hhi : (if i + M ≤ N + M / 2 then i + M - M / 2 else N) = hi'
    have h1 : hi' ≤ N := by rw [← hhi]; split <;> omega
    have h2 : lo ≤ hi' := by rw [← hhi]; split <;> omega
    have h3 : hi' - lo ≤ M := by rw [← hhi]; split <;> omega
    rw [Res.wp_bind]
    refine wp_loopFrom (fun n (st : Arr Nat × Arr R × Nat) => st.1.size = CsrRow.rowSpace M ∧
      st.2.1.size = CsrRow.rowSpace M ∧ st.2.2 = n - lo ∧
      CsrRow.pre st.1.get st.2.1.get st.2.2 =
        SRow.ofCols ((List.range (n - lo)).map (lo + ·)) (fun j => rv i (j - lo))) h2 ?_ ?_ ?_
    · refine ⟨rfl, rfl, by simp, ?_⟩
      simp [SRow.ofCols]
    · rintro n hn1 hn2 ⟨c, v, l⟩ ⟨g1, g2, g3, g4⟩
      simp only at g1 g2 g3 g4
      subst g3
      simp only [Res.wp_bind, Arr.wp_write, Res.wp_pure]
      refine ⟨by omega, by omega, g1, g2, by omega, ?_⟩
      rw [CsrRow.pre_upd, g4, show n + 1 - lo = (n - lo) + 1 by omega, List.range_succ,
        List.map_append, SRow.ofCols_append]
      simp [SRow.ofCols, show lo + (n - lo) = n by omega]
    · rintro ⟨c, v, l⟩ ⟨g1, g2, g3, g4⟩
      simp only at g1 g2 g3 g4
      rw [Res.wp_pure]
      have hnd : ((List.range (hi' - lo)).map (lo + ·)).Nodup :=
        List.Nodup.map (fun a b h => by simpa using h) List.nodup_range
      have hmem : ∀ j, j ∈ (List.range (hi' - lo)).map (lo + ·) ↔ lo ≤ j ∧ j < hi' := by
        intro j
        simp only [List.mem_map, List.mem_range]
        exact ⟨fun ⟨k, hk, e⟩ => by omega, fun h => ⟨j - lo, by omega, by omega⟩⟩
      refine CsrRow.Is.holds (L := SRow.ofCols ((List.range (hi' - lo)).map (lo + ·))
        (fun j => rv i (j - lo))) ⟨⟨g1, g2, ?_, hs2⟩, g4⟩ (SRow.good_ofCols hnd
        (fun j hj => by have := (hmem j).1 hj; omega)) ?_
      · show l ≤ CsrRow.rowSpace M
        omega
      · intro j hj
        rw [SRow.den_ofCols _ hnd]
        simp only [hmem]
  · rintro A ⟨h1, h2, h3, h4⟩
    exact ⟨h2, h1, h3, h4⟩

/-! ## Copies -/

/-- The rows of `B` list the same entries as the rows of `A`. -/
def SameRows (A B : Csr R) : Prop :=
  B.N = A.N ∧ B.data.size = A.N ∧ ∀ i, i < A.N → (B.data.get i).Is (A.row i)

theorem SameRows.rep {A B : Csr R} (h : SameRows A B) {N : Nat} {a : Spec.Mat R} (hA : A.Rep N a) :
    B.Rep N a := by
  obtain ⟨h1, h2, h3⟩ := h
  rw [hA.dim] at h1 h2 h3
  exact ⟨h1, h2, fun i hi => (h3 i hi).holds (hA.good hi) (fun j hj => hA.den hi hj)⟩

theorem wp_copyNew {A : Csr R} {N : Nat} {a : Spec.Mat R} (hA : A.Rep N a) {sc : Sched}
    (hsc : IsSched 0 N sc) (jd : Nat → CsrRow R) (jv : Nat → Nat → R) (ji : Nat → Nat → Nat) :
    (A.copyNew sc jd jv ji).wp E (fun B => B.M = A.M ∧ SameRows A B) := by
  unfold copyNew
  rw [Res.wp_bind, hA.dim]
  refine Res.wp_mono (wp_rows hsc (fun data : Arr (CsrRow R) => data.size = N) (fun _ _ => True)
    (fun i data => (data.get i).Is (A.row i)) rfl (fun _ _ _ => trivial) ?_) ?_
  · rintro t i data - hi hs -
    rw [hA.read hi, Res.bind_ok, Res.wp_bind]
    refine Res.wp_mono (CsrRow.wp_copyNew (hA.is hi) _ _) ?_
    rintro r ⟨hr, -⟩
    rw [Arr.wp_write]
    refine ⟨by rw [hs]; exact hi, hs, by simpa using hr, ?_⟩
    intro j _ _ hne
    simp only [upd_ne _ _ hne]
    exact ⟨id, id⟩
  · rintro data ⟨hs, h⟩
    rw [Res.wp_pure]
    exact ⟨rfl, hA.dim.symm, by rw [hA.dim]; exact hs, fun i hi => h i (Nat.zero_le _)
      (by rw [hA.dim] at hi; exact hi)⟩

/-- Copying reports an error if a row does not fit, and copies every row otherwise. -/
theorem wp_copyInto {A B : Csr R} {N : Nat} {a b : Spec.Mat R} (hA : A.Rep N a) (hB : B.Rep N b)
    {sc : Sched} (hsc : IsSched 0 N sc) :
    (A.copyInto B sc).wp (∃ i, i < N ∧ (B.data.get i).alloc < (A.row i).length)
      (fun B' => B'.M = B.M ∧ SameRows A B') := by
  unfold copyInto
  rw [if_pos (by rw [hA.dim, hB.dim])]
  refine Res.wp_mono (wp_forRows hsc hB.size (fun i r => r = B.data.get i)
    (fun i r => r.Is (A.row i)) (fun _ _ => rfl) ?_) ?_
  · rintro i _ hi rfl
    rw [hA.read hi, Res.bind_ok]
    refine Res.wp_mono' (CsrRow.wp_copyInto (hA.is hi) (hB.holds i hi).1)
      (fun h => ⟨i, hi, h⟩) (fun _ h => h.1)
  · rintro B' ⟨h1, h2, h3, h4⟩
    refine ⟨h2, h1.trans (hB.dim.trans hA.dim.symm), h3.trans hA.dim.symm, ?_⟩
    intro i hi
    exact h4 i (by rw [hA.dim] at hi; exact hi)

theorem wp_convertFrom {N M : Nat} {a : Spec.Mat R} {getRow : Nat → Res (Arr R)}
    (hget : ∀ i, i < N → (getRow i).wp E (fun row => row.size = N ∧ ∀ j, j < N → row.get j = a i j))
    (big0 : R → Bool) (junk : Nat → Nat) :
    (convertFrom getRow N M big0 junk).wp E (fun B => B.M = M ∧
      B.Rep N (fun i j => Spec.keep big0 (a i j))) := by
  unfold convertFrom
  refine wp_loop' (fun n (B : Csr R) => B.M = M ∧
    B.Rep N (fun i j => if i < n then Spec.keep big0 (a i j) else 0)) ?_ ?_ ?_
  · exact ⟨rfl, (rep_newZero N M).congr (fun i j _ _ => by simp [Spec.zero])⟩
  · rintro n hn B ⟨h1, h2⟩
    rw [Res.wp_bind]
    refine Res.wp_mono (hget n hn) ?_
    rintro row ⟨r1, r2⟩
    refine Res.wp_mono (wp_setRow h2 hn (by omega) big0 junk) ?_
    rintro B' ⟨k1, k2⟩
    refine ⟨k1.trans h1, k2.congr ?_⟩
    intro i j hi hj
    by_cases he : i = n
    · subst he; simp [r2 j hj]
    · simp only
      rw [if_neg he]
      by_cases hl : i < n
      · rw [if_pos hl, if_pos (by omega)]
      · rw [if_neg hl, if_neg (by omega)]
  · rintro B ⟨h1, h2⟩
    exact ⟨h1, h2.congr (fun i j hi _ => by simp only; rw [if_pos hi])⟩

/-! ## Import and export -/

theorem wp_importDense {order : Order} {N M : Nat} {D : Arr R}
    (hD : N * N ≤ D.size) (big : R → Bool) {sc : Sched}
    (hsc : IsSched 0 N sc) :
    (importDense order N D big M sc).wp E (fun A => A.M = M ∧
      A.Rep N (fun i j => Spec.keep big (D.get (order.addr i j N)))) := by
  unfold importDense
  refine Res.wp_mono (wp_forRows (A := (newZero N M : Csr R)) hsc rfl
    (fun _ r => r = CsrRow.zero M)
    (fun i r => r.Holds N (fun j => Spec.keep big (D.get (order.addr i j N))))
    (fun _ _ => rfl) ?_) ?_
  · rintro i _ hi rfl
    refine wp_loop' (fun n (r : CsrRow R) => r.Is (SRow.ofCols ((List.range n).filter fun j =>
      big (D.get (order.addr i j N))) (fun j => D.get (order.addr i j N)))) ?_ ?_ ?_
    · exact CsrRow.zero_is M
    · intro n hn r hr
      rw [Arr.read_ok (lt_of_lt_of_le (Ell.Order.addr_lt hi hn) hD), Res.bind_ok, List.range_succ, List.filter_append,
        SRow.ofCols_append]
      by_cases hb : big (D.get (order.addr i n N)) = true
      · rw [if_pos hb]
        refine Res.wp_mono (CsrRow.wp_setNew hr n _) ?_
        rintro r' ⟨h1, -⟩
        simpa [hb, SRow.ofCols] using h1
      · rw [if_neg hb, Res.wp_pure]
        simpa [hb, SRow.ofCols] using hr
    · intro r hr
      have hnd : ((List.range N).filter fun j => big (D.get (order.addr i j N))).Nodup :=
        List.nodup_range.filter _
      refine hr.holds (SRow.good_ofCols hnd (fun j hj => by
        simp only [List.mem_filter, List.mem_range] at hj; exact hj.1)) ?_
      intro j hj
      rw [SRow.den_ofCols _ hnd]
      unfold Spec.keep
      by_cases hb : big (D.get (order.addr i j N)) = true <;> simp [hb, hj]
  · rintro A ⟨h1, h2, h3, h4⟩
    exact ⟨h2, h1, h3, h4⟩

theorem wp_exportDense {A : Csr R} {N : Nat} {a : Spec.Mat R} (hA : A.Rep N a) (order : Order)
    {sc : Sched} (hsc : IsSched 0 N sc) :
    (A.exportDense order sc).wp E (fun D => D.size = N * N ∧
      ∀ i j, i < N → j < N → D.get (order.addr i j N) = a i j) := by
  have hlt : ∀ i j, i < N → j < N → order.addr i j N < N * N := fun i j hi hj =>
    Ell.Order.addr_lt hi hj
  have hinj : ∀ i j i' j', i < N → j < N → i' < N → j' < N →
      order.addr i j N = order.addr i' j' N → i = i' ∧ j = j' := fun i j i' j' h1 h2 h3 h4 h =>
    Ell.Order.addr_inj h1 h2 h3 h4 h
  unfold exportDense
  rw [hA.dim]
  refine Res.wp_mono (wp_rows hsc (fun D : Arr R => D.size = N * N)
    (fun i D => ∀ j, j < N → D.get (order.addr i j N) = 0)
    (fun i D => ∀ j, j < N → D.get (order.addr i j N) = a i j) rfl (fun _ _ _ _ _ => rfl) ?_) ?_
  · rintro t i D - hi hs h0
    simp only
    have hg := hA.good hi
    rw [hA.read hi, Res.bind_ok, (hA.is hi).fold]
    refine Res.wp_mono (wp_scatter hg.1 (fun j => order.addr i j N)
      (fun p hp q hq h => (hinj i p.1 i q.1 hi (hg.2 p hp) hi (hg.2 q hq) h).2)
      (fun p hp => by rw [hs]; exact hlt i p.1 hi (hg.2 p hp))) ?_
    rintro D' ⟨h1, h2, h3⟩
    refine ⟨h1.trans hs, fun j hj => ?_, ?_⟩
    · rw [← hA.den hi hj]
      exact scatter_den (addr := fun j => order.addr i j N) hg
        (fun j j' hj hj' h => (hinj i j i j' hi hj hi hj' h).2) h0 h2 h3 hj
    · intro i' _ hi' hne
      have hk : ∀ j, j < N → D'.get (order.addr i' j N) = D.get (order.addr i' j N) := by
        intro j hj
        apply h3
        intro p hp he
        exact hne (hinj i p.1 i' j hi (hg.2 p hp) hi' hj he).1.symm
      exact ⟨fun h j hj => by rw [hk j hj]; exact h j hj, fun h j hj => by rw [hk j hj]; exact h j hj⟩
  · rintro D ⟨h1, h2⟩
    exact ⟨h1, fun i j hi hj => h2 i (Nat.zero_le _) hi j hj⟩

/-! ## Scaling and thresholds -/

theorem wp_scaleInplace {A : Csr R} {N : Nat} {a : Spec.Mat R} (hA : A.Rep N a) (c : R) {sc : Sched}
    (hsc : IsSched 0 N sc) :
    (A.scaleInplace c sc).wp E (fun A' => A'.M = A.M ∧ A'.Rep N (fun i j => c * a i j)) :=
  wp_forRows_rep hsc hA (fun i r _ hr =>
    Res.wp_mono (CsrRow.wp_scale hr.is c) (fun _ h => hr.scale h.1))

theorem wp_threshold {A : Csr R} {N : Nat} {a : Spec.Mat R} (hA : A.Rep N a) (big : R → Bool)
    {sc : Sched} (hsc : IsSched 0 N sc) :
    (A.threshold big sc).wp E (fun A' => A'.M = A.M ∧ A'.Rep N (fun i j => Spec.keep big (a i j)) ∧
      ∀ i, i < N → A'.row i = (A.row i).filter fun p => big p.2) := by
  unfold threshold
  refine Res.wp_mono (wp_forRows hsc hA.size (fun i r => r = A.data.get i)
    (fun i r => r.Is ((A.row i).filter fun p => big p.2)) (fun _ _ => rfl) ?_) ?_
  · rintro i _ hi rfl
    exact Res.wp_mono (CsrRow.wp_threshold (hA.is hi) big) (fun _ h => h.1)
  · rintro A' ⟨h1, h2, h3, h4⟩
    exact ⟨h2, ⟨h1.trans hA.dim, h3, fun i hi => (hA.holds i hi).filter (h4 i hi)⟩,
      fun i hi => (h4 i hi).2⟩

end Csr

end Bml
