import Verif.Round.Ops2

/-!
# Reading ELLPACK matrices, without the laws of arithmetic
-/

set_option linter.unusedSectionVars false

namespace Bml.Ell

variable {R : Type} {E : Prop} [Zero R]

open SRow

theorem look_append_single {L : SRow R} {k : Nat} (h : k ∉ L.map Prod.fst) (v : R) (j : Nat) :
    look (L ++ [(k, v)]) j = if k = j then v else look L j := by
  induction L with
  | nil => simp [look_cons]
  | cons q L ih =>
    simp only [List.map_cons, List.mem_cons, not_or] at h
    rw [List.cons_append, look_cons, look_cons, ih h.2]
    by_cases h1 : q.1 = j
    · rw [if_pos h1, if_pos h1, if_neg (by rintro rfl; exact h.1 h1.symm)]
    · rw [if_neg h1, if_neg h1]

theorem rowPre_not_mem {A : Ell R} {N i k : Nat} (hg : SRow.Good N (A.row i))
    (hk : k < A.nnz.get i) : A.idx.get (i * A.M + k) ∉ (A.rowPre i k).map Prod.fst := by
  intro hm
  obtain ⟨p, hp, he⟩ := List.mem_map.1 hm
  obtain ⟨q, hq, rfl⟩ := mem_rowPre.1 hp
  have := cell_inj hg (show q < A.nnz.get i by omega) hk he
  omega

theorem look_rowPre_succ {A : Ell R} {N i k : Nat} (hg : SRow.Good N (A.row i))
    (hk : k < A.nnz.get i) (j : Nat) : look (A.rowPre i (k + 1)) j
      = if A.idx.get (i * A.M + k) = j then A.val.get (i * A.M + k) else look (A.rowPre i k) j := by
  rw [rowPre_succ, look_append_single (rowPre_not_mem hg hk)]

theorem wp_getRow_list {N M : Nat} {A : Ell R} {ρ : Nat → SRow R} (hA : A.Stores N M ρ) {i : Nat}
    (hi : i < N) : (A.getRow i).wp E (fun row => row.size = N ∧
      ∀ j, j < N → row.get j = look (ρ i) j) := by
  unfold getRow
  have hd := hA.dim
  have hle := hA.le hi
  have hg : SRow.Good N (A.row i) := by rw [hA.row i hi]; exact hA.good i hi
  rw [read_nnz hA.shape (by omega), Res.bind_ok]
  refine wp_loop' (fun n (row : Arr R) => row.size = N ∧
    ∀ j, j < N → row.get j = look (A.rowPre i n) j) ?_ ?_ ?_
  · exact ⟨hd, fun j _ => rfl⟩
  · rintro k hk r ⟨g1, g2⟩
    rw [read_idx hA.shape (by omega) (by omega), Res.bind_ok,
      read_val hA.shape (by omega) (by omega), Res.bind_ok]
    have hlt : A.idx.get (i * A.M + k) < N := hg.2 _ (mem_rowPre.2 ⟨k, hk, rfl⟩)
    rw [Arr.write_ok _ (by omega)]
    refine ⟨g1, fun j hj => ?_⟩
    rw [look_rowPre_succ hg hk]
    simp only
    by_cases he : A.idx.get (i * A.M + k) = j
    · subst he; rw [upd_same, if_pos rfl]
    · rw [upd_ne _ _ (Ne.symm he), if_neg he, g2 j hj]
  · rintro row ⟨g1, g2⟩
    exact ⟨g1, fun j hj => by rw [g2 j hj, ← hA.row i hi]; rfl⟩

theorem wp_getDiagonal_list {N M : Nat} {A : Ell R} {ρ : Nat → SRow R} (hA : A.Stores N M ρ) :
    (A.getDiagonal).wp E (fun d => d.size = N ∧ ∀ i, i < N → d.get i = look (ρ i) i) := by
  unfold getDiagonal
  have hd := hA.dim
  refine wp_loop' (fun n (d : Arr R) => d.size = N ∧ ∀ i, i < n → d.get i = look (ρ i) i) ?_ ?_
    (fun _ h => by rw [hd] at h; exact h)
  · exact ⟨hd, by simp⟩
  · rintro i hi dg ⟨g1, g2⟩
    rw [hd] at hi
    have hle := hA.le hi
    have hg : SRow.Good N (A.row i) := by rw [hA.row i hi]; exact hA.good i hi
    rw [read_nnz hA.shape (by omega), Res.bind_ok, Arr.write_ok _ (by omega), Res.bind_ok]
    refine wp_loop' (fun n (d : Arr R) => d.size = N ∧
      (∀ i', i' < i → d.get i' = look (ρ i') i') ∧ d.get i = look (A.rowPre i n) i) ?_ ?_ ?_
    · refine ⟨g1, fun i' hi' => ?_, ?_⟩
      · simp only; rw [upd_ne _ _ (by omega)]; exact g2 i' hi'
      · simp
    · rintro k hk d ⟨k1, k2, k3⟩
      rw [read_idx hA.shape (by omega) (by omega), Res.bind_ok]
      by_cases he : A.idx.get (i * A.M + k) = i
      · rw [if_pos he, read_val hA.shape (by omega) (by omega), Res.bind_ok,
          Arr.write_ok _ (by omega)]
        refine ⟨k1, fun i' hi' => ?_, ?_⟩
        · simp only; rw [upd_ne _ _ (by omega)]; exact k2 i' hi'
        · simp only
          rw [upd_same, look_rowPre_succ hg hk, if_pos he]
      · rw [if_neg he]
        refine ⟨k1, k2, ?_⟩
        rw [k3, look_rowPre_succ hg hk, if_neg he]
    · rintro d ⟨k1, k2, k3⟩
      refine ⟨k1, fun i' hi' => ?_⟩
      by_cases he : i' = i
      · subst he; rw [k3, ← hA.row i' hi]; rfl
      · exact k2 i' (by omega)

theorem wp_exportRow_list {N M : Nat} {A : Ell R} {ρ : Nat → SRow R} (hA : A.Stores N M ρ)
    {i : Nat} (hi : i < N) (order : Order) {D : Arr R} (hD : D.size = N * N)
    (h0 : ∀ j, j < N → D.get (order.addr i j N) = 0) :
    (exportRow A order i D).wp E (fun D' => D'.size = N * N ∧
      (∀ j, j < N → D'.get (order.addr i j N) = look (ρ i) j) ∧
      ∀ i' j, i' < N → j < N → i' ≠ i → D'.get (order.addr i' j N) = D.get (order.addr i' j N)) := by
  unfold exportRow
  have hd := hA.dim
  have hle := hA.le hi
  have hg : SRow.Good N (A.row i) := by rw [hA.row i hi]; exact hA.good i hi
  rw [read_nnz hA.shape (by omega), Res.bind_ok]
  refine wp_loop' (fun n (D' : Arr R) => D'.size = N * N ∧
      (∀ j, j < N → D'.get (order.addr i j N) = look (A.rowPre i n) j) ∧
      ∀ i' j, i' < N → j < N → i' ≠ i →
        D'.get (order.addr i' j N) = D.get (order.addr i' j N)) ?_ ?_ ?_
  · exact ⟨hD, fun j hj => by rw [h0 j hj]; rfl, fun _ _ _ _ _ => rfl⟩
  · rintro k hk D' ⟨g1, g2, g3⟩
    rw [read_idx hA.shape (by omega) (by omega), Res.bind_ok,
      read_val hA.shape (by omega) (by omega), Res.bind_ok]
    have hlt : A.idx.get (i * A.M + k) < N := hg.2 _ (mem_rowPre.2 ⟨k, hk, rfl⟩)
    rw [hd, Arr.write_ok _ (by rw [g1]; exact Order.addr_lt hi hlt)]
    refine ⟨g1, fun j hj => ?_, fun i' j hi' hj hne => ?_⟩
    · rw [look_rowPre_succ hg hk]
      simp only
      by_cases he : A.idx.get (i * A.M + k) = j
      · subst he; rw [upd_same, if_pos rfl]
      · rw [upd_ne _ _ (fun h => he (Order.addr_inj hi hj hi hlt h).2.symm), g2 j hj, if_neg he]
    · simp only
      rw [upd_ne _ _ (fun h => hne (Order.addr_inj hi' hj hi hlt h).1)]
      exact g3 i' j hi' hj hne
  · rintro D' ⟨g1, g2, g3⟩
    refine ⟨g1, fun j hj => ?_, g3⟩
    rw [g2 j hj, ← hA.row i hi]; rfl

theorem wp_export_list {N M : Nat} {A : Ell R} {ρ : Nat → SRow R} (hA : A.Stores N M ρ)
    (order : Order) {sc : Sched} (hsc : IsSched 0 N sc) :
    (exportDense A order sc).wp E (fun D => D.size = N * N ∧
      ∀ i j, i < N → j < N → D.get (order.addr i j N) = look (ρ i) j) := by
  unfold exportDense
  rw [hA.dim]
  refine Res.wp_mono (wp_rows hsc (G := fun D => D.size = N * N)
    (P := fun i D => ∀ j, j < N → D.get (order.addr i j N) = 0)
    (Q := fun i D => ∀ j, j < N → D.get (order.addr i j N) = look (ρ i) j) rfl
    (fun _ _ _ _ _ => rfl) ?_) ?_
  · rintro t i D - hi hG hP
    refine Res.wp_mono (wp_exportRow_list hA hi order hG hP) ?_
    rintro D' ⟨h1, h2, h3⟩
    refine ⟨h1, h2, fun j _ hj hne => ⟨fun h k hk => ?_, fun h k hk => ?_⟩⟩
    · rw [h3 j k hj hk hne]; exact h k hk
    · rw [h3 j k hj hk hne]; exact h k hk
  · rintro D ⟨h1, h2⟩
    exact ⟨h1, fun i j hi hj => h2 i (Nat.zero_le _) hi j hj⟩

end Bml.Ell
