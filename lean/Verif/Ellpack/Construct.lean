import Verif.Ellpack.Model3
import Verif.Ellpack.Stored

/-!
# ELLPACK constructors, clear, import and export
-/

set_option linter.unusedSectionVars false

namespace Bml

theorem wp_memset {α : Type} {E : Prop} {a : Arr α} {n : Nat} (v : α) (h : n ≤ a.size) :
    (memset a n v).wp E (fun r => r.size = a.size ∧
      ∀ q, r.get q = if q < n then v else a.get q) := by
  unfold memset
  refine wp_loop' (fun k r => r.size = a.size ∧ ∀ q, r.get q = if q < k then v else a.get q) ?_ ?_
    (fun _ h => h)
  · exact ⟨rfl, fun q => by simp⟩
  · rintro k hk r ⟨h1, h2⟩
    rw [Arr.wp_write]
    refine ⟨by omega, h1, fun q => ?_⟩
    simp only
    by_cases he : q = k
    · subst he; simp
    · rw [upd_ne _ _ he, h2 q]
      by_cases hc : q < k
      · rw [if_pos hc, if_pos (by omega)]
      · rw [if_neg hc, if_neg (by omega)]

namespace Ell

variable {R : Type} [CommRing R] {E : Prop}

/-- Row after row, without scratch: rows `lo ≤ i < hi` get property `Q i`, the others are
untouched. -/
theorem rep_of_empty {A : Ell R} {N : Nat} (hs : A.Shape) (hN : A.N = N)
    (h : ∀ i, i < N → A.nnz.get i = 0) : A.Rep N (fun _ _ => 0) := by
  have hr : ∀ i, i < N → A.row i = [] := fun i hi => by simp [row, h i hi]
  refine ⟨hs, hN, fun i hi => by rw [h i hi]; exact Nat.zero_le _, fun i hi => ?_,
    fun i j hi hj => ?_⟩
  · rw [hr i hi]; exact SRow.good_nil N
  · rw [hr i hi]; simp

theorem wp_clear {A : Ell R} (hA : A.Shape) :
    (clear A).wp E (fun A' => A' = ⟨A.N, A.M, A'.val, A'.idx, A'.nnz⟩ ∧ A'.Shape ∧
      (∀ i, i < A.N → A'.nnz.get i = 0) ∧
      ∀ q, q < A.N * A.M → A'.idx.get q = 0 ∧ A'.val.get q = 0) := by
  unfold clear
  rw [Res.wp_bind]
  refine Res.wp_mono (wp_memset 0 (by rw [hA.nnz_size])) ?_
  rintro nn ⟨h1, h2⟩
  rw [Res.wp_bind]
  refine Res.wp_mono (wp_memset 0 (by rw [hA.idx_size])) ?_
  rintro ii ⟨h3, h4⟩
  rw [Res.wp_bind]
  refine Res.wp_mono (wp_memset 0 (by rw [hA.val_size])) ?_
  rintro vv ⟨h5, h6⟩
  rw [Res.pure_eq, Res.wp_ok]
  refine ⟨rfl, ⟨by rw [h5, hA.val_size], by rw [h3, hA.idx_size], by rw [h1, hA.nnz_size]⟩,
    fun i hi => by simp only; rw [h2, if_pos hi],
    fun q hq => by simp only; rw [h4, h6, if_pos hq, if_pos hq]; exact ⟨rfl, rfl⟩⟩

theorem zero_rep (N M : Nat) : (zeroMatrix N M : Ell R).Rep N (fun _ _ => 0) :=
  rep_of_empty ⟨rfl, rfl, rfl⟩ rfl (fun _ _ => rfl)

omit [CommRing R] in
/-- Appending to row `i`, on the level of rows. -/
theorem append_eq {A : Ell R} (hS : A.Shape) {i : Nat} (hi : i < A.N) (j : Nat) (v : R)
    (hcap : A.nnz.get i < A.M) :
    (do let A1 ← A.putEntry i (A.nnz.get i) j v
        A1.setNnz i (A.nnz.get i + 1) : Res (Ell R)) = .ok (A.app i j v) := by
  rw [putEntry_eq hS _ _ hi hcap, Res.bind_ok, setNnz_eq (hS.put _ _ _ _) _ hi]
  rfl

/-! ## Identity -/

theorem wp_identity {N M : Nat} (hM : M > 0) {sc : Sched} (hsc : IsSched 0 N sc) :
    (identity N M sc : Res (Ell R)).wp E (fun A => A.M = M ∧ A.Rep N Spec.one) := by
  unfold identity newZero
  rw [if_pos hM, Res.bind_ok]
  refine Res.wp_mono (wp_kernel0 (N := N) (M := M) hsc (le_refl _)
    (fun i A => do
      let A ← A.putEntry i 0 i 1
      A.setNnz i 1) (fun _ _ => True) (fun i L => L = [(i, 1)]) ?_
    (C := zeroMatrix N M) ⟨rfl, rfl, rfl⟩ rfl rfl (fun i hi => ⟨Nat.zero_le _, trivial⟩)) ?_
  · intro i C _ hi hS hN hCM _
    rw [putEntry_eq hS _ _ (by omega) (by omega), Res.bind_ok,
      setNnz_eq (hS.put _ _ _ _) _ (by simp; omega)]
    refine ⟨(hS.put _ _ _ _).withNnz _ _, (frame_put C _ _ (by omega)).trans
      (frame_withNnz _ _ _), by simp; omega, ?_⟩
    rw [withNnz_row_same]
    have := put_rowPre_succ C (i := i) (p := 0) (k := i) (v := (1 : R)) (by omega)
    simpa using this
  · rintro A ⟨h1, h2, h3, h4⟩
    refine ⟨h3, rep_of_rowSat h1 h2 (fun i hi => ?_)⟩
    have := h4 i hi
    rw [if_pos (by omega)] at this
    refine ⟨this.1, ?_⟩
    rw [this.2]
    refine ⟨⟨by simp, by simpa using hi⟩, fun j hj => ?_⟩
    simp [Spec.one]

/-! ## Import -/

theorem wp_importRow {A : Ell R} {N : Nat} (hS : A.Shape) (hd : A.N = N) {i : Nat} (hi : i < N)
    {order : Order} {D : Arr R} (hD : ∀ j, j < N → order.addr i j N < D.size) (big : R → Bool)
    (hfit : ((Finset.range N).filter
      (fun j => big (D.get (order.addr i j N)) = true)).card ≤ A.M) :
    (importRow order D big i A).wp E (fun A' => A'.Shape ∧ Frame A A' i ∧
      A'.RowSat i (fun L => L = SRow.ofCols
        ((List.range N).filter (fun j => big (D.get (order.addr i j N))))
        (fun j => D.get (order.addr i j N)))) := by
  unfold importRow
  rw [setNnz_eq hS _ (by omega), Res.bind_ok]
  have hcard : ((List.range N).filter (fun j => big (D.get (order.addr i j N)))).length
      = ((Finset.range N).filter (fun j => big (D.get (order.addr i j N)) = true)).card :=
    SRow.length_eq_card (List.nodup_range.filter _) _ (fun j => by simp)
  simp only [withNnz_N, hd]
  refine wp_loop' (fun n (A' : Ell R) => A'.Shape ∧ Frame A A' i ∧
      A'.row i = SRow.ofCols ((List.range n).filter (fun j => big (D.get (order.addr i j N))))
        (fun j => D.get (order.addr i j N))) ?_ ?_ ?_
  · refine ⟨hS.withNnz _ _, frame_withNnz _ _ _, ?_⟩
    rw [withNnz_row_same]; rfl
  · rintro n hn A' ⟨g1, g2, g3⟩
    have hN' : A'.N = N := by rw [g2.N, hd]
    rw [hN', Arr.read_ok (hD n hn), Res.bind_ok]
    have hnn : A'.nnz.get i
        = ((List.range n).filter (fun j => big (D.get (order.addr i j N)))).length := by
      rw [← row_length, g3]; simp
    by_cases hb : big (D.get (order.addr i n N)) = true
    · rw [if_pos hb, read_nnz g1 (by omega), Res.bind_ok]
      have hcap : A'.nnz.get i < A'.M := by
        rw [hnn, g2.M]
        refine lt_of_lt_of_le ?_ (le_trans (le_of_eq hcard) hfit)
        have hsub : ((List.range n).filter (fun j => big (D.get (order.addr i j N))) ++ [n]).Sublist
            ((List.range N).filter (fun j => big (D.get (order.addr i j N)))) := by
          have h1 : (List.range (n + 1)).Sublist (List.range N) :=
            List.range_sublist.2 (by omega)
          have h2 := h1.filter (fun j => big (D.get (order.addr i j N)))
          rw [List.range_succ, List.filter_append] at h2
          simpa [hb] using h2
        have := hsub.length_le
        simp at this
        omega
      rw [append_eq g1 (by omega) _ _ hcap]
      refine ⟨app_shape g1 _ _ _, g2.trans (app_frame hcap), ?_⟩
      rw [app_row hcap, g3, List.range_succ, List.filter_append]
      simp [hb, SRow.ofCols]
    · rw [if_neg hb]
      refine ⟨g1, g2, ?_⟩
      rw [g3, List.range_succ, List.filter_append]
      simp [hb]
  · rintro A' ⟨g1, g2, g3⟩
    refine ⟨g1, g2, ?_, g3⟩
    rw [← row_length, g3, g2.M]
    simp only [SRow.ofCols_length]
    omega

theorem Order.addr_lt {o : Order} {i j N : Nat} (hi : i < N) (hj : j < N) :
    o.addr i j N < N * N := by
  cases o
  · exact Bml.addr_lt hi hj
  · show i + j * N < N * N
    rw [Nat.add_comm]; exact Bml.addr_lt hj hi

theorem Order.addr_inj {o : Order} {i j i' j' N : Nat} (hi : i < N) (hj : j < N) (hi' : i' < N)
    (hj' : j' < N) (h : o.addr i j N = o.addr i' j' N) : i = i' ∧ j = j' := by
  cases o
  · exact Bml.addr_inj hj hj' h
  · have h : i + j * N = i' + j' * N := h
    rw [Nat.add_comm i, Nat.add_comm i'] at h
    have := Bml.addr_inj hi hi' h
    exact ⟨this.2, this.1⟩

theorem wp_import {N M : Nat} (hM : M > 0) {order : Order} {D : Arr R} (hD : N * N ≤ D.size)
    (big : R → Bool) {sc : Sched} (hsc : IsSched 0 N sc)
    (hfit : ∀ i, i < N → Spec.rowCount big N (fun i j => D.get (order.addr i j N)) i ≤ M) :
    (importDense order N D big M sc).wp E (fun A => A.M = M ∧ A.Shape ∧ A.N = N ∧
      ∀ i, i < N → A.RowSat i (fun L => L = SRow.ofCols
        ((List.range N).filter (fun j => big (D.get (order.addr i j N))))
        (fun j => D.get (order.addr i j N)))) := by
  unfold importDense newZero
  rw [if_pos hM, Res.bind_ok]
  refine Res.wp_mono (wp_kernel0 (N := N) (M := M) hsc (le_refl _)
    (fun i A => importRow order D big i A) (fun _ _ => True) (fun i L => L = SRow.ofCols
        ((List.range N).filter (fun j => big (D.get (order.addr i j N))))
        (fun j => D.get (order.addr i j N))) ?_
    (C := zeroMatrix N M) ⟨rfl, rfl, rfl⟩ rfl rfl (fun i hi => ⟨Nat.zero_le _, trivial⟩)) ?_
  · intro i C _ hi hS hN hCM _
    exact wp_importRow hS hN hi (fun j hj => lt_of_lt_of_le (Order.addr_lt hi hj) hD) big
      (by rw [hCM]; exact hfit i hi)
  · rintro A ⟨h1, h2, h3, h4⟩
    refine ⟨h3, h1, h2, fun i hi => ?_⟩
    have := h4 i hi
    rw [if_pos (by omega)] at this
    exact this

theorem rep_import {N M : Nat} {A : Ell R} {order : Order} {D : Arr R} {big : R → Bool}
    (h : A.M = M ∧ A.Shape ∧ A.N = N ∧
      ∀ i, i < N → A.RowSat i (fun L => L = SRow.ofCols
        ((List.range N).filter (fun j => big (D.get (order.addr i j N))))
        (fun j => D.get (order.addr i j N)))) :
    A.Rep N (fun i j => Spec.keep big (D.get (order.addr i j N))) := by
  obtain ⟨h1, h2, h3, h4⟩ := h
  refine rep_of_rowSat h2 h3 (fun i hi => ⟨(h4 i hi).1, ?_⟩)
  rw [(h4 i hi).2]
  refine ⟨SRow.good_ofCols (List.nodup_range.filter _) (fun j hj => ?_), fun j hj => ?_⟩
  · simpa using (List.mem_filter.1 hj).1
  · rw [SRow.den_ofCols _ (List.nodup_range.filter _)]
    unfold Spec.keep
    by_cases hb : big (D.get (order.addr i j N)) = true
    · simp [hb, hj]
    · simp [hb]

/-! ## Export -/

theorem wp_exportRow {N : Nat} {A : Ell R} {a : Spec.Mat R} (hA : A.Rep N a) {i : Nat}
    (hi : i < N) (order : Order) {D : Arr R} (hD : D.size = N * N)
    (h0 : ∀ j, j < N → D.get (order.addr i j N) = 0) :
    (exportRow A order i D).wp E (fun D' => D'.size = N * N ∧
      (∀ j, j < N → D'.get (order.addr i j N) = a i j) ∧
      ∀ i' j, i' < N → j < N → i' ≠ i → D'.get (order.addr i' j N) = D.get (order.addr i' j N)) := by
  unfold exportRow
  have hd := hA.dim
  have hle := hA.le i hi
  rw [read_nnz hA.shape (by omega), Res.bind_ok]
  refine wp_loop' (fun n (D' : Arr R) => D'.size = N * N ∧
      (∀ j, j < N → D'.get (order.addr i j N) = (A.rowPre i n).den j) ∧
      ∀ i' j, i' < N → j < N → i' ≠ i →
        D'.get (order.addr i' j N) = D.get (order.addr i' j N)) ?_ ?_ ?_
  · exact ⟨hD, fun j hj => by rw [h0 j hj]; simp, fun _ _ _ _ _ => rfl⟩
  · rintro k hk D' ⟨g1, g2, g3⟩
    rw [read_idx hA.shape (by omega) (by omega), Res.bind_ok,
      read_val hA.shape (by omega) (by omega), Res.bind_ok]
    have hlt : A.idx.get (i * A.M + k) < N := (hA.good i hi).2 _ (mem_rowPre.2 ⟨k, hk, rfl⟩)
    rw [hd, Arr.write_ok _ (by rw [g1]; exact Order.addr_lt hi hlt)]
    refine ⟨g1, fun j hj => ?_, fun i' j hi' hj hne => ?_⟩
    · rw [rowPre_succ, SRow.den_append, SRow.den_cons, SRow.den_nil, add_zero]
      simp only
      by_cases he : A.idx.get (i * A.M + k) = j
      · subst he
        rw [upd_same, if_pos rfl, SRow.den_of_not_mem, zero_add]
        intro hm
        obtain ⟨p, hp, hpe⟩ := List.mem_map.1 hm
        obtain ⟨q, hq, rfl⟩ := mem_rowPre.1 hp
        have h1 := (hA.good i hi).1
        unfold row rowPre at h1
        rw [List.map_map] at h1
        have := List.inj_on_of_nodup_map h1 (x := q) (y := k) (by simp; omega) (by simp; omega) hpe
        omega
      · rw [upd_ne _ _ (fun h => he (Order.addr_inj hi hj hi hlt h).2.symm), g2 j hj, if_neg he,
          add_zero]
    · simp only
      rw [upd_ne _ _ (fun h => hne (Order.addr_inj hi' hj hi hlt h).1)]
      exact g3 i' j hi' hj hne
  · rintro D' ⟨g1, g2, g3⟩
    refine ⟨g1, fun j hj => ?_, g3⟩
    rw [g2 j hj]; exact hA.den i j hi hj

theorem wp_export {N : Nat} {A : Ell R} {a : Spec.Mat R} (hA : A.Rep N a) (order : Order)
    {sc : Sched} (hsc : IsSched 0 N sc) :
    (exportDense A order sc).wp E (fun D => D.size = N * N ∧
      ∀ i j, i < N → j < N → D.get (order.addr i j N) = a i j) := by
  unfold exportDense
  rw [hA.dim]
  refine Res.wp_mono (wp_rows hsc (G := fun D => D.size = N * N)
    (P := fun i D => ∀ j, j < N → D.get (order.addr i j N) = 0)
    (Q := fun i D => ∀ j, j < N → D.get (order.addr i j N) = a i j) rfl (fun _ _ _ _ _ => rfl) ?_) ?_
  · rintro t i D - hi hG hP
    refine Res.wp_mono (wp_exportRow hA hi order hG hP) ?_
    rintro D' ⟨h1, h2, h3⟩
    refine ⟨h1, h2, fun j _ hj hne => ⟨fun h k hk => ?_, fun h k hk => ?_⟩⟩
    · rw [h3 j k hj hk hne]; exact h k hk
    · rw [h3 j k hj hk hne]; exact h k hk
  · rintro D ⟨h1, h2⟩
    exact ⟨h1, fun i j hi hj => h2 i (Nat.zero_le _) hi j hj⟩

end Ell

end Bml
