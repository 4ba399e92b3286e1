import Verif.Ellpack.Update

/-!
# ELLPACK updates (2): reorder, identity, add with norm
-/

set_option linter.unusedSectionVars false

namespace Bml

/-- Entries kept in two parallel arrays. -/
def arrRow {R : Type} (jx : Arr Nat) (x : Arr R) (l : Nat) : SRow R :=
  (List.range l).map fun q => (jx.get q, x.get q)

theorem arrRow_succ {R : Type} (jx : Arr Nat) (x : Arr R) (l : Nat) :
    arrRow jx x (l + 1) = arrRow jx x l ++ [(jx.get l, x.get l)] := by
  simp [arrRow, List.range_succ]

theorem SRow.den_range {R : Type} [AddCommMonoid R] (n : Nat) (c : Nat → Nat) (v : Nat → R)
    (j : Nat) : SRow.den ((List.range n).map fun q => (c q, v q)) j
      = ∑ q ∈ Finset.range n, if c q = j then v q else 0 := by
  unfold SRow.den
  rw [List.map_map, ← list_sum_range]
  rfl

namespace Ell

variable {R : Type} [CommRing R] {E : Prop}

/-! ## Reorder -/

/-- `perm` holds a permutation of `0..N-1`. -/
structure IsPerm (N : Nat) (perm : Arr Nat) : Prop where
  size : N ≤ perm.size
  lt : ∀ i, i < N → perm.get i < N
  inj : ∀ i j, i < N → j < N → perm.get i = perm.get j → i = j

theorem IsPerm.surj {N : Nat} {perm : Arr Nat} (h : IsPerm N perm) {r : Nat} (hr : r < N) :
    ∃ i, i < N ∧ perm.get i = r := by
  have h1 : ((List.range N).map perm.get).Nodup :=
    List.Nodup.map_on (fun x hx y hy he => h.inj x y (by simpa using hx) (by simpa using hy) he)
      List.nodup_range
  have h2 : ((List.range N).map perm.get).toFinset = Finset.range N := by
    apply Finset.eq_of_subset_of_card_le
    · intro k hk
      simp only [List.mem_toFinset, List.mem_map, List.mem_range] at hk
      obtain ⟨i, hi, rfl⟩ := hk
      simpa using h.lt i hi
    · rw [List.toFinset_card_of_nodup h1]; simp
  have h3 : r ∈ ((List.range N).map perm.get).toFinset := by rw [h2]; simpa using hr
  simp only [List.mem_toFinset, List.mem_map, List.mem_range] at h3
  obtain ⟨i, hi, he⟩ := h3
  exact ⟨i, hi, he⟩

theorem wp_reorderCols {A : Ell R} (hA : A.Shape) {i : Nat} (hi : i < A.N)
    (hle : A.nnz.get i ≤ A.M) {perm : Arr Nat} (hlt : ∀ p ∈ A.row i, p.1 < perm.size) :
    (reorderCols perm i A).wp E (fun A' => A'.Shape ∧ Frame A A' i ∧
      A'.RowSat i (fun L => L = (A.row i).map (fun p => (perm.get p.1, p.2)))) := by
  unfold reorderCols
  rw [read_nnz hA hi, Res.bind_ok]
  refine wp_loop' (fun n (C : Ell R) => C.N = A.N ∧ C.M = A.M ∧ C.nnz = A.nnz ∧ C.val = A.val ∧
    C.idx.size = A.idx.size ∧
    ∀ q, C.idx.get q = if i * A.M ≤ q ∧ q < i * A.M + n then perm.get (A.idx.get q)
      else A.idx.get q) ?_ ?_ ?_
  · exact ⟨rfl, rfl, rfl, rfl, rfl, fun q => by rw [if_neg (by omega)]⟩
  · rintro n hn C ⟨g1, g2, g3, g4, g5, g6⟩
    have hcell : C.idx.get (i * A.M + n) = A.idx.get (i * A.M + n) := by
      rw [g6, if_neg (by omega)]
    have hadr : i * A.M + n < C.idx.size := by
      rw [g5, hA.idx_size]; exact addr_lt hi (by omega)
    simp only [ROWMAJOR, g2]
    rw [Arr.read_ok hadr, Res.bind_ok, hcell,
      Arr.read_ok (hlt _ (mem_rowPre.2 ⟨n, hn, rfl⟩)), Res.bind_ok,
      Arr.write_ok _ hadr, Res.bind_ok]
    simp only [Res.pure_eq, Res.wp_ok]
    refine ⟨g1, trivial, g3, g4, g5, fun q => ?_⟩
    by_cases he : q = i * A.M + n
    · subst he
      rw [upd_same, if_pos (by omega)]
    · rw [upd_ne _ _ he, g6 q]
      by_cases hc : i * A.M ≤ q ∧ q < i * A.M + n
      · rw [if_pos hc, if_pos (by omega)]
      · rw [if_neg hc, if_neg (by omega)]
  · rintro C ⟨g1, g2, g3, g4, g5, g6⟩
    refine ⟨⟨by rw [g4, g1, g2]; exact hA.val_size, by rw [g5, g1, g2]; exact hA.idx_size,
      by rw [g3, g1]; exact hA.nnz_size⟩, ⟨g1, g2, fun _ _ => by rw [g3], ?_⟩,
      by rw [g3, g2]; exact hle, ?_⟩
    · intro i' m hne hm
      refine rowPre_congr g2 (fun k hk => ⟨?_, by rw [g4]⟩)
      rw [g6, if_neg]
      rintro ⟨q1, q2⟩
      have := addr_inj (i := i) (i' := i') (k := i' * A.M + k - i * A.M) (k' := k) (M := A.M)
          (by omega) (by omega) (by omega)
      exact hne this.1.symm
    · unfold row rowPre
      rw [g3, List.map_map]
      apply List.map_congr_left
      intro k hk
      have hk : k < A.nnz.get i := by simpa using hk
      simp only [Function.comp, g2, g4]
      rw [g6, if_pos (by omega)]

theorem wp_reorder {N : Nat} {A : Ell R} {a : Spec.Mat R} (hA : A.Rep N a) {perm : Arr Nat}
    (hp : IsPerm N perm) {sc0 sc1 sc2 : Sched} (h0 : IsSched 0 N sc0) (h1 : IsSched 0 N sc1)
    (h2 : IsSched 0 N sc2) (jv : Nat → R) (ji : Nat → Nat) :
    (reorder A perm sc0 sc1 sc2 jv ji).wp E (fun A' => A'.Shape ∧ A'.N = N ∧ A'.M = A.M ∧
      ∀ r, r < N → A'.RowSat r (fun L => ∃ i, i < N ∧ perm.get i = r ∧
        L = (A.row i).map (fun p => (perm.get p.1, p.2)))) := by
  have hd := hA.dim
  unfold reorder
  rw [Res.wp_bind]
  refine Res.wp_mono (wp_copyNew hA.shape (by rw [hd]; exact h0) jv ji) ?_
  intro B hB
  rw [Res.wp_bind]
  have hrow : ∀ {i : Nat}, i < N → i * A.M + A.M ≤ N * A.M := by
    intro i hi
    calc i * A.M + A.M = (i + 1) * A.M := by ring
      _ ≤ N * A.M := Nat.mul_le_mul_right _ hi
  have hsizeB : B.idx.size = N * A.M ∧ B.val.size = N * A.M ∧ B.nnz.size = N := by
    refine ⟨?_, ?_, ?_⟩
    · rw [hB.shape.idx_size, hB.N, hB.M, hd]
    · rw [hB.shape.val_size, hB.N, hB.M, hd]
    · rw [hB.shape.nnz_size, hB.N, hd]
  refine Res.wp_mono (wp_rows h1 (G := fun C : Ell R => C.Shape ∧ C.N = N ∧ C.M = A.M)
    (P := fun _ _ => True) (Q := fun i C => C.nnz.get (perm.get i) = A.nnz.get i ∧
      ∀ k, k < A.M → C.idx.get (perm.get i * A.M + k) = A.idx.get (i * A.M + k) ∧
        C.val.get (perm.get i * A.M + k) = A.val.get (i * A.M + k))
    ⟨hA.shape, hd, rfl⟩ (fun _ _ _ => trivial) ?_) ?_
  · rintro t i C - hi ⟨gS, gN, gM⟩ -
    have hpi := hp.lt i hi
    have hpsz := hp.size
    have hsC : C.idx.size = N * A.M ∧ C.val.size = N * A.M ∧ C.nnz.size = N :=
      ⟨by rw [gS.idx_size, gN, gM], by rw [gS.val_size, gN, gM], by rw [gS.nnz_size, gN]⟩
    unfold reorderRow
    simp only [ROWMAJOR, Nat.add_zero, gM]
    have r1 := hrow hi
    have r2 := hrow hpi
    rw [Arr.read_ok (by omega), Res.bind_ok, Res.wp_bind]
    refine Res.wp_mono (wp_copyRange (by omega) (by omega)) ?_
    rintro xi ⟨e1, e2⟩
    rw [Res.wp_bind]
    refine Res.wp_mono (wp_copyRange (by omega) (by omega)) ?_
    rintro xv ⟨e3, e4⟩
    rw [Arr.read_ok (by omega), Res.bind_ok, Arr.write_ok _ (by omega), Res.bind_ok]
    simp only [Res.pure_eq, Res.wp_ok]
    refine ⟨⟨⟨by simp only; rw [gN]; omega, by simp only; rw [gN]; omega,
      by simp only; rw [gN]; omega⟩, gN, trivial⟩, ⟨?_, ?_⟩, ?_⟩
    · rw [upd_same, hB.nnz i (by omega)]
    · intro k hk
      rw [e2, e4, if_pos (by omega), if_pos (by omega)]
      have := hB.cell i k (by omega) hk
      rw [show perm.get i * A.M + k - perm.get i * A.M = k by omega]
      exact this
    · intro j _ hj hji
      refine ⟨fun h => h, ?_⟩
      rintro ⟨q1, q2⟩
      have hne : perm.get j ≠ perm.get i := fun he => hji (hp.inj j i hj hi he)
      refine ⟨by rw [upd_ne _ _ hne]; exact q1, fun k hk => ?_⟩
      have hout : ¬ (perm.get i * A.M ≤ perm.get j * A.M + k ∧
          perm.get j * A.M + k < perm.get i * A.M + A.M) := by
        rintro ⟨z1, z2⟩
        have := addr_inj (i := perm.get i) (i' := perm.get j)
          (k := perm.get j * A.M + k - perm.get i * A.M) (k' := k) (M := A.M)
          (by omega) hk (by omega)
        exact hne this.1.symm
      rw [e2, e4, if_neg hout, if_neg hout]
      exact q2 k hk
  · rintro C ⟨⟨gS, gN, gM⟩, hQ⟩
    have hrows : ∀ i, i < N → C.RowSat (perm.get i) (fun L => L = A.row i) := by
      intro i hi
      obtain ⟨q1, q2⟩ := hQ i (by omega) hi
      refine ⟨by rw [q1, gM]; exact hA.le i hi, ?_⟩
      unfold row
      rw [q1]
      unfold rowPre
      apply List.map_congr_left
      intro k hk
      have := hA.le i hi
      have hk : k < A.nnz.get i := by simpa using hk
      obtain ⟨w1, w2⟩ := q2 k (by omega)
      rw [gM, w1, w2]
    refine Res.wp_mono (wp_kernel0 (N := N) (M := A.M) h2 (le_refl _)
      (fun i C => reorderCols perm i C)
      (fun r L => ∃ i, i < N ∧ perm.get i = r ∧ L = A.row i)
      (fun r L => ∃ i, i < N ∧ perm.get i = r ∧
        L = (A.row i).map (fun p => (perm.get p.1, p.2))) ?_ gS gN gM ?_) ?_
    · rintro r C' - hr hS hN' hM' ⟨hle, i, hi, hpi, hL⟩
      refine Res.wp_mono (wp_reorderCols hS (by omega) hle (perm := perm) ?_) ?_
      · intro p hp'
        rw [hL] at hp'
        have := (hA.good i hi).2 p hp'
        have := hp.size
        omega
      · rintro C'' ⟨k1, k2, k3, k4⟩
        exact ⟨k1, k2, k3, i, hi, hpi, by rw [k4, hL]⟩
    · intro r hr
      obtain ⟨i, hi, he⟩ := hp.surj hr
      have := hrows i hi
      rw [he] at this
      exact ⟨this.1, i, hi, he, this.2⟩
    · rintro C' ⟨k1, k2, k3, k4⟩
      refine ⟨k1, k2, k3, fun r hr => ?_⟩
      have := k4 r hr
      rwa [if_pos (by omega)] at this

/-- The reordered matrix, by rows and columns. -/
theorem rep_reorder {N : Nat} {A A' : Ell R} {a : Spec.Mat R} (hA : A.Rep N a)
    {perm : Arr Nat} (hp : IsPerm N perm) (h : A'.Shape ∧ A'.N = N ∧ A'.M = A.M ∧
      ∀ r, r < N → A'.RowSat r (fun L => ∃ i, i < N ∧ perm.get i = r ∧
        L = (A.row i).map (fun p => (perm.get p.1, p.2))))
    {a' : Spec.Mat R} (ha' : ∀ i j, i < N → j < N → a' (perm.get i) (perm.get j) = a i j) :
    A'.Rep N a' := by
  obtain ⟨h1, h2, h3, h4⟩ := h
  refine rep_of_rowSat h1 h2 (fun r hr => ?_)
  obtain ⟨k1, i, hi, he, hL⟩ := h4 r hr
  refine ⟨k1, ?_, ?_⟩
  · rw [hL]
    have hg := hA.good i hi
    refine ⟨?_, ?_⟩
    · rw [List.map_map]
      have : (Prod.fst ∘ fun p : Nat × R => (perm.get p.1, p.2)) = perm.get ∘ Prod.fst := rfl
      rw [this, ← List.map_map]
      refine List.Nodup.map_on ?_ hg.1
      intro x hx y hy hxy
      obtain ⟨p, hp1, rfl⟩ := List.mem_map.1 hx
      obtain ⟨q, hq1, rfl⟩ := List.mem_map.1 hy
      exact hp.inj _ _ (hg.2 p hp1) (hg.2 q hq1) hxy
    · intro p hp'
      obtain ⟨q, hq, rfl⟩ := List.mem_map.1 hp'
      exact hp.lt _ (hg.2 q hq)
  · intro c hc
    obtain ⟨j, hj, rfl⟩ := hp.surj hc
    rw [hL, ← he, ha' i j hi hj, ← hA.den i j hi hj]
    have hg := (hA.good i hi).2
    generalize A.row i = L at hg
    induction L with
    | nil => simp
    | cons p L ih =>
      simp only [List.map_cons, SRow.den_cons]
      rw [ih (fun q hq => hg q (by simp [hq]))]
      congr 1
      have hp1 := hg p (by simp)
      by_cases hpj : p.1 = j
      · simp [hpj]
      · rw [if_neg hpj, if_neg (fun he => hpj (hp.inj _ _ hp1 hj he))]

/-! ## Identity -/

omit [CommRing R] in
theorem wp_compact {A : Ell R} (hA : A.Shape) {i : Nat} (hi : i < A.N) {jx : Arr Nat}
    {x : Arr R} {l : Nat} (hjx : l ≤ jx.size) (hx : l ≤ x.size) (hl : l ≤ A.M)
    (big : R → Bool) :
    (loop l (A, 0) fun jp (st : Ell R × Nat) => do
      let jind ← jx.read jp
      let xTmp ← x.read jp
      if big xTmp then do
        let A ← st.1.putEntry i st.2 jind xTmp
        pure (A, st.2 + 1)
      else pure st).wp E (fun (st : Ell R × Nat) => st.1.Shape ∧ Frame A st.1 i ∧ st.2 ≤ l ∧
        st.1.rowPre i st.2 = (arrRow jx x l).filter (fun p => big p.2)) := by
  refine wp_loop' (fun n (st : Ell R × Nat) => st.1.Shape ∧ Frame A st.1 i ∧ st.2 ≤ n ∧
        st.1.rowPre i st.2 = (arrRow jx x n).filter (fun p => big p.2)) ?_ ?_ (fun _ h => h)
  · exact ⟨hA, Frame.refl A i, le_refl _, by simp [arrRow]⟩
  · rintro n hn ⟨C, ll⟩ ⟨g1, g2, g3, g4⟩
    simp only at g1 g2 g3 g4
    rw [Arr.read_ok (by omega), Res.bind_ok, Arr.read_ok (by omega), Res.bind_ok]
    have hM := g2.M
    by_cases hb : big (x.get n) = true
    · rw [if_pos hb, putEntry_eq g1 _ _ (by rw [g2.N]; exact hi) (by simp only; omega),
        Res.bind_ok]
      simp only [Res.pure_eq, Res.wp_ok]
      refine ⟨g1.put _ _ _ _, g2.trans (frame_put C _ _ (by omega)), by omega, ?_⟩
      rw [put_rowPre_succ C (by omega), g4, arrRow_succ, List.filter_append]
      simp [hb]
    · rw [if_neg hb]
      simp only [Res.pure_eq, Res.wp_ok]
      refine ⟨g1, g2, by omega, ?_⟩
      rw [g4, arrRow_succ, List.filter_append]
      simp [hb]

theorem wp_addIdentityRow [DecidableEq R] {N i : Nat} {A : Ell R} {g : Nat → R}
    (hA : A.Shape) (hAN : A.N = N) (hi : i < N) (hrow : A.RowSat i (IsRow N g)) (β : R)
    (big : R → Bool)
    (hcap : β = 0 ∨ A.nnz.get i < A.M ∨ ∃ k, k < A.nnz.get i ∧ A.idx.get (i * A.M + k) = i)
    {jx : Arr Nat} {x : Arr R} (hjx : jx.size = A.M) (hx : x.size = A.M) :
    (addIdentityRow β big i A jx x).wp E (fun st => st.1.Shape ∧ Frame A st.1 i ∧
      st.1.RowSat i (AddRow big N (fun j => g j + β * (if i = j then 1 else 0))) ∧
      st.2.1.size = A.M ∧ st.2.2.size = A.M) := by
  unfold addIdentityRow
  have hiA : i < A.N := by omega
  obtain ⟨hle, hg, hden⟩ := hrow
  rw [read_nnz hA hiA, Res.bind_ok, Res.wp_bind]
  have h1 : (loop (A.nnz.get i) (jx, x, (none : Option Nat))
    fun jp (st : Arr Nat × Arr R × Option Nat) => do
      let k ← A.idx.read (ROWMAJOR i jp A.N A.M)
      let v ← A.val.read (ROWMAJOR i jp A.N A.M)
      let x ← st.2.1.write jp v
      let jx ← st.1.write jp k
      pure (jx, x, if k = i then some jp else st.2.2)).wp E
      (fun (st : Arr Nat × Arr R × Option Nat) => st.1.size = A.M ∧ st.2.1.size = A.M ∧
        (∀ k, k < A.nnz.get i → st.1.get k = A.idx.get (i * A.M + k) ∧
          st.2.1.get k = A.val.get (i * A.M + k)) ∧
        (∀ d, st.2.2 = some d → d < A.nnz.get i ∧ A.idx.get (i * A.M + d) = i) ∧
        (st.2.2 = none → ∀ k, k < A.nnz.get i → A.idx.get (i * A.M + k) ≠ i)) := by
    refine wp_loop' (fun n (st : Arr Nat × Arr R × Option Nat) =>
        st.1.size = A.M ∧ st.2.1.size = A.M ∧
        (∀ k, k < n → st.1.get k = A.idx.get (i * A.M + k) ∧
          st.2.1.get k = A.val.get (i * A.M + k)) ∧
        (∀ d, st.2.2 = some d → d < n ∧ A.idx.get (i * A.M + d) = i) ∧
        (st.2.2 = none → ∀ k, k < n → A.idx.get (i * A.M + k) ≠ i)) ?_ ?_ (fun _ h => h)
    · exact ⟨hjx, hx, by simp, by simp, by simp⟩
    · rintro n hn ⟨jx, x, dg⟩ ⟨g1, g2, g3, g4, g5⟩
      simp only at g1 g2 g3 g4 g5
      rw [read_idx hA hiA (by omega), Res.bind_ok, read_val hA hiA (by omega), Res.bind_ok,
        Arr.write_ok _ (by simp only; omega), Res.bind_ok,
        Arr.write_ok _ (by simp only; omega), Res.bind_ok]
      simp only [Res.pure_eq, Res.wp_ok]
      refine ⟨g1, g2, ?_, ?_, ?_⟩
      · intro k hk
        by_cases he : k = n
        · subst he; simp
        · rw [upd_ne _ _ he, upd_ne _ _ he]; exact g3 k (by omega)
      · intro d hd
        split at hd
        · next hki => simp only [Option.some.injEq] at hd; subst hd; exact ⟨by omega, hki⟩
        · have := g4 d hd; exact ⟨by omega, this.2⟩
      · intro hnone k hk
        split at hnone
        · simp at hnone
        · next hki =>
          by_cases he : k = n
          · subst he; exact hki
          · exact g5 hnone k (by omega)
  refine Res.wp_mono h1 ?_
  rintro ⟨jx1, x1, dg⟩ ⟨g1, g2, g3, g4, g5⟩
  simp only at g1 g2 g3 g4 g5 ⊢
  have hL : arrRow jx1 x1 (A.nnz.get i) = A.row i := by
    unfold arrRow row rowPre
    apply List.map_congr_left
    intro k hk
    have := g3 k (by simpa using hk)
    rw [this.1, this.2]
  rw [Res.wp_bind]
  have h2 : (if β ≠ 0 then
      match (generalizing := false) dg with
      | none => do
        let x ← x1.write (A.nnz.get i) β
        let jx ← jx1.write (A.nnz.get i) i
        pure (jx, x, A.nnz.get i + 1)
      | some d => do
        let xd ← x1.read d
        let x ← x1.write d (xd + β)
        pure (jx1, x, A.nnz.get i)
    else pure (jx1, x1, A.nnz.get i) : Res (Arr Nat × Arr R × Nat)).wp E
      (fun (st : Arr Nat × Arr R × Nat) => st.1.size = A.M ∧ st.2.1.size = A.M ∧ st.2.2 ≤ A.M ∧
        IsRow N (fun j => g j + β * (if i = j then 1 else 0)) (arrRow st.1 st.2.1 st.2.2)) := by
    by_cases hβ : β = 0
    · rw [if_neg (by simpa using hβ)]
      simp only [Res.pure_eq, Res.wp_ok]
      refine ⟨g1, g2, hle, ?_⟩
      rw [hL]
      exact ⟨hg, fun j hj => by rw [hden j hj, hβ]; simp⟩
    · rw [if_pos hβ]
      cases dg with
      | none =>
        have hno := g5 rfl
        have hlt : A.nnz.get i < A.M := by
          rcases hcap with h | h | ⟨k, hk, he⟩
          · exact absurd h hβ
          · exact h
          · exact absurd he (hno k hk)
        have hnm : i ∉ (A.row i).map Prod.fst := by
          intro hm
          obtain ⟨p, hp, he⟩ := List.mem_map.1 hm
          obtain ⟨k, hk, rfl⟩ := mem_rowPre.1 hp
          exact hno k hk he
        simp only
        rw [Arr.write_ok _ (by omega), Res.bind_ok, Arr.write_ok _ (by omega), Res.bind_ok]
        simp only [Res.pure_eq, Res.wp_ok]
        refine ⟨g1, g2, by omega, ?_⟩
        have : arrRow ⟨jx1.size, upd jx1.get (A.nnz.get i) i⟩
            ⟨x1.size, upd x1.get (A.nnz.get i) β⟩ (A.nnz.get i + 1) = A.row i ++ [(i, β)] := by
          rw [arrRow_succ, ← hL]
          congr 1
          · unfold arrRow
            apply List.map_congr_left
            intro k hk
            have hk : k < A.nnz.get i := by simpa using hk
            simp only
            rw [upd_ne _ _ (by omega), upd_ne _ _ (by omega)]
          · simp
        rw [this]
        refine ⟨hg.append_singleton hi hnm, fun j hj => ?_⟩
        rw [SRow.den_append, hden j hj]
        simp
      | some d =>
        obtain ⟨hd1, hd2⟩ := g4 d rfl
        simp only
        rw [Arr.read_ok (by omega), Res.bind_ok, Arr.write_ok _ (by omega), Res.bind_ok]
        simp only [Res.pure_eq, Res.wp_ok]
        refine ⟨g1, g2, hle, ?_⟩
        have hfst : (arrRow jx1 ⟨x1.size, upd x1.get d (x1.get d + β)⟩ (A.nnz.get i)).map Prod.fst
            = (A.row i).map Prod.fst := by
          rw [← hL]; unfold arrRow; rw [List.map_map, List.map_map]; rfl
        refine ⟨⟨by rw [hfst]; exact hg.1, ?_⟩, fun j hj => ?_⟩
        · intro p hp
          have : p.1 ∈ (A.row i).map Prod.fst := by rw [← hfst]; exact List.mem_map.2 ⟨p, hp, rfl⟩
          obtain ⟨q, hq, he⟩ := List.mem_map.1 this
          rw [← he]; exact hg.2 q hq
        · show _ = g j + β * (if i = j then 1 else 0)
          rw [← hden j hj, ← hL]
          unfold arrRow
          rw [SRow.den_range, SRow.den_range]
          have hjd : jx1.get d = i := by rw [(g3 d hd1).1, hd2]
          rw [← Finset.add_sum_erase _ _ (Finset.mem_range.2 hd1),
            ← Finset.add_sum_erase (Finset.range _) _ (Finset.mem_range.2 hd1)]
          have he : ∀ q ∈ (Finset.range (A.nnz.get i)).erase d,
              (if jx1.get q = j then upd x1.get d (x1.get d + β) q else 0)
                = if jx1.get q = j then x1.get q else 0 := by
            intro q hq
            rw [upd_ne _ _ (Finset.ne_of_mem_erase hq)]
          rw [Finset.sum_congr rfl he, hjd]
          simp only [upd_same]
          split <;> simp <;> ring
  refine Res.wp_mono h2 ?_
  rintro ⟨jx2, x2, l⟩ ⟨k1, k2, k3, k4⟩
  simp only at k1 k2 k3 k4 ⊢
  rw [Res.wp_bind]
  refine Res.wp_mono (wp_compact hA hiA (by omega) (by omega) k3 big) ?_
  rintro ⟨C, ll⟩ ⟨m1, m2, m3, m4⟩
  simp only at m1 m2 m3 m4 ⊢
  rw [setNnz_eq m1 _ (by rw [m2.N]; exact hiA), Res.bind_ok]
  simp only [Res.pure_eq, Res.wp_ok]
  refine ⟨m1.withNnz _ _, m2.trans (frame_withNnz _ _ _), ⟨?_, ?_⟩, k1, k2⟩
  · simp [m2.M]; omega
  · rw [withNnz_row_same, m4]
    exact keep_row k4 big

theorem wp_addIdentity [DecidableEq R] {N : Nat} {A : Ell R} {a : Spec.Mat R} (hA : A.Rep N a)
    (β : R) (big : R → Bool) {sc : Sched} (hsc : IsSched 0 N sc)
    (hcap : ∀ i, i < N → β = 0 ∨ A.nnz.get i < A.M ∨
      ∃ k, k < A.nnz.get i ∧ A.idx.get (i * A.M + k) = i) :
    (addIdentity A β big sc).wp E (fun A' => A'.M = A.M ∧ A'.Shape ∧ A'.N = N ∧
      ∀ i, i < N → A'.RowSat i
        (AddRow big N (fun j => a i j + β * (if i = j then 1 else 0)))) := by
  unfold addIdentity
  rw [Res.wp_bind]
  refine Res.wp_mono (wp_rows hsc
    (G := fun st : Ell R × (Nat → Arr Nat × Arr R) => st.1.Shape ∧ st.1.N = N ∧ st.1.M = A.M ∧
      ∀ t, (st.2 t).1.size = A.M ∧ (st.2 t).2.size = A.M)
    (P := fun i st => st.1.RowSat i (fun L => L = A.row i))
    (Q := fun i st => st.1.RowSat i
        (AddRow big N (fun j => a i j + β * (if i = j then 1 else 0))))
    ⟨hA.shape, hA.dim, rfl, fun _ => ⟨rfl, rfl⟩⟩ (fun i _ hi => hA.rowSelf hi) ?_) ?_
  · rintro t i ⟨C, scr⟩ - hi ⟨gS, gN, gM, gC⟩ hPi
    simp only at gS gN gM gC hPi
    simp only [Res.wp_bind]
    have hnn : C.nnz.get i = A.nnz.get i := by
      have := congrArg List.length hPi.2
      simpa using this
    have hcap' : β = 0 ∨ C.nnz.get i < C.M ∨
        ∃ k, k < C.nnz.get i ∧ C.idx.get (i * C.M + k) = i := by
      rcases hcap i hi with h | h | ⟨k, hk, he⟩
      · exact Or.inl h
      · exact Or.inr (Or.inl (by rw [hnn, gM]; exact h))
      · refine Or.inr (Or.inr ⟨k, by rw [hnn]; exact hk, ?_⟩)
        have h1 : (C.row i)[k]? = (A.row i)[k]? := by rw [hPi.2]
        simp only [row, rowPre, List.getElem?_map, List.getElem?_range hk, hnn,
          Option.map_some, Option.some.injEq, Prod.mk.injEq] at h1
        rw [h1.1, he]
    refine Res.wp_mono (wp_addIdentityRow gS gN hi (g := a i)
      ⟨hPi.1, by rw [hPi.2]; exact isRow_of_rep hA hi⟩ β big hcap'
      (by rw [gM]; exact (gC t).1) (by rw [gM]; exact (gC t).2)) ?_
    rintro ⟨C', jx, x⟩ ⟨k1, k2, k3, k4, k5⟩
    simp only [Res.pure_eq, Res.wp_ok] at k1 k2 k3 k4 k5 ⊢
    refine ⟨⟨k1, by rw [k2.N, gN], by rw [k2.M, gM], ?_⟩, k3, ?_⟩
    · intro t'
      by_cases ht : t' = t
      · subst ht; simp [k4, k5, gM]
      · rw [upd_ne _ _ ht]; exact gC t'
    · intro j _ _ hj
      exact ⟨k2.rowSat hj, k2.rowSat hj⟩
  · rintro ⟨C', scr'⟩ ⟨⟨gS, gN, gM, _⟩, hQ⟩
    exact ⟨gM, gS, gN, fun i hi => hQ i (by omega) hi⟩

end Ell

end Bml
