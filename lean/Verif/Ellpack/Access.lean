import Verif.Ellpack.AddNorm

/-!
# ELLPACK getters and setters
-/

set_option linter.unusedSectionVars false

namespace Bml

/-- A sequential loop is a parallel loop run by one thread in order. -/
theorem loop_eq_forList {σ : Type u} (n : Nat) (s : σ) (f : Nat → σ → Res σ) :
    loop n s f = forList (seqSched 0 n) s (fun ti => f ti.2) := by
  induction n with
  | zero => rfl
  | succ n ih =>
    rw [loop_succ, ih]
    have : seqSched 0 (n + 1) = seqSched 0 n ++ [(0, n)] := by
      simp [seqSched, List.range_succ]
    rw [this, forList_append]
    cases forList (seqSched 0 n) s (fun ti => f ti.2) with
    | ok a => simp only [Res.bind_ok, forList_cons, forList_nil]; cases f n a <;> rfl
    | error => rfl
    | ub => rfl

namespace Ell

variable {R : Type} [CommRing R] {E : Prop}

/-! ## Getters -/

theorem wp_getRow {N : Nat} {A : Ell R} {a : Spec.Mat R} (hA : A.Rep N a) {i : Nat}
    (hi : i < N) : (A.getRow i).wp E (fun row => row.size = N ∧ ∀ j, j < N → row.get j = a i j) := by
  unfold getRow
  have hd := hA.dim
  have hle := hA.le i hi
  rw [read_nnz hA.shape (by omega), Res.bind_ok]
  refine wp_loop' (fun n (row : Arr R) => row.size = N ∧
    ∀ j, j < N → row.get j = (A.rowPre i n).den j) ?_ ?_ ?_
  · exact ⟨hd, fun j _ => by simp⟩
  · rintro k hk r ⟨g1, g2⟩
    rw [read_idx hA.shape (by omega) (by omega), Res.bind_ok,
      read_val hA.shape (by omega) (by omega), Res.bind_ok]
    have hlt : A.idx.get (i * A.M + k) < N := (hA.good i hi).2 _ (mem_rowPre.2 ⟨k, hk, rfl⟩)
    rw [Arr.write_ok _ (by omega)]
    refine ⟨g1, fun j hj => ?_⟩
    rw [rowPre_succ, SRow.den_append, SRow.den_cons, SRow.den_nil, add_zero]
    simp only
    by_cases he : A.idx.get (i * A.M + k) = j
    · subst he
      rw [upd_same, if_pos rfl, SRow.den_of_not_mem, zero_add]
      intro hm
      obtain ⟨p, hp, hpe⟩ := List.mem_map.1 hm
      obtain ⟨q, hq, rfl⟩ := mem_rowPre.1 hp
      have h1 := (hA.good i hi).1
      unfold row rowPre at h1
      rw [List.map_map] at h1
      have := List.inj_on_of_nodup_map h1 (x := q) (y := k) (by simp; omega) (by simpa using hk) hpe
      omega
    · rw [upd_ne _ _ (Ne.symm he), if_neg he, add_zero, g2 j hj]
  · rintro row ⟨g1, g2⟩
    exact ⟨g1, fun j hj => by rw [g2 j hj]; exact hA.den i j hi hj⟩

theorem wp_getDiagonal {N : Nat} {A : Ell R} {a : Spec.Mat R} (hA : A.Rep N a) :
    (A.getDiagonal).wp E (fun d => d.size = N ∧ ∀ i, i < N → d.get i = a i i) := by
  unfold getDiagonal
  have hd := hA.dim
  refine wp_loop' (fun n (d : Arr R) => d.size = N ∧ ∀ i, i < n → d.get i = a i i) ?_ ?_
    (fun _ h => by rw [hd] at h; exact h)
  · exact ⟨hd, by simp⟩
  · rintro i hi dg ⟨g1, g2⟩
    rw [hd] at hi
    have hle := hA.le i hi
    rw [read_nnz hA.shape (by omega), Res.bind_ok, Arr.write_ok _ (by omega), Res.bind_ok]
    refine wp_loop' (fun n (d : Arr R) => d.size = N ∧ (∀ i', i' < i → d.get i' = a i' i') ∧
      d.get i = (A.rowPre i n).den i) ?_ ?_ ?_
    · refine ⟨g1, fun i' hi' => ?_, ?_⟩
      · simp only; rw [upd_ne _ _ (by omega)]; exact g2 i' hi'
      · simp
    · rintro k hk d ⟨k1, k2, k3⟩
      rw [read_idx hA.shape (by omega) (by omega), Res.bind_ok]
      by_cases he : A.idx.get (i * A.M + k) = i
      · rw [if_pos he, read_val hA.shape (by omega) (by omega), Res.bind_ok,
          Arr.write_ok _ (by omega)]
        refine ⟨k1, fun i' hi' => ?_, ?_⟩
        · simp only; rw [upd_ne _ _ (by omega)]; exact k2 i' hi'
        · simp only
          rw [upd_same, rowPre_succ, SRow.den_append, SRow.den_of_not_mem]
          · simp [he]
          · intro hm
            obtain ⟨p, hp, hpe⟩ := List.mem_map.1 hm
            obtain ⟨q, hq, rfl⟩ := mem_rowPre.1 hp
            have h1 := (hA.good i hi).1
            unfold row rowPre at h1
            rw [List.map_map] at h1
            have := List.inj_on_of_nodup_map h1 (x := q) (y := k) (by simp; omega)
              (by simpa using hk) (by simp only [Function.comp]; rw [he]; exact hpe)
            omega
      · rw [if_neg he]
        refine ⟨k1, k2, ?_⟩
        rw [k3, rowPre_succ, SRow.den_append]
        simp [he]
    · rintro d ⟨k1, k2, k3⟩
      refine ⟨k1, fun i' hi' => ?_⟩
      by_cases he : i' = i
      · subst he; rw [k3]; exact hA.den i' i' hi hi
      · exact k2 i' (by omega)

/-! ## Overwriting a slot, appending a slot -/

/-- The matrix with the value of slot `l` of row `i` replaced. -/
def setv (A : Ell R) (i l : Nat) (v : R) : Ell R :=
  { A with val := ⟨A.val.size, upd A.val.get (i * A.M + l) v⟩ }

omit [CommRing R] in
theorem Shape.setv {A : Ell R} (h : A.Shape) (i l : Nat) (v : R) : (A.setv i l v).Shape :=
  ⟨h.val_size, h.idx_size, h.nnz_size⟩

omit [CommRing R] in
theorem frame_setv (A : Ell R) {i l : Nat} (v : R) (hl : l < A.M) : Frame A (A.setv i l v) i := by
  refine ⟨rfl, rfl, fun _ _ => rfl, fun i' m hi hm => rowPre_congr rfl (fun k hk => ⟨rfl, ?_⟩)⟩
  show upd A.val.get (i * A.M + l) v (i' * A.M + k) = _
  rw [upd_ne]
  intro he
  exact hi (addr_inj (by omega) hl he).1

/-- Replacing the value of a stored column. -/
theorem isRow_setv {N : Nat} {A : Ell R} {i l : Nat} {g : Nat → R}
    (h : A.RowSat i (IsRow N g)) (hl : l < A.nnz.get i) (v : R) :
    (A.setv i l v).RowSat i
      (IsRow N (fun j => if j = A.idx.get (i * A.M + l) then v else g j)) := by
  obtain ⟨hle, hg, hden⟩ := h
  refine ⟨hle, ?_, ?_⟩
  · have : ((A.setv i l v).row i).map Prod.fst = (A.row i).map Prod.fst := by
      unfold row rowPre; rw [List.map_map, List.map_map]; rfl
    refine ⟨by rw [this]; exact hg.1, fun p hp => ?_⟩
    have h2 : p.1 ∈ (A.row i).map Prod.fst := by rw [← this]; exact List.mem_map.2 ⟨p, hp, rfl⟩
    obtain ⟨q, hq, he⟩ := List.mem_map.1 h2
    rw [← he]; exact hg.2 q hq
  · intro j hj
    show _ = if j = A.idx.get (i * A.M + l) then v else g j
    rw [← hden j hj]
    unfold row rowPre
    rw [SRow.den_range, SRow.den_range]
    show ∑ q ∈ Finset.range (A.nnz.get i), (if A.idx.get (i * A.M + q) = j then
      upd A.val.get (i * A.M + l) v (i * A.M + q) else 0) = _
    have hinj : ∀ q, q < A.nnz.get i → A.idx.get (i * A.M + q) = A.idx.get (i * A.M + l) →
        q = l := by
      intro q hq he
      have h1 := hg.1
      unfold row rowPre at h1
      rw [List.map_map] at h1
      exact List.inj_on_of_nodup_map h1 (x := q) (y := l) (by simpa using hq) (by simpa using hl) he
    split
    · next he =>
      rw [Finset.sum_eq_single l]
      · rw [if_pos he.symm, upd_same]
      · intro q hq hne
        rw [if_neg]
        intro hc
        exact hne (hinj q (by simpa using hq) (by rw [hc, he]))
      · intro hn; exact absurd (by simpa using hl) hn
    · next he =>
      apply Finset.sum_congr rfl
      intro q hq
      split
      · next hc =>
        rw [upd_ne]
        intro h3
        have : q = l := by omega
        subst this
        exact he hc.symm
      · rfl

theorem isRow_append {N : Nat} {A : Ell R} (hA : A.Shape) {i : Nat} (hi : i < A.N) {g : Nat → R}
    (h : A.RowSat i (IsRow N g)) (hcap : A.nnz.get i < A.M) {j : Nat} (hj : j < N)
    (hno : ∀ k, k < A.nnz.get i → A.idx.get (i * A.M + k) ≠ j) (v : R) :
    ∃ A', (do
      let A1 ← A.putEntry i (A.nnz.get i) j v
      A1.setNnz i (A.nnz.get i + 1)) = .ok A' ∧ A'.Shape ∧ Frame A A' i ∧
      A'.nnz.get i = A.nnz.get i + 1 ∧
      A'.RowSat i (IsRow N (fun j' => if j' = j then v else g j')) := by
  obtain ⟨hle, hg, hden⟩ := h
  rw [putEntry_eq hA _ _ hi hcap, Res.bind_ok, setNnz_eq (hA.put _ _ _ _) _ hi]
  refine ⟨_, rfl, (hA.put _ _ _ _).withNnz _ _, (frame_put A _ _ hcap).trans
    (frame_withNnz _ _ _), by simp, ?_, ?_⟩
  · simp; omega
  · rw [withNnz_row_same, put_rowPre_succ A hcap]
    have hnm : j ∉ (A.row i).map Prod.fst := by
      intro hm
      obtain ⟨p, hp, he⟩ := List.mem_map.1 hm
      obtain ⟨k, hk, rfl⟩ := mem_rowPre.1 hp
      exact hno k hk he
    refine ⟨SRow.Good.append_singleton hg hj hnm, fun j' hj' => ?_⟩
    rw [SRow.den_append, SRow.den_cons, SRow.den_nil, add_zero]
    simp only
    by_cases he : j = j'
    · subst he
      have h0 := SRow.den_of_not_mem hnm
      unfold row at h0
      rw [h0]; simp
    · rw [if_neg he, if_neg (Ne.symm he), add_zero]
      exact hden j' hj'

/-! ## Setters -/

omit [CommRing R] in
theorem findSlot_spec {A : Ell R} (hA : A.Shape) {i : Nat} (hi : i < A.N) (j : Nat) :
    ∀ (fuel p : Nat), p + fuel ≤ A.M → ∃ r, A.findSlot i j p fuel = .ok r ∧
      (∀ l, r = some l → p ≤ l ∧ l < p + fuel ∧ A.idx.get (i * A.M + l) = j) ∧
      (r = none → ∀ k, p ≤ k → k < p + fuel → A.idx.get (i * A.M + k) ≠ j) := by
  intro fuel
  induction fuel with
  | zero => intro p _; exact ⟨none, rfl, by simp, fun _ k h1 h2 => by omega⟩
  | succ fuel ih =>
    intro p hp
    unfold findSlot
    rw [read_idx hA hi (by omega), Res.bind_ok]
    by_cases he : A.idx.get (i * A.M + p) = j
    · rw [if_pos he]
      refine ⟨some p, rfl, ?_, by simp⟩
      intro l hl
      simp only [Option.some.injEq] at hl
      subst hl
      exact ⟨le_refl _, by omega, he⟩
    · rw [if_neg he]
      obtain ⟨r, h1, h2, h3⟩ := ih (p + 1) (by omega)
      refine ⟨r, h1, ?_, ?_⟩
      · intro l hl
        have := h2 l hl
        exact ⟨by omega, by omega, this.2.2⟩
      · intro hr k hk1 hk2
        by_cases hkp : k = p
        · subst hkp; exact he
        · exact h3 hr k (by omega) (by omega)

/-- `set_element` on a row that is searched, or that does not hold the column. -/
theorem wp_setElement {N : Nat} {A : Ell R} {a : Spec.Mat R} (hA : A.Rep N a) {i j : Nat}
    (hi : i < N) (hj : j < N) (v : R)
    (hok : (2 < A.nnz.get i ∧ (A.nnz.get i < A.M ∨
        ∃ k, k < A.nnz.get i ∧ A.idx.get (i * A.M + k) = j)) ∨
      (A.nnz.get i < A.M ∧ ∀ k, k < A.nnz.get i → A.idx.get (i * A.M + k) ≠ j)) :
    (A.setElement i j v).wp E (fun A' => A'.M = A.M ∧ A'.Rep N (Spec.set a i j v) ∧
      Frame A A' i) := by
  have hd := hA.dim
  have hle := hA.le i hi
  have hS := hA.shape
  -- the row `i` determines the result
  have fin : ∀ A' : Ell R, A'.Shape → Frame A A' i →
      A'.RowSat i (IsRow N (fun j' => if j' = j then v else a i j')) →
      A'.M = A.M ∧ A'.Rep N (Spec.set a i j v) ∧ Frame A A' i := by
    intro A' h1 h2 h3
    refine ⟨h2.M, rep_of_rowSat h1 (by rw [h2.N, hd]) (fun i' hi' => ?_), h2⟩
    by_cases he : i' = i
    · subst he
      have : (Spec.set a i' j v) i' = fun j' => if j' = j then v else a i' j' := by
        funext j'; simp [Spec.set]
      rw [this]; exact h3
    · have : (Spec.set a i j v) i' = a i' := by
        funext j'; simp [Spec.set, he]
      rw [this]; exact h2.rowSat he (hA.rowSat hi')
  have app : A.nnz.get i < A.M → (∀ k, k < A.nnz.get i → A.idx.get (i * A.M + k) ≠ j) →
      (do
        let A1 ← A.putEntry i (A.nnz.get i) j v
        A1.setNnz i (A.nnz.get i + 1) : Res (Ell R)).wp E (fun A' => A'.M = A.M ∧
          A'.Rep N (Spec.set a i j v) ∧ Frame A A' i) := by
    intro hcap hno
    obtain ⟨A', e, h1, h2, _, h3⟩ :=
      isRow_append hS (by omega) (hA.rowSat hi) hcap hj hno v
    rw [e]
    exact fin A' h1 h2 h3
  unfold setElement
  rw [read_nnz hS (by omega), Res.bind_ok]
  by_cases hn : A.nnz.get i > 2
  · rw [if_pos hn]
    obtain ⟨r, e, h1, h2⟩ := findSlot_spec hS (i := i) (by omega) j (A.nnz.get i) 0 (by omega)
    rw [e, Res.bind_ok]
    cases r with
    | some l =>
      obtain ⟨-, hl, hlj⟩ := h1 l rfl
      simp only [ROWMAJOR]
      rw [Arr.write_ok _ (by rw [hS.val_size]; exact addr_lt (by omega) (by omega)), Res.bind_ok,
        Res.pure_eq, Res.wp_ok]
      refine fin (A.setv i l v) (hS.setv _ _ _) (frame_setv A v (by omega)) ?_
      have := isRow_setv (hA.rowSat hi) (l := l) (by omega) v
      rw [hlj] at this
      exact this
    | none =>
      simp only
      have hno : ∀ k, k < A.nnz.get i → A.idx.get (i * A.M + k) ≠ j :=
        fun k hk => h2 rfl k (by omega) (by omega)
      apply app _ hno
      rcases hok with ⟨_, h | ⟨k, hk, he⟩⟩ | h
      · exact h
      · exact absurd he (hno k hk)
      · exact h.1
  · rw [if_neg hn]
    rcases hok with h | h
    · omega
    · exact app h.1 h.2

/-- `set_element_new` on a row that does not hold the column. -/
theorem wp_setElementNew {N : Nat} {A : Ell R} {a : Spec.Mat R} (hA : A.Rep N a) {i j : Nat}
    (hi : i < N) (hj : j < N) (v : R) (hcap : A.nnz.get i < A.M)
    (hno : ∀ k, k < A.nnz.get i → A.idx.get (i * A.M + k) ≠ j) :
    (A.setElementNew i j v).wp E (fun A' => A'.M = A.M ∧ A'.Rep N (Spec.set a i j v) ∧
      Frame A A' i) := by
  have hd := hA.dim
  have hS := hA.shape
  unfold setElementNew
  rw [read_nnz hS (by omega), Res.bind_ok]
  obtain ⟨A', e, h1, h2, _, h3⟩ := isRow_append hS (by omega) (hA.rowSat hi) hcap hj hno v
  rw [e]
  refine ⟨h2.M, rep_of_rowSat h1 (by rw [h2.N, hd]) (fun i' hi' => ?_), h2⟩
  by_cases he : i' = i
  · subst he
    have : (Spec.set a i' j v) i' = fun j' => if j' = j then v else a i' j' := by
      funext j'; simp [Spec.set]
    rw [this]; exact h3
  · have : (Spec.set a i j v) i' = a i' := by
      funext j'; simp [Spec.set, he]
    rw [this]; exact h2.rowSat he (hA.rowSat hi')

/-- Row `i` replaced by the entries of a vector that pass the test. -/
theorem wp_setRowGen {A : Ell R} {N : Nat} (hS : A.Shape) (hd : A.N = N) {i : Nat} (hi : i < N)
    {row : Arr R} (hr : N ≤ row.size) (big : R → Bool)
    (hfit : ((Finset.range N).filter (fun j => big (row.get j) = true)).card ≤ A.M) :
    (A.setRow i row big).wp E (fun A' => A'.Shape ∧ Frame A A' i ∧
      A'.RowSat i (AddRow big N row.get) ∧
      A'.nnz.get i = ((Finset.range N).filter (fun j => big (row.get j) = true)).card) := by
  unfold setRow
  rw [Res.wp_bind, hd]
  have hcard : ((List.range N).filter (fun j => big (row.get j))).length
      = ((Finset.range N).filter (fun j => big (row.get j) = true)).card :=
    SRow.length_eq_card (List.nodup_range.filter _) _ (fun j => by simp)
  refine Res.wp_mono (wp_loop' (fun n (st : Ell R × Nat) => st.1.Shape ∧ Frame A st.1 i ∧
      st.2 = ((List.range n).filter (fun j => big (row.get j))).length ∧
      st.1.rowPre i st.2 = SRow.ofCols ((List.range n).filter (fun j => big (row.get j))) row.get)
      ?_ ?_ (fun _ h => h)) ?_
  · exact ⟨hS, Frame.refl A i, by simp, by simp [SRow.ofCols]⟩
  · rintro k hk ⟨C, ll⟩ ⟨g1, g2, g3, g4⟩
    simp only at g1 g2 g3 g4 ⊢
    rw [Arr.read_ok (by omega), Res.bind_ok]
    by_cases hb : big (row.get k) = true
    · have hfil : (List.range (k + 1)).filter (fun j => big (row.get j))
          = (List.range k).filter (fun j => big (row.get j)) ++ [k] := by
        rw [List.range_succ, List.filter_append]; simp [hb]
      have hlt : ll < A.M := by
        have : ((List.range (k + 1)).filter (fun j => big (row.get j))).length
            ≤ ((List.range N).filter (fun j => big (row.get j))).length := by
          apply List.Sublist.length_le
          apply List.Sublist.filter
          exact List.range_sublist.2 (by omega)
        rw [hfil] at this
        simp only [List.length_append, List.length_singleton] at this
        omega
      rw [if_pos hb, putEntry_eq g1 _ _ (by rw [g2.N]; omega) (by rw [g2.M]; exact hlt),
        Res.bind_ok]
      simp only [Res.pure_eq, Res.wp_ok]
      refine ⟨g1.put _ _ _ _, g2.trans (frame_put C _ _ (by rw [g2.M]; exact hlt)), ?_, ?_⟩
      · rw [hfil, g3]; simp
      · rw [put_rowPre_succ C (by rw [g2.M]; exact hlt), g4, hfil, SRow.ofCols_append]; rfl
    · have hfil : (List.range (k + 1)).filter (fun j => big (row.get j))
          = (List.range k).filter (fun j => big (row.get j)) := by
        rw [List.range_succ, List.filter_append]; simp [hb]
      rw [if_neg hb]
      simp only [Res.pure_eq, Res.wp_ok]
      exact ⟨g1, g2, by rw [hfil]; exact g3, by rw [hfil]; exact g4⟩
  · rintro ⟨C, ll⟩ ⟨g1, g2, g3, g4⟩
    simp only at g1 g2 g3 g4 ⊢
    rw [setNnz_eq g1 _ (by rw [g2.N]; omega)]
    refine ⟨g1.withNnz _ _, g2.trans (frame_withNnz _ _ _), ⟨?_, ?_⟩, ?_⟩
    · simp [g2.M]; omega
    · rw [withNnz_row_same, g4]
      refine ⟨⟨SRow.good_ofCols (List.nodup_range.filter _) (fun j hj => by
        have := (List.mem_filter.1 hj).1; simpa using this), fun j hj => ?_⟩, ?_⟩
      · rw [SRow.den_ofCols _ (List.nodup_range.filter _)]
        unfold Spec.keep
        by_cases hb : big (row.get j) = true <;> simp [hb, hj]
      · intro p hp
        simp only [SRow.ofCols, List.mem_map] at hp
        obtain ⟨j, hj, rfl⟩ := hp
        exact (List.mem_filter.1 hj).2
    · simp; omega

/-- One row of `set_diagonal`. -/
theorem wp_setDiagonalRow {A : Ell R} {N : Nat} (hS : A.Shape) (hd : A.N = N) {i : Nat}
    (hi : i < N) {g : Nat → R} (hrow : A.RowSat i (IsRow N g)) {diag : Arr R}
    (hsz : N ≤ diag.size) (big : R → Bool)
    (hcap : big (diag.get i) = false ∨ A.nnz.get i < A.M ∨
      ∃ k, k < A.nnz.get i ∧ A.idx.get (i * A.M + k) = i) :
    (setDiagonalRow big diag i A).wp E (fun A' => A'.Shape ∧ Frame A A' i ∧
      A'.RowSat i (IsRow N (fun j => if j = i then Spec.keep big (diag.get i) else g j))) := by
  unfold setDiagonalRow
  have hle := hrow.1
  rw [read_nnz hS (by omega), Res.bind_ok, Arr.read_ok (by omega), Res.bind_ok, Res.wp_bind]
  have h1 : (loop (A.nnz.get i) (A, false) fun j (st : Ell R × Bool) => do
    let k ← st.1.idx.read (ROWMAJOR i j st.1.N st.1.M)
    if k = i then
      let val ← st.1.val.write (ROWMAJOR i j st.1.N st.1.M)
        (if big (diag.get i) then diag.get i else 0)
      pure ({ st.1 with val := val }, true)
    else pure st).wp E (fun (st : Ell R × Bool) =>
      (st = (A, false) ∧ ∀ k, k < A.nnz.get i → A.idx.get (i * A.M + k) ≠ i) ∨
      ∃ l, l < A.nnz.get i ∧ A.idx.get (i * A.M + l) = i ∧
        st = (A.setv i l (Spec.keep big (diag.get i)), true)) := by
    refine wp_loop' (fun n (st : Ell R × Bool) =>
      (st = (A, false) ∧ ∀ k, k < n → A.idx.get (i * A.M + k) ≠ i) ∨
      ∃ l, l < n ∧ A.idx.get (i * A.M + l) = i ∧
        st = (A.setv i l (Spec.keep big (diag.get i)), true)) ?_ ?_ (fun _ h => h)
    · exact Or.inl ⟨rfl, by simp⟩
    · rintro k hk st hst
      rcases hst with ⟨rfl, hno⟩ | ⟨l, hl, hli, rfl⟩
      · simp only
        rw [read_idx hS (by omega) (by omega), Res.bind_ok]
        by_cases he : A.idx.get (i * A.M + k) = i
        · rw [if_pos he]
          simp only [ROWMAJOR]
          rw [Arr.write_ok _ (by rw [hS.val_size]; exact addr_lt (by omega) (by omega)),
            Res.bind_ok]
          exact Or.inr ⟨k, by omega, he, rfl⟩
        · rw [if_neg he]
          refine Or.inl ⟨rfl, fun q hq => ?_⟩
          by_cases hqk : q = k
          · subst hqk; exact he
          · exact hno q (by omega)
      · have he : A.idx.get (i * A.M + k) ≠ i := by
          intro he
          have h2 := hrow.2.1.1
          unfold row rowPre at h2
          rw [List.map_map] at h2
          have := List.inj_on_of_nodup_map h2 (x := k) (y := l) (by simpa using hk)
            (by simp; omega) (by simp only [Function.comp]; rw [he, hli])
          omega
        have hr : (A.setv i l (Spec.keep big (diag.get i))).idx.read
            (ROWMAJOR i k (A.setv i l (Spec.keep big (diag.get i))).N
              (A.setv i l (Spec.keep big (diag.get i))).M)
            = .ok (A.idx.get (i * A.M + k)) :=
          read_idx hS (by omega) (by omega)
        simp only
        rw [hr, Res.bind_ok, if_neg he]
        exact Or.inr ⟨l, by omega, hli, rfl⟩
  refine Res.wp_mono h1 ?_
  rintro st (⟨rfl, hno⟩ | ⟨l, hl, hli, rfl⟩)
  · simp only [Bool.false_eq_true, if_false]
    by_cases hb : big (diag.get i) = true
    · rw [if_pos hb]
      have hlt : A.nnz.get i < A.M := by
        rcases hcap with h | h | ⟨k, hk, he⟩
        · rw [hb] at h; cases h
        · exact h
        · exact absurd he (hno k hk)
      obtain ⟨A', e, k1, k2, _, k3⟩ := isRow_append hS (by omega) hrow hlt hi hno (diag.get i)
      rw [e]
      refine ⟨k1, k2, ?_⟩
      unfold Spec.keep
      rw [if_pos hb]
      exact k3
    · rw [if_neg hb]
      refine ⟨hS, Frame.refl A i, hrow.1, hrow.2.1, fun j hj => ?_⟩
      rw [hrow.2.2 j hj]
      simp only
      split
      · next he =>
        subst he
        unfold Spec.keep
        rw [if_neg hb, ← hrow.2.2 j hj, SRow.den_of_not_mem]
        intro hm
        obtain ⟨p, hp, he⟩ := List.mem_map.1 hm
        obtain ⟨k, hk, rfl⟩ := mem_rowPre.1 hp
        exact hno k hk he
      · rfl
  · simp only [if_true]
    refine ⟨hS.setv _ _ _, frame_setv A _ (by omega), ?_⟩
    have := isRow_setv hrow hl (Spec.keep big (diag.get i))
    rw [hli] at this
    exact this

theorem wp_setDiagonal {N : Nat} {A : Ell R} {a : Spec.Mat R} (hA : A.Rep N a) {diag : Arr R}
    (hsz : N ≤ diag.size) (big : R → Bool)
    (hcap : ∀ i, i < N → big (diag.get i) = false ∨ A.nnz.get i < A.M ∨
      ∃ k, k < A.nnz.get i ∧ A.idx.get (i * A.M + k) = i) :
    (A.setDiagonal diag big).wp E (fun A' => A'.M = A.M ∧
      A'.Rep N (fun i j => if i = j then Spec.keep big (diag.get i) else a i j)) := by
  unfold setDiagonal
  rw [hA.dim]
  rw [loop_eq_forList]
  refine Res.wp_mono (wp_kernel0 (N := N) (M := A.M) (isSched_seq 0 N) (le_refl _)
    (fun i C => setDiagonalRow big diag i C)
    (fun i L => L = A.row i)
    (fun i => IsRow N (fun j => if j = i then Spec.keep big (diag.get i) else a i j)) ?_
    hA.shape hA.dim rfl (fun i hi => hA.rowSelf hi)) ?_
  · rintro i C - hi hS hN hM hP
    have hnn : C.nnz.get i = A.nnz.get i := by
      have := congrArg List.length hP.2
      simpa using this
    refine wp_setDiagonalRow hS hN hi (g := a i) ⟨hP.1, by rw [hP.2]; exact isRow_of_rep hA hi⟩
      hsz big ?_
    rcases hcap i hi with h | h | ⟨k, hk, he⟩
    · exact Or.inl h
    · exact Or.inr (Or.inl (by rw [hnn, hM]; exact h))
    · refine Or.inr (Or.inr ⟨k, by rw [hnn]; exact hk, ?_⟩)
      have h1 : (C.row i)[k]? = (A.row i)[k]? := by rw [hP.2]
      simp only [row, rowPre, List.getElem?_map, List.getElem?_range hk, hnn,
        Option.map_some, Option.some.injEq, Prod.mk.injEq] at h1
      rw [h1.1, he]
  · rintro C ⟨h1, h2, h3, h4⟩
    refine ⟨h3, rep_of_rowSat h1 h2 (fun i hi => ?_)⟩
    have := h4 i hi
    rw [if_pos (by omega)] at this
    refine ⟨this.1, this.2.1, fun j hj => ?_⟩
    rw [this.2.2 j hj]
    simp only [eq_comm]

end Ell

end Bml
