import Verif.Ellpack.Apps

/-!
# ELLPACK matrices as lists of rows
-/

set_option linter.unusedSectionVars false

namespace Bml

theorem getElem?_lt_some {α : Type} {l : List α} {k : Nat} {x : α} (h : l[k]? = some x) :
    k < l.length := by
  by_contra hc
  rw [List.getElem?_eq_none (by omega)] at h
  cases h

namespace Ell

variable {R : Type} [CommRing R] {E : Prop}

/-- The rows of `A` are the lists `Lf 0, Lf 1, ...`. -/
structure Rows (A : Ell R) (N M : Nat) (Lf : Nat → SRow R) : Prop where
  shape : A.Shape
  dim : A.N = N
  wid : A.M = M
  le : ∀ r, r < N → A.nnz.get r ≤ M
  row : ∀ r, r < N → A.row r = Lf r

variable {A : Ell R} {N M : Nat} {Lf : Nat → SRow R}

theorem Rows.nnz (h : Rows A N M Lf) {r : Nat} (hr : r < N) : A.nnz.get r = (Lf r).length := by
  rw [← h.row r hr, row_length]

theorem Rows.get (h : Rows A N M Lf) {r k : Nat} (hr : r < N) {c : Nat} {v : R}
    (hk : (Lf r)[k]? = some (c, v)) : A.idx.get (r * A.M + k) = c ∧ A.val.get (r * A.M + k) = v := by
  have hlt := getElem?_lt_some hk
  rw [← h.row r hr] at hk hlt
  rw [row_length] at hlt
  unfold Ell.row rowPre at hk
  rw [List.getElem?_map, List.getElem?_range hlt] at hk
  simpa using hk

theorem Rows.read_nnz (h : Rows A N M Lf) {r : Nat} (hr : r < N) :
    A.nnz.read r = .ok (Lf r).length := by
  rw [Ell.read_nnz h.shape (by rw [h.dim]; exact hr), h.nnz hr]

theorem Rows.lt_wid (h : Rows A N M Lf) {r k : Nat} (hr : r < N) {p : Nat × R}
    (hk : (Lf r)[k]? = some p) : k < A.M := by
  have h1 := getElem?_lt_some hk
  have h2 := h.le r hr
  rw [h.nnz hr] at h2
  rw [h.wid]; omega

theorem Rows.read_idx (h : Rows A N M Lf) {r k : Nat} (hr : r < N) {c : Nat} {v : R}
    (hk : (Lf r)[k]? = some (c, v)) : A.idx.read (ROWMAJOR r k A.N A.M) = .ok c := by
  rw [Ell.read_idx h.shape (by rw [h.dim]; exact hr) (h.lt_wid hr hk), (h.get hr hk).1]

theorem Rows.read_val (h : Rows A N M Lf) {r k : Nat} (hr : r < N) {c : Nat} {v : R}
    (hk : (Lf r)[k]? = some (c, v)) : A.val.read (ROWMAJOR r k A.N A.M) = .ok v := by
  rw [Ell.read_val h.shape (by rw [h.dim]; exact hr) (h.lt_wid hr hk), (h.get hr hk).2]

/-- Overwriting a slot. -/
theorem put_rowPre_set (A : Ell R) {i p k n : Nat} {v : R} (hn : n ≤ A.M) (hp : p < n) :
    (A.put i p k v).rowPre i n = (A.rowPre i n).set p (k, v) := by
  apply List.ext_getElem?
  intro q
  by_cases hq : q < n
  · unfold rowPre
    rw [List.getElem?_set, List.getElem?_map, List.getElem?_map, List.getElem?_range hq]
    by_cases he : p = q
    · subst he
      rw [if_pos rfl, if_pos (by simpa using hp)]
      simp [put]
    · rw [if_neg he]
      have : i * A.M + q ≠ i * A.M + p := by omega
      simp [put, upd_ne _ _ this]
  · rw [List.getElem?_eq_none (by simp; omega), List.getElem?_eq_none (by simp; omega)]

theorem Rows.put (h : Rows A N M Lf) {r p : Nat} (hr : r < N) (hp : p < (Lf r).length) (k : Nat)
    (v : R) : Rows (A.put r p k v) N M (upd Lf r ((Lf r).set p (k, v))) := by
  have hle := h.le r hr
  have hn := h.nnz hr
  refine ⟨h.shape.put _ _ _ _, h.dim, h.wid, h.le, fun r' hr' => ?_⟩
  have hle' := h.le r' hr'
  by_cases he : r' = r
  · subst he
    rw [upd_same, ← h.row r' hr']
    unfold Ell.row
    exact put_rowPre_set A (by rw [h.wid]; exact hle') (by show p < A.nnz.get r'; omega)
  · rw [upd_ne _ _ he, ← h.row r' hr']
    unfold Ell.row
    exact put_rowPre A (by rw [h.wid]; omega) (by rw [h.wid]; exact hle') (Or.inl he)

theorem Rows.app (h : Rows A N M Lf) {r : Nat} (hr : r < N) (hc : (Lf r).length < M) (c : Nat)
    (v : R) : Rows (A.app r c v) N M (upd Lf r (Lf r ++ [(c, v)])) := by
  have hn := h.nnz hr
  have hcap : A.nnz.get r < A.M := by rw [h.wid]; omega
  refine ⟨app_shape h.shape _ _ _, h.dim, h.wid, fun r' hr' => ?_, fun r' hr' => ?_⟩
  · rw [app_nnz]
    have := h.le r' hr'
    by_cases he : r' = r
    · subst he; simp; omega
    · simp [he, this]
  · by_cases he : r' = r
    · subst he
      rw [upd_same, app_row hcap, h.row r' hr']
    · rw [upd_ne _ _ he, app_row_ne hcap he (by rw [h.wid]; exact h.le r' hr'), h.row r' hr']

theorem rowPre_take (A : Ell R) (i n m : Nat) (h : m ≤ n) :
    A.rowPre i m = (A.rowPre i n).take m := by
  unfold rowPre
  rw [← List.map_take, List.take_range, Nat.min_eq_left h]

theorem Rows.pop (h : Rows A N M Lf) {r : Nat} (hr : r < N) {n : Nat} (hn : n ≤ (Lf r).length) :
    Rows (A.withNnz r n) N M (upd Lf r ((Lf r).take n)) := by
  have hn' := h.nnz hr
  refine ⟨h.shape.withNnz _ _, h.dim, h.wid, fun r' hr' => ?_, fun r' hr' => ?_⟩
  · have := h.le r' hr'
    by_cases he : r' = r
    · subst he; simp only [withNnz_nnz, upd_same]; omega
    · simp only [withNnz_nnz, upd_ne _ _ he]; exact this
  · by_cases he : r' = r
    · subst he
      rw [upd_same, withNnz_row_same, ← h.row r' hr']
      exact rowPre_take A r' _ n (by omega)
    · rw [upd_ne _ _ he, withNnz_row_ne _ _ he, h.row r' hr']

theorem Rows.congr (h : Rows A N M Lf) {Lf' : Nat → SRow R} (he : ∀ r, r < N → Lf r = Lf' r) :
    Rows A N M Lf' :=
  ⟨h.shape, h.dim, h.wid, h.le, fun r hr => by rw [h.row r hr, he r hr]⟩

/-- Writing only the value of a slot. -/
theorem Rows.write_val (h : Rows A N M Lf) {r p : Nat} (hr : r < N) {c : Nat} {w : R}
    (hp : (Lf r)[p]? = some (c, w)) (v : R) :
    A.val.write (ROWMAJOR r p A.N A.M) v = .ok (A.put r p c v).val ∧
      (A.put r p c v).idx = A.idx := by
  refine ⟨?_, ?_⟩
  · rw [Arr.write_ok _ (by
      rw [h.shape.val_size]; exact addr_lt (by rw [h.dim]; exact hr) (h.lt_wid hr hp))]
    rfl
  · show (⟨A.idx.size, upd A.idx.get (r * A.M + p) c⟩ : Arr Nat) = A.idx
    have : upd A.idx.get (r * A.M + p) c = A.idx.get := by
      funext q
      by_cases he : q = r * A.M + p
      · subst he; rw [upd_same, (h.get hr hp).1]
      · rw [upd_ne _ _ he]
    rw [this]

/-- `ellpack_swap_row_entries`. -/
theorem Rows.swap (h : Rows A N M Lf) {r p q : Nat} (hr : r < N) {x y : Nat × R}
    (hp : (Lf r)[p]? = some x) (hq : (Lf r)[q]? = some y) :
    ∃ A', swapEntries A r p q = .ok A' ∧
      Rows A' N M (upd Lf r (((Lf r).set p y).set q x)) := by
  obtain ⟨c, v⟩ := x
  obtain ⟨c', v'⟩ := y
  unfold swapEntries
  by_cases he : p = q
  · subst he
    rw [if_pos rfl]
    refine ⟨A, rfl, h.congr (fun r' hr' => ?_)⟩
    by_cases hrr : r' = r
    · subst hrr
      rw [upd_same, List.set_set]
      apply List.ext_getElem?
      intro k
      rw [List.getElem?_set]
      split
      · next hk => subst hk; rw [if_pos (getElem?_lt_some hp), hp]
      · rfl
    · rw [upd_ne _ _ hrr]
  · rw [if_neg he]
    have lp := h.lt_wid hr hp
    have lq := h.lt_wid hr hq
    have hN : r < A.N := by rw [h.dim]; exact hr
    rw [h.read_val hr hp, Res.bind_ok, h.read_idx hr hp, Res.bind_ok, h.read_val hr hq,
      Res.bind_ok]
    simp only [ROWMAJOR]
    rw [Arr.write_ok _ (by rw [h.shape.val_size]; exact addr_lt hN lp), Res.bind_ok,
      Arr.write_ok _ (by show _ < A.val.size; rw [h.shape.val_size]; exact addr_lt hN lq),
      Res.bind_ok]
    have hri := h.read_idx hr hq
    simp only [ROWMAJOR] at hri
    rw [hri, Res.bind_ok,
      Arr.write_ok _ (by rw [h.shape.idx_size]; exact addr_lt hN lp), Res.bind_ok,
      Arr.write_ok _ (by show _ < A.idx.size; rw [h.shape.idx_size]; exact addr_lt hN lq),
      Res.bind_ok, Res.pure_eq]
    refine ⟨_, rfl, ?_⟩
    have h1 := h.put hr (getElem?_lt_some hp) c' v'
    have h2 := h1.put hr (p := q) (by
      rw [upd_same, List.length_set]; exact getElem?_lt_some hq) c v
    refine h2.congr (fun r' hr' => ?_)
    by_cases hrr : r' = r
    · subst hrr; simp only [upd_same]
    · simp only [upd_ne _ _ hrr]

/-- Exchanging an element of the second part of a list with its first one. -/
theorem swap_perm {α : Type} (X U1 U2 : List α) (z : α) :
    ∃ y U', (X ++ (U1 ++ z :: U2))[X.length]? = some y ∧
      ((X ++ (U1 ++ z :: U2)).set (X.length + U1.length) y).set X.length z = X ++ z :: U' ∧
      U'.Perm (U1 ++ U2) := by
  cases U1 with
  | nil =>
    refine ⟨z, U2, by simp, ?_, by simp⟩
    simp
  | cons y U1 =>
    refine ⟨y, U1 ++ y :: U2, by simp, ?_, ?_⟩
    · rw [List.set_append_right _ _ (by omega), List.set_append_right _ _ (by omega)]
      simp
    · simp only [List.cons_append]
      exact List.perm_middle

end Ell

end Bml
