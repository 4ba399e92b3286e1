import Verif.Round.Ops

/-!
# The ELLPACK updates on stored rows, without the laws of arithmetic
-/

set_option linter.unusedSectionVars false

namespace Bml

namespace Spec

variable {F : Type}

/-- The row has an entry in column `j`. -/
def HasColumn (j : Nat) (L : List (Nat × F)) : Prop := j ∈ L.map Prod.fst

instance (j : Nat) (L : List (Nat × F)) : Decidable (HasColumn j L) := by
  unfold HasColumn; infer_instance

/-- The entry in column `j` gets the value `f` of the old one. -/
def change (j : Nat) (f : F → F) (L : List (Nat × F)) : List (Nat × F) :=
  L.map fun p => if p.1 = j then (p.1, f p.2) else p

/-- `set_element` on a row: the column is searched for only in rows of more than two entries. -/
def setIn (j : Nat) (x : F) (L : List (Nat × F)) : List (Nat × F) :=
  if 2 < L.length ∧ HasColumn j L then change j (fun _ => x) L else L ++ [(j, x)]

/-- The row of a vector. -/
def rowOf (big : F → Bool) (N : Nat) (x : Nat → F) : List (Nat × F) :=
  ((List.range N).map fun j => (j, x j)).filter fun p => big p.2

/-- `set_diagonal` on row `i`. -/
def setDiag [Zero F] (big : F → Bool) (i : Nat) (d : F) (L : List (Nat × F)) : List (Nat × F) :=
  if HasColumn i L then change i (fun _ => if big d then d else 0) L
  else if big d then L ++ [(i, d)] else L

/-- Row `i` of `A + β I` before thresholding. -/
def fullIdentity [Zero F] [Add F] [DecidableEq F] (β : F) (i : Nat) (L : List (Nat × F)) :
    List (Nat × F) :=
  if β = 0 then L else if HasColumn i L then change i (fun x => x + β) L else L ++ [(i, β)]

/-- Row `i` of `A + β I`. -/
def identityRow [Zero F] [Add F] [DecidableEq F] (big : F → Bool) (β : F) (i : Nat)
    (L : List (Nat × F)) : List (Nat × F) :=
  (fullIdentity β i L).filter fun p => big p.2

theorem change_fst (j : Nat) (f : F → F) (L : List (Nat × F)) :
    (change j f L).map Prod.fst = L.map Prod.fst := by
  unfold change
  rw [List.map_map]
  apply List.map_congr_left
  intro p _
  simp only [Function.comp]
  split <;> rfl

theorem change_length (j : Nat) (f : F → F) (L : List (Nat × F)) :
    (change j f L).length = L.length := by simp [change]

theorem good_change {N : Nat} {L : SRow F} (h : SRow.Good N L) (j : Nat) (f : F → F) :
    SRow.Good N (change j f L) := by
  refine ⟨by rw [change_fst]; exact h.1, fun p hp => ?_⟩
  have : p.1 ∈ (change j f L).map Prod.fst := List.mem_map.2 ⟨p, hp, rfl⟩
  rw [change_fst] at this
  obtain ⟨q, hq, he⟩ := List.mem_map.1 this
  rw [← he]; exact h.2 q hq

end Spec

namespace Ell

variable {R : Type} {E : Prop}

open SRow

theorem hasColumn_iff {A : Ell R} {i j : Nat} : Spec.HasColumn j (A.row i) ↔
    ∃ k, k < A.nnz.get i ∧ A.idx.get (i * A.M + k) = j := by
  unfold Spec.HasColumn
  constructor
  · intro h
    obtain ⟨p, hp, he⟩ := List.mem_map.1 h
    obtain ⟨k, hk, rfl⟩ := mem_rowPre.1 hp
    exact ⟨k, hk, he⟩
  · rintro ⟨k, hk, rfl⟩
    exact List.mem_map.2 ⟨_, mem_rowPre.2 ⟨k, hk, rfl⟩, rfl⟩

theorem cell_inj {A : Ell R} {N i : Nat} (hg : SRow.Good N (A.row i)) {k l : Nat}
    (hk : k < A.nnz.get i) (hl : l < A.nnz.get i)
    (he : A.idx.get (i * A.M + k) = A.idx.get (i * A.M + l)) : k = l := by
  have h1 := hg.1
  unfold row rowPre at h1
  rw [List.map_map] at h1
  exact List.inj_on_of_nodup_map h1 (x := k) (y := l) (by simpa using hk) (by simpa using hl) he

theorem row_setv {A : Ell R} {N i l : Nat} (hg : SRow.Good N (A.row i)) (hl : l < A.nnz.get i)
    (v : R) : (A.setv i l v).row i
      = Spec.change (A.idx.get (i * A.M + l)) (fun _ => v) (A.row i) := by
  unfold Spec.change
  show (A.setv i l v).rowPre i (A.nnz.get i) = _
  unfold row rowPre
  rw [List.map_map]
  apply List.map_congr_left
  intro k hk
  have hk : k < A.nnz.get i := by simpa using hk
  simp only [Function.comp]
  show (A.idx.get (i * A.M + k), upd A.val.get (i * A.M + l) v (i * A.M + k)) = _
  by_cases he : A.idx.get (i * A.M + k) = A.idx.get (i * A.M + l)
  · rw [if_pos he]
    have := cell_inj hg hk hl he
    subst this
    rw [upd_same]
  · rw [if_neg he, upd_ne]
    intro h
    exact he (by rw [h])

theorem row_app (A : Ell R) (i j : Nat) (v : R) (hcap : A.nnz.get i < A.M) :
    (A.app i j v).row i = A.row i ++ [(j, v)] := by
  unfold app
  rw [withNnz_row_same, put_rowPre_succ A hcap]
  rfl

/-- One row is replaced. -/
theorem Stores.update {A A' : Ell R} {N M i : Nat} {ρ : Nat → SRow R} (h : A.Stores N M ρ)
    (hS : A'.Shape) (hF : Frame A A' i) {L : SRow R} (hr : A'.RowSat i (fun l => l = L))
    (hg : SRow.Good N L) : A'.Stores N M (upd ρ i L) := by
  refine stores_of_rowSat hS (by rw [hF.N, h.dim]) (by rw [hF.M, h.width]) (fun k hk => ?_)
    (fun k hk => ?_)
  · by_cases he : k = i
    · subst he; rw [upd_same]; exact hr
    · rw [upd_ne _ _ he]; exact hF.rowSat he (h.rowSat hk)
  · by_cases he : k = i
    · subst he; rw [upd_same]; exact hg
    · rw [upd_ne _ _ he]; exact h.good k hk

/-! ## Setters -/

theorem good_setIn {N : Nat} {L : SRow R} (h : SRow.Good N L) {j : Nat} (hj : j < N) (x : R)
    (hok : 2 < L.length ∨ ¬ Spec.HasColumn j L) : SRow.Good N (Spec.setIn j x L) := by
  unfold Spec.setIn
  split
  · exact Spec.good_change h _ _
  · next hc =>
    refine SRow.Good.append_singleton h hj ?_
    rcases hok with h2 | h2
    · exact fun hm => hc ⟨h2, hm⟩
    · exact h2

theorem wp_setElement_list {N M : Nat} {A : Ell R} {ρ : Nat → SRow R} (hA : A.Stores N M ρ)
    {i j : Nat} (hi : i < N) (hj : j < N) (x : R)
    (hok : 2 < (ρ i).length ∨ ¬ Spec.HasColumn j (ρ i))
    (hfit : (Spec.setIn j x (ρ i)).length ≤ M) :
    (A.setElement i j x).wp E (fun A' => A'.Stores N M (upd ρ i (Spec.setIn j x (ρ i)))) := by
  have hd := hA.dim
  have hS := hA.shape
  have hw := hA.width
  have hn := hA.nnz hi
  have hl := hA.len i hi
  have hrow := hA.row i hi
  have hg := good_setIn (hA.good i hi) hj x hok
  have app : ¬ (2 < (ρ i).length ∧ Spec.HasColumn j (ρ i)) → (do
        let A1 ← A.putEntry i (A.nnz.get i) j x
        A1.setNnz i (A.nnz.get i + 1) : Res (Ell R)).wp E
        (fun A' => A'.Stores N M (upd ρ i (Spec.setIn j x (ρ i)))) := by
    intro hc
    have he : Spec.setIn j x (ρ i) = ρ i ++ [(j, x)] := if_neg hc
    have hcap : A.nnz.get i < A.M := by
      rw [he] at hfit; simp at hfit; omega
    rw [append_eq hS (by omega) j x hcap, Res.wp_ok]
    refine hA.update ((hS.put _ _ _ _).withNnz _ _)
      ((frame_put A _ _ hcap).trans (frame_withNnz _ _ _)) ⟨?_, ?_⟩ hg
    · simp; omega
    · show (A.app i j x).row i = _
      rw [row_app A i j x hcap, hrow, he]
  unfold setElement
  rw [read_nnz hS (by omega), Res.bind_ok]
  by_cases h2 : A.nnz.get i > 2
  · rw [if_pos h2]
    obtain ⟨r, e, h1, h3⟩ := findSlot_spec hS (i := i) (by omega) j (A.nnz.get i) 0 (by omega)
    rw [e, Res.bind_ok]
    cases r with
    | some l =>
      obtain ⟨-, hll, hlj⟩ := h1 l rfl
      simp only [ROWMAJOR]
      rw [Arr.write_ok _ (by rw [hS.val_size]; exact addr_lt (by omega) (by omega)), Res.bind_ok,
        Res.pure_eq, Res.wp_ok]
      have he : Spec.setIn j x (ρ i) = Spec.change j (fun _ => x) (ρ i) := by
        unfold Spec.setIn
        rw [if_pos]
        refine ⟨by omega, ?_⟩
        rw [← hrow]
        exact hasColumn_iff.2 ⟨l, by omega, hlj⟩
      refine hA.update (A' := A.setv i l x) (hS.setv _ _ _) (frame_setv A x (by omega))
        ⟨by show A.nnz.get i ≤ A.M; omega, ?_⟩ hg
      have hgA : SRow.Good N (A.row i) := by rw [hrow]; exact hA.good i hi
      rw [row_setv hgA (by omega) x, hlj, he, hrow]
    | none =>
      simp only
      apply app
      rintro ⟨_, hm⟩
      rw [← hrow] at hm
      obtain ⟨k, hk, he⟩ := hasColumn_iff.1 hm
      exact h3 rfl k (by omega) (by omega) he
  · rw [if_neg h2]
    exact app (by omega)

theorem good_rowOf (big : R → Bool) (N : Nat) (x : Nat → R) : SRow.Good N (Spec.rowOf big N x) := by
  unfold Spec.rowOf
  refine SRow.Good.sublist ?_ List.filter_sublist
  constructor
  · rw [List.map_map]
    simpa [Function.comp_def] using List.nodup_range
  · intro p hp
    obtain ⟨k, hk, rfl⟩ := List.mem_map.1 hp
    simpa using hk

theorem rowOf_succ (big : R → Bool) (n : Nat) (x : Nat → R) : Spec.rowOf big (n + 1) x
    = Spec.rowOf big n x ++ (if big (x n) then [(n, x n)] else []) := by
  unfold Spec.rowOf
  rw [List.range_succ, List.map_append, List.filter_append]
  congr 1
  by_cases h : big (x n) = true <;> simp [h]

theorem rowOf_length_mono (big : R → Bool) (x : Nat → R) {n m : Nat} (h : n ≤ m) :
    (Spec.rowOf big n x).length ≤ (Spec.rowOf big m x).length := by
  apply List.Sublist.length_le
  apply List.Sublist.filter
  exact List.Sublist.map _ (List.range_sublist.2 h)

theorem wp_setRow_list {N M : Nat} {A : Ell R} {ρ : Nat → SRow R} (hA : A.Stores N M ρ)
    {i : Nat} (hi : i < N) {row : Arr R} (hr : N ≤ row.size) (big : R → Bool)
    (hfit : (Spec.rowOf big N row.get).length ≤ M) :
    (A.setRow i row big).wp E (fun A' =>
      A'.Stores N M (upd ρ i (Spec.rowOf big N row.get))) := by
  have hd := hA.dim
  have hS := hA.shape
  have hw := hA.width
  unfold setRow
  rw [Res.wp_bind, hd]
  refine Res.wp_mono (wp_loop' (fun n (st : Ell R × Nat) => st.1.Shape ∧ Frame A st.1 i ∧
      st.2 = (Spec.rowOf big n row.get).length ∧
      st.1.rowPre i st.2 = Spec.rowOf big n row.get)
      ?_ ?_ (fun _ h => h)) ?_
  · exact ⟨hS, Frame.refl A i, rfl, rfl⟩
  · rintro k hk ⟨C, ll⟩ ⟨g1, g2, g3, g4⟩
    simp only at g1 g2 g3 g4 ⊢
    rw [Arr.read_ok (by omega), Res.bind_ok]
    have hs := rowOf_succ big k row.get
    by_cases hb : big (row.get k) = true
    · rw [if_pos hb] at hs
      have hlt : ll < A.M := by
        have := rowOf_length_mono big row.get (show k + 1 ≤ N from hk)
        rw [hs] at this
        simp only [List.length_append, List.length_singleton] at this
        omega
      rw [if_pos hb, putEntry_eq g1 _ _ (by rw [g2.N]; omega) (by rw [g2.M]; exact hlt),
        Res.bind_ok]
      simp only [Res.pure_eq, Res.wp_ok]
      refine ⟨g1.put _ _ _ _, g2.trans (frame_put C _ _ (by rw [g2.M]; exact hlt)), ?_, ?_⟩
      · rw [hs, g3]; simp
      · rw [put_rowPre_succ C (by rw [g2.M]; exact hlt), g4, hs]
    · rw [if_neg hb] at hs
      rw [if_neg hb]
      simp only [Res.pure_eq, Res.wp_ok]
      rw [List.append_nil] at hs
      exact ⟨g1, g2, by rw [hs]; exact g3, by rw [hs]; exact g4⟩
  · rintro ⟨C, ll⟩ ⟨g1, g2, g3, g4⟩
    simp only at g1 g2 g3 g4 ⊢
    rw [setNnz_eq g1 _ (by rw [g2.N]; omega), Res.wp_ok]
    refine hA.update (g1.withNnz _ _) (g2.trans (frame_withNnz _ _ _)) ⟨?_, ?_⟩
      (good_rowOf big N row.get)
    · simp [g2.M]; omega
    · rw [withNnz_row_same, g4]

variable [Zero R]

theorem good_setDiag {N i : Nat} {L : SRow R} (h : SRow.Good N L) (hi : i < N) (big : R → Bool)
    (d : R) : SRow.Good N (Spec.setDiag big i d L) := by
  unfold Spec.setDiag
  split
  · exact Spec.good_change h _ _
  · next hc =>
    split
    · exact SRow.Good.append_singleton h hi hc
    · exact h

theorem wp_setDiagonalRow_list {A : Ell R} {N : Nat} (hS : A.Shape) (hd : A.N = N) {i : Nat}
    (hi : i < N) {L : SRow R} (hrow : A.RowSat i (fun l => l = L)) (hg : SRow.Good N L)
    {diag : Arr R} (hsz : N ≤ diag.size) (big : R → Bool)
    (hfit : (Spec.setDiag big i (diag.get i) L).length ≤ A.M) :
    (setDiagonalRow big diag i A).wp E (fun A' => A'.Shape ∧ Frame A A' i ∧
      A'.RowSat i (fun l => l = Spec.setDiag big i (diag.get i) L)) := by
  obtain ⟨hle, hrow⟩ := hrow
  subst hrow
  unfold setDiagonalRow
  rw [read_nnz hS (by omega), Res.bind_ok, Arr.read_ok (by omega), Res.bind_ok, Res.wp_bind]
  have h1 : (loop (A.nnz.get i) (A, false) fun j (st : Ell R × Bool) => do
    let k ← st.1.idx.read (ROWMAJOR i j st.1.N st.1.M)
    if k = i then
      let val ← st.1.val.write (ROWMAJOR i j st.1.N st.1.M)
        (if big (diag.get i) then diag.get i else 0)
      pure ({ st.1 with val := val }, true)
    else pure st).wp E (fun (st : Ell R × Bool) =>
      (st = (A, false) ∧ ∀ k, k < A.nnz.get i → A.idx.get (i * A.M + k) ≠ i) ∨
      ∃ l, l < A.nnz.get i ∧ A.idx.get (i * A.M + l) = i ∧
        st = (A.setv i l (if big (diag.get i) then diag.get i else 0), true)) := by
    refine wp_loop' (fun n (st : Ell R × Bool) =>
      (st = (A, false) ∧ ∀ k, k < n → A.idx.get (i * A.M + k) ≠ i) ∨
      ∃ l, l < n ∧ A.idx.get (i * A.M + l) = i ∧
        st = (A.setv i l (if big (diag.get i) then diag.get i else 0), true)) ?_ ?_ (fun _ h => h)
    · exact Or.inl ⟨rfl, by simp⟩
    · rintro k hk st hst
      rcases hst with ⟨rfl, hno⟩ | ⟨l, hl, hli, rfl⟩
      · simp only
        rw [read_idx hS (by omega) (by omega), Res.bind_ok]
        by_cases he : A.idx.get (i * A.M + k) = i
        · rw [if_pos he]
          simp only [ROWMAJOR]
          rw [Arr.write_ok _ (by rw [hS.val_size]; exact addr_lt (by omega) (by omega)),
            Res.bind_ok]
          exact Or.inr ⟨k, by omega, he, rfl⟩
        · rw [if_neg he]
          refine Or.inl ⟨rfl, fun q hq => ?_⟩
          by_cases hqk : q = k
          · subst hqk; exact he
          · exact hno q (by omega)
      · have he : A.idx.get (i * A.M + k) ≠ i := by
          intro he
          have := cell_inj hg hk (by omega) (he.trans hli.symm)
          omega
        have hr : (A.setv i l (if big (diag.get i) then diag.get i else 0)).idx.read
            (ROWMAJOR i k (A.setv i l (if big (diag.get i) then diag.get i else 0)).N
              (A.setv i l (if big (diag.get i) then diag.get i else 0)).M)
            = .ok (A.idx.get (i * A.M + k)) :=
          read_idx hS (by omega) (by omega)
        simp only
        rw [hr, Res.bind_ok, if_neg he]
        exact Or.inr ⟨l, by omega, hli, rfl⟩
  refine Res.wp_mono h1 ?_
  rintro st (⟨rfl, hno⟩ | ⟨l, hl, hli, rfl⟩)
  · have hc : ¬ Spec.HasColumn i (A.row i) := by
      intro h
      obtain ⟨k, hk, he⟩ := hasColumn_iff.1 h
      exact hno k hk he
    unfold Spec.setDiag at hfit ⊢
    rw [if_neg hc] at hfit ⊢
    simp only [Bool.false_eq_true, if_false]
    by_cases hb : big (diag.get i) = true
    · rw [if_pos hb] at hfit ⊢
      rw [if_pos hb]
      have hlt : A.nnz.get i < A.M := by simp at hfit; omega
      rw [append_eq hS (by omega) i _ hlt, Res.wp_ok]
      refine ⟨(hS.put _ _ _ _).withNnz _ _,
        (frame_put A _ _ hlt).trans (frame_withNnz _ _ _), ?_, row_app A i i _ hlt⟩
      simp [app]; omega
    · rw [if_neg hb]
      rw [if_neg hb]
      exact ⟨hS, Frame.refl A i, hle, rfl⟩
  · have hc : Spec.HasColumn i (A.row i) := hasColumn_iff.2 ⟨l, hl, hli⟩
    simp only [if_true]
    unfold Spec.setDiag
    rw [if_pos hc]
    refine ⟨hS.setv _ _ _, frame_setv A _ (by omega), hle, ?_⟩
    rw [row_setv hg hl, hli]

theorem wp_setDiagonal_list {N M : Nat} {A : Ell R} {ρ : Nat → SRow R} (hA : A.Stores N M ρ)
    {diag : Arr R} (hsz : N ≤ diag.size) (big : R → Bool)
    (hfit : ∀ i, i < N → (Spec.setDiag big i (diag.get i) (ρ i)).length ≤ M) :
    (A.setDiagonal diag big).wp E (fun A' =>
      A'.Stores N M (fun i => Spec.setDiag big i (diag.get i) (ρ i))) := by
  unfold setDiagonal
  rw [hA.dim, loop_eq_forList]
  refine Res.wp_mono (wp_kernel0 (N := N) (M := M) (isSched_seq 0 N) (le_refl _)
    (fun i C => setDiagonalRow big diag i C)
    (fun i L => L = ρ i) (fun i L => L = Spec.setDiag big i (diag.get i) (ρ i)) ?_ hA.shape
    hA.dim hA.width (fun i hi => hA.rowSat hi)) ?_
  · intro i C h1 h2 hC hN hM hP
    exact wp_setDiagonalRow_list hC hN h2 hP (hA.good i h2) hsz big
      (by rw [hM]; exact hfit i h2)
  · rintro A' ⟨h1, h2, h3, h4⟩
    refine stores_of_rowSat h1 h2 h3 (fun i hi => ?_) (fun i hi => good_setDiag (hA.good i hi) hi _ _)
    have := h4 i hi
    rwa [if_pos ⟨Nat.zero_le _, hi⟩] at this

/-! ## Copies, thresholds, scaling -/

omit [Zero R] in
theorem stores_of_sameAs {A B : Ell R} {N M : Nat} {ρ : Nat → SRow R} (hA : A.Stores N M ρ)
    (h : SameAs A B) : B.Stores N M ρ := by
  have hd := hA.dim
  refine ⟨h.shape, by rw [h.N, hd], by rw [h.M, hA.width], fun i hi => ?_, hA.len, hA.good⟩
  rw [h.row_eq (by omega) (hA.le hi)]
  exact hA.row i hi

omit [Zero R] in
theorem wp_copyNew_list {N M : Nat} {A : Ell R} {ρ : Nat → SRow R} (hA : A.Stores N M ρ)
    {sc : Sched} (hsc : IsSched 0 N sc) (jv : Nat → R) (ji : Nat → Nat) :
    (copyNew A sc jv ji).wp E (fun B => B.Stores N M ρ) :=
  Res.wp_mono (wp_copyNew hA.shape (by rw [hA.dim]; exact hsc) jv ji)
    (fun _ h => stores_of_sameAs hA h)

omit [Zero R] in
theorem wp_copyInto_list {N M : Nat} {A B : Ell R} {ρ σ : Nat → SRow R} (hA : A.Stores N M ρ)
    (hB : B.Stores N M σ) (hM : 0 < M) {sc : Sched} (hsc : IsSched 0 N sc) :
    (copyInto A B sc).wp E (fun C => C.Stores N M ρ) :=
  Res.wp_mono (wp_copyInto hA.shape hB.shape (by rw [hB.dim, hA.dim])
    (by rw [hB.width, hA.width]) (by rw [hA.width]; omega) (by rw [hA.dim]; exact hsc))
    (fun _ h => stores_of_sameAs hA h)

omit [Zero R] in
theorem wp_bmlCopy_list {N M : Nat} {A B : Ell R} {ρ σ : Nat → SRow R} (hA : A.Stores N M ρ)
    (hB : B.Stores N M σ) (hM : 0 < M) {sc : Sched} (hsc : IsSched 0 N sc) :
    (bmlCopy A B sc).wp E (fun C => C.Stores N M ρ) := by
  unfold bmlCopy
  rw [if_neg (by rw [hA.dim, hB.dim]; simp), if_neg (by rw [hA.width, hB.width]; omega)]
  exact wp_copyInto_list hA hB hM hsc

omit [Zero R] in
theorem wp_threshold_list {N M : Nat} {A : Ell R} {ρ : Nat → SRow R} (hA : A.Stores N M ρ)
    (big : R → Bool) {sc : Sched} (hsc : IsSched 0 N sc) :
    (threshold A big sc).wp E (fun A' =>
      A'.Stores N M (fun i => (ρ i).filter fun p => big p.2)) := by
  unfold threshold
  refine Res.wp_mono (wp_kernel0 (N := N) (M := M) hsc (le_refl _)
    (fun i C => thresholdRow big i C)
    (fun i L => L = ρ i) (fun i L => L = (ρ i).filter (fun p => big p.2)) ?_ hA.shape
    hA.dim hA.width (fun i hi => hA.rowSat hi)) ?_
  · intro i C h1 h2 hC hN hM hP
    refine Res.wp_mono (wp_thresholdRow hC (by omega) hP.1 big) ?_
    rintro C' ⟨k1, k2, k3⟩
    exact ⟨k1, k2, k3.1, by rw [k3.2, hP.2]⟩
  · rintro A' ⟨h1, h2, h3, h4⟩
    refine stores_of_rowSat h1 h2 h3 (fun i hi => ?_)
      (fun i hi => (hA.good i hi).sublist List.filter_sublist)
    have := h4 i hi
    rwa [if_pos ⟨Nat.zero_le _, hi⟩] at this

omit [Zero R] in
theorem wp_scaleInplace_list [Mul R] {N M : Nat} {A : Ell R} {ρ : Nat → SRow R}
    (hA : A.Stores N M ρ) (c : R) :
    (scaleInplace c A 0 N).wp E (fun A' => A'.Stores N M (fun i => Spec.scaled c (ρ i))) := by
  have hS := hA.shape
  have hd := hA.dim
  unfold scaleInplace
  rw [Res.wp_bind]
  refine Res.wp_mono (wp_scal (by rw [hS.val_size, hd]; simp)) ?_
  rintro v ⟨h1, h2⟩
  simp only [Res.pure_eq, Res.wp_ok]
  refine stores_of_rowSat ⟨by simp only; rw [h1]; exact hS.val_size, hS.idx_size, hS.nnz_size⟩
    hd hA.width (fun i hi => ⟨hA.le hi, ?_⟩) (fun i hi => (hA.good i hi).map_snd _)
  rw [← hA.row i hi]
  have hle := hA.le hi
  unfold Spec.scaled row rowPre
  rw [List.map_map]
  apply List.map_congr_left
  intro k hk
  have hk : k < A.nnz.get i := by simpa using hk
  have h4 : i * A.M + k < N * A.M := addr_lt hi (by omega)
  simp only [Function.comp]
  rw [h2, if_pos (by simp; omega)]

omit [Zero R] in
theorem wp_scale_list [Mul R] {N M : Nat} {A B : Ell R} {ρ σ : Nat → SRow R}
    (hA : A.Stores N M ρ) (hB : B.Stores N M σ) (hM : 0 < M) (c : R) {sc : Sched}
    (hsc : IsSched 0 N sc) :
    (scale c A B 0 N sc).wp E (fun A' => A'.Stores N M (fun i => Spec.scaled c (ρ i))) := by
  unfold scale
  rw [Res.wp_bind]
  refine Res.wp_mono (wp_copyInto_list hA hB hM hsc) ?_
  intro C hC
  exact wp_scaleInplace_list hC c

/-! ## Identity -/

theorem good_identity [Add R] [DecidableEq R] {N i : Nat} {L : SRow R} (h : SRow.Good N L)
    (hi : i < N) (big : R → Bool) (β : R) : SRow.Good N (Spec.identityRow big β i L) := by
  unfold Spec.identityRow
  refine SRow.Good.sublist ?_ List.filter_sublist
  unfold Spec.fullIdentity
  split
  · exact h
  · split
    · exact Spec.good_change h _ _
    · next hc => exact SRow.Good.append_singleton h hi hc

theorem wp_addIdentityRow_list [Add R] [DecidableEq R] {N i : Nat} {A : Ell R}
    (hA : A.Shape) (hAN : A.N = N) (hi : i < N) {L : SRow R}
    (hrow : A.RowSat i (fun l => l = L)) (hg : SRow.Good N L) (β : R)
    (big : R → Bool) (hfit : (Spec.fullIdentity β i L).length ≤ A.M)
    {jx : Arr Nat} {x : Arr R} (hjx : jx.size = A.M) (hx : x.size = A.M) :
    (addIdentityRow β big i A jx x).wp E (fun st => st.1.Shape ∧ Frame A st.1 i ∧
      st.1.RowSat i (fun l => l = Spec.identityRow big β i L) ∧
      st.2.1.size = A.M ∧ st.2.2.size = A.M) := by
  obtain ⟨hle, rfl⟩ := hrow
  unfold addIdentityRow
  have hiA : i < A.N := by omega
  rw [read_nnz hA hiA, Res.bind_ok, Res.wp_bind]
  have h1 : (loop (A.nnz.get i) (jx, x, (none : Option Nat))
    fun jp (st : Arr Nat × Arr R × Option Nat) => do
      let k ← A.idx.read (ROWMAJOR i jp A.N A.M)
      let v ← A.val.read (ROWMAJOR i jp A.N A.M)
      let x ← st.2.1.write jp v
      let jx ← st.1.write jp k
      pure (jx, x, if k = i then some jp else st.2.2)).wp E
      (fun (st : Arr Nat × Arr R × Option Nat) => st.1.size = A.M ∧ st.2.1.size = A.M ∧
        (∀ k, k < A.nnz.get i → st.1.get k = A.idx.get (i * A.M + k) ∧
          st.2.1.get k = A.val.get (i * A.M + k)) ∧
        (∀ d, st.2.2 = some d → d < A.nnz.get i ∧ A.idx.get (i * A.M + d) = i) ∧
        (st.2.2 = none → ∀ k, k < A.nnz.get i → A.idx.get (i * A.M + k) ≠ i)) := by
    refine wp_loop' (fun n (st : Arr Nat × Arr R × Option Nat) =>
        st.1.size = A.M ∧ st.2.1.size = A.M ∧
        (∀ k, k < n → st.1.get k = A.idx.get (i * A.M + k) ∧
          st.2.1.get k = A.val.get (i * A.M + k)) ∧
        (∀ d, st.2.2 = some d → d < n ∧ A.idx.get (i * A.M + d) = i) ∧
        (st.2.2 = none → ∀ k, k < n → A.idx.get (i * A.M + k) ≠ i)) ?_ ?_ (fun _ h => h)
    · exact ⟨hjx, hx, by simp, by simp, by simp⟩
    · rintro n hn ⟨jx, x, dg⟩ ⟨g1, g2, g3, g4, g5⟩
      simp only at g1 g2 g3 g4 g5
      rw [read_idx hA hiA (by omega), Res.bind_ok, read_val hA hiA (by omega), Res.bind_ok,
        Arr.write_ok _ (by simp only; omega), Res.bind_ok,
        Arr.write_ok _ (by simp only; omega), Res.bind_ok]
      simp only [Res.pure_eq, Res.wp_ok]
      refine ⟨g1, g2, ?_, ?_, ?_⟩
      · intro k hk
        by_cases he : k = n
        · subst he; simp
        · rw [upd_ne _ _ he, upd_ne _ _ he]; exact g3 k (by omega)
      · intro d hd
        split at hd
        · next hki => simp only [Option.some.injEq] at hd; subst hd; exact ⟨by omega, hki⟩
        · have := g4 d hd; exact ⟨by omega, this.2⟩
      · intro hnone k hk
        split at hnone
        · simp at hnone
        · next hki =>
          by_cases he : k = n
          · subst he; exact hki
          · exact g5 hnone k (by omega)
  refine Res.wp_mono h1 ?_
  rintro ⟨jx1, x1, dg⟩ ⟨g1, g2, g3, g4, g5⟩
  simp only at g1 g2 g3 g4 g5 ⊢
  have hL : arrRow jx1 x1 (A.nnz.get i) = A.row i := by
    unfold arrRow row rowPre
    apply List.map_congr_left
    intro k hk
    have := g3 k (by simpa using hk)
    rw [this.1, this.2]
  rw [Res.wp_bind]
  have h2 : (if β ≠ 0 then
      match (generalizing := false) dg with
      | none => do
        let x ← x1.write (A.nnz.get i) β
        let jx ← jx1.write (A.nnz.get i) i
        pure (jx, x, A.nnz.get i + 1)
      | some d => do
        let xd ← x1.read d
        let x ← x1.write d (xd + β)
        pure (jx1, x, A.nnz.get i)
    else pure (jx1, x1, A.nnz.get i) : Res (Arr Nat × Arr R × Nat)).wp E
      (fun (st : Arr Nat × Arr R × Nat) => st.1.size = A.M ∧ st.2.1.size = A.M ∧ st.2.2 ≤ A.M ∧
        arrRow st.1 st.2.1 st.2.2 = Spec.fullIdentity β i (A.row i)) := by
    unfold Spec.fullIdentity at hfit ⊢
    by_cases hβ : β = 0
    · rw [if_neg (by simpa using hβ)]
      simp only [Res.pure_eq, Res.wp_ok]
      rw [if_pos hβ]
      exact ⟨g1, g2, hle, hL⟩
    · rw [if_pos hβ]
      rw [if_neg hβ] at hfit ⊢
      cases dg with
      | none =>
        have hno : ¬ Spec.HasColumn i (A.row i) := by
          intro h
          obtain ⟨k, hk, he⟩ := hasColumn_iff.1 h
          exact g5 rfl k hk he
        rw [if_neg hno] at hfit ⊢
        have hlt : A.nnz.get i < A.M := by simp at hfit; omega
        simp only
        rw [Arr.write_ok _ (by omega), Res.bind_ok, Arr.write_ok _ (by omega), Res.bind_ok]
        simp only [Res.pure_eq, Res.wp_ok]
        refine ⟨g1, g2, by omega, ?_⟩
        rw [arrRow_succ, ← hL]
        congr 1
        · unfold arrRow
          apply List.map_congr_left
          intro k hk
          have hk : k < A.nnz.get i := by simpa using hk
          simp only
          rw [upd_ne _ _ (by omega), upd_ne _ _ (by omega)]
        · simp
      | some d =>
        obtain ⟨hd1, hd2⟩ := g4 d rfl
        have hc : Spec.HasColumn i (A.row i) := hasColumn_iff.2 ⟨d, hd1, hd2⟩
        rw [if_pos hc]
        simp only
        rw [Arr.read_ok (by omega), Res.bind_ok, Arr.write_ok _ (by omega), Res.bind_ok]
        simp only [Res.pure_eq, Res.wp_ok]
        refine ⟨g1, g2, hle, ?_⟩
        unfold Spec.change arrRow row rowPre
        rw [List.map_map]
        apply List.map_congr_left
        intro k hk
        have hk : k < A.nnz.get i := by simpa using hk
        simp only [Function.comp]
        by_cases he : A.idx.get (i * A.M + k) = i
        · have := cell_inj hg hk hd1 (he.trans hd2.symm)
          subst this
          rw [if_pos he, upd_same, (g3 k hk).1, (g3 k hk).2]
        · rw [if_neg he, upd_ne, (g3 k hk).1, (g3 k hk).2]
          rintro rfl
          exact he hd2
  refine Res.wp_mono h2 ?_
  rintro ⟨jx2, x2, l⟩ ⟨k1, k2, k3, k4⟩
  simp only at k1 k2 k3 k4 ⊢
  rw [Res.wp_bind]
  refine Res.wp_mono (wp_compact hA hiA (by omega) (by omega) k3 big) ?_
  rintro ⟨C, ll⟩ ⟨m1, m2, m3, m4⟩
  simp only at m1 m2 m3 m4 ⊢
  rw [setNnz_eq m1 _ (by rw [m2.N]; exact hiA), Res.bind_ok]
  simp only [Res.pure_eq, Res.wp_ok]
  refine ⟨m1.withNnz _ _, m2.trans (frame_withNnz _ _ _), ⟨?_, ?_⟩, k1, k2⟩
  · simp [m2.M]; omega
  · rw [withNnz_row_same, m4, k4]
    rfl

theorem wp_addIdentity_list [Add R] [DecidableEq R] {N M : Nat} {A : Ell R} {ρ : Nat → SRow R}
    (hA : A.Stores N M ρ) (β : R) (big : R → Bool) {sc : Sched} (hsc : IsSched 0 N sc)
    (hfit : ∀ i, i < N → (Spec.fullIdentity β i (ρ i)).length ≤ M) :
    (addIdentity A β big sc).wp E (fun A' =>
      A'.Stores N M (fun i => Spec.identityRow big β i (ρ i))) := by
  unfold addIdentity
  rw [Res.wp_bind]
  refine Res.wp_mono (wp_rows hsc
    (G := fun st : Ell R × (Nat → Arr Nat × Arr R) => st.1.Shape ∧ st.1.N = N ∧ st.1.M = M ∧
      ∀ t, (st.2 t).1.size = M ∧ (st.2 t).2.size = M)
    (P := fun i st => st.1.RowSat i (fun L => L = ρ i))
    (Q := fun i st => st.1.RowSat i (fun L => L = Spec.identityRow big β i (ρ i)))
    ⟨hA.shape, hA.dim, hA.width, fun _ => ⟨hA.width, hA.width⟩⟩ (fun i _ hi => hA.rowSat hi) ?_) ?_
  · rintro t i ⟨C, scr⟩ - hi ⟨gS, gN, gM, gC⟩ hPi
    simp only at gS gN gM gC hPi
    simp only [Res.wp_bind]
    refine Res.wp_mono (wp_addIdentityRow_list gS gN hi hPi (hA.good i hi) β big
      (by rw [gM]; exact hfit i hi)
      (by rw [gM]; exact (gC t).1) (by rw [gM]; exact (gC t).2)) ?_
    rintro ⟨C', jx, x⟩ ⟨k1, k2, k3, k4, k5⟩
    simp only [Res.pure_eq, Res.wp_ok] at k1 k2 k3 k4 k5 ⊢
    refine ⟨⟨k1, by rw [k2.N, gN], by rw [k2.M, gM], ?_⟩, k3, ?_⟩
    · intro t'
      by_cases ht : t' = t
      · subst ht; simp [k4, k5, gM]
      · rw [upd_ne _ _ ht]; exact gC t'
    · intro j _ _ hj
      exact ⟨k2.rowSat hj, k2.rowSat hj⟩
  · rintro ⟨C', scr'⟩ ⟨⟨gS, gN, gM, _⟩, hQ⟩
    exact stores_of_rowSat gS gN gM (fun i hi => hQ i (Nat.zero_le _) hi)
      (fun i hi => good_identity (hA.good i hi) hi big β)

theorem wp_scaleAddIdentity_list [Add R] [Mul R] [DecidableEq R] {N M : Nat} {A : Ell R}
    {ρ : Nat → SRow R} (hA : A.Stores N M ρ) (c β : R) (big : R → Bool) {sc : Sched}
    (hsc : IsSched 0 N sc)
    (hfit : ∀ i, i < N → (Spec.fullIdentity β i (Spec.scaled c (ρ i))).length ≤ M) :
    (scaleAddIdentity A c β big 0 N sc).wp E (fun A' =>
      A'.Stores N M (fun i => Spec.identityRow big β i (Spec.scaled c (ρ i)))) := by
  unfold scaleAddIdentity
  rw [Res.wp_bind]
  refine Res.wp_mono (wp_scaleInplace_list hA c) ?_
  intro B hB
  exact wp_addIdentity_list hB β big hsc hfit

theorem wp_newZero_list (N : Nat) {M : Nat} (hM : 0 < M) :
    (newZero N M : Res (Ell R)).wp E (fun A => A.Stores N M (fun _ => [])) := by
  unfold newZero
  rw [if_pos hM]
  exact ⟨⟨rfl, rfl, rfl⟩, rfl, rfl, fun _ _ => rfl, fun _ _ => Nat.zero_le _,
    fun _ _ => ⟨by simp, by simp⟩⟩

theorem wp_identity_list [One R] {N M : Nat} (hM : 0 < M) {sc : Sched} (hsc : IsSched 0 N sc) :
    (identity N M sc : Res (Ell R)).wp E (fun A => A.Stores N M (fun i => [(i, 1)])) := by
  unfold identity newZero
  rw [if_pos hM, Res.bind_ok]
  refine Res.wp_mono (wp_kernel0 (N := N) (M := M) hsc (le_refl _)
    (fun i A => do
      let A ← A.putEntry i 0 i 1
      A.setNnz i 1) (fun _ _ => True) (fun i L => L = [(i, 1)]) ?_
    (C := zeroMatrix N M) ⟨rfl, rfl, rfl⟩ rfl rfl (fun i hi => ⟨Nat.zero_le _, trivial⟩)) ?_
  · intro i C _ hi hS hN hCM _
    rw [putEntry_eq hS _ _ (by omega) (by omega), Res.bind_ok,
      setNnz_eq (hS.put _ _ _ _) _ (by simp; omega)]
    refine ⟨(hS.put _ _ _ _).withNnz _ _, (frame_put C _ _ (by omega)).trans
      (frame_withNnz _ _ _), by simp; omega, ?_⟩
    rw [withNnz_row_same]
    have := put_rowPre_succ C (i := i) (p := 0) (k := i) (v := (1 : R)) (by omega)
    simpa using this
  · rintro A ⟨h1, h2, h3, h4⟩
    refine stores_of_rowSat h1 h2 h3 (fun i hi => ?_) (fun i hi => ⟨by simp, by simpa using hi⟩)
    have := h4 i hi
    rwa [if_pos ⟨Nat.zero_le _, hi⟩] at this

end Ell

end Bml
