import Verif.Ellpack.Kernel
import Verif.Round.Spec

/-!
# The sparse kernels, operation by operation

What the row kernels of `Verif/Ellpack/Model` store, as lists, for an element type whose
operations satisfy no laws.
-/

set_option linter.unusedSectionVars false

namespace Bml

namespace SRow

variable {R : Type}

/-- The value of column `j`, as `bml_get_element` finds it: the first stored one, or zero. -/
def look [Zero R] (L : SRow R) (j : Nat) : R :=
  (L.find? (fun q => decide (q.1 = j))).elim 0 Prod.snd

/-- A number added to its column; a new column starts from zero and goes to the end. -/
def bump [Zero R] [Add R] : SRow R → Nat × R → SRow R
  | [], p => [(p.1, 0 + p.2)]
  | q :: L, p => if q.1 = p.1 then (q.1, q.2 + p.2) :: L else q :: bump L p

/-- The row with the numbers of `T` added in their order. -/
def collect [Zero R] [Add R] (T : SRow R) : SRow R := T.foldl bump []

section
variable [Zero R]

@[simp] theorem look_nil (j : Nat) : look ([] : SRow R) j = 0 := rfl

theorem look_cons (q : Nat × R) (L : SRow R) (j : Nat) :
    look (q :: L) j = if q.1 = j then q.2 else look L j := by
  unfold look
  by_cases h : q.1 = j <;> simp [h]

theorem look_of_not_mem {L : SRow R} {j : Nat} (h : j ∉ L.map Prod.fst) : look L j = 0 := by
  induction L with
  | nil => rfl
  | cons q L ih =>
    simp only [List.map_cons, List.mem_cons, not_or] at h
    rw [look_cons, if_neg (fun e => h.1 e.symm), ih h.2]

theorem look_of_mem {L : SRow R} (hn : (L.map Prod.fst).Nodup) {j : Nat} {v : R}
    (h : (j, v) ∈ L) : look L j = v := by
  induction L with
  | nil => simp at h
  | cons q L ih =>
    simp only [List.map_cons, List.nodup_cons] at hn
    rw [look_cons]
    rcases List.mem_cons.1 h with rfl | h
    · simp
    · rw [if_neg, ih hn.2 h]
      rintro rfl
      exact hn.1 (List.mem_map.2 ⟨_, h, rfl⟩)

theorem look_filter {L : SRow R} (hn : (L.map Prod.fst).Nodup) (t : Nat → R → Bool) (j : Nat) :
    look (L.filter fun p => t p.1 p.2) j = if t j (look L j) then look L j else 0 := by
  induction L with
  | nil => simp only [List.filter_nil, look_nil]; exact (ite_self 0).symm
  | cons q L ih =>
    simp only [List.map_cons, List.nodup_cons] at hn
    have hno : q.1 = j → look (L.filter fun p => t p.1 p.2) j = 0 := by
      rintro rfl
      apply look_of_not_mem
      intro hm
      obtain ⟨p, hp, he⟩ := List.mem_map.1 hm
      exact hn.1 (List.mem_map.2 ⟨p, (List.mem_filter.1 hp).1, he⟩)
    by_cases hq : q.1 = j
    · by_cases ht : t q.1 q.2 = true
      · rw [List.filter_cons_of_pos (by exact ht), look_cons, look_cons, if_pos hq, if_pos hq]
        rw [← hq, if_pos ht]
      · rw [List.filter_cons_of_neg (by exact ht), look_cons, if_pos hq, hno hq]
        rw [← hq, if_neg ht]
    · rw [look_cons, if_neg hq]
      by_cases ht : t q.1 q.2 = true
      · rw [List.filter_cons_of_pos (by exact ht), look_cons, if_neg hq, ih hn.2]
      · rw [List.filter_cons_of_neg (by exact ht), ih hn.2]

variable [Add R]

theorem bump_fst (L : SRow R) (p : Nat × R) :
    (bump L p).map Prod.fst
      = if p.1 ∈ L.map Prod.fst then L.map Prod.fst else L.map Prod.fst ++ [p.1] := by
  induction L with
  | nil => simp [bump]
  | cons q L ih =>
    unfold bump
    by_cases h : q.1 = p.1
    · simp [h]
    · rw [if_neg h, List.map_cons, ih]
      by_cases hm : p.1 ∈ L.map Prod.fst
      · rw [if_pos hm, if_pos (by simp only [List.map_cons]; exact List.mem_cons_of_mem _ hm)]
        rfl
      · rw [if_neg hm, if_neg (by
          simp only [List.map_cons, List.mem_cons, not_or]; exact ⟨fun e => h e.symm, hm⟩)]
        rfl

theorem bump_nodup {L : SRow R} (h : (L.map Prod.fst).Nodup) (p : Nat × R) :
    ((bump L p).map Prod.fst).Nodup := by
  rw [bump_fst]
  split
  · exact h
  · next hm =>
    rw [List.nodup_append]
    refine ⟨h, by simp, ?_⟩
    intro a ha b hb
    simp at hb; subst hb
    rintro rfl; exact hm ha

theorem look_bump (L : SRow R) (p : Nat × R) (j : Nat) :
    look (bump L p) j = if p.1 = j then look L j + p.2 else look L j := by
  induction L with
  | nil => unfold bump; rw [look_cons]; simp
  | cons q L ih =>
    unfold bump
    by_cases h : q.1 = p.1
    · rw [if_pos h, look_cons, look_cons]
      simp only [h]
      by_cases hj : p.1 = j <;> simp [hj]
    · rw [if_neg h, look_cons, look_cons, ih]
      by_cases hj : q.1 = j
      · rw [if_pos hj, if_pos hj, if_neg (fun e => h (hj.trans e.symm))]
      · rw [if_neg hj, if_neg hj]

theorem foldl_bump_nodup (T : SRow R) : ∀ {L : SRow R}, (L.map Prod.fst).Nodup →
    ((T.foldl bump L).map Prod.fst).Nodup := by
  induction T with
  | nil => intro L h; exact h
  | cons p T ih => intro L h; exact ih (bump_nodup h p)

theorem collect_nodup (T : SRow R) : ((collect T).map Prod.fst).Nodup :=
  foldl_bump_nodup T (by simp)

theorem mem_foldl_bump (T : SRow R) : ∀ (L : SRow R) (j : Nat),
    j ∈ (T.foldl bump L).map Prod.fst ↔ j ∈ L.map Prod.fst ∨ j ∈ T.map Prod.fst := by
  induction T with
  | nil => intro L j; simp
  | cons p T ih =>
    intro L j
    rw [List.foldl_cons, ih, bump_fst]
    simp only [List.map_cons, List.mem_cons]
    by_cases hm : p.1 ∈ L.map Prod.fst
    · rw [if_pos hm]
      constructor
      · rintro (h | h)
        · exact Or.inl h
        · exact Or.inr (Or.inr h)
      · rintro (h | h | h)
        · exact Or.inl h
        · exact Or.inl (h ▸ hm)
        · exact Or.inr h
    · rw [if_neg hm, List.mem_append, List.mem_singleton, or_assoc]

theorem mem_collect (T : SRow R) (j : Nat) :
    j ∈ (collect T).map Prod.fst ↔ j ∈ T.map Prod.fst := by
  unfold collect
  rw [mem_foldl_bump]
  simp

theorem look_foldl_bump (T : SRow R) : ∀ (L : SRow R) (j : Nat),
    look (T.foldl bump L) j = (Spec.inColumn j T).foldl (· + ·) (look L j) := by
  induction T with
  | nil => intro L j; rfl
  | cons p T ih =>
    intro L j
    rw [List.foldl_cons, ih, look_bump]
    unfold Spec.inColumn
    by_cases h : p.1 = j
    · rw [if_pos h, List.filter_cons_of_pos (by simpa using h)]; rfl
    · rw [if_neg h, List.filter_cons_of_neg (by simpa using h)]

/-- The value of a column is the sum of its numbers, from the left. -/
theorem look_collect (T : SRow R) (j : Nat) :
    look (collect T) j = Spec.summed (Spec.inColumn j T) := by
  unfold collect
  rw [look_foldl_bump]
  rfl

theorem good_collect {N : Nat} {T : SRow R} (h : ∀ p ∈ T, p.1 < N) : Good N (collect T) := by
  refine ⟨collect_nodup T, ?_⟩
  intro p hp
  have := (mem_collect T p.1).1 (List.mem_map.2 ⟨p, hp, rfl⟩)
  obtain ⟨q, hq, he⟩ := List.mem_map.1 this
  rw [← he]
  exact h q hq

/-- The scratch list after one more number. -/
theorem ofCols_bump {T : List Nat} {f : Nat → R} (hn : T.Nodup) {k : Nat}
    (h0 : k ∉ T → f k = 0) (v : R) :
    ofCols (if k ∈ T then T else T ++ [k]) (upd f k (f k + v)) = bump (ofCols T f) (k, v) := by
  induction T with
  | nil => simp [ofCols, bump, h0]
  | cons a T ih =>
    simp only [List.nodup_cons] at hn
    have hstep : ofCols (a :: T) f = (a, f a) :: ofCols T f := rfl
    rw [hstep, bump]
    by_cases ha : a = k
    · subst ha
      rw [if_pos (by simp), if_pos rfl]
      unfold ofCols
      rw [List.map_cons, upd_same]
      congr 1
      apply List.map_congr_left
      intro j hj
      rw [upd_ne _ _ (by rintro rfl; exact hn.1 hj)]
    · rw [if_neg (show ¬ (a, f a).1 = (k, v).1 from ha)]
      have ih' := ih hn.2 (fun h => h0 (by simp [h, Ne.symm ha]))
      rw [← ih']
      by_cases hk : k ∈ T
      · rw [if_pos (by simp [hk]), if_pos hk]
        unfold ofCols
        rw [List.map_cons, upd_ne _ _ ha]
      · rw [if_neg (by simp [hk, Ne.symm ha]), if_neg hk, List.cons_append]
        unfold ofCols
        rw [List.map_cons, upd_ne _ _ ha]

end

end SRow

/-! ## The accumulator -/

/-- The scratch arrays hold the row `L`. -/
def Scr.Lists {R : Type} [Zero R] (N : Nat) (s : Scr R) (l : Nat) (L : SRow R) : Prop :=
  ∃ f, s.Holds N l f ∧ L = SRow.ofCols (s.cols l) f

namespace Ell

variable {R : Type} {E : Prop} [Zero R] [Add R] [Mul R]

open Scr SRow

theorem _root_.Bml.Scr.Clean.lists {N : Nat} {s : Scr R} (h : s.Clean N) : s.Lists N 0 [] :=
  ⟨_, h.holds, rfl⟩

theorem _root_.Bml.Scr.Lists.length {N : Nat} {s : Scr R} {l : Nat} {L : SRow R}
    (h : s.Lists N l L) : L.length = l := by
  obtain ⟨f, _, rfl⟩ := h
  simp

theorem wp_accum_list {N : Nat} {s : Scr R} {l : Nat} {L : SRow R} (h : s.Lists N l L)
    {mark k : Nat} (hm : mark ≠ 0) (hk : k < N) (v : R) :
    (accum mark k v (s, l)).wp E (fun st => st.1.Lists N st.2 (bump L (k, v))) := by
  obtain ⟨f, hf, rfl⟩ := h
  refine Res.wp_mono (wp_accum_raw hf hm hk v) ?_
  rintro ⟨s', l'⟩ ⟨h1, h2⟩
  refine ⟨_, h1, ?_⟩
  simp only at h2 ⊢
  rw [h2, ofCols_bump hf.nodup (hf.out k)]

theorem wp_accumRow_list {N : Nat} {A : Ell R} (hs : A.Shape) {i : Nat} (hi : i < A.N)
    (hle : A.nnz.get i ≤ A.M) (hlt : ∀ p ∈ A.row i, p.1 < N)
    {s : Scr R} {l : Nat} {L : SRow R} (h : s.Lists N l L)
    {mark : Nat} (hm : mark ≠ 0) (α : R) :
    (accumRow A i mark α (s, l)).wp E (fun st =>
      st.1.Lists N st.2 ((Spec.scaled α (A.row i)).foldl bump L)) := by
  unfold accumRow
  rw [read_nnz hs hi, Res.bind_ok]
  refine wp_loop' (fun n (st : Scr R × Nat) =>
    st.1.Lists N st.2 ((Spec.scaled α (A.rowPre i n)).foldl bump L)) ?_ ?_ ?_
  · exact h
  · rintro k hk ⟨s', l'⟩ hH
    rw [read_idx hs hi (by omega), Res.bind_ok, read_val hs hi (by omega), Res.bind_ok]
    have hlt' : A.idx.get (i * A.M + k) < N := hlt _ (mem_rowPre.2 ⟨k, hk, rfl⟩)
    refine Res.wp_mono (wp_accum_list hH hm hlt' _) ?_
    rintro ⟨s2, l2⟩ h2
    rw [rowPre_succ]
    unfold Spec.scaled at h2 ⊢
    rw [List.map_append, List.foldl_append]
    exact h2
  · intro st hst; exact hst

theorem wp_accumProd_list {N : Nat} {A B : Ell R} (hA : A.Shape) (hAN : A.N = N) (hB : B.Shape)
    (hBN : B.N = N) {i : Nat} (hi : i < N)
    (hle : A.nnz.get i ≤ A.M) (hlt : ∀ p ∈ A.row i, p.1 < N)
    (hble : ∀ k, k < N → B.nnz.get k ≤ B.M) {ρ : Nat → SRow R}
    (hbr : ∀ k, k < N → B.row k = ρ k) (hblt : ∀ k, k < N → ∀ p ∈ ρ k, p.1 < N)
    {s : Scr R} (hs : s.Clean N) :
    (accumProd A B i (s, 0)).wp E (fun st =>
      st.1.Lists N st.2 (collect (Spec.terms (A.row i) ρ))) := by
  unfold accumProd
  rw [read_nnz hA (by omega), Res.bind_ok]
  refine wp_loop' (fun n (st : Scr R × Nat) =>
    st.1.Lists N st.2 (collect (Spec.terms (A.rowPre i n) ρ))) ?_ ?_ ?_
  · exact hs.lists
  · rintro n hn ⟨s1, l1⟩ hH
    rw [read_val hA (by omega) (by omega), Res.bind_ok, read_idx hA (by omega) (by omega),
      Res.bind_ok]
    have hk : A.idx.get (i * A.M + n) < N := hlt _ (mem_rowPre.2 ⟨n, hn, rfl⟩)
    refine Res.wp_mono (wp_accumRow_list hB (by omega) (hble _ hk)
      (by rw [hbr _ hk]; exact hblt _ hk) hH (by omega) _) ?_
    rintro ⟨s2, l2⟩ h2
    rw [rowPre_succ]
    unfold Spec.terms collect at h2 ⊢
    rw [List.flatMap_append, List.foldl_append]
    rw [hbr _ hk] at h2
    simpa using h2
  · intro st hst; exact hst

/-- Compaction, on lists. -/
theorem wp_flush_list {N : Nat} {C : Ell R} (hs : C.Shape) {i : Nat} (hi : i < C.N)
    {s : Scr R} {l : Nat} {L : SRow R} (h : s.Lists N l L) (test : Nat → R → Bool)
    (hfit : (L.filter fun p => test p.1 p.2).length ≤ C.M) :
    (flush C i test s l).wp E (fun st =>
      st.1.Shape ∧ st.1.N = C.N ∧ st.1.M = C.M ∧ st.1.nnz = C.nnz ∧
      (∀ i' m, i' ≠ i → m ≤ C.M → st.1.rowPre i' m = C.rowPre i' m) ∧
      st.1.rowPre i st.2.2 = (L.filter fun p => test p.1 p.2) ∧
      st.2.2 = (L.filter fun p => test p.1 p.2).length ∧ st.2.1.Clean N) := by
  obtain ⟨f, hf, rfl⟩ := h
  have he : (SRow.ofCols (s.cols l) f).filter (fun p => test p.1 p.2)
      = SRow.ofCols ((s.cols l).filter fun j => test j (f j)) f := by
    unfold SRow.ofCols
    rw [List.filter_map]
    rfl
  rw [he] at hfit ⊢
  simp only [SRow.ofCols_length] at hfit ⊢
  exact wp_flush hs hi hf test hfit

/-- The row kernels end in the same way: compaction, then the new row length. -/
theorem wp_finish {N : Nat} {C : Ell R} (hs : C.Shape) {i : Nat} (hi : i < C.N)
    {s : Scr R} {l : Nat} {L : SRow R} (h : s.Lists N l L) (test : Nat → R → Bool)
    (hfit : (L.filter fun p => test p.1 p.2).length ≤ C.M) :
    (flush C i test s l).wp E (fun st => st.2.1.Clean N ∧ st.2.2 ≤ C.M ∧ st.1.M = C.M ∧
      st.1.Shape ∧ st.1.N = C.N ∧
      (st.1.withNnz i st.2.2).Shape ∧ Frame C (st.1.withNnz i st.2.2) i ∧
      (st.1.withNnz i st.2.2).RowSat i (fun L' => L' = L.filter fun p => test p.1 p.2)) := by
  refine Res.wp_mono (wp_flush_list hs hi h test hfit) ?_
  rintro ⟨C', s', ll⟩ ⟨hS, hN, hM, hnn, hfr, hrow, hll, hcl⟩
  simp only at hS hN hM hnn hfr hrow hll hcl ⊢
  refine ⟨hcl, by rw [hll]; exact hfit, hM, hS, hN, hS.withNnz _ _, ⟨hN, hM, ?_, ?_⟩, ?_, ?_⟩
  · intro i' hne
    simp [hnn, upd_ne _ _ hne]
  · intro i' m hne hm
    rw [withNnz_rowPre, hfr i' m hne hm]
  · simp only [withNnz_nnz, upd_same, withNnz_M]
    rw [hll, hM]; exact hfit
  · rw [withNnz_row_same, hrow]

end Ell

end Bml
