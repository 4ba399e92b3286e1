import Verif.Round.Read
import Mathlib.Algebra.BigOperators.Ring.Finset
import Mathlib.Analysis.Normed.Group.Basic

/-!
# Rounding errors of sums over stored entries
-/

set_option linter.unusedSectionVars false

namespace Bml

open SRow

namespace Spec

variable {F : Type}

section
variable [Zero F] [Add F]

/-- A sum of partial sums is a sum. -/
theorem SumOf.bind {ι κ : Type} {x : ι → F} {part : κ → F} {G : κ → List ι}
    (hp : ∀ t, SumOf x (G t) (part t)) {T : List κ} {total : F} (h : SumOf part T total) :
    SumOf x (T.flatMap G) total := by
  induction h with
  | zero => exact SumOf.zero
  | one t => simpa using hp t
  | add _ _ ih ih' => rw [List.flatMap_append]; exact SumOf.add ih ih'
  | perm hp' _ ih => exact SumOf.perm (hp'.flatMap_right G) ih

end

/-- A sum over the entries of a proper row is a sum over the columns. -/
theorem sum_entries {K : Type} [AddCommMonoid K] [Zero F] {N : Nat} {L : SRow F}
    (hg : SRow.Good N L) (f : Nat → F → K) (h0 : ∀ k, f k 0 = 0) :
    (L.map fun p => f p.1 p.2).sum = ∑ k ∈ Finset.range N, f k (look L k) := by
  obtain ⟨hn, hlt⟩ := hg
  induction L with
  | nil => simp [h0]
  | cons q L ih =>
    simp only [List.map_cons, List.nodup_cons] at hn
    have hq := hlt q (by simp)
    rw [List.map_cons, List.sum_cons, ih hn.2 (fun p hp => hlt p (by simp [hp]))]
    rw [← Finset.add_sum_erase _ _ (Finset.mem_range.2 hq),
      ← Finset.add_sum_erase (Finset.range N) (fun k => f k (look (q :: L) k))
        (Finset.mem_range.2 hq)]
    rw [look_of_not_mem hn.1, h0, zero_add, look_cons, if_pos rfl]
    congr 1
    apply Finset.sum_congr rfl
    intro k hk
    rw [look_cons, if_neg (Ne.symm (Finset.ne_of_mem_erase hk))]

variable [Zero F] [Mul F]

theorem inColumn_append (j : Nat) (T T' : List (Nat × F)) :
    inColumn j (T ++ T') = inColumn j T ++ inColumn j T' := by
  simp [inColumn]

/-- The column of a scaled proper row: one product or nothing. -/
theorem inColumn_scaled {L : SRow F} (hn : (L.map Prod.fst).Nodup) (x : F) (j : Nat) :
    inColumn j (scaled x L) = if HasColumn j L then [x * look L j] else [] := by
  unfold inColumn scaled
  induction L with
  | nil => rfl
  | cons q L ih =>
    simp only [List.map_cons, List.nodup_cons] at hn
    rw [List.map_cons, List.filter_cons, look_cons]
    have ih' := ih hn.2
    by_cases h : q.1 = j
    · subst h
      rw [if_neg (show ¬ HasColumn q.1 L from hn.1)] at ih'
      rw [if_pos (show HasColumn q.1 (q :: L) by simp [HasColumn])]
      simp only [decide_true, if_true, List.map_cons, ih']
    · have hc : HasColumn j (q :: L) ↔ HasColumn j L := by
        unfold HasColumn
        rw [List.map_cons, List.mem_cons]
        exact ⟨fun e => e.resolve_left fun e => h e.symm, Or.inr⟩
      simp only [h, decide_false, Bool.false_eq_true, if_false, hc]
      exact ih'

theorem inColumn_terms {L : SRow F} {ρ : Nat → SRow F}
    (hρ : ∀ p ∈ L, ((ρ p.1).map Prod.fst).Nodup) (j : Nat) :
    inColumn j (terms L ρ)
      = (L.filter fun p => decide (HasColumn j (ρ p.1))).map fun p => p.2 * look (ρ p.1) j := by
  unfold terms
  induction L with
  | nil => rfl
  | cons q L ih =>
    rw [List.flatMap_cons, inColumn_append, ih (fun p hp => hρ p (by simp [hp])),
      inColumn_scaled (hρ q (by simp)), List.filter_cons]
    by_cases h : HasColumn j (ρ q.1) <;> simp [h]

variable [Add F] {K : Type} [NormedField K] {val : F → K} {u : ℝ}

theorem map_sum_filter {ι M : Type} [AddMonoid M] (L : List ι) (p : ι → Bool) (e : ι → M)
    (h : ∀ i ∈ L, p i = false → e i = 0) : ((L.filter p).map e).sum = (L.map e).sum := by
  induction L with
  | nil => rfl
  | cons i L ih =>
    rw [List.filter_cons, List.map_cons, List.sum_cons]
    have ih' := ih (fun i hi => h i (by simp [hi]))
    by_cases hp : p i = true
    · rw [if_pos hp, List.map_cons, List.sum_cons, ih']
    · rw [if_neg hp, ih', h i (by simp) (by simpa using hp), zero_add]

/-- The error of an element of a product. -/
theorem Rounds.product (h : Rounds val u) {N : Nat} {L : SRow F} {ρ : Nat → SRow F}
    (hL : SRow.Good N L) (hρ : ∀ k, k < N → SRow.Good N (ρ k)) (j : Nat) :
    ‖val (summed (inColumn j (terms L ρ)))
        - ∑ k ∈ Finset.range N, val (look L k) * val (look (ρ k) j)‖
      ≤ ((1 + u) ^ L.length - 1)
        * ∑ k ∈ Finset.range N, ‖val (look L k)‖ * ‖val (look (ρ k) j)‖ := by
  by_cases h0 : L = []
  · subst h0
    simp [terms, inColumn, summed, h.zero]
  have h1 : 0 < L.length := List.length_pos_iff.2 h0
  rw [inColumn_terms (fun p hp => (hρ _ (hL.2 p hp)).1)]
  generalize hL' : (L.filter fun p => decide (HasColumn j (ρ p.1))) = L'
  have hs := sumOf_summed (fun p : Nat × F => p.2 * look (ρ p.1) j) L'
  have herr := (SumOf.error h hs (fun p => val p.2 * val (look (ρ p.1) j)) 1 (fun p _ => by
    rw [pow_one]
    simpa using h.mul p.2 (look (ρ p.1) j))).1
  have hz : ∀ p ∈ L, decide (HasColumn j (ρ p.1)) = false → val (look (ρ p.1) j) = 0 := by
    intro p _ hp
    rw [look_of_not_mem (of_decide_eq_false hp), h.zero]
  have e1 : (L'.map fun p => val p.2 * val (look (ρ p.1) j)).sum
      = ∑ k ∈ Finset.range N, val (look L k) * val (look (ρ k) j) := by
    rw [← hL', map_sum_filter L _ _ (fun p hp h' => by rw [hz p hp h', mul_zero])]
    exact sum_entries hL (fun k x => val x * val (look (ρ k) j)) (fun k => by
      rw [h.zero, zero_mul])
  have e2 : (L'.map fun p => ‖val p.2 * val (look (ρ p.1) j)‖).sum
      = ∑ k ∈ Finset.range N, ‖val (look L k)‖ * ‖val (look (ρ k) j)‖ := by
    rw [← hL', map_sum_filter L _ _ (fun p hp h' => by rw [hz p hp h', mul_zero, norm_zero])]
    simp only [norm_mul]
    exact sum_entries hL (fun k x => ‖val x‖ * ‖val (look (ρ k) j)‖) (fun k => by
      rw [h.zero, norm_zero, zero_mul])
  rw [e1, e2] at herr
  refine herr.trans (mul_le_mul_of_nonneg_right ?_
    (Finset.sum_nonneg fun k _ => mul_nonneg (norm_nonneg _) (norm_nonneg _)))
  have hlen : L'.length ≤ L.length := by rw [← hL']; exact List.length_filter_le _ _
  exact sub_le_sub_right (h.pow_mono (by omega)) 1


/-- The error of an element of a sum. -/
theorem Rounds.sum [DecidableEq F] (h : Rounds val u) {L L' : SRow F}
    (hL : (L.map Prod.fst).Nodup) (hL' : (L'.map Prod.fst).Nodup) (x y : F) (j : Nat) :
    ‖val (summed (inColumn j (sumTerms x y L L')))
        - (val x * val (look L j) + val y * val (look L' j))‖
      ≤ ((1 + u) ^ 2 - 1) * (‖val x‖ * ‖val (look L j)‖ + ‖val y‖ * ‖val (look L' j)‖) := by
  -- the list of the products that are added
  have part : ∀ (c : F) {L : SRow F}, (L.map Prod.fst).Nodup → ∃ T : List (F × F),
      T.length ≤ 1 ∧ inColumn j (if c = 0 then [] else scaled c L) = T.map (fun p => p.1 * p.2) ∧
      (T.map fun p => val p.1 * val p.2).sum = val c * val (look L j) ∧
      (T.map fun p => ‖val p.1 * val p.2‖).sum = ‖val c‖ * ‖val (look L j)‖ := by
    intro c L hL
    by_cases hc : c = 0
    · subst hc
      exact ⟨[], by simp, by simp [inColumn], by simp [h.zero], by simp [h.zero]⟩
    · rw [if_neg hc, inColumn_scaled hL]
      by_cases hj : HasColumn j L
      · exact ⟨[(c, look L j)], by simp, by simp [hj], by simp, by simp⟩
      · refine ⟨[], by simp, by simp [hj], ?_, ?_⟩ <;>
          simp [look_of_not_mem (show j ∉ L.map Prod.fst from hj), h.zero]
  obtain ⟨T, t1, t2, t3, t4⟩ := part x hL
  obtain ⟨T', t1', t2', t3', t4'⟩ := part y hL'
  unfold sumTerms
  rw [inColumn_append, t2, t2', ← List.map_append, ← t3, ← t3', ← t4, ← t4', ← List.sum_append,
    ← List.sum_append, ← List.map_append, ← List.map_append]
  have hs := sumOf_summed (fun p : F × F => p.1 * p.2) (T ++ T')
  have herr := (SumOf.error h hs (fun p => val p.1 * val p.2) 1 (fun p _ => by
    rw [pow_one]
    simpa using h.mul p.1 p.2)).1
  refine herr.trans (mul_le_mul_of_nonneg_right ?_ (sum_norm_nonneg _ _))
  refine sub_le_sub_right (h.pow_mono ?_) 1
  rw [List.length_append]
  omega

end Spec

namespace Ell

variable {R : Type} [Zero R] [One R] [Add R] [Mul R] {E : Prop}

/-- A trace adds the diagonal elements of the rows it is given. -/
theorem wp_trace_sum {N M : Nat} {A : Ell R} {ρ : Nat → SRow R} (hA : A.Stores N M ρ)
    {sc : Sched} (hsc : ∀ e ∈ sc, e.2 < N) :
    (trace A sc).wp E (fun t => Spec.SumOf (fun i => look (ρ i) i) (sc.map Prod.snd) t) := by
  have hd := hA.dim
  unfold trace
  refine wp_forList (fun pre (t : R) =>
    Spec.SumOf (fun i => look (ρ i) i) (pre.map Prod.snd) t) Spec.SumOf.zero ?_ (fun _ h => h)
  rintro pre ⟨th, i⟩ post rfl t ht
  have hi : i < N := hsc (th, i) (by simp)
  simp only
  rw [read_nnz hA.shape (by omega), Res.bind_ok]
  have hle := hA.le hi
  have hf := findFrom_eq hA.shape (i := i) (j := i) (by omega) (A.nnz.get i) 0 (by omega)
  unfold traceRow
  rw [hf, Res.bind_ok, Res.pure_eq, Res.wp_ok, List.map_append]
  refine Spec.SumOf.add ht ?_
  have := Spec.SumOf.one (x := fun i => look (ρ i) i) i
  have he : look (ρ i) i = ((List.drop 0 (A.rowPre i (0 + A.nnz.get i))).find?
      (fun q => decide (q.1 = i))).elim 0 Prod.snd := by
    rw [← hA.row i hi, List.drop_zero, Nat.zero_add]
    rfl
  rw [← he]
  exact this

/-- A sum of squares adds the squares of the stored entries of the rows it is given. -/
theorem wp_sumSquares_sum {N M : Nat} {A : Ell R} {ρ : Nat → SRow R} (hA : A.Stores N M ρ)
    {sc : Sched} (hsc : ∀ e ∈ sc, e.2 < N) :
    (sumSquares A sc).wp E (fun t => Spec.SumOf (fun p : Nat × R => p.2 * p.2)
      ((sc.map Prod.snd).flatMap ρ) t) := by
  have hd := hA.dim
  unfold sumSquares
  refine wp_forList (fun pre (t : R) => Spec.SumOf (fun p : Nat × R => p.2 * p.2)
    ((pre.map Prod.snd).flatMap ρ) t) Spec.SumOf.zero ?_ (fun _ h => h)
  rintro pre ⟨th, i⟩ post rfl t ht
  have hi : i < N := hsc (th, i) (by simp)
  simp only
  rw [read_nnz hA.shape (by omega), Res.bind_ok]
  have hle := hA.le hi
  refine wp_loop' (fun n (t : R) => Spec.SumOf (fun p : Nat × R => p.2 * p.2)
    ((pre.map Prod.snd).flatMap ρ ++ A.rowPre i n) t) ?_ ?_ ?_
  · simpa using ht
  · intro k hk t ht
    rw [read_val hA.shape (by omega) (by omega), Res.bind_ok, Res.pure_eq, Res.wp_ok, rowPre_succ,
      ← List.append_assoc]
    exact Spec.SumOf.add ht
      (Spec.SumOf.one (x := fun p : Nat × R => p.2 * p.2) (A.idx.get (i * A.M + k), A.val.get (i * A.M + k)))
  · intro t ht
    have : A.rowPre i (A.nnz.get i) = ρ i := hA.row i hi
    rw [this] at ht
    simpa using ht

end Ell

end Bml
