import Verif.Basic
import Verif.Spec

/-!
# Sparse rows as lists

The logical content of one row of an ELLPACK or CSR matrix: the list of its stored
`(column, value)` pairs in storage order.
-/

namespace Bml

open Finset

/-- A sparse row: stored `(column, value)` pairs in storage order. -/
abbrev SRow (R : Type*) := List (Nat × R)

namespace SRow

variable {R : Type*}

/-- The value of column `j`: the sum of the stored values with that column. -/
def den [AddCommMonoid R] (L : SRow R) (j : Nat) : R :=
  (L.map (fun p => if p.1 = j then p.2 else 0)).sum

/-- No column stored twice, all columns below `N`. -/
def Good (N : Nat) (L : SRow R) : Prop := (L.map Prod.fst).Nodup ∧ ∀ p ∈ L, p.1 < N

section
variable [AddCommMonoid R]

@[simp] theorem den_nil (j : Nat) : den ([] : SRow R) j = 0 := rfl

@[simp] theorem den_cons (p : Nat × R) (L : SRow R) (j : Nat) :
    den (p :: L) j = (if p.1 = j then p.2 else 0) + den L j := by
  simp [den]

@[simp] theorem den_append (L L' : SRow R) (j : Nat) : den (L ++ L') j = den L j + den L' j := by
  simp [den]

theorem den_of_not_mem {L : SRow R} {j : Nat} (h : j ∉ L.map Prod.fst) : den L j = 0 := by
  induction L with
  | nil => rfl
  | cons p L ih =>
    simp only [List.map_cons, List.mem_cons, not_or] at h
    rw [den_cons, if_neg (fun e => h.1 e.symm), ih h.2, add_zero]

theorem den_of_mem {L : SRow R} (hn : (L.map Prod.fst).Nodup) {j : Nat} {v : R}
    (h : (j, v) ∈ L) : den L j = v := by
  induction L with
  | nil => simp at h
  | cons p L ih =>
    simp only [List.map_cons, List.nodup_cons] at hn
    rcases List.mem_cons.1 h with rfl | h
    · simp [den_of_not_mem hn.1]
    · have : p.1 ≠ j := by
        rintro rfl
        exact hn.1 (List.mem_map.2 ⟨_, h, rfl⟩)
      rw [den_cons, if_neg this, zero_add, ih hn.2 h]

theorem den_perm {L L' : SRow R} (h : L.Perm L') (j : Nat) : den L j = den L' j :=
  (h.map _).sum_eq

end

section
variable [NonUnitalNonAssocSemiring R]

/-- A sum over stored entries is the sum over all columns of the row's values. -/
theorem sum_den_mul {N : Nat} {L : SRow R} (h : ∀ p ∈ L, p.1 < N) (g : Nat → R) :
    ∑ k ∈ range N, den L k * g k = (L.map (fun p => p.2 * g p.1)).sum := by
  induction L with
  | nil => simp
  | cons p L ih =>
    have hp : p.1 < N := h p (by simp)
    simp only [den_cons, add_mul, sum_add_distrib, List.map_cons, List.sum_cons]
    rw [ih (fun q hq => h q (by simp [hq]))]
    congr 1
    rw [Finset.sum_eq_single p.1]
    · simp
    · intro b _ hb; simp [Ne.symm hb]
    · intro hnot; simp at hnot; omega

end

theorem sum_den [AddCommMonoid R] {N : Nat} {L : SRow R} (h : ∀ p ∈ L, p.1 < N) :
    ∑ k ∈ range N, den L k = (L.map Prod.snd).sum := by
  induction L with
  | nil => simp
  | cons p L ih =>
    have hp : p.1 < N := h p (by simp)
    simp only [den_cons, sum_add_distrib, List.map_cons, List.sum_cons]
    rw [ih (fun q hq => h q (by simp [hq]))]
    congr 1
    rw [Finset.sum_eq_single p.1]
    · simp
    · intro b _ hb; simp [Ne.symm hb]
    · intro hnot; simp at hnot; omega

/-- A nonlinear sum over stored entries of a duplicate-free row. -/
theorem sum_den_map [AddCommMonoid R] {S : Type*} [AddCommMonoid S] {N : Nat} {L : SRow R}
    (h : Good N L) (g : Nat → R → S) (hg : ∀ k, g k 0 = 0) :
    ∑ k ∈ range N, g k (den L k) = (L.map (fun p => g p.1 p.2)).sum := by
  induction L with
  | nil => simp [hg]
  | cons p L ih =>
    have hp : p.1 < N := h.2 p (by simp)
    have hn := h.1
    simp only [List.map_cons, List.nodup_cons] at hn
    have ih := ih ⟨hn.2, fun q hq => h.2 q (by simp [hq])⟩
    rw [List.map_cons, List.sum_cons, ← ih]
    have hmem : p.1 ∈ range N := by simpa using hp
    rw [← Finset.add_sum_erase _ _ hmem, ← Finset.add_sum_erase (range N) _ hmem]
    have h0 : den L p.1 = 0 := den_of_not_mem hn.1
    simp only [den_cons, if_true, h0, add_zero, hg, zero_add]
    congr 1
    apply Finset.sum_congr rfl
    intro k hk
    have : p.1 ≠ k := by
      intro e; subst e; simp at hk
    simp [this]

/-- Thresholding a stored row. -/
theorem den_filter_keep [AddCommMonoid R] {L : SRow R} (hn : (L.map Prod.fst).Nodup)
    (big : R → Bool) (j : Nat) :
    den (L.filter (fun p => big p.2)) j = Spec.keep big (den L j) := by
  induction L with
  | nil =>
    show (0 : R) = Spec.keep big 0
    unfold Spec.keep
    split <;> rfl
  | cons p L ih =>
    simp only [List.map_cons, List.nodup_cons] at hn
    have ih := ih hn.2
    by_cases hp : p.1 = j
    · subst hp
      have h0 : den L p.1 = 0 := den_of_not_mem hn.1
      have h1 : den (L.filter (fun p => big p.2)) p.1 = 0 := by
        apply den_of_not_mem
        intro hm
        obtain ⟨q, hq, he⟩ := List.mem_map.1 hm
        exact hn.1 (List.mem_map.2 ⟨q, (List.mem_filter.1 hq).1, he⟩)
      by_cases hb : big p.2 = true
      · simp [hb, h0, h1, Spec.keep]
      · simp [hb, h0, h1, Spec.keep]
    · by_cases hb : big p.2 = true
      · simp [hb, hp, ih]
      · simp [hb, hp, ih]

/-- Scaling a stored row. -/
theorem den_map_mul [NonUnitalNonAssocSemiring R] (L : SRow R) (c : R) (j : Nat) :
    den (L.map (fun p => (p.1, c * p.2))) j = c * den L j := by
  induction L with
  | nil => simp
  | cons p L ih =>
    simp only [List.map_cons, den_cons, ih, mul_add]
    split <;> simp

theorem Good.map_snd {S : Type*} {N : Nat} {L : SRow R} (h : Good N L) (f : Nat × R → S) :
    Good N (L.map (fun p => (p.1, f p))) := by
  refine ⟨?_, ?_⟩
  · rw [List.map_map]; exact h.1
  · intro p hp
    obtain ⟨q, hq, rfl⟩ := List.mem_map.1 hp
    exact h.2 q hq

theorem Good.length_le {N : Nat} {L : SRow R} (h : Good N L) : L.length ≤ N := by
  have h1 : (L.map Prod.fst).toFinset ⊆ range N := by
    intro j hj
    simp only [List.mem_toFinset, List.mem_map] at hj
    obtain ⟨p, hp, rfl⟩ := hj
    simpa using h.2 p hp
  have h2 := Finset.card_le_card h1
  rw [List.toFinset_card_of_nodup h.1] at h2
  simpa using h2

@[simp] theorem good_nil (N : Nat) : Good N ([] : SRow R) := by simp [Good]

theorem Good.append_singleton {N : Nat} {L : SRow R} (h : Good N L) {j : Nat} {v : R}
    (hj : j < N) (hn : j ∉ L.map Prod.fst) : Good N (L ++ [(j, v)]) := by
  constructor
  · rw [List.map_append, List.nodup_append]
    refine ⟨h.1, by simp, ?_⟩
    intro a ha b hb
    simp at hb; subst hb
    rintro rfl; exact hn ha
  · intro p hp
    rcases List.mem_append.1 hp with hp | hp
    · exact h.2 p hp
    · simp at hp; subst hp; exact hj

theorem Good.sublist {N : Nat} {L L' : SRow R} (h : Good N L) (hs : L'.Sublist L) : Good N L' :=
  ⟨h.1.sublist (hs.map _), fun p hp => h.2 p (hs.subset hp)⟩

theorem Good.perm {N : Nat} {L L' : SRow R} (h : Good N L) (hs : L.Perm L') : Good N L' :=
  ⟨((hs.map Prod.fst).nodup_iff).1 h.1, fun p hp => h.2 p (hs.mem_iff.2 hp)⟩

/-- A row that lists the columns `T` with values `f`. -/
def ofCols (T : List Nat) (f : Nat → R) : SRow R := T.map (fun j => (j, f j))

@[simp] theorem ofCols_map_fst (T : List Nat) (f : Nat → R) : (ofCols T f).map Prod.fst = T := by
  simp [ofCols, Function.comp_def]

@[simp] theorem ofCols_length (T : List Nat) (f : Nat → R) : (ofCols T f).length = T.length := by
  simp [ofCols]

theorem good_ofCols {N : Nat} {T : List Nat} {f : Nat → R} (hn : T.Nodup) (h : ∀ j ∈ T, j < N) :
    Good N (ofCols T f) := by
  refine ⟨by simpa using hn, ?_⟩
  intro p hp
  simp only [ofCols, List.mem_map] at hp
  obtain ⟨j, hj, rfl⟩ := hp
  exact h j hj

theorem den_ofCols [AddCommMonoid R] {T : List Nat} (f : Nat → R) (hn : T.Nodup) (j : Nat) :
    den (ofCols T f) j = if j ∈ T then f j else 0 := by
  split
  · next h => exact den_of_mem (by simpa using hn) (List.mem_map.2 ⟨j, h, rfl⟩)
  · next h => exact den_of_not_mem (by simpa using h)

/-- A sum over a duplicate-free list of columns outside of which the summand vanishes. -/
theorem sum_cols [AddCommMonoid R] {N : Nat} {T : List Nat} {f : Nat → R} (hn : T.Nodup)
    (h : ∀ j ∈ T, j < N) (hf : ∀ j, j < N → j ∉ T → f j = 0) :
    (T.map f).sum = ∑ j ∈ range N, f j := by
  have h1 := sum_den (N := N) (L := ofCols T f) (good_ofCols hn h).2
  have h2 : (ofCols T f).map Prod.snd = T.map f := by simp [ofCols, Function.comp_def]
  rw [h2] at h1
  rw [← h1]
  apply Finset.sum_congr rfl
  intro j hj
  rw [den_ofCols f hn]
  split
  · rfl
  · next hm => rw [hf j (by simpa using hj) hm]

theorem ofCols_append (T T' : List Nat) (f : Nat → R) :
    ofCols (T ++ T') f = ofCols T f ++ ofCols T' f := by simp [ofCols]

/-- Pigeonhole: a duplicate-free list of columns below `N` with property `p` is no longer
than the number of such columns. -/
theorem length_le_card {N : Nat} {T : List Nat} (hn : T.Nodup) (p : Nat → Bool)
    (h : ∀ j ∈ T, j < N ∧ p j = true) :
    T.length ≤ ((range N).filter (fun j => p j = true)).card := by
  rw [← List.toFinset_card_of_nodup hn]
  apply Finset.card_le_card
  intro j hj
  simp only [List.mem_toFinset] at hj
  simpa using h j hj

theorem length_eq_card {N : Nat} {T : List Nat} (hn : T.Nodup) (p : Nat → Bool)
    (h : ∀ j, j ∈ T ↔ j < N ∧ p j = true) :
    T.length = ((range N).filter (fun j => p j = true)).card := by
  rw [← List.toFinset_card_of_nodup hn]
  congr 1
  ext j
  simpa using h j

end SRow

end Bml
