import Verif.Ellpack.Construct2
import Verif.Wlp

/-!
# ELLPACK: conversion into rows that are too short never succeeds
-/

namespace Bml

namespace Ell

variable {R : Type} [CommRing R]

/-- A store into the next free slot of row `i`, normal outcomes only. -/
theorem wlp_append {A : Ell R} (hv : A.val.size = A.N * A.M) (i j : Nat) (v : R) :
    (do let A1 ← A.putEntry i (A.nnz.get i) j v
        A1.setNnz i (A.nnz.get i + 1) : Res (Ell R)).wlp
      (fun A' => A' = A.app i j v ∧ i * A.M + A.nnz.get i < A.N * A.M) := by
  rw [Res.wlp_bind]
  intro A1 h1
  unfold putEntry at h1
  by_cases ha : i * A.M + A.nnz.get i < A.val.size
  · by_cases hb : i * A.M + A.nnz.get i < A.idx.size
    · simp only [ROWMAJOR] at h1
      rw [Arr.write_ok _ ha, Res.bind_ok, Arr.write_ok _ hb, Res.bind_ok, Res.pure_eq] at h1
      cases h1
      intro A2 h2
      unfold setNnz at h2
      by_cases hc : i < A.nnz.size
      · rw [Arr.write_ok _ (by exact hc), Res.bind_ok, Res.pure_eq] at h2
        cases h2
        exact ⟨rfl, by omega⟩
      · rw [Arr.write_ub _ (by simpa using hc)] at h2
        cases h2
    · simp only [ROWMAJOR] at h1
      first
        | (rw [Arr.write_ok _ ha, Res.bind_ok, Arr.write_ub _ (by simpa using hb)] at h1; cases h1)
        | (rw [Arr.write_ub _ (by simpa using hb)] at h1; cases h1)
  · simp only [ROWMAJOR] at h1
    by_cases hb : i * A.M + A.nnz.get i < A.idx.size
    · first
        | (rw [Arr.write_ub _ (by simpa using ha)] at h1; cases h1)
        | (rw [Arr.write_ok _ hb, Res.bind_ok, Arr.write_ub _ (by simpa using ha)] at h1; cases h1)
    · first
        | (rw [Arr.write_ub _ (by simpa using ha)] at h1; cases h1)
        | (rw [Arr.write_ub _ (by simpa using hb)] at h1; cases h1)

/-- The search of `bml_set_element`, normal outcomes only. -/
theorem wlp_findSlot {A : Ell R} {i j : Nat} : ∀ (fuel p : Nat),
    (∀ k, p ≤ k → k < p + fuel → A.idx.get (i * A.M + k) ≠ j) →
    (A.findSlot i j p fuel).wlp (fun r => r = none) := by
  intro fuel
  induction fuel with
  | zero => intro p _; exact Res.wlp_ok.2 rfl
  | succ fuel ih =>
    intro p h
    unfold findSlot
    rw [Res.wlp_bind]
    intro k hk
    have : k = A.idx.get (i * A.M + p) := by
      by_cases hb : i * A.M + p < A.idx.size
      · simp only [ROWMAJOR] at hk; rw [Arr.read_ok hb] at hk; cases hk; rfl
      · simp only [ROWMAJOR] at hk; rw [Arr.read_ub (by simpa using hb)] at hk; cases hk
    subst this
    rw [if_neg (h p (le_refl _) (by omega))]
    exact ih (p + 1) (fun k h1 h2 => h k (by omega) (by omega))

theorem wlp_setElement {A : Ell R} (hv : A.val.size = A.N * A.M) {i j : Nat} (v : R)
    (hno : ∀ k, k < A.nnz.get i → A.idx.get (i * A.M + k) ≠ j) :
    (A.setElement i j v).wlp
      (fun A' => A' = A.app i j v ∧ i * A.M + A.nnz.get i < A.N * A.M) := by
  unfold setElement
  rw [Res.wlp_bind]
  intro n hn
  have : n = A.nnz.get i := by
    by_cases hb : i < A.nnz.size
    · rw [Arr.read_ok hb] at hn; cases hn; rfl
    · rw [Arr.read_ub (by simpa using hb)] at hn; cases hn
  subst this
  split
  · rw [Res.wlp_bind]
    refine Res.wlp_mono (wlp_findSlot _ 0 (fun k _ h => hno k (by omega))) ?_
    rintro r rfl
    exact wlp_append hv i j v
  · exact wlp_append hv i j v

/-- `bml_convert` to ELLPACK with rows shorter than the matrix never returns normally: every
element is stored, zeros too, and the last row does not fit. -/
theorem convertFrom_not_ok {N M : Nat} (hNM : M < N) (get : Nat → Nat → Res R) :
    (convertFrom get N M).wlp (fun _ => False) := by
  unfold convertFrom newZero
  by_cases hM : M > 0
  swap
  · rw [if_neg hM]; exact fun _ h => by cases h
  rw [if_pos hM, Res.bind_ok]
  refine Res.wlp_mono (wlp_loop (fun n (B : Ell R) => (B.N = N ∧ B.M = M ∧
      B.val.size = N * M ∧ ∀ i, n ≤ i → B.nnz.get i = 0) ∧ (n = N → False)) ?_ ?_)
      (fun _ h => h.2 rfl)
  · exact ⟨⟨rfl, rfl, rfl, fun _ _ => rfl⟩, fun h => by omega⟩
  · rintro i hi B ⟨⟨g1, g2, g3, g4⟩, -⟩
    refine Res.wlp_mono (wlp_loop (fun n (B : Ell R) => (B.N = N ∧ B.M = M ∧
      B.val.size = N * M ∧ ∀ i', i + 1 ≤ i' → B.nnz.get i' = 0) ∧ B.nnz.get i = n ∧
      (∀ k, k < n → B.idx.get (i * M + k) = k) ∧ (0 < n → i * M + n ≤ N * M)) ?_ ?_) ?_
    · exact ⟨⟨g1, g2, g3, fun i' h => g4 i' (by omega)⟩, g4 i (le_refl _), fun k hk => by omega,
        fun h => by omega⟩
    · rintro j hj B ⟨⟨k1, k2, k3, k4⟩, k5, k6, k7⟩
      rw [Res.wlp_bind]
      intro v _
      refine Res.wlp_mono (wlp_setElement (by rw [k1, k2, k3]) v (fun k hk => by
        rw [k2, k6 k (by omega)]; omega)) ?_
      rintro B' ⟨rfl, hlt⟩
      rw [k1, k2, k5] at hlt
      refine ⟨⟨k1, k2, k3, fun i' h => ?_⟩, ?_, fun k hk => ?_, fun _ => by omega⟩
      · rw [app_nnz, k4 i' h, if_neg (by omega)]
      · rw [app_nnz, k5]; simp
      · show upd B.idx.get (i * B.M + B.nnz.get i) j (i * M + k) = k
        rw [k2, k5]
        by_cases he : k = j
        · subst he; simp
        · rw [upd_ne _ _ (by omega)]; exact k6 k (by omega)
    · rintro B' ⟨⟨k1, k2, k3, k4⟩, k5, k6, k7⟩
      refine ⟨⟨k1, k2, k3, k4⟩, fun hN => ?_⟩
      have h7 := k7 (by omega)
      have : N * M = i * M + M := by rw [← hN]; ring
      omega

end Ell

end Bml
