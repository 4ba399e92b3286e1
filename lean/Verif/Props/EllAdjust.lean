import Verif.Props.EllOps
import Verif.Ellpack.Adjust
import Mathlib.Algebra.Order.BigOperators.Group.Finset

/-!
# Property theorems: the threshold-adjusting product (C16, ELLPACK)

`adjustRun A B C bigs scs n` is the state after `n` evaluations of the condition of the `while` loop
of `bml_multiply_adjust_AB`; the call has returned by then exactly when the second component
(`aflag`) is zero.  `bigs k` is the test against the threshold of pass `k`.
-/

namespace Bml.Props

open Bml Bml.Ell

variable {R : Type} [CommRing R]

/-- The number of entries that a pass with the test `big` stores in row `i`. -/
def keptFill (A B : Ell R) (big : R → Bool) (a b : Spec.Mat R) (N i : Nat) : Nat :=
  ((Finset.range N).filter (fun j => (j = i ∨ big (Spec.mul N a b i j) = true) ∧
    ∃ k, k < N ∧ A.Stored i k ∧ B.Stored k j)).card

theorem keptCount_eq {N : Nat} {A B : Ell R} {a a' b : Spec.Mat R} (hA : A.Rep N a)
    (big : R → Bool) {i : Nat} (hi : i < N) :
    keptCount A B big a' b N i = keptFill A B big a' b N i := by
  unfold keptCount keptFill
  congr 1
  apply Finset.filter_congr
  intro j _
  refine and_congr_right (fun _ => ?_)
  constructor
  · rintro ⟨p, hp, hj⟩
    exact ⟨p.1, (hA.good i hi).2 p hp, stored_iff.2 (List.mem_map.2 ⟨p, hp, rfl⟩),
      stored_iff.2 hj⟩
  · rintro ⟨k, _, h1, h2⟩
    obtain ⟨p, hp, rfl⟩ := List.mem_map.1 (stored_iff.1 h1)
    exact ⟨p, hp, stored_iff.1 h2⟩

/-- One pass, when what it stores fits. -/
theorem pass_ok {N lo hi : Nat} {A B C : Ell R} {a b c : Spec.Mat R} (hA : A.Represents N a)
    (hB : B.Represents N b) (hC : C.Represents N c) (big : R → Bool) {sc : Sched}
    (hsc : IsSched lo hi sc) (hhi : hi ≤ N)
    (hfit : ∀ i, lo ≤ i → i < hi → keptFill A B big a b N i ≤ C.M) :
    ∃ C', adjustPass A B C big sc =
        .ok (C', ∑ i ∈ Finset.Ico lo hi, if productFill A B N i > C.M then 1 else 0) ∧
      C'.M = C.M ∧
      C'.Represents N (Spec.onRows lo hi (Spec.keepOff big (Spec.mul N a b)) c) := by
  have hR := represents_iff.1 hA
  have hRC := represents_iff.1 hC
  obtain ⟨⟨C', fl⟩, e, h1, h2, h3, h4, h5⟩ := Res.wp_exists
    (wp_adjustPass (E := False) hR (represents_iff.1 hB) hRC.shape hRC.dim
      (fun i hi => hRC.rowSat hi) big hsc hhi
      (fun i g1 g2 => by rw [keptCount_eq hR big (by omega)]; exact hfit i g1 g2))
  simp only at h1 h2 h3 h4 h5
  refine ⟨C', ?_, h1, rep_of_onRows h2 h3 fun i hi' => ?_⟩
  · rw [e, h4]
    congr 2
    refine Finset.sum_congr rfl fun i hi => ?_
    have hi := Finset.mem_Ico.1 hi
    rw [symCount_eq hR (by omega)]
  · have := h5 i hi'
    split at this
    · next hc => rw [if_pos hc]; exact this
    · next hc => rw [if_neg hc]; exact this

theorem keptFill_le (A B : Ell R) (big : R → Bool) (a b : Spec.Mat R) (N i : Nat) :
    keptFill A B big a b N i ≤ productFill A B N i := by
  unfold keptFill productFill
  apply Finset.card_le_card
  intro j hj
  rw [Finset.mem_filter] at hj ⊢
  exact ⟨hj.1, hj.2.2⟩

/-- **C16 (partial).**  If in every row of this rank at most `M` columns are reachable through stored
entries, the call returns after one pass, with the product thresholded off the diagonal. -/
theorem C16_adjust_AB_partial {N lo hi : Nat} {A B C : Ell R} {a b c : Spec.Mat R}
    (hA : A.Represents N a) (hB : B.Represents N b) (hC : C.Represents N c)
    (bigs : Nat → R → Bool) {scs : Nat → Sched} (hsc : ∀ k, IsSched lo hi (scs k)) (hhi : hi ≤ N)
    (hfit : ∀ i, lo ≤ i → i < hi → productFill A B N i ≤ C.M) (n : Nat) :
    ∃ C', adjustRun A B C bigs scs (n + 1) = .ok (C', 0) ∧ C'.M = C.M ∧ C'.Represents N
      (Spec.onRows lo hi (Spec.keepOff (bigs 0) (Spec.mul N a b)) c) := by
  obtain ⟨C', e, h1, h2⟩ := pass_ok hA hB hC (bigs 0) (hsc 0) hhi
    (fun i g1 g2 => le_trans (keptFill_le A B _ a b N i) (hfit i g1 g2))
  rw [Finset.sum_eq_zero (fun i hi => by
    have hi := Finset.mem_Ico.1 hi
    rw [if_neg (by have := hfit i hi.1 hi.2; omega)])] at e
  refine ⟨C', ?_, h1, h2⟩
  induction n with
  | zero =>
    unfold adjustRun adjustRun
    rw [Res.bind_ok, if_pos (by exact Nat.one_pos)]
    exact e
  | succ n ih =>
    unfold adjustRun
    rw [ih, Res.bind_ok]
    rfl

/-- **C16 fails: the call never returns** if in some row more than `M` columns are reachable through
stored entries, whatever the values, thresholds and schedules are: the loop tests the number
of touched columns, which does not depend on the threshold. -/
theorem C16_never_returns {N lo hi : Nat} {A B C : Ell R} {a b c : Spec.Mat R}
    (hA : A.Represents N a) (hB : B.Represents N b) (hC : C.Represents N c)
    (bigs : Nat → R → Bool) {scs : Nat → Sched} (hsc : ∀ k, IsSched lo hi (scs k)) (hhi : hi ≤ N)
    (hlong : ∃ i, lo ≤ i ∧ i < hi ∧ productFill A B N i > C.M) (n : Nat) (C' : Ell R) :
    adjustRun A B C bigs scs n ≠ .ok (C', 0) := by
  intro h
  have hR := represents_iff.1 hA
  have := wlp_adjustRun hR (represents_iff.1 hB) (represents_iff.1 hC).dim bigs hsc hhi
    (by obtain ⟨i, h1, h2, h3⟩ := hlong
        exact ⟨i, h1, h2, by rw [symCount_eq hR (by omega)]; exact h3⟩) n _ h
  exact absurd this.2.2 (by simp)

/-- **C16**: ... even when what is above threshold fits, in which case no error and no memory fault
ends the loop either: it runs for ever. -/
theorem C16_runs_for_ever {N lo hi : Nat} {A B C : Ell R} {a b c : Spec.Mat R}
    (hA : A.Represents N a) (hB : B.Represents N b) (hC : C.Represents N c)
    (bigs : Nat → R → Bool) {scs : Nat → Sched} (hsc : ∀ k, IsSched lo hi (scs k)) (hhi : hi ≤ N)
    (hlong : ∃ i, lo ≤ i ∧ i < hi ∧ productFill A B N i > C.M)
    (hfit : ∀ k i, lo ≤ i → i < hi → keptFill A B (bigs k) a b N i ≤ C.M) (n : Nat) :
    ∃ C' fl, adjustRun A B C bigs scs n = .ok (C', fl) ∧ fl > 0 := by
  suffices h : ∃ C' fl c', adjustRun A B C bigs scs n = .ok (C', fl) ∧ fl > 0 ∧ C'.M = C.M ∧
      C'.Represents N c' by
    obtain ⟨C', fl, _, h1, h2, _⟩ := h
    exact ⟨C', fl, h1, h2⟩
  induction n with
  | zero => exact ⟨C, 1, c, rfl, Nat.one_pos, rfl, hC⟩
  | succ n ih =>
    obtain ⟨C1, fl, c1, e, hpos, hM, hR⟩ := ih
    obtain ⟨C2, e2, h1, h2⟩ := pass_ok hA hB hR (bigs n) (hsc n) hhi
      (fun i g1 g2 => by rw [hM]; exact hfit n i g1 g2)
    refine ⟨C2, _, _, by unfold adjustRun; rw [e, Res.bind_ok, if_pos hpos]; exact e2, ?_,
      h1.trans hM, h2⟩
    obtain ⟨i, g1, g2, g3⟩ := hlong
    refine lt_of_lt_of_le ?_ (Finset.single_le_sum
      (f := fun i => if productFill A B N i > C1.M then 1 else 0)
      (fun _ _ => Nat.zero_le _) (Finset.mem_Ico.2 ⟨g1, g2⟩))
    rw [hM, if_pos g3]
    exact Nat.one_pos

/-- `[[5,1],[0,5]]` with two places per row. -/
def exAdjA : Ell Int := ofRows 2 2 fun i => if i = 0 then [(0, 5), (1, 1)] else [(1, 5)]

/-- The identity with one place per row. -/
def exAdjI : Ell Int := ofRows 2 1 fun i => [(i, 1)]

theorem exAdjA_rep : exAdjA.Represents 2 (fun i j => SRow.den
    (if i = 0 then [(0, 5), (1, 1)] else [(1, 5)]) j) := ofRows_rep (by decide)

theorem exAdjI_rep : exAdjI.Represents 2 (fun i j => SRow.den [(i, 1)] j) := ofRows_rep (by decide)

/-- `bml_multiply_adjust_AB(A, I, C, 2)` with `A = [[5,1],[0,5]]` and `M = 1` in `C`: the thresholded
product `[[5,0],[0,5]]` fits, but the call does not return. -/
theorem C16_witness (n : Nat) :
    ∃ C' fl, adjustRun exAdjA exAdjI exAdjI (fun k x => decide (2 * 2 ^ k < x.natAbs))
      (fun _ => seqSched 0 2) n = .ok (C', fl) ∧ fl > 0 := by
  refine C16_runs_for_ever exAdjA_rep exAdjI_rep exAdjI_rep _ (fun _ => isSched_seq 0 2) (le_refl 2)
    ⟨0, le_refl 0, by omega, by decide⟩ (fun k i _ hi => ?_) n
  refine le_trans (Finset.card_le_card (t := {i}) fun j hj => ?_) (by simp [exAdjI, ofRows])
  rw [Finset.mem_filter, Finset.mem_range] at hj
  rw [Finset.mem_singleton]
  obtain ⟨hj, hor, _⟩ := hj
  rcases hor with h | h
  · exact h
  · have hk : 1 ≤ 2 ^ k := Nat.one_le_two_pow
    interval_cases i <;> interval_cases j <;> first | rfl | (exfalso; revert h; simp [Spec.mul, SRow.den]; try omega)

example : ∃ C', adjustRun exAdjA exAdjI exAdjA (fun k x => decide (2 * 2 ^ k < x.natAbs))
    (fun _ => seqSched 0 2) 1 = .ok (C', 0) ∧ C'.getElement 0 0 = .ok 5 ∧
    C'.getElement 0 1 = .ok 0 := by
  obtain ⟨C', e, -, h⟩ := C16_adjust_AB_partial exAdjA_rep exAdjI_rep exAdjA_rep
    (fun k x => decide (2 * 2 ^ k < x.natAbs)) (scs := fun _ => seqSched 0 2)
    (fun _ => isSched_seq 0 2) (le_refl 2) (by decide) 0
  exact ⟨C', e, (h.get 0 0 (by omega) (by omega)).trans (by decide),
    (h.get 0 1 (by omega) (by omega)).trans (by decide)⟩

end Bml.Props
