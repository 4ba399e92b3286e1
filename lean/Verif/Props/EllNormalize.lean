import Verif.Props.EllOps
import Verif.Ellpack.Normalize
import Verif.Wlp
import Mathlib.Algebra.Order.Field.Rat
import Mathlib.Data.Rat.Defs
import Mathlib.Algebra.BigOperators.Field
import Mathlib.Tactic.LinearCombination

/-!
# Property theorems: ELLPACK Gershgorin bounds and normalization (C22, C23)
-/

namespace Bml.Props

open Bml Bml.Ell

variable {R : Type} [CommRing R] {K : Type} [Field K] [LinearOrder K] [IsStrictOrderedRing K]

/-! ## C22 -/

/-- **C22**, what `bml_gershgorin` computes: the smallest of `top = DBL_MAX` and the left ends,
the largest of `bot = DBL_MIN` and the right ends of the row circles. -/
theorem C22_gershgorin_value {N : Nat} {A : Ell R} {a : Spec.Mat R} (hA : A.Represents N a)
    (abv : AbsoluteValue R K) (re : R → K) (top bot : K) :
    ∃ e, gershgorin A abv re top bot 0 N = .ok e ∧
      IsMinOf top 0 N (fun i => re (a i i) - Spec.radius abv N a i) e.1 ∧
      IsMaxOf bot 0 N (fun i => re (a i i) + Spec.radius abv N a i) e.2 := by
  obtain ⟨e, h, h1⟩ := Res.wp_exists (wp_gershgorin (E := False) (represents_iff.1 hA) abv re
    (map_zero abv) top bot (Nat.zero_le N) (le_refl N))
  exact ⟨e, h, h1⟩

/-- **C22.**  The real part of every eigenvalue lies between the two numbers that
`bml_gershgorin` returns, whatever the initial values `top`, `bot` are.  `re` is the real part:
additive and bounded by the absolute value. -/
theorem C22_gershgorin {N : Nat} {A : Ell R} {a : Spec.Mat R} (hA : A.Represents N a)
    (abv : AbsoluteValue R K) (re : R →+ K) (hre : ∀ x, |re x| ≤ abv x) (top bot : K) :
    ∃ e, gershgorin A abv re top bot 0 N = .ok e ∧
      ∀ l, Spec.Eigen N a l → e.1 ≤ re l ∧ re l ≤ e.2 := by
  obtain ⟨e, h, h1, h2⟩ := C22_gershgorin_value hA abv re top bot
  refine ⟨e, h, fun l hl => ?_⟩
  obtain ⟨i, hi, hc⟩ := hl.circle abv
  have hr := le_trans (hre (l - a i i)) hc
  rw [map_sub, abs_le] at hr
  have g1 := h1.2.1 i (Nat.zero_le i) hi
  have g2 := h2.2.1 i (Nat.zero_le i) hi
  constructor <;> linarith [hr.1, hr.2]

/-- **C22** for real matrices: every eigenvalue lies in the interval. -/
theorem C22_gershgorin_real {N : Nat} {A : Ell K} {a : Spec.Mat K} (hA : A.Represents N a)
    (top bot : K) :
    ∃ e, gershgorin A (fun x => |x|) (fun x => x) top bot 0 N = .ok e ∧
      ∀ l, Spec.Eigen N a l → e.1 ≤ l ∧ l ≤ e.2 :=
  C22_gershgorin hA AbsoluteValue.abs (AddMonoidHom.id K) (fun _ => le_refl _) top bot

/-- **C22**, `bml_gershgorin_partial`: the circles of the first `nrows` rows. -/
theorem C22_gershgorin_partial_rows {N nrows : Nat} {A : Ell R} {a : Spec.Mat R}
    (hA : A.Represents N a) (hn : nrows ≤ N) (abv : AbsoluteValue R K) (re : R → K) (top bot : K) :
    ∃ e, gershgorinPartial A abv re top bot nrows = .ok e ∧
      IsMinOf top 0 nrows (fun i => re (a i i) - Spec.radius abv N a i) e.1 ∧
      IsMaxOf bot 0 nrows (fun i => re (a i i) + Spec.radius abv N a i) e.2 := by
  obtain ⟨e, h, h1⟩ := Res.wp_exists (wp_gershgorin (E := False) (represents_iff.1 hA) abv re
    (map_zero abv) top bot (Nat.zero_le nrows) hn)
  exact ⟨e, h, h1⟩

/-- **C22**, `bml_accumulate_offdiag`: the radii (plus the diagonal on demand). -/
theorem C22_accumulate_offdiag {N : Nat} {A : Ell R} {a : Spec.Mat R} (hA : A.Represents N a)
    (abv : AbsoluteValue R K) (incl : Bool) :
    ∃ out, accumulateOffdiag A abv incl = .ok out ∧ out.size = N ∧ ∀ i, i < N →
      out.get i = Spec.radius abv N a i + if incl then abv (a i i) else 0 := by
  obtain ⟨e, h, h1⟩ := Res.wp_exists (wp_accumulateOffdiag (E := False) (represents_iff.1 hA) abv
    (map_zero abv) incl)
  exact ⟨e, h, h1⟩

/-- A symmetric rational matrix. -/
def exQ : Ell Rat := ofRows 2 2 (fun i => [(1 - i, 1), (i, 2)])

theorem exQ_rep : exQ.Represents 2 (fun i j => SRow.den [(1 - i, 1), (i, 2)] j) :=
  ofRows_rep (by decide)

/-- It has the eigenvalue 3, with eigenvector `(1,1)`. -/
theorem exQ_eigen : Spec.Eigen 2 (fun i j => SRow.den [(1 - i, 1), (i, (2 : Rat))] j) 3 := by
  refine ⟨fun _ => 1, ⟨0, by decide, by decide⟩, ?_⟩
  decide +kernel

example : ∃ e, gershgorin exQ (fun x => |x|) (fun x => x) 1000 (1 / 1000) 0 2 = .ok e ∧
    e.1 ≤ (3 : Rat) ∧ (3 : Rat) ≤ e.2 := by
  obtain ⟨e, h, h1⟩ := C22_gershgorin_real exQ_rep (1000 : Rat) (1 / 1000)
  exact ⟨e, h, h1 3 exQ_eigen⟩

/-! ## C23 -/

/-- The normalized matrix. -/
def Spec.normalize (mn mx : K) (a : Spec.Mat K) : Spec.Mat K :=
  fun i j => ((if i = j then mx else 0) - a i j) / (mx - mn)

/-- **C23 (partial), elements.**  `bml_normalize(A,min,max)` yields
`(max δ_ij - a_ij) / (max - min)`, if every row has a stored diagonal element or room for one (or
`max = 0`).  Missing: full rows without a diagonal element, which run into the undefined
behaviour of `bml_add_identity`, see `C23_full_row_witness`. -/
theorem C23_normalize_partial {N : Nat} {A : Ell K} {a : Spec.Mat K} (hA : A.Represents N a)
    {mn mx : K} (hlt : mn < mx) {sc : Sched} (hsc : IsSched 0 N sc)
    (hroom : ∀ i, i < N → mx = 0 ∨ A.nnz.get i < A.M ∨ A.Stored i i) :
    ∃ A', Ell.normalize A mn mx 0 N sc = .ok A' ∧ A'.M = A.M ∧
      A'.Represents N (Spec.normalize mn mx a) := by
  have hne : mx - mn ≠ 0 := ne_of_gt (sub_pos.2 hlt)
  obtain ⟨A', e, h1, h2⟩ := C09_scale_add_identity_partial hA (-1 / (mx - mn)) (mx / (mx - mn))
    (fun x => decide (x ≠ 0)) hsc (fun i hi => by
      rcases hroom i hi with h | h
      · left; rw [h, zero_div]
      · right; exact h)
  refine ⟨A', e, h1, h2.congr ?_⟩
  intro i j hi hj
  have hk : ∀ x : K, Spec.keep (fun x => decide (x ≠ 0)) x = x := by
    intro x
    unfold Spec.keep
    by_cases hx : x = 0 <;> simp [hx]
  unfold Spec.addIdentity Spec.normalize Spec.scale
  rw [hk]
  unfold Spec.one
  by_cases hij : i = j
  · subst hij
    simp only [if_true, mul_one]
    rw [div_mul_eq_mul_div, ← add_div]
    congr 1
    ring
  · simp only [hij, if_false, mul_zero, add_zero]
    rw [div_mul_eq_mul_div, zero_sub]
    congr 1
    ring

/-- **C23, spectrum.**  If every eigenvalue of `a` is in `[min,max]`, every eigenvalue of the
normalized matrix is in `[0,1]`. -/
theorem C23_spectrum {N : Nat} {a : Spec.Mat K} {mn mx : K} (hlt : mn < mx)
    (hspec : ∀ l, Spec.Eigen N a l → mn ≤ l ∧ l ≤ mx) {l : K}
    (hl : Spec.Eigen N (Spec.normalize mn mx a) l) : 0 ≤ l ∧ l ≤ 1 := by
  have hpos : 0 < mx - mn := sub_pos.2 hlt
  have hne : mx - mn ≠ 0 := ne_of_gt hpos
  obtain ⟨v, hv0, hv⟩ := hl
  have he : Spec.Eigen N a (mx - l * (mx - mn)) := by
    refine ⟨v, hv0, fun i hi => ?_⟩
    have h1 := hv i hi
    have h2 : ∑ j ∈ Finset.range N, Spec.normalize mn mx a i j * v j =
        (mx * v i - ∑ j ∈ Finset.range N, a i j * v j) / (mx - mn) := by
      have h3 : ∑ j ∈ Finset.range N, (if i = j then mx else 0) * v j = mx * v i := by
        rw [Finset.sum_eq_single i]
        · simp
        · intro b _ hb; simp [Ne.symm hb]
        · intro hn; simp at hn; omega
      rw [← h3, ← Finset.sum_sub_distrib, Finset.sum_div]
      refine Finset.sum_congr rfl (fun j _ => ?_)
      unfold Spec.normalize
      rw [div_mul_eq_mul_div, sub_mul]
    rw [h2, div_eq_iff hne] at h1
    linear_combination -h1
  obtain ⟨g1, g2⟩ := hspec _ he
  constructor
  · by_contra hc
    have := mul_neg_of_neg_of_pos (not_le.1 hc) hpos
    linarith
  · by_contra hc
    have : 1 * (mx - mn) < l * (mx - mn) := mul_lt_mul_of_pos_right (not_le.1 hc) hpos
    linarith

/-- **C23 (partial), both calls.**  Normalizing with the bounds that `bml_gershgorin` returned
puts the spectrum into `[0,1]`. -/
theorem C23_gershgorin_normalize_partial {N : Nat} {A : Ell K} {a : Spec.Mat K}
    (hA : A.Represents N a) (top bot : K) {sc : Sched} (hsc : IsSched 0 N sc)
    (hroom : ∀ i, i < N → A.nnz.get i < A.M ∨ A.Stored i i) :
    ∃ e, gershgorin A (fun x => |x|) (fun x => x) top bot 0 N = .ok e ∧
      (e.1 < e.2 → ∃ A' b, Ell.normalize A e.1 e.2 0 N sc = .ok A' ∧ A'.Represents N b ∧
        ∀ l, Spec.Eigen N b l → 0 ≤ l ∧ l ≤ 1) := by
  obtain ⟨e, h, h1⟩ := C22_gershgorin_real hA top bot
  refine ⟨e, h, fun hlt => ?_⟩
  obtain ⟨A', g1, _, g2⟩ := C23_normalize_partial hA hlt hsc (fun i hi => Or.inr (hroom i hi))
  exact ⟨A', _, g1, g2, fun l hl => C23_spectrum hlt h1 hl⟩

example : ∃ A', Ell.normalize exQ 1 3 0 2 (seqSched 0 2) = .ok A' ∧ A'.M = 2 ∧
    A'.Represents 2 (Spec.normalize 1 3 (fun i j => SRow.den [(1 - i, 1), (i, (2 : Rat))] j)) :=
  C23_normalize_partial exQ_rep (by norm_num) (by unfold IsSched seqSched; decide)
    (fun i _ => by right; right; exact ⟨1, by decide +revert, by decide +revert⟩)

/-- **C23 fails** on a full row without a diagonal element. -/
theorem C23_full_row_witness :
    Ell.normalize (ofRows 2 1 (fun i => [(1 - i, (5 : Rat))])) (-5) 5 0 2 (seqSched 0 2) = .ub :=
  Res.eq_ub_of_isUb (by decide +kernel)

end Bml.Props
