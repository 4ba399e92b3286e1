import Mathlib.Analysis.Normed.Field.Basic
import Mathlib.Algebra.BigOperators.Group.List.Basic
import Mathlib.Algebra.Order.BigOperators.Group.List
import Mathlib.Tactic.Linarith
import Mathlib.Tactic.Ring
import Mathlib.Tactic.Positivity
import Mathlib.Tactic.GCongr

/-!
# The specification of computations with rounded numbers

The element types of the library are floating-point types: their `+` and `*` satisfy none of
the laws of a ring.  Here an element type is any type `F` with a zero, a `+` and a `*`.

* `summed`, `inColumn`, `terms` say exactly which operations, in which order, produce an
  element of a sum or of a product.
* `SumOf x L t` says that `t` comes from adding the numbers `x i`, `i` in `L`, each once, in
  some order and with some bracketing.
* `Rounds val u` is the standard model of floating-point arithmetic without overflow and
  underflow: every operation has relative error at most `u`, and adding zero is exact.  `val x` is the number, real or
  complex, that the machine number `x` stands for.
-/

namespace Bml.Spec

variable {F : Type}

/-- `((0 + x₁) + x₂) + …`. -/
def summed [Zero F] [Add F] (L : List F) : F := L.foldl (· + ·) 0

/-- The values of column `j` in a list of `(column, value)` pairs, in their order. -/
def inColumn (j : Nat) (T : List (Nat × F)) : List F :=
  (T.filter fun p => decide (p.1 = j)).map Prod.snd

/-- Every pair multiplied by `α` on the left. -/
def scaled [Mul F] (α : F) (L : List (Nat × F)) : List (Nat × F) :=
  L.map fun p => (p.1, α * p.2)

/-- The terms of one row of a product: the stored entries of the row of the left factor in
their order, each times the stored entries of its row of the right factor in their order. -/
def terms [Mul F] (rowA : List (Nat × F)) (rowB : Nat → List (Nat × F)) : List (Nat × F) :=
  rowA.flatMap fun p => scaled p.2 (rowB p.1)

/-- `t` is a sum of the numbers `x i`, `i` in `L`, in some order and bracketing. -/
inductive SumOf [Zero F] [Add F] {ι : Type} (x : ι → F) : List ι → F → Prop where
  | zero : SumOf x [] 0
  | one (i : ι) : SumOf x [i] (x i)
  | add {L L' : List ι} {s t : F} : SumOf x L s → SumOf x L' t → SumOf x (L ++ L') (s + t)
  | perm {L L' : List ι} {s : F} : L.Perm L' → SumOf x L s → SumOf x L' s

/-- The standard model of floating-point arithmetic with unit roundoff `u`. -/
structure Rounds [Zero F] [Add F] [Mul F] {K : Type} [NormedField K] (val : F → K) (u : ℝ) :
    Prop where
  unit : 0 ≤ u
  zero : val 0 = 0
  zero_add : ∀ x y, val x = 0 → val (x + y) = val y
  add_zero : ∀ x y, val y = 0 → val (x + y) = val x
  add : ∀ x y, ‖val (x + y) - (val x + val y)‖ ≤ u * ‖val x + val y‖
  mul : ∀ x y, ‖val (x * y) - val x * val y‖ ≤ u * ‖val x * val y‖

section
variable [Zero F] [Add F]

theorem SumOf.foldl {ι : Type} {x : ι → F} (L : List ι) :
    ∀ {L₀ : List ι} {s : F}, SumOf x L₀ s → SumOf x (L₀ ++ L) ((L.map x).foldl (· + ·) s) := by
  induction L with
  | nil => intro L₀ s h; simpa using h
  | cons i L ih =>
    intro L₀ s h
    have := ih (SumOf.add h (SumOf.one (x := x) i))
    simpa using this

/-- Adding from left to right, from zero, is one of the ways. -/
theorem sumOf_summed {ι : Type} (x : ι → F) (L : List ι) : SumOf x L (summed (L.map x)) := by
  simpa [summed] using SumOf.foldl L (SumOf.zero (x := x))

variable [Mul F] {K : Type} [NormedField K] {val : F → K} {u : ℝ}

theorem Rounds.one_le (h : Rounds val u) (n : Nat) : 1 ≤ (1 + u) ^ n :=
  one_le_pow₀ (by linarith [h.unit])

theorem Rounds.pow_mono (h : Rounds val u) {m n : Nat} (hmn : m ≤ n) :
    (1 + u) ^ m ≤ (1 + u) ^ n :=
  pow_le_pow_right₀ (by linarith [h.unit]) hmn

theorem sum_norm_nonneg {ι : Type} (e : ι → K) (L : List ι) : 0 ≤ (L.map fun i => ‖e i‖).sum := by
  apply List.sum_nonneg
  intro y hy
  obtain ⟨i, _, rfl⟩ := List.mem_map.1 hy
  exact norm_nonneg _

theorem norm_sum_le_map {ι : Type} (e : ι → K) (L : List ι) :
    ‖(L.map e).sum‖ ≤ (L.map fun i => ‖e i‖).sum := by
  induction L with
  | nil => simp
  | cons i L ih =>
    simp only [List.map_cons, List.sum_cons]
    exact (norm_add_le _ _).trans (by linarith)

/-- A rounded sum of `n` numbers, each known with the error of `m` roundings, has at most the
error of `m + (n - 1)` roundings, whatever the order and the bracketing. -/
theorem SumOf.error (h : Rounds val u) {ι : Type} {x : ι → F} {L : List ι} {t : F}
    (hs : SumOf x L t) (e : ι → K) (m : Nat)
    (he : ∀ i ∈ L, ‖val (x i) - e i‖ ≤ ((1 + u) ^ m - 1) * ‖e i‖) :
    ‖val t - (L.map e).sum‖
      ≤ ((1 + u) ^ (m + (L.length - 1)) - 1) * (L.map fun i => ‖e i‖).sum ∧
    (L = [] → val t = 0) := by
  induction hs with
  | zero => simp [h.zero]
  | one i => simpa using he i (by simp)
  | perm hp _ ih =>
    have := ih (fun i hi => he i (hp.mem_iff.1 hi))
    rw [← (hp.map e).sum_eq, ← (hp.map fun i => ‖e i‖).sum_eq, ← hp.length_eq]
    refine ⟨this.1, fun h0 => this.2 ?_⟩
    subst h0
    exact hp.eq_nil
  | @add L L' s t _ _ ih ih' =>
    obtain ⟨h1, z1⟩ := ih (fun i hi => he i (by simp [hi]))
    obtain ⟨h2, z2⟩ := ih' (fun i hi => he i (by simp [hi]))
    have hadd := h.add s t
    have a1 : ‖val t‖ ≤ (1 + u) ^ (m + (L'.length - 1)) * (L'.map fun i => ‖e i‖).sum := by
      have e1 : ‖val t‖ ≤ ‖val t - (L'.map e).sum‖ + ‖(L'.map e).sum‖ := by
        simpa using norm_add_le (val t - (L'.map e).sum) (L'.map e).sum
      have := norm_sum_le_map e L'
      linarith
    have a2 : ‖val s‖ ≤ (1 + u) ^ (m + (L.length - 1)) * (L.map fun i => ‖e i‖).sum := by
      have e1 : ‖val s‖ ≤ ‖val s - (L.map e).sum‖ + ‖(L.map e).sum‖ := by
        simpa using norm_add_le (val s - (L.map e).sum) (L.map e).sum
      have := norm_sum_le_map e L
      linarith
    have n1 := sum_norm_nonneg e L
    have n2 := sum_norm_nonneg e L'
    have hu := h.unit
    simp only [List.map_append, List.sum_append, List.length_append, List.append_eq_nil_iff]
    have hz : L = [] ∧ L' = [] → val (s + t) = 0 := by
      rintro ⟨rfl, rfl⟩
      rw [h.zero_add _ _ (z1 rfl), z2 rfl]
    refine ⟨?_, hz⟩
    by_cases hL : L = []
    · subst hL
      rw [h.zero_add _ _ (z1 rfl)]
      simpa using h2
    by_cases hL' : L' = []
    · subst hL'
      rw [h.add_zero _ _ (z2 rfl)]
      simpa using h1
    have l1 : 1 ≤ L.length := List.length_pos_iff.2 hL
    have l2 : 1 ≤ L'.length := List.length_pos_iff.2 hL'
    generalize (L.map e).sum = S at *
    generalize (L'.map e).sum = S' at *
    generalize (L.map fun i => ‖e i‖).sum = P at *
    generalize (L'.map fun i => ‖e i‖).sum = P' at *
    have b1 : (1 + u) * (1 + u) ^ (m + (L.length - 1)) ≤ (1 + u) ^ (m + (L.length + L'.length - 1)) := by
      rw [← pow_succ']
      exact h.pow_mono (by omega)
    have b2 : (1 + u) * (1 + u) ^ (m + (L'.length - 1))
        ≤ (1 + u) ^ (m + (L.length + L'.length - 1)) := by
      rw [← pow_succ']
      exact h.pow_mono (by omega)
    generalize (1 + u) ^ (m + (L.length - 1)) = g at *
    generalize (1 + u) ^ (m + (L'.length - 1)) = g' at *
    generalize (1 + u) ^ (m + (L.length + L'.length - 1)) = G at *
    have t1 : ‖val (s + t) - (S + S')‖
        ≤ ‖val (s + t) - (val s + val t)‖ + (‖val s - S‖ + ‖val t - S'‖) := by
      have : val (s + t) - (S + S')
          = (val (s + t) - (val s + val t)) + ((val s - S) + (val t - S')) := by ring
      rw [this]
      exact (norm_add_le _ _).trans (by linarith [norm_add_le (val s - S) (val t - S')])
    have t2 : u * ‖val s + val t‖ ≤ u * (g * P + g' * P') := by
      apply mul_le_mul_of_nonneg_left _ hu
      linarith [norm_add_le (val s) (val t)]
    have t3 := mul_le_mul_of_nonneg_right b1 n1
    have t4 := mul_le_mul_of_nonneg_right b2 n2
    calc _ ≤ u * (g * P + g' * P') + ((g - 1) * P + (g' - 1) * P') := by linarith
      _ = ((1 + u) * g * P - P) + ((1 + u) * g' * P' - P') := by ring
      _ ≤ (G * P - P) + (G * P' - P') := by linarith
      _ = _ := by ring

end

end Bml.Spec
