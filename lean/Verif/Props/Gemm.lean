import Verif.Dense.Gemm
import Verif.Spec
import Mathlib.Tactic.Ring
import Mathlib.NumberTheory.Zsqrtd.GaussianInt

/-!
# Property theorems: the internal matrix product (C31)
-/

namespace Bml.Props

open Bml Bml.Gemm

/-- The array holds the `r × c` matrix `f`, column by column. -/
def Spec.ColMajor {R : Type} (x : Arr R) (r c : Nat) (f : Spec.Mat R) : Prop :=
  x.size = r * c ∧ ∀ i j, i < r → j < c → x.get (i + j * r) = f i j

/-- `op(A)` for the flags `'N'` and `'T'`, and the conjugate transpose for `'C'`. -/
def Spec.op {R : Type} (conj : R → R) (t : Char) (a : Spec.Mat R) : Spec.Mat R :=
  if t = 'N' then a else if t = 'T' then Spec.transpose a else fun i j => conj (a j i)

/-- Rows and columns of `A` when `op(A)` is `r × c`. -/
def Spec.opDims (t : Char) (r c : Nat) : Nat × Nat := if t = 'N' then (r, c) else (c, r)

theorem accum_eq {R : Type} [CommRing R] (s : R) (f : Nat → R) (n : Nat) :
    accum s f n = s + ∑ l ∈ Finset.range n, f l := by
  induction n with
  | zero => simp [accum]
  | succ n ih => rw [accum, ih, Finset.sum_range_succ, add_assoc]

/-- **C31 (partial).**  For all sizes, all flag combinations of `'N'`, `'T'` and (for a trivial
conjugation, that is, real types) `'C'`, all `alpha`, `beta` and contents: `C` becomes
`alpha op(A) op(B) + beta C`, if the leading dimensions are the row counts.  Missing: leading
dimensions larger than the row counts (the code checks and then ignores them,
`C31_lda_ignored_witness`) and `'C'` for complex types (`C31_conj_witness`). -/
theorem C31_gemm_partial {R : Type} [CommRing R] [DecidableEq R] {ta tb : Char}
    (hta : ta = 'N' ∨ ta = 'T' ∨ ta = 'C') (htb : tb = 'N' ∨ tb = 'T' ∨ tb = 'C')
    (m n k : Nat) (alpha beta : R) {A B C : Arr R} {a b c : Spec.Mat R}
    (hA : Spec.ColMajor A (Spec.opDims ta m k).1 (Spec.opDims ta m k).2 a)
    (hB : Spec.ColMajor B (Spec.opDims tb k n).1 (Spec.opDims tb k n).2 b)
    (hC : Spec.ColMajor C m n c) :
    ∃ C', gemm ta tb m n k alpha A (max 1 (Spec.opDims ta m k).1) B
        (max 1 (Spec.opDims tb k n).1) beta C (max 1 (m : Int)) = .ok C' ∧
      Spec.ColMajor C' m n (fun i j => alpha *
        ∑ l ∈ Finset.range k, Spec.op id ta a i l * Spec.op id tb b l j + beta * c i j) := by
  have hinfo : info ta tb m n k (max 1 (Spec.opDims ta m k).1) (max 1 (Spec.opDims tb k n).1)
      (max 1 (m : Int)) = 0 := by
    unfold info
    simp only
    rw [if_neg (by rcases hta with rfl | rfl | rfl <;> decide),
      if_neg (by rcases htb with rfl | rfl | rfl <;> decide), if_neg (by omega), if_neg (by omega),
      if_neg (by omega), if_neg, if_neg, if_neg (by omega)]
    · unfold Spec.opDims
      by_cases h : tb = 'N' <;> simp [h]
    · unfold Spec.opDims
      by_cases h : ta = 'N' <;> simp [h]
  have hsA : A.size = m * k := by
    rw [hA.1]; unfold Spec.opDims
    split
    · rfl
    · exact Nat.mul_comm _ _
  have hsB : B.size = k * n := by
    rw [hB.1]; unfold Spec.opDims
    split
    · rfl
    · exact Nat.mul_comm _ _
  obtain ⟨C', e, h1, h2⟩ := Res.wp_exists (wp_gemm (E := False) alpha beta hinfo hsA hsB hC.1)
  refine ⟨C', e, h1, fun i j hi hj => ?_⟩
  rw [h2 i j hi hj, hC.2 i j hi hj]
  have hx : ∀ l, l < k → opA ta A m k i l = Spec.op id ta a i l := by
    intro l hl
    unfold opA Spec.op
    by_cases h : ta = 'N'
    · rw [if_pos h, if_pos h]
      have := hA.2 i l
      unfold Spec.opDims at this
      rw [if_pos h] at this
      exact this hi hl
    · rw [if_neg h, if_neg h]
      have := hA.2 l i
      unfold Spec.opDims at this
      rw [if_neg h] at this
      rw [this hl hi]
      split <;> rfl
  have hy : ∀ l, l < k → opB tb B k n l j = Spec.op id tb b l j := by
    intro l hl
    unfold opB Spec.op
    by_cases h : tb = 'N'
    · rw [if_pos h, if_pos h]
      have := hB.2 l j
      unfold Spec.opDims at this
      rw [if_pos h] at this
      exact this hl hj
    · rw [if_neg h, if_neg h]
      have := hB.2 j l
      unfold Spec.opDims at this
      rw [if_neg h] at this
      rw [this hj hl]
      split <;> rfl
  have hsum : ∑ l ∈ Finset.range k, opA ta A m k i l * opB tb B k n l j =
      ∑ l ∈ Finset.range k, Spec.op id ta a i l * Spec.op id tb b l j :=
    Finset.sum_congr rfl fun l hl => by
      rw [hx l (Finset.mem_range.1 hl), hy l (Finset.mem_range.1 hl)]
  have hsum' : ∑ l ∈ Finset.range k, alpha * opB tb B k n l j * opA ta A m k i l =
      alpha * ∑ l ∈ Finset.range k, Spec.op id ta a i l * Spec.op id tb b l j := by
    rw [← hsum, Finset.mul_sum]
    exact Finset.sum_congr rfl fun l _ => by ring
  unfold cell initCell
  simp only [accum_eq, hsum, hsum', zero_add]
  by_cases ha0 : alpha = 0
  · rw [if_pos ha0, ha0]
    split
    · next h => rw [h]; ring
    · split
      · next h => rw [h]; ring
      · ring
  · rw [if_neg ha0]
    split
    · next h => rw [h.1, h.2]; simp
    · split
      · split
        · next h => rw [h]; ring
        · split
          · ring
          · next h => rw [not_not.1 h]; ring
      · split
        · next h => rw [h]; ring
        · ring

/-- **C31**, `beta = 0`: the result does not depend on what `C` held, in any arithmetic (so also
not if `C` holds NaNs or uninitialised values), unless `0 = 1`. -/
theorem C31_beta_zero {R : Type} [Zero R] [One R] [Add R] [Mul R] [DecidableEq R]
    (h01 : (0 : R) ≠ 1) {ta tb : Char} {m n k : Nat} {lda ldb ldc : Int} (alpha : R)
    {A B C D : Arr R} (hinfo : info ta tb m n k lda ldb ldc = 0)
    (hA : A.size = m * k) (hB : B.size = k * n) (hC : C.size = m * n) (hD : D.size = m * n) :
    ∃ C' D', gemm ta tb m n k alpha A lda B ldb 0 C ldc = .ok C' ∧
      gemm ta tb m n k alpha A lda B ldb 0 D ldc = .ok D' ∧
      ∀ i j, i < m → j < n → C'.get (i + j * m) = D'.get (i + j * m) := by
  obtain ⟨C', e, _, h⟩ := Res.wp_exists (wp_gemm (E := False) alpha 0 hinfo hA hB hC)
  obtain ⟨D', e', _, h'⟩ := Res.wp_exists (wp_gemm (E := False) alpha 0 hinfo hA hB hD)
  refine ⟨C', D', e, e', fun i j hi hj => ?_⟩
  rw [h i j hi hj, h' i j hi hj]
  unfold cell initCell
  simp [h01]

/-- **C31**, invalid arguments are reported: a flag other than `'N'`, `'T'`, `'C'`, a negative
dimension, or a leading dimension below the row count. -/
theorem C31_invalid {R : Type} [Zero R] [One R] [Add R] [Mul R] [DecidableEq R]
    (ta tb : Char) (m n k lda ldb ldc : Int) (alpha beta : R) (A B C : Arr R)
    (h : ¬ (ta = 'N' ∨ ta = 'T' ∨ ta = 'C') ∨ ¬ (tb = 'N' ∨ tb = 'T' ∨ tb = 'C') ∨
      m < 0 ∨ n < 0 ∨ k < 0 ∨ lda < max 1 (if ta = 'N' then m else k) ∨
      ldb < max 1 (if tb = 'N' then k else n) ∨ ldc < max 1 m) :
    gemm ta tb m n k alpha A lda B ldb beta C ldc = .error := by
  unfold gemm
  rw [if_pos]
  unfold info
  simp only
  intro hz
  generalize (if ta = 'N' then m else k) = rA at h hz
  generalize (if tb = 'N' then k else n) = rB at h hz
  split at hz
  · omega
  · next h1 =>
    split at hz
    · omega
    · next h2 =>
      have h1' : ta = 'N' ∨ ta = 'T' ∨ ta = 'C' := by
        by_contra hc
        simp only [not_or] at hc
        exact h1 ⟨hc.1, hc.2.2, hc.2.1⟩
      have h2' : tb = 'N' ∨ tb = 'T' ∨ tb = 'C' := by
        by_contra hc
        simp only [not_or] at hc
        exact h2 ⟨hc.1, hc.2.2, hc.2.1⟩
      rcases h with h | h | h
      · exact h h1'
      · exact h h2'
      · split at hz
        · omega
        · split at hz
          · omega
          · split at hz
            · omega
            · split at hz
              · omega
              · split at hz
                · omega
                · split at hz
                  · omega
                  · omega

/-- `A = ((1,2,3),(4,5,6))`, transposed in memory, times a `3 × 2` matrix. -/
example : ∃ C', gemm 'T' 'N' 2 2 3 (2 : Int) ⟨6, fun x => x + 1⟩ (max 1 3) ⟨6, fun x => x⟩
      (max 1 3) 5 ⟨4, fun _ => 1⟩ (max 1 2) = .ok C' ∧
    Spec.ColMajor C' 2 2 (fun i j => 2 * ∑ l ∈ Finset.range 3,
      Spec.op id 'T' (fun i j => ((i + j * 3 : Nat) : Int) + 1) i l *
        Spec.op id 'N' (fun i j => ((i + j * 3 : Nat) : Int)) l j + 5 * 1) :=
  C31_gemm_partial (R := Int) (Or.inr (Or.inl rfl)) (Or.inl rfl) 2 2 3 2 5
    (A := ⟨6, fun x => x + 1⟩) (B := ⟨6, fun x => x⟩) (C := ⟨4, fun _ => 1⟩)
    ⟨rfl, fun _ _ _ _ => rfl⟩ ⟨rfl, fun _ _ _ _ => rfl⟩ ⟨rfl, fun _ _ _ _ => rfl⟩

/-- **C31 fails** for a leading dimension above the row count: `A` is the `1 × 2` matrix `(1, 2)` in
an array with leading dimension 2, `B = (1, 1)ᵀ`.  The product is 3; the code reads the padding
and returns 1 + 9. -/
theorem C31_lda_ignored_witness :
    (do let c ← gemm 'N' 'N' 1 1 2 (1 : Int) ⟨4, fun x => [1, 9, 2, 9].getD x 0⟩ 2
          ⟨2, fun _ => 1⟩ 2 0 ⟨1, fun _ => 0⟩ 1
        c.read 0) = .ok 10 := by decide

/-- **C31 fails** for the flag `'C'` and a complex type: the conjugate transpose of `(i)` is `(-i)`,
the code uses `(i)`. -/
theorem C31_conj_witness :
    Spec.op star 'C' (fun _ _ => (⟨0, 1⟩ : GaussianInt)) 0 0 = ⟨0, -1⟩ ∧
    (do let c ← gemm 'C' 'N' 1 1 1 (1 : GaussianInt) ⟨1, fun _ => ⟨0, 1⟩⟩ 1
          ⟨1, fun _ => 1⟩ 1 0 ⟨1, fun _ => 0⟩ 1
        c.read 0) = .ok ⟨0, 1⟩ := by
  constructor <;> decide

end Bml.Props
