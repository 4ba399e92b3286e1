import Verif.Props.Dense
import Verif.Props.EllTranspose
import Verif.Norm

/-!
# Property theorems: the dense format, transposes, submatrices, reductions, norms, spectra
-/

namespace Bml.Props

open Bml

variable {R : Type}

/-! ## C17, C18, C19 -/

/-- **C17**, dense, for every schedule of the rows and whatever the new memory contained. -/
theorem C17_dense_transpose_new {N : Nat} {A : Dense R} {a : Spec.Mat R} (hA : A.Represents N a)
    {sc : Sched} (hsc : IsSched 0 N sc) (junk : Nat → R) :
    ∃ B, A.transposeNew sc junk = .ok B ∧ B.Represents N (Spec.transpose a) := by
  obtain ⟨B, e, h1, h2, h3⟩ := Res.wp_exists
    (Dense.wp_transposeNew (E := False) (Dense.represents_iff.1 hA) hsc (le_refl N) junk)
  exact ⟨B, e, Dense.represents_iff.2 ⟨h1, h2, fun i j hi hj => h3 i j (Nat.zero_le i) hi hj⟩⟩

/-- **C18**, dense: in place, for every schedule of the outer loop; applied twice it restores every
element. -/
theorem C18_dense_transpose {N : Nat} {A : Dense R} {a : Spec.Mat R} (hA : A.Represents N a)
    {sc sc' : Sched} (hsc : IsSched 0 (N - 1) sc) (hsc' : IsSched 0 (N - 1) sc') :
    ∃ B, A.transpose sc = .ok B ∧ B.Represents N (Spec.transpose a) ∧
      ∃ C, B.transpose sc' = .ok C ∧ C.Represents N a := by
  obtain ⟨B, e, h⟩ := Dense.exists_of_wp (Dense.wp_transpose (Dense.represents_iff.1 hA) hsc)
  obtain ⟨C, e', h'⟩ := Dense.exists_of_wp (Dense.wp_transpose (Dense.represents_iff.1 h) hsc')
  exact ⟨B, e, h, C, e', h'⟩

example : ∃ B, (Dense.ofMat 2 exD).transpose [(3, 0)] = .ok B ∧ B.getElement 0 1 = .ok 3 := by
  obtain ⟨B, e, h, -⟩ := C18_dense_transpose (Dense.ofMat_rep 2 exD) (sc := [(3, 0)])
    (sc' := [(3, 0)]) (List.Perm.refl _) (List.Perm.refl _)
  exact ⟨B, e, h.get 0 1 (by omega) (by omega)⟩

/-- **C19**, dense, without conditions on the matrix: `'u'` keeps the upper triangle and the
diagonal and makes the lower one its conjugate transpose; `'l'` the other way round; any other
selector is an error. -/
theorem C19_dense_adjungate {N : Nat} {A : Dense R} {a : Spec.Mat R} (hA : A.Represents N a)
    (conj : R → R) {sc : Sched} (hsc : IsSched 0 (N - 1) sc) :
    (∃ B, A.adjungate conj 'u' sc = .ok B ∧
      B.Represents N (fun i j => if j < i then conj (a j i) else a i j)) ∧
    (∃ B, A.adjungate conj 'l' sc = .ok B ∧
      B.Represents N (fun i j => if i < j then conj (a j i) else a i j)) ∧
    (∀ t, t ≠ 'u' → t ≠ 'l' → A.adjungate conj t sc = .error) := by
  refine ⟨?_, ?_, ?_⟩
  · exact Dense.exists_of_wp (Dense.wp_triangleLoop (Dense.represents_iff.1 hA) conj true hsc)
  · have := Dense.exists_of_wp (Dense.wp_triangleLoop (Dense.represents_iff.1 hA) conj false hsc)
    simpa [Dense.adjungate] using this
  · intro t hu hl
    unfold Dense.adjungate
    rw [if_neg hu, if_neg hl]

/-- `bml_transpose_triangle` on dense matrices; an unknown selector leaves the matrix as it is,
without a message. -/
theorem C19_dense_transpose_triangle {N : Nat} {A : Dense R} {a : Spec.Mat R}
    (hA : A.Represents N a) {sc : Sched} (hsc : IsSched 0 (N - 1) sc) :
    (∃ B, A.transposeTriangle 'u' sc = .ok B ∧
      B.Represents N (fun i j => if j < i then a j i else a i j)) ∧
    (∃ B, A.transposeTriangle 'l' sc = .ok B ∧
      B.Represents N (fun i j => if i < j then a j i else a i j)) ∧
    (∀ t, t ≠ 'u' → t ≠ 'l' → A.transposeTriangle t sc = .ok A) := by
  refine ⟨?_, ?_, ?_⟩
  · exact Dense.exists_of_wp (Dense.wp_triangleLoop (Dense.represents_iff.1 hA) id true hsc)
  · have := Dense.exists_of_wp (Dense.wp_triangleLoop (Dense.represents_iff.1 hA) id false hsc)
    simpa [Dense.transposeTriangle] using this
  · intro t hu hl
    unfold Dense.transposeTriangle
    rw [if_neg hu, if_neg hl]
    rfl

example : ∃ B, (Dense.ofMat 2 exD).adjungate (fun x => -x) 'u' [(0, 0)] = .ok B ∧
    B.getElement 1 0 = .ok (-2) ∧ B.getElement 0 1 = .ok 2 := by
  obtain ⟨⟨B, e, h⟩, -⟩ := C19_dense_adjungate (Dense.ofMat_rep 2 exD) (fun x => -x)
    (sc := [(0, 0)]) (List.Perm.refl _)
  exact ⟨B, e, h.get 1 0 (by omega) (by omega), h.get 0 1 (by omega) (by omega)⟩

/-! ## C28 -/

/-- **C28**, dense: extraction. -/
theorem C28_dense_extract [Zero R] {N n irow icol : Nat} {A : Dense R} {a : Spec.Mat R}
    (hA : A.Represents N a) (hr : irow + n ≤ N) (hc : icol + n ≤ N) :
    ∃ B, A.extractSubmatrix irow icol n = .ok B ∧
      B.Represents n (fun i j => a (irow + i) (icol + j)) :=
  Dense.exists_of_wp (Dense.wp_extract (Dense.represents_iff.1 hA) hr hc)

/-- **C28**, dense: assignment, also into a populated block. -/
theorem C28_dense_assign {N n irow icol : Nat} {A B : Dense R} {a b : Spec.Mat R}
    (hA : A.Represents N a) (hB : B.Represents n b) (hr : irow + n ≤ N) (hc : icol + n ≤ N) :
    ∃ A', A.assignSubmatrix B irow icol = .ok A' ∧ A'.Represents N (fun i j =>
      if (irow ≤ i ∧ i < irow + n) ∧ (icol ≤ j ∧ j < icol + n) then b (i - irow) (j - icol)
      else a i j) :=
  Dense.exists_of_wp
    (Dense.wp_assign (Dense.represents_iff.1 hA) (Dense.represents_iff.1 hB) hr hc)

example : ∃ A', (Dense.ofMat 3 fun _ _ => (9 : Int)).assignSubmatrix (Dense.ofMat 2 exD) 1 0 =
    .ok A' ∧ A'.getElement 2 0 = .ok 3 ∧ A'.getElement 2 2 = .ok 9 := by
  obtain ⟨A', e, h⟩ := C28_dense_assign (Dense.ofMat_rep 3 fun _ _ => (9 : Int))
    (Dense.ofMat_rep 2 exD) (irow := 1) (icol := 0) (by omega) (by omega)
  exact ⟨A', e, h.get 2 0 (by omega) (by omega), h.get 2 2 (by omega) (by omega)⟩

/-! ## C33 -/

/-- **C33**, dense: the bandwidth of a row is the number of its nonzero elements (there are no
stored entries to count), the bandwidth their maximum. -/
theorem C33_dense_bandwidth {N : Nat} {A : Dense R} {a : Spec.Mat R} (hA : A.Represents N a)
    (big : R → Bool) :
    (∀ i, i < N → A.rowBandwidth big i = .ok (Spec.rowCount big N a i)) ∧
    A.bandwidth big = .ok ((Finset.range N).sup (Spec.rowCount big N a)) :=
  ⟨fun _ hi => Dense.wp_rowBandwidth (Dense.represents_iff.1 hA) big hi,
    Dense.wp_bandwidth (Dense.represents_iff.1 hA) big⟩

/-- **C33**, dense: the sparsity.  Missing: larger matrices (`C33_dense_sparsity_overflow`). -/
theorem C33_dense_sparsity_partial {N : Nat} {A : Dense R} {a : Spec.Mat R} (hA : A.Represents N a)
    (hN : N ≤ 46340) (big : R → Bool) :
    A.sparsity big = .ok (1 - ((∑ i ∈ Finset.range N, Spec.rowCount big N a i : Nat) : ℚ) /
      ((N * N : Nat) : ℚ)) := by
  unfold Dense.sparsity
  rw [Dense.wp_sparsityCount (Dense.represents_iff.1 hA) big, hA.dim, Res.bind_ok, sparsityOf_ok hN]

/-- **C33 fails** for every dense matrix with more than 46340 rows. -/
theorem C33_dense_sparsity_overflow {N : Nat} {A : Dense R} {a : Spec.Mat R} (hA : A.Represents N a)
    (hN : 46341 ≤ N) (big : R → Bool) : A.sparsity big = .ub := by
  unfold Dense.sparsity
  rw [Dense.wp_sparsityCount (Dense.represents_iff.1 hA) big, hA.dim, Res.bind_ok, sparsityOf_ub hN]

example : (Dense.ofMat 46341 exD).sparsity (fun x => decide (x > 1)) = .ub :=
  C33_dense_sparsity_overflow (Dense.ofMat_rep _ exD) (le_refl _) _

example : (Dense.ofMat 2 exD).sparsity (fun x => decide (x > 1)) = .ok (1 - ((3 : Nat) : ℚ) /
    ((4 : Nat) : ℚ)) := C33_dense_sparsity_partial (Dense.ofMat_rep 2 exD) (by decide) _

/-! ## C20, C21, C37, C45 -/

section Sums

variable [CommRing R]

/-- **C20**, dense: the trace. -/
theorem C20_dense_trace {N : Nat} {A : Dense R} {a : Spec.Mat R} (hA : A.Represents N a)
    {sc : Sched} (hsc : IsSched 0 N sc) : A.trace sc = .ok (Spec.tr N a) := by
  rw [Dense.trace_eq (Dense.represents_iff.1 hA) hsc (le_refl N), ← Finset.range_eq_Ico]
  rfl

/-- **C20**, dense: what `bml_trace_mult` computes is `tr(A Bᵀ)`. -/
theorem C20_dense_trace_mult_value {N : Nat} {A B : Dense R} {a b : Spec.Mat R}
    (hA : A.Represents N a) (hB : B.Represents N b) {sc : Sched}
    (hsc : IsSched (0 * N) (N * N) sc) :
    A.traceMult B sc = .ok (Spec.tr N (Spec.mul N a (Spec.transpose b))) := by
  rw [Dense.traceMult_eq (Dense.represents_iff.1 hA) (Dense.represents_iff.1 hB) hsc
    (Nat.zero_le N) (le_refl N), ← Finset.range_eq_Ico]
  rfl

/-- **C20** for symmetric `B`: the trace of the product. -/
theorem C20_dense_trace_mult_partial {N : Nat} {A B : Dense R} {a b : Spec.Mat R}
    (hA : A.Represents N a) (hB : B.Represents N b) {sc : Sched}
    (hsc : IsSched (0 * N) (N * N) sc) (hsym : ∀ i j, i < N → j < N → b i j = b j i) :
    A.traceMult B sc = .ok (Spec.tr N (Spec.mul N a b)) := by
  rw [C20_dense_trace_mult_value hA hB hsc]
  congr 1
  refine Finset.sum_congr rfl fun i hi => Finset.sum_congr rfl fun j hj => ?_
  rw [Spec.transpose, hsym i j (Finset.mem_range.1 hi) (Finset.mem_range.1 hj)]

/-- **C20 fails** for other matrices: the trace of `[[1,2],[3,4]]` squared is 29, the result is
30. -/
theorem C20_dense_trace_mult_witness :
    (Dense.ofMat 2 exD).traceMult (Dense.ofMat 2 exD) (seqSched (0 * 2) (2 * 2)) = .ok 30 ∧
      Spec.tr 2 (Spec.mul 2 exD exD) = 29 := by
  refine ⟨?_, by decide⟩
  rw [C20_dense_trace_mult_value (Dense.ofMat_rep 2 exD) (Dense.ofMat_rep 2 exD)
    (isSched_seq _ _)]
  decide

theorem C20_dense_trace_mult_mismatch {A B : Dense R} (h : A.N ≠ B.N) (sc : Sched) :
    A.traceMult B sc = .error := if_pos h

/-- **C21**, dense. -/
theorem C21_dense_sum_squares {N : Nat} {A : Dense R} {a : Spec.Mat R} (hA : A.Represents N a)
    {sc : Sched} (hsc : IsSched (0 * N) (N * N) sc) :
    A.sumSquares sc = .ok (Spec.total N N (fun i j => a i j * a i j)) := by
  rw [Dense.sumSquares_eq (Dense.represents_iff.1 hA) hsc (Nat.zero_le N) (le_refl N),
    ← Finset.range_eq_Ico]
  rfl

theorem C21_dense_sum_AB {N : Nat} {A B : Dense R} {a b : Spec.Mat R} (hA : A.Represents N a)
    (hB : B.Represents N b) (α : R) (big : R → Bool) {sc : Sched}
    (hsc : IsSched (0 * N) (N * N) sc) :
    A.sumAB B α big sc = .ok (Spec.total N N (fun i j => Spec.keep big (α * a i j * b i j))) := by
  rw [Dense.sumAB_eq (Dense.represents_iff.1 hA) (Dense.represents_iff.1 hB) α big hsc
    (Nat.zero_le N) (le_refl N), ← Finset.range_eq_Ico]
  rfl

theorem C21_dense_sum_squares2 {N : Nat} {A B : Dense R} {a b : Spec.Mat R}
    (hA : A.Represents N a) (hB : B.Represents N b) (α β : R) (big : R → Bool) {sc : Sched}
    (hsc : IsSched (0 * N) (N * N) sc) :
    A.sumSquares2 B α β big sc = .ok (Spec.total N N (fun i j =>
      Spec.add big α β a b i j * Spec.add big α β a b i j)) := by
  rw [Dense.sumSquares2_eq (Dense.represents_iff.1 hA) (Dense.represents_iff.1 hB) α β big hsc
    (Nat.zero_le N) (le_refl N), ← Finset.range_eq_Ico]
  rfl

/-- **C21**, `bml_sum_squares_submatrix`, dense: the sum covers *all* columns of the first
`core` rows, not only the core columns. -/
theorem C21_dense_sum_squares_submatrix_value {N core : Nat} {A : Dense R} {a : Spec.Mat R}
    (hA : A.Represents N a) (hc : core ≤ N) {sc : Sched} (hsc : IsSched (0 * N) (core * N) sc) :
    A.sumSquares sc = .ok (Spec.total core N (fun i j => a i j * a i j)) := by
  rw [Dense.sumSquares_eq (Dense.represents_iff.1 hA) hsc (Nat.zero_le core) hc,
    ← Finset.range_eq_Ico]
  rfl

/-- **C21 fails: formats disagree.**  For the core of size 1 of `[[1,2],[3,4]]` the dense format
returns 5, ELLPACK returns 1. -/
theorem C21_submatrix_formats_differ :
    (Dense.ofMat 2 exD).sumSquares (seqSched (0 * 2) (1 * 2)) = .ok 5 ∧
      Ell.sumSquaresSub (Ell.ofRows 2 2 fun i => [(0, exD i 0), (1, exD i 1)]) 1 (seqSched 0 1) =
        .ok 1 := by
  refine ⟨?_, by decide⟩
  rw [C21_dense_sum_squares_submatrix_value (Dense.ofMat_rep 2 exD) (core := 1) (by omega)
    (isSched_seq _ _)]
  decide

/-- **C21**: for the full matrix the two formats return the same number, for all pairs of
schedules. -/
theorem C21_formats_agree {N : Nat} {A : Ell R} {D : Dense R} {a : Spec.Mat R}
    (hA : A.Represents N a) (hD : D.Represents N a) {sc sc' : Sched} (hsc : IsSched 0 N sc)
    (hsc' : IsSched (0 * N) (N * N) sc') : Ell.sumSquares A sc = D.sumSquares sc' := by
  rw [C21_sum_squares hA hsc, C21_dense_sum_squares hD hsc']

/-- `bml_add_norm` returns different numbers in the two formats: for `A = [5]`, `B = [1]` the dense
format returns `Σ B² = 1` and ELLPACK returns `Σ (A-B)² = 16` (`C08_dense_add_norm_value`,
`C08_add_norm`). -/
theorem C08_add_norm_formats_differ :
    (do let r ← Dense.addNorm (Dense.ofMat 1 fun _ _ => (5 : Int)) (Dense.ofMat 1 fun _ _ => 1) 1 1
          0 1 (seqSched 0 1)
        pure r.2 : Res Int) = .ok 1 ∧
    (do let r ← Ell.addNorm (Ell.ofRows 1 1 fun _ => [(0, (5 : Int))])
          (Ell.ofRows 1 1 fun _ => [(0, 1)]) 1 1 (fun x => decide (x ≠ 0)) (seqSched 0 1)
        pure r.2 : Res Int) = .ok 16 := by
  constructor <;> rfl

/-- **C37**, dense, when every thread finishes its two statements before another thread starts:
any order of the cells. -/
theorem C37_dense_fnorm2_partial {N : Nat} {A B : Dense R} {a b : Spec.Mat R}
    (hA : A.Represents N a) (hB : B.Represents N b) {l : List Nat} (hl : l.Perm (List.range (N * N)))
    (temp0 : R) :
    A.fnorm2Sq B (l.flatMap fun i => [.assign i, .accum i]) temp0 =
      .ok (Spec.total N N (fun i j => (a i j - b i j) * (a i j - b i j))) := by
  rw [Dense.fnorm2Sq_eq (Dense.represents_iff.1 hA) (Dense.represents_iff.1 hB) (lo := 0) (hi := N)
    (by simpa using hl) (Nat.zero_le N) (le_refl N), ← Finset.range_eq_Ico]
  rfl

/-- **C37 fails for some schedules of the dense format**: the variable `temp` is shared.  For the
difference of `[[1,2],[3,4]]` and zero, with the second cell assigned before the first one is
accumulated, the result is 33 instead of 30. -/
theorem C37_dense_race_witness (t : Int) :
    (Dense.ofMat 2 exD).fnorm2Sq (Dense.zeroMatrix 2)
      [.assign 0, .assign 1, .accum 0, .accum 1, .assign 2, .accum 2, .assign 3, .accum 3] t =
        .ok 33 ∧
    Spec.total 2 2 (fun i j => (exD i j - 0) * (exD i j - 0)) = 30 := ⟨rfl, by decide⟩

end Sums

/-- **C45**, real element types, dense: `bml_fnorm(A)² = Σ |A(i,j)|²` and the result is not
negative. -/
theorem C45_dense_fnorm_partial {N : Nat} {A : Dense ℝ} {a : Spec.Mat ℝ} (hA : A.Represents N a)
    {sc : Sched} (hsc : IsSched (0 * N) (N * N) sc) :
    ∃ x, A.fnorm sc = .ok x ∧ 0 ≤ x ∧ x ^ 2 = Spec.total N N (fun i j => |a i j| ^ 2) := by
  refine ⟨_, by unfold Dense.fnorm sqrtReal; rw [C21_dense_sum_squares hA hsc]; rfl,
    Real.sqrt_nonneg _, ?_⟩
  rw [Real.sq_sqrt]
  · exact Finset.sum_congr rfl fun i _ => Finset.sum_congr rfl fun j _ => by
      simp only; rw [sq_abs, sq]
  · exact Finset.sum_nonneg fun i _ => Finset.sum_nonneg fun j _ => mul_self_nonneg _

/-- **C45**, real element types, ELLPACK. -/
theorem C45_fnorm_partial {N : Nat} {A : Ell ℝ} {a : Spec.Mat ℝ} (hA : A.Represents N a)
    {sc : Sched} (hsc : IsSched 0 N sc) :
    ∃ x, A.fnorm sc = .ok x ∧ 0 ≤ x ∧ x ^ 2 = Spec.total N N (fun i j => |a i j| ^ 2) := by
  refine ⟨_, by unfold Ell.fnorm sqrtReal; rw [C21_sum_squares hA hsc]; rfl,
    Real.sqrt_nonneg _, ?_⟩
  rw [Real.sq_sqrt]
  · exact Finset.sum_congr rfl fun i _ => Finset.sum_congr rfl fun j _ => by
      simp only; rw [sq_abs, sq]
  · exact Finset.sum_nonneg fun i _ => Finset.sum_nonneg fun j _ => mul_self_nonneg _

/-- Consequence: for real matrices the norm is zero only for the zero matrix. -/
theorem C45_fnorm_zero_partial {N : Nat} {A : Ell ℝ} {a : Spec.Mat ℝ} (hA : A.Represents N a)
    {sc : Sched} (hsc : IsSched 0 N sc) :
    A.fnorm sc = .ok 0 ↔ ∀ i j, i < N → j < N → a i j = 0 := by
  obtain ⟨x, e, h0, h2⟩ := C45_fnorm_partial hA hsc
  have hnn : ∀ i ∈ Finset.range N, 0 ≤ ∑ j ∈ Finset.range N, |a i j| ^ 2 :=
    fun i _ => Finset.sum_nonneg fun j _ => sq_nonneg _
  rw [e]
  constructor
  · intro h i j hi hj
    rw [Res.ok.inj h] at h2
    have h3 : Spec.total N N (fun i j => |a i j| ^ 2) = 0 := by rw [← h2]; simp
    have h4 := (Finset.sum_eq_zero_iff_of_nonneg hnn).1 h3 i (Finset.mem_range.2 hi)
    have h5 := (Finset.sum_eq_zero_iff_of_nonneg (fun j _ => sq_nonneg _)).1 h4 j
      (Finset.mem_range.2 hj)
    simpa using h5
  · intro h
    have h3 : Spec.total N N (fun i j => |a i j| ^ 2) = 0 :=
      Finset.sum_eq_zero fun i hi => Finset.sum_eq_zero fun j hj => by
        simp only; rw [h i j (Finset.mem_range.1 hi) (Finset.mem_range.1 hj)]; simp
    rw [h3] at h2
    rw [pow_eq_zero_iff (by decide)] at h2
    rw [h2]

/-- **C45 for complex types**: what is computed is the square root of the real part of `Σ z²`. -/
theorem C45_dense_complex_value {N : Nat} {A : Dense ℂ} {a : Spec.Mat ℂ} (hA : A.Represents N a)
    {sc : Sched} (hsc : IsSched (0 * N) (N * N) sc) :
    A.fnormComplex sc = .ok (Real.sqrt (Spec.total N N (fun i j => a i j * a i j)).re) := by
  unfold Dense.fnormComplex sqrtComplex
  rw [C21_dense_sum_squares hA hsc]
  rfl

/-- **C45 fails for complex types**: the `1 × 1` matrix `[i]` has norm 0 instead of 1. -/
theorem C45_dense_complex_witness :
    (Dense.ofMat 1 fun _ _ => Complex.I).fnormComplex (seqSched 0 1) = .ok 0 ∧
      Spec.total 1 1 (fun _ _ => ‖Complex.I‖ ^ 2) = 1 := by
  constructor
  · rw [C45_dense_complex_value (Dense.ofMat_rep 1 _) (isSched_seq 0 1)]
    simp [Spec.total, Real.sqrt_eq_zero']
  · simp [Spec.total]

/-- The same for ELLPACK. -/
theorem C45_complex_witness :
    (Ell.ofRows 1 1 fun _ => [(0, Complex.I)]).fnormComplex (seqSched 0 1) = .ok 0 := by
  unfold Ell.fnormComplex sqrtComplex
  rw [C21_sum_squares (N := 1) (a := fun i j => SRow.den [(0, Complex.I)] j)
    (Ell.ofRows_rep (fun i hi => ⟨by simp, by simp, by simp⟩)) (isSched_seq 0 1)]
  simp [Spec.total, SRow.den, Real.sqrt_eq_zero']

/-! ## C22, C23 -/

section Spectrum

variable [CommRing R] {K : Type} [Field K] [LinearOrder K]

/-- **C22**, dense: the values, for every schedule of the row loop. -/
theorem C22_dense_gershgorin_value {N : Nat} {A : Dense R} {a : Spec.Mat R}
    (hA : A.Represents N a) (absv re : R → K) (top bot : K) {sc : Sched} (hsc : IsSched 0 N sc) :
    ∃ e, A.gershgorin absv re top bot sc = .ok e ∧
      Ell.IsMinOf top 0 N (fun i => re (a i i) - Spec.radius absv N a i) e.1 ∧
      Ell.IsMaxOf bot 0 N (fun i => re (a i i) + Spec.radius absv N a i) e.2 :=
  Dense.gershgorin_spec (Dense.represents_iff.1 hA) absv re top bot (le_refl N) hsc

variable [IsStrictOrderedRing K]

/-- **C22**, dense: every eigenvalue's real part lies between the two numbers. -/
theorem C22_dense_gershgorin {N : Nat} {A : Dense R} {a : Spec.Mat R} (hA : A.Represents N a)
    (abv : AbsoluteValue R K) (re : R →+ K) (hre : ∀ x, |re x| ≤ abv x) (top bot : K) {sc : Sched}
    (hsc : IsSched 0 N sc) :
    ∃ e, A.gershgorin abv re top bot sc = .ok e ∧
      ∀ l, Spec.Eigen N a l → e.1 ≤ re l ∧ re l ≤ e.2 := by
  obtain ⟨e, h, h1, h2⟩ := C22_dense_gershgorin_value hA abv re top bot hsc
  refine ⟨e, h, fun l hl => ?_⟩
  obtain ⟨i, hi, hc⟩ := hl.circle abv
  have hr := le_trans (hre (l - a i i)) hc
  rw [map_sub, abs_le] at hr
  have g1 := h1.2.1 i (Nat.zero_le i) hi
  have g2 := h2.2.1 i (Nat.zero_le i) hi
  constructor <;> linarith [hr.1, hr.2]

omit [LinearOrder K] [IsStrictOrderedRing K] in
/-- **C22**, `bml_accumulate_offdiag`, dense. -/
theorem C22_dense_accumulate_offdiag {N : Nat} {A : Dense R} {a : Spec.Mat R}
    (hA : A.Represents N a) (absv : R → K) (incl : Bool) :
    ∃ out, A.accumulateOffdiag absv incl = .ok out ∧ out.size = N ∧ ∀ i, i < N →
      out.get i = Spec.radius absv N a i + if incl then absv (a i i) else 0 :=
  Res.wp_exists
    (Dense.wp_accumulateOffdiag (E := False) (Dense.represents_iff.1 hA) absv incl)

/-- **C23**, dense, without conditions. -/
theorem C23_dense_normalize {N : Nat} {A : Dense K} {a : Spec.Mat K} (hA : A.Represents N a)
    {mn mx : K} (hlt : mn < mx) {sc : Sched} (hsc : IsSched 0 N sc) :
    ∃ A', A.normalize mn mx 0 N sc = .ok A' ∧ A'.Represents N (Spec.normalize mn mx a) ∧
      ((∀ l, Spec.Eigen N a l → mn ≤ l ∧ l ≤ mx) →
        ∀ l, Spec.Eigen N (Spec.normalize mn mx a) l → 0 ≤ l ∧ l ≤ 1) := by
  obtain ⟨A', e, h⟩ := Dense.exists_of_wp (Dense.wp_normalize (Dense.represents_iff.1 hA) mn mx
    (Nat.zero_le N) (le_refl N) hsc)
  refine ⟨A', e, h.congr fun i j hi hj => ?_, fun hs l hl => C23_spectrum hlt hs hl⟩
  simp only
  rw [if_pos ⟨Nat.zero_le i, hi⟩]
  unfold Spec.normalize Spec.one
  by_cases hij : i = j
  · subst hij
    simp only [if_true, mul_one]
    rw [div_mul_eq_mul_div, ← add_div]
    congr 1
    ring
  · simp only [hij, if_false, mul_zero, add_zero]
    rw [div_mul_eq_mul_div, zero_sub]
    congr 1
    ring

/-- **C23**, dense, both calls: normalizing with the Gershgorin bounds puts the spectrum into
`[0,1]`. -/
theorem C23_dense_gershgorin_normalize {N : Nat} {A : Dense K} {a : Spec.Mat K}
    (hA : A.Represents N a) (top bot : K) {sc sc' : Sched} (hsc : IsSched 0 N sc)
    (hsc' : IsSched 0 N sc') :
    ∃ e, A.gershgorin (fun x => |x|) (fun x => x) top bot sc = .ok e ∧
      (e.1 < e.2 → ∃ A' b, A.normalize e.1 e.2 0 N sc' = .ok A' ∧ A'.Represents N b ∧
        ∀ l, Spec.Eigen N b l → 0 ≤ l ∧ l ≤ 1) := by
  obtain ⟨e, h, h1⟩ := C22_dense_gershgorin hA AbsoluteValue.abs (AddMonoidHom.id K)
    (fun _ => le_refl _) top bot hsc
  refine ⟨e, h, fun hlt => ?_⟩
  obtain ⟨A', g1, g2, g3⟩ := C23_dense_normalize hA hlt hsc'
  exact ⟨A', _, g1, g2, g3 h1⟩

end Spectrum

example : ∃ A', (Dense.ofMat 2 fun i j => ((exD i j : Int) : Rat)).normalize 0 5 0 2
    [(1, 1), (0, 0)] = .ok A' ∧ A'.getElement 0 0 = .ok (4 / 5) := by
  obtain ⟨A', e, h, -⟩ := C23_dense_normalize
    (Dense.ofMat_rep 2 fun i j => ((exD i j : Int) : Rat)) (mn := 0) (mx := 5) (by norm_num)
    (sc := [(1, 1), (0, 0)]) (List.Perm.swap 0 1 [])
  exact ⟨A', e, (h.get 0 0 (by omega) (by omega)).trans
    (by simp only [Spec.normalize, exD]; norm_num)⟩

/-! ## C36 -/

/-- **C36**, dense: the scheduled loops give the same elements for any two schedules. -/
theorem C36_dense [CommRing R] {N : Nat} {A : Dense R} {a : Spec.Mat R} (hA : A.Represents N a)
    (big : R → Bool) (β : R) {c c' : Sched} (hc : IsSched (0 * N) (N * N) c)
    (hc' : IsSched (0 * N) (N * N) c') {r r' : Sched} (hr : IsSched 0 N r)
    (hr' : IsSched 0 N r') :
    (∃ X Y x, A.threshold big c = .ok X ∧ A.threshold big c' = .ok Y ∧ X.Represents N x ∧
      Y.Represents N x) ∧
    (∃ X Y x, A.addIdentity β r = .ok X ∧ A.addIdentity β r' = .ok Y ∧ X.Represents N x ∧
      Y.Represents N x) ∧
    (∃ t, A.trace r = .ok t ∧ A.trace r' = .ok t) ∧
    (∃ t, A.sumSquares c = .ok t ∧ A.sumSquares c' = .ok t) := by
  refine ⟨?_, ?_, ?_, ?_⟩
  · obtain ⟨X, e, h⟩ := C11_dense_threshold hA big hc (le_refl N)
    obtain ⟨Y, e', h'⟩ := C11_dense_threshold hA big hc' (le_refl N)
    exact ⟨X, Y, _, e, e', h, h'⟩
  · obtain ⟨X, e, h⟩ := C09_dense_add_identity_partial hA β hr (le_refl N)
    obtain ⟨Y, e', h'⟩ := C09_dense_add_identity_partial hA β hr' (le_refl N)
    exact ⟨X, Y, _, e, e', h, h'⟩
  · exact ⟨_, C20_dense_trace hA hr, C20_dense_trace hA hr'⟩
  · exact ⟨_, C21_dense_sum_squares hA hc, C21_dense_sum_squares hA hc'⟩

example : (Dense.ofMat 2 exD).trace [(1, 1), (0, 0)] = .ok 5 :=
  (C20_dense_trace (Dense.ofMat_rep 2 exD) (sc := [(1, 1), (0, 0)]) (List.Perm.swap 0 1 [])).trans
    (by decide)

end Bml.Props
