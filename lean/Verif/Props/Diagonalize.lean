import Verif.Props.Inverse
import Mathlib.Analysis.Matrix.Spectrum
import Mathlib.Data.Fin.Tuple.Sort
import Mathlib.Analysis.Complex.Basic

/-!
# C75: `bml_diagonalize`
-/

namespace Bml.Props

open Bml Bml.Lapack

variable {K : Type} [RCLike K]

/-- The loop that stores the results of LAPACK. -/
theorem store_ok {n : Nat} {r : Arr ℝ × Arr K} (h1 : r.1.size = n) (h2 : r.2.size = n * n) {w : Arr K}
    (hw : n ≤ w.size) {V : Dense K} (hV : V.mat.size = n * n) :
    ∃ w' V', storeEigen n r w V = .ok (w', V') ∧ w'.size = w.size ∧ V'.N = V.N ∧
      V'.mat.size = n * n ∧ (∀ i, i < n → w'.get i = (r.1.get i : K)) ∧
      ∀ i j, i < n → j < n → V'.mat.get (i * n + j) = r.2.get (i + j * n) := by
  have key : (storeEigen n r w V).wp False (fun s => s.1.size = w.size ∧ s.2.N = V.N ∧
      s.2.mat.size = n * n ∧ (∀ i, i < n → s.1.get i = (r.1.get i : K)) ∧
      ∀ i j, i < n → j < n → s.2.mat.get (i * n + j) = r.2.get (i + j * n)) := by
    unfold storeEigen
    rw [Res.wp_bind]
    refine wp_loop' (fun k (s : Arr K × Arr K) => s.1.size = w.size ∧ s.2.size = n * n ∧
      (∀ i, i < k → s.1.get i = (r.1.get i : K)) ∧
      ∀ i j, i < k → j < n → s.2.get (i * n + j) = r.2.get (i + j * n))
      ⟨rfl, hV, fun _ h => absurd h (Nat.not_lt_zero _), fun _ _ h => absurd h (Nat.not_lt_zero _)⟩
      ?_ ?_
    · rintro k hk ⟨w1, m1⟩ ⟨g1, g2, g3, g4⟩
      simp only at g1 g2 g3 g4 ⊢
      rw [Arr.read_ok (by omega), Res.bind_ok, Arr.write_ok _ (by omega), Res.bind_ok, Res.wp_bind]
      refine wp_loop' (fun l (m : Arr K) => m.size = n * n ∧
        (∀ i j, i < k → j < n → m.get (i * n + j) = r.2.get (i + j * n)) ∧
        ∀ j, j < l → m.get (k * n + j) = r.2.get (k + j * n))
        ⟨g2, g4, fun _ h => absurd h (Nat.not_lt_zero _)⟩ ?_ ?_
      · rintro l hl m ⟨q1, q2, q3⟩
        have ha : k + l * n < n * n := by
          rw [Nat.add_comm]; exact addr_lt hl hk
        rw [Arr.read_ok (by rw [h2]; exact ha), Res.bind_ok]
        have hb : k * n + l < n * n := addr_lt hk hl
        show (m.write (k * n + l) (r.2.get (k + l * n))).wp _ _
        rw [Arr.write_ok _ (by rw [q1]; exact hb)]
        refine (Res.wp_ok _).2 ⟨q1, fun i j hi hj => ?_, fun j hj => ?_⟩
        · have hne : i * n + j ≠ k * n + l := fun e => by
            have := (addr_inj hj hl e).1
            omega
          simp only [upd_ne _ _ hne]
          exact q2 i j hi hj
        · rcases Nat.lt_succ_iff_lt_or_eq.1 hj with hj' | rfl
          · have hne : k * n + j ≠ k * n + l := by omega
            simp only [upd_ne _ _ hne]
            exact q3 j hj'
          · simp only [upd_same]
      · rintro m ⟨q1, q2, q3⟩
        refine (Res.wp_ok _).2 ⟨g1, q1, fun i hi => ?_, fun i j hi hj => ?_⟩
        · rcases Nat.lt_succ_iff_lt_or_eq.1 hi with hi' | rfl
          · simp only [upd_ne _ _ (show i ≠ k by omega)]
            exact g3 i hi'
          · simp only [upd_same]
        · rcases Nat.lt_succ_iff_lt_or_eq.1 hi with hi' | rfl
          · exact q2 i j hi' hj
          · exact q3 j hj
    · rintro ⟨w1, m1⟩ ⟨g1, g2, g3, g4⟩
      exact ⟨g1, rfl, g2, g3, g4⟩
  obtain ⟨⟨w', V'⟩, e, h⟩ := Res.wp_exists key
  exact ⟨w', V', e, h⟩

/-- The Hermitian matrix given by the lower triangle of `a`. -/
def lower (a : Spec.Mat K) : Spec.Mat K := fun i j =>
  if j < i then a i j else if i = j then (RCLike.re (a i i) : K) else star (a j i)

theorem _root_.Bml.Lapack.Spectral.congr {n : Nat} {a b : Spec.Mat K} {w : Nat → ℝ} {v : Spec.Mat K}
    (h : Spectral n a w v) (hab : Spec.Eq n a b) : Spectral n b w v := by
  refine ⟨fun i j hi hj => ?_, h.ortho, h.ascending⟩
  rw [← h.eigen i j hi hj]
  exact Finset.sum_congr rfl fun k hk => by rw [hab i k hi (Finset.mem_range.1 hk)]

theorem _root_.Bml.Lapack.Spectral.congr_vec {n : Nat} {a : Spec.Mat K} {w : Nat → ℝ} {v v' : Spec.Mat K}
    (h : Spectral n a w v) (hv : Spec.Eq n v v') : Spectral n a w v' := by
  refine ⟨fun i j hi hj => ?_, fun i j hi hj => ?_, h.ascending⟩
  · rw [← hv i j hi hj, ← h.eigen i j hi hj]
    exact Finset.sum_congr rfl fun k hk => by rw [hv k j (Finset.mem_range.1 hk) hj]
  · rw [← h.ortho i j hi hj]
    exact Finset.sum_congr rfl fun k hk => by
      rw [hv k j (Finset.mem_range.1 hk) hj, hv k i (Finset.mem_range.1 hk) hi]

/-- LAPACK reads the array column by column: it sees the transposed matrix, and of that the upper
triangle. -/
theorem upper_eq {N : Nat} {A : Dense K} {a : Spec.Mat K} (hA : A.Rep N a) :
    Spec.Eq N (upper N A.mat) (Spec.transpose (lower a)) := by
  intro i j hi hj
  have hc : ∀ p q, p < N → q < N → colMat N A.mat p q = a q p := by
    intro p q hp hq
    show A.mat.get (p + q * N) = a q p
    rw [Nat.add_comm]
    exact hA.get q p hq hp
  unfold upper Spec.transpose lower
  by_cases h1 : i < j
  · rw [if_pos h1, if_pos h1, hc i j hi hj]
  · rw [if_neg h1, if_neg h1]
    by_cases h2 : i = j
    · subst h2
      rw [if_pos rfl, if_pos rfl, hc i i hi hi]
    · rw [if_neg h2, if_neg (fun e => h2 e.symm), hc j i hj hi]

/-- The caller's array holds the eigenvalues `w`. -/
def Eigenvalues (N : Nat) (x : Arr K) (w : Nat → ℝ) : Prop := ∀ i, i < N → x.get i = (w i : K)

theorem dense_core {ev : Eigen K} (hev : Diagonalizes ev) {N : Nat} {A : Dense K} {a : Spec.Mat K}
    (hA : A.Rep N a) {x : Arr K} (hx : N ≤ x.size) {V : Dense K} (hV : V.mat.size = N * N)
    (hVN : V.N = N) :
    ∃ x' V' w v, diagonalizeDense ev A x V = .ok (x', V') ∧ x'.size = x.size ∧ V'.Rep N v ∧
      Eigenvalues N x' w ∧ Spectral N (Spec.transpose (lower a)) w v := by
  have hs : N * N ≤ A.mat.size := le_of_eq hA.size.symm
  obtain ⟨x', V', e, g1, g2, g3, g4, g5⟩ := store_ok (r := ev N A.mat) (hev.vals N A.mat hs)
    (hev.vecs N A.mat hs) hx hV
  refine ⟨x', V', (ev N A.mat).1.get, colMat N (ev N A.mat).2, ?_, g1, ⟨g2.trans hVN, g3, g5⟩, g4,
    (hev.spectral N A.mat hs).congr (upper_eq hA)⟩
  unfold diagonalizeDense
  rw [hA.dim, if_neg (by omega)]
  exact e

/-! ## Dense matrices -/

/-- The `N × N` matrix is symmetric. -/
def Symmetric {R : Type} (N : Nat) (a : Spec.Mat R) : Prop := ∀ i j, i < N → j < N → a i j = a j i

/-- The `N × N` matrix is Hermitian. -/
def Hermitian (N : Nat) (a : Spec.Mat K) : Prop := ∀ i j, i < N → j < N → a i j = star (a j i)

/-- The complex conjugate of a matrix, without transposition. -/
def conj (a : Spec.Mat K) : Spec.Mat K := fun i j => star (a i j)

theorem seen_hermitian {N : Nat} {a : Spec.Mat K} (h : Hermitian N a) :
    Spec.Eq N (Spec.transpose (lower a)) (conj a) := by
  intro i j hi hj
  unfold Spec.transpose lower conj
  by_cases h1 : i < j
  · rw [if_pos h1, h i j hi hj, star_star]
  · rw [if_neg h1]
    by_cases h2 : j = i
    · subst h2
      rw [if_pos rfl]
      have := h j j hj hj
      rw [← this]
      exact RCLike.conj_eq_iff_re.1 this.symm
    · rw [if_neg h2]

theorem conj_eq {N : Nat} {a : Spec.Mat K} (h : Hermitian N a) (hs : Symmetric N a) :
    Spec.Eq N (conj a) a := fun i j hi hj => by
  unfold conj
  rw [hs i j hi hj, ← h i j hi hj, hs i j hi hj]

theorem spectral_conj {N : Nat} {a : Spec.Mat K} {w : Nat → ℝ} {v : Spec.Mat K}
    (h : Spectral N (conj a) w v) : Spectral N a w (conj v) := by
  refine ⟨fun i j hi hj => ?_, fun i j hi hj => ?_, h.ascending⟩
  · have := congrArg star (h.eigen i j hi hj)
    unfold Spec.mul conj at *
    rw [star_sum] at this
    simp only [star_mul', star_star] at this
    rw [this]
    congr 1
    exact RCLike.conj_ofReal _
  · have := congrArg star (h.ortho i j hi hj)
    unfold conj
    rw [star_sum] at this
    simp only [star_mul', star_star] at this ⊢
    rw [this]
    split <;> simp

/-- **C75**, dense, real elements: for a symmetric matrix the eigenvalues in ascending order, and as
columns of `V` orthonormal eigenvectors.  What `V` contained does not matter, and the argument is only
read. -/
theorem C75_dense_real {ev : Eigen ℝ} (hev : Diagonalizes ev) {N : Nat} {A V : Dense ℝ}
    {a v0 : Spec.Mat ℝ} (hA : A.Represents N a) (hs : Symmetric N a) {x : Arr ℝ} (hx : N ≤ x.size)
    (hV : V.Represents N v0) :
    ∃ x' V' w v, diagonalizeDense ev A x V = .ok (x', V') ∧ V'.Represents N v ∧ Eigenvalues N x' w ∧
      Spectral N a w v := by
  obtain ⟨x', V', w, v, e, -, h1, h2, h3⟩ :=
    dense_core hev (Dense.represents_iff.1 hA) hx hV.size hV.dim
  have hh : Hermitian N a := fun i j hi hj => by rw [star_trivial]; exact hs i j hi hj
  exact ⟨x', V', w, v, e, Dense.represents_iff.2 h1, h2,
    (h3.congr (seen_hermitian hh)).congr (conj_eq hh hs)⟩

/-- **C75**, dense, real elements: only the lower triangle counts, so a matrix that is not symmetric is
taken for another one. -/
theorem C75_lower_triangle {ev : Eigen ℝ} (hev : Diagonalizes ev) {N : Nat} {A V : Dense ℝ}
    {a v0 : Spec.Mat ℝ} (hA : A.Represents N a) {x : Arr ℝ} (hx : N ≤ x.size)
    (hV : V.Represents N v0) :
    ∃ x' V' w v, diagonalizeDense ev A x V = .ok (x', V') ∧ V'.Represents N v ∧ Eigenvalues N x' w ∧
      Spectral N (fun i j => if j ≤ i then a i j else a j i) w v := by
  obtain ⟨x', V', w, v, e, -, h1, h2, h3⟩ :=
    dense_core hev (Dense.represents_iff.1 hA) hx hV.size hV.dim
  refine ⟨x', V', w, v, e, Dense.represents_iff.2 h1, h2, h3.congr fun i j _ _ => ?_⟩
  unfold Spec.transpose lower
  by_cases h1 : i < j
  · rw [if_pos h1, if_neg (by omega)]
  · rw [if_neg h1]
    by_cases h2 : j = i
    · subst h2; rw [if_pos rfl, if_pos le_rfl]; rfl
    · rw [if_neg h2, if_pos (show j ≤ i by omega), star_trivial]

/-- **C75 (partial)**, dense, complex elements: the eigenvalues of a Hermitian matrix are right, but
the columns of `V` are the complex conjugates of eigenvectors.  Missing: they should be eigenvectors;
see `C75_complex_wrong`. -/
theorem C75_complex_partial {ev : Eigen K} (hev : Diagonalizes ev) {N : Nat} {A V : Dense K}
    {a v0 : Spec.Mat K} (hA : A.Represents N a) (hh : Hermitian N a) {x : Arr K} (hx : N ≤ x.size)
    (hV : V.Represents N v0) :
    ∃ x' V' w v, diagonalizeDense ev A x V = .ok (x', V') ∧ V'.Represents N v ∧ Eigenvalues N x' w ∧
      Spectral N a w (conj v) := by
  obtain ⟨x', V', w, v, e, -, h1, h2, h3⟩ :=
    dense_core hev (Dense.represents_iff.1 hA) hx hV.size hV.dim
  exact ⟨x', V', w, v, e, Dense.represents_iff.2 h1, h2,
    spectral_conj (h3.congr (seen_hermitian hh))⟩

/-- **C75**, dense, complex type: right for a matrix with real elements. -/
theorem C75_complex_symmetric {ev : Eigen K} (hev : Diagonalizes ev) {N : Nat} {A V : Dense K}
    {a v0 : Spec.Mat K} (hA : A.Represents N a) (hh : Hermitian N a) (hs : Symmetric N a) {x : Arr K}
    (hx : N ≤ x.size) (hV : V.Represents N v0) :
    ∃ x' V' w v, diagonalizeDense ev A x V = .ok (x', V') ∧ V'.Represents N v ∧ Eigenvalues N x' w ∧
      Spectral N a w v := by
  obtain ⟨x', V', w, v, e, -, h1, h2, h3⟩ :=
    dense_core hev (Dense.represents_iff.1 hA) hx hV.size hV.dim
  exact ⟨x', V', w, v, e, Dense.represents_iff.2 h1, h2,
    (h3.congr (seen_hermitian hh)).congr (conj_eq hh hs)⟩

/-- `[[0,-i],[i,0]]`. -/
def exY : Spec.Mat ℂ := fun i j =>
  if i = 0 ∧ j = 1 then -Complex.I else if i = 1 ∧ j = 0 then Complex.I else 0

theorem exY_hermitian : Hermitian 2 exY := by
  intro i j hi hj
  interval_cases i <;> interval_cases j <;> simp [exY]

/-- **C75 fails for complex matrices**: whatever LAPACK does within its documentation, for
`[[0,-i],[i,0]]` neither column of `V` is an eigenvector for its eigenvalue. -/
theorem C75_complex_wrong {ev : Eigen ℂ} (hev : Diagonalizes ev) {A V : Dense ℂ} {v0 : Spec.Mat ℂ}
    (hA : A.Represents 2 exY) {x : Arr ℂ} (hx : 2 ≤ x.size) (hV : V.Represents 2 v0) :
    ∃ x' V' v, diagonalizeDense ev A x V = .ok (x', V') ∧ V'.Represents 2 v ∧
      ∀ j, j < 2 → ∃ i, i < 2 ∧ Spec.mul 2 exY v i j ≠ x'.get j * v i j := by
  obtain ⟨x', V', w, v, e, -, h1, h2, h3⟩ :=
    dense_core hev (Dense.represents_iff.1 hA) hx hV.size hV.dim
  have h4 := h3.congr (seen_hermitian exY_hermitian)
  refine ⟨x', V', v, e, Dense.represents_iff.2 h1, fun j hj => ?_⟩
  by_contra hc
  push Not at hc
  have e0 := hc 0 (by decide)
  have e1 := hc 1 (by decide)
  have f0 := h4.eigen 0 j (by decide) hj
  have f1 := h4.eigen 1 j (by decide) hj
  have o := h4.ortho j j hj hj
  rw [h2 j hj] at e0 e1
  simp [Spec.mul, Finset.sum_range_succ, exY, conj] at e0 e1 f0 f1 o
  have z1 : v 1 j = 0 := by
    have : (2 : ℂ) * (Complex.I * v 1 j) = 0 := by linear_combination f0 - e0
    simpa using this
  have z0 : v 0 j = 0 := by
    have : (2 : ℂ) * (Complex.I * v 0 j) = 0 := by linear_combination e1 - f1
    simpa using this
  rw [z0, z1] at o
  simp at o

/-! ## LAPACK's failures -/

/-- **C75 fails** when LAPACK does not converge, in that this is not reported: whatever is in the two
arrays is returned as eigenvalues and eigenvectors. -/
theorem C75_failure_unnoticed {ev : Eigen K}
    (h1 : ∀ n x, n * n ≤ x.size → (ev n x).1.size = n)
    (h2 : ∀ n x, n * n ≤ x.size → (ev n x).2.size = n * n) {N : Nat} {A V : Dense K}
    {a v0 : Spec.Mat K} (hA : A.Represents N a) {x : Arr K} (hx : N ≤ x.size)
    (hV : V.Represents N v0) :
    ∃ x' V' v, diagonalizeDense ev A x V = .ok (x', V') ∧ V'.Represents N v := by
  have hs : N * N ≤ A.mat.size := le_of_eq hA.size.symm
  obtain ⟨x', V', e, g1, g2, g3, g4, g5⟩ := store_ok (r := ev N A.mat) (h1 N A.mat hs)
    (h2 N A.mat hs) hx hV.size
  refine ⟨x', V', colMat N (ev N A.mat).2, ?_, Dense.represents_iff.2 ⟨g2.trans hV.dim, g3, g5⟩⟩
  unfold diagonalizeDense
  rw [hA.dim, if_neg (by omega)]
  exact e

/-! ## Sparse formats -/

/-- The dense steps shared by the sparse formats. -/
theorem sparse_core {ev : Eigen K} (hev : Diagonalizes ev) {N : Nat} {a : Spec.Mat K} {y : Arr K}
    (hy : y.size = N * N) (hg : ∀ i j, i < N → j < N → y.get (i * N + j) = a i j) (junk : Nat → K)
    {x : Arr K} (hx : N ≤ x.size) :
    ∃ D x' V z w v, Dense.importDense .rowMajor N y = .ok D ∧
      diagonalizeDense ev D x (Dense.zeroMatrix N) = .ok (x', V) ∧
      V.exportDense .rowMajor junk = .ok z ∧ z.size = N * N ∧
      (∀ i j, i < N → j < N → z.get (i * N + j) = v i j) ∧ Eigenvalues N x' w ∧
      Spectral N (Spec.transpose (lower a)) w v := by
  obtain ⟨D, e, hD⟩ := Dense.exists_of_wp (Dense.wp_import (R := K) .rowMajor (le_of_eq hy.symm))
  have hD' : D.Represents N a := hD.congr hg
  obtain ⟨x', V, w, v, e1, -, h1, h2, h3⟩ := dense_core hev (Dense.represents_iff.1 hD') hx
    (V := Dense.zeroMatrix N) rfl rfl
  obtain ⟨z, e2, hz, hg'⟩ := Res.wp_exists (Dense.wp_export (E := False) h1 .rowMajor junk)
  exact ⟨D, x', V, z, w, v, e, e1, e2, hz, hg', h2, h3⟩

/-- Every matrix of orthonormal eigenvectors of `a` has at most `M` nonzero elements in each row. -/
def EigenvectorsFit (nonzero : K → Bool) (N M : Nat) (a : Spec.Mat K) : Prop :=
  ∀ w v, Spectral N a w v → ∀ i, i < N → Spec.rowCount nonzero N v i ≤ M

theorem eigenvectorsFit_of_le (nonzero : K → Bool) {N M : Nat} (h : N ≤ M) (a : Spec.Mat K) :
    EigenvectorsFit nonzero N M a := fun _ _ _ _ _ =>
  (Finset.card_filter_le _ _).trans (by rw [Finset.card_range]; exact h)

/-- **C75 (partial)**, ELLPACK, real elements: the matrix for the eigenvectors must have the row
capacity of `A`, and the eigenvectors must fit.  Missing: see `C75_ellpack_overfull`. -/
theorem C75_ellpack_real_partial {ev : Eigen ℝ} (hev : Diagonalizes ev) {nonzero : ℝ → Bool}
    (hz : TestsNonzero nonzero) {N : Nat} {A V : Ell ℝ} {a : Spec.Mat ℝ} (hA : A.Represents N a)
    (hs : Symmetric N a) {x : Arr ℝ} (hx : N ≤ x.size) (hV : V.WF) (hN : V.N = N) (hM : V.M = A.M)
    (hpos : 0 < A.M) (hfit : EigenvectorsFit nonzero N A.M a) {sc sc' sc2 : Sched}
    (hsc : IsSched 0 N sc) (hsc' : IsSched 0 N sc') (hsc2 : IsSched 0 N sc2) (junk : Nat → ℝ) :
    ∃ x' V' w v, diagonalizeEllpack ev nonzero sc sc' sc2 junk A x V = .ok (x', V') ∧
      V'.Represents N v ∧ Eigenvalues N x' w ∧ Spectral N a w v := by
  obtain ⟨y, e, hy, hg⟩ := C06_export hA .rowMajor hsc
  obtain ⟨D, x', E, z, w, v, e1, e2, e3, hzs, hgz, h2, h3⟩ := sparse_core hev hy hg junk hx
  have hh : Hermitian N a := fun i j hi hj => by rw [star_trivial]; exact hs i j hi hj
  have h4 := (h3.congr (seen_hermitian hh)).congr (conj_eq hh hs)
  have hgz' : Spec.Eq N (fun i j => z.get (Order.rowMajor.addr i j N)) v := hgz
  obtain ⟨T, e4, hT1, hT2⟩ := C06_import_partial hpos (order := .rowMajor) (le_of_eq hzs.symm) nonzero
    hsc' (fun i hi => (le_of_eq (rowCount_congr hgz' hi)).trans (hfit w v h4 i hi))
  have hT3 : T.Represents N v := hT2.congr fun i j hi hj => (hz.keep _).trans (hgz i j hi hj)
  obtain ⟨V', e5, -, h5⟩ := C07_copy_partial hT3 hV hN (by rw [hM, hT1]) (by omega) hsc2
  have hdim : A.N = N := (Ell.represents_iff.1 hA).dim
  have e6 : T.copyInto V sc2 = .ok V' := by
    unfold Ell.bmlCopy at e5
    rwa [if_neg (by rw [hT3.dim, hN]; simp), if_neg (by rw [hT1, hM]; omega)] at e5
  refine ⟨x', V', w, v, ?_, h5, h2, h4⟩
  unfold diagonalizeEllpack
  rw [e, Res.bind_ok, hdim, e1, Res.bind_ok, e2, Res.bind_ok]
  simp only
  rw [e3, Res.bind_ok, e4, Res.bind_ok, e6]
  rfl

/-- **C75 fails** for ELLPACK matrices whose eigenvectors have more nonzero elements in the last row
than the row capacity of the matrix: the call does not return normally. -/
theorem C75_ellpack_overfull {ev : Eigen ℝ} (hev : Diagonalizes ev) {nonzero : ℝ → Bool}
    {N : Nat} {A V : Ell ℝ} {a : Spec.Mat ℝ} (hA : A.Represents (N + 1) a)
    (hs : Symmetric (N + 1) a) {x : Arr ℝ} (hx : N + 1 ≤ x.size)
    (hover : ∀ w v, Spectral (N + 1) a w v → A.M < Spec.rowCount nonzero (N + 1) v N)
    {sc sc' sc2 : Sched} (hsc : IsSched 0 (N + 1) sc) (hsc' : IsSched 0 (N + 1) sc')
    (junk : Nat → ℝ) (r : Arr ℝ × Ell ℝ) :
    diagonalizeEllpack ev nonzero sc sc' sc2 junk A x V ≠ .ok r := by
  obtain ⟨y, e, hy, hg⟩ := C06_export hA .rowMajor hsc
  obtain ⟨D, x', E, z, w, v, e1, e2, e3, hzs, hgz, h2, h3⟩ := sparse_core hev hy hg junk hx
  have hh : Hermitian (N + 1) a := fun i j hi hj => by rw [star_trivial]; exact hs i j hi hj
  have h4 := (h3.congr (seen_hermitian hh)).congr (conj_eq hh hs)
  have hgz' : Spec.Eq (N + 1) (fun i j => z.get (Order.rowMajor.addr i j (N + 1))) v := hgz
  have hdim : A.N = N + 1 := (Ell.represents_iff.1 hA).dim
  unfold diagonalizeEllpack
  rw [e, Res.bind_ok, hdim, e1, Res.bind_ok, e2, Res.bind_ok]
  simp only
  rw [e3, Res.bind_ok]
  have hno := C06_import_last_row (order := .rowMajor) (D := z) (big := nonzero) (M := A.M) hsc' (by
    rw [rowCount_congr hgz' (Nat.lt_succ_self N)]
    exact hover w v h4)
  cases hc : Ell.importDense .rowMajor (N + 1) z nonzero A.M sc' with
  | ok T => exact absurd hc (hno T)
  | error => intro h; cases h
  | ub => intro h; cases h

/-- **C75 (partial)**, ELLBLOCK, real elements: the matrix for the eigenvectors must be divided into
blocks in the way the library chooses for a new matrix, all blocks must have one size, and the
eigenvectors must fit. -/
theorem C75_ellblock_real_partial {ev : Eigen ℝ} (hev : Diagonalizes ev) {nonzero : ℝ → Bool}
    (hz : TestsNonzero nonzero) {N : Nat} (hN : 0 < N) {A V : EllB ℝ} {a v0 : Spec.Mat ℝ}
    (hA : A.Represents N a) (hpos : ∀ ib, ib < A.NB → 0 < A.bsize.get ib) (hs : Symmetric N a)
    {x : Arr ℝ} (hx : N ≤ x.size) (hV : V.Represents N v0) (hC : V.Clean) (hM : A.M ≤ N)
    {g : EllB.Glob} (hg : g.For N A.M) {sc2 : Sched} (hsc2 : IsSched 0 V.NB sc2) (junk : Nat → ℝ) :
    ∃ g' bs, EllB.getBlockSizes g N A.M = .ok (g', bs) ∧
      (V.NB = g'.nb → V.MB = g'.mb → V.bsize = ⟨g'.nb, bs.get⟩ →
        (∃ s, ∀ ib, ib < V.NB → V.bsize.get ib = s) →
        (∀ w v, Spectral N a w v → EllB.BlocksFit nonzero bs.get g'.nb g'.mb v) →
        ∃ x' V' w v, diagonalizeEllblock ev nonzero g sc2 junk A x V = .ok (x', g', V') ∧
          V'.Represents N v ∧ Eigenvalues N x' w ∧ Spectral N a w v) := by
  obtain ⟨y, e, hy, hgy⟩ := C55_export hA hN hpos (addr := fun i j => ROWMAJOR i j N N) (Or.inl rfl)
  obtain ⟨D, x', E, z, w, v, e1, e2, e3, hzs, hgz, h2, h3⟩ := sparse_core hev hy hgy junk hx
  have hh : Hermitian N a := fun i j hi hj => by rw [star_trivial]; exact hs i j hi hj
  have h4 := (h3.congr (seen_hermitian hh)).congr (conj_eq hh hs)
  obtain ⟨g', bs, e4, hset, h⟩ := EllB.wp_importDense (R := ℝ) (E := False) hg hM nonzero
    (junk := junk) (dense := z) (addr := fun i j => ROWMAJOR i j N N)
    (fun i j hi hj => by rw [hzs]; exact addr_lt hi hj)
  have hsum : EllB.off bs.get g'.nb = N := hset.sum
  refine ⟨g', bs, e4, fun hNB hMB hbs hs hfit => ?_⟩
  obtain ⟨⟨g2, T⟩, e5, rfl, L, h1, h2', h3'⟩ := Res.wp_exists (h (by
    intro ib hib
    obtain ⟨S, hS, hm⟩ := hfit w v h4 ib hib
    refine ⟨S, hS, fun jb ii jj hjb hii hjj hbig => hm jb ii jj hjb hii hjj ?_⟩
    rw [← hgz _ _ (by rw [← hsum]; exact EllB.off_lt hib hii)
      (by rw [← hsum]; exact EllB.off_lt hjb hjj)]
    exact hbig))
  have hT : T.Represents N v := EllB.represents_iff.2 ⟨L, h1.congr fun i j hi hj => by
    rw [keepBlk_exact hsum (fun x hx => by
      by_contra hc
      rw [(hz x).2 hc] at hx
      cases hx) _ i j hi hj]
    exact hgz i j hi hj⟩
  obtain ⟨s, hs⟩ := hs
  have q1 : T.NB = g2.nb := h3'.NB
  have q2 : T.MB = g2.mb := h3'.MB
  have q3 : T.bsize = ⟨g2.nb, bs.get⟩ := h3'.bsize
  obtain ⟨V', e6, -, h6⟩ := C56_copy_uniform (s := s) hT hV hC (hNB.trans q1.symm) (hMB.trans q2.symm)
    (hbs.trans q3.symm) (fun ib hib => by
      rw [q3, ← hbs]
      exact hs ib (by rw [hNB, ← q1]; exact hib)) (by rw [q1, ← hNB]; exact hsc2) junk
  refine ⟨x', V', w, v, ?_, h6, h2, h4⟩
  have hdim : A.N = N := by
    obtain ⟨L, h⟩ := EllB.represents_iff.1 hA
    exact h.dim
  unfold diagonalizeEllblock
  rw [hdim, e, Res.bind_ok, e1, Res.bind_ok, e2, Res.bind_ok]
  simp only
  rw [e3, Res.bind_ok, e5, Res.bind_ok]
  simp only
  rw [e6]
  rfl

/-- **C75 (partial)**, CSR, real elements: the right result, or an error.  Not an error if every row of
the matrix for the eigenvectors has room for `N` elements. -/
theorem C75_csr_real_partial {ev : Eigen ℝ} (hev : Diagonalizes ev) {nonzero : ℝ → Bool}
    (hz : TestsNonzero nonzero) {N : Nat} {A V : Csr ℝ} {a v0 : Spec.Mat ℝ} (hA : A.Represents N a)
    (hs : Symmetric N a) {x : Arr ℝ} (hx : N ≤ x.size) (hV : V.Represents N v0) {sc sc' sc2 : Sched}
    (hsc : IsSched 0 N sc) (hsc' : IsSched 0 N sc') (hsc2 : IsSched 0 N sc2) (junk : Nat → ℝ) :
    ((∃ x' V' w v, diagonalizeCsr ev nonzero sc sc' sc2 junk A x V = .ok (x', V') ∧
      V'.Represents N v ∧ Eigenvalues N x' w ∧ Spectral N a w v) ∨
      diagonalizeCsr ev nonzero sc sc' sc2 junk A x V = .error) ∧
    ((∀ i, i < N → N ≤ (V.data.get i).alloc) →
      diagonalizeCsr ev nonzero sc sc' sc2 junk A x V ≠ .error) := by
  obtain ⟨y, e, hy, hg⟩ :=
    Res.wp_exists (Csr.wp_exportDense (E := False) (Csr.represents_iff.1 hA) .rowMajor hsc)
  obtain ⟨D, x', E, z, w, v, e1, e2, e3, hzs, hgz, h2, h3⟩ := sparse_core hev hy hg junk hx
  have hh : Hermitian N a := fun i j hi hj => by rw [star_trivial]; exact hs i j hi hj
  have h4 := (h3.congr (seen_hermitian hh)).congr (conj_eq hh hs)
  obtain ⟨T, -, e4, hT, -⟩ := C06_csr_round_trip .rowMajor .rowMajor (le_of_eq hzs.symm) nonzero A.M
    hsc' hsc'
  have hT3 : T.Represents N v := hT.congr fun i j hi hj => (hz.keep _).trans (hgz i j hi hj)
  have hdim : A.N = N := (Csr.represents_iff.1 hA).dim
  have hrun : diagonalizeCsr ev nonzero sc sc' sc2 junk A x V =
      (T.copyInto V sc2 >>= fun V' => pure (x', V')) := by
    unfold diagonalizeCsr
    rw [e, Res.bind_ok, hdim, e1, Res.bind_ok, e2, Res.bind_ok]
    simp only
    rw [e3, Res.bind_ok, e4, Res.bind_ok]
  have hc := C07_csr_copy_partial hT3 hV hsc2
  rw [hrun]
  constructor
  · rcases hc.1 _ rfl with h | ⟨V', h, h'⟩
    · rw [h]; exact Or.inr rfl
    · rw [h]; exact Or.inl ⟨x', V', w, v, rfl, h', h2, h4⟩
  · intro hroom
    obtain ⟨V', h, -⟩ := hc.2 (fun i hi => by
      obtain ⟨-, h2, -⟩ := (Csr.represents_iff.1 hT3).holds i hi
      rw [← CsrRow.list_length]
      exact h2.length_le.trans (hroom i hi))
    rw [h]
    intro h; cases h

/-! ## Fortran -/

/-- **C75 fails in Fortran** for matrices of type `double_complex`: with an array of `N` reals for the
eigenvalues, as documented, the call writes past the end of the array. -/
theorem C75_fortran_overrun {ev : Eigen ℂ} {N : Nat} (hN : 0 < N) {A V : Dense ℂ} {a : Spec.Mat ℂ}
    (hA : A.Represents N a) {x : Arr ℝ} (hx : x.size = N) (r : Arr ℝ × Dense ℂ) :
    diagonalizeFortran ev A x V ≠ .ok r := by
  have key : (diagonalizeFortran ev A x V).wlp (fun _ => False) := by
    unfold diagonalizeFortran
    split
    · exact Res.wlp_ub
    rw [Res.wlp_bind, hA.dim]
    refine Res.wlp_mono (wlp_loop (fun k (s : Arr ℝ × Arr ℂ) => s.1.size = N ∧ 2 * k ≤ N)
      ⟨hx, Nat.zero_le _⟩ ?_) ?_
    · rintro k hk ⟨w1, m1⟩ ⟨g1, g2⟩
      simp only at g1 g2 ⊢
      simp only [Res.wlp_bind]
      refine wlp_read fun _ => wlp_write fun _ => wlp_write fun h => ?_
      have h' : 2 * k + 1 < w1.size := h
      intro m _
      exact Res.wlp_ok.2 ⟨g1, by omega⟩
    · rintro ⟨w1, m1⟩ ⟨-, g2⟩
      exfalso
      omega
  exact fun e => key r e

/-! ## The assumption on LAPACK can be met -/

/-- Every Hermitian matrix has such a decomposition. -/
theorem exists_spectral {n : Nat} {a : Spec.Mat K} (h : Hermitian n a) : ∃ w v, Spectral n a w v := by
  have H : (Spec.toMatrix n a).IsHermitian := by
    ext i j
    exact (h i j i.2 j.2).symm
  let σ := Tuple.sort H.eigenvalues
  let U := H.eigenvectorUnitary
  refine ⟨fun j => if hj : j < n then H.eigenvalues (σ ⟨j, hj⟩) else 0,
    fun i j => if hi : i < n then if hj : j < n then (U : Matrix (Fin n) (Fin n) K) ⟨i, hi⟩ (σ ⟨j, hj⟩)
      else 0 else 0, ?_, ?_, ?_⟩
  · intro i j hi hj
    have key := congrFun (H.mulVec_eigenvectorBasis (σ ⟨j, hj⟩)) ⟨i, hi⟩
    unfold Spec.mul
    rw [Finset.sum_range]
    simp only [hi, hj, dif_pos, Fin.is_lt, Fin.eta]
    simp only [U, Matrix.IsHermitian.eigenvectorUnitary_apply]
    rw [← RCLike.real_smul_eq_coe_mul]
    exact key
  · intro i j hi hj
    have hu : star (U : Matrix (Fin n) (Fin n) K) * (U : Matrix (Fin n) (Fin n) K) = 1 :=
      Unitary.coe_star_mul_self U
    have key := congrFun (congrFun hu (σ ⟨i, hi⟩)) (σ ⟨j, hj⟩)
    rw [Finset.sum_range]
    simp only [hi, hj, dif_pos, Fin.is_lt, Fin.eta]
    refine key.trans ?_
    rw [Matrix.one_apply]
    simp only [σ.injective.eq_iff, Fin.mk.injEq]
  · intro i j hij hj
    have hi : i < n := by omega
    simp only [hi, hj, dif_pos]
    exact Tuple.monotone_sort H.eigenvalues (show (⟨i, hi⟩ : Fin n) ≤ ⟨j, hj⟩ from hij)

theorem upper_hermitian (n : Nat) (x : Arr K) : Hermitian n (upper n x) := by
  intro i j _ _
  unfold upper
  rcases lt_trichotomy i j with h | rfl | h
  · rw [if_pos h, if_neg (show ¬ j < i by omega), if_neg (show ¬ j = i by omega), star_star]
  · rw [if_neg (lt_irrefl i), if_pos rfl]
    exact (RCLike.conj_ofReal _).symm
  · rw [if_neg (show ¬ i < j by omega), if_neg (show ¬ i = j by omega), if_pos h]

/-- A LAPACK that meets the assumption. -/
theorem exists_diagonalizes (K : Type) [RCLike K] : ∃ ev : Eigen K, Diagonalizes ev := by
  have h : ∀ n (x : Arr K), ∃ r : Arr ℝ × Arr K, r.1.size = n ∧ r.2.size = n * n ∧
      Spectral n (upper n x) r.1.get (colMat n r.2) := by
    intro n x
    obtain ⟨w, v, h⟩ := exists_spectral (upper_hermitian n x)
    refine ⟨(⟨n, w⟩, ⟨n * n, fun p => v (p % n) (p / n)⟩), rfl, rfl, h.congr_vec ?_⟩
    intro i j hi _
    show v i j = v ((i + j * n) % n) ((i + j * n) / n)
    rw [Nat.add_mul_mod_self_right, Nat.mod_eq_of_lt hi,
      Nat.add_mul_div_right _ _ (by omega : 0 < n), Nat.div_eq_of_lt hi, Nat.zero_add]
  choose f h1 h2 h3 using h
  exact ⟨f, fun n x _ => h1 n x, fun n x _ => h2 n x, fun n x _ => h3 n x⟩

/-! ## Examples -/

/-- `[[0,1],[1,0]]`. -/
def exS2 : Spec.Mat ℝ := fun i j => if i + j = 1 then 1 else 0

theorem exS2_symmetric : Symmetric 2 exS2 := by
  intro i j hi hj
  unfold exS2
  rw [Nat.add_comm]

/-- Its rows. -/
def exS2row (i : Nat) : SRow ℝ := [(1 - i, 1)]

theorem exS2row_den : Spec.Eq 2 (fun i j => (exS2row i).den j) exS2 := by
  intro i j hi hj
  interval_cases i <;> interval_cases j <;> simp [exS2row, exS2, SRow.den]

theorem exS2row_good (M : Nat) (hM : 0 < M) :
    ∀ i, i < 2 → (exS2row i).length ≤ M ∧ SRow.Good 2 (exS2row i) := by
  intro i hi
  refine ⟨hM, ?_⟩
  interval_cases i <;> simp [exS2row, SRow.Good]

open Classical in
/-- The test for magnitude above zero. -/
noncomputable def nzR (x : ℝ) : Bool := decide (x ≠ 0)

theorem nzR_tests : TestsNonzero nzR := fun _ => decide_eq_true_iff

/-- The eigenvectors of `exS2` have no zeros. -/
theorem exS2_full {w : Nat → ℝ} {v : Spec.Mat ℝ} (h : Spectral 2 exS2 w v) (j : Nat) (hj : j < 2) :
    v 1 j ≠ 0 := by
  intro hz
  have f1 := h.eigen 1 j (by decide) hj
  have o := h.ortho j j hj hj
  simp [Spec.mul, Finset.sum_range_succ, exS2, hz] at f1 o
  rw [f1] at o
  simp at o

example : ∃ ev : Eigen ℝ, Diagonalizes ev ∧ ∃ x' V' w v,
    diagonalizeDense ev (Dense.ofMat 2 exS2) ⟨2, fun _ => 0⟩ (Dense.ofMat 2 exS2) = .ok (x', V') ∧
    V'.Represents 2 v ∧ Eigenvalues 2 x' w ∧ Spectral 2 exS2 w v := by
  obtain ⟨ev, h⟩ := exists_diagonalizes ℝ
  exact ⟨ev, h, C75_dense_real h (Dense.ofMat_rep 2 exS2) exS2_symmetric (x := ⟨2, fun _ => 0⟩) le_rfl
    (Dense.ofMat_rep 2 exS2)⟩

/-- A matrix with `0` above the diagonal is taken for `exS2`. -/
example : ∃ ev : Eigen ℝ, Diagonalizes ev ∧ ∃ x' V' w v, diagonalizeDense ev
      (Dense.ofMat 2 fun i j => if i = 1 ∧ j = 0 then 1 else 0) ⟨2, fun _ => 0⟩
      (Dense.ofMat 2 exS2) = .ok (x', V') ∧
    V'.Represents 2 v ∧ Eigenvalues 2 x' w ∧ Spectral 2 exS2 w v := by
  obtain ⟨ev, h⟩ := exists_diagonalizes ℝ
  obtain ⟨x', V', w, v, e, h1, h2, h3⟩ := C75_lower_triangle h
    (Dense.ofMat_rep 2 fun i j => if i = 1 ∧ j = 0 then 1 else 0) (x := ⟨2, fun _ => 0⟩) le_rfl
    (Dense.ofMat_rep 2 exS2)
  refine ⟨ev, h, x', V', w, v, e, h1, h2, h3.congr ?_⟩
  intro i j hi hj
  interval_cases i <;> interval_cases j <;> simp [exS2]

example : ∃ ev : Eigen ℂ, Diagonalizes ev ∧ ∃ x' V' v,
    diagonalizeDense ev (Dense.ofMat 2 exY) ⟨2, fun _ => 0⟩ (Dense.ofMat 2 exY) = .ok (x', V') ∧
    V'.Represents 2 v ∧ ∀ j, j < 2 → ∃ i, i < 2 ∧ Spec.mul 2 exY v i j ≠ x'.get j * v i j := by
  obtain ⟨ev, h⟩ := exists_diagonalizes ℂ
  exact ⟨ev, h, C75_complex_wrong h (Dense.ofMat_rep 2 exY) (x := ⟨2, fun _ => 0⟩) le_rfl
    (Dense.ofMat_rep 2 exY)⟩

example : ∃ ev : Eigen ℂ, Diagonalizes ev ∧ ∃ x' V' w v,
    diagonalizeDense ev (Dense.ofMat 2 exY) ⟨2, fun _ => 0⟩ (Dense.ofMat 2 exY) = .ok (x', V') ∧
    V'.Represents 2 v ∧ Eigenvalues 2 x' w ∧ Spectral 2 exY w (conj v) := by
  obtain ⟨ev, h⟩ := exists_diagonalizes ℂ
  exact ⟨ev, h, C75_complex_partial h (Dense.ofMat_rep 2 exY) exY_hermitian (x := ⟨2, fun _ => 0⟩)
    le_rfl (Dense.ofMat_rep 2 exY)⟩

/-- The identity, of complex type. -/
example : ∃ ev : Eigen ℂ, Diagonalizes ev ∧ ∃ x' V' w v,
    diagonalizeDense ev (Dense.ofMat 2 Spec.one) ⟨2, fun _ => 0⟩ (Dense.ofMat 2 exY) = .ok (x', V') ∧
    V'.Represents 2 v ∧ Eigenvalues 2 x' w ∧ Spectral 2 (Spec.one : Spec.Mat ℂ) w v := by
  obtain ⟨ev, h⟩ := exists_diagonalizes ℂ
  refine ⟨ev, h, C75_complex_symmetric h (Dense.ofMat_rep 2 Spec.one) ?_ ?_ (x := ⟨2, fun _ => 0⟩)
    le_rfl (Dense.ofMat_rep 2 exY)⟩
  · intro i j hi hj
    interval_cases i <;> interval_cases j <;> simp [Spec.one]
  · intro i j hi hj
    interval_cases i <;> interval_cases j <;> simp [Spec.one]

/-- A LAPACK that gives up at once. -/
example : ∃ x' V' v, diagonalizeDense (K := ℝ) (fun n _ => (⟨n, fun _ => 0⟩, ⟨n * n, fun _ => 0⟩))
    (Dense.ofMat 2 exS2) ⟨2, fun _ => 0⟩ (Dense.ofMat 2 exS2) = .ok (x', V') ∧ V'.Represents 2 v :=
  C75_failure_unnoticed (fun _ _ _ => rfl) (fun _ _ _ => rfl) (Dense.ofMat_rep 2 exS2)
    (x := ⟨2, fun _ => 0⟩) le_rfl (Dense.ofMat_rep 2 exS2)

example : ∃ ev : Eigen ℂ, Diagonalizes ev ∧ ∀ r,
    diagonalizeFortran ev (Dense.ofMat 2 exY) ⟨2, fun _ => 0⟩ (Dense.ofMat 2 exY) ≠ .ok r := by
  obtain ⟨ev, h⟩ := exists_diagonalizes ℂ
  exact ⟨ev, h, C75_fortran_overrun (by decide) (Dense.ofMat_rep 2 exY) (x := ⟨2, fun _ => 0⟩) rfl⟩

/-- `exS2` in an ELLPACK matrix with room for two elements in a row. -/
example : ∃ ev : Eigen ℝ, Diagonalizes ev ∧ ∃ x' V' w v,
    diagonalizeEllpack ev nzR [(0, 1), (1, 0)] (seqSched 0 2) (seqSched 0 2) (fun _ => 7)
      (Ell.ofRows 2 2 exS2row) ⟨2, fun _ => 0⟩ (Ell.ofRows 2 2 exS2row) = .ok (x', V') ∧
    V'.Represents 2 v ∧ Eigenvalues 2 x' w ∧ Spectral 2 exS2 w v := by
  obtain ⟨ev, h⟩ := exists_diagonalizes ℝ
  have hA := (Ell.ofRows_rep (exS2row_good 2 (by decide))).congr exS2row_den
  exact ⟨ev, h, C75_ellpack_real_partial h nzR_tests hA exS2_symmetric (x := ⟨2, fun _ => 0⟩) le_rfl
    hA.wf rfl rfl (by decide) (eigenvectorsFit_of_le _ le_rfl _)
    (sc := [(0, 1), (1, 0)]) (show List.Perm [1, 0] [0, 1] by decide) (isSched_seq 0 2) (isSched_seq 0 2) (fun _ => 7)⟩

/-- With room for one element, which is enough for `exS2` itself, the call fails. -/
example : ∃ ev : Eigen ℝ, Diagonalizes ev ∧ ∀ r,
    diagonalizeEllpack ev nzR [(0, 1), (1, 0)] (seqSched 0 2) (seqSched 0 2) (fun _ => 7)
      (Ell.ofRows 2 1 exS2row) ⟨2, fun _ => 0⟩ (Ell.ofRows 2 1 exS2row) ≠ .ok r := by
  obtain ⟨ev, h⟩ := exists_diagonalizes ℝ
  have hA := (Ell.ofRows_rep (exS2row_good 1 (by decide))).congr exS2row_den
  refine ⟨ev, h, fun r => C75_ellpack_overfull h hA exS2_symmetric (x := ⟨2, fun _ => 0⟩) le_rfl ?_
    (sc := [(0, 1), (1, 0)]) (show List.Perm [1, 0] [0, 1] by decide) (isSched_seq 0 2) (fun _ => 7) r⟩
  intro w v hv
  have h0 : nzR (v 1 0) = true := (nzR_tests _).2 (exS2_full hv 0 (by decide))
  have h1 : nzR (v 1 1) = true := (nzR_tests _).2 (exS2_full hv 1 (by decide))
  show 1 < ((Finset.range 2).filter _).card
  rw [Finset.filter_true_of_mem (fun j hj => by
    have : j < 2 := Finset.mem_range.1 hj
    interval_cases j
    · exact h0
    · exact h1)]
  decide

example : ∃ ev : Eigen ℝ, Diagonalizes ev ∧
    diagonalizeCsr ev nzR [(0, 1), (1, 0)] (seqSched 0 2) (seqSched 0 2) (fun _ => 7)
      (Csr.ofRows 2 1 exS2row) ⟨2, fun _ => 0⟩ (Csr.ofRows 2 1 exS2row) ≠ .error := by
  obtain ⟨ev, h⟩ := exists_diagonalizes ℝ
  have hA := (Csr.ofRows_rep (M := 1) fun i hi => (exS2row_good 1 (by decide) i hi).2).congr
    exS2row_den
  refine ⟨ev, h, (C75_csr_real_partial h nzR_tests hA exS2_symmetric (x := ⟨2, fun _ => 0⟩) le_rfl hA
    (sc := [(0, 1), (1, 0)]) (show List.Perm [1, 0] [0, 1] by decide) (isSched_seq 0 2) (isSched_seq 0 2) (fun _ => 7)).2 ?_⟩
  intro i hi
  exact le_trans (show 2 ≤ 10 by decide) (((Csr.represents_iff.1 hA).holds i hi).1.space)

example : ∃ ev : Eigen ℝ, Diagonalizes ev ∧ ∃ A x' g' V' w v,
    runB [(⟨0, 1, 1⟩ : BWrite ℝ), ⟨1, 0, 1⟩] (newB ℝ 2 2) = .ok A ∧
    diagonalizeEllblock ev nzR EllB.Glob.init [(0, 0)] (fun _ => 7) A ⟨2, fun _ => 0⟩ (newB ℝ 2 2) =
      .ok (x', g', V') ∧
    V'.Represents 2 v ∧ Eigenvalues 2 x' w ∧ Spectral 2 exS2 w v := by
  obtain ⟨ev, h⟩ := exists_diagonalizes ℝ
  obtain ⟨h1, h2, h3, -⟩ := newB_spec (R := ℝ) (N := 2) (M := 2) le_rfl (by decide)
  obtain ⟨A, eA, -, hM, hA⟩ := C38_history_full h1 h2 (by decide)
    [(⟨0, 1, 1⟩ : BWrite ℝ), ⟨1, 0, 1⟩] (by decide)
  have hA' : A.Represents 2 exS2 := by
    obtain ⟨L, hL⟩ := EllB.represents_iff.1 hA
    refine EllB.represents_iff.2 ⟨L, hL.congr ?_⟩
    intro i j hi hj
    interval_cases i <;> interval_cases j <;> rfl
  have hbs : A.NB = 1 ∧ A.bsize.get 0 = 2 := by
    cases eA
    exact ⟨rfl, rfl⟩
  have hM' : A.M = 2 := hM.trans h3
  obtain ⟨g', bs, eg, hd⟩ := C75_ellblock_real_partial h nzR_tests (by decide) hA' (by
    intro ib hib
    rw [hbs.1] at hib
    obtain rfl : ib = 0 := by omega
    rw [hbs.2]
    decide) exS2_symmetric (x := ⟨2, fun _ => 0⟩) le_rfl h1 h2 (by omega) (g := EllB.Glob.init)
    (Or.inl ⟨rfl, by omega⟩) (sc2 := [(0, 0)]) (show List.Perm [0] [0] by decide) (fun _ => 7)
  rw [hM'] at eg
  cases eg
  obtain ⟨x', V', w, v, e, r⟩ := hd rfl rfl rfl ⟨2, fun ib hib => by
    have hib' : ib < 1 := hib
    obtain rfl : ib = 0 := by omega
    rfl⟩ (fun w v _ ib hib => ⟨Finset.range 1, by decide, fun jb ii jj hjb _ _ _ => Finset.mem_range.2 hjb⟩)
  exact ⟨ev, h, A, x', _, V', w, v, eA, e, r⟩

end Bml.Props
