import Verif.Props.EllAccess
import Mathlib.Tactic.IntervalCases

/-!
# Property theorems: ELLPACK arithmetic (C07-C15, C20, C21, C30, C36, C37)

`IsSched lo hi sc` says that the schedule `sc` (a list of `(thread,row)` pairs) runs every row
`lo ≤ i < hi` exactly once, in any order and on any threads; `[lo,hi)` are the rows of the
calling rank.  In a single-rank run `lo = 0`, `hi = N`.  A test `big x` stands for
`|x| > threshold`.
-/

namespace Bml.Spec

variable {R : Type*}

/-- `f` on the rows `lo ≤ i < hi`, `g` on the others. -/
def onRows (lo hi : Nat) (f g : Mat R) : Mat R :=
  fun i j => if lo ≤ i ∧ i < hi then f i j else g i j

theorem onRows_all (n : Nat) (f g : Mat R) : Eq n (onRows 0 n f g) f := by
  intro i j hi _; simp [onRows, hi]

/-- Multiples. -/
def scale [Mul R] (c : R) (a : Mat R) : Mat R := fun i j => c * a i j

/-- `a + beta I`, thresholded. -/
def addIdentity [CommRing R] (big : R → Bool) (β : R) (a : Mat R) : Mat R :=
  fun i j => keep big (a i j + β * one i j)

/-- All entries thresholded. -/
def threshold [Zero R] (big : R → Bool) (a : Mat R) : Mat R := fun i j => keep big (a i j)

end Bml.Spec

namespace Bml.Ell

variable {R : Type} [CommRing R]

theorem Represents.congr {A : Ell R} {N : Nat} {a b : Spec.Mat R} (h : A.Represents N a)
    (hab : Spec.Eq N a b) : A.Represents N b :=
  ⟨h.wf, h.dim, fun i j hi hj => by rw [h.get i j hi hj, hab i j hi hj]⟩

theorem Represents.unique {A : Ell R} {N : Nat} {a b : Spec.Mat R} (h : A.Represents N a)
    (h' : A.Represents N b) : Spec.Eq N a b := by
  intro i j hi hj
  have := h.get i j hi hj
  rw [h'.get i j hi hj] at this
  exact (Res.ok.inj this).symm

theorem rep_of_onRows {N lo hi : Nat} {A' : Ell R} {f g : Spec.Mat R} (hS : A'.Shape)
    (hN : A'.N = N) (h : ∀ i, i < N → if lo ≤ i ∧ i < hi then A'.RowSat i (IsRow N (f i))
      else A'.RowSat i (IsRow N (g i))) : A'.Represents N (Spec.onRows lo hi f g) := by
  rw [represents_iff]
  refine rep_of_rowSat hS hN (fun i hi' => ?_)
  have := h i hi'
  split at this
  · next hc =>
    have he : Spec.onRows lo hi f g i = f i := by funext j; simp [Spec.onRows, hc]
    rw [he]; exact this
  · next hc =>
    have he : Spec.onRows lo hi f g i = g i := by
      funext j; simp only [Spec.onRows]; rw [if_neg hc]
    rw [he]; exact this

theorem symCount_eq {N : Nat} {A B : Ell R} {a : Spec.Mat R} (hA : A.Rep N a) {i : Nat}
    (hi : i < N) : symCount A B N i = productFill A B N i := by
  unfold symCount productFill
  congr 1
  apply Finset.filter_congr
  intro j _
  constructor
  · rintro ⟨p, hp, hj⟩
    exact ⟨p.1, (hA.good i hi).2 p hp, stored_iff.2 (List.mem_map.2 ⟨p, hp, rfl⟩),
      stored_iff.2 hj⟩
  · rintro ⟨k, _, h1, h2⟩
    obtain ⟨p, hp, rfl⟩ := List.mem_map.1 (stored_iff.1 h1)
    exact ⟨p, hp, stored_iff.1 h2⟩

/-- The number of entries that `bml_multiply_x2` stores in row `i` of the square of `X`: the
columns that the stored entries of `X` reach, as far as they are above threshold or on the
diagonal. -/
def x2Fill (X : Ell R) (big : R → Bool) (a : Spec.Mat R) (N i : Nat) : Nat :=
  ((Finset.range N).filter (fun j => (j = i ∨ big (Spec.mul N a a i j) = true) ∧
    ∃ k, k < N ∧ X.Stored i k ∧ X.Stored k j)).card

theorem x2Count_eq {N : Nat} {A : Ell R} {a : Spec.Mat R} (hA : A.Rep N a) (big : R → Bool)
    {i : Nat} (hi : i < N) : x2Count A big a N i = x2Fill A big a N i := by
  unfold x2Count x2Fill
  congr 1
  apply Finset.filter_congr
  intro j _
  refine and_congr_right (fun _ => ?_)
  constructor
  · rintro ⟨p, hp, hj⟩
    exact ⟨p.1, (hA.good i hi).2 p hp, stored_iff.2 (List.mem_map.2 ⟨p, hp, rfl⟩),
      stored_iff.2 hj⟩
  · rintro ⟨k, _, h1, h2⟩
    obtain ⟨p, hp, rfl⟩ := List.mem_map.1 (stored_iff.1 h1)
    exact ⟨p, hp, stored_iff.1 h2⟩

theorem noinit_rep (N M : Nat) (jv : Nat → R) (ji : Nat → Nat) :
    (noinit N M jv ji).Rep N (fun _ _ => 0) := by
  have hr : ∀ i, (noinit N M jv ji).row i = [] := fun i => rfl
  refine ⟨⟨rfl, rfl, rfl⟩, rfl, fun i hi => Nat.zero_le _, fun i hi => ?_, fun i j hi hj => ?_⟩
  · rw [hr]; exact ⟨by simp, by simp⟩
  · rw [hr]; simp

end Bml.Ell

namespace Bml.Props

open Bml Bml.Ell

variable {R : Type} [CommRing R]

/-! ## C07 -/

/-- **C07.**  `bml_copy_new(A)` has the same elements as `A`, whatever the allocated memory
contained. -/
theorem C07_copy_new {N : Nat} {A : Ell R} {a : Spec.Mat R} (hA : A.Represents N a)
    {sc : Sched} (hsc : IsSched 0 N sc) (jv : Nat → R) (ji : Nat → Nat) :
    ∃ B, copyNew A sc jv ji = .ok B ∧ B.M = A.M ∧ B.Represents N a := by
  have hR := represents_iff.1 hA
  obtain ⟨B, e, h⟩ := Res.wp_exists
    (wp_copyNew (E := False) hR.shape (by rw [hR.dim]; exact hsc) jv ji)
  exact ⟨B, e, h.M, represents_iff.2 (h.rep hR)⟩

example : ∃ B, copyNew exA exSched (fun q => q) (fun q => q * q) = .ok B ∧ B.M = 4 ∧
    B.Represents 3 exa := C07_copy_new exA_rep exSched_ok _ _

/-- **C07 (partial).**  `bml_copy(A,B)` makes `B` equal to `A`, whatever `B` contained, when the
two have the same row capacity.  Missing: `B` of larger capacity, where it fails, see
`C07_copy_wider_witness`. -/
theorem C07_copy_partial {N : Nat} {A B : Ell R} {a : Spec.Mat R} (hA : A.Represents N a)
    (hB : B.WF) (hN : B.N = N) (hM : B.M = A.M) (hpos : A.M ≠ 0) {sc : Sched}
    (hsc : IsSched 0 N sc) :
    ∃ B', bmlCopy A B sc = .ok B' ∧ B'.M = A.M ∧ B'.Represents N a := by
  have hR := represents_iff.1 hA
  obtain ⟨B', e, h⟩ := Res.wp_exists
    (wp_copyInto (E := False) hR.shape hB.shape (by rw [hR.dim]; exact hN) hM hpos
      (by rw [hR.dim]; exact hsc))
  refine ⟨B', ?_, h.M, represents_iff.2 (h.rep hR)⟩
  unfold bmlCopy
  rw [if_neg (by rw [hR.dim, hN]; simp), if_neg (by omega)]
  exact e

example : ∃ B, bmlCopy exA exB exSched = .ok B ∧ B.M = 4 ∧ B.Represents 3 exa :=
  C07_copy_partial exA_rep exB_rep.wf rfl rfl (by decide) exSched_ok

/-- `bml_copy` between different sizes, or to a smaller capacity, is an error. -/
theorem C07_copy_mismatch (A B : Ell R) (sc : Sched) (h : A.N ≠ B.N ∨ A.M > B.M) :
    bmlCopy A B sc = .error := by
  unfold bmlCopy
  by_cases h1 : A.N ≠ B.N
  · rw [if_pos h1]
  · rw [if_neg h1, if_pos (by tauto)]

/-- **C07 fails** when the destination has a larger row capacity: `A = [[1,2],[3,4]]` of
capacity 2 is copied to a matrix of capacity 3; element (1,0) of the copy reads 0. -/
theorem C07_copy_wider_witness :
    (do let A := ofRows 2 2 (fun i => if i = 0 then [(0, (1 : Int)), (1, 2)] else [(0, 3), (1, 4)])
        let B ← bmlCopy A (zeroMatrix 2 3) (seqSched 0 2)
        let x ← A.getElement 1 0
        let y ← B.getElement 1 0
        pure (x, y)) = .ok (3, 0) := by decide

/-! ## C08 -/

/-- **C08.**  `bml_add(A,B,alpha,beta,t)`: on the rows of this rank `A` becomes
`alpha A + beta B` thresholded; the other rows are unchanged.  (`B` is only read.) -/
theorem C08_add [DecidableEq R] {N lo hi : Nat} {A B : Ell R} {a b : Spec.Mat R}
    (hA : A.Represents N a) (hB : B.Represents N b) (α β : R) (big : R → Bool) {sc : Sched}
    (hsc : IsSched lo hi sc) (hhi : hi ≤ N)
    (hfit : ∀ i, lo ≤ i → i < hi →
      Spec.rowCount big N (fun i j => α * a i j + β * b i j) i ≤ A.M) :
    ∃ A', Ell.add A B α β big sc = .ok A' ∧ A'.M = A.M ∧
      A'.Represents N (Spec.onRows lo hi (Spec.add big α β a b) a) := by
  obtain ⟨A', e, h1, h2, h3, h4⟩ := Res.wp_exists
    (wp_add (E := False) (represents_iff.1 hA) (represents_iff.1 hB) α β big hsc hhi hfit)
  refine ⟨A', e, h1, rep_of_onRows h2 h3 (fun i hi' => ?_)⟩
  have := h4 i hi'
  split at this
  · next hc => rw [if_pos hc]; exact ⟨this.1, this.2.1⟩
  · next hc => rw [if_neg hc]; exact this

/-- **C08**, one rank. -/
theorem C08_add_all [DecidableEq R] {N : Nat} {A B : Ell R} {a b : Spec.Mat R}
    (hA : A.Represents N a) (hB : B.Represents N b) (α β : R) (big : R → Bool) {sc : Sched}
    (hsc : IsSched 0 N sc)
    (hfit : ∀ i, i < N → Spec.rowCount big N (fun i j => α * a i j + β * b i j) i ≤ A.M) :
    ∃ A', Ell.add A B α β big sc = .ok A' ∧ A'.M = A.M ∧
      A'.Represents N (Spec.add big α β a b) := by
  obtain ⟨A', e, h1, h2⟩ := C08_add hA hB α β big hsc (le_refl _) (fun i _ h => hfit i h)
  exact ⟨A', e, h1, h2.congr (Spec.onRows_all _ _ _)⟩

example : ∃ A', Ell.add exA exB 2 (-3) exBig exSched = .ok A' ∧ A'.M = 4 ∧
    A'.Represents 3 (Spec.add exBig 2 (-3) exa exb) :=
  C08_add_all exA_rep exB_rep 2 (-3) exBig exSched_ok (by decide)

/-- **C08** with both arguments the same matrix. -/
theorem C08_add_self [DecidableEq R] {N lo hi : Nat} {A : Ell R} {a : Spec.Mat R}
    (hA : A.Represents N a) (α β : R) (big : R → Bool) {sc : Sched}
    (hsc : IsSched lo hi sc) (hhi : hi ≤ N)
    (hfit : ∀ i, lo ≤ i → i < hi →
      Spec.rowCount big N (fun i j => α * a i j + β * a i j) i ≤ A.M) :
    ∃ A', Ell.addSelf A α β big sc = .ok A' ∧ A'.M = A.M ∧
      A'.Represents N (Spec.onRows lo hi (Spec.add big α β a a) a) := by
  obtain ⟨A', e, h1, h2, h3, h4⟩ := Res.wp_exists
    (wp_addSelf (E := False) (represents_iff.1 hA) α β big hsc hhi hfit)
  refine ⟨A', e, h1, rep_of_onRows h2 h3 (fun i hi' => ?_)⟩
  have := h4 i hi'
  split at this
  · next hc => rw [if_pos hc]; exact ⟨this.1, this.2.1⟩
  · next hc => rw [if_neg hc]; exact this

example : ∃ A', Ell.addSelf exA 2 (-1) exBig exSched = .ok A' ∧ A'.M = 4 ∧
    A'.Represents 3 (Spec.onRows 0 3 (Spec.add exBig 2 (-1) exa exa) exa) :=
  C08_add_self exA_rep 2 (-1) exBig exSched_ok (le_refl _) (by decide)

/-- **C08** for `bml_add_norm`, which also returns the sum of the squares of the elements of
`A - B` over the rows of this rank. -/
theorem C08_add_norm [DecidableEq R] {N lo hi : Nat} {A B : Ell R} {a b : Spec.Mat R}
    (hA : A.Represents N a) (hB : B.Represents N b) (α β : R) (big : R → Bool) {sc : Sched}
    (hsc : IsSched lo hi sc) (hhi : hi ≤ N)
    (hfit : ∀ i, lo ≤ i → i < hi →
      Spec.rowCount big N (fun i j => α * a i j + β * b i j) i ≤ A.M) :
    ∃ A', Ell.addNorm A B α β big sc = .ok (A', ∑ i ∈ Finset.Ico lo hi, ∑ j ∈ Finset.range N,
        (a i j - b i j) * (a i j - b i j)) ∧ A'.M = A.M ∧
      A'.Represents N (Spec.onRows lo hi (Spec.add big α β a b) a) := by
  obtain ⟨⟨A', t⟩, e, h1, h2, h3, h4, h5⟩ := Res.wp_exists
    (wp_addNorm (E := False) (represents_iff.1 hA) (represents_iff.1 hB) α β big hsc hhi hfit)
  simp only at h1 h2 h3 h4 h5
  subst h5
  refine ⟨A', e, h1, rep_of_onRows h2 h3 (fun i hi' => ?_)⟩
  have := h4 i hi'
  split at this
  · next hc => rw [if_pos hc]; exact ⟨this.1, this.2.1⟩
  · next hc => rw [if_neg hc]; exact this

example : ∃ A', Ell.addNorm exA exB 2 (-3) exBig exSched =
    .ok (A', ∑ i ∈ Finset.Ico 0 3, ∑ j ∈ Finset.range 3,
      (exa i j - exb i j) * (exa i j - exb i j)) ∧ A'.M = 4 ∧
    A'.Represents 3 (Spec.onRows 0 3 (Spec.add exBig 2 (-3) exa exb) exa) :=
  C08_add_norm exA_rep exB_rep 2 (-3) exBig exSched_ok (le_refl _) (by decide)

/-! ## C09 -/

/-- **C09 (partial).**  `bml_add_identity(A,beta,t)` yields `A + beta I` thresholded, if every
row has a stored diagonal element or room for one (or `beta = 0`).  Missing: full rows without
a diagonal element, see `C09_full_row_witness`. -/
theorem C09_add_identity_partial [DecidableEq R] {N : Nat} {A : Ell R} {a : Spec.Mat R}
    (hA : A.Represents N a) (β : R) (big : R → Bool) {sc : Sched} (hsc : IsSched 0 N sc)
    (hroom : ∀ i, i < N → β = 0 ∨ A.nnz.get i < A.M ∨ A.Stored i i) :
    ∃ A', addIdentity A β big sc = .ok A' ∧ A'.M = A.M ∧
      A'.Represents N (Spec.addIdentity big β a) := by
  obtain ⟨A', e, h1, h2, h3, h4⟩ := Res.wp_exists
    (wp_addIdentity (E := False) (represents_iff.1 hA) β big hsc hroom)
  exact ⟨A', e, h1, represents_iff.2
    (rep_of_rowSat h2 h3 (fun i hi => ⟨(h4 i hi).1, (h4 i hi).2.1⟩))⟩

example : ∃ A', addIdentity exB (-1) exBig exSched = .ok A' ∧ A'.M = 4 ∧
    A'.Represents 3 (Spec.addIdentity exBig (-1) exb) :=
  C09_add_identity_partial exB_rep (-1) exBig exSched_ok (by decide)

/-- **C09 fails** on a full row without a diagonal element: the stack arrays `jx`, `x` of length
`M` are written at index `M` (undefined behaviour). -/
theorem C09_full_row_witness :
    addIdentity (ofRows 2 1 (fun i => [(1 - i, (5 : Int))])) 1 exBig (seqSched 0 2) = .ub :=
  rfl

/-- **C09 (partial).**  `bml_scale_add_identity(A,alpha,beta,t)` yields `alpha A + beta I`
thresholded, under the same condition, on one rank and when the factor is passed in the
matrix's own type (double precision). -/
theorem C09_scale_add_identity_partial [DecidableEq R] {N : Nat} {A : Ell R} {a : Spec.Mat R}
    (hA : A.Represents N a) (α β : R) (big : R → Bool) {sc : Sched} (hsc : IsSched 0 N sc)
    (hroom : ∀ i, i < N → β = 0 ∨ A.nnz.get i < A.M ∨ A.Stored i i) :
    ∃ A', scaleAddIdentity A α β big 0 N sc = .ok A' ∧ A'.M = A.M ∧
      A'.Represents N (Spec.addIdentity big β (Spec.scale α a)) := by
  have hR := represents_iff.1 hA
  obtain ⟨A1, e1, h1⟩ := Res.wp_exists (wp_scaleVals (E := False) hR α (Nat.zero_le N) (le_refl N))
  have hR1 := rep_scaled hR h1
  obtain ⟨A', e, k1, k2⟩ := C09_add_identity_partial (represents_iff.2 hR1) β big hsc (by
    intro i hi
    rw [h1.2.2.2.1, h1.1]
    have := hroom i hi
    unfold Stored at this ⊢
    rw [h1.1, h1.2.2.2.1, h1.2.2.2.2.1]
    exact this)
  refine ⟨A', ?_, by rw [k1, h1.1], k2.congr ?_⟩
  · unfold scaleAddIdentity scaleInplace
    rw [e1, Res.bind_ok]; exact e
  · intro i j hi hj
    simp [Spec.addIdentity, Spec.scale, hi]

example : ∃ A', scaleAddIdentity exB 2 (-1) exBig 0 3 exSched = .ok A' ∧ A'.M = 4 ∧
    A'.Represents 3 (Spec.addIdentity exBig (-1) (Spec.scale 2 exb)) :=
  C09_scale_add_identity_partial exB_rep 2 (-1) exBig exSched_ok (by decide)

/-! ## C10 -/

/-- **C10.**  `bml_scale_inplace` multiplies the elements of the rank's rows. -/
theorem C10_scale_inplace {N lo hi : Nat} {A : Ell R} {a : Spec.Mat R} (hA : A.Represents N a)
    (c : R) (hlo : lo ≤ hi) (hhi : hi ≤ N) :
    ∃ A', scaleInplace c A lo hi = .ok A' ∧ A'.M = A.M ∧
      A'.Represents N (Spec.onRows lo hi (Spec.scale c a) a) := by
  have hR := represents_iff.1 hA
  obtain ⟨A1, e1, h1⟩ := Res.wp_exists (wp_scaleVals (E := False) hR c hlo hhi)
  exact ⟨A1, e1, h1.1, represents_iff.2 (rep_scaled hR h1)⟩

example : ∃ A', scaleInplace 3 exA 1 2 = .ok A' ∧ A'.M = 4 ∧
    A'.Represents 3 (Spec.onRows 1 2 (Spec.scale 3 exa) exa) :=
  C10_scale_inplace exA_rep 3 (by decide) (by decide)

/-- **C10.**  `bml_scale(c,A,B)` with `A`, `B` of equal capacity; all of `A` is copied and the
rows of this rank are multiplied. -/
theorem C10_scale {N lo hi : Nat} {A B : Ell R} {a : Spec.Mat R} (hA : A.Represents N a)
    (hB : B.WF) (hN : B.N = N) (hM : B.M = A.M) (hpos : A.M ≠ 0) (c : R) (hlo : lo ≤ hi)
    (hhi : hi ≤ N) {sc : Sched} (hsc : IsSched 0 N sc) :
    ∃ B', Ell.scale c A B lo hi sc = .ok B' ∧ B'.M = A.M ∧
      B'.Represents N (Spec.onRows lo hi (Spec.scale c a) a) := by
  have hR := represents_iff.1 hA
  obtain ⟨B1, e, h⟩ := Res.wp_exists
    (wp_copyInto (E := False) hR.shape hB.shape (by rw [hR.dim]; exact hN) hM hpos
      (by rw [hR.dim]; exact hsc))
  obtain ⟨B', e1, h1⟩ := Res.wp_exists (wp_scaleVals (E := False) (h.rep hR) c hlo hhi)
  refine ⟨B', ?_, by rw [h1.1, h.M], represents_iff.2 (rep_scaled (h.rep hR) h1)⟩
  unfold Ell.scale
  rw [e, Res.bind_ok]
  exact e1

example : ∃ B', Ell.scale 3 exA exB 0 3 exSched = .ok B' ∧ B'.M = 4 ∧
    B'.Represents 3 (Spec.onRows 0 3 (Spec.scale 3 exa) exa) :=
  C10_scale exA_rep exB_rep.wf rfl rfl (by decide) 3 (by decide) (by decide) exSched_ok

/-- **C10.**  `bml_scale_new`. -/
theorem C10_scale_new {N lo hi : Nat} {A : Ell R} {a : Spec.Mat R} (hA : A.Represents N a)
    (hpos : A.M ≠ 0) (c : R) (hlo : lo ≤ hi) (hhi : hi ≤ N) {sc sc' : Sched}
    (hsc : IsSched 0 N sc) (hsc' : IsSched 0 N sc') (jv : Nat → R) (ji : Nat → Nat) :
    ∃ B, scaleNew c A lo hi sc sc' jv ji = .ok B ∧ B.M = A.M ∧
      B.Represents N (Spec.onRows lo hi (Spec.scale c a) a) := by
  obtain ⟨B, e, h1, h2⟩ := C07_copy_new hA hsc jv ji
  obtain ⟨B', e', h1', h2'⟩ := C10_scale hA h2.wf h2.dim h1 hpos c hlo hhi hsc'
  refine ⟨B', ?_, h1', h2'⟩
  unfold scaleNew
  rw [e, Res.bind_ok]
  exact e'

example : ∃ B, scaleNew 3 exA 0 3 exSched (seqSched 0 3) (fun _ => 7) (fun _ => 9) = .ok B ∧
    B.M = 4 ∧ B.Represents 3 (Spec.onRows 0 3 (Spec.scale 3 exa) exa) :=
  C10_scale_new exA_rep (by decide) 3 (by decide) (by decide) exSched_ok (isSched_seq 0 3) _ _

/-! ## C11 -/

/-- **C11.**  `bml_threshold` keeps exactly the elements above threshold. -/
theorem C11_threshold {N lo hi : Nat} {A : Ell R} {a : Spec.Mat R} (hA : A.Represents N a)
    (big : R → Bool) {sc : Sched} (hsc : IsSched lo hi sc) (hhi : hi ≤ N) :
    ∃ A', Ell.threshold A big sc = .ok A' ∧ A'.M = A.M ∧
      A'.Represents N (Spec.onRows lo hi (Spec.threshold big a) a) := by
  have hR := represents_iff.1 hA
  obtain ⟨A', e, h1, h2, h3, h4⟩ := Res.wp_exists (wp_threshold (E := False) hR big hsc hhi)
  refine ⟨A', e, h1, rep_of_onRows h2 h3 (fun i hi' => ?_)⟩
  have := h4 i hi'
  split at this
  · next hc =>
    rw [if_pos hc]
    exact ⟨this.1, by rw [this.2]; exact (keep_row (isRow_of_rep hR hi') big).1⟩
  · next hc =>
    rw [if_neg hc]
    exact ⟨this.1, by rw [this.2]; exact isRow_of_rep hR hi'⟩

/-- **C11.**  `bml_threshold_new` returns the thresholded matrix (on one rank). -/
theorem C11_threshold_new {N : Nat} {A : Ell R} {a : Spec.Mat R} (hA : A.Represents N a)
    (big : R → Bool) {sc : Sched} (hsc : IsSched 0 N sc) :
    ∃ B, Ell.thresholdNew A big sc = .ok B ∧ B.M = A.M ∧
      B.Represents N (Spec.threshold big a) := by
  have hR := represents_iff.1 hA
  obtain ⟨A', e, h1, h2, h3, h4⟩ :=
    Res.wp_exists (wp_thresholdNew (E := False) hR big hsc (le_refl _))
  refine ⟨A', e, h1, represents_iff.2 (rep_of_rowSat h2 h3 (fun i hi' => ?_))⟩
  have := h4 i hi'
  rw [if_pos (by omega)] at this
  exact ⟨this.1, by rw [this.2]; exact (keep_row (isRow_of_rep hR hi') big).1⟩

/-- **C11.**  Thresholding twice is thresholding once. -/
theorem C11_idempotent {N : Nat} {A : Ell R} {a : Spec.Mat R} (hA : A.Represents N a)
    (big : R → Bool) {sc sc' : Sched} (hsc : IsSched 0 N sc) (hsc' : IsSched 0 N sc') :
    ∃ A' A'', Ell.threshold A big sc = .ok A' ∧ Ell.threshold A' big sc' = .ok A'' ∧
      ∀ i j : Nat, i < N → j < N → A''.getElement i j = A'.getElement i j := by
  obtain ⟨A', e, _, h⟩ := C11_threshold hA big hsc (le_refl _)
  obtain ⟨A'', e', _, h'⟩ := C11_threshold h big hsc' (le_refl _)
  refine ⟨A', A'', e, e', fun i j hi hj => ?_⟩
  rw [h.get i j hi hj, h'.get i j hi hj]
  simp only [Spec.onRows, Spec.threshold, Nat.zero_le, hi, true_and, if_true, Spec.keep]
  by_cases hb : big (a i j) = true <;> simp [hb]

example : ∃ A', Ell.threshold exA exBig exSched = .ok A' ∧ A'.M = 4 ∧
    A'.Represents 3 (Spec.onRows 0 3 (Spec.threshold exBig exa) exa) :=
  C11_threshold exA_rep exBig exSched_ok (le_refl _)

example : ∃ B, Ell.thresholdNew exA exBig exSched = .ok B ∧ B.M = 4 ∧
    B.Represents 3 (Spec.threshold exBig exa) :=
  C11_threshold_new exA_rep exBig exSched_ok

/-! ## C12, C15: product -/

/-- **C12, C15.**  `bml_multiply_AB(A,B,C,t)`, exactly: if in some row more than `M` columns are
reachable through stored entries the call is an error; otherwise the rows of this rank of `C`
become the rows of `A*B`, thresholded off the diagonal, and the others are unchanged. -/
theorem C12_multiply_AB {N lo hi : Nat} {A B C : Ell R} {a b c : Spec.Mat R}
    (hA : A.Represents N a) (hB : B.Represents N b) (hC : C.Represents N c) (big : R → Bool)
    {sc : Sched} (hsc : IsSched lo hi sc) (hhi : hi ≤ N) :
    (∀ i, lo ≤ i → i < hi → productFill A B N i ≤ C.M) ∧
      (∃ C', multAB A B C big sc = .ok C' ∧ C'.M = C.M ∧ C'.Represents N
        (Spec.onRows lo hi (Spec.keepOff big (Spec.mul N a b)) c)) ∨
    (∃ i, lo ≤ i ∧ i < hi ∧ productFill A B N i > C.M) ∧ multAB A B C big sc = .error := by
  have hR := represents_iff.1 hA
  rcases Res.wp_elim (wp_multAB hR (represents_iff.1 hB) (represents_iff.1 hC) big hsc hhi)
    with ⟨C', e, h1, h2, h3, h4⟩ | ⟨e, i, h1, h2, h3⟩
  · refine Or.inl ⟨fun i hl hh => ?_, C', e, h1, rep_of_onRows h2 h3 (fun i hi' => ?_)⟩
    · have := h4 i (by omega)
      rw [if_pos ⟨hl, hh⟩] at this
      rw [← symCount_eq hR (by omega)]
      exact this.2.2
    · have := h4 i hi'
      split at this
      · next hc => rw [if_pos hc]; exact ⟨this.1, this.2.1⟩
      · next hc => rw [if_neg hc]; exact this
  · exact Or.inr ⟨⟨i, h1, h2, by rw [← symCount_eq hR (by omega)]; exact h3⟩, e⟩

/-- **C12**: the product, when it fits. -/
theorem C12_multiply_AB_ok {N : Nat} {A B C : Ell R} {a b c : Spec.Mat R}
    (hA : A.Represents N a) (hB : B.Represents N b) (hC : C.Represents N c) (big : R → Bool)
    {sc : Sched} (hsc : IsSched 0 N sc) (hfit : ∀ i, i < N → productFill A B N i ≤ C.M) :
    ∃ C', multAB A B C big sc = .ok C' ∧ C'.M = C.M ∧ C'.Represents N
        (Spec.keepOff big (Spec.mul N a b)) := by
  rcases C12_multiply_AB hA hB hC big hsc (le_refl _) with ⟨_, C', e, h1, h2⟩ | ⟨⟨i, _, h1, h2⟩, _⟩
  · exact ⟨C', e, h1, h2.congr (Spec.onRows_all _ _ _)⟩
  · have := hfit i h1; omega

example : ∃ C', multAB exA exB exA exBig exSched = .ok C' ∧ C'.M = 4 ∧ C'.Represents 3
    (Spec.keepOff exBig (Spec.mul 3 exa exb)) :=
  C12_multiply_AB_ok exA_rep exB_rep exA_rep exBig exSched_ok (by decide)

example : ∃ i, 0 ≤ i ∧ i < 3 ∧ productFill exA exB 3 i > (zeroMatrix 3 2 : Ell Int).M := by
  refine ⟨1, by decide⟩

/-! ## C13 -/

/-- **C13.**  `bml_multiply_x2(X,X2,t)` stores the square of `X`, thresholded off the diagonal,
and returns the two traces (sums over the rows of this rank). -/
theorem C13_x2 {N lo hi : Nat} {X C : Ell R} {a c : Spec.Mat R} (hX : X.Represents N a)
    (hC : C.Represents N c) (big : R → Bool) {sc : Sched} (hsc : IsSched lo hi sc) (hhi : hi ≤ N)
    (hfit : ∀ i, lo ≤ i → i < hi → x2Fill X big a N i ≤ C.M) :
    ∃ C', multX2 X C big sc =
        .ok (C', ∑ i ∈ Finset.Ico lo hi, a i i, ∑ i ∈ Finset.Ico lo hi, Spec.mul N a a i i) ∧
      C'.M = C.M ∧
      C'.Represents N (Spec.onRows lo hi (Spec.keepOff big (Spec.mul N a a)) c) := by
  have hR := represents_iff.1 hX
  obtain ⟨⟨C', t⟩, e, h1, h2, h3, h4, h5⟩ := Res.wp_exists
    (wp_multX2 (E := False) hR (represents_iff.1 hC) big hsc hhi
      (fun i h1 h2 => by rw [x2Count_eq hR big (by omega)]; exact hfit i h1 h2))
  simp only at h1 h2 h3 h4 h5
  subst h4
  refine ⟨C', e, h1, rep_of_onRows h2 h3 (fun i hi' => ?_)⟩
  have := h5 i hi'
  split at this
  · next hc => rw [if_pos hc]; exact this
  · next hc => rw [if_neg hc]; exact this

/-- **C13**, one rank: the traces are `tr X` and `tr X^2`. -/
theorem C13_x2_all {N : Nat} {X C : Ell R} {a c : Spec.Mat R} (hX : X.Represents N a)
    (hC : C.Represents N c) (big : R → Bool) {sc : Sched} (hsc : IsSched 0 N sc)
    (hfit : ∀ i, i < N → x2Fill X big a N i ≤ C.M) :
    ∃ C', multX2 X C big sc = .ok (C', Spec.tr N a, Spec.tr N (Spec.mul N a a)) ∧
      C'.M = C.M ∧ C'.Represents N (Spec.keepOff big (Spec.mul N a a)) := by
  obtain ⟨C', e, h1, h2⟩ := C13_x2 hX hC big hsc (le_refl _) (fun i _ h => hfit i h)
  refine ⟨C', ?_, h1, h2.congr (Spec.onRows_all _ _ _)⟩
  rw [e]; simp only [← Finset.range_eq_Ico]; rfl

example : ∃ C', multX2 exA exB exBig exSched
    = .ok (C', Spec.tr 3 exa, Spec.tr 3 (Spec.mul 3 exa exa)) ∧ C'.M = 4 ∧
    C'.Represents 3 (Spec.keepOff exBig (Spec.mul 3 exa exa)) :=
  C13_x2_all exA_rep exB_rep exBig exSched_ok (by decide)

/-! ## C14 -/

/-- **C14.**  `bml_multiply(A,B,C,alpha,beta,t)` for different `A`, `B`: `C` becomes
`beta C + alpha P` thresholded, where `P` is the product thresholded off the diagonal. -/
theorem C14_multiply [DecidableEq R] {N : Nat} {A B C : Ell R} {a b c : Spec.Mat R}
    (hA : A.Represents N a) (hB : B.Represents N b) (hC : C.Represents N c) (α β : R)
    (big : R → Bool) {sc1 sc2 : Sched} (hsc1 : IsSched 0 N sc1) (hsc2 : IsSched 0 N sc2)
    (jv : Nat → R) (ji : Nat → Nat)
    (hfill : ∀ i, i < N → productFill A B N i ≤ C.M)
    (hfit : ∀ i, i < N → Spec.rowCount big N
      (fun i j => β * c i j + α * Spec.keepOff big (Spec.mul N a b) i j) i ≤ C.M) :
    ∃ C', multiply A B C α β big sc1 sc2 jv ji = .ok C' ∧ C'.M = C.M ∧
      C'.Represents N (Spec.add big β α c (Spec.keepOff big (Spec.mul N a b))) := by
  have hCN := hC.dim
  obtain ⟨P, e, h1, h2⟩ := C12_multiply_AB_ok hA hB
    (C := noinit C.N C.M jv ji) (represents_iff.2 (by rw [hCN]; exact noinit_rep N C.M jv ji))
    big hsc1 hfill
  obtain ⟨C', e', h1', h2'⟩ := C08_add_all hC h2 β α big hsc2 hfit
  refine ⟨C', ?_, h1', h2'⟩
  unfold multiply
  rw [e, Res.bind_ok]; exact e'

example : ∃ C', multiply exA exB exA 2 (-1) exBig exSched (seqSched 0 3) (fun _ => 5) (fun _ => 9)
      = .ok C' ∧ C'.M = 4 ∧
    C'.Represents 3 (Spec.add exBig (-1) 2 exa (Spec.keepOff exBig (Spec.mul 3 exa exb))) :=
  C14_multiply exA_rep exB_rep exA_rep 2 (-1) exBig exSched_ok (isSched_seq 0 3) _ _ (by decide)
    (by decide)

/-- **C14**, error branch: a product row that does not fit is reported. -/
theorem C14_multiply_overflow [DecidableEq R] {N : Nat} {A B C : Ell R} {a b c : Spec.Mat R}
    (hA : A.Represents N a) (hB : B.Represents N b) (hC : C.Represents N c) (α β : R)
    (big : R → Bool) {sc1 sc2 : Sched} (hsc1 : IsSched 0 N sc1) (jv : Nat → R) (ji : Nat → Nat)
    (hfill : ∃ i, i < N ∧ productFill A B N i > C.M) :
    multiply A B C α β big sc1 sc2 jv ji = .error := by
  have hCN := hC.dim
  rcases C12_multiply_AB hA hB (C := noinit C.N C.M jv ji)
    (represents_iff.2 (by rw [hCN]; exact noinit_rep N C.M jv ji)) big hsc1 (le_refl _)
    with ⟨h, _⟩ | ⟨_, e⟩
  · obtain ⟨i, hi, hgt⟩ := hfill
    have : productFill A B N i ≤ C.M := h i (Nat.zero_le _) hi
    omega
  · unfold multiply
    rw [e]; rfl

example : ∃ i, i < 3 ∧ productFill exA exB 3 i > (zeroMatrix 3 2 : Ell Int).M :=
  ⟨1, by decide⟩

/-- **C14** for `A == B`, `alpha = 1`, `beta = 0`: the product goes straight into `C`. -/
theorem C14_square [DecidableEq R] {N : Nat} {A C : Ell R} {a c : Spec.Mat R}
    (hA : A.Represents N a) (hC : C.Represents N c) (big : R → Bool) {sc1 : Sched} (sc2 : Sched)
    (hsc1 : IsSched 0 N sc1) (jv : Nat → R) (ji : Nat → Nat)
    (hfill : ∀ i, i < N → x2Fill A big a N i ≤ C.M) :
    ∃ C', multiplySelf A C 1 0 big sc1 sc2 jv ji = .ok C' ∧ C'.M = C.M ∧
      C'.Represents N (Spec.keepOff big (Spec.mul N a a)) := by
  obtain ⟨C', e, h1, h2⟩ := C13_x2_all hA hC big hsc1 hfill
  refine ⟨C', ?_, h1, h2⟩
  unfold multiplySelf
  rw [if_pos ⟨rfl, rfl⟩, e]; rfl

/-- **C14** for `A == B`, other factors. -/
theorem C14_square_general [DecidableEq R] {N : Nat} {A C : Ell R} {a c : Spec.Mat R}
    (hA : A.Represents N a) (hC : C.Represents N c) (α β : R) (hαβ : ¬ (α = 1 ∧ β = 0))
    (big : R → Bool) {sc1 sc2 : Sched} (hsc1 : IsSched 0 N sc1) (hsc2 : IsSched 0 N sc2)
    (jv : Nat → R) (ji : Nat → Nat)
    (hfill : ∀ i, i < N → x2Fill A big a N i ≤ C.M)
    (hfit : ∀ i, i < N → Spec.rowCount big N
      (fun i j => β * c i j + α * Spec.keepOff big (Spec.mul N a a) i j) i ≤ C.M) :
    ∃ C', multiplySelf A C α β big sc1 sc2 jv ji = .ok C' ∧ C'.M = C.M ∧
      C'.Represents N (Spec.add big β α c (Spec.keepOff big (Spec.mul N a a))) := by
  have hCN := hC.dim
  obtain ⟨P, e, h1, h2⟩ := C13_x2_all hA
    (C := noinit C.N C.M jv ji) (represents_iff.2 (by rw [hCN]; exact noinit_rep N C.M jv ji))
    big hsc1 hfill
  obtain ⟨C', e', h1', h2'⟩ := C08_add_all hC h2 β α big hsc2 hfit
  refine ⟨C', ?_, h1', h2'⟩
  unfold multiplySelf
  rw [if_neg hαβ, e, Res.bind_ok]; exact e'

example : ∃ C', multiplySelf exA exB 1 0 exBig exSched [] (fun _ => 5) (fun _ => 9) = .ok C' ∧
    C'.M = 4 ∧ C'.Represents 3 (Spec.keepOff exBig (Spec.mul 3 exa exa)) :=
  C14_square exA_rep exB_rep exBig [] exSched_ok _ _ (by decide)

example : ∃ C', multiplySelf exA exB 2 1 exBig exSched exSched (fun _ => 5) (fun _ => 9) = .ok C' ∧
    C'.M = 4 ∧
    C'.Represents 3 (Spec.add exBig 1 2 exb (Spec.keepOff exBig (Spec.mul 3 exa exa))) :=
  C14_square_general exA_rep exB_rep 2 1 (by decide) exBig exSched_ok exSched_ok _ _
    (by decide) (by decide)

/-! ## C15: where overflow is silent -/

/-- **C15 (partial).**  `bml_multiply_AB` is an error exactly when a row does not fit.
Missing: the operations below, which do not check. -/
theorem C15_multiply_AB_partial {N : Nat} {A B C : Ell R} {a b c : Spec.Mat R}
    (hA : A.Represents N a) (hB : B.Represents N b) (hC : C.Represents N c) (big : R → Bool)
    {sc : Sched} (hsc : IsSched 0 N sc) :
    multAB A B C big sc = .error ↔ ∃ i, i < N ∧ productFill A B N i > C.M := by
  rcases C12_multiply_AB hA hB hC big hsc (le_refl _) with ⟨h, C', e, _⟩ | ⟨⟨i, h1, h2, h3⟩, e⟩
  · rw [e]
    constructor
    · intro h'; cases h'
    · rintro ⟨i, hi, hgt⟩
      have := h i (Nat.zero_le _) hi
      omega
  · exact ⟨fun _ => ⟨i, h2, h3⟩, fun _ => e⟩

example : multAB exA exB (zeroMatrix 3 4) exBig exSched ≠ .error ∧
    multAB exA exB (zeroMatrix 3 2) exBig exSched = .error := by
  constructor
  · rw [Ne, C15_multiply_AB_partial exA_rep exB_rep (C := zeroMatrix 3 4) (c := fun _ _ => 0)
      (represents_iff.2 (noinit_rep 3 4 _ _)) exBig exSched_ok]
    decide
  · rw [C15_multiply_AB_partial exA_rep exB_rep (C := zeroMatrix 3 2) (c := fun _ _ => 0)
      (represents_iff.2 (noinit_rep 3 2 _ _)) exBig exSched_ok]
    exact ⟨1, by decide⟩

/-- **C15 fails** for `bml_add`: with capacity 1 the two-entry sum row 0 silently overwrites
element (1,0). -/
theorem C15_add_silent_witness :
    (do let A ← Ell.add (ofRows 2 1 (fun i => if i = 0 then [(0, (2 : Int))] else [(0, 5)]))
          (ofRows 2 1 (fun i => if i = 0 then [(1, (3 : Int))] else [])) 1 1 exBig
          [(0, 1), (1, 0)]
        A.getElement 1 0) = .ok 0 := by decide

/-- **C15 fails** for `bml_multiply_x2`: the check comes after the stores; in the last row they
go past the end of the array. -/
theorem C15_x2_ub_witness :
    multX2 (ofRows 2 2 (fun _ => [(0, (1 : Int)), (1, 2)])) (zeroMatrix 2 1) exBig
      [(0, 1), (0, 0)] = .ub := rfl

/-! ## C20 -/

/-- **C20.**  `bml_trace(A)` is the trace (on one rank; in general the sum over its rows). -/
theorem C20_trace {N : Nat} {A : Ell R} {a : Spec.Mat R} (hA : A.Represents N a)
    {sc : Sched} (hsc : IsSched 0 N sc) : Ell.trace A sc = .ok (Spec.tr N a) := by
  obtain ⟨t, e, h⟩ := Res.wp_exists (wp_trace (E := False) (represents_iff.1 hA) hsc (le_refl _))
  rw [e, h, ← Finset.range_eq_Ico]; rfl

example : Ell.trace exA exSched = .ok (Spec.tr 3 exa) := C20_trace exA_rep exSched_ok

/-- **C20 (partial).**  `bml_trace_mult(A,B)` is the trace of `A` times the *transpose* of `B`,
if `B` has stored entries in every row where `A` has some. -/
theorem C20_trace_mult_value {N : Nat} {A B : Ell R} {a b : Spec.Mat R}
    (hA : A.Represents N a) (hB : B.Represents N b) (hM : A.M = B.M) {sc : Sched}
    (hsc : IsSched 0 N sc) (hne : ∀ i, i < N → A.nnz.get i ≠ 0 → B.nnz.get i ≠ 0)
    (junk : Nat → Nat → R) :
    traceMult A B sc junk = .ok (Spec.tr N (Spec.mul N a (Spec.transpose b))) := by
  obtain ⟨t, e, h⟩ := Res.wp_exists (wp_traceMult (E := False) (represents_iff.1 hA)
    (represents_iff.1 hB) hM hsc (le_refl _) (fun i _ h => hne i h) junk)
  rw [e, h, ← Finset.range_eq_Ico]; rfl

/-- **C20 (partial).**  `bml_trace_mult(A,B) = tr(AB)` for symmetric `B` with stored entries in
every row where `A` has some.  Missing: other `B`, where it fails. -/
theorem C20_trace_mult_partial {N : Nat} {A B : Ell R} {a b : Spec.Mat R}
    (hA : A.Represents N a) (hB : B.Represents N b) (hM : A.M = B.M) {sc : Sched}
    (hsc : IsSched 0 N sc) (hne : ∀ i, i < N → A.nnz.get i ≠ 0 → B.nnz.get i ≠ 0)
    (hsym : Spec.Eq N b (Spec.transpose b)) (junk : Nat → Nat → R) :
    traceMult A B sc junk = .ok (Spec.tr N (Spec.mul N a b)) := by
  rw [C20_trace_mult_value hA hB hM hsc hne junk]
  congr 1
  unfold Spec.tr Spec.mul
  apply Finset.sum_congr rfl
  intro i hi
  apply Finset.sum_congr rfl
  intro k hk
  rw [hsym k i (by simpa using hk) (by simpa using hi)]

/-- A symmetric example matrix. -/
def exS : Ell Int := ofRows 3 4 (fun i => [((i + 1) % 3, 2), (i, 5), ((i + 2) % 3, 2)])

theorem exS_rep : exS.Represents 3 (fun i j => SRow.den [((i + 1) % 3, 2), (i, 5), ((i + 2) % 3, 2)] j) :=
  ofRows_rep (by decide)

example : traceMult exA exS exSched (fun _ _ => 77) = .ok (Spec.tr 3 (Spec.mul 3 exa
    (fun i j => SRow.den [((i + 1) % 3, 2), (i, 5), ((i + 2) % 3, 2)] j))) :=
  C20_trace_mult_partial exA_rep exS_rep rfl exSched_ok (by decide)
    (by intro i j hi hj; interval_cases i <;> interval_cases j <;> decide) _

/-- **C20 fails**: for `A = [[0,1],[0,0]]`, `B = [[0,1],[0,0]]` the trace of `AB` is 0 and
`bml_trace_mult` returns 1. -/
theorem C20_trace_mult_witness :
    traceMult (ofRows 2 2 (fun i => if i = 0 then [(1, (1 : Int))] else []))
      (ofRows 2 2 (fun i => if i = 0 then [(1, (1 : Int))] else [])) (seqSched 0 2)
      (fun _ _ => 0) = .ok 1 ∧
    Spec.tr 2 (Spec.mul 2 (fun i j => SRow.den (if i = 0 then [(1, (1 : Int))] else []) j)
      (fun i j => SRow.den (if i = 0 then [(1, (1 : Int))] else []) j)) = 0 := by decide

/-- **C20 fails**: with an empty row in `B` the result depends on uninitialised memory. -/
theorem C20_trace_mult_junk_witness (x : Int) :
    traceMult (ofRows 1 1 (fun _ => [(0, (1 : Int))])) (ofRows 1 1 (fun _ => [])) (seqSched 0 1)
      (fun _ _ => x) = .ok x := by
  have : traceMult (ofRows 1 1 (fun _ => [(0, (1 : Int))])) (ofRows 1 1 (fun _ => []))
    (seqSched 0 1) (fun _ _ => x) = .ok (0 + 1 * x) := rfl
  rw [this]; simp

/-- **C20.**  Mismatching sizes are an error. -/
theorem C20_trace_mult_mismatch (A B : Ell R) (sc : Sched) (junk : Nat → Nat → R)
    (h : A.N ≠ B.N ∨ A.M ≠ B.M) : traceMult A B sc junk = .error := by
  unfold traceMult; rw [if_pos h]

/-! ## C21 -/

/-- **C21.**  `bml_sum_squares`. -/
theorem C21_sum_squares {N : Nat} {A : Ell R} {a : Spec.Mat R} (hA : A.Represents N a)
    {sc : Sched} (hsc : IsSched 0 N sc) :
    sumSquares A sc = .ok (Spec.total N N (fun i j => a i j * a i j)) := by
  obtain ⟨t, e, h⟩ := Res.wp_exists
    (wp_sumSquares (E := False) (represents_iff.1 hA) hsc (le_refl _))
  rw [e, h, ← Finset.range_eq_Ico]; rfl

/-- **C21.**  `bml_sum_squares_submatrix`: rows of the core (the loop runs over `core` rows),
columns below `core`. -/
theorem C21_sum_squares_submatrix {N core : Nat} {A : Ell R} {a : Spec.Mat R}
    (hA : A.Represents N a) {sc : Sched} (hsc : IsSched 0 core sc) (hcore : core ≤ N) :
    sumSquaresSub A core sc = .ok (Spec.total core core (fun i j => a i j * a i j)) := by
  obtain ⟨t, e, h⟩ := Res.wp_exists
    (wp_sumSquaresSub (E := False) (represents_iff.1 hA) hsc hcore hcore)
  rw [e, h, ← Finset.range_eq_Ico]; rfl

/-- **C21.**  `bml_sum_AB`. -/
theorem C21_sum_AB {N : Nat} {A B : Ell R} {a b : Spec.Mat R} (hA : A.Represents N a)
    (hB : B.Represents N b) (α : R) (big : R → Bool) {sc : Sched} (hsc : IsSched 0 N sc) :
    sumAB A B α big sc = .ok (Spec.total N N (fun i j => Spec.keep big (α * a i j * b i j))) := by
  obtain ⟨t, e, h⟩ := Res.wp_exists
    (wp_sumAB (E := False) (represents_iff.1 hA) (represents_iff.1 hB) α big hsc (le_refl _))
  rw [e, h, ← Finset.range_eq_Ico]; rfl

/-- **C21.**  `bml_sum_squares2`. -/
theorem C21_sum_squares2 {N : Nat} {A B : Ell R} {a b : Spec.Mat R} (hA : A.Represents N a)
    (hB : B.Represents N b) (α β : R) (big : R → Bool) {sc : Sched} (hsc : IsSched 0 N sc) :
    sumSquares2 A B α β big sc = .ok (Spec.total N N (fun i j =>
      Spec.add big α β a b i j * Spec.add big α β a b i j)) := by
  obtain ⟨t, e, h⟩ := Res.wp_exists
    (wp_sumSquares2 (E := False) (represents_iff.1 hA) (represents_iff.1 hB) α β big hsc
      (le_refl _))
  rw [e, h, ← Finset.range_eq_Ico]; rfl

example : sumSquares exA exSched = .ok (Spec.total 3 3 (fun i j => exa i j * exa i j)) :=
  C21_sum_squares exA_rep exSched_ok
example : sumSquaresSub exA 2 [(0, 1), (3, 0)]
    = .ok (Spec.total 2 2 (fun i j => exa i j * exa i j)) :=
  C21_sum_squares_submatrix exA_rep (by unfold IsSched; decide) (by decide)
example : sumAB exA exB 2 exBig exSched
    = .ok (Spec.total 3 3 (fun i j => Spec.keep exBig (2 * exa i j * exb i j))) :=
  C21_sum_AB exA_rep exB_rep 2 exBig exSched_ok
example : sumSquares2 exA exB 2 3 exBig exSched = .ok (Spec.total 3 3 (fun i j =>
    Spec.add exBig 2 3 exa exb i j * Spec.add exBig 2 3 exa exb i j)) :=
  C21_sum_squares2 exA_rep exB_rep 2 3 exBig exSched_ok

/-! ## C30 -/

/-- **C30.**  `bml_reorder(A,perm)`: element `(perm i, perm j)` of the result is element
`(i,j)` of `A`. -/
theorem C30_reorder {N : Nat} {A : Ell R} {a : Spec.Mat R} (hA : A.Represents N a)
    {perm : Arr Nat} (hp : IsPerm N perm) {sc0 sc1 sc2 : Sched} (h0 : IsSched 0 N sc0)
    (h1 : IsSched 0 N sc1) (h2 : IsSched 0 N sc2) (jv : Nat → R) (ji : Nat → Nat) :
    ∃ A', reorder A perm sc0 sc1 sc2 jv ji = .ok A' ∧ A'.M = A.M ∧ A'.WF ∧
      ∀ i j : Nat, i < N → j < N →
        A'.getElement (perm.get i) (perm.get j) = .ok (a i j) := by
  have hR := represents_iff.1 hA
  obtain ⟨A', e, h⟩ := Res.wp_exists (wp_reorder (E := False) hR hp h0 h1 h2 jv ji)
  -- the inverse permutation
  have hex : ∀ r, ∃ i, r < N → i < N ∧ perm.get i = r := by
    intro r
    by_cases hr : r < N
    · obtain ⟨i, hi⟩ := hp.surj hr; exact ⟨i, fun _ => hi⟩
    · exact ⟨0, fun h => absurd h hr⟩
  choose inv hinv using hex
  have hrep := rep_reorder hR hp h (a' := fun r c => a (inv r) (inv c)) (by
    intro i j hi hj
    have h1 := hinv (perm.get i) (hp.lt i hi)
    have h2 := hinv (perm.get j) (hp.lt j hj)
    rw [hp.inj _ _ h1.1 hi h1.2, hp.inj _ _ h2.1 hj h2.2])
  have hrep' := represents_iff.2 hrep
  refine ⟨A', e, h.2.2.1, hrep'.wf, fun i j hi hj => ?_⟩
  rw [hrep'.get _ _ (hp.lt i hi) (hp.lt j hj)]
  have h1 := hinv (perm.get i) (hp.lt i hi)
  have h2 := hinv (perm.get j) (hp.lt j hj)
  rw [hp.inj _ _ h1.1 hi h1.2, hp.inj _ _ h2.1 hj h2.2]

example : ∃ A', reorder exA ⟨3, fun i => (i + 1) % 3⟩ exSched exSched exSched (fun _ => 3)
      (fun _ => 8) = .ok A' ∧ A'.M = 4 ∧ A'.WF ∧
    ∀ i j : Nat, i < 3 → j < 3 →
      A'.getElement (((i + 1) % 3 : Nat)) (((j + 1) % 3 : Nat)) = .ok (exa i j) :=
  C30_reorder exA_rep ⟨by decide, fun i hi => Nat.mod_lt _ (by decide), fun i j hi hj he => by
    simp only at he; omega⟩ exSched_ok exSched_ok exSched_ok _ _

/-! ## C36 -/

/-- **C36.**  The elements left by `bml_add` do not depend on the schedule. -/
theorem C36_add [DecidableEq R] {N : Nat} {A B : Ell R} {a b : Spec.Mat R}
    (hA : A.Represents N a) (hB : B.Represents N b) (α β : R) (big : R → Bool) {sc sc' : Sched}
    (hsc : IsSched 0 N sc) (hsc' : IsSched 0 N sc')
    (hfit : ∀ i, i < N → Spec.rowCount big N (fun i j => α * a i j + β * b i j) i ≤ A.M) :
    ∃ A' A'', Ell.add A B α β big sc = .ok A' ∧ Ell.add A B α β big sc' = .ok A'' ∧
      ∀ i j : Nat, i < N → j < N → A'.getElement i j = A''.getElement i j := by
  obtain ⟨A', e, _, h⟩ := C08_add_all hA hB α β big hsc hfit
  obtain ⟨A'', e', _, h'⟩ := C08_add_all hA hB α β big hsc' hfit
  exact ⟨A', A'', e, e', fun i j hi hj => by rw [h.get i j hi hj, h'.get i j hi hj]⟩

/-- **C36** for `bml_threshold`. -/
theorem C36_threshold {N : Nat} {A : Ell R} {a : Spec.Mat R} (hA : A.Represents N a)
    (big : R → Bool) {sc sc' : Sched} (hsc : IsSched 0 N sc) (hsc' : IsSched 0 N sc') :
    ∃ A' A'', Ell.threshold A big sc = .ok A' ∧ Ell.threshold A big sc' = .ok A'' ∧
      ∀ i j : Nat, i < N → j < N → A'.getElement i j = A''.getElement i j := by
  obtain ⟨A', e, _, h⟩ := C11_threshold hA big hsc (le_refl _)
  obtain ⟨A'', e', _, h'⟩ := C11_threshold hA big hsc' (le_refl _)
  exact ⟨A', A'', e, e', fun i j hi hj => by rw [h.get i j hi hj, h'.get i j hi hj]⟩

/-- **C36** for `bml_multiply_AB`: same elements, or an error under every schedule. -/
theorem C36_multiply_AB {N : Nat} {A B C : Ell R} {a b c : Spec.Mat R}
    (hA : A.Represents N a) (hB : B.Represents N b) (hC : C.Represents N c) (big : R → Bool)
    {sc sc' : Sched} (hsc : IsSched 0 N sc) (hsc' : IsSched 0 N sc') :
    (multAB A B C big sc = .error ∧ multAB A B C big sc' = .error) ∨
    ∃ C' C'', multAB A B C big sc = .ok C' ∧ multAB A B C big sc' = .ok C'' ∧
      ∀ i j : Nat, i < N → j < N → C'.getElement i j = C''.getElement i j := by
  rcases C12_multiply_AB hA hB hC big hsc (le_refl _) with ⟨f, C', e, _, h⟩ | ⟨f, e⟩
  · rcases C12_multiply_AB hA hB hC big hsc' (le_refl _) with ⟨_, C'', e', _, h'⟩ | ⟨f', e'⟩
    · exact Or.inr ⟨C', C'', e, e', fun i j hi hj => by rw [h.get i j hi hj, h'.get i j hi hj]⟩
    · obtain ⟨i, h1, h2, h3⟩ := f'
      have := f i h1 h2
      omega
  · rcases C12_multiply_AB hA hB hC big hsc' (le_refl _) with ⟨f', C'', e', _, h'⟩ | ⟨f', e'⟩
    · obtain ⟨i, h1, h2, h3⟩ := f
      have := f' i h1 h2
      omega
    · exact Or.inl ⟨e, e'⟩

/-- **C36** for `bml_multiply_x2`. -/
theorem C36_x2 {N : Nat} {X C : Ell R} {a c : Spec.Mat R} (hX : X.Represents N a)
    (hC : C.Represents N c) (big : R → Bool) {sc sc' : Sched} (hsc : IsSched 0 N sc)
    (hsc' : IsSched 0 N sc') (hfit : ∀ i, i < N → x2Fill X big a N i ≤ C.M) :
    ∃ C' C'' t, multX2 X C big sc = .ok (C', t) ∧ multX2 X C big sc' = .ok (C'', t) ∧
      ∀ i j : Nat, i < N → j < N → C'.getElement i j = C''.getElement i j := by
  obtain ⟨C', e, _, h⟩ := C13_x2_all hX hC big hsc hfit
  obtain ⟨C'', e', _, h'⟩ := C13_x2_all hX hC big hsc' hfit
  exact ⟨C', C'', _, e, e', fun i j hi hj => by rw [h.get i j hi hj, h'.get i j hi hj]⟩

example : ∃ A' A'', Ell.add exA exB 2 (-3) exBig exSched = .ok A' ∧
    Ell.add exA exB 2 (-3) exBig (seqSched 0 3) = .ok A'' ∧
    ∀ i j : Nat, i < 3 → j < 3 → A'.getElement i j = A''.getElement i j :=
  C36_add exA_rep exB_rep 2 (-3) exBig exSched_ok (isSched_seq 0 3) (by decide)

/-! ## C37 -/

/-- **C37 (partial).**  `bml_fnorm2(A,B)^2` is the sum of the squared differences, when `A` and
`B` have the same capacity, the same empty rows, and `A` stores no explicit zero.  Missing: the
other cases, where it fails. -/
theorem C37_fnorm2_partial [DecidableEq R] {N : Nat} {A B : Ell R} {a b : Spec.Mat R}
    (hA : A.Represents N a) (hB : B.Represents N b) (hM : A.M = B.M) {sc : Sched}
    (hsc : IsSched 0 N sc) (hne : ∀ i, i < N → (A.nnz.get i = 0 ↔ B.nnz.get i = 0))
    (hnz : ∀ i j, i < N → A.Stored i j → a i j ≠ 0) (junk : Nat → R) :
    fnorm2Sq A B sc junk
      = .ok (Spec.total N N (fun i j => (a i j - b i j) * (a i j - b i j))) := by
  have hR := represents_iff.1 hA
  obtain ⟨t, e, h⟩ := Res.wp_exists (wp_fnorm2Sq (E := False) hR
    (represents_iff.1 hB) hM hsc (le_refl _) (fun i _ h => hne i h) (by
      intro i _ hi k hk
      have h1 := hnz i (A.idx.get (i * A.M + k)) hi ⟨k, hk, rfl⟩
      have hm : (A.idx.get (i * A.M + k), A.val.get (i * A.M + k)) ∈ A.row i :=
        mem_rowPre.2 ⟨k, hk, rfl⟩
      rw [← hR.den i _ hi ((hR.good i hi).2 _ hm), SRow.den_of_mem (hR.good i hi).1 hm] at h1
      exact h1) junk)
  rw [e, h, ← Finset.range_eq_Ico]; rfl

example : fnorm2Sq exA exB exSched (fun _ => 5)
    = .ok (Spec.total 3 3 (fun i j => (exa i j - exb i j) * (exa i j - exb i j))) := by
  refine C37_fnorm2_partial exA_rep exB_rep rfl exSched_ok (by decide) ?_ _
  intro i j hi hst
  have hj : j < 3 := by
    obtain ⟨k, hk, he⟩ := hst
    rw [← he]; exact exA_rep.wf.col_lt i k hi hk
  interval_cases i <;> interval_cases j <;> revert hst <;> decide

/-- **C37 fails**: when `B` has an empty row the uninitialised variable `rvalue` is used; here
the norm of the difference of `[1]` and `[0]` is `(1-x)^2` for the memory content `x`. -/
theorem C37_junk_witness (x : Int) :
    fnorm2Sq (ofRows 1 1 (fun _ => [(0, (1 : Int))])) (ofRows 1 1 (fun _ => [])) (seqSched 0 1)
      (fun _ => x) = .ok ((1 - x) * (1 - x)) := by
  have : fnorm2Sq (ofRows 1 1 (fun _ => [(0, (1 : Int))])) (ofRows 1 1 (fun _ => []))
    (seqSched 0 1) (fun _ => x) = .ok (0 + (1 - x) * (1 - x)) := rfl
  rw [this]; simp

/-- **C37 fails** with an explicit zero in `A`: the entry is counted twice. -/
theorem C37_zero_witness :
    fnorm2Sq (ofRows 1 1 (fun _ => [(0, (0 : Int))])) (ofRows 1 1 (fun _ => [(0, 1)]))
      (seqSched 0 1) (fun _ => 0) = .ok 2 := by decide

end Bml.Props
