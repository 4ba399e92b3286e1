import Verif.Props.EllOps
import Verif.Ellpack.Overflow

/-!
# Property theorems: ELLPACK construction, import/export, conversion, introspection
(C06, C29, C32, C33, C35, C48)
-/

namespace Bml.Props

open Bml Bml.Ell

variable {R : Type} [CommRing R]

/-! ## C06 -/

/-- **C06 (partial), import.**  If every row has at most `M` elements above the threshold, the
imported matrix has the elements of the dense array (read in the given order) with the small ones
replaced by zero.  Missing: nothing is reported when a row does not fit, see
`C06_overfull_witness`. -/
theorem C06_import_partial {N M : Nat} (hM : M > 0) {order : Order} {D : Arr R}
    (hD : N * N ≤ D.size) (big : R → Bool) {sc : Sched} (hsc : IsSched 0 N sc)
    (hfit : ∀ i, i < N → Spec.rowCount big N (fun i j => D.get (order.addr i j N)) i ≤ M) :
    ∃ A, importDense order N D big M sc = .ok A ∧ A.M = M ∧
      A.Represents N (fun i j => Spec.keep big (D.get (order.addr i j N))) := by
  obtain ⟨A, e, h⟩ := Res.wp_exists (wp_import (E := False) hM hD big hsc hfit)
  exact ⟨A, e, h.1, represents_iff.2 (rep_import h)⟩

/-- **C06, export.**  The exported array holds the element `(i,j)` at the position that the
order prescribes. -/
theorem C06_export {N : Nat} {A : Ell R} {a : Spec.Mat R} (hA : A.Represents N a) (order : Order)
    {sc : Sched} (hsc : IsSched 0 N sc) :
    ∃ D, exportDense A order sc = .ok D ∧ D.size = N * N ∧
      ∀ i j, i < N → j < N → D.get (order.addr i j N) = a i j := by
  obtain ⟨D, e, h⟩ := Res.wp_exists (wp_export (E := False) (represents_iff.1 hA) order hsc)
  exact ⟨D, e, h⟩

/-- **C06 (partial), round trip.**  Import in one order, export in another. -/
theorem C06_round_trip_partial {N M : Nat} (hM : M > 0) (order order' : Order) {D : Arr R}
    (hD : N * N ≤ D.size) (big : R → Bool) {sc sc' : Sched} (hsc : IsSched 0 N sc)
    (hsc' : IsSched 0 N sc')
    (hfit : ∀ i, i < N → Spec.rowCount big N (fun i j => D.get (order.addr i j N)) i ≤ M) :
    ∃ D', (do let A ← importDense order N D big M sc
              exportDense A order' sc') = .ok D' ∧ D'.size = N * N ∧
      ∀ i j, i < N → j < N →
        D'.get (order'.addr i j N) = Spec.keep big (D.get (order.addr i j N)) := by
  obtain ⟨A, e, _, h⟩ := C06_import_partial hM hD big hsc hfit
  obtain ⟨D', e', h'⟩ := C06_export h order' hsc'
  exact ⟨D', by rw [e, Res.bind_ok, e'], h'⟩

/-- A dense `3 × 3` array. -/
def exDense : Arr Int := ⟨9, fun q => ([4, 0, -2, 1, 7, 0, 0, 3, 5] : List Int).getD q 0⟩

example : ∃ D', (do let A ← importDense .rowMajor 3 exDense exBig 2 exSched
                    exportDense A .colMajor exSched) = .ok D' ∧ D'.size = 9 ∧
      ∀ i j, i < 3 → j < 3 → D'.get (Order.colMajor.addr i j 3) =
        Spec.keep exBig (exDense.get (Order.rowMajor.addr i j 3)) :=
  C06_round_trip_partial (by decide) .rowMajor .colMajor (by decide) exBig exSched_ok exSched_ok
    (by decide)

example : (do let A ← importDense .rowMajor 3 exDense exBig 2 exSched
              let D ← exportDense A .colMajor exSched
              pure ((List.range 9).map D.get)) = .ok [4, 0, 0, 0, 7, 3, -2, 0, 5] := by decide

/-- **C06 fails** when a row has more than `M` kept elements: the import is accepted silently.
Here `M = 1`; the second element of row 0 is overwritten by row 1 and reads as zero. -/
theorem C06_overfull_witness :
    (do let A ← importDense .rowMajor 2 (⟨4, fun q => [5, 6, 7, 0].getD q 0⟩ : Arr Int) exBig 1
          (seqSched 0 2)
        A.getElement 0 1) = .ok 0 := by decide

/-- **C06 fails** when the last row does not fit: the import writes past the end of the
arrays. -/
theorem C06_overfull_ub_witness :
    importDense .rowMajor 2 (⟨4, fun q => [5, 0, 7, 8].getD q 0⟩ : Arr Int) exBig 1
      (seqSched 0 2) = .ub := rfl

/-! ## C29 -/

/-- **C29 (partial).**  `bml_convert` to ELLPACK reproduces the elements of the source if
`M ≥ N`.  Missing: `M < N`, where it fails although the nonzeros of every row may fit, see
`C29_narrow_fails`. -/
theorem C29_convert_partial {N M : Nat} (hM : M > 0) (hNM : N ≤ M) {get : Nat → Nat → Res R}
    {a : Spec.Mat R} (hget : ∀ i j, i < N → j < N → get i j = .ok (a i j)) :
    ∃ B, convertFrom get N M = .ok B ∧ B.M = M ∧ B.Represents N a := by
  obtain ⟨B, e, h1, h2⟩ := Res.wp_exists (wp_convertFrom (E := False) hM hNM hget)
  exact ⟨B, e, h1, represents_iff.2 h2⟩

/-- The same with an ELLPACK source. -/
theorem C29_convert_ellpack_partial {N M : Nat} (hM : M > 0) (hNM : N ≤ M) {A : Ell R}
    {a : Spec.Mat R} (hA : A.Represents N a) :
    ∃ B, convertFrom (fun i j => A.getElement i j) N M = .ok B ∧ B.M = M ∧ B.Represents N a :=
  C29_convert_partial hM hNM (fun i j hi hj => hA.get i j hi hj)

example : ∃ B, convertFrom (fun i j => exA.getElement i j) 3 5 = .ok B ∧ B.M = 5 ∧
    B.Represents 3 exa :=
  C29_convert_ellpack_partial (by decide) (by decide) exA_rep

/-- **C29 fails** for every source matrix when `M < N`: the conversion never returns normally,
even if the source has no nonzero element at all. -/
theorem C29_narrow_fails {N M : Nat} (hNM : M < N) (get : Nat → Nat → Res R) (B : Ell R) :
    convertFrom get N M ≠ .ok B :=
  fun h => convertFrom_not_ok hNM get B h

/-- Concretely: converting the `2 × 2` zero matrix with `M = 1`. -/
theorem C29_narrow_witness :
    convertFrom (fun i j => (zeroMatrix 2 1 : Ell Int).getElement i j) 2 1 = .ub := rfl

/-! ## C32 -/

/-- **C32**, zero matrix. -/
theorem C32_zero {N M : Nat} (hM : M > 0) :
    ∃ A : Ell R, newZero N M = .ok A ∧ A.M = M ∧ A.Represents N Spec.zero := by
  refine ⟨zeroMatrix N M, by simp [newZero, hM], rfl, represents_iff.2 ?_⟩
  exact zero_rep N M

/-- **C32**: a zero row width is an error. -/
theorem C32_zero_width (N : Nat) : (newZero N 0 : Res (Ell R)) = .error := rfl

/-- **C32**, identity matrix, every schedule. -/
theorem C32_identity {N M : Nat} (hM : M > 0) {sc : Sched} (hsc : IsSched 0 N sc) :
    ∃ A : Ell R, identity N M sc = .ok A ∧ A.M = M ∧ A.Represents N Spec.one := by
  obtain ⟨A, e, h1, h2⟩ := Res.wp_exists (wp_identity (R := R) (E := False) hM hsc)
  exact ⟨A, e, h1, represents_iff.2 h2⟩

example : ∃ A : Ell Int, identity 3 1 exSched = .ok A ∧ A.M = 1 ∧ A.Represents 3 Spec.one :=
  C32_identity (by decide) exSched_ok

/-- **C32**, banded matrix: for every sequence of random values the constructor succeeds, the
result is well-formed (so at most `M` entries per row, no column twice), and an entry in row `i`
and column `j` is stored exactly when `i - M/2 ≤ j < i - M/2 + M`, apart from rows near the
bottom whose band is cut at `N`. -/
theorem C32_banded {N M : Nat} (hM : M > 0) (rv : Nat → Nat → R) {sc : Sched}
    (hsc : IsSched 0 N sc) :
    ∃ (A : Ell R) (a : Spec.Mat R), banded N M rv sc = .ok A ∧ A.M = M ∧ A.Represents N a ∧
      ∀ i j, i < N → j < N → (¬ A.Stored i j → a i j = 0) ∧
        (A.Stored i j → i ≤ j + M / 2 ∧ j < i + M - M / 2) ∧
        (i + M ≤ N + M / 2 → i ≤ j + M / 2 → j < i + M - M / 2 → A.Stored i j) := by
  obtain ⟨A, e, h1, h2, h3, h4⟩ := Res.wp_exists (wp_banded (E := False) hM rv hsc)
  have hR : A.Rep N (fun i j => if bandLo M i ≤ j ∧ j < bandHi N M i then rv i (j - bandLo M i)
      else 0) := rep_of_rowSat h2 h3 (fun i hi =>
        ⟨(h4 i hi).1, by rw [(h4 i hi).2]; exact bandRow_isRow rv hi⟩)
  refine ⟨A, _, e, h1, represents_iff.2 hR, fun i j hi hj => ?_⟩
  have hst : A.Stored i j ↔ bandLo M i ≤ j ∧ j < bandHi N M i := by
    rw [stored_iff, (h4 i hi).2]
    unfold bandRow
    rw [List.map_map, List.mem_map]
    constructor
    · rintro ⟨k, hk, he⟩
      have : k < _ := List.mem_range.1 hk
      simp only [Function.comp] at he
      omega
    · intro hc
      exact ⟨j - bandLo M i, List.mem_range.2 (by omega), by simp only [Function.comp]; omega⟩
  rw [hst]
  unfold bandLo bandHi
  refine ⟨fun h => if_neg h, ?_, ?_⟩
  · split <;> omega
  · intro h1 h2 h3
    rw [if_pos h1]; omega

example : ∃ (A : Ell Int) (a : Spec.Mat Int), banded 3 2 (fun i k => ((i + 2 * k + 1 : Nat) : Int)) exSched =
      .ok A ∧ A.M = 2 ∧ A.Represents 3 a ∧
      ∀ i j, i < 3 → j < 3 → (¬ A.Stored i j → a i j = 0) ∧
        (A.Stored i j → i ≤ j + 2 / 2 ∧ j < i + 2 - 2 / 2) ∧
        (i + 2 ≤ 3 + 2 / 2 → i ≤ j + 2 / 2 → j < i + 2 - 2 / 2 → A.Stored i j) :=
  C32_banded (by decide) _ exSched_ok

/-- **C32**, random matrix: for every sequence of pseudo-random numbers the constructor stays
inside its arrays and returns a well-formed matrix (`Represents` includes: at most `M` entries
per row and no column twice) which stores every diagonal element. -/
theorem C32_random {N M : Nat} (hM : M > 0) (rnd : Nat → Nat) (toR : Nat → R) :
    ∃ (A : Ell R) (a : Spec.Mat R), random N M rnd toR = .ok A ∧ A.M = M ∧ A.Represents N a ∧
      (∀ i, i < N → A.Stored i i) ∧
      ∀ i k k', i < N → k < A.nnz.get i → k' < A.nnz.get i →
        A.idx.get (i * A.M + k) = A.idx.get (i * A.M + k') → k = k' := by
  obtain ⟨A, e, h1, h2, h3, h4⟩ := Res.wp_exists (wp_random (E := False) (N := N) hM rnd toR)
  have hR : A.Rep N (fun i j => (A.row i).den j) := rep_of_rowSat h2 h3 (fun i hi =>
    ⟨(h4 i hi).1, (h4 i hi).2.1, fun j _ => rfl⟩)
  have hR' := represents_iff.2 hR
  refine ⟨A, _, e, h1, hR', fun i hi => stored_iff.2 (h4 i hi).2.2, ?_⟩
  intro i k k' hi
  exact hR'.wf.col_inj i k k' (by rw [hR'.dim]; exact hi)

example : (do let A ← random 3 2 (fun n => [7, 1, 9, 5, 2, 2, 8, 4, 1, 3].getD n 0)
                (fun n => (n : Int))
              pure ((List.range 3).map A.row)) =
    .ok [[(0, 7), (1, 9)], [(1, 2), (2, 8)], [(2, 1), (0, 0)]] := by decide

/-! ## C33 -/

/-- **C33**: `bml_get_row_bandwidth` is the number of columns for which row `i` stores an
entry. -/
theorem C33_row_bandwidth {N : Nat} {A : Ell R} {a : Spec.Mat R} (hA : A.Represents N a) {i : Nat}
    (hi : i < N) : rowBandwidth A i = .ok ((Finset.range N).filter (fun j => A.Stored i j)).card := by
  have hR := represents_iff.1 hA
  unfold rowBandwidth
  rw [read_nnz hR.shape (by rw [hR.dim]; exact hi), ← A.row_length i, ← List.length_map Prod.fst]
  rw [← List.toFinset_card_of_nodup (hR.good i hi).1]
  congr 2
  ext j
  simp only [List.mem_toFinset, Finset.mem_filter, Finset.mem_range, stored_iff]
  constructor
  · intro h
    obtain ⟨p, hp, rfl⟩ := List.mem_map.1 h
    exact ⟨(hR.good i hi).2 p hp, h⟩
  · exact fun h => h.2

/-- **C33**: `bml_get_bandwidth` is their maximum. -/
theorem C33_bandwidth {N : Nat} {A : Ell R} {a : Spec.Mat R} (hA : A.Represents N a) :
    bandwidth A = .ok ((Finset.range N).sup
      (fun i => ((Finset.range N).filter (fun j => A.Stored i j)).card)) := by
  have hR := represents_iff.1 hA
  obtain ⟨m, e, h1, h2⟩ := Res.wp_exists (wp_bandwidth (E := False) hR.shape)
  rw [hR.dim] at h1 h2
  rw [e]
  congr 1
  have hrow : ∀ i, i < N → ((Finset.range N).filter (fun j => A.Stored i j)).card
      = A.nnz.get i := by
    intro i hi
    have := C33_row_bandwidth hA hi
    unfold rowBandwidth at this
    rw [read_nnz hR.shape (by rw [hR.dim]; exact hi)] at this
    exact (Res.ok.inj this).symm
  apply le_antisymm
  · rcases h2 with rfl | ⟨i, hi, rfl⟩
    · exact Nat.zero_le _
    · rw [← hrow i hi]
      exact Finset.le_sup (f := fun i => ((Finset.range N).filter (fun j => A.Stored i j)).card)
        (Finset.mem_range.2 hi)
  · apply Finset.sup_le
    intro i hi
    have hi' := Finset.mem_range.1 hi
    rw [hrow i hi']
    exact h1 i hi'

/-- **C33**, partial: `bml_get_sparsity` is one minus the fraction of elements above the threshold.
Missing: larger matrices (`C33_sparsity_overflow`). -/
theorem C33_sparsity_partial {N : Nat} {A : Ell R} {a : Spec.Mat R} (hA : A.Represents N a)
    (hN : N ≤ 46340) (big : R → Bool) (h0 : big 0 = false) :
    sparsity A big = .ok (1 -
      (((Finset.range N ×ˢ Finset.range N).filter (fun p => big (a p.1 p.2) = true)).card : ℚ)
        / ((N : ℚ) * N)) := by
  have hR := represents_iff.1 hA
  obtain ⟨c, e, h⟩ := Res.wp_exists (wp_sparsityCount (E := False) hR big h0)
  unfold sparsity
  rw [e, Res.bind_ok, hR.dim, h, sparsityOf_ok hN]
  have : ∑ i ∈ Finset.range N, Spec.rowCount big N a i =
      ((Finset.range N ×ˢ Finset.range N).filter (fun p => big (a p.1 p.2) = true)).card := by
    unfold Spec.rowCount
    simp only [Finset.card_filter]
    rw [Finset.sum_product]
  rw [this]
  push_cast
  rfl

/-- **C33 fails** for every ELLPACK matrix with more than 46340 rows: `A_N * A_N` overflows. -/
theorem C33_sparsity_overflow {N : Nat} {A : Ell R} {a : Spec.Mat R} (hA : A.Represents N a)
    (hN : 46341 ≤ N) (big : R → Bool) (h0 : big 0 = false) : sparsity A big = .ub := by
  have hR := represents_iff.1 hA
  obtain ⟨c, e, h⟩ := Res.wp_exists (wp_sparsityCount (E := False) hR big h0)
  unfold sparsity
  rw [e, Res.bind_ok, hR.dim, sparsityOf_ub hN]

/-- A tridiagonal matrix of that size would fit into 2 MB. -/
example : ∃ A : Ell Int, newZero 46341 3 = .ok A ∧ sparsity A exBig = .ub := by
  obtain ⟨A, e, -, h⟩ := C32_zero (R := Int) (N := 46341) (M := 3) (by decide)
  exact ⟨A, e, C33_sparsity_overflow h (le_refl _) exBig (by decide)⟩

example : rowBandwidth exA 1 = .ok 3 := C33_row_bandwidth exA_rep (by decide)
example : bandwidth exA = .ok 3 := C33_bandwidth exA_rep
example : sparsity exA exBig = .ok (1 - 5 / 9) := by
  rw [C33_sparsity_partial exA_rep (by decide) exBig (by decide)]
  have : ((Finset.range 3 ×ˢ Finset.range 3).filter
    (fun p => exBig (exa p.1 p.2) = true)).card = 5 := by decide
  rw [this]; norm_num

/-! ## C35 -/

/-- **C35.**  `bml_element_multiply_AB(A,B,C,t)`, exactly: if some row of `A` has more entries
than a row of `C` can hold, the call is an error; otherwise the rows of this rank become
`A(i,j)*B(i,j)`, thresholded off the diagonal, and the others are unchanged. -/
theorem C35_element_multiply {N lo hi : Nat} {A B C : Ell R} {a b c : Spec.Mat R}
    (hA : A.Represents N a) (hB : B.Represents N b) (hC : C.Represents N c) (big : R → Bool)
    {sc : Sched} (hsc : IsSched lo hi sc) (hhi : hi ≤ N) :
    (∀ i, lo ≤ i → i < hi → A.nnz.get i ≤ C.M) ∧
      (∃ C', elementMultiply A B C big sc = .ok C' ∧ C'.M = C.M ∧ C'.Represents N
        (Spec.onRows lo hi (Spec.keepOff big (fun i j => a i j * b i j)) c)) ∨
    (∃ i, lo ≤ i ∧ i < hi ∧ A.nnz.get i > C.M) ∧ elementMultiply A B C big sc = .error := by
  rcases Res.wp_elim (wp_elementMultiply (represents_iff.1 hA) (represents_iff.1 hB)
    (represents_iff.1 hC) big hsc hhi)
    with ⟨C', e, h1, h2, h3, h4⟩ | ⟨e, i, h1, h2, h3⟩
  · refine Or.inl ⟨fun i hl hh => ?_, C', e, h1, rep_of_onRows h2 h3 (fun i hi' => ?_)⟩
    · have := h4 i (by omega)
      rw [if_pos ⟨hl, hh⟩] at this
      exact this.2.2
    · have := h4 i hi'
      split at this
      · next hc => rw [if_pos hc]; exact ⟨this.1, this.2.1⟩
      · next hc => rw [if_neg hc]; exact this
  · exact Or.inr ⟨⟨i, h1, h2, h3⟩, e⟩

/-- **C35**, all rows, when the rows of `A` fit into `C`. -/
theorem C35_element_multiply_ok {N : Nat} {A B C : Ell R} {a b c : Spec.Mat R}
    (hA : A.Represents N a) (hB : B.Represents N b) (hC : C.Represents N c) (big : R → Bool)
    {sc : Sched} (hsc : IsSched 0 N sc) (hfit : ∀ i, i < N → A.nnz.get i ≤ C.M) :
    ∃ C', elementMultiply A B C big sc = .ok C' ∧ C'.M = C.M ∧ C'.Represents N
        (Spec.keepOff big (fun i j => a i j * b i j)) := by
  rcases C35_element_multiply hA hB hC big hsc (le_refl _) with
    ⟨_, C', e, h1, h2⟩ | ⟨⟨i, _, h1, h2⟩, _⟩
  · exact ⟨C', e, h1, h2.congr (Spec.onRows_all _ _ _)⟩
  · have := hfit i h1; omega

example : ∃ C', elementMultiply exA exB exB exBig exSched = .ok C' ∧ C'.M = 4 ∧ C'.Represents 3
    (Spec.keepOff exBig (fun i j => exa i j * exb i j)) :=
  C35_element_multiply_ok exA_rep exB_rep exB_rep exBig exSched_ok (by decide)

example : elementMultiply exA exB (zeroMatrix 3 2) exBig exSched = .error := by
  rcases C35_element_multiply exA_rep exB_rep
    (represents_iff.2 (zero_rep 3 2)) exBig exSched_ok (le_refl _) with ⟨h, _⟩ | ⟨_, h⟩
  · exact absurd (h 1 (by decide) (by decide)) (by decide)
  · exact h

/-! ## C48 -/

/-- **C48.**  After `bml_clear(A)` every element is zero and `N`, `M` are unchanged; moreover
every read of the cleared matrix's memory, inside or outside the arrays, has the same outcome as
on a freshly allocated zero matrix, so that no later operation can tell the two apart. -/
theorem C48_clear {N : Nat} {A : Ell R} {a : Spec.Mat R} (hA : A.Represents N a) :
    ∃ A', clear A = .ok A' ∧ A'.M = A.M ∧ A'.Represents N Spec.zero ∧
      (∀ q, A'.val.read q = (zeroMatrix N A.M : Ell R).val.read q) ∧
      (∀ q, A'.idx.read q = (zeroMatrix N A.M : Ell R).idx.read q) ∧
      (∀ q, A'.nnz.read q = (zeroMatrix N A.M : Ell R).nnz.read q) := by
  have hR := represents_iff.1 hA
  obtain ⟨A', e, h1, h2, h3, h4⟩ := Res.wp_exists (wp_clear (E := False) hR.shape)
  have hN : A'.N = N := by rw [h1]; exact hR.dim
  have hM : A'.M = A.M := by rw [h1]
  rw [hR.dim] at h3 h4
  refine ⟨A', e, hM, represents_iff.2 (rep_of_empty h2 hN h3), ?_, ?_, ?_⟩
  · intro q
    unfold Arr.read
    rw [h2.val_size, hN, hM]
    show _ = if q < N * A.M then _ else _
    split
    · next hq => rw [(h4 q hq).2]; rfl
    · rfl
  · intro q
    unfold Arr.read
    rw [h2.idx_size, hN, hM]
    show _ = if q < N * A.M then _ else _
    split
    · next hq => rw [(h4 q hq).1]; rfl
    · rfl
  · intro q
    unfold Arr.read
    rw [h2.nnz_size, hN]
    show _ = if q < N then _ else _
    split
    · next hq => rw [h3 q hq]; rfl
    · rfl

example : ∃ A', clear exA = .ok A' ∧ A'.M = 4 ∧ A'.Represents 3 Spec.zero :=
  let ⟨A', h1, h2, h3, _⟩ := C48_clear exA_rep
  ⟨A', h1, h2, h3⟩

end Bml.Props
